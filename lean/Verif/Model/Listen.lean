import Verif.Base
/-! # Model of listening on named sockets (src/sockets.cpp 160-171, 226-309)

Any number of processes, each with a socket group, share a file system.  A path is the text of its name (links and other names for the
same file are left out); a file is a socket, a directory that cannot be removed, or anything else.  Sockets are numbered in the order in
which they are made. -/
namespace Fcgi.Model

/-- What a name leads to. -/
inductive FNode where
  | sock (id : Nat) (uid gid mode : Nat)   -- a socket's name, with its owner and permissions
  | other                                  -- another file that `remove` can remove
  | dir                                    -- one that it cannot
  deriving DecidableEq, Repr

/-- sockets.hpp 412, 442: m_listeners and m_filenames. -/
structure LGroup where
  listeners : List Nat := []
  names : List Bytes := []

structure LWorld where
  fs : Bytes → Option FNode
  next : Nat                    -- the number of the next socket
  opened : List Nat             -- the sockets not closed
  groups : Nat → LGroup

/-- What the operating system answers: which of the calls are allowed, the owner and permissions of a new file, the users and groups
there are. -/
structure ListenOs where
  removes : Bytes → Bool := fun _ => true
  socket : Bool := true
  bind : Bool := true
  chown : Bool := true
  chmod : Bool := true
  listen : Bool := true
  uid : Nat := 0
  gid : Nat := 0
  mode : Nat := 0o755
  user : Bytes → Option Nat := fun _ => none
  grp : Bytes → Option Nat := fun _ => none

def fsPut (fs : Bytes → Option FNode) (name : Bytes) (x : Option FNode) : Bytes → Option FNode := fun n => if n = name then x else fs n

/-- `std::remove(name)`: `none` is an error other than ENOENT. -/
def LWorld.remove (w : LWorld) (os : ListenOs) (name : Bytes) : Option LWorld :=
  match w.fs name with
  | none => some w
  | some .dir => none
  | some _ => if os.removes name then some { w with fs := fsPut w.fs name none } else none

/-- `std::remove(name)` where the result is not looked at. -/
def LWorld.tryRemove (w : LWorld) (os : ListenOs) (name : Bytes) : LWorld := (w.remove os name).getD w

/-- `::close(fd)` -/
def LWorld.close (w : LWorld) (s : Nat) : LWorld := { w with opened := w.opened.filter (· ≠ s) }

/-- sockets.cpp 250-253: `sun_path` has 108 bytes, `strncpy` leaves the last one alone. -/
def sunPath (name : Bytes) : Bytes := name.take 107

/-- sockets.cpp 257-260 `bind`: fails if there is such a name.  (An empty one is an abstract name: no file is made.) -/
def LWorld.bind (w : LWorld) (os : ListenOs) (s : Nat) (path : Bytes) : Option LWorld :=
  if os.bind ∧ w.fs path = none then
    some (if path = [] then w else { w with fs := fsPut w.fs path (some (.sock s os.uid os.gid os.mode)) })
  else none

/-- sockets.cpp 270-283.  The result of `getpwnam` or `getgrnam` is a null pointer for an unknown name, and is used all the same
(the outcome `ub`).  The inner `none` is the failure of `chown`. -/
def LWorld.chown (w : LWorld) (os : ListenOs) (name : Bytes) (owner group : Option Bytes) : Res (Option LWorld) :=
  match owner, group with
  | some o, some g =>
    match os.user o, os.grp g with
    | some u, some v =>
      match w.fs name with
      | none => .ok none
      | some (.sock s _ _ m) => if os.chown then .ok (some { w with fs := fsPut w.fs name (some (.sock s u v m)) }) else .ok none
      | some _ => if os.chown then .ok (some w) else .ok none
    | _, _ => .ub .oobRead
  | _, _ => .ok (some w)

/-- sockets.cpp 286-296; `chmod` uses the low 12 bits. -/
def LWorld.chmod (w : LWorld) (os : ListenOs) (name : Bytes) (permissions : UInt32) : Option LWorld :=
  if permissions ≠ 0xffffffff then
    match w.fs name with
    | none => none
    | some (.sock s u v _) => if os.chmod then some { w with fs := fsPut w.fs name (some (.sock s u v (permissions.toNat % 4096))) } else none
    | some _ => if os.chmod then some w else none
  else some w

/-- sockets.cpp 226-309 `listen(name, permissions, owner, group)` of group `g`: what it returns, and the world after it. -/
def LWorld.listenName (w : LWorld) (os : ListenOs) (g : Nat) (name : Bytes) (permissions : UInt32) (owner group : Option Bytes) : Res (Bool × LWorld) :=
  match w.remove os name with
  | none => .ok (false, w)
  | some w =>
    if os.socket then
      let s := w.next
      let w := { w with next := s + 1, opened := s :: w.opened }
      match w.bind os s (sunPath name) with
      | none => .ok (false, (w.close s).tryRemove os name)
      | some w =>
        match w.chown os name owner group with
        | .ub k => .ub k
        | .stuck => .stuck
        | .ok none => .ok (false, w.close s)
        | .ok (some w) =>
          match w.chmod os name permissions with
          | none => .ok (false, w.close s)
          | some w =>
            if os.listen then
              .ok (true, { w with groups := fun i => if i = g then { listeners := (w.groups g).listeners ++ [s], names := (w.groups g).names ++ [name] } else w.groups i })
            else .ok (false, w.close s)
    else .ok (false, w)

/-- sockets.cpp 160-171 `~SocketGroup`: the listeners are closed, the files removed.  A new group can take its place. -/
def LWorld.destroy (w : LWorld) (os : ListenOs) (g : Nat) : LWorld :=
  let w1 := (w.groups g).listeners.foldl LWorld.close w
  let w2 := (w.groups g).names.foldl (fun w n => w.tryRemove os n) w1
  { w2 with groups := fun i => if i = g then {} else w2.groups i }

/-- The process of a group ends without its destructor: the kernel closes its sockets, the files stay. -/
def LWorld.crash (w : LWorld) (g : Nat) : LWorld :=
  let w1 := (w.groups g).listeners.foldl LWorld.close w
  { w1 with groups := fun i => if i = g then {} else w1.groups i }

/-- What happens. -/
inductive LOp where
  | listen (os : ListenOs) (g : Nat) (name : Bytes) (permissions : UInt32) (owner group : Option Bytes)
  | destroy (os : ListenOs) (g : Nat)
  | crash (g : Nat)
  /-- somebody else makes a file, or removes one -/
  | file (name : Bytes) (isDir : Bool)
  | unlink (name : Bytes)

/-- One of these; `listen` returns something. -/
def LOp.step (w : LWorld) : LOp → Res (Option Bool × LWorld)
  | .listen os g name p o gr => do let r ← w.listenName os g name p o gr; return (some r.1, r.2)
  | .destroy os g => .ok (none, w.destroy os g)
  | .crash g => .ok (none, w.crash g)
  | .file name isDir => .ok (none, { w with fs := fsPut w.fs name (some (if isDir then .dir else .other)) })
  | .unlink name => .ok (none, { w with fs := fsPut w.fs name none })

/-- A history: what the calls returned, and the world after it. -/
def lrun : LWorld → List LOp → Res (List (Option Bool) × LWorld)
  | w, [] => .ok ([], w)
  | w, op :: ops => do
    let r ← op.step w
    let s ← lrun r.2 ops
    return (r.1 :: s.1, s.2)

/-- Before anything was done. -/
def lInit (fs : Bytes → Option FNode) : LWorld := ⟨fs, 0, [], fun _ => {}⟩

end Fcgi.Model
