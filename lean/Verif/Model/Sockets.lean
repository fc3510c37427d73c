import Verif.Spec.Sockets
/-! # Model of socket handles (include/fastcgi++/sockets.hpp 62-247, src/sockets.cpp 43-138, 379-451, 534-604)

One thread (sockets.hpp 260: only `wake()` may be called by others).  Numbers name the shared data of a connection
(`Socket::Data`), the descriptors, and the handle objects a user of the group has. -/
namespace Fcgi.Model
open Fcgi.Spec

/-- sockets.hpp 70-104 `Socket::Data` -/
structure SData where
  fd : Nat
  valid : Bool
  closing : Bool
  deriving DecidableEq

/-- sockets.hpp 107-110 `Socket` -/
structure Handle where
  data : Option Nat
  original : Bool
  deriving DecidableEq

structure SkSt where
  datas : Nat → SData
  next : Nat
  handles : Nat → Option Handle
  map : List (Nat × Handle)           -- SocketGroup::m_sockets
  owner : Nat → Option Nat            -- the operating system's descriptors
  ended : Bool                        -- the group has been destroyed

def skInit : SkSt := ⟨fun _ => ⟨0, false, false⟩, 0, fun _ => none, [], fun _ => none, false⟩

/-- sockets.hpp 229-232 `Socket::valid` -/
def SkSt.valid (s : SkSt) (h : Handle) : Bool :=
  match h.data with
  | some d => (s.datas d).valid
  | none => false

def SkSt.setData (s : SkSt) (d : Nat) (x : SData) : SkSt := { s with datas := fun e => if e = d then x else s.datas e }

/-- sockets.cpp 116-119, 132-136: `shutdown`, removal from the poll set, `close`, `m_valid = false` -/
def SkSt.shut (s : SkSt) (d : Nat) : List SEvent × SkSt :=
  let fd := (s.datas d).fd
  ([.closed d fd (s.owner fd)],
   { s.setData d { s.datas d with valid := false } with owner := fun x => if x = fd then none else s.owner x })

/-- sockets.cpp 128-138 `~Socket` -/
def SkSt.destruct (s : SkSt) (h : Handle) : List SEvent × SkSt :=
  match h.data with
  | some d => if h.original && (s.datas d).valid then s.shut d else ([], s)
  | none => ([], s)

/-- sockets.cpp 120: `m_sockets.erase(fd)`, which destroys the handle in the map. -/
def SkSt.erase (s : SkSt) (fd : Nat) : List SEvent × SkSt :=
  match s.map.lookup fd with
  | none => ([], s)
  | some h =>
    let s1 := { s with map := s.map.filter (fun e => e.1 ≠ fd) }
    s1.destruct h

/-- sockets.cpp 112-126 `Socket::close` -/
def SkSt.close (s : SkSt) (h : Handle) : List SEvent × SkSt :=
  match h.data with
  | some d =>
    if (s.datas d).valid then
      let x := s.shut d
      let y := x.2.erase (s.datas d).fd
      (x.1 ++ y.1, y.2)
    else ([], s)
  | none => ([], s)

/-- sockets.cpp 43-56 the constructor for a new connection (whose descriptor is `fd`), with `m_poll.add` failing
unless `added`; then 596-598, 414-416, 448-450 `m_sockets.emplace(fd, Socket(fd, *this))`: if there is an entry for
`fd` already, the new handle is destroyed. -/
def SkSt.adopt (s : SkSt) (fd : Nat) (added : Bool) : List SEvent × SkSt :=
  let d := s.next
  let h : Handle := ⟨some d, true⟩
  let s1 := { s.setData d ⟨fd, true, false⟩ with
    next := d + 1, owner := fun x => if x = fd then some d else s.owner x }
  let x := if added then ([], s1) else s1.close h
  let y := if (x.2.map.lookup fd).isSome then x.2.destruct h else ([], { x.2 with map := (fd, h) :: x.2.map })
  (.opened d fd :: (x.1 ++ y.1), y.2)

/-- What the operating system answers to `read` and `send`. -/
inductive SkAns where
  | some (n : Nat) | again | error
  deriving DecidableEq

/-- What is done with handles. -/
inductive SkOp where
  | accept (fd : Nat) (added : Bool)              -- sockets.cpp 568-604 createSocket
  | connect (fd : Nat) (added : Bool) (h : Nat)   -- sockets.cpp 379-451: the result goes to handle `h`
  | poll (fd h : Nat)                             -- sockets.cpp 545: the result of poll() goes to `h`
  | hangup (fd : Nat)                             -- sockets.cpp 527-540
  | default (h : Nat)                             -- sockets.cpp 606-609
  | copy (h g : Nat)                              -- sockets.hpp 193-196: `h` is made as a copy of `g`
  | assign (h g : Nat)                            -- sockets.hpp 202-207
  | move (h g : Nat)                              -- sockets.hpp 215-220
  | drop (h : Nat)                                -- sockets.cpp 128-138
  | close (h : Nat)
  | read (h : Nat) (a : SkAns)                    -- sockets.cpp 58-89
  | write (h : Nat) (a : SkAns)                   -- sockets.cpp 91-110
  | finish                                        -- the end of the group: the map is destroyed, entry after entry
  deriving DecidableEq

def SkSt.put (s : SkSt) (h : Nat) (x : Option Handle) : SkSt := { s with handles := fun i => if i = h then x else s.handles i }

/-- Destruction of the handles in the map, one after the other. -/
def SkSt.clear (s : SkSt) : List (Nat × Handle) → List SEvent × SkSt
  | [] => ([], s)
  | (_, h) :: rest =>
    let x := s.destruct h
    let y := x.2.clear rest
    (x.1 ++ y.1, y.2)

/-- The result of an operation: the system calls, the value returned by read and write, the new state.  `none`: the
operation is not possible (no such object, or the descriptor is in use). -/
def skStep (o : SkOp) (s : SkSt) : Option (List SEvent × Option Int × SkSt) :=
  match o with
  | .accept fd added =>
    if s.ended = false ∧ s.owner fd = none then
      let x := s.adopt fd added
      some (x.1, none, x.2)
    else none
  | .connect fd added h =>
    if s.ended = false ∧ s.owner fd = none ∧ s.handles h = none then
      let x := s.adopt fd added
      match x.2.map.lookup fd with
      | some g => some (x.1, none, x.2.put h (some ⟨g.data, false⟩))
      | none => none
    else none
  | .poll fd h =>
    if s.ended = false ∧ s.handles h = none then
      match s.map.lookup fd with
      | some g => some ([], none, s.put h (some ⟨g.data, false⟩))
      | none => none
    else none
  | .hangup fd =>
    match s.map.lookup fd with
    | some ⟨some d, _⟩ => if s.ended = false then some ([], none, s.setData d { s.datas d with closing := true }) else none
    | _ => none
  | .default h => if s.handles h = none then some ([], none, s.put h (some ⟨none, false⟩)) else none
  | .copy h g =>
    match s.handles h, s.handles g with
    | none, some x => some ([], none, s.put h (some ⟨x.data, false⟩))
    | _, _ => none
  | .assign h g =>
    match s.handles h, s.handles g with
    | some _, some x => some ([], none, s.put h (some ⟨x.data, false⟩))
    | _, _ => none
  | .move h g =>
    match s.handles h, s.handles g with
    | none, some x => some ([], none, (s.put h (some x)).put g (some { x with original := false }))
    | _, _ => none
  | .drop h =>
    match s.handles h with
    | some x => let y := s.destruct x; some (y.1, none, y.2.put h none)
    | none => none
  | .close h =>
    match s.handles h with
    | some x => let y := s.close x; some (y.1, none, y.2)
    | none => none
  | .read h a =>
    match s.handles h with
    | some x =>
      match x.data with
      | some d =>
        if (s.datas d).valid then
          let fd := (s.datas d).fd
          let io := SEvent.io d fd (s.owner fd)
          match a with
          | .again => some ([io], some 0, s)
          | .error => let y := s.close x; some (io :: y.1, some (-1), y.2)
          | .some n =>
            if n = 0 ∧ (s.datas d).closing = true then let y := s.close x; some (io :: y.1, some (-1), y.2)
            else some ([io], some n, s)
        else some ([], some (-1), s)
      | none => some ([], some (-1), s)
    | none => none
  | .write h a =>
    match s.handles h with
    | some x =>
      match x.data with
      | some d =>
        if (s.datas d).valid && !(s.datas d).closing then
          let fd := (s.datas d).fd
          let io := SEvent.io d fd (s.owner fd)
          match a with
          | .again => some ([io], some 0, s)
          | .error => let y := s.close x; some (io :: y.1, some (-1), y.2)
          | .some n => some ([io], some n, s)
        else some ([], some (-1), s)
      | none => some ([], some (-1), s)
    | none => none
  | .finish => if s.ended = false then let x := s.clear s.map; some (x.1, none, { x.2 with map := [], ended := true }) else none

inductive SkRun : SkSt → List SEvent → SkSt → Prop where
  | refl (s) : SkRun s [] s
  | step {s tr s' es v s''} (run : SkRun s tr s') (o : SkOp) (h : skStep o s' = some (es, v, s'')) : SkRun s (tr ++ es) s''

/-! ### Trying the addresses found by the resolver -/

/-- sockets.cpp 354 `i=result->ai_next` in `listen(interface, service)`: the address tried after number `i` of `n`. -/
def nextListen (n _i : Nat) : Option Nat := if 1 < n then some 1 else none

/-- sockets.cpp 427 `i=result->ai_next==i?nullptr:result->ai_next` in `connect(host, service)`. -/
def nextConnect (n i : Nat) : Option Nat := if 1 < n then (if i = 1 then none else some 1) else none

/-- sockets.cpp 353-368, 426-436: the loop, with `ok i` if address `i` can be bound (connected to), from `i`; the result is the address
used, if any.  `result` is not null after a success of `getaddrinfo`. -/
inductive Search (next : Nat → Option Nat) (ok : Nat → Bool) : Option Nat → Option Nat → Prop where
  | none : Search next ok none none
  | hit {i} (h : ok i = true) : Search next ok (some i) (some i)
  | miss {i r} (h : ok i = false) (rest : Search next ok (next i) r) : Search next ok (some i) r

end Fcgi.Model
