import Verif.Model.Sockets
/-! # Model of listening on the inherited socket and on network ports (src/sockets.cpp 160-171, 187-225, 311-368)

The descriptors of one process with any number of socket groups.  Named sockets are modelled in `Model/Listen.lean`. -/
namespace Fcgi.Model

/-- What a descriptor stands for: a socket that is bound to an address or is not, and is being listened on or is not; something else. -/
inductive FdKind where
  | sock (addr : Option Nat) (listening : Bool)
  | other
  deriving DecidableEq

/-- The descriptors that are open, and `m_listeners` (sockets.hpp 412) of each group. -/
structure FdWorld where
  fds : Nat → Option FdKind
  groups : Nat → List Nat

def FdWorld.put (w : FdWorld) (fd : Nat) (k : Option FdKind) : FdWorld := { w with fds := fun n => if n = fd then k else w.fds n }
def FdWorld.add (w : FdWorld) (g fd : Nat) : FdWorld := { w with groups := fun i => if i = g then (if fd ∈ w.groups g then w.groups g else w.groups g ++ [fd]) else w.groups i }

/-- `::listen(fd, 100)` (system): sockets can be listened on, if the system agrees. -/
def FdWorld.sysListen (w : FdWorld) (fd : Nat) (agrees : Bool) : Option FdWorld :=
  match w.fds fd with
  | some (.sock a _) => if agrees then some (w.put fd (some (.sock a true))) else none
  | _ => none

/-- sockets.cpp 204-226 `listen()`, of the group `g`; O_NONBLOCK is left out. -/
def FdWorld.listenDefault (w : FdWorld) (g : Nat) (agrees : Bool) : Bool × FdWorld :=
  if 0 ∉ w.groups g then
    match w.sysListen 0 agrees with
    | none => (false, w)
    | some w => (true, w.add g 0)
  else (false, w)

/-- What the system answers for address number `i`: a new descriptor if a socket is made; whether `bind` and `listen` succeed. -/
structure TcpOs where
  socket : Nat → Option Nat
  bind : Nat → Bool
  listen : Nat → Bool

/-- sockets.cpp 341-352: the loop, from address `i` of `n` on; the descriptor found, and the world after. -/
inductive TcpTry (n : Nat) (os : TcpOs) : Option Nat → FdWorld → Option Nat → FdWorld → Prop where
  | finish {w} : TcpTry n os none w none w
  | noSocket {i w r w'} (h : os.socket i = none) (rest : TcpTry n os (nextListen n i) w r w') : TcpTry n os (some i) w r w'
  | hit {i w fd} (h : os.socket i = some fd) (free : w.fds fd = none) (hb : os.bind i = true) (hl : os.listen i = true) :
      TcpTry n os (some i) w (some fd) (((w.put fd (some (.sock none false))).put fd (some (.sock (some i) false))).put fd (some (.sock (some i) true)))
  | miss {i w fd r w'} (h : os.socket i = some fd) (free : w.fds fd = none) (hb : os.bind i = false ∨ os.listen i = false)
      (rest : TcpTry n os (nextListen n i) ((w.put fd (some (.sock none false))).put fd none) r w') : TcpTry n os (some i) w r w'

/-- sockets.cpp 311-368 `listen(interface, service)`: `n` is the number of addresses `getaddrinfo` finds, 0 if it fails; `given` whether `service` is not null. -/
inductive ListenTcp (given : Bool) (n : Nat) (os : TcpOs) (g : Nat) (w : FdWorld) : Bool → FdWorld → Prop where
  | noService (h : given = false) : ListenTcp given n os g w false w
  | unresolved (h : given = true) (hn : n = 0) : ListenTcp given n os g w false w
  | fails {w'} (h : given = true) (hn : 0 < n) (t : TcpTry n os (some 0) w none w') : ListenTcp given n os g w false w'
  | listens {fd w'} (h : given = true) (hn : 0 < n) (t : TcpTry n os (some 0) w (some fd) w') : ListenTcp given n os g w true (w'.add g fd)

/-- sockets.cpp 160-168 of `~SocketGroup`: each listener is closed.  A new group can take its place. -/
def FdWorld.destroy (w : FdWorld) (g : Nat) : FdWorld :=
  { fds := fun n => if n ∈ w.groups g then none else w.fds n, groups := fun i => if i = g then [] else w.groups i }

/-- What happens in a process. -/
inductive FdEvent where
  | default (g : Nat) (result : Bool)
  | tcp (g : Nat) (given : Bool) (n : Nat) (os : TcpOs) (result : Bool)
  | destroy (g : Nat)
  /-- The rest of the program opens a file with this descriptor, ... -/
  | open_ (fd : Nat) (k : FdKind)
  /-- ... and closes one of its own. -/
  | close (fd : Nat)

inductive FdStep : FdWorld → FdEvent → FdWorld → Prop where
  | default {w g} (agrees : Bool) : FdStep w (.default g (w.listenDefault g agrees).1) (w.listenDefault g agrees).2
  | tcp {w g given n os r w'} (h : ListenTcp given n os g w r w') : FdStep w (.tcp g given n os r) w'
  | destroy {w} (g : Nat) : FdStep w (.destroy g) (w.destroy g)
  | open_ {w fd} (k : FdKind) (h : w.fds fd = none) : FdStep w (.open_ fd k) (w.put fd (some k))
  | close {w fd} (h : ∀ g, fd ∉ w.groups g) : FdStep w (.close fd) (w.put fd none)

/-- A history, newest last, from a process started with these descriptors and no groups. -/
inductive FdRun (fds : Nat → Option FdKind) : List FdEvent → FdWorld → Prop where
  | start : FdRun fds [] ⟨fds, fun _ => []⟩
  | step {tr w e w'} (run : FdRun fds tr w) (h : FdStep w e w') : FdRun fds (tr ++ [e]) w'

end Fcgi.Model
