import Verif.Model.Server
/-! # What the server does by itself

The steps of Model/Server that do not come from outside (peers, start, stop, callbacks of requests, spurious wake-ups), with a kernel
that does not refuse to do anything: sockets are read from only if there is something to be read or the peer has hung up (that
is what `epoll_wait` reports, poll.cpp 70-107), and reads and writes succeed, at least in part, or fail with an error. -/
namespace Fcgi.Model
open Fcgi.Spec

/-- The kernel hands over at least a byte if there is one (or says that there will be none), or reports an error. -/
def KRead.moves : KRead → Prop
  | .give n => n ≠ 0
  | .again => False
  | .err => True

/-- The kernel takes at least a byte, or reports an error. -/
def KWrite.moves : KWrite → Prop
  | .accept n => n ≠ 0
  | .again => False
  | .err => True

/-- A step of the server on its own. -/
inductive OwnStep {U} [Transmits U] (P : SrvProg U) : Srv U → List MEvent → List TOp → Srv U → Prop where
  /-- transceiver.cpp 134-191: the transceiver's thread reads from a connection with something to read. -/
  | read {s : Srv U} {t'} (c : Nat) (k1 k2 : KRead) (hi : s.m.pu 0 = .idle) (hg : s.given = s.t.msgs.length)
      (hv : (s.t.conns c).valid = true) (hr : (s.t.conns c).input ≠ [] ∨ (s.t.conns c).closing = true) (h1 : k1.moves) (h2 : k2.moves)
      (h : receive P.recvHeap s.t c k1 k2 = .ok t') : OwnStep P s [] [.receive c k1 k2] (s.withT t')
  /-- transceiver.cpp 32-73: it has something to write. -/
  | write {s : Srv U} (k : KWrite) (hi : s.m.pu 0 = .idle) (hg : s.given = s.t.msgs.length) (hq : s.t.queue ≠ [] ∨ s.t.pc ≠ .loop)
      (hk : k.moves) : OwnStep P s [] [.tx k] (s.withT (txStep s.t k))
  /-- It calls `push`. -/
  | give {s : Srv U} {es m'} (x : Msg) (hx : s.t.msgs[s.given]? = some x)
      (h : estep P.prog (.push 0 x.id ⟨0, x.data⟩) s.m = some (es, m')) : OwnStep P s es [] { s with m := m', given := s.given + 1 }
  /-- A handler thread. -/
  | work {s : Srv U} {es m'} (t : Nat) (ho : s.out t = []) (hl : s.loops t = none) (h : hstep P.prog t s.m = some (es, m')) :
      OwnStep P s es [] { s with
        m := m'
        out := put s.out t (sendsOf P.replyHeap t s.m m').1
        loops := put s.loops t (if (sendsOf P.replyHeap t s.m m').2 then some (sendsOf P.replyHeap t s.m m').1 else none) }
  /-- A handler thread passes a record to the transceiver. -/
  | send {s : Srv U} (t : Nat) (x : Nat × Bytes × Bool) (rest) (ho : s.out t = x :: rest) :
      OwnStep P s [] [.send x.1 x.2.1 x.2.2] { s with t := send s.t x.1 x.2.1 x.2.2, out := put s.out t rest }
  /-- A step of a call of `push`. -/
  | pusher {s : Srv U} {es m'} (p w : Nat) (h : pstep P.prog p w s.m = some (es, m')) : OwnStep P s es [] { s with m := m' }

/-- Any number of them. -/
inductive OwnRun {U} [Transmits U] (P : SrvProg U) : Srv U → List MEvent → List TOp → Srv U → Prop where
  | refl (s) : OwnRun P s [] [] s
  | step {s tr ops s' es os s''} (run : OwnRun P s tr ops s') (h : OwnStep P s' es os s'') : OwnRun P s (tr ++ es) (ops ++ os) s''

/-- The server has nothing left to do: no step of its own is possible, and no thread is in the endless loop of manager.cpp 162-221. -/
def SrvRest {U} [Transmits U] (P : SrvProg U) (s : Srv U) : Prop := (∀ es os s', ¬ OwnStep P s es os s') ∧ ∀ t, s.loops t = none

end Fcgi.Model
