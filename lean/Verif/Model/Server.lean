import Verif.Lemmas.ManagerRequest
import Verif.Lemmas.RequestWideRun
import Verif.Lemmas.Transceiver
/-! # Model of the whole server: transceiver, manager and requests together

The composition of `Model/Transceiver.lean` (transceiver.cpp), `Model/Manager.lean` (manager.cpp) and
`Model/Request.lean` or `Model/RequestWide.lean` (request.cpp), connected as in manager.cpp 34-60 (the transceiver's `m_sendMessage` is
`Manager_base::push`) and manager.hpp 317-332 (`makeRequest` configures requests with `Transceiver::send`).
The transceiver's thread, any number of handler threads, any number of threads calling callbacks of requests, and
the peers take steps in any order.  Simplification: what a handler thread sends while handling one message
is computed in one step and then passed to `Transceiver::send()` record by record, with steps of the others
in between; nothing the user's code does depends on the transceiver. -/
namespace Fcgi.Model
open Fcgi.Spec

/-- The records a request has sent since it was made. -/
class Transmits (Q : Type) where
  sent : Q → List (Nat × Bytes × Bool)

instance {U} : Transmits (Req U) := ⟨fun q => sentOf q.log⟩
instance {U} : Transmits (ReqW U) := ⟨fun q => sentOfW q.log⟩

/-- What the server is made of: the number of handler threads, the user's request class (how requests are made for a connection and id with
a role and the flag to close the connection, and what they do with a message), and the contents of fresh memory. -/
structure SrvProg (Q : Type) where
  threads : Nat
  fresh : Nat → UInt16 → UInt16 → Bool → Q
  handle : Q → Message → Res (Q × Bool)
  recvHeap : Nat → UInt8              -- fresh memory of the transceiver
  replyHeap : Nat → UInt8             -- fresh memory of management replies

/-- A server for a class derived from `Request<char>` (Model/Request): the user's methods, the greatest POST size, the members when
constructed, and fresh memory of requests. -/
def narrowServer {U} (threads : Nat) (h : Handlers U) (maxPost : Nat) (user : U) (heap : Nat → Nat → Nat → UInt8) (recvHeap replyHeap : Nat → UInt8) :
    SrvProg (Req U) where
  threads := threads
  fresh sock id role kill := freshReq sock id role kill maxPost user
  handle := handleMsg h heap
  recvHeap := recvHeap
  replyHeap := replyHeap

/-- A server for a class derived from `Request<wchar_t>` (Model/RequestWide). -/
def wideServer {U} (threads : Nat) (h : HandlersW U) (maxPost : Nat) (user : U) (host : Host) (recvHeap replyHeap : Nat → UInt8) :
    SrvProg (ReqW U) where
  threads := threads
  fresh sock id role kill := freshReqW sock id role kill maxPost user
  handle := handleMsgW h host
  recvHeap := recvHeap
  replyHeap := replyHeap

/-- The servers that can be made with the library: `Manager<RequestT>` for a class derived from `Request<char>` or `Request<wchar_t>`. -/
class inductive OfLibrary : {Q : Type} → [Transmits Q] → SrvProg Q → Prop where
  | narrow {U} (threads) (h : Handlers U) (maxPost) (user) (heap) (recvHeap) (replyHeap) :
      OfLibrary (narrowServer threads h maxPost user heap recvHeap replyHeap)
  | wide {U} (threads) (h : HandlersW U) (maxPost) (user) (host) (recvHeap) (replyHeap) :
      OfLibrary (wideServer threads h maxPost user host recvHeap replyHeap)

/-- manager.hpp 317-332 `Manager::makeRequest`. -/
def SrvProg.prog {Q} (P : SrvProg Q) : Prog (Option Q) := kindProg P.threads P.fresh P.handle

/-- The transceiver, the manager with its requests, how many of the transceiver's messages it has passed to
`push`, what each handler thread has yet to pass to `send`, and the handler threads in the endless loop of
manager.cpp 162-221 with what they send in each round. -/
structure Srv (U : Type) where
  t : TSt
  m : MSt (Option U)
  given : Nat
  out : Nat → List (Nat × Bytes × Bool)
  loops : Nat → Option (List (Nat × Bytes × Bool))

def srvInit {U} : Srv U where
  t := TSt.init
  m := mInit none
  given := 0
  out := fun _ => []
  loops := fun _ => none

/-- After a step of the transceiver: sockets closed by it are closed for the manager too (they share
`Socket::Data`, sockets.hpp 70-104). -/
def Srv.withT {U} (s : Srv U) (t : TSt) : Srv U :=
  { s with t := t, m := { s.m with invalid := fun x => !(t.conns x).valid } }

/-- manager.cpp 141-252 `localHandler`: what it sends in answer to a management message, and whether it does so
again and again. -/
def mgmtSends (g : Nat → UInt8) (m : Message) (socket : Nat) : List (Nat × Bytes × Bool) × Bool :=
  if m.type = 0 then
    match localHandler 1 m.data (g 7) (garbage (fun i => g (9 + i)) 7) with
    | .done l => (l.map fun d => (socket, d, false), false)
    | .running l => (l.map fun d => (socket, d, false), true)
    | .ub _ => ([], false)
  else ([], false)

/-- What handler thread `t` sends in its step from `m` to `m'`: the records a request sends while handling a
message (request.cpp 33-55, 216-242), or answers to a management message. -/
def sendsOf {U} [Transmits U] (g : Nat → UInt8) (t : Nat) (m m' : MSt (Option U)) : List (Nat × Bytes × Bool) × Bool :=
  match m.th t with
  | .work _ r _ =>
    match (m.objs r).state, (m'.objs r).state with
    | some q, some q' => ((Transmits.sent q').drop (Transmits.sent q).length, false)
    | _, _ => ([], false)
  | .popped k =>
    if k.id = 0 then
      match m.messages with
      | (msg, socket) :: _ => mgmtSends g msg socket
      | [] => ([], false)
    else ([], false)
  | _ => ([], false)

/-- What peers do: send bytes, hang up. -/
def TOp.byPeer : TOp → Bool
  | .arrive _ _ => true
  | .hangup _ => true
  | _ => false

/-- What the transceiver's thread does: read and write (transceiver.cpp 32-86, 134-203). -/
def TOp.byThread : TOp → Bool
  | .receive _ _ _ => true
  | .tx _ => true
  | _ => false

/-- What else can happen around the manager: start, stop, terminate, join, spurious wake-ups and messages by callbacks of
requests (not of type 0, which is for FastCGI records: message.hpp 38-45; request.hpp 203-217), by threads with numbers from 1. -/
def Outer.around : Outer → Bool
  | .close _ => false
  | .push p k m => p ≠ 0 && m.type ≠ 0 && k.id ≠ 0 && k.id ≠ 0xffff
  | _ => true

/-- A step of the server, with the manager's events and the transceiver's operations in it. -/
inductive SrvStep {U} [Transmits U] (P : SrvProg U) : Srv U → List MEvent → List TOp → Srv U → Prop where
  /-- A peer does something. -/
  | peer {s : Srv U} {t'} (op : TOp) (ho : op.byPeer = true) (h : op.step P.recvHeap s.t = .ok t') : SrvStep P s [] [op] (s.withT t')
  /-- The transceiver's thread reads or writes; before that all messages have been passed to `push`, which has returned. -/
  | net {s : Srv U} {t'} (op : TOp) (ho : op.byThread = true) (hi : s.m.pu 0 = .idle) (hg : s.given = s.t.msgs.length)
      (h : op.step P.recvHeap s.t = .ok t') : SrvStep P s [] [op] (s.withT t')
  /-- The transceiver's thread calls `push` (its number as a caller is 0). -/
  | give {s : Srv U} {es m'} (x : Msg) (hx : s.t.msgs[s.given]? = some x)
      (h : estep P.prog (.push 0 x.id ⟨0, x.data⟩) s.m = some (es, m')) : SrvStep P s es [] { s with m := m', given := s.given + 1 }
  /-- A handler thread. -/
  | work {s : Srv U} {es m'} (t : Nat) (ho : s.out t = []) (hl : s.loops t = none) (h : hstep P.prog t s.m = some (es, m')) :
      SrvStep P s es [] { s with
        m := m'
        out := put s.out t (sendsOf P.replyHeap t s.m m').1
        loops := put s.loops t (if (sendsOf P.replyHeap t s.m m').2 then some (sendsOf P.replyHeap t s.m m').1 else none) }
  /-- A handler thread passes a record to the transceiver. -/
  | send {s : Srv U} (t : Nat) (x : Nat × Bytes × Bool) (rest) (ho : s.out t = x :: rest) :
      SrvStep P s [] [.send x.1 x.2.1 x.2.2] { s with t := send s.t x.1 x.2.1 x.2.2, out := put s.out t rest }
  /-- A handler thread in the endless loop begins its next round. -/
  | again {s : Srv U} (t : Nat) (l) (ho : s.out t = []) (hl : s.loops t = some l) : SrvStep P s [] [] { s with out := put s.out t l }
  /-- A step of a call of `push`. -/
  | pusher {s : Srv U} {es m'} (p w : Nat) (h : pstep P.prog p w s.m = some (es, m')) : SrvStep P s es [] { s with m := m' }
  | outer {s : Srv U} {es m'} (e : Outer) (he : e.around = true) (h : estep P.prog e s.m = some (es, m')) :
      SrvStep P s es [] { s with m := m' }

/-- A run of the server: any interleaving of any length. -/
inductive SrvRun {U} [Transmits U] (P : SrvProg U) : Srv U → List MEvent → List TOp → Srv U → Prop where
  | refl (s) : SrvRun P s [] [] s
  | step {s tr ops s' es os s''} (run : SrvRun P s tr ops s') (h : SrvStep P s' es os s'') : SrvRun P s (tr ++ es) (ops ++ os) s''

end Fcgi.Model
