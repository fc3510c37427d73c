import Verif.Model.Request
/-! # Specification vocabulary for the manager: what can be observed of a run

The events are what an observer standing outside the manager's data structures sees: request objects being
made and destroyed, messages being taken in or thrown away, and the user's code starting and finishing the
treatment of a message. -/
namespace Fcgi.Spec
open Fcgi.Model

inductive MEvent where
  /-- A request object, named by a number, is made for a request id because of a message. -/
  | created (r : Nat) (k : RequestId) (m : Message)
  /-- A message for a request id is put in the queue of a request. -/
  | accepted (r : Nat) (k : RequestId) (m : Message)
  /-- A message is thrown away since there is no such request. -/
  | dropped (k : RequestId) (m : Message)
  /-- A thread starts handling a message of the request. -/
  | began (r : Nat) (t : Nat) (m : Message)
  /-- It has finished; `complete` says that the request is over (its END_REQUEST has been sent). -/
  | ended (r : Nat) (t : Nat) (m : Message) (complete : Bool)
  /-- The request object is destroyed. -/
  | removed (r : Nat)
  /-- The loss of a connection found the request busy. -/
  | spared (r : Nat)
  /-- The loss of a connection is announced. -/
  | lost (socket : Nat)
  /-- A management record is taken in and later handled. -/
  | noted (m : Message) (socket : Nat)
  | managed (m : Message) (socket : Nat)
  /-- A handler thread ends. -/
  | finished (t : Nat)
  deriving DecidableEq

/-- The messages accepted for request object `r`, in order. -/
def acceptedBy (r : Nat) (tr : List MEvent) : List Message :=
  tr.filterMap fun e => match e with
    | .accepted r' _ m => if r' = r then some m else none
    | _ => none

/-- The messages of `r` whose handling began, in order. -/
def begunBy (r : Nat) (tr : List MEvent) : List Message :=
  tr.filterMap fun e => match e with
    | .began r' _ m => if r' = r then some m else none
    | _ => none

/-- The messages of `r` whose handling ended, in order. -/
def endedBy (r : Nat) (tr : List MEvent) : List Message :=
  tr.filterMap fun e => match e with
    | .ended r' _ m _ => if r' = r then some m else none
    | _ => none

/-- A request on its own: the state after the messages `ms` have been handled one after the other, starting
with the state made from the BEGIN_REQUEST record `m0` for the id `k`. -/
def alone {σ : Type} (make : RequestId → Bytes → σ) (handle : σ → Message → σ × Bool) (k : RequestId) (m0 : Message)
    (ms : List Message) : σ :=
  ms.foldl (fun x m => (handle x m).1) (make k m0.data)

/-- An observer watching the handling of one request. -/
inductive Watch where
  /-- Nobody is handling a message. -/
  | free
  /-- This thread is handling this message. -/
  | busy (t : Nat) (m : Message)
  /-- The request is over. -/
  | over
  /-- Handling by two threads at once, or after completion or destruction. -/
  | wrong
  deriving DecidableEq

def Watch.see (r : Nat) (w : Watch) (e : MEvent) : Watch :=
  match e with
  | .began r' t m => if r' = r then (if w = .free then .busy t m else .wrong) else w
  | .ended r' t m c => if r' = r then (if w = .busy t m then (if c then .over else .free) else .wrong) else w
  | .removed r' => if r' = r then (if w = .free ∨ w = .over then .over else .wrong) else w
  | _ => w

/-- What the observer of `r` concludes. -/
def watch (r : Nat) (tr : List MEvent) : Watch := tr.foldl (Watch.see r) .free

/-- A FastCGI record (message type 0) of type BEGIN_REQUEST (1). -/
def isBegin (m : Message) : Bool := m.type = 0 && m.data[1]? == some 1

/-- Which request object serves which request id. -/
abbrev Serving := RequestId → Option Nat

def Serving.see (c : Serving) : MEvent → Serving
  | .created r k _ => fun k' => if k' = k then some r else c k'
  | .removed r => fun k' => if c k' = some r then none else c k'
  | _ => c

def serving (tr : List MEvent) : Serving := tr.foldl Serving.see (fun _ => none)

/-- An event that the routing rules allow, given what happened before: a request is created only by a
BEGIN_REQUEST record for an id not in use, with a new name; only records for ids not in use that are not BEGIN_REQUEST
are dropped; a message is put in the queue of the request serving its id; and a request is removed only while
it serves some id. -/
def Routed (tr : List MEvent) : MEvent → Prop
  | .created r k m => isBegin m = true ∧ serving tr k = none ∧ (∀ k' m', .created r k' m' ∉ tr)
  | .dropped k m => isBegin m = false ∧ serving tr k = none
  | .accepted r k _ => serving tr k = some r
  | .removed r => ∃ k, serving tr k = some r
  | _ => True

/-- All events of the trace are allowed. -/
def WellRouted (tr : List MEvent) : Prop := ∀ before e after, tr = before ++ e :: after → Routed before e

end Fcgi.Spec
