import Verif.Base
/-! # Specification vocabulary for waking, sending and stopping the transceiver's thread

The events are what can be seen from outside: calls that have taken effect, the thread going to sleep in the
operating system's wait, `SocketGroup::poll()` returning, records being queued and written. -/
namespace Fcgi.Spec

inductive WEvent where
  /-- A call of `SocketGroup::wake()` has done its work. -/
  | woke
  /-- The thread goes to sleep: nothing is ready and the wait has no timeout. -/
  | slept
  /-- `SocketGroup::poll()` returns. -/
  | returned
  /-- A record is put in the send queue. -/
  | queued (r : Nat)
  /-- All of a record has been given to the socket, or the socket refused it for good. -/
  | written (r : Nat)
  /-- A connection is let in; or closed at once. -/
  | admitted
  | refused
  /-- The thread ends. -/
  | ended
  deriving DecidableEq

/-- A wake-up nobody has answered yet: no return of `poll` since the last `wake`. -/
def unanswered (tr : List WEvent) : Bool :=
  tr.foldl (fun w e => match e with | .woke => true | .returned => false | _ => w) false

/-- Nobody goes to sleep over a wake-up. -/
def Wakeful (tr : List WEvent) : Prop := ∀ before after, tr = before ++ .slept :: after → unanswered before = false

/-- The records queued and written, in order. -/
def queuedIn (tr : List WEvent) : List Nat := tr.filterMap fun e => match e with | .queued r => some r | _ => none
def writtenIn (tr : List WEvent) : List Nat := tr.filterMap fun e => match e with | .written r => some r | _ => none

end Fcgi.Spec
