import Verif.Base
/-! # Specification vocabulary for the database connections

Queries are numbered in the order they are accepted, from 0.  The events are what can be seen from outside. -/
namespace Fcgi.Spec

inductive QEvent where
  /-- `queue()` accepts a query. -/
  | accepted (q : Nat)
  /-- The query is given to the connection with this socket. -/
  | sent (q sock : Nat)
  /-- A connection refused to take the query. -/
  | refused (q : Nat)
  /-- The query's callback is called; the `Results` object holds the result of this execution of the query (counted
  from 1), if any. -/
  | called (q : Nat) (run : Option Nat)
  /-- A connection is lost. -/
  | dropped (sock : Nat)
  | started | stopped | terminated
  /-- The thread ends. -/
  | ended
  deriving DecidableEq

/-- The queries accepted, given to a connection, and called back: in order. -/
def acceptedIn (tr : List QEvent) : List Nat := tr.filterMap fun e => match e with | .accepted q => some q | _ => none
def sentIn (tr : List QEvent) : List Nat := tr.filterMap fun e => match e with | .sent q _ => some q | _ => none
def calledIn (tr : List QEvent) : List Nat := tr.filterMap fun e => match e with | .called q _ => some q | _ => none

/-- The queries accepted after a call of `stop()`. -/
def lateIn : List QEvent → List Nat
  | [] => []
  | .stopped :: tr => acceptedIn tr
  | _ :: tr => lateIn tr

/-- No connection was lost. -/
def noLoss (tr : List QEvent) : Prop := ∀ c, QEvent.dropped c ∉ tr

/-- No connection refused a query. -/
def noRefusal (tr : List QEvent) : Prop := ∀ q, QEvent.refused q ∉ tr

end Fcgi.Spec
