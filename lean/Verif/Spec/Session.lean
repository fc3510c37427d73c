import Verif.Base
/-! # Specification: a session store -/
namespace Fcgi.Spec

/-- What happens to a session store, as its users see it. -/
inductive SessionEvent (T : Type) where
  | generated (id : Bytes) (d : T) (now : Int)
  | got (id : Bytes) (now refreshed : Int) (result : Option T)
  | erased (id : Bytes)

/-- For each identifier ever generated and not erased since: its data and when it was last used. -/
abbrev Ledger (T : Type) := Bytes → Option (T × Int)

def Ledger.set {T} (l : Ledger T) (id : Bytes) (v : Option (T × Int)) : Ledger T := fun i => if i = id then v else l i

/-- The session is known and was last used no more than `keepAlive` seconds ago. -/
def Ledger.live {T} (l : Ledger T) (keepAlive : Nat) (id : Bytes) (now : Int) : Option T :=
  match l id with
  | some (d, last) => if now - keepAlive ≤ last then some d else none
  | none => none

/-- Every event is what the store's description promises: `get` returns the data exactly when the session is
live, and renews it; a new identifier is not that of a live session. -/
def Faithful {T} (keepAlive : Nat) : Ledger T → List (SessionEvent T) → Prop
  | _, [] => True
  | l, .generated id d now :: es => l.live keepAlive id now = none ∧ Faithful keepAlive (l.set id (some (d, now))) es
  | l, .got id now refreshed result :: es =>
    result = l.live keepAlive id now ∧
      Faithful keepAlive (match result with | some d => l.set id (some (d, refreshed)) | none => l) es
  | l, .erased id :: es => Faithful keepAlive (l.set id none) es

/-- The uses of sessions since a time: the identifiers generated or successfully looked up, one entry for each use. -/
def usesSince {T} (since : Int) (es : List (SessionEvent T)) : List Bytes := es.filterMap fun
  | .generated id _ now => if since ≤ now then some id else none
  | .got id _ refreshed (some _) => if since ≤ refreshed then some id else none
  | _ => none

end Fcgi.Spec
