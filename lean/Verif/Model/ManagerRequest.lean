import Verif.Model.Manager
import Verif.Model.Request
/-! # The manager with the requests of the request model -/
namespace Fcgi.Model
open Fcgi.Spec

/-- manager.hpp 317-332 `makeRequest` with manager.cpp 379-393 (role and kill flag of the record's body), and
request.cpp 57-162: what the manager is used with, for requests made by `fresh` that handle messages by `act`.  `none` is a request
in which undefined behaviour has occurred.  (`getD`: bytes past the record's end are flagged by `push`.) -/
def kindProg {Q} (threads : Nat) (fresh : Nat → UInt16 → UInt16 → Bool → Q) (act : Q → Message → Res (Q × Bool)) : Prog (Option Q) where
  threads := threads
  make k d := some (fresh k.socket k.id ((d.getD 8 0).toUInt16 * 256 + (d.getD 9 0).toUInt16) ((d.getD 10 0) &&& 1 == 0))
  handle x m :=
    match x with
    | none => (none, true)
    | some r =>
      match act r m with
      | .ok y => (some y.1, y.2)
      | _ => (none, true)

/-- With the requests of the request model: `Request<char>`. -/
def requestProg {U} (threads : Nat) (h : Handlers U) (g : Nat → Nat → Nat → UInt8) (maxPost : Nat) (u : U) : Prog (Option (Req U)) :=
  kindProg threads (fun sock id role kill => freshReq sock id role kill maxPost u) (handleMsg h g)

end Fcgi.Model
