import Verif.Spec.Manager
import Verif.Spec.Request
/-! # Specification vocabulary for the server -/
namespace Fcgi.Spec
open Fcgi.Model

/-- The messages of callbacks among the inputs of a request. -/
def callbacks : List Input → List Message
  | [] => []
  | .record _ :: l => callbacks l
  | .callback t d :: l => ⟨t, d⟩ :: callbacks l

/-- The messages that callbacks sent to requests with connection and id `k` and that were taken in, in order; messages of type 0 are records. -/
def called (k : RequestId) (tr : List MEvent) : List Message :=
  tr.filterMap fun e => match e with
    | .accepted _ k' m => if k' = k ∧ m.type ≠ 0 then some m else none
    | _ => none

/-- What a record says to its receiver: everything but the byte `reserved`, the contents of the padding and, of END_REQUEST (type 3), the reserved bytes
after the status. -/
def Record.meaning (r : Record) : UInt8 × UInt8 × Nat × Nat × Bytes × Nat :=
  (r.version, r.type, r.id, r.content.length, if r.type = 3 then r.content.take 5 else r.content, r.padding.length)

end Fcgi.Spec
