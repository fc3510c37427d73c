import Verif.Spec.Http
import Verif.Spec.Wire
import Verif.Model.Request
/-! # Specification: a whole request as a browser and a web server send it (for C148) -/
namespace Fcgi.Spec
open Fcgi.Model

/-- What the body of a request with the CGI variables `nvs` says: text fields, and files with name, content type and content. -/
inductive FormBody (nvs : List (Bytes × Bytes)) : Bytes → List (Bytes × Bytes) → List (Bytes × Bytes × Bytes × Bytes) → Prop
  | empty : FormBody nvs [] [] []
  | urlencoded {body fields t} (type : lastValue b!"CONTENT_TYPE" nvs = some t) (name : t.takeWhile (· ≠ 59) = b!"application/x-www-form-urlencoded")
      (text : FormText body fields) : FormBody nvs body fields []
  | multipart {boundary parts} (type : lastValue b!"CONTENT_TYPE" nvs = some (b!"multipart/form-data" ++ b!"; boundary=" ++ boundary))
      (wf : BoundaryWF boundary) (parts_wf : ∀ p ∈ parts, p.WF boundary) :
      FormBody nvs (multipart boundary parts) (textFields parts) (fileParts parts)

/-- The announced length of the body is its length. -/
def LengthTold (nvs : List (Bytes × Bytes)) (n : Nat) : Prop :=
  (n = 0 ∧ lastValue b!"CONTENT_LENGTH" nvs = none) ∨ ∃ v, lastValue b!"CONTENT_LENGTH" nvs = some v ∧ IsDecimal v n

/-- The role that a BEGIN_REQUEST record names. -/
def Record.role (b : Record) : Nat := 256 * (b.content.getD 0 0).toNat + (b.content.getD 1 0).toNat

/-- What an application writes, and whether it is finished: it is given messages one after the other until it says that it is finished. -/
def played {U : Type} (resp : U → Env → Message → Act U × Bool) : U → Env → List Message → List (Bool × SOp UInt8) × Bool
  | _, _, [] => ([], false)
  | u, env, m :: ms =>
    let a := resp u env m
    if a.2 then (a.1.ops, true) else (a.1.ops ++ (played resp a.1.user a.1.env ms).1, (played resp a.1.user a.1.env ms).2)

end Fcgi.Spec
