import Verif.Model.Request
import Verif.Spec.Request
import Verif.Spec.Http
import Verif.Spec.Address
import Verif.Spec.Wire
/-! # Specification: the words of the theorems about a request (Request<char>) -/
namespace Fcgi.Model
open Fcgi Fcgi.Spec

abbrev one : UInt8 → Bytes := fun c => [c]

abbrev good8 : UInt8 → Prop := fun _ => True

def writes (err : Bool) : List Ev → List (SOp UInt8)
  | [] => []
  | .write e op :: l => if e = err then op :: writes err l else writes err l
  | _ :: l => writes err l

def sentOf : List Ev → List (Nat × Bytes × Bool)
  | [] => []
  | .sent s r k :: l => (s, r, k) :: sentOf l
  | _ :: l => sentOf l

def callsOf : List Ev → List Call
  | [] => []
  | .call c :: l => c :: callsOf l
  | _ :: l => callsOf l

/-- A record as a message for the request. -/
def fcgiMsg (x : Record) : Message := ⟨0, x.bytes⟩

/-- An input as the message it arrives as. -/
def _root_.Fcgi.Spec.Input.message : Input → Message
  | .record r => fcgiMsg r
  | .callback t d => ⟨t, d⟩

/-- Handlers that leave the announced length and the raw data alone. -/
structure Tame {U} (h : Handlers U) : Prop where
  inHandler : ∀ u e n, (h.inHandler u e n).env.contentLength = e.contentLength ∧ (h.inHandler u e n).env.postBuffer = e.postBuffer
  response : ∀ u e m, (h.response u e m).1.env.contentLength = e.contentLength ∧ (h.response u e m).1.env.postBuffer = e.postBuffer

/-- The parameter's value can be parsed: digits for the numeric variables, the text of an address for addresses. -/
def ParamOk (nv : Bytes × Bytes) : Prop :=
  (nv.1 ∈ [b!"SERVER_PORT", b!"REMOTE_PORT", b!"CONTENT_LENGTH", b!"HTTP_KEEP_ALIVE", b!"HTTP_IF_NONE_MATCH"] →
    ∃ n ≤ 2147483647, IsDecimal nv.2 n) ∧
  (nv.1 ∈ [b!"SERVER_ADDR", b!"REMOTE_ADDR"] → ∃ a, AddrText nv.2 a)

/-- A PARAMS record made of whole pairs. -/
structure WholePairs (x : Record) (items : List ((Bytes × Bytes) × Bytes)) : Prop where
  wf : x.WF
  type : x.type = 4
  nonempty : x.content ≠ []
  content : x.content = items.flatMap Prod.snd
  enc : ∀ i ∈ items, EncPair i.1 i.2
  ok : ∀ i ∈ items, ParamOk i.1
  padded : EndsColons x.padding

/-- No record of the input can make the library's parameter parser misbehave. -/
def ParamsOk (i : Input) : Prop :=
  ∀ x, i = .record x → x.type = 4 → x.content ≠ [] → ∃ items, WholePairs x items

/-- The fold the loop performs over encoded pairs, each with the bytes that follow it in memory. -/
def fillPairs (tail : Bytes) : List ((Bytes × Bytes) × Bytes) → Env → Res Env
  | [], env => .ok env
  | (nv, _) :: rest, env => do
    let env ← fillStep env nv.1 nv.2 (rest.flatMap Prod.snd ++ tail)
    fillPairs tail rest env

/-- What an act writes to `out` (or to `err`). -/
def writtenOn {α} (err : Bool) (l : List (Bool × SOp α)) : List (SOp α) := (l.filter (fun o => o.1 = err)).map Prod.snd

end Fcgi.Model
