import Verif.Model.Email
import Verif.Spec.Text
/-! # What an email is to carry -/
namespace Fcgi.Spec
open Fcgi.Model

/-- The text of an email: what was inserted, each piece in the encoding set at that time (`encode` says how a character is written in an
encoding), and the single characters put. -/
def emailText {α : Type} (encode : Enc → α → List α) : Enc → List (EmailOp α) → List α
  | _, [] => []
  | e, .insert s :: ops => s.flatMap (encode e) ++ emailText encode e ops
  | e, .put c :: ops => c :: emailText encode e ops
  | _, .setEnc e :: ops => emailText encode e ops
  | e, .flush :: ops => emailText encode e ops
  | e, .to_ _ :: ops => emailText encode e ops
  | e, .sender _ :: ops => emailText encode e ops

/-- The address set last, if any. -/
def lastTo {α : Type} (ops : List (EmailOp α)) : List α :=
  ((ops.filterMap fun op => match op with | .to_ a => some a | _ => none).getLast?).getD []

def lastSender {α : Type} (ops : List (EmailOp α)) : List α :=
  ((ops.filterMap fun op => match op with | .sender a => some a | _ => none).getLast?).getD []

end Fcgi.Spec
