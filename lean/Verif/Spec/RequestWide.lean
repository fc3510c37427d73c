import Verif.Spec.HttpWide
import Verif.Model.Streams
/-! # What an application with wide characters writes -/
namespace Fcgi.Spec
open Fcgi.Model

/-- The operation on a wide stream writes Unicode text, or no text at all. -/
def WritesText : SOp UInt32 → Prop
  | .insert s => IsText s
  | .put c => isScalar c
  | _ => True

end Fcgi.Spec
