import Verif.Spec.EndToEnd
import Verif.Model.RequestWide
/-! # What an application with wide characters writes over several calls (for C149) -/
namespace Fcgi.Spec
open Fcgi.Model

/-- What an application with wide characters writes, and whether it is finished: it is given messages one after the other until it says that it is
finished. -/
def playedW {U : Type} (resp : U → EnvW → Message → ActW U × Bool) : U → EnvW → List Message → List (Bool × SOp UInt32) × Bool
  | _, _, [] => ([], false)
  | u, env, m :: ms =>
    let a := resp u env m
    if a.2 then (a.1.ops, true) else (a.1.ops ++ (playedW resp a.1.user a.1.env ms).1, (playedW resp a.1.user a.1.env ms).2)

end Fcgi.Spec
