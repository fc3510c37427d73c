import Verif.Model.Session
import Verif.Spec.Session
import Verif.Model.Base64
import Verif.Spec.Base64
/-! # Specification: the words of the theorems about sessions -/
namespace Fcgi.Model
open Fcgi Fcgi.Spec

/-- The character codes of six-bit values. -/
def code64 (v : Nat) : Int := ((char64 v).toNat : Int)

/-- Characters as the decoder sees them. -/
def codes (text : Bytes) : List Int := text.map fun c => (c.toNat : Int)

/-- The calls of a history in order, with what they return. -/
def sessionRun {T} : Sessions T → List (SessionCall T) → Res (Sessions T × List (SessionEvent T))
  | s, [] => .ok (s, [])
  | s, .generate d draws :: cs => do
    let r ← s.generate d draws
    let x ← sessionRun r.1 cs
    return (x.1, .generated r.2.data d r.2.timestamp :: x.2)
  | s, .get id now t1 t2 :: cs => do
    let r := s.get id now t1 t2
    let x ← sessionRun r.1 cs
    return (x.1, .got id now t2 r.2 :: x.2)
  | s, .erase id :: cs => do
    let x ← sessionRun (s.erase id) cs
    return (x.1, .erased id :: x.2)

/-- The clock readings of a call, in order. -/
def clockReadings {T} : SessionCall T → List Int
  | .generate _ draws => draws.map Prod.snd
  | .get _ now t1 t2 => [now, t1, t2]
  | .erase _ => []

end Fcgi.Model
