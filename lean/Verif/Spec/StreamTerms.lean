import Verif.Model.Streams
import Verif.Model.ChunkWide
import Verif.Spec.Text
/-! # Specification: the words of the theorems about the stream buffers -/
namespace Fcgi.Model
open Fcgi Fcgi.Spec
variable {α : Type}

/-- What `enc` does to one character. -/
def encode1 {α} (table : Enc → α → Option (List α)) (e : Enc) (c : α) : List α :=
  if e = .none then [c] else (table e c).getD [c]

/-- The table never makes an escape longer than a buffer, and its output converts. -/
def TableOk (good : α → Prop) (table : Enc → α → Option (List α)) : Prop :=
  ∀ e c, good c → 1 ≤ (encode1 table e c).length ∧ (encode1 table e c).length ≤ 8 ∧
    ∀ x ∈ encode1 table e c, good x

/-- The bytes a sequence of operations should produce. -/
def expected (table : Enc → α → Option (List α)) (cv : α → Bytes) : Enc → List (SOp α) → Bytes
  | _, [] => []
  | e, .insert s :: ops => (s.flatMap (encode1 table e)).flatMap cv ++ expected table cv e ops
  | e, .put c :: ops => cv c ++ expected table cv e ops
  | e, .flush :: ops => expected table cv e ops
  | _, .setEnc e :: ops => expected table cv e ops
  | e, .dump d :: ops => d ++ expected table cv e ops
  | e, .dumpStream d :: ops => d ++ expected table cv e ops

/-- All characters written are good. -/
def SOpGood (good : α → Prop) : SOp α → Prop
  | .insert s => ∀ c ∈ s, good c
  | .put c => good c
  | _ => True

def convertible (utf8 : UInt32 → Option Bytes) (cv : UInt32 → Bytes) (c : UInt32) : Prop := utf8 c = some (cv c) ∧ 1 ≤ (cv c).length ∧ (cv c).length ≤ 4

end Fcgi.Model
