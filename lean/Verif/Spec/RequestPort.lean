import Verif.Spec.RequestWide
import Verif.Model.RequestWide
/-! # What it means that two applications, one with narrow and one with wide characters, do the same -/
namespace Fcgi.Spec
open Fcgi.Model

/-- The narrow operations that write what a wide one does: the same text in UTF-8. -/
def narrowOp : SOp UInt32 → List (SOp UInt8)
  | .insert t => [.insert (utf8Text t)]
  | .put c => (utf8Encode c.toNat).map .put
  | .flush => [.flush]
  | .setEnc e => [.setEnc e]
  | .dump d => [.dump d]
  | .dumpStream d => [.dumpStream d]

/-- Two handlers did the same: the wide one wrote text, the narrow one the same text in UTF-8, and the environments and the applications'
own states they leave correspond. -/
structure SameAct {U V} (R : U → V → Prop) (P : Env → Prop) (a : Act U) (b : ActW V) : Prop where
  ops : a.ops = b.ops.flatMap fun p => (narrowOp p.2).map (p.1, ·)
  text : ∀ p ∈ b.ops, WritesText p.2
  env : SameEnv a.env b.env
  user : R a.user b.user
  holds : P a.env

/-- Two applications do the same, as far as environments with `P` go. -/
structure SameApps {U V} (R : U → V → Prop) (P : Env → Prop) (h : Handlers U) (H : HandlersW V) : Prop where
  error : ∀ u v e w, R u v → P e → SameEnv e w → SameAct R P (h.error u e) (H.error v w)
  bigPost : ∀ u v e w, R u v → P e → SameEnv e w → SameAct R P (h.bigPost u e) (H.bigPost v w)
  unknownContent : ∀ u v e w, R u v → P e → SameEnv e w → SameAct R P (h.unknownContent u e) (H.unknownContent v w)
  inHandler : ∀ u v e w n, R u v → P e → SameEnv e w → SameAct R P (h.inHandler u e n) (H.inHandler v w n)
  inProcessor : ∀ u v e w, R u v → P e → SameEnv e w →
    SameAct R P (h.inProcessor u e).1 (H.inProcessor v w).1 ∧ (h.inProcessor u e).2 = (H.inProcessor v w).2
  response : ∀ u v e w m, R u v → P e → SameEnv e w →
    SameAct R P (h.response u e m).1 (H.response v w m).1 ∧ (h.response u e m).2 = (H.response v w m).2

/-- The same call. -/
inductive SameCall : Call → CallW → Prop where
  | error : SameCall .error .error
  | bigPost : SameCall .bigPost .bigPost
  | unknownContent : SameCall .unknownContent .unknownContent
  | inHandler (n) : SameCall (.inHandler n) (.inHandler n)
  | inProcessor {e w} (h : SameEnv e w) : SameCall (.inProcessor e) (.inProcessor w)
  | response {e w} (h : SameEnv e w) (m) : SameCall (.response e m) (.response w m)

/-- While the narrow application handles these messages, its handlers only see environments with `P`. -/
def Sees {U} (P : Env → Prop) (h : Handlers U) (g : Nat → Nat → Nat → UInt8) (r : Req U) (ms : List Message) : Prop :=
  ∀ ms1 ms2 r' rest fin, ms = ms1 ++ ms2 → handler h g r ms1 = .ok (r', rest, fin) →
    P r'.env ∧ ∀ e m, Ev.call (.response e m) ∈ r'.log → P e

end Fcgi.Spec
