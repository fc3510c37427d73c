import Verif.Model.Wake
/-! # Specification: the words of the theorems about waking -/
namespace Fcgi.Model
open Fcgi.Spec

/-- No thread can move by itself: only the network, a signal or a new call can change something. -/
def AtRest (s : WSt) : Prop :=
  cstep s = none ∧ (∀ i, sstep i s = none) ∧ ∀ f : Fate, f.ready = .wakeup ∨ f.ready = .nothing → rstep f s = none

/-- No refreshing of the poll set takes place between the two assignments in `accept()`. -/
def Unraced (s : WSt) : Prop := (∃ v sp, s.ctl = .acc2 v sp) → ∀ b, s.rx ≠ .readd b ∧ s.rx ≠ .clear b

/-- A run all of whose states satisfy `ok`. -/
inductive WRunIn (ok : WSt → Prop) : WSt → List WEvent → WSt → Prop where
  | refl (s) (h : ok s) : WRunIn ok s [] s
  | step {s tr s' es s''} (run : WRunIn ok s tr s') (h : WStep s' es s'') (hs : ok s'') : WRunIn ok s (tr ++ es) s''

end Fcgi.Model
