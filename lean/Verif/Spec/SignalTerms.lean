import Verif.Model.Signals
import Verif.Spec.ManagerTerms
/-! # Specification: the words of the theorems about signal handlers -/
namespace Fcgi.Model
open Fcgi.Spec
variable {σ : Type}

/-- The thread holds none of the mutexes for which threads wait: m_tasksMutex, m_requestsMutex, and m_messagesMutex of a request.  (It may
hold `mutex` of a request, that is, be in the middle of the user's code: for that nobody waits.) -/
def harmless (m : MSt σ) : Who → Prop
  | .handler t => (m.th t).holdsT = false ∧ (m.th t).holdsR = false ∧ (m.th t).erasing = false ∧ (m.th t).msgsOf = none
  | .pusher p => (m.pu p).holdsW = false

/-- No thread that is not in a signal handler can move. -/
def SigStill (P : Prog σ) (s : SigSt σ) : Prop :=
  (∀ t, s.caught (.handler t) = [] → hstep P t s.m = none) ∧ ∀ p w, s.caught (.pusher p) = [] → pstep P p w s.m = none

end Fcgi.Model
