import Verif.Model.HelperLife
/-! # Histories of the HTTP client, the mailer and SQL connections, seen from outside -/
namespace Fcgi.Spec
open Fcgi.Model

/-- start() has been called, and join() has not returned since. -/
def Unjoined (ops : List HelperOp) : Prop := ∃ a b, ops = a ++ .start :: b ∧ .join ∉ b

/-- The thread that runs, or ran last, has ended (and has not been joined). -/
def EndedUnjoined (ops : List HelperOp) : Prop := ∃ a b, ops = a ++ .ends :: b ∧ .join ∉ b

/-- There is a thread (or one that has not been joined), and stop() or terminate() has been called since it was started. -/
def AskedToEnd (ops : List HelperOp) : Prop :=
  ∃ a b c x, ops = a ++ .start :: b ++ x :: c ∧ ¬ Unjoined a ∧ .join ∉ b ∧ (x = .stop ∨ x = .terminate) ∧ .join ∉ c

/-- The order of calls the headers describe (curler.hpp 43-53, mailer.hpp 48-60, sql/connection.hpp 66-79): init(), if there is one, then
start(), then the others; destruction when the thread has been joined. -/
def Documented (k : Helper) (ops : List HelperOp) : Prop :=
  ∀ a op b, ops = a ++ op :: b →
    (op = .start ∧ k ≠ .curler → .init ∈ a) ∧
    (op = .stop ∨ op = .terminate ∨ op = .queue → .start ∈ a) ∧
    (op = .destroy → ¬ Unjoined a)

end Fcgi.Spec
