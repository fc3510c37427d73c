import Verif.Model.Manager
/-! # Model: who calls `push`

Every request is given `m_callback`, `Manager_base::push` bound to its id (manager.hpp 319-332, request.cpp 222-241), which the application
may call from any thread - also from the handler thread that is in `response()`, and that thread does nothing else until the call returns.
The runs of `Model/Manager.lean` with the calls recorded. -/
namespace Fcgi.Model
open Fcgi.Spec
variable {σ : Type}

/-- The manager, and for every handler thread the last call of `push` that it made itself. -/
structure NSt (σ : Type) where
  m : MSt σ
  call : Nat → Option Nat

/-- The handler thread is in a call of `push` that it made itself. -/
def NSt.inCall (s : NSt σ) (t : Nat) : Bool :=
  match s.call t with
  | some p => s.m.pu p ≠ .idle
  | none => false

/-- A new call gets the name `p`, which an earlier one may have had. -/
def NSt.named (s : NSt σ) (p : Nat) : Nat → Option Nat := fun t => if s.call t = some p then none else s.call t

/-- Where a handler thread is in code of the application: request.cpp 64-153 `response()`, `inProcessor()` and so on; manager.cpp 297: the
destructor of the request. -/
inductive Place where
  | response
  | destructor
  deriving DecidableEq

def Place.here : Place → HPC → Bool
  | .response, .work _ _ _ => true
  | .destructor, .erase _ _ => true
  | _, _ => false

/-- A step; `calls` are the calls of `push` made in it, and `places` the places from which a handler thread may make one. -/
inductive NStep (P : Prog σ) (places : Place → Prop) : NSt σ → List (RequestId × Message) → List MEvent → NSt σ → Prop where
  | handler {s es m'} (t : Nat) (hf : s.inCall t = false) (h : hstep P t s.m = some (es, m')) : NStep P places s [] es { s with m := m' }
  | pusher {s es m'} (p w : Nat) (h : pstep P p w s.m = some (es, m')) : NStep P places s [] es { s with m := m' }
  | env {s es m'} (e : Outer) (hp : ∀ p k m, e ≠ .push p k m) (h : estep P e s.m = some (es, m')) : NStep P places s [] es { s with m := m' }
  /-- By a handler thread. -/
  | within {s es m'} (t p : Nat) (k : RequestId) (m : Message) (pl : Place) (ha : places pl) (hpl : pl.here (s.m.th t) = true) (hf : s.inCall t = false)
      (h : estep P (.push p k m) s.m = some (es, m')) : NStep P places s [(k, m)] es ⟨m', put (s.named p) t (some p)⟩
  /-- By the transceiver or any other thread. -/
  | outside {s es m'} (p : Nat) (k : RequestId) (m : Message)
      (h : estep P (.push p k m) s.m = some (es, m')) : NStep P places s [(k, m)] es ⟨m', s.named p⟩

/-- A run: any interleaving of any length; the calls of `push` in order, and the events. -/
inductive NRun (P : Prog σ) (places : Place → Prop) : NSt σ → List (RequestId × Message) → List MEvent → NSt σ → Prop where
  | refl (s) : NRun P places s [] [] s
  | step {s cs tr s' cs' es s''} (run : NRun P places s cs tr s') (h : NStep P places s' cs' es s'') : NRun P places s (cs ++ cs') (tr ++ es) s''

/-- A new manager. -/
def nInit (x : σ) : NSt σ := ⟨mInit x, fun _ => none⟩

/-- No thread can do anything, except that a handler thread may be in a call. -/
def NStill (P : Prog σ) (s : NSt σ) : Prop := (∀ t, s.inCall t = true ∨ hstep P t s.m = none) ∧ ∀ p w, pstep P p w s.m = none

end Fcgi.Model
