import Verif.Model.Manager
/-! # Model of the signal handler (src/manager.cpp 99-139)

After `Manager_base::setupSignals()` the signals SIGUSR1 and SIGTERM make the thread to which the kernel delivers them
leave what it is doing, at any moment, and call `stop()` or `terminate()`; when the call returns the thread goes on.  The
kernel may choose any thread of the process (POSIX `kill`).  Simplifications: SIGPIPE, for which `signalHandler` does nothing, and a signal while there is no manager
(only a warning is logged) are left out; and so is what `stop()` and `terminate()` do to the transceiver (see `Model/Wake.lean`): its m_wakingMutex is another
mutex a thread could hold when it is interrupted.  Locking a `std::mutex` that the thread holds already is undefined in C++;
here it is what it is on Linux: waiting. -/
namespace Fcgi.Model
open Fcgi.Spec
variable {σ : Type}

inductive Sig where
  | usr1
  | term
  deriving DecidableEq

/-- manager.cpp 111-139 `signalHandler`. -/
def Sig.call : Sig → Outer
  | .usr1 => .stop
  | .term => .terminate

/-- The manager and, for each thread, the signals whose handlers it is in (the last one first).  The threads are the handler threads and those
that call `push` (`Who`); any other thread (for example the one in `join()`) is one of the latter that calls nothing. -/
structure SigSt (σ : Type) where
  m : MSt σ
  caught : Who → List Sig

def sigInit (x : σ) : SigSt σ := ⟨mInit x, fun _ => []⟩

def SigSt.set (s : SigSt σ) (x : Who) (l : List Sig) : Who → List Sig := fun y => if y = x then l else s.caught y

/-- There is such a thread. -/
def MSt.exists (m : MSt σ) : Who → Bool
  | .handler t => m.th t ≠ .off && m.th t ≠ .finished
  | .pusher _ => true

/-- A new call of `push` is not made by a thread that is in the signal handler. -/
def Outer.notBy (s : SigSt σ) : Outer → Bool
  | .push p _ _ => s.caught (.pusher p) = []
  | _ => true

/-- A step; signals are delivered only to threads that `ok` allows. -/
inductive SigStep (P : Prog σ) (ok : MSt σ → Who → Prop) : SigSt σ → List MEvent → SigSt σ → Prop where
  | handler {s es m'} (t : Nat) (hc : s.caught (.handler t) = []) (h : hstep P t s.m = some (es, m')) : SigStep P ok s es { s with m := m' }
  | pusher {s es m'} (p w : Nat) (hc : s.caught (.pusher p) = []) (h : pstep P p w s.m = some (es, m')) : SigStep P ok s es { s with m := m' }
  | env {s es m'} (e : Outer) (hc : e.notBy s = true) (h : estep P e s.m = some (es, m')) : SigStep P ok s es { s with m := m' }
  /-- The kernel interrupts a thread (the same signal is blocked while its handler runs: manager.cpp 104-105). -/
  | deliver {s} (x : Who) (g : Sig) (hx : s.m.exists x = true) (hg : g ∉ s.caught x) (ho : ok s.m x) : SigStep P ok s [] { s with caught := s.set x (g :: s.caught x) }
  /-- The signal handler makes its call and returns. -/
  | run {s es m'} (x : Who) (g : Sig) (l : List Sig) (hc : s.caught x = g :: l) (h : estep P g.call s.m = some (es, m')) :
      SigStep P ok s es ⟨m', s.set x l⟩

inductive SigRun (P : Prog σ) (ok : MSt σ → Who → Prop) : SigSt σ → List MEvent → SigSt σ → Prop where
  | refl (s) : SigRun P ok s [] s
  | step {s tr s' es s''} (run : SigRun P ok s tr s') (h : SigStep P ok s' es s'') : SigRun P ok s (tr ++ es) s''

end Fcgi.Model
