import Verif.Lemmas.DeadlockCheck
import Verif.Lemmas.DeadlockPlay
import Verif.Props.Races
/-! # C136: deadlocks -/
namespace Fcgi.Props
open Fcgi.Spec Fcgi.Model Fcgi.Lemmas

/-- **C136** In a process with any number of threads of every kind, where any number of threads and all requests in their handlers call what they like, the threads never
come to wait for each other's locks in a circle, and none ends with a lock: following who waits for whom one always comes to a thread that can go on.
Missing: constructors and destructors of requests that call `push()`, `stop()` or `terminate()` (`C136_constructor_violated`). -/
theorem C136_partial (diag : Bool) (role : Nat → Role) {s t : Threads Lock Var}
    (start : Starting (Role.code diag) role s) (run : ThreadsReach s t) : NoDeadlock t :=
  no_deadlock lockRank 7 lockRank_lt _ (fun r => ordered_role diag r) role start run

/-- Of the threads that still have something to do one can do it (unless it is in a `try_lock`, which does not wait). -/
theorem C136_progress_partial (diag : Bool) (role : Nat → Role) {s t : Threads Lock Var}
    (start : Starting (Role.code diag) role s) (run : ThreadsReach s t) (i : Nat) (busy : (t i).rest ≠ []) :
    ∃ j a rest, (t j).rest = a :: rest ∧ ((∃ l, a = .tryAcq l) ∨ Free t a) := by
  have nd := C136_partial diag role start run
  have key : ∀ k, Resolves t k → (t k).rest ≠ [] → ∃ j a rest, (t j).rest = a :: rest ∧ ((∃ l, a = .tryAcq l) ∨ Free t a) := by
    intro k r
    induction r with
    | mk k _ ih =>
      intro hb
      cases hr : (t k).rest with
      | nil => exact absurd hr hb
      | cons a rest =>
        by_cases f : (∃ l, a = .tryAcq l) ∨ Free t a
        · exact ⟨k, a, rest, hr, f⟩
        · have next : ∃ j, WaitsFor t k j ∧ (t j).held ≠ [] := by
            cases a with
            | acq l =>
              have hf : ∃ j b, (l, b) ∈ (t j).held :=
                Classical.byContradiction fun hn => f (.inr fun j b hm => hn ⟨j, b, hm⟩)
              obtain ⟨j, b, hm⟩ := hf
              exact ⟨j, .inl ⟨l, b, by rw [hr]; rfl, hm⟩, List.ne_nil_of_mem hm⟩
            | acqS l =>
              have hf : ∃ j, (l, true) ∈ (t j).held :=
                Classical.byContradiction fun hn => f (.inr fun j hm => hn ⟨j, hm⟩)
              obtain ⟨j, hm⟩ := hf
              exact ⟨j, .inr ⟨l, by rw [hr]; rfl, .inl hm⟩, List.ne_nil_of_mem hm⟩
            | tryAcq l => exact absurd (.inl ⟨l, rfl⟩) f
            | rel l => exact absurd (.inr trivial) f
            | relS l => exact absurd (.inr trivial) f
            | rd v => exact absurd (.inr trivial) f
            | wr v => exact absurd (.inr trivial) f
          obtain ⟨j, w, hh⟩ := next
          exact ih j w fun he => hh (nd.2 j he)
  exact key i (nd.1 i) busy

/-- A process in which the constructor of requests calls `stop()`. -/
def stopInConstructor (r : Role) : Code := if r = .user then .star (pushMaking false managerStop) else r.code false

/-- **C136 fails** if the constructor of a request calls `stop()`: the thread that makes the request has the lock of the requests and waits for that of the tasks, a handler
thread has that of the tasks and waits for that of the requests. -/
theorem C136_constructor_violated : ∃ (role : Nat → Role) (s t : Threads Lock Var), Starting stopInConstructor role s ∧ ThreadsReach s t ∧ ¬ Resolves t 0 := by
  obtain ⟨s, t, h0, h, w, w'⟩ := stuck_of (code := stopInConstructor) .user .worker .user .stop (.rounds 1 (lstS 2 (.right (.right .done)))) .done 2 1 (by decide +kernel)
  exact ⟨_, s, t, h0, h, circle w w'⟩

/-- The theorem speaks of states with waiting threads: a thread that queues a record and one that waits for the lock it has. -/
example : ∃ (role : Nat → Role) (s t : Threads Lock Var), Starting (Role.code false) role s ∧ ThreadsReach s t ∧ WaitsFor t 0 1 := by
  let a : List (TAct Lock Var) := playCode (Role.code false .user) (.rounds 1 (.right (.right .done)))
  let s : Threads Lock Var := fun _ => ⟨a, []⟩
  refine ⟨fun _ => .user, s, fun j => if j = 1 then ⟨a.drop 1, [(.tasks, true)]⟩ else s j, fun i => ⟨rfl, playCode_runs _ _⟩, ?_, ?_⟩
  · exact goOn_reach [] 1 (a.drop 1) (a.take 1) s _ (List.take_append_drop _ _).symm (fun j _ x hx => hx) (by decide +kernel)
  · exact waits_of (p := a) (h := [(.tasks, true)]) (by simp [s]) (by simp) (by decide +kernel)

end Fcgi.Props
