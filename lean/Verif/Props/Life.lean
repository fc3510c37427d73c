import Verif.Model.Life
/-! # C116: starting, stopping, resizing and destroying a manager -/
namespace Fcgi.Props
open Fcgi.Model

/-- No `std::thread` object has a thread. -/
def LifeIdle (l : MLife) : Prop := l.trans = .none ∧ ∀ x ∈ l.pool, x = .none

theorem mlife_append (ops ops' : List LifeOp) : ∀ l, MLife.run l (ops ++ ops') = match MLife.run l ops with | .ok l' => l'.run ops' | r => r := by
  induction ops with
  | nil => intro l; rfl
  | cons op ops ih =>
    intro l
    simp only [List.cons_append, MLife.run]
    cases l.step op with
    | ok l' => exact ih l'
    | _ => rfl

/-- The history, seen from outside: has `start()` been called since the last `join()` (or the beginning)? -/
def startedSince (ops : List LifeOp) : Bool := ops.foldl (fun b op => match op with | .start => true | .join => false | _ => b) false

theorem startedSince_snoc (ops : List LifeOp) (op : LifeOp) :
    startedSince (ops ++ [op]) = match op with | .start => true | .join => false | _ => startedSince ops := by
  unfold startedSince; rw [List.foldl_append]; rfl

theorem life_idle (n : Nat) (ops : List LifeOp) : ∀ l, (MLife.init n).run ops = .ok l → startedSince ops = false → LifeIdle l := by
  suffices h : ∀ (rev : List LifeOp) l, (MLife.init n).run rev.reverse = .ok l → startedSince rev.reverse = false → LifeIdle l by
    intro l h1 h2
    have := h ops.reverse l
    rw [List.reverse_reverse] at this
    exact this h1 h2
  intro rev
  induction rev with
  | nil =>
    intro l h _; cases h
    exact ⟨rfl, fun x hx => (List.mem_replicate.1 hx).2⟩
  | cons op rev ih =>
    intro l h hs
    rw [List.reverse_cons, mlife_append] at h
    rw [List.reverse_cons, startedSince_snoc] at hs
    cases h1 : (MLife.init n).run rev.reverse with
    | blocked => rw [h1] at h; cases h
    | aborts => rw [h1] at h; cases h
    | gone => rw [h1] at h; cases h
    | ok l1 =>
      rw [h1] at h; simp only [MLife.run] at h
      have ih := ih l1 h1
      have hst : l1.step op = .ok l := by
        cases hx : l1.step op <;> rw [hx] at h <;> dsimp only at h <;> first | exact h | cases h
      clear h
      cases op with
      | start => cases hs
      | stop => cases hst; exact ih hs
      | terminate => cases hst; exact ih hs
      | join =>
        unfold MLife.step at hst; dsimp only at hst
        split at hst <;> cases hst
        exact ⟨rfl, fun x hx => by obtain ⟨_, _, rfl⟩ := List.mem_map.1 hx; rfl⟩
      | resize k =>
        obtain ⟨i1, i2⟩ := ih hs
        unfold MLife.step at hst; dsimp only at hst
        split at hst
        · split at hst <;> cases hst
          refine ⟨i1, fun x hx => ?_⟩
          rcases List.mem_append.1 hx with hx | hx
          · exact i2 x (List.mem_of_mem_take hx)
          · exact (List.mem_replicate.1 hx).2
        · cases hst; exact ⟨i1, i2⟩
      | destroy =>
        unfold MLife.step at hst; dsimp only at hst
        split at hst <;> cases hst
      | ends i =>
        obtain ⟨i1, i2⟩ := ih hs
        unfold MLife.step at hst; dsimp only at hst
        split at hst
        · rename_i hc
          simp only [Bool.and_eq_true, decide_eq_true_eq] at hc
          have := i2 _ (List.mem_of_getElem? hc.2)
          cases this
        · cases hst
      | transEnds =>
        obtain ⟨i1, i2⟩ := ih hs
        unfold MLife.step at hst; dsimp only at hst
        split at hst
        · rename_i hc
          simp only [Bool.and_eq_true, decide_eq_true_eq] at hc
          rw [i1] at hc; cases hc.2
        · cases hst

/-- ... is the last call of `start()` or `stop()`, if there is one, a `stop()`? -/
def stoppedSince (ops : List LifeOp) : Bool := ops.foldl (fun b op => match op with | .start => false | .stop => true | _ => b) true

theorem life_stopped (ops : List LifeOp) : ∀ (l l' : MLife) , l.run ops = .ok l' →
    l'.stop = ops.foldl (fun b op => match op with | .start => false | .stop => true | _ => b) l.stop := by
  induction ops with
  | nil => intro l l' h; cases h; rfl
  | cons op ops ih =>
    intro l l' h
    simp only [MLife.run] at h
    cases hx : l.step op with
    | ok l1 =>
      rw [hx] at h
      rw [ih l1 l' h, List.foldl_cons]
      congr 1
      cases op <;> unfold MLife.step at hx <;> dsimp only at hx
      case start => cases hx; rfl
      case stop => cases hx; rfl
      case terminate => cases hx; rfl
      case join => split at hx <;> cases hx; rfl
      case resize => repeat' split at hx
                     all_goals cases hx <;> rfl
      case destroy => split at hx <;> cases hx
      case ends => split at hx <;> cases hx; rfl
      case transEnds => split at hx <;> cases hx; rfl
    | _ => rw [hx] at h; cases h

/-- C116, what holds: whatever was called before, if `join()` has returned since the last `start()`, the manager can be destroyed, and
resized to any size. -/
theorem C116_partial (n : Nat) (ops : List LifeOp) (l : MLife) (h : (MLife.init n).run ops = .ok l) (hs : startedSince ops = false) :
    l.step .destroy = .gone ∧ ∀ k, ∃ l', l.step (.resize k) = .ok l' := by
  obtain ⟨h1, h2⟩ := life_idle n ops l h hs
  constructor
  · unfold MLife.step; dsimp only
    rw [if_neg]
    simp only [List.any_cons, h1, ne_eq, not_true_eq_false, decide_false, Bool.false_or, List.any_eq_true, decide_eq_true_eq, not_exists, not_and, Decidable.not_not]
    exact h2
  · intro k
    unfold MLife.step; dsimp only
    split
    · rw [if_neg]
      · exact ⟨_, rfl⟩
      · simp only [List.any_eq_true, decide_eq_true_eq, not_exists, not_and, Decidable.not_not]
        exact fun x hx => h2 x (List.mem_of_mem_drop hx)
    · exact ⟨_, rfl⟩

/-- C116: `start()` gives every thread object a thread, as many as there are; the number is that of the constructor or of the last
`resizeThreads()` that took effect, i.e. one called after `stop()` or before the first `start()`. -/
theorem C116_threads (n : Nat) (ops : List LifeOp) (l : MLife) (h : (MLife.init n).run ops = .ok l) (hs : startedSince ops = false)
    (hstop : stoppedSince ops = true) (k : Nat) :
    ∃ l' l'', l.step (.resize k) = .ok l' ∧ l'.step .start = .ok l'' ∧ l''.pool = List.replicate k .runs ∧ l''.trans = .runs ∧
      l''.stop = false ∧ l''.term = false := by
  obtain ⟨h1, h2⟩ := life_idle n ops l h hs
  have hstop : l.stop = true := by rw [life_stopped ops _ _ h]; exact hstop
  have hp : l.pool = List.replicate l.pool.length .none := List.eq_replicate_iff.2 ⟨rfl, h2⟩
  refine ⟨{ l with pool := List.replicate k .none }, _, ?_, rfl, ?_, ?_, rfl, rfl⟩
  · unfold MLife.step; dsimp only
    rw [if_pos hstop, if_neg]
    · congr 2
      rw [hp, List.take_replicate, List.length_replicate, List.replicate_append_replicate]
      congr 1; omega
    · simp only [List.any_eq_true, decide_eq_true_eq, not_exists, not_and, Decidable.not_not]
      exact fun x hx => h2 x (List.mem_of_mem_drop hx)
  · dsimp only; rw [List.map_replicate]; rfl
  · dsimp only; rw [h1]; rfl

/-- C116: while the manager runs, `resizeThreads()` and a further `start()` do nothing. -/
theorem C116_running (l l1 l2 : MLife) (h1 : l.step .start = .ok l1) (h2 : l1.step .start = .ok l2) (k : Nat) :
    l2 = l1 ∧ l1.step (.resize k) = .ok l1 := by
  cases h1; cases h2
  constructor
  · congr 1
    · rw [List.map_map]; congr 1; funext x; cases x <;> rfl
    · cases l.trans <;> rfl
  · rfl

/-- C116: `join()` returns only when all threads have ended; and they end only after `stop()` or `terminate()`. -/
theorem C116_join (l l' : MLife) (h : l.step .join = .ok l') : (∀ x ∈ l.trans :: l.pool, x ≠ .runs) ∧ LifeIdle l' := by
  unfold MLife.step at h; dsimp only at h
  split at h <;> cases h
  rename_i hn
  simp only [List.any_eq_true, decide_eq_true_eq, not_exists, not_and] at hn
  exact ⟨hn, rfl, fun x hx => by obtain ⟨_, _, rfl⟩ := List.mem_map.1 hx; rfl⟩

/-- C116 does not hold: a manager that has been started and not joined ends the program when it is destroyed, even if it has been
stopped and all its threads have ended. -/
theorem C116_destroy_violated (n : Nat) (ops : List LifeOp) (l : MLife) (h : (MLife.init n).run (ops ++ [.start]) = .ok l) (more : List LifeOp)
    (hm : ∀ op ∈ more, op = .stop ∨ op = .terminate ∨ op = .transEnds ∨ ∃ i, op = .ends i) (l' : MLife) (h' : l.run more = .ok l') :
    l'.step .destroy = .aborts := by
  have h0 : l.trans ≠ .none := by
    rw [mlife_append] at h
    split at h
    · simp only [MLife.run, MLife.step] at h; cases h
      rename_i l1 _; dsimp only; cases l1.trans <;> simp [ThreadObj.startIf]
    · rename_i hx; exact absurd h (hx _)
  have key : ∀ (more : List LifeOp) (l : MLife), l.trans ≠ .none →
      (∀ op ∈ more, op = .stop ∨ op = .terminate ∨ op = .transEnds ∨ ∃ i, op = .ends i) → l.run more = .ok l' → l'.trans ≠ .none := by
    intro more
    induction more with
    | nil => intro l h0 _ h; cases h; exact h0
    | cons op more ih =>
      intro l h0 hm h
      simp only [MLife.run] at h
      split at h
      · rename_i l1 hx
        refine ih l1 ?_ (fun o ho => hm o (.tail _ ho)) h
        rcases hm op (.head _) with rfl | rfl | rfl | ⟨i, rfl⟩
        · cases hx; exact h0
        · cases hx; exact h0
        · unfold MLife.step at hx; dsimp only at hx; split at hx <;> cases hx; simp
        · unfold MLife.step at hx; dsimp only at hx; split at hx <;> cases hx; exact h0
      · rename_i hx; exact absurd h (hx _)
  have := key more l h0 hm h'
  unfold MLife.step; dsimp only
  rw [if_pos]
  simp [this]

/-- C116 does not hold: between `stop()` and `join()`, `resizeThreads()` to fewer threads ends the program, although the manager is still
running. -/
theorem C116_shrink_violated (n k : Nat) (hk : k < n) : (MLife.init n).run [.start, .stop, .resize k] = .aborts := by
  have : ((List.replicate n ThreadObj.runs).drop k).any (· ≠ .none) = true := by
    rw [List.drop_replicate, List.any_eq_true]
    exact ⟨.runs, List.mem_replicate.2 ⟨by omega, rfl⟩, by decide⟩
  simp only [MLife.run, MLife.step, MLife.init, List.map_replicate, ThreadObj.startIf]
  rw [if_pos trivial, if_pos this]

/-- The threads of a manager that is to stop end one after the other. -/
theorem lifeEnds (stop term : Bool) (h : (stop || term) = true) : ∀ (m : Nat) (done : List ThreadObj), (∀ x ∈ done, x = .ended) →
    ∃ ops pool, (∀ op ∈ ops, ∃ i, op = LifeOp.ends i) ∧ (∀ x ∈ pool, x = .ended) ∧ pool.length = done.length + m ∧
      MLife.run ⟨stop, term, done ++ List.replicate m .runs, .ended⟩ ops = .ok ⟨stop, term, pool, .ended⟩ := by
  intro m
  induction m with
  | zero => intro done hd; exact ⟨[], done, by simp, hd, rfl, by simp [MLife.run]⟩
  | succ m ih =>
    intro done hd
    obtain ⟨ops, pool, e1, e2, e3, e4⟩ := ih (done ++ [.ended]) (by
      intro x hx; rcases List.mem_append.1 hx with h | h
      · exact hd x h
      · exact List.mem_singleton.1 h)
    refine ⟨.ends done.length :: ops, pool, ?_, e2, by rw [e3]; simp; omega, ?_⟩
    · intro op hop
      rcases List.mem_cons.1 hop with rfl | h
      · exact ⟨_, rfl⟩
      · exact e1 op h
    · simp only [MLife.run, MLife.step]
      rw [if_pos (by rw [h]; simp [List.replicate_succ])]
      dsimp only
      rw [show (done ++ List.replicate (m + 1) ThreadObj.runs).set done.length .ended = done ++ [.ended] ++ List.replicate m .runs by
        simp [List.replicate_succ]]
      exact e4

/-- C116 does not hold: after `terminate()` and `join()` the manager does not run, but `resizeThreads()` does nothing. -/
theorem C116_ignored_violated (n k : Nat) :
    ∃ ops l, (MLife.init n).run ([.start, .terminate] ++ ops ++ [.join]) = .ok l ∧ (∀ op ∈ ops, op = .transEnds ∨ ∃ i, op = .ends i) ∧
      l.step (.resize k) = .ok l ∧ l.pool.length = n := by
  obtain ⟨ops, pool, e1, e2, e3, e4⟩ := lifeEnds false true rfl n [] (by simp)
  refine ⟨.transEnds :: ops, ⟨false, true, pool.map fun _ => .none, .none⟩, ?_, ?_, rfl, by simp [e3]⟩
  · rw [mlife_append]
    have : (MLife.init n).run ([.start, .terminate] ++ .transEnds :: ops) = .ok ⟨false, true, pool, .ended⟩ := by
      simp only [List.cons_append, List.nil_append, MLife.run, MLife.step, MLife.init, List.map_replicate, ThreadObj.startIf]
      simp only [List.nil_append] at e4
      exact e4
    rw [this]
    simp only [MLife.run, MLife.step]
    rw [if_neg]
    simp only [List.any_cons, List.any_eq_true, Bool.or_eq_true, decide_eq_true_eq, not_or, not_exists, not_and]
    exact ⟨by simp, fun x hx => by rw [e2 x hx]; simp⟩
  · intro op hop
    rcases List.mem_cons.1 hop with rfl | h
    · exact .inl rfl
    · exact .inr (e1 op h)

/-- C116 does not hold: `start()` after `stop()`, when the threads have ended but `join()` was not called, starts no thread at all, and
nothing runs until `join()` is called. -/
theorem C116_restart_violated (n : Nat) (stop : Bool) :
    ∃ ops l, (∀ op ∈ ops, op = .transEnds ∨ ∃ i, op = .ends i) ∧
      (MLife.init n).run ([.start, if stop then .stop else .terminate] ++ ops ++ [.start]) = .ok l ∧ l.pool.length = n ∧
      l.stop = false ∧ l.term = false ∧ (∀ x ∈ l.trans :: l.pool, x = .ended) ∧ l.step .start = .ok l := by
  obtain ⟨ops, pool, e1, e2, e3, e4⟩ := lifeEnds stop (!stop) (by cases stop <;> rfl) n [] (by simp)
  have hp : pool.map ThreadObj.startIf = pool := by
    conv => rhs; rw [← List.map_id pool]
    exact List.map_congr_left fun x hx => by rw [e2 x hx]; rfl
  refine ⟨.transEnds :: ops, ⟨false, false, pool, .ended⟩, ?_, ?_, by simp [e3], rfl, rfl, ?_, ?_⟩
  · intro op hop
    rcases List.mem_cons.1 hop with rfl | h
    · exact .inl rfl
    · exact .inr (e1 op h)
  · rw [mlife_append]
    have : (MLife.init n).run ([.start, if stop then .stop else .terminate] ++ .transEnds :: ops) = .ok ⟨stop, !stop, pool, .ended⟩ := by
      cases stop <;>
      · simp only [List.cons_append, List.nil_append, MLife.run, MLife.step, MLife.init, List.map_replicate, ThreadObj.startIf]
        simp only [List.nil_append] at e4
        exact e4
    rw [this]
    simp only [MLife.run, MLife.step, hp, ThreadObj.startIf]
  · intro x hx
    rcases List.mem_cons.1 hx with rfl | h
    · rfl
    · exact e2 x h
  · simp only [MLife.step, hp, ThreadObj.startIf]

/-- A life of a manager with two threads, then three. -/
def demoLife : List LifeOp := [.start, .stop, .ends 1, .transEnds, .ends 0, .join, .resize 3]
example : (MLife.init 2).run demoLife = .ok ⟨true, false, [.none, .none, .none], .none⟩ := by decide +kernel
example : startedSince demoLife = false ∧ stoppedSince demoLife = true ∧ startedSince [] = false ∧ stoppedSince [] = true := by decide
example : (MLife.init 2).run (demoLife ++ [.start]) = .ok ⟨false, false, [.runs, .runs, .runs], .runs⟩ := by decide +kernel
example : (MLife.init 1).run [.start, .stop, .transEnds, .ends 0, .start] = .ok ⟨false, false, [.ended], .ended⟩ := by decide +kernel
example : (MLife.init 2).run (demoLife ++ [.destroy]) = .gone := by decide +kernel

end Fcgi.Props
