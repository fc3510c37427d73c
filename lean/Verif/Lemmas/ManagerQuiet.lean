import Verif.Lemmas.ManagerTasks
/-! # States in which nothing moves -/
namespace Fcgi.Model
open Fcgi.Spec
variable {σ : Type}

/-- The thread does not move by itself. -/
def HPC.resting : HPC → Bool
  | .off | .waiting | .finished => true
  | _ => false
/-- The thread has seen the queue of tasks empty and still holds its mutex. -/
def HPC.checking : HPC → Bool
  | .check | .judge => true
  | _ => false
def HPC.sleeps : HPC → Bool
  | .waiting => true
  | _ => false
/-- The thread will look at the condition for ending (and tell the others) before it waits or ends. -/
def HPC.inner : HPC → Bool
  | .drain | .popped _ | .find _ | .enter _ _ | .look _ _ | .work _ _ _ | .kept _ _ | .stay _ _ | .part _ _ | .over _ _
  | .erase _ _ | .relock | .check | .judge => true
  | _ => false
def PPC.tasking : PPC → Bool
  | .task _ => true
  | _ => false
/-- The call deals with the loss of a connection. -/
def PPC.losing : PPC → Bool
  | .lost _ | .sweep _ _ => true
  | _ => false

theorem rest_all : (HPC.off.resting = true) ∧
    (HPC.boot.resting = false) ∧
    (HPC.top.resting = false) ∧
    (HPC.test.resting = false) ∧
    (HPC.drain.resting = false) ∧
    (∀ (k : RequestId), (HPC.popped k).resting = false) ∧
    (∀ (k : RequestId), (HPC.find k).resting = false) ∧
    (∀ (k : RequestId) (r : Nat), (HPC.enter k r).resting = false) ∧
    (∀ (k : RequestId) (r : Nat), (HPC.look k r).resting = false) ∧
    (∀ (k : RequestId) (r : Nat) (m : Message), (HPC.work k r m).resting = false) ∧
    (∀ (k : RequestId) (r : Nat), (HPC.kept k r).resting = false) ∧
    (∀ (k : RequestId) (r : Nat), (HPC.stay k r).resting = false) ∧
    (∀ (k : RequestId) (r : Nat), (HPC.part k r).resting = false) ∧
    (∀ (k : RequestId) (r : Nat), (HPC.over k r).resting = false) ∧
    (∀ (k : RequestId) (r : Nat), (HPC.erase k r).resting = false) ∧
    (HPC.relock.resting = false) ∧
    (HPC.check.resting = false) ∧
    (HPC.judge.resting = false) ∧
    (HPC.waiting.resting = true) ∧
    (HPC.woken.resting = false) ∧
    (HPC.finished.resting = true) := by
  refine ⟨?_, ?_, ?_, ?_, ?_, ?_, ?_, ?_, ?_, ?_, ?_, ?_, ?_, ?_, ?_, ?_, ?_, ?_, ?_, ?_, ?_⟩ <;> intros <;> rfl
theorem check_all : (HPC.off.checking = false) ∧
    (HPC.boot.checking = false) ∧
    (HPC.top.checking = false) ∧
    (HPC.test.checking = false) ∧
    (HPC.drain.checking = false) ∧
    (∀ (k : RequestId), (HPC.popped k).checking = false) ∧
    (∀ (k : RequestId), (HPC.find k).checking = false) ∧
    (∀ (k : RequestId) (r : Nat), (HPC.enter k r).checking = false) ∧
    (∀ (k : RequestId) (r : Nat), (HPC.look k r).checking = false) ∧
    (∀ (k : RequestId) (r : Nat) (m : Message), (HPC.work k r m).checking = false) ∧
    (∀ (k : RequestId) (r : Nat), (HPC.kept k r).checking = false) ∧
    (∀ (k : RequestId) (r : Nat), (HPC.stay k r).checking = false) ∧
    (∀ (k : RequestId) (r : Nat), (HPC.part k r).checking = false) ∧
    (∀ (k : RequestId) (r : Nat), (HPC.over k r).checking = false) ∧
    (∀ (k : RequestId) (r : Nat), (HPC.erase k r).checking = false) ∧
    (HPC.relock.checking = false) ∧
    (HPC.check.checking = true) ∧
    (HPC.judge.checking = true) ∧
    (HPC.waiting.checking = false) ∧
    (HPC.woken.checking = false) ∧
    (HPC.finished.checking = false) := by
  refine ⟨?_, ?_, ?_, ?_, ?_, ?_, ?_, ?_, ?_, ?_, ?_, ?_, ?_, ?_, ?_, ?_, ?_, ?_, ?_, ?_, ?_⟩ <;> intros <;> rfl
theorem sleep_all : (HPC.off.sleeps = false) ∧
    (HPC.boot.sleeps = false) ∧
    (HPC.top.sleeps = false) ∧
    (HPC.test.sleeps = false) ∧
    (HPC.drain.sleeps = false) ∧
    (∀ (k : RequestId), (HPC.popped k).sleeps = false) ∧
    (∀ (k : RequestId), (HPC.find k).sleeps = false) ∧
    (∀ (k : RequestId) (r : Nat), (HPC.enter k r).sleeps = false) ∧
    (∀ (k : RequestId) (r : Nat), (HPC.look k r).sleeps = false) ∧
    (∀ (k : RequestId) (r : Nat) (m : Message), (HPC.work k r m).sleeps = false) ∧
    (∀ (k : RequestId) (r : Nat), (HPC.kept k r).sleeps = false) ∧
    (∀ (k : RequestId) (r : Nat), (HPC.stay k r).sleeps = false) ∧
    (∀ (k : RequestId) (r : Nat), (HPC.part k r).sleeps = false) ∧
    (∀ (k : RequestId) (r : Nat), (HPC.over k r).sleeps = false) ∧
    (∀ (k : RequestId) (r : Nat), (HPC.erase k r).sleeps = false) ∧
    (HPC.relock.sleeps = false) ∧
    (HPC.check.sleeps = false) ∧
    (HPC.judge.sleeps = false) ∧
    (HPC.waiting.sleeps = true) ∧
    (HPC.woken.sleeps = false) ∧
    (HPC.finished.sleeps = false) := by
  refine ⟨?_, ?_, ?_, ?_, ?_, ?_, ?_, ?_, ?_, ?_, ?_, ?_, ?_, ?_, ?_, ?_, ?_, ?_, ?_, ?_, ?_⟩ <;> intros <;> rfl
theorem inner_all : (HPC.off.inner = false) ∧
    (HPC.boot.inner = false) ∧
    (HPC.top.inner = false) ∧
    (HPC.test.inner = false) ∧
    (HPC.drain.inner = true) ∧
    (∀ (k : RequestId), (HPC.popped k).inner = true) ∧
    (∀ (k : RequestId), (HPC.find k).inner = true) ∧
    (∀ (k : RequestId) (r : Nat), (HPC.enter k r).inner = true) ∧
    (∀ (k : RequestId) (r : Nat), (HPC.look k r).inner = true) ∧
    (∀ (k : RequestId) (r : Nat) (m : Message), (HPC.work k r m).inner = true) ∧
    (∀ (k : RequestId) (r : Nat), (HPC.kept k r).inner = true) ∧
    (∀ (k : RequestId) (r : Nat), (HPC.stay k r).inner = true) ∧
    (∀ (k : RequestId) (r : Nat), (HPC.part k r).inner = true) ∧
    (∀ (k : RequestId) (r : Nat), (HPC.over k r).inner = true) ∧
    (∀ (k : RequestId) (r : Nat), (HPC.erase k r).inner = true) ∧
    (HPC.relock.inner = true) ∧
    (HPC.check.inner = true) ∧
    (HPC.judge.inner = true) ∧
    (HPC.waiting.inner = false) ∧
    (HPC.woken.inner = false) ∧
    (HPC.finished.inner = false) := by
  refine ⟨?_, ?_, ?_, ?_, ?_, ?_, ?_, ?_, ?_, ?_, ?_, ?_, ?_, ?_, ?_, ?_, ?_, ?_, ?_, ?_, ?_⟩ <;> intros <;> rfl

theorem tasking_all : (PPC.idle.tasking = false) ∧ (∀ (k : RequestId) (m : Message), (PPC.note k m).tasking = false) ∧ (∀ x : Nat, (PPC.lost x).tasking = false) ∧
    (∀ (x : Nat) (l : List (RequestId × Nat)), (PPC.sweep x l).tasking = false) ∧ (∀ (k : RequestId) (m : Message), (PPC.call k m).tasking = false) ∧
    (∀ (k : RequestId) (m : Message), (PPC.route k m).tasking = false) ∧ (∀ k : RequestId, (PPC.task k).tasking = true) := by
  refine ⟨?_, ?_, ?_, ?_, ?_, ?_, ?_⟩ <;> intros <;> rfl
theorem losing_all : (PPC.idle.losing = false) ∧ (∀ (k : RequestId) (m : Message), (PPC.note k m).losing = false) ∧ (∀ x : Nat, (PPC.lost x).losing = true) ∧
    (∀ (x : Nat) (l : List (RequestId × Nat)), (PPC.sweep x l).losing = true) ∧ (∀ (k : RequestId) (m : Message), (PPC.call k m).losing = false) ∧
    (∀ (k : RequestId) (m : Message), (PPC.route k m).losing = false) ∧ (∀ k : RequestId, (PPC.task k).losing = false) := by
  refine ⟨?_, ?_, ?_, ?_, ?_, ?_, ?_⟩ <;> intros <;> rfl
theorem ex_rest (f : Nat → HPC) (t : Nat) (pc : HPC) (b : Bool) :
    (∃ x, (put f t pc x).resting = b) ↔ (pc.resting = b ∨ ∃ x, x ≠ t ∧ (f x).resting = b) := by
  constructor
  · rintro ⟨x, hx⟩
    by_cases h : x = t
    · subst h; rw [put_same] at hx; exact Or.inl hx
    · rw [put_other _ _ _ h] at hx; exact Or.inr ⟨x, h, hx⟩
  · rintro (h | ⟨x, hx, h⟩)
    · exact ⟨t, by rw [put_same]; exact h⟩
    · exact ⟨x, by rw [put_other _ _ _ hx]; exact h⟩
theorem ex_inner (f : Nat → HPC) (t : Nat) (pc : HPC) (b : Bool) :
    (∃ x, (put f t pc x).inner = b) ↔ (pc.inner = b ∨ ∃ x, x ≠ t ∧ (f x).inner = b) := by
  constructor
  · rintro ⟨x, hx⟩
    by_cases h : x = t
    · subst h; rw [put_same] at hx; exact Or.inl hx
    · rw [put_other _ _ _ h] at hx; exact Or.inr ⟨x, h, hx⟩
  · rintro (h | ⟨x, hx, h⟩)
    · exact ⟨t, by rw [put_same]; exact h⟩
    · exact ⟨x, by rw [put_other _ _ _ hx]; exact h⟩
theorem ex_tasking (f : Nat → PPC) (t : Nat) (pc : PPC) (b : Bool) :
    (∃ x, (put f t pc x).tasking = b) ↔ (pc.tasking = b ∨ ∃ x, x ≠ t ∧ (f x).tasking = b) := by
  constructor
  · rintro ⟨x, hx⟩
    by_cases h : x = t
    · subst h; rw [put_same] at hx; exact Or.inl hx
    · rw [put_other _ _ _ h] at hx; exact Or.inr ⟨x, h, hx⟩
  · rintro (h | ⟨x, hx, h⟩)
    · exact ⟨t, by rw [put_same]; exact h⟩
    · exact ⟨x, by rw [put_other _ _ _ hx]; exact h⟩
theorem put_checking (f : Nat → HPC) (t x : Nat) (pc : HPC) : (put f t pc x).checking = if x = t then pc.checking else (f x).checking := by
  unfold put; split <;> rfl
theorem put_sleeps (f : Nat → HPC) (t x : Nat) (pc : HPC) : (put f t pc x).sleeps = if x = t then pc.sleeps else (f x).sleeps := by
  unfold put; split <;> rfl
theorem put_losing (f : Nat → PPC) (t x : Nat) (pc : PPC) : (put f t pc x).losing = if x = t then pc.losing else (f x).losing := by
  unfold put; split <;> rfl
theorem notify_checking (f : Nat → HPC) (x : Nat) : (if f x = .waiting then HPC.woken else f x).checking = (f x).checking := by
  split <;> simp_all [check_all]
theorem notify_inner (f : Nat → HPC) (x : Nat) : (if f x = .waiting then HPC.woken else f x).inner = (f x).inner := by
  split <;> simp_all [inner_all]
theorem notify_sleeps (f : Nat → HPC) (x : Nat) : (if f x = .waiting then HPC.woken else f x).sleeps = false := by
  split
  · rfl
  · cases h : f x <;> simp_all [sleep_all]
theorem sleeps_iff {pc : HPC} : pc.sleeps = true ↔ pc = .waiting := by
  cases pc <;> simp [HPC.sleeps]

structure WInv (s : MSt σ) : Prop where
  ct : ∀ t, (s.th t).checking = true → s.tasks = []
  tw : s.terminate = true → ∀ t, (s.th t).sleeps = false
  xw : s.terminate = false → ∀ k r, (k, r) ∈ s.table → (s.objs r).queue ≠ [] → k ∈ s.tasks → ∀ t, (s.th t).sleeps = true →
    (∃ x, (s.th x).resting = false) ∨ ∃ p, (s.pu p).tasking = true

theorem checking_holdsT {pc : HPC} (h : pc.checking = true) : pc.holdsT = true := by
  cases pc <;> simp_all [check_all, T_all]

macro "wstep" : tactic => `(tactic| (
  constructor <;> simp only [MSt.goto, MSt.pgoto, MSt.setObj, MSt.touch, MSt.destroy, MSt.notifyAll, ex_rest, ex_tasking, put_queue, put_checking, put_sleeps,
    rest_all, check_all, sleep_all, tasking_all, notify_checking, notify_sleeps]))

set_option maxHeartbeats 4000000 in
theorem hstep_winv (P : Prog σ) (t : Nat) (s : MSt σ) (es) (s') (I : MInv P s) (W : WInv s) (h : hstep P t s = some (es, s')) : WInv s' := by
  have tl := I.tl
  obtain ⟨ct, tw, xw⟩ := W
  have cT : ∀ x, (s.th x).checking = true → (s.th x).holdsT = true := fun x => checking_holdsT
  unfold hstep at h
  split at h
  all_goals rename_i hpc
  all_goals (have pC := congrArg HPC.checking hpc; have pS := congrArg HPC.sleeps hpc; have pR := congrArg HPC.resting hpc; have pT := congrArg HPC.holdsT hpc)
  all_goals (simp only [check_all, sleep_all, rest_all, T_all] at pC pS pR pT)
  case h_6 =>
    split at h
    · cases h; wstep; all_goals grind
    · cases h; wstep; all_goals grind
  case h_12 =>
    dsimp only at h
    cases hx : (P.handle (s.objs _).state _).2
    · rw [hx] at h; cases h; simp only [Bool.false_eq_true, if_false]; wstep; all_goals grind
    · rw [hx] at h; cases h; simp only [if_true]; wstep; all_goals grind
  case h_20 =>
    have htasks := ct t pC
    split at h
    · cases h; wstep; all_goals grind
    · rename_i hl
      simp only [MSt.leave] at hl
      cases h; wstep; all_goals grind
  all_goals repeat' split at h
  all_goals first
    | (cases h; done)
    | (cases h; wstep; all_goals grind)

theorem estep_winv (P : Prog σ) (e : Outer) (s : MSt σ) (es) (s') (I : MInv P s) (W : WInv s) (h : estep P e s = some (es, s')) : WInv s' := by
  obtain ⟨ct, tw, xw⟩ := W
  unfold estep at h
  split at h
  · split at h
    · cases h
      have key : ∀ x, (if x < P.threads ∧ s.th x = .off then HPC.boot else s.th x).checking = (s.th x).checking ∧
          (if x < P.threads ∧ s.th x = .off then HPC.boot else s.th x).sleeps = (s.th x).sleeps ∧
          ((s.th x).resting = false → (if x < P.threads ∧ s.th x = .off then HPC.boot else s.th x).resting = false) := by
        intro x
        split
        · rename_i h; rw [h.2]; exact ⟨rfl, rfl, fun h => by simp [rest_all] at h⟩
        · exact ⟨rfl, rfl, id⟩
      have k1 := fun x => (key x).1
      have k2 := fun x => (key x).2.1
      have k3 := fun x => (key x).2.2
      constructor <;> simp only [k1, k2]
      · exact ct
      · simp
      · intro _ k r h1 h2 h3 t ht
        cases hterm : s.terminate with
        | true => rw [tw hterm t] at ht; simp at ht
        | false =>
          rcases xw hterm k r h1 h2 h3 t ht with ⟨x, hx⟩ | h
          · exact Or.inl ⟨x, k3 x hx⟩
          · exact Or.inr h
    · cases h
  · split at h
    · cases h; wstep; all_goals grind
    · cases h
  · split at h
    · cases h; wstep; all_goals grind
    · cases h
  · split at h
    · cases h; constructor <;> simp [check_all, sleep_all]
    · cases h
  · cases h; exact ⟨ct, tw, xw⟩
  · split at h
    · rename_i hpc
      have pC := congrArg HPC.checking hpc; have pS := congrArg HPC.sleeps hpc
      simp only [check_all, sleep_all] at pC pS
      cases h; wstep; all_goals grind
    · cases h
  · split at h
    · rename_i hpc
      have pK := congrArg PPC.tasking hpc
      simp only [tasking_all] at pK
      repeat' split at h
      all_goals (cases h; wstep; all_goals grind)
    · cases h

set_option maxHeartbeats 4000000 in
theorem pstep_winv (P : Prog σ) (p w : Nat) (s : MSt σ) (es) (s') (I : MInv P s) (W : WInv s) (h : pstep P p w s = some (es, s')) : WInv s' := by
  obtain ⟨ct, tw, xw⟩ := W
  have nx := I.nx
  have tl := I.tl
  have off := I.off
  have cT : ∀ x, (s.th x).checking = true → (s.th x).holdsT = true := fun x => checking_holdsT
  unfold pstep at h
  split at h
  case h_1 => cases h
  all_goals rename_i hpc
  all_goals (have pK := congrArg PPC.tasking hpc; simp only [tasking_all] at pK)
  case h_8 =>
    split at h
    · split at h
      · rename_i hw
        have pC := congrArg HPC.checking hw; have pS := congrArg HPC.sleeps hw
        simp only [check_all, sleep_all] at pC pS
        cases h; wstep; all_goals grind
      · split at h
        · rename_i hno
          have hn : ∀ x, (s.th x).sleeps = false := by
            intro x
            by_cases hx : x < P.threads
            · have := hno x (List.mem_range.2 hx)
              cases hh : (s.th x).sleeps with
              | false => rfl
              | true => exact absurd (sleeps_iff.1 hh) this
            · rw [off x (by omega)]; rfl
          cases h; wstep; all_goals grind
        · cases h
    · cases h
  all_goals repeat' split at h
  all_goals first
    | (cases h; done)
    | (cases h; wstep; all_goals grind)

theorem init_winv (x : σ) : WInv (mInit x) := by
  constructor <;> simp [mInit, check_all, sleep_all]

theorem run_winv {P : Prog σ} {x tr s'} (h : MRun P (mInit x) tr s') : WInv s' := by
  induction h with
  | refl => exact init_winv x
  | step hr h ih =>
    obtain ⟨I, _, _, _⟩ := run_kq hr
    cases h with
    | handler t h => exact hstep_winv P t _ _ _ I ih h
    | pusher p w h => exact pstep_winv P p w _ _ _ I ih h
    | env e h => exact estep_winv P e _ _ _ I ih h

end Fcgi.Model
