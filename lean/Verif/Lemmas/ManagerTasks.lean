import Verif.Lemmas.ManagerInv
import Verif.Spec.ManagerTerms
/-! # No message is forgotten -/
namespace Fcgi.Model
open Fcgi.Spec
variable {σ : Type}

/-- The request id a call of push is dealing with. -/
def PPC.about : PPC → Option RequestId
  | .call k _ | .route k _ => some k
  | _ => none

theorem A_all : (HPC.off.attends = none) ∧
    (HPC.boot.attends = none) ∧
    (HPC.top.attends = none) ∧
    (HPC.test.attends = none) ∧
    (HPC.drain.attends = none) ∧
    (∀ (k : RequestId), (HPC.popped k).attends = some k) ∧
    (∀ (k : RequestId), (HPC.find k).attends = some k) ∧
    (∀ (k : RequestId) (r : Nat), (HPC.enter k r).attends = some k) ∧
    (∀ (k : RequestId) (r : Nat), (HPC.look k r).attends = some k) ∧
    (∀ (k : RequestId) (r : Nat) (m : Message), (HPC.work k r m).attends = some k) ∧
    (∀ (k : RequestId) (r : Nat), (HPC.kept k r).attends = none) ∧
    (∀ (k : RequestId) (r : Nat), (HPC.stay k r).attends = none) ∧
    (∀ (k : RequestId) (r : Nat), (HPC.part k r).attends = none) ∧
    (∀ (k : RequestId) (r : Nat), (HPC.over k r).attends = some k) ∧
    (∀ (k : RequestId) (r : Nat), (HPC.erase k r).attends = some k) ∧
    (HPC.relock.attends = none) ∧
    (HPC.check.attends = none) ∧
    (HPC.judge.attends = none) ∧
    (HPC.waiting.attends = none) ∧
    (HPC.woken.attends = none) ∧
    (HPC.finished.attends = none) := by
  refine ⟨?_, ?_, ?_, ?_, ?_, ?_, ?_, ?_, ?_, ?_, ?_, ?_, ?_, ?_, ?_, ?_, ?_, ?_, ?_, ?_, ?_⟩ <;> intros <;> rfl

theorem att_put (f : Nat → HPC) (t : Nat) (pc : HPC) (k : RequestId) :
    (∃ x, (put f t pc x).attends = some k) ↔ (pc.attends = some k ∨ ∃ x, x ≠ t ∧ (f x).attends = some k) := by
  constructor
  · rintro ⟨x, hx⟩
    by_cases h : x = t
    · subst h; rw [put_same] at hx; exact Or.inl hx
    · rw [put_other _ _ _ h] at hx; exact Or.inr ⟨x, h, hx⟩
  · rintro (h | ⟨x, hx, h⟩)
    · exact ⟨t, by rw [put_same]; exact h⟩
    · exact ⟨x, by rw [put_other _ _ _ hx]; exact h⟩

theorem att_notify (f : Nat → HPC) (x : Nat) : (if f x = .waiting then HPC.woken else f x).attends = (f x).attends := by
  split <;> simp_all [A_all]

theorem task_put (f : Nat → PPC) (p : Nat) (pc : PPC) (k : RequestId) :
    (∃ x, put f p pc x = .task k) ↔ (pc = .task k ∨ ∃ x, x ≠ p ∧ f x = .task k) := by
  constructor
  · rintro ⟨x, hx⟩
    by_cases h : x = p
    · subst h; rw [put_same] at hx; exact Or.inl hx
    · rw [put_other _ _ _ h] at hx; exact Or.inr ⟨x, h, hx⟩
  · rintro (h | ⟨x, hx, h⟩)
    · exact ⟨p, by rw [put_same]; exact h⟩
    · exact ⟨x, by rw [put_other _ _ _ hx]; exact h⟩

theorem about_all : (PPC.idle.about = none) ∧ (∀ (k : RequestId) (m : Message), (PPC.note k m).about = none) ∧ (∀ x : Nat, (PPC.lost x).about = none) ∧
    (∀ (x : Nat) (l : List (RequestId × Nat)), (PPC.sweep x l).about = none) ∧ (∀ (k : RequestId) (m : Message), (PPC.call k m).about = some k) ∧
    (∀ (k : RequestId) (m : Message), (PPC.route k m).about = some k) ∧ (∀ k : RequestId, (PPC.task k).about = none) := by
  refine ⟨?_, ?_, ?_, ?_, ?_, ?_, ?_⟩ <;> intros <;> rfl

structure MKInv (s : MSt σ) : Prop where
  tk : ∀ e ∈ s.table, e.1.id ≠ 0 ∧ e.1.id ≠ 0xffff
  pk : ∀ p k, (s.pu p).about = some k → k.id ≠ 0 ∧ k.id ≠ 0xffff

/-- A request with messages waiting is being looked after. -/
def MQInv (s : MSt σ) : Prop :=
  ∀ k r, (k, r) ∈ s.table → (s.objs r).queue ≠ [] →
    k ∈ s.tasks ∨ (∃ t, (s.th t).attends = some k) ∨ ∃ p, s.pu p = .task k

theorem hstep_kinv (P : Prog σ) (t : Nat) (s : MSt σ) (es) (s') (K : MKInv s) (h : hstep P t s = some (es, s')) : MKInv s' := by
  obtain ⟨h1, h2⟩ := hstep_table P t s es s' h
  refine ⟨?_, by rw [h1]; exact K.pk⟩
  rcases h2 with ⟨_, h2⟩ | ⟨k, r, hpc, h2⟩
  · rw [h2]; exact K.tk
  · rw [h2]; intro e he; exact K.tk e (List.mem_filter.1 he).1

theorem put_about (f : Nat → PPC) (p x : Nat) (pc : PPC) : (put f p pc x).about = if x = p then pc.about else (f x).about := by
  unfold put; split <;> rfl

theorem estep_kinv (P : Prog σ) (e : Outer) (s : MSt σ) (es) (s') (K : MKInv s) (h : estep P e s = some (es, s')) : MKInv s' := by
  obtain ⟨tk, pk⟩ := K
  unfold estep at h
  split at h
  all_goals repeat' split at h
  all_goals first
    | (cases h; done)
    | (cases h; exact ⟨tk, pk⟩)
    | skip
  all_goals
    cases h
    refine ⟨tk, fun q k hk => ?_⟩
    simp only [MSt.pgoto, put_about, about_all] at hk
    grind

theorem pstep_kinv (P : Prog σ) (p w : Nat) (s : MSt σ) (es) (s') (K : MKInv s) (h : pstep P p w s = some (es, s')) : MKInv s' := by
  obtain ⟨tk, pk⟩ := K
  unfold pstep at h
  split at h
  case h_1 => cases h
  all_goals rename_i hpc
  all_goals (have pA := congrArg PPC.about hpc; simp only [about_all] at pA)
  all_goals repeat' split at h
  all_goals first
    | (cases h; done)
    | (cases h
       refine ⟨?_, fun q k hk => ?_⟩
       · simp only [MSt.pgoto, MSt.goto, MSt.touch, MSt.destroy, MSt.setObj]
         grind
       · simp only [MSt.pgoto, MSt.goto, MSt.touch, MSt.destroy, MSt.setObj, put_about, about_all] at hk
         grind)

macro "qstep" : tactic => `(tactic| (
  simp only [MQInv, MSt.goto, MSt.pgoto, MSt.setObj, MSt.touch, MSt.destroy, MSt.notifyAll, att_put, task_put, put_queue, A_all, att_notify]
  grind))

set_option maxHeartbeats 4000000 in
theorem hstep_qinv (P : Prog σ) (t : Nat) (s : MSt σ) (es) (s') (I : MInv P s) (K : MKInv s) (Q : MQInv s) (h : hstep P t s = some (es, s')) : MQInv s' := by
  have tk := K.tk
  have mt := I.mt
  have mu := I.mu
  have mq := I.mq
  have nd := I.nd
  have ni := I.ni
  clear K
  unfold MQInv at Q
  unfold hstep at h
  split at h
  all_goals rename_i hpc
  all_goals (have pA := congrArg HPC.attends hpc; simp only [A_all] at pA)
  case h_9 k =>
    split at h
    · rename_i hl
      have hm := lookup_none hl
      cases h; qstep
    · rename_i r hl
      have hm := mlookup_mem hl
      split at h
      · cases h; qstep
      · rename_i hmut
        have hatt : (∃ x, x ≠ t ∧ (s.th x).attends = some k) ∨ (s.objs r).queue = [] := by
          cases hh : (s.objs r).mutex with
          | none => exact absurd hh hmut
          | some x =>
            have h1 := (mu r x).1 hh
            obtain ⟨k', h2⟩ := NM h1
            have h3 := mt x _ h2
            have h4 : k' = k := ni _ _ _ h3 hm
            subst h4
            have hx : x ≠ t := by rintro rfl; rw [hpc] at h2; simp [M_all] at h2
            cases hp : s.th x <;> rw [hp] at h2 <;> simp only [M_all, reduceCtorEq, Option.some.injEq, Prod.mk.injEq] at h2
            all_goals first
              | (obtain ⟨rfl, rfl⟩ := h2
                 first
                   | (left; exact ⟨x, hx, by rw [hp]; rfl⟩)
                   | (right; exact mq x _ (by rw [hp]; rfl)))
        cases h; qstep
  case h_11 =>
    have hm := mt t _ (congrArg HPC.mutexOf hpc)
    split at h
    · cases h; qstep
    · cases h; qstep
  case h_12 =>
    dsimp only at h
    cases hx : (P.handle (s.objs _).state _).2
    · rw [hx] at h; cases h; simp only [Bool.false_eq_true, if_false]; qstep
    · rw [hx] at h; cases h; simp only [if_true]; qstep
  all_goals repeat' split at h
  all_goals first
    | (cases h; done)
    | (cases h; qstep)

theorem estep_qinv (P : Prog σ) (e : Outer) (s : MSt σ) (es) (s') (I : MInv P s) (Q : MQInv s) (h : estep P e s = some (es, s')) : MQInv s' := by
  unfold MQInv at Q
  have off := I.off
  unfold estep at h
  split at h
  · split at h
    · cases h
      have key : ∀ x, (if x < P.threads ∧ s.th x = .off then HPC.boot else s.th x).attends = (s.th x).attends := by
        intro x
        split
        · rename_i h; rw [h.2]; rfl
        · rfl
      simp only [MQInv, key]
      exact Q
    · cases h
  · split at h
    · cases h; qstep
    · cases h
  · split at h
    · cases h; qstep
    · cases h
  · split at h
    · rename_i hall
      cases h
      have key : ∀ x, (s.th x).attends = none := by
        intro x
        by_cases hx : x < P.threads
        · rcases hall x (List.mem_range.2 hx) with h | h <;> rw [h] <;> rfl
        · rw [off x (by omega)]; rfl
      simp only [MQInv, A_all]
      simp only [key] at Q
      exact Q
    · cases h
  · cases h; exact Q
  · split at h
    · rename_i hpc
      have pA := congrArg HPC.attends hpc
      simp only [A_all] at pA
      cases h; qstep
    · cases h
  · repeat' split at h
    all_goals first
      | (cases h; done)
      | (cases h; qstep)

theorem pstep_qinv (P : Prog σ) (p w : Nat) (s : MSt σ) (es) (s') (I : MInv P s) (Q : MQInv s) (h : pstep P p w s = some (es, s')) : MQInv s' := by
  have nd := I.nd
  have ni := I.ni
  have nx := I.nx
  unfold MQInv at Q
  unfold pstep at h
  split at h
  case h_1 => cases h
  case h_7 =>
    rename_i hpc
    split at h
    · repeat' split at h
      all_goals first
        | (cases h; done)
        | (cases h; qstep)
    · rename_i hl
      have hm := mlookup_mem hl
      split at h
      · cases h; qstep
      · cases h
  case h_8 =>
    rename_i hpc
    split at h
    · split at h
      · rename_i hw
        have pA := congrArg HPC.attends hw
        simp only [A_all] at pA
        cases h; qstep
      · split at h
        · cases h; qstep
        · cases h
    · cases h
  all_goals rename_i hpc
  all_goals repeat' split at h
  all_goals first
    | (cases h; done)
    | (cases h; qstep)

theorem init_kq (x : σ) : MKInv (mInit x) ∧ MQInv (mInit x) := by
  constructor
  · constructor <;> simp [mInit, about_all]
  · intro k r h; simp [mInit] at h

theorem run_kq {P : Prog σ} {x tr s'} (h : MRun P (mInit x) tr s') : MInv P s' ∧ MSInv s' ∧ MKInv s' ∧ MQInv s' := by
  induction h with
  | refl => exact ⟨(init_inv P x).1, (init_inv P x).2, (init_kq x).1, (init_kq x).2⟩
  | step _ h ih =>
    obtain ⟨I, S, K, Q⟩ := ih
    obtain ⟨I', S'⟩ := step_inv I S h
    refine ⟨I', S', ?_⟩
    cases h with
    | handler t h => exact ⟨hstep_kinv P t _ _ _ K h, hstep_qinv P t _ _ _ I K Q h⟩
    | pusher p w h => exact ⟨pstep_kinv P p w _ _ _ K h, pstep_qinv P p w _ _ _ I Q h⟩
    | env e h => exact ⟨estep_kinv P e _ _ _ K h, estep_qinv P e _ _ _ I Q h⟩

end Fcgi.Model
