import Verif.Lemmas.ManagerCount
import Verif.Spec.ManagerTerms
/-! # Undefined behaviour -/
namespace Fcgi.Model
open Fcgi.Spec
variable {σ : Type}

theorem MRunW.run {P : Prog σ} {ok s tr s'} (h : MRunW P ok s tr s') : MRun P s tr s' := by
  induction h with
  | refl => exact .refl _
  | handler _ t h ih => exact .step ih (.handler t h)
  | pusher _ p w h ih => exact .step ih (.pusher p w h)
  | env _ e _ h ih => exact .step ih (.env e h)

/-- The request whose m_messagesMutex only the thread still holds. -/
def HPC.parting : HPC → Option (RequestId × Nat)
  | .part k r => some (k, r)
  | _ => none
def HPC.entering : HPC → Bool
  | .enter _ _ => true
  | _ => false
/-- The thread has taken out a task for the manager itself. -/
def HPC.own : HPC → Bool
  | .popped k => decide (k.id = 0)
  | _ => false
def PPC.own : PPC → Bool
  | .task k => decide (k.id = 0)
  | _ => false
def PPC.carries : PPC → Option Message
  | .call _ m | .route _ m => some m
  | _ => none
theorem parting_all : (HPC.off.parting = none) ∧
    (HPC.boot.parting = none) ∧
    (HPC.top.parting = none) ∧
    (HPC.test.parting = none) ∧
    (HPC.drain.parting = none) ∧
    (∀ (k : RequestId), (HPC.popped k).parting = none) ∧
    (∀ (k : RequestId), (HPC.find k).parting = none) ∧
    (∀ (k : RequestId) (r : Nat), (HPC.enter k r).parting = none) ∧
    (∀ (k : RequestId) (r : Nat), (HPC.look k r).parting = none) ∧
    (∀ (k : RequestId) (r : Nat) (m : Message), (HPC.work k r m).parting = none) ∧
    (∀ (k : RequestId) (r : Nat), (HPC.kept k r).parting = none) ∧
    (∀ (k : RequestId) (r : Nat), (HPC.stay k r).parting = none) ∧
    (∀ (k : RequestId) (r : Nat), (HPC.part k r).parting = some (k, r)) ∧
    (∀ (k : RequestId) (r : Nat), (HPC.over k r).parting = none) ∧
    (∀ (k : RequestId) (r : Nat), (HPC.erase k r).parting = none) ∧
    (HPC.relock.parting = none) ∧
    (HPC.check.parting = none) ∧
    (HPC.judge.parting = none) ∧
    (HPC.waiting.parting = none) ∧
    (HPC.woken.parting = none) ∧
    (HPC.finished.parting = none) := by
  refine ⟨?_, ?_, ?_, ?_, ?_, ?_, ?_, ?_, ?_, ?_, ?_, ?_, ?_, ?_, ?_, ?_, ?_, ?_, ?_, ?_, ?_⟩ <;> intros <;> rfl
theorem entering_all : (HPC.off.entering = false) ∧
    (HPC.boot.entering = false) ∧
    (HPC.top.entering = false) ∧
    (HPC.test.entering = false) ∧
    (HPC.drain.entering = false) ∧
    (∀ (k : RequestId), (HPC.popped k).entering = false) ∧
    (∀ (k : RequestId), (HPC.find k).entering = false) ∧
    (∀ (k : RequestId) (r : Nat), (HPC.enter k r).entering = true) ∧
    (∀ (k : RequestId) (r : Nat), (HPC.look k r).entering = false) ∧
    (∀ (k : RequestId) (r : Nat) (m : Message), (HPC.work k r m).entering = false) ∧
    (∀ (k : RequestId) (r : Nat), (HPC.kept k r).entering = false) ∧
    (∀ (k : RequestId) (r : Nat), (HPC.stay k r).entering = false) ∧
    (∀ (k : RequestId) (r : Nat), (HPC.part k r).entering = false) ∧
    (∀ (k : RequestId) (r : Nat), (HPC.over k r).entering = false) ∧
    (∀ (k : RequestId) (r : Nat), (HPC.erase k r).entering = false) ∧
    (HPC.relock.entering = false) ∧
    (HPC.check.entering = false) ∧
    (HPC.judge.entering = false) ∧
    (HPC.waiting.entering = false) ∧
    (HPC.woken.entering = false) ∧
    (HPC.finished.entering = false) := by
  refine ⟨?_, ?_, ?_, ?_, ?_, ?_, ?_, ?_, ?_, ?_, ?_, ?_, ?_, ?_, ?_, ?_, ?_, ?_, ?_, ?_, ?_⟩ <;> intros <;> rfl
theorem own_all : (HPC.off.own = false) ∧
    (HPC.boot.own = false) ∧
    (HPC.top.own = false) ∧
    (HPC.test.own = false) ∧
    (HPC.drain.own = false) ∧
    (∀ (k : RequestId), (HPC.popped k).own = decide (k.id = 0)) ∧
    (∀ (k : RequestId), (HPC.find k).own = false) ∧
    (∀ (k : RequestId) (r : Nat), (HPC.enter k r).own = false) ∧
    (∀ (k : RequestId) (r : Nat), (HPC.look k r).own = false) ∧
    (∀ (k : RequestId) (r : Nat) (m : Message), (HPC.work k r m).own = false) ∧
    (∀ (k : RequestId) (r : Nat), (HPC.kept k r).own = false) ∧
    (∀ (k : RequestId) (r : Nat), (HPC.stay k r).own = false) ∧
    (∀ (k : RequestId) (r : Nat), (HPC.part k r).own = false) ∧
    (∀ (k : RequestId) (r : Nat), (HPC.over k r).own = false) ∧
    (∀ (k : RequestId) (r : Nat), (HPC.erase k r).own = false) ∧
    (HPC.relock.own = false) ∧
    (HPC.check.own = false) ∧
    (HPC.judge.own = false) ∧
    (HPC.waiting.own = false) ∧
    (HPC.woken.own = false) ∧
    (HPC.finished.own = false) := by
  refine ⟨?_, ?_, ?_, ?_, ?_, ?_, ?_, ?_, ?_, ?_, ?_, ?_, ?_, ?_, ?_, ?_, ?_, ?_, ?_, ?_, ?_⟩ <;> intros <;> rfl
theorem pown_all : (PPC.idle.own = false) ∧
    (∀ (k : RequestId), (PPC.task k).own = decide (k.id = 0)) ∧
    (∀ (k : RequestId) (m : Message), (PPC.note k m).own = false) ∧
    (∀ (k : RequestId) (m : Message), (PPC.route k m).own = false) ∧
    (∀ (k : RequestId) (m : Message), (PPC.call k m).own = false) ∧
    (∀ (x : Nat), (PPC.lost x).own = false) ∧
    (∀ (x : Nat) (l : List (RequestId × Nat)), (PPC.sweep x l).own = false) := by
  refine ⟨?_, ?_, ?_, ?_, ?_, ?_, ?_⟩ <;> intros <;> rfl
theorem carries_all : (PPC.idle.carries = none) ∧
    (∀ (k : RequestId), (PPC.task k).carries = none) ∧
    (∀ (k : RequestId) (m : Message), (PPC.note k m).carries = none) ∧
    (∀ (k : RequestId) (m : Message), (PPC.route k m).carries = some m) ∧
    (∀ (k : RequestId) (m : Message), (PPC.call k m).carries = some m) ∧
    (∀ (x : Nat), (PPC.lost x).carries = none) ∧
    (∀ (x : Nat) (l : List (RequestId × Nat)), (PPC.sweep x l).carries = none) := by
  refine ⟨?_, ?_, ?_, ?_, ?_, ?_, ?_⟩ <;> intros <;> rfl
theorem put_parting (f : Nat → HPC) (t x : Nat) (pc : HPC) : (put f t pc x).parting = if x = t then pc.parting else (f x).parting := by
  unfold put; split <;> rfl
theorem notify_parting (f : Nat → HPC) (x : Nat) : (if f x = .waiting then HPC.woken else f x).parting = (f x).parting := by
  split <;> simp_all [parting_all]
theorem put_entering (f : Nat → HPC) (t x : Nat) (pc : HPC) : (put f t pc x).entering = if x = t then pc.entering else (f x).entering := by
  unfold put; split <;> rfl
theorem notify_entering (f : Nat → HPC) (x : Nat) : (if f x = .waiting then HPC.woken else f x).entering = (f x).entering := by
  split <;> simp_all [entering_all]
theorem put_own (f : Nat → HPC) (t x : Nat) (pc : HPC) : (put f t pc x).own = if x = t then pc.own else (f x).own := by
  unfold put; split <;> rfl
theorem notify_own (f : Nat → HPC) (x : Nat) : (if f x = .waiting then HPC.woken else f x).own = (f x).own := by
  split <;> simp_all [own_all]
theorem put_carries (f : Nat → PPC) (t x : Nat) (pc : PPC) : (put f t pc x).carries = if x = t then pc.carries else (f x).carries := by
  unfold put; split <;> rfl
theorem msgs_cases {pc : HPC} {r : Nat} (h : pc.msgsOf = some r) : pc.holdsM = some r ∨ ∃ k, pc.parting = some (k, r) := by
  cases pc <;> simp_all [HPC.holdsM, HPC.msgsOf, HPC.parting]
theorem parting_msgs {pc : HPC} {k} {r : Nat} (h : pc.parting = some (k, r)) : pc.msgsOf = some r := by
  cases pc <;> simp_all [HPC.msgsOf, HPC.parting]

structure UInv (s : MSt σ) : Prop where
  nl : ∀ p, (s.pu p).losing = false
  gd : ∀ p m, (s.pu p).carries = some m → Whole m
  pt : ∀ t e, (s.th t).parting = some e → e ∈ s.table
  pe : ∀ t e u, (s.th t).parting = some e → (s.th u).holdsM = some e.2 → (s.th u).entering = true

macro "ustep" : tactic => `(tactic| (
  constructor <;> simp only [MSt.goto, MSt.pgoto, MSt.setObj, MSt.touch, MSt.destroy, MSt.notifyAll, put_losing, put_carries, put_parting, put_entering, put_N,
    losing_all, carries_all, parting_all, entering_all, N_all, notify_N, notify_parting, notify_entering]))
macro "uprofile " h:ident : tactic => `(tactic| (
  have pN := congrArg HPC.holdsM $h
  have pM := congrArg HPC.mutexOf $h
  have pQ := congrArg HPC.msgsOf $h
  have pP := congrArg HPC.parting $h
  have pE := congrArg HPC.entering $h
  simp only [N_all, M_all, Q_all, parting_all, entering_all] at pN pM pQ pP pE))

set_option maxHeartbeats 4000000 in
theorem hstep_uinv (P : Prog σ) (t : Nat) (s : MSt σ) (es) (s') (I : MInv P s) (U : UInv s) (h : hstep P t s = some (es, s')) :
    UInv s' := by
  obtain ⟨nl, gd, pt, pe⟩ := U
  have mu := I.mu
  have ms := I.ms
  have mt := I.mt
  have nd := I.nd
  have pm : ∀ x k r, (s.th x).parting = some (k, r) → (s.objs r).msgs = some x := fun x k r h => (ms r x).2 (parting_msgs h)
  unfold hstep at h
  split at h
  all_goals rename_i hpc
  all_goals uprofile hpc
  case h_9 =>
    split at h
    · cases h; ustep; all_goals grind
    · rename_i hl
      have hm := mlookup_mem hl
      split at h
      · cases h; ustep; all_goals grind
      · cases h; ustep; all_goals grind
  case h_12 =>
    dsimp only at h
    cases hx : (P.handle (s.objs _).state _).2
    · rw [hx] at h; cases h; simp only [Bool.false_eq_true, if_false]; ustep; all_goals grind
    · rw [hx] at h; cases h; simp only [if_true]; ustep; all_goals grind
  case h_17 =>
    have hm := mt t _ (congrArg HPC.mutexOf hpc)
    cases h; ustep; all_goals grind
  all_goals (try have un := same_holder I (congrArg HPC.holdsM hpc))
  all_goals repeat' split at h
  all_goals first
    | (cases h; done)
    | (cases h; ustep; all_goals grind)

theorem estep_uinv (P : Prog σ) (e : Outer) (s : MSt σ) (es) (s') (U : UInv s) (he : Mild e) (h : estep P e s = some (es, s')) :
    UInv s' := by
  obtain ⟨nl, gd, pt, pe⟩ := U
  unfold estep at h
  split at h
  · split at h
    · cases h
      have key : ∀ x, (if x < P.threads ∧ s.th x = .off then HPC.boot else s.th x).parting = (s.th x).parting ∧
          (if x < P.threads ∧ s.th x = .off then HPC.boot else s.th x).holdsM = (s.th x).holdsM ∧
          (if x < P.threads ∧ s.th x = .off then HPC.boot else s.th x).entering = (s.th x).entering := by
        intro x
        split
        · rename_i h; rw [h.2]; exact ⟨rfl, rfl, rfl⟩
        · exact ⟨rfl, rfl, rfl⟩
      have k1 := fun x => (key x).1
      have k2 := fun x => (key x).2.1
      have k3 := fun x => (key x).2.2
      constructor <;> simp only [k1, k2, k3] <;> assumption
    · cases h
  · split at h
    · cases h; ustep; all_goals grind
    · cases h
  · split at h
    · cases h; ustep; all_goals grind
    · cases h
  · split at h
    · cases h; ustep; all_goals grind
    · cases h
  · cases h; exact ⟨nl, gd, pt, pe⟩
  · split at h
    · rename_i hpc
      uprofile hpc
      cases h; ustep; all_goals grind
    · cases h
  · obtain ⟨hk, hw⟩ := he
    split at h
    · cases h
      by_cases h0 : ‹RequestId›.id = 0
      · rw [if_pos h0]; ustep; all_goals grind
      · rw [if_neg h0]; ustep; all_goals grind
    · cases h

set_option maxHeartbeats 4000000 in
theorem pstep_uinv (P : Prog σ) (p w : Nat) (s : MSt σ) (es) (s') (U : UInv s) (h : pstep P p w s = some (es, s')) :
    UInv s' := by
  obtain ⟨nl, gd, pt, pe⟩ := U
  unfold pstep at h
  split at h
  all_goals rename_i hpc
  all_goals (have pL := congrArg PPC.losing hpc; have pC := congrArg PPC.carries hpc; simp only [losing_all, carries_all] at pL pC)
  case h_3 => rw [nl p] at pL; cases pL
  case h_4 => rw [nl p] at pL; cases pL
  case h_5 => rw [nl p] at pL; cases pL
  case h_8 =>
    split at h
    · split at h
      · rename_i hw
        uprofile hw
        cases h; ustep; all_goals grind
      · split at h
        · cases h; ustep; all_goals grind
        · cases h
    · cases h
  all_goals repeat' split at h
  all_goals first
    | (cases h; done)
    | (cases h; ustep; all_goals grind)

/-! ### The manager's own messages are counted by tasks -/

def ownTasks (l : List RequestId) : Nat := l.countP (fun k => decide (k.id = 0))

/-- There are as many messages for the manager as tasks for them, in the queue or with a thread or call. -/
def CInv (P : Prog σ) (s : MSt σ) : Prop :=
  ∃ N, (∀ q, N ≤ q → s.pu q = .idle) ∧
    s.messages.length = ownTasks s.tasks + total (fun t => (s.th t).own.toNat) P.threads + total (fun p => (s.pu p).own.toNat) N

theorem total_extend {f : Nat → Nat} {n m : Nat} (h : n ≤ m) (h0 : ∀ i, n ≤ i → f i = 0) : total f m = total f n := by
  induction m with
  | zero => rw [show n = 0 by omega]
  | succ m ih =>
    by_cases hm : n = m + 1
    · rw [hm]
    · rw [total, ih (by omega), h0 m (by omega)]; omega

theorem hstep_cinv (P : Prog σ) (t : Nat) (s : MSt σ) (es) (s') (I : MInv P s) (C : CInv P s) (h : hstep P t s = some (es, s')) :
    CInv P s' := by
  obtain ⟨N, hN, hc⟩ := C
  refine ⟨N, by rw [(hstep_table P t s es s' h).1]; exact hN, ?_⟩
  rw [(hstep_table P t s es s' h).1]
  have ht : t < P.threads := by
    apply Nat.lt_of_not_le
    intro hh
    unfold hstep at h
    rw [I.off t hh] at h
    cases h
  have hle := le_total (f := fun x => (s.th x).own.toNat) ht
  have sub := fun pc => total_sub (fun pc : HPC => pc.own.toNat) s.th ht pc
  unfold hstep at h
  split at h
  all_goals rename_i hpc
  all_goals rw [hpc] at hle sub
  case h_7 =>
    split at h
    · rename_i k l hts
      cases h
      have : ownTasks (k :: l) = ownTasks l + (decide (k.id = 0)).toNat := by
        simp only [ownTasks, List.countP_cons]
        cases decide (k.id = 0) <;> rfl
      rw [hts, this] at hc
      simp only [MSt.goto, sub, own_all, Bool.toNat_false] at *; omega
    · rename_i hts
      cases h; simp only [MSt.goto, sub, own_all, Bool.toNat_false] at *; rw [hc]; omega
  case h_8 =>
    split at h
    · rename_i hk
      split at h
      · rename_i hms
        cases h; simp only [MSt.goto, sub, own_all, hk, hms, List.length_cons, decide_true, Bool.toNat_true, Bool.toNat_false] at *; omega
      · rename_i hms
        simp only [own_all, hk, hms, List.length_nil, decide_true, Bool.toNat_true] at *; omega
    · rename_i hk
      split at h
      · cases h; simp only [MSt.goto, sub, own_all, hk, decide_false, Bool.toNat_false] at *; omega
      · cases h
  case h_12 =>
    cases h
    simp only [MSt.goto, MSt.setObj, MSt.touch, sub, own_all, Bool.toNat_false] at *
    split <;> (simp only [own_all, Bool.toNat_false] at *; omega)
  case h_20 =>
    split at h
    · cases h
      have e := total_sub (fun pc : HPC => pc.own.toNat) (fun x => if s.th x = .waiting then HPC.woken else s.th x) ht .finished
      simp only [notify_own, hpc, reduceCtorEq, if_false, own_all, Bool.toNat_false] at e
      simp only [MSt.goto, MSt.notifyAll, own_all, Bool.toNat_false] at *
      rw [e]; omega
    · cases h; simp only [MSt.goto, sub, own_all, Bool.toNat_false] at *; omega
  all_goals repeat' split at h
  all_goals first
    | (cases h; done)
    | (cases h; simp only [MSt.goto, MSt.setObj, MSt.touch, MSt.destroy, sub, own_all, Bool.toNat_false] at *; omega)

theorem pstep_cinv (P : Prog σ) (p w : Nat) (s : MSt σ) (es) (s') (I : MInv P s) (K : MKInv s) (C : CInv P s)
    (hno : ∀ p k m, s.pu p = .note k m → k.id = 0) (h : pstep P p w s = some (es, s')) : CInv P s' := by
  obtain ⟨N, hN, hc⟩ := C
  have hp : p < N := by
    apply Nat.lt_of_not_le
    intro hh
    unfold pstep at h
    rw [hN p hh] at h; cases h
  refine ⟨N, ?_, ?_⟩
  · obtain ⟨pc, h1, _⟩ := pstep_sweep P p w _ _ _ h
    intro q hq
    rw [h1, put_other _ _ _ (by omega)]; exact hN q hq
  have hle := le_total (f := fun x => (s.pu x).own.toNat) hp
  have sub := fun pc => total_sub (fun pc : PPC => pc.own.toNat) s.pu hp pc
  have snoc : ∀ k, ownTasks (s.tasks ++ [k]) = ownTasks s.tasks + (decide (k.id = 0)).toNat := by
    intro k
    simp only [ownTasks, List.countP_append, List.countP_cons, List.countP_nil]
    cases decide (k.id = 0) <;> rfl
  unfold pstep at h
  split at h
  all_goals rename_i hpc
  all_goals rw [hpc] at hle sub
  case h_2 =>
    have := hno p _ _ hpc
    cases h
    simp only [MSt.pgoto, sub, pown_all, this, List.length_append, List.length_cons, List.length_nil, decide_true, Bool.toNat_true, Bool.toNat_false] at *; omega
  case h_7 =>
    have hk := K.pk p _ (by rw [hpc]; rfl)
    split at h
    · repeat' split at h
      all_goals (cases h; simp only [MSt.pgoto, sub, pown_all, Bool.toNat_false] at *; omega)
    · split at h
      · cases h
        simp only [MSt.pgoto, MSt.setObj, MSt.touch, sub, pown_all, hk.1, decide_false, Bool.toNat_false] at *; omega
      · cases h
  case h_8 =>
    split at h
    · split at h
      · rename_i hw
        have hwn : w < P.threads := by
          apply Nat.lt_of_not_le
          intro hh
          rw [I.off w hh] at hw; cases hw
        have sut := fun pc => total_sub (fun pc : HPC => pc.own.toNat) s.th hwn pc
        rw [hw] at sut
        cases h
        simp only [MSt.pgoto, MSt.goto, sub, sut, snoc, pown_all, own_all, Bool.toNat_false] at *; omega
      · split at h
        · cases h
          simp only [MSt.pgoto, sub, snoc, pown_all, Bool.toNat_false] at *; omega
        · cases h
    · cases h
  all_goals repeat' split at h
  all_goals first
    | (cases h; done)
    | (cases h; simp only [MSt.pgoto, MSt.touch, MSt.destroy, sub, pown_all, Bool.toNat_false] at *; omega)

theorem estep_cinv (P : Prog σ) (e : Outer) (s : MSt σ) (es) (s') (C : CInv P s) (h : estep P e s = some (es, s')) : CInv P s' := by
  obtain ⟨N, hN, hc⟩ := C
  unfold estep at h
  split at h
  · split at h
    · cases h
      refine ⟨N, hN, ?_⟩
      have key : ∀ x, (if x < P.threads ∧ s.th x = .off then HPC.boot else s.th x).own = (s.th x).own := by
        intro x
        split
        · rename_i h; rw [h.2]; rfl
        · rfl
      simp only [key]; exact hc
    · cases h
  · split at h
    · cases h; refine ⟨N, hN, ?_⟩; simp only [MSt.notifyAll, notify_own]; exact hc
    · cases h
  · split at h
    · cases h; refine ⟨N, hN, ?_⟩; simp only [MSt.notifyAll, notify_own]; exact hc
    · cases h
  · split at h
    · rename_i hj
      cases h; refine ⟨N, hN, ?_⟩
      have e : total (fun t => (s.th t).own.toNat) P.threads = total (fun _ => (HPC.off).own.toNat) P.threads := by
        apply total_congr
        intro i hi
        rcases hj i (List.mem_range.2 hi) with h | h <;> rw [h] <;> rfl
      rw [e] at hc
      exact hc
    · cases h
  · cases h; exact ⟨N, hN, hc⟩
  · split at h
    · rename_i t hw
      cases h; refine ⟨N, hN, ?_⟩
      have e : total (fun x => (put s.th t HPC.woken x).own.toNat) P.threads = total (fun x => (s.th x).own.toNat) P.threads := by
        apply total_congr
        intro i _
        simp only [put_own]
        split
        · rename_i h; rw [h, hw]; rfl
        · rfl
      simp only [MSt.goto, e]; exact hc
    · cases h
  · split at h
    · rename_i p k m hp
      cases h
      refine ⟨max N (p + 1), ?_, ?_⟩
      · intro q hq
        simp only [MSt.pgoto]
        rw [put_other _ _ _ (by omega)]; exact hN q (by omega)
      · have e : total (fun x => (s.pu x).own.toNat) (max N (p + 1)) = total (fun x => (s.pu x).own.toNat) N :=
          total_extend (by omega) (fun i hi => by rw [hN i hi]; rfl)
        have e2 : ∀ pc : PPC, pc.own = false → total (fun x => (put s.pu p pc x).own.toNat) (max N (p + 1)) = total (fun x => (s.pu x).own.toNat) (max N (p + 1)) := by
          intro pc hpc
          apply total_congr
          intro i _
          unfold put
          split
          · rename_i h; rw [hpc, h, hp]; rfl
          · rfl
        simp only [MSt.pgoto]
        rw [e2, e]
        · exact hc
        · repeat' split
          all_goals rfl
    · cases h

theorem note_inv {P : Prog σ} {x tr s} (h : MRun P (mInit x) tr s) : ∀ p k m, s.pu p = .note k m → k.id = 0 := by
  induction h with
  | refl => intro p k m h; cases h
  | step hr h ih =>
    intro p k m hp
    cases h with
    | handler t h => rw [(hstep_table P t _ _ _ h).1] at hp; exact ih p k m hp
    | pusher q w h =>
      unfold pstep at h
      split at h
      all_goals repeat' split at h
      all_goals first
        | (cases h; done)
        | (cases h
           simp only [MSt.pgoto, MSt.goto, MSt.setObj, MSt.touch, MSt.destroy, put] at hp
           split at hp
           · cases hp
           · exact ih p k m hp)
    | env e h =>
      unfold estep at h
      split at h
      case h_7 =>
        split at h
        · cases h
          simp only [MSt.pgoto, put] at hp
          split at hp
          · split at hp
            · cases hp; assumption
            · split at hp <;> cases hp
          · exact ih p k m hp
        · cases h
      all_goals repeat' split at h
      all_goals first
        | (cases h; done)
        | (cases h; exact ih p k m hp)

theorem run_cinv {P : Prog σ} {x tr s} (h : MRun P (mInit x) tr s) : CInv P s := by
  induction h with
  | refl =>
    refine ⟨0, fun _ _ => rfl, ?_⟩
    have : total (fun t => ((mInit x).th t).own.toNat) P.threads = total (fun _ => 0) P.threads := total_congr (fun _ _ => rfl)
    have z : ∀ n, total (fun _ => 0) n = 0 := by intro n; induction n with | zero => rfl | succ n ih => rw [total, ih]
    rw [this, z]; rfl
  | step hr h ih =>
    obtain ⟨I, S, K, Q⟩ := run_kq hr
    cases h with
    | handler t h => exact hstep_cinv P t _ _ _ I ih h
    | pusher p w h => exact pstep_cinv P p w _ _ _ I K ih (note_inv hr) h
    | env e h => exact estep_cinv P e _ _ _ ih h

/-! ### No undefined behaviour -/

theorem own_message {P : Prog σ} {s : MSt σ} (I : MInv P s) (C : CInv P s) {t : Nat} {k : RequestId} (hpc : s.th t = .popped k) (hk : k.id = 0) :
    s.messages ≠ [] := by
  obtain ⟨N, hN, hc⟩ := C
  have ht : t < P.threads := by
    apply Nat.lt_of_not_le
    intro hh
    rw [I.off t hh] at hpc; cases hpc
  have hle := le_total (f := fun x => (s.th x).own.toNat) ht
  rw [hpc] at hle
  simp only [own_all, hk, decide_true, Bool.toNat_true] at hle
  intro h0
  rw [h0, List.length_nil] at hc
  omega

theorem hstep_ub (P : Prog σ) (t : Nat) (s : MSt σ) (es) (s') (I : MInv P s) (C : CInv P s) (U : UInv s) (hu : s.ub = false)
    (h : hstep P t s = some (es, s')) : s'.ub = false := by
  obtain ⟨nl, gd, pt, pe⟩ := U
  have al := I.al
  have alive : ∀ k r, (k, r) ∈ s.table → (s.objs r).alive = true := fun k r h => (al r).2 ⟨k, h⟩
  unfold hstep at h
  split at h
  all_goals rename_i hpc
  all_goals (try have hm := alive _ _ (I.mt t _ (congrArg HPC.mutexOf hpc)))
  case h_8 =>
    split at h
    · rename_i hk
      split at h
      · cases h; exact hu
      · rename_i h0; exact absurd h0 (own_message I C hpc hk)
    · split at h
      · cases h; exact hu
      · cases h
  case h_9 =>
    split at h
    · cases h; exact hu
    · rename_i hl
      have hm := alive _ _ (mlookup_mem hl)
      split at h <;> (cases h; simp [MSt.goto, MSt.setObj, MSt.touch, hu, hm])
  case h_15 =>
    have hm := alive _ _ (pt t _ (congrArg HPC.parting hpc))
    cases h; simp [MSt.goto, MSt.setObj, MSt.touch, hu, hm]
  case h_17 =>
    rename_i k r
    have hq : (s.objs r).msgs = none := by
      cases hx : (s.objs r).msgs with
      | none => rfl
      | some u =>
        exfalso
        have h1 := (I.ms r u).1 hx
        rcases msgs_cases h1 with h2 | ⟨k', h2⟩
        · have := (same_holder I (congrArg HPC.holdsM hpc)).2 u h2
          subst this
          rw [hpc] at h1; cases h1
        · have := pe u _ t h2 (congrArg HPC.holdsM hpc)
          rw [hpc] at this; cases this
    cases h
    simp [MSt.goto, MSt.setObj, MSt.touch, MSt.destroy, hu, hm, put_same, hq]
  all_goals repeat' split at h
  all_goals first
    | (cases h; done)
    | (cases h; exact hu)
    | (cases h; simp [MSt.goto, MSt.setObj, MSt.touch, hu, hm]; done)

theorem pstep_ub (P : Prog σ) (p w : Nat) (s : MSt σ) (es) (s') (I : MInv P s) (U : UInv s) (hu : s.ub = false)
    (h : pstep P p w s = some (es, s')) : s'.ub = false := by
  obtain ⟨nl, gd, pt, pe⟩ := U
  have alive : ∀ k r, (k, r) ∈ s.table → (s.objs r).alive = true := fun k r h => (I.al r).2 ⟨k, h⟩
  unfold pstep at h
  split at h
  all_goals rename_i hpc
  case h_4 => have := nl p; rw [hpc] at this; cases this
  case h_7 =>
    have hg := gd p _ (congrArg PPC.carries hpc)
    split at h
    · split at h
      · rename_i h0
        obtain ⟨b, hb, hb1⟩ := hg h0
        split at h
        · rename_i hn; rw [hb] at hn; cases hn
        · rename_i hn
          rw [hb] at hn; cases hn
          split at h
          · rename_i h1
            have := hb1 h1
            cases h
            simp [MSt.pgoto, hu]; omega
          · cases h; exact hu
      · cases h; exact hu
    · rename_i hl
      have hm := alive _ _ (mlookup_mem hl)
      split at h
      · cases h; simp [MSt.pgoto, MSt.setObj, MSt.touch, hu, hm]
      · cases h
  all_goals repeat' split at h
  all_goals first
    | (cases h; done)
    | (cases h; exact hu)

theorem run_safe {P : Prog σ} {x tr s} (h : MRunW P Mild (mInit x) tr s) : UInv s ∧ s.ub = false := by
  induction h with
  | refl => exact ⟨by constructor <;> simp [mInit, losing_all, carries_all, parting_all], rfl⟩
  | handler hr t h ih =>
    have I := (run_kq hr.run).1
    exact ⟨hstep_uinv P t _ _ _ I ih.1 h, hstep_ub P t _ _ _ I (run_cinv hr.run) ih.1 ih.2 h⟩
  | pusher hr p w h ih =>
    have I := (run_kq hr.run).1
    exact ⟨pstep_uinv P p w _ _ _ ih.1 h, pstep_ub P p w _ _ _ I ih.1 ih.2 h⟩
  | env hr e he h ih =>
    refine ⟨estep_uinv P e _ _ _ ih.1 he h, ?_⟩
    have hu := ih.2
    unfold estep at h
    split at h
    all_goals repeat' split at h
    all_goals first
      | (cases h; done)
      | (cases h; exact hu)

end Fcgi.Model
