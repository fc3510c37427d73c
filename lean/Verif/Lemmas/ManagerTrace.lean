import Verif.Lemmas.ManagerEffect
/-! # What an observer of one request sees -/
namespace Fcgi.Model
open Fcgi.Spec
variable {σ : Type}

/-- The request the thread is between two messages of. -/
def HPC.calm : HPC → Option Nat
  | .enter _ r | .look _ r | .kept _ r | .stay _ r => some r
  | _ => none
/-- The request the thread is about to remove. -/
def HPC.closing : HPC → Option Nat
  | .over _ r | .erase _ r => some r
  | _ => none
/-- The request and message the thread is working on. -/
def HPC.doing : HPC → Option (Nat × Message)
  | .work _ r m => some (r, m)
  | _ => none
theorem calm_all : (HPC.off.calm = none) ∧
    (HPC.boot.calm = none) ∧
    (HPC.top.calm = none) ∧
    (HPC.test.calm = none) ∧
    (HPC.drain.calm = none) ∧
    (∀ (k : RequestId), (HPC.popped k).calm = none) ∧
    (∀ (k : RequestId), (HPC.find k).calm = none) ∧
    (∀ (k : RequestId) (r : Nat), (HPC.enter k r).calm = some r) ∧
    (∀ (k : RequestId) (r : Nat), (HPC.look k r).calm = some r) ∧
    (∀ (k : RequestId) (r : Nat) (m : Message), (HPC.work k r m).calm = none) ∧
    (∀ (k : RequestId) (r : Nat), (HPC.kept k r).calm = some r) ∧
    (∀ (k : RequestId) (r : Nat), (HPC.stay k r).calm = some r) ∧
    (∀ (k : RequestId) (r : Nat), (HPC.part k r).calm = none) ∧
    (∀ (k : RequestId) (r : Nat), (HPC.over k r).calm = none) ∧
    (∀ (k : RequestId) (r : Nat), (HPC.erase k r).calm = none) ∧
    (HPC.relock.calm = none) ∧
    (HPC.check.calm = none) ∧
    (HPC.judge.calm = none) ∧
    (HPC.waiting.calm = none) ∧
    (HPC.woken.calm = none) ∧
    (HPC.finished.calm = none) := by
  refine ⟨?_, ?_, ?_, ?_, ?_, ?_, ?_, ?_, ?_, ?_, ?_, ?_, ?_, ?_, ?_, ?_, ?_, ?_, ?_, ?_, ?_⟩ <;> intros <;> rfl
theorem closing_all : (HPC.off.closing = none) ∧
    (HPC.boot.closing = none) ∧
    (HPC.top.closing = none) ∧
    (HPC.test.closing = none) ∧
    (HPC.drain.closing = none) ∧
    (∀ (k : RequestId), (HPC.popped k).closing = none) ∧
    (∀ (k : RequestId), (HPC.find k).closing = none) ∧
    (∀ (k : RequestId) (r : Nat), (HPC.enter k r).closing = none) ∧
    (∀ (k : RequestId) (r : Nat), (HPC.look k r).closing = none) ∧
    (∀ (k : RequestId) (r : Nat) (m : Message), (HPC.work k r m).closing = none) ∧
    (∀ (k : RequestId) (r : Nat), (HPC.kept k r).closing = none) ∧
    (∀ (k : RequestId) (r : Nat), (HPC.stay k r).closing = none) ∧
    (∀ (k : RequestId) (r : Nat), (HPC.part k r).closing = none) ∧
    (∀ (k : RequestId) (r : Nat), (HPC.over k r).closing = some r) ∧
    (∀ (k : RequestId) (r : Nat), (HPC.erase k r).closing = some r) ∧
    (HPC.relock.closing = none) ∧
    (HPC.check.closing = none) ∧
    (HPC.judge.closing = none) ∧
    (HPC.waiting.closing = none) ∧
    (HPC.woken.closing = none) ∧
    (HPC.finished.closing = none) := by
  refine ⟨?_, ?_, ?_, ?_, ?_, ?_, ?_, ?_, ?_, ?_, ?_, ?_, ?_, ?_, ?_, ?_, ?_, ?_, ?_, ?_, ?_⟩ <;> intros <;> rfl
theorem doing_all : (HPC.off.doing = none) ∧
    (HPC.boot.doing = none) ∧
    (HPC.top.doing = none) ∧
    (HPC.test.doing = none) ∧
    (HPC.drain.doing = none) ∧
    (∀ (k : RequestId), (HPC.popped k).doing = none) ∧
    (∀ (k : RequestId), (HPC.find k).doing = none) ∧
    (∀ (k : RequestId) (r : Nat), (HPC.enter k r).doing = none) ∧
    (∀ (k : RequestId) (r : Nat), (HPC.look k r).doing = none) ∧
    (∀ (k : RequestId) (r : Nat) (m : Message), (HPC.work k r m).doing = some (r, m)) ∧
    (∀ (k : RequestId) (r : Nat), (HPC.kept k r).doing = none) ∧
    (∀ (k : RequestId) (r : Nat), (HPC.stay k r).doing = none) ∧
    (∀ (k : RequestId) (r : Nat), (HPC.part k r).doing = none) ∧
    (∀ (k : RequestId) (r : Nat), (HPC.over k r).doing = none) ∧
    (∀ (k : RequestId) (r : Nat), (HPC.erase k r).doing = none) ∧
    (HPC.relock.doing = none) ∧
    (HPC.check.doing = none) ∧
    (HPC.judge.doing = none) ∧
    (HPC.waiting.doing = none) ∧
    (HPC.woken.doing = none) ∧
    (HPC.finished.doing = none) := by
  refine ⟨?_, ?_, ?_, ?_, ?_, ?_, ?_, ?_, ?_, ?_, ?_, ?_, ?_, ?_, ?_, ?_, ?_, ?_, ?_, ?_, ?_⟩ <;> intros <;> rfl
theorem put_calm (f : Nat → HPC) (t x : Nat) (pc : HPC) : (put f t pc x).calm = if x = t then pc.calm else (f x).calm := by
  unfold put; split <;> rfl
theorem notify_calm (f : Nat → HPC) (x : Nat) : (if f x = .waiting then HPC.woken else f x).calm = (f x).calm := by
  split <;> simp_all [calm_all]
theorem put_closing (f : Nat → HPC) (t x : Nat) (pc : HPC) : (put f t pc x).closing = if x = t then pc.closing else (f x).closing := by
  unfold put; split <;> rfl
theorem notify_closing (f : Nat → HPC) (x : Nat) : (if f x = .waiting then HPC.woken else f x).closing = (f x).closing := by
  split <;> simp_all [closing_all]
theorem put_doing (f : Nat → HPC) (t x : Nat) (pc : HPC) : (put f t pc x).doing = if x = t then pc.doing else (f x).doing := by
  unfold put; split <;> rfl
theorem notify_doing (f : Nat → HPC) (x : Nat) : (if f x = .waiting then HPC.woken else f x).doing = (f x).doing := by
  split <;> simp_all [doing_all]
theorem holdsM_cases {pc : HPC} {r : Nat} : pc.holdsM = some r ↔ pc.calm = some r ∨ pc.closing = some r ∨ ∃ m, pc.doing = some (r, m) := by
  cases pc <;> simp [HPC.holdsM, HPC.calm, HPC.closing, HPC.doing]

structure TInv (f : Nat → Watch) (s : MSt σ) : Prop where
  wk : ∀ t r m, (s.th t).doing = some (r, m) → f r = .busy t m
  wf : ∀ t r, (s.th t).calm = some r → f r = .free
  wo : ∀ t r, (s.th t).closing = some r → f r = .free ∨ f r = .over
  wm : ∀ r, (s.objs r).mutex = none → (s.objs r).alive = true → f r = .free
  wn : ∀ r, s.next ≤ r → f r = .free
  ww : ∀ r, f r ≠ .wrong

macro "tstep" : tactic => `(tactic| (
  constructor <;> simp only [MSt.goto, MSt.pgoto, MSt.setObj, MSt.touch, MSt.destroy, MSt.notifyAll, put_calm, put_closing, put_doing,
    put_mutex, put_alive, calm_all, closing_all, doing_all, notify_calm, notify_closing, notify_doing, List.foldl_nil, List.foldl_cons, Watch.see]))
macro "tprofile " h:ident : tactic => `(tactic| (
  have pN := congrArg HPC.holdsM $h
  have pQ := congrArg HPC.mutexOf $h
  have pC := congrArg HPC.calm $h
  have pL := congrArg HPC.closing $h
  have pD := congrArg HPC.doing $h
  simp only [N_all, M_all, calm_all, closing_all, doing_all] at pN pQ pC pL pD))

theorem same_holder {P : Prog σ} {s : MSt σ} (I : MInv P s) {t r : Nat} (h : (s.th t).holdsM = some r) :
    (s.objs r).mutex = some t ∧ ∀ x, (s.th x).holdsM = some r → x = t := by
  have h2 := (I.mu r t).2 h
  refine ⟨h2, fun x hx => ?_⟩
  have h1 := (I.mu r x).2 hx
  rw [h2] at h1; cases h1; rfl

set_option maxHeartbeats 4000000 in
theorem hstep_tinv (P : Prog σ) (t : Nat) (s : MSt σ) (es) (s') (f : Nat → Watch) (I : MInv P s) (T : TInv f s) (h : hstep P t s = some (es, s')) :
    TInv (fun r => es.foldl (Watch.see r) (f r)) s' := by
  obtain ⟨wk, wf, wo, wm, wn, ww⟩ := T
  have mu := I.mu
  have mt := I.mt
  have nx := I.nx
  have al := I.al
  have hc : ∀ x r, (s.th x).calm = some r → (s.th x).holdsM = some r := fun x r h => holdsM_cases.2 (Or.inl h)
  have hl : ∀ x r, (s.th x).closing = some r → (s.th x).holdsM = some r := fun x r h => holdsM_cases.2 (Or.inr (Or.inl h))
  have hd : ∀ x r m, (s.th x).doing = some (r, m) → (s.th x).holdsM = some r := fun x r m h => holdsM_cases.2 (Or.inr (Or.inr ⟨m, h⟩))
  unfold hstep at h
  split at h
  all_goals rename_i hpc
  all_goals tprofile hpc
  case h_9 =>
    split at h
    · cases h; tstep; all_goals grind
    · rename_i hl
      have hm := mlookup_mem hl
      split at h
      · cases h; tstep; all_goals grind
      · cases h; tstep; all_goals grind
  case h_12 =>
    have hm := nx _ (mt t _ (congrArg HPC.mutexOf hpc))
    have hfr := wk t _ _ (congrArg HPC.doing hpc)
    have un := same_holder I (congrArg HPC.holdsM hpc)
    dsimp only at h
    cases hx : (P.handle (s.objs _).state _).2
    · rw [hx] at h; cases h; simp only [Bool.false_eq_true, if_false]; tstep; all_goals grind
    · rw [hx] at h; cases h; simp only [if_true]; tstep; all_goals grind
  all_goals (try have hm := nx _ (mt t _ (congrArg HPC.mutexOf hpc)))
  all_goals (try have hfr := wf t _ (congrArg HPC.calm hpc))
  all_goals (try have hfo := wo t _ (congrArg HPC.closing hpc))
  all_goals (try have un := same_holder I (congrArg HPC.holdsM hpc))
  all_goals repeat' split at h
  all_goals first
    | (cases h; done)
    | (cases h; tstep; all_goals grind)

theorem estep_tinv (P : Prog σ) (e : Outer) (s : MSt σ) (es) (s') (f : Nat → Watch) (I : MInv P s) (T : TInv f s) (h : estep P e s = some (es, s')) :
    TInv (fun r => es.foldl (Watch.see r) (f r)) s' := by
  obtain ⟨wk, wf, wo, wm, wn, ww⟩ := T
  unfold estep at h
  split at h
  · split at h
    · cases h
      have key : ∀ x, (if x < P.threads ∧ s.th x = .off then HPC.boot else s.th x).calm = (s.th x).calm ∧
          (if x < P.threads ∧ s.th x = .off then HPC.boot else s.th x).closing = (s.th x).closing ∧
          (if x < P.threads ∧ s.th x = .off then HPC.boot else s.th x).doing = (s.th x).doing := by
        intro x
        split
        · rename_i h; rw [h.2]; exact ⟨rfl, rfl, rfl⟩
        · exact ⟨rfl, rfl, rfl⟩
      have k1 := fun x => (key x).1
      have k2 := fun x => (key x).2.1
      have k3 := fun x => (key x).2.2
      constructor <;> simp only [k1, k2, k3, List.foldl_nil] <;> assumption
    · cases h
  · split at h
    · cases h; tstep; all_goals grind
    · cases h
  · split at h
    · cases h; tstep; all_goals grind
    · cases h
  · split at h
    · cases h; tstep; all_goals grind
    · cases h
  · cases h; exact ⟨wk, wf, wo, wm, wn, ww⟩
  · split at h
    · rename_i hpc
      tprofile hpc
      cases h; tstep; all_goals grind
    · cases h
  · repeat' split at h
    all_goals first
      | (cases h; done)
      | (cases h; tstep; all_goals grind)

set_option maxHeartbeats 4000000 in
theorem pstep_tinv (P : Prog σ) (p w : Nat) (s : MSt σ) (es) (s') (f : Nat → Watch) (I : MInv P s) (S : MSInv s) (T : TInv f s) (h : pstep P p w s = some (es, s')) :
    TInv (fun r => es.foldl (Watch.see r) (f r)) s' := by
  obtain ⟨wk, wf, wo, wm, wn, ww⟩ := T
  have mu := I.mu
  have mt := I.mt
  have nx := I.nx
  have al := I.al
  have hc : ∀ x r, (s.th x).calm = some r → (s.th x).holdsM = some r := fun x r h => holdsM_cases.2 (Or.inl h)
  have hl : ∀ x r, (s.th x).closing = some r → (s.th x).holdsM = some r := fun x r h => holdsM_cases.2 (Or.inr (Or.inl h))
  have hd : ∀ x r m, (s.th x).doing = some (r, m) → (s.th x).holdsM = some r := fun x r m h => holdsM_cases.2 (Or.inr (Or.inr ⟨m, h⟩))
  unfold pstep at h
  split at h
  all_goals rename_i hpc
  case h_4 =>
    rename_i r todo
    have hm := S.sw p _ (by rw [hpc]; exact List.mem_cons_self)
    split at h
    · rename_i hfree
      have un : ∀ x, (s.th x).holdsM ≠ some r := by
        intro x hx
        have := (mu r x).2 hx
        rw [hfree] at this; cases this
      have hfr := wm r hfree ((al r).2 ⟨_, hm⟩)
      cases h; tstep; all_goals grind
    · cases h; tstep; all_goals grind
  case h_7 =>
    split at h
    · split at h
      · split at h
        · cases h; tstep; all_goals grind
        · split at h
          · cases h; tstep; all_goals grind
          · cases h; tstep; all_goals grind
      · cases h; tstep; all_goals grind
    · split at h
      · cases h; tstep; all_goals grind
      · cases h
  case h_8 =>
    split at h
    · split at h
      · rename_i hw
        tprofile hw
        cases h; tstep; all_goals grind
      · split at h
        · cases h; tstep; all_goals grind
        · cases h
    · cases h
  all_goals repeat' split at h
  all_goals first
    | (cases h; done)
    | (cases h; tstep; all_goals grind)

theorem run_tinv {P : Prog σ} {x tr s'} (h : MRun P (mInit x) tr s') : TInv (fun r => watch r tr) s' := by
  induction h with
  | refl => constructor <;> simp [mInit, watch, doing_all, calm_all, closing_all]
  | step hr h ih =>
    rename_i tr s' es s''
    have e : (fun r => watch r (tr ++ es)) = fun r => es.foldl (Watch.see r) (watch r tr) := by
      funext r; simp [watch]
    rw [e]
    have I := (run_kq hr).1
    cases h with
    | handler t h => exact hstep_tinv P t _ _ _ _ I ih h
    | pusher p w h => exact pstep_tinv P p w _ _ _ _ I (run_kq hr).2.1 ih h
    | env e h => exact estep_tinv P e _ _ _ _ I ih h

/-! ### The state of a request -/

structure AInv (P : Prog σ) (tr : List MEvent) (s : MSt σ) : Prop where
  st : ∀ r k m0, .created r k m0 ∈ tr → (s.objs r).state = alone P.make P.handle k m0 (endedBy r tr)
  en : ∀ r, s.next ≤ r → endedBy r tr = []
  cr : ∀ k r, (k, r) ∈ s.table → ∃ m0, .created r k m0 ∈ tr
  fl : ∀ before r t m c after, tr = before ++ .ended r t m c :: after →
    ∃ k m0, .created r k m0 ∈ before ∧ c = (P.handle (alone P.make P.handle k m0 (endedBy r before)) m).2

theorem alone_snoc (P : Prog σ) (k m0 ms m) :
    alone P.make P.handle k m0 (ms ++ [m]) = (P.handle (alone P.make P.handle k m0 ms) m).1 := by
  simp [alone]

theorem step_ainv {P : Prog σ} {s es s' tr} (I : MInv P s) (S : MSInv s) (R : MRInv tr s) (A : AInv P tr s) (h : MStep P s es s') : AInv P (tr ++ es) s' := by
  obtain ⟨st, en, cr, fl⟩ := A
  have hE := step_effect I S h
  clear h
  have quiet : ∀ e, (∀ r t m c, e ≠ .ended r t m c) → (∀ r k m, e ≠ .created r k m) → (∀ e' ∈ s'.table, e' ∈ s.table) → s'.next = s.next →
      (∀ r, (s'.objs r).state = (s.objs r).state) → AInv P (tr ++ [e]) s' := by
    intro e h1 h2 h3 h4 h5
    have h6 : ∀ r, endedBy r (tr ++ [e]) = endedBy r tr := by
      intro r; rw [endedBy_append]
      cases e with
      | ended r t m c => exact absurd rfl (h1 r t m c)
      | _ => simp [endedBy]
    refine ⟨fun r k m0 hm => ?_, fun r hr => by rw [h6]; exact en r (by omega), fun k r hm => ?_, ?_⟩
    · rw [h6, h5]
      apply st
      rcases List.mem_append.1 hm with hm | hm
      · exact hm
      · rw [List.mem_singleton] at hm; exact absurd hm.symm (h2 _ _ _)
    · obtain ⟨m0, h⟩ := cr k r (h3 _ hm)
      exact ⟨m0, by simp [h]⟩
    · intro b r t m c a hb
      rcases snoc_eq hb with ⟨_, rfl, rfl⟩ | ⟨a', ha⟩
      · exact absurd rfl (h1 _ _ _ _)
      · exact fl b r t m c a' ha
  cases hE with
  | none h =>
    rw [List.append_nil]
    exact ⟨fun r k m0 hm => by rw [h.state]; exact st r k m0 hm, by rw [h.next]; exact en, by rw [h.table]; exact cr, fl⟩
  | quiet e he h =>
    refine quiet e ?_ ?_ (by rw [h.table]; simp) h.next h.state
    · intro r t m c hh; subst hh; simp [Spec.MEvent.quiet] at he
    · intro r t m hh; subst hh; simp [Spec.MEvent.quiet] at he
  | dropped k m hl hb h => exact quiet _ (by simp) (by simp) (by rw [h.table]; simp) h.next h.state
  | accepted k m r hl ht hn hq hs => exact quiet _ (by simp) (by simp) (by rw [ht]; simp) hn hs
  | began k r t m hpc ht hn hq hq' hs => exact quiet _ (by simp) (by simp) (by rw [ht]; simp) hn hs
  | removed k r hm ht hn hq hs =>
    refine quiet _ (by simp) (by simp) ?_ hn hs
    rw [ht]; intro e he; exact (List.mem_filter.1 he).1
  | created k m hl hb ht hn hq hs =>
    have h6 : ∀ r, endedBy r (tr ++ [.created s.next k m]) = endedBy r tr := by
      intro r; rw [endedBy_append]; simp [endedBy]
    refine ⟨fun r k' m0 hm => ?_, fun r hr => by rw [h6]; exact en r (by omega), fun k' r hm => ?_, ?_⟩
    · rw [h6, hs]
      rcases List.mem_append.1 hm with hm | hm
      · have := R.nw _ _ _ hm
        rw [if_neg (by omega)]
        exact st _ _ _ hm
      · rw [List.mem_singleton] at hm
        injection hm with e1 e2 e3
        subst e1 e2 e3
        rw [if_pos rfl, en _ (Nat.le_refl _)]; rfl
    · rw [ht] at hm
      rcases List.mem_cons.1 hm with hm | hm
      · cases hm; exact ⟨m, by simp⟩
      · obtain ⟨m0, h⟩ := cr k' r hm
        exact ⟨m0, by simp [h]⟩
    · intro b r t m c a hb
      rcases snoc_eq hb with ⟨_, rfl, h⟩ | ⟨a', ha⟩
      · cases h
      · exact fl b r t m c a' ha
  | ended k r t m hpc ht hn hq hs =>
    have hm : (k, r) ∈ s.table := I.mt t (k, r) (by rw [hpc]; rfl)
    have hlt := I.nx _ hm
    obtain ⟨m0, hm0⟩ := cr _ _ hm
    refine ⟨fun x k' m0 hm' => ?_, fun x hx => ?_, fun k' r hm => ?_, ?_⟩
    · have hc : .created x k' m0 ∈ tr := by simpa using hm'
      rw [endedBy_append, hs]
      by_cases h : x = r
      · subst h
        rw [if_pos rfl, st _ _ _ hc, ← alone_snoc]
        simp [endedBy]
      · rw [if_neg h, st _ _ _ hc]
        simp [endedBy, Ne.symm h]
    · rw [endedBy_append, en x (by omega)]
      simp only at hlt
      have : r ≠ x := by omega
      simp [endedBy, this]
    · rw [ht] at hm
      obtain ⟨m0, h⟩ := cr k' r hm
      exact ⟨m0, by simp [h]⟩
    · intro b r' t' m' c a hb
      rcases snoc_eq hb with ⟨_, rfl, h⟩ | ⟨a', ha⟩
      · injection h with e1 e2 e3 e4
        subst e1 e2 e3 e4
        exact ⟨k, m0, hm0, by rw [st _ _ _ hm0]⟩
      · exact fl b r' t' m' c a' ha

theorem run_ainv {P : Prog σ} {x tr s'} (h : MRun P (mInit x) tr s') : AInv P tr s' := by
  induction h with
  | refl =>
    refine ⟨by simp, fun r _ => rfl, by simp [mInit], ?_⟩
    intro b r t m c a h; simp at h
  | step hr h ih => exact step_ainv (run_kq hr).1 (run_kq hr).2.1 (run_rinv hr) ih h

end Fcgi.Model
