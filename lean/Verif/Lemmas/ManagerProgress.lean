import Verif.Lemmas.ManagerQuiet
import Verif.Spec.ManagerTerms
/-! # Absence of deadlock, and the end of threads -/
namespace Fcgi.Model
open Fcgi.Spec
variable {σ : Type}

theorem holdsR_moves (P : Prog σ) {t : Nat} {s : MSt σ} (h : (s.th t).holdsR = true) : hstep P t s ≠ none := by
  unfold hstep
  cases hp : s.th t <;> rw [hp] at h <;> simp only [R_all, reduceCtorEq, Bool.false_eq_true] at h
  · dsimp only; split <;> simp
  · dsimp only; split
    · simp
    · split <;> simp
  · dsimp only; split <;> simp

theorem msgsOf_moves (P : Prog σ) {t r : Nat} {s : MSt σ} (h : (s.th t).msgsOf = some r) : hstep P t s ≠ none := by
  unfold hstep
  cases hp : s.th t <;> rw [hp] at h <;> simp only [Q_all, reduceCtorEq] at h
  · dsimp only; split <;> simp
  · dsimp only; split <;> simp
  · simp
  · simp

/-- If nothing can move but threads that handle a message, nobody else is on the way. -/
theorem still_but {P : Prog σ} {s : MSt σ} (I : MInv P s) (h1 : ∀ t, (∃ k r m, s.th t = .work k r m) ∨ hstep P t s = none)
    (h2 : ∀ p w, pstep P p w s = none) :
    (∀ t, (s.th t).resting = true ∨ ∃ k r m, s.th t = .work k r m) ∧ ∀ p, s.pu p = .idle := by
  have mv : ∀ t, (∀ k r m, s.th t ≠ .work k r m) → hstep P t s = none := by
    intro t hn
    rcases h1 t with ⟨k, r, m, c⟩ | c
    · exact absurd c (hn k r m)
    · exact c
  have nq : ∀ {t r : Nat}, (s.th t).msgsOf = some r → False := by
    intro t r h
    exact msgsOf_moves P h (mv t fun k r' m c => by rw [c] at h; cases h)
  have nr : ∀ {t : Nat}, (s.th t).holdsR = true → False := by
    intro t h
    exact holdsR_moves P h (mv t fun k r' m c => by rw [c] at h; cases h)
  have hmsgs : ∀ r, (s.objs r).msgs = none := by
    intro r
    cases hh : (s.objs r).msgs with
    | none => rfl
    | some t => exact (nq ((I.ms r t).1 hh)).elim
  have hread : s.readers = [] := by
    cases hh : s.readers with
    | nil => rfl
    | cons t l => exact (nr ((I.rd t).1 (by rw [hh]; simp))).elim
  have hwrite : s.writer = none := by
    cases hh : s.writer with
    | none => rfl
    | some x =>
      exfalso
      cases x with
      | handler t =>
        have he := (I.wh t).1 hh
        have := mv t (fun k r m c => by rw [c] at he; cases he)
        unfold hstep at this
        cases hp : s.th t <;> rw [hp] at he <;> simp only [E_all, Bool.false_eq_true, reduceCtorEq] at he
        rw [hp] at this
        simp at this
      | pusher p =>
        have he := (I.wp p).1 hh
        have := h2 p 0
        unfold pstep at this
        cases hp : s.pu p with
        | sweep x l =>
          rw [hp] at this
          cases l with
          | nil => simp at this
          | cons e l => obtain ⟨k, r⟩ := e; dsimp only at this; split at this <;> simp at this
        | route k m =>
          rw [hp] at this
          dsimp only at this
          split at this
          · split at this
            · split at this
              · simp at this
              · split at this <;> simp at this
            · simp at this
          · rw [if_pos (hmsgs _)] at this; simp at this
        | _ => rw [hp] at he; simp [W_all] at he
  have htl : s.tlock = none := by
    cases hh : s.tlock with
    | none => rfl
    | some t =>
      exfalso
      have ht := (I.tl t).1 hh
      have := mv t (fun k r m c => by rw [c] at ht; cases ht)
      unfold hstep at this
      cases hp : s.th t <;> rw [hp] at ht <;> simp only [T_all, Bool.false_eq_true, reduceCtorEq] at ht
      · rw [hp] at this; simp [hwrite] at this
      · rw [hp] at this; dsimp only at this; split at this <;> simp at this
      · rw [hp] at this; dsimp only at this; split at this <;> simp at this
      · rw [hp] at this; simp [hwrite] at this
      · rw [hp] at this; dsimp only at this; split at this <;> simp at this
  constructor
  · intro t
    have := mv t
    unfold hstep at this
    cases hp : s.th t with
    | off => exact .inl rfl
    | waiting => exact .inl rfl
    | finished => exact .inl rfl
    | boot => rw [hp] at this; replace this := this (by simp); simp [htl] at this
    | relock => rw [hp] at this; replace this := this (by simp); simp [htl] at this
    | woken => rw [hp] at this; replace this := this (by simp); simp [htl] at this
    | popped k =>
      rw [hp] at this
      replace this := this (by simp)
      dsimp only at this
      by_cases hk : k.id = 0
      · rw [if_pos hk] at this; split at this <;> simp at this
      · rw [if_neg hk, if_pos hwrite] at this; simp at this
    | enter k r => rw [hp] at this; replace this := this (by simp); simp [hmsgs] at this
    | work k r m => exact .inr ⟨k, r, m, rfl⟩
    | over k r => rw [hp] at this; replace this := this (by simp); simp [hwrite, hread] at this
    | erase k r => rw [hp] at this; replace this := this (by simp); simp at this
    | top => have := (I.tl t).2 (by rw [hp]; rfl); rw [htl] at this; cases this
    | test => have := (I.tl t).2 (by rw [hp]; rfl); rw [htl] at this; cases this
    | drain => have := (I.tl t).2 (by rw [hp]; rfl); rw [htl] at this; cases this
    | check => have := (I.tl t).2 (by rw [hp]; rfl); rw [htl] at this; cases this
    | judge => have := (I.tl t).2 (by rw [hp]; rfl); rw [htl] at this; cases this
    | find k => have := (I.rd t).2 (by rw [hp]; rfl); rw [hread] at this; cases this
    | look k r => exact (nq (t := t) (r := r) (by rw [hp]; rfl)).elim
    | kept k r => exact (nq (t := t) (r := r) (by rw [hp]; rfl)).elim
    | stay k r => exact (nq (t := t) (r := r) (by rw [hp]; rfl)).elim
    | part k r => exact (nq (t := t) (r := r) (by rw [hp]; rfl)).elim
  · intro p
    cases hp : s.pu p with
    | idle => rfl
    | note k m => have := h2 p 0; unfold pstep at this; rw [hp] at this; simp at this
    | lost x => have := h2 p 0; unfold pstep at this; rw [hp] at this; simp [hwrite, hread] at this
    | call k m => have := h2 p 0; unfold pstep at this; rw [hp] at this; simp [hwrite, hread] at this
    | sweep x l => have := (I.wp p).2 (by rw [hp]; rfl); rw [hwrite] at this; cases this
    | route k m => have := (I.wp p).2 (by rw [hp]; rfl); rw [hwrite] at this; cases this
    | task k =>
      exfalso
      by_cases hw : ∃ w, s.th w = .waiting
      · obtain ⟨w, hw⟩ := hw
        have := h2 p w; unfold pstep at this; rw [hp] at this; simp [htl, hw] at this
      · have hw' : ∀ w, s.th w ≠ .waiting := fun w h => hw ⟨w, h⟩
        have := h2 p 0; unfold pstep at this; rw [hp] at this
        dsimp only at this
        rw [if_pos htl, if_neg (hw' 0), if_pos (fun t _ => hw' t)] at this
        simp at this

/-- If nothing can move, nobody is on the way. -/
theorem still_rest {P : Prog σ} {s : MSt σ} (I : MInv P s) (h : Still P s) :
    (∀ t, (s.th t).resting = true) ∧ ∀ p, s.pu p = .idle := by
  obtain ⟨h1, h2⟩ := still_but I (fun t => .inr (h.1 t)) h.2
  refine ⟨fun t => ?_, h2⟩
  rcases h1 t with c | ⟨k, r, m, c⟩
  · exact c
  · have := h.1 t
    unfold hstep at this
    rw [c] at this
    cases this

/-- Without lost connections: if the condition for ending holds and somebody waits, somebody else will tell. -/
structure LInv (s : MSt σ) : Prop where
  nl : ∀ p, (s.pu p).losing = false
  lv : s.leave = true → ∀ t, (s.th t).sleeps = true → ∃ x, (s.th x).inner = true

macro "lstep" : tactic => `(tactic| (
  constructor <;> simp only [MSt.goto, MSt.pgoto, MSt.setObj, MSt.touch, MSt.destroy, MSt.notifyAll, MSt.leave, ex_inner, put_sleeps, put_losing,
    inner_all, sleep_all, losing_all, notify_inner, notify_sleeps]))

set_option maxHeartbeats 4000000 in
theorem hstep_linv (P : Prog σ) (t : Nat) (s : MSt σ) (es) (s') (L : LInv s) (h : hstep P t s = some (es, s')) : LInv s' := by
  obtain ⟨nl, lv⟩ := L
  unfold MSt.leave at lv
  unfold hstep at h
  split at h
  all_goals rename_i hpc
  all_goals (have pI := congrArg HPC.inner hpc; have pS := congrArg HPC.sleeps hpc)
  all_goals (simp only [inner_all, sleep_all] at pI pS)
  case h_12 =>
    dsimp only at h
    cases hx : (P.handle (s.objs _).state _).2
    · rw [hx] at h; cases h; simp only [Bool.false_eq_true, if_false]; lstep; all_goals grind
    · rw [hx] at h; cases h; simp only [if_true]; lstep; all_goals grind
  case h_20 =>
    split at h
    · cases h; lstep; all_goals grind
    · rename_i hl
      simp only [MSt.leave] at hl
      cases h; lstep; all_goals grind
  all_goals repeat' split at h
  all_goals first
    | (cases h; done)
    | (cases h; lstep; all_goals grind)

theorem estep_linv (P : Prog σ) (e : Outer) (s : MSt σ) (es) (s') (L : LInv s) (hn : ∀ x, .lost x ∉ es) (h : estep P e s = some (es, s')) : LInv s' := by
  obtain ⟨nl, lv⟩ := L
  unfold MSt.leave at lv
  unfold estep at h
  split at h
  · split at h
    · cases h
      refine ⟨nl, ?_⟩
      simp [MSt.leave]
    · cases h
  · split at h
    · cases h; lstep; all_goals grind
    · cases h
  · split at h
    · cases h; lstep; all_goals grind
    · cases h
  · split at h
    · cases h; exact ⟨nl, by simp [sleep_all]⟩
    · cases h
  · cases h; exact ⟨nl, lv⟩
  · split at h
    · rename_i hpc
      have pI := congrArg HPC.inner hpc; have pS := congrArg HPC.sleeps hpc
      simp only [inner_all, sleep_all] at pI pS
      cases h; lstep; all_goals grind
    · cases h
  · split at h
    · rename_i hpc
      cases h
      by_cases h1 : ‹RequestId›.id = 0
      · simp only [h1, if_true]; lstep; all_goals grind
      · by_cases h2 : ‹RequestId›.id = 0xffff
        · exfalso; simp only [h2, if_true] at hn; exact hn _ (List.mem_singleton.2 rfl)
        · simp only [h1, h2, if_false]; lstep; all_goals grind
    · cases h

set_option maxHeartbeats 4000000 in
theorem pstep_linv (P : Prog σ) (p w : Nat) (s : MSt σ) (es) (s') (L : LInv s) (h : pstep P p w s = some (es, s')) : LInv s' := by
  obtain ⟨nl, lv⟩ := L
  unfold MSt.leave at lv
  unfold pstep at h
  split at h
  case h_1 => cases h
  all_goals rename_i hpc
  all_goals (have pK := congrArg PPC.losing hpc; simp only [losing_all] at pK)
  case h_3 => rw [nl p] at pK; cases pK
  case h_4 => rw [nl p] at pK; cases pK
  case h_5 => rw [nl p] at pK; cases pK
  case h_8 =>
    split at h
    · split at h
      · rename_i hw
        have pI := congrArg HPC.inner hw; have pS := congrArg HPC.sleeps hw
        simp only [inner_all, sleep_all] at pI pS
        cases h; lstep; all_goals grind
      · split at h
        · cases h; lstep; all_goals grind
        · cases h
    · cases h
  all_goals repeat' split at h
  all_goals first
    | (cases h; done)
    | (cases h; lstep; all_goals grind)

theorem run_linv {P : Prog σ} {x tr s'} (h : MRun P (mInit x) tr s') (hn : ∀ x, .lost x ∉ tr) : LInv s' := by
  induction h with
  | refl => constructor <;> simp [mInit, losing_all, sleep_all]
  | step hr h ih =>
    have ih := ih (fun x hx => hn x (by simp [hx]))
    cases h with
    | handler t h => exact hstep_linv P t _ _ _ ih h
    | pusher p w h => exact pstep_linv P p w _ _ _ ih h
    | env e h => exact estep_linv P e _ _ _ ih (fun x hx => hn x (by simp [hx])) h

end Fcgi.Model
