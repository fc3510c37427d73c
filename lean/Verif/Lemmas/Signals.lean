import Verif.Model.Signals
import Verif.Lemmas.ManagerCount
import Verif.Lemmas.ManagerProgress
import Verif.Spec.SignalTerms
/-! # Threads in a signal handler -/
namespace Fcgi.Model
open Fcgi.Spec
variable {σ : Type}

theorem hstep_others (P : Prog σ) (t : Nat) (s : MSt σ) (es) (s') (h : hstep P t s = some (es, s')) :
    (∀ u, u ≠ t → s'.th u = s.th u ∨ s.th u = .waiting ∧ s'.th u = .woken) ∧ s'.pu = s.pu ∧ s'.stop = s.stop ∧ s'.terminate = s.terminate := by
  unfold hstep at h
  cases hp : s.th t <;> rw [hp] at h <;> dsimp only at h
  all_goals repeat' split at h
  all_goals first
    | (cases h; done)
    | (simp only [Option.some.injEq, Prod.mk.injEq] at h
       obtain ⟨rfl, rfl⟩ := h
       refine ⟨fun u hu => ?_, rfl, rfl, rfl⟩
       simp only [MSt.goto, MSt.setObj, MSt.touch, MSt.destroy, MSt.notifyAll, put, if_neg hu]
       first
         | exact Or.inl rfl
         | exact Or.inl trivial
         | (by_cases hw : s.th u = .waiting
            · right; rw [if_pos hw]; exact ⟨hw, rfl⟩
            · left; rw [if_neg hw]))

theorem pstep_others (P : Prog σ) (p w : Nat) (s : MSt σ) (es) (s') (h : pstep P p w s = some (es, s')) :
    (∀ u, s'.th u = s.th u ∨ s.th u = .waiting ∧ s'.th u = .woken) ∧ (∀ q, q ≠ p → s'.pu q = s.pu q) ∧ s'.stop = s.stop ∧ s'.terminate = s.terminate ∧
    s'.tlock = s.tlock := by
  unfold pstep at h
  cases hp : s.pu p <;> rw [hp] at h <;> dsimp only at h
  all_goals repeat' split at h
  all_goals first
    | (cases h; done)
    | (simp only [Option.some.injEq, Prod.mk.injEq] at h
       obtain ⟨rfl, rfl⟩ := h
       refine ⟨fun u => ?_, fun q hq => by simp only [MSt.pgoto, MSt.goto, MSt.setObj, MSt.touch, MSt.destroy, put, if_neg hq], rfl, rfl, rfl⟩
       simp only [MSt.goto, MSt.pgoto, MSt.setObj, MSt.touch, MSt.destroy, put]
       first
         | exact Or.inl rfl
         | exact Or.inl trivial
         | (split
            · rename_i hu; subst hu; exact Or.inr ⟨by assumption, rfl⟩
            · exact Or.inl rfl))

theorem harmless_h (m : MSt σ) (t : Nat) :
    harmless m (.handler t) = ((m.th t).holdsT = false ∧ (m.th t).holdsR = false ∧ (m.th t).erasing = false ∧ (m.th t).msgsOf = none) := rfl
theorem harmless_p (m : MSt σ) (p : Nat) : harmless m (.pusher p) = ((m.pu p).holdsW = false) := rfl

theorem harmless_same {m m' : MSt σ} {t : Nat} (h : m'.th t = m.th t ∨ m.th t = .waiting ∧ m'.th t = .woken) (hh : harmless m (.handler t)) :
    harmless m' (.handler t) := by
  rcases h with h | ⟨_, h⟩
  · rw [harmless_h] at hh ⊢; rw [h]; exact hh
  · rw [harmless_h, h]; exact ⟨rfl, rfl, rfl, rfl⟩

theorem estep_harmless (P : Prog σ) (e : Outer) (s : SigSt σ) (es) (m') (hc : e.notBy s = true) (h : estep P e s.m = some (es, m')) (x : Who)
    (hx : s.caught x ≠ []) (hh : harmless s.m x) : harmless m' x := by
  cases x with
  | handler t =>
    cases e <;> unfold estep at h <;> dsimp only at h
    all_goals repeat' split at h
    all_goals first
      | (cases h; done)
      | (simp only [Option.some.injEq, Prod.mk.injEq] at h
         obtain ⟨_, rfl⟩ := h)
    · rw [harmless_h] at hh ⊢
      dsimp only
      split
      · exact ⟨rfl, rfl, rfl, rfl⟩
      · exact hh
    · refine harmless_same (m := s.m) ?_ hh
      simp only [MSt.notifyAll]
      split
      · right; exact ⟨by assumption, rfl⟩
      · left; rfl
    · refine harmless_same (m := s.m) ?_ hh
      simp only [MSt.notifyAll]
      split
      · right; exact ⟨by assumption, rfl⟩
      · left; rfl
    · exact ⟨rfl, rfl, rfl, rfl⟩
    · exact hh
    · refine harmless_same (m := s.m) ?_ hh
      simp only [MSt.goto, put]
      split
      · rename_i ht; subst ht; right; exact ⟨by assumption, rfl⟩
      · left; rfl
    all_goals exact hh
  | pusher p =>
    cases e <;> unfold estep at h <;> dsimp only at h
    all_goals repeat' split at h
    all_goals first
      | (cases h; done)
      | (simp only [Option.some.injEq, Prod.mk.injEq] at h
         obtain ⟨_, rfl⟩ := h)
    all_goals try exact hh
    all_goals
      simp only [Outer.notBy, decide_eq_true_eq] at hc
      rw [harmless_p] at hh ⊢
      simp only [MSt.pgoto, put]
      split
      · rename_i hq; rw [← hq] at hc; exact absurd hc hx
      · exact hh

theorem call_notBy (s : SigSt σ) (g : Sig) : g.call.notBy s = true := by cases g <;> rfl

structure SigInv (s : SigSt σ) : Prop where
  free : ∀ x, s.caught x ≠ [] → harmless s.m x

theorem sig_step {P : Prog σ} {s es s'} (I : SigInv s) (h : SigStep P harmless s es s') : SigInv s' := by
  refine ⟨fun x hx => ?_⟩
  cases h with
  | handler t hc h =>
    obtain ⟨h1, h2, _⟩ := hstep_others P t _ _ _ h
    have hh := I.free x hx
    cases x with
    | handler u => exact harmless_same (h1 u (by rintro rfl; exact hx hc)) hh
    | pusher p => rw [harmless_p] at hh ⊢; rw [h2]; exact hh
  | pusher p w hc h =>
    obtain ⟨h1, h2, _⟩ := pstep_others P p w _ _ _ h
    have hh := I.free x hx
    cases x with
    | handler u => exact harmless_same (h1 u) hh
    | pusher q => rw [harmless_p] at hh ⊢; rw [h2 q (by rintro rfl; exact hx hc)]; exact hh
  | env e hc h => exact estep_harmless P e _ _ _ hc h x hx (I.free x hx)
  | deliver y g he hg ho =>
    by_cases hxy : x = y
    · subst hxy; exact ho
    · refine I.free x ?_
      simpa only [SigSt.set, if_neg hxy] using hx
  | run y g l hc h =>
    have hc' : s.caught x ≠ [] := by
      by_cases hxy : x = y
      · subst hxy; rw [hc]; simp
      · simpa only [SigSt.set, if_neg hxy] using hx
    exact estep_harmless P _ s _ _ (call_notBy s g) h x hc' (I.free x hc')

theorem sig_run {P : Prog σ} {x tr s'} (h : SigRun P harmless (sigInit x) tr s') : SigInv s' := by
  induction h with
  | refl => exact ⟨fun x hx => absurd rfl hx⟩
  | step _ h ih => exact sig_step ih h

/-- With or without signals, the manager does what it could do without, the calls in signal handlers being made by threads of their own. -/
theorem sig_mrun {P : Prog σ} {ok : MSt σ → Who → Prop} {x tr s'} (h : SigRun P ok (sigInit x) tr s') : MRun P (mInit x) tr s'.m := by
  induction h with
  | refl => exact .refl _
  | step _ h ih =>
    cases h with
    | handler t _ h => exact .step ih (.handler t h)
    | pusher p w _ h => exact .step ih (.pusher p w h)
    | env e _ h => exact .step ih (.env e h)
    | deliver => simpa using ih
    | run x g l _ h => exact .step ih (.env _ h)

theorem sig_free {P : Prog σ} {s : SigSt σ} (I : MInv P s.m) (J : SigInv s) (h : SigStill P s) : s.m.tlock = none := by
  obtain ⟨h1, h2⟩ := h
  have fh : ∀ t, ((s.m.th t).holdsT = true ∨ (s.m.th t).holdsR = true ∨ (s.m.th t).erasing = true ∨ (s.m.th t).msgsOf ≠ none) → s.caught (.handler t) = [] := by
    intro t ht
    cases hc : s.caught (.handler t) with
    | nil => rfl
    | cons g l =>
      obtain ⟨a, b, c, d⟩ := J.free (.handler t) (by rw [hc]; simp)
      simp [a, b, c, d] at ht
  have hmsgs : ∀ r, (s.m.objs r).msgs = none := by
    intro r
    cases hh : (s.m.objs r).msgs with
    | none => rfl
    | some t =>
      have := (I.ms r t).1 hh
      exact absurd (h1 t (fh t (by rw [this]; simp))) (msgsOf_moves P this)
  have hread : s.m.readers = [] := by
    cases hh : s.m.readers with
    | nil => rfl
    | cons t l =>
      have := (I.rd t).1 (by rw [hh]; simp)
      exact absurd (h1 t (fh t (Or.inr (Or.inl this)))) (holdsR_moves P this)
  have hwrite : s.m.writer = none := by
    cases hh : s.m.writer with
    | none => rfl
    | some x =>
      exfalso
      cases x with
      | handler t =>
        have he := (I.wh t).1 hh
        have := h1 t (fh t (by simp [he]))
        unfold hstep at this
        cases hp : s.m.th t <;> rw [hp] at he <;> simp only [E_all, Bool.false_eq_true, reduceCtorEq] at he
        rw [hp] at this
        simp at this
      | pusher p =>
        have he := (I.wp p).1 hh
        have hcp : s.caught (.pusher p) = [] := by
          cases hc : s.caught (.pusher p) with
          | nil => rfl
          | cons g l =>
            have : (s.m.pu p).holdsW = false := J.free (.pusher p) (by rw [hc]; simp)
            rw [this] at he; cases he
        have := h2 p 0 hcp
        unfold pstep at this
        cases hp : s.m.pu p with
        | sweep x l =>
          rw [hp] at this
          cases l with
          | nil => simp at this
          | cons e l => obtain ⟨k, r⟩ := e; dsimp only at this; split at this <;> simp at this
        | route k m =>
          rw [hp] at this
          dsimp only at this
          split at this
          · split at this
            · split at this
              · simp at this
              · split at this <;> simp at this
            · simp at this
          · rw [if_pos (hmsgs _)] at this; simp at this
        | _ => rw [hp] at he; simp [W_all] at he
  cases hh : s.m.tlock with
  | none => rfl
  | some t =>
    exfalso
    have ht := (I.tl t).1 hh
    have := h1 t (fh t (Or.inl ht))
    unfold hstep at this
    cases hp : s.m.th t <;> rw [hp] at ht <;> simp only [T_all, Bool.false_eq_true, reduceCtorEq] at ht
    · rw [hp] at this; simp [hwrite] at this
    · rw [hp] at this; dsimp only at this; split at this <;> simp at this
    · rw [hp] at this; dsimp only at this; split at this <;> simp at this
    · rw [hp] at this; simp [hwrite] at this
    · rw [hp] at this; dsimp only at this; split at this <;> simp at this

end Fcgi.Model
