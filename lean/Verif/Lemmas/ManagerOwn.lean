import Verif.Lemmas.Server
import Verif.Lemmas.Signals
/-! # The manager's own messages are dealt with in order, and all of them -/
namespace Fcgi.Model
open Fcgi.Spec
variable {σ : Type}

/-- The management messages taken in, and those dealt with, with their connections. -/
def notedOf (tr : List MEvent) : List (Message × Nat) :=
  tr.filterMap fun e => match e with | .noted m x => some (m, x) | _ => none
def managedOf (tr : List MEvent) : List (Message × Nat) :=
  tr.filterMap fun e => match e with | .managed m x => some (m, x) | _ => none

theorem notedOf_append (a b) : notedOf (a ++ b) = notedOf a ++ notedOf b := by simp [notedOf]
theorem managedOf_append (a b) : managedOf (a ++ b) = managedOf a ++ managedOf b := by simp [managedOf]

theorem hstep_own {P : Prog σ} {t : Nat} {s : MSt σ} {es} {s'} (h : hstep P t s = some (es, s')) :
    notedOf es = [] ∧ s.messages = managedOf es ++ s'.messages := by
  unfold hstep at h
  cases hp : s.th t <;> rw [hp] at h <;> dsimp only at h
  all_goals repeat' split at h
  all_goals first
    | (cases h; done)
    | (simp only [Option.some.injEq, Prod.mk.injEq] at h; obtain ⟨rfl, rfl⟩ := h; exact ⟨rfl, rfl⟩)
    | (simp only [Option.some.injEq, Prod.mk.injEq] at h; obtain ⟨rfl, rfl⟩ := h; exact ⟨rfl, by assumption⟩)

theorem pstep_own {P : Prog σ} {p w : Nat} {s : MSt σ} {es} {s'} (h : pstep P p w s = some (es, s')) :
    managedOf es = [] ∧ s'.messages = s.messages ++ notedOf es := by
  unfold pstep at h
  cases hp : s.pu p <;> rw [hp] at h <;> dsimp only at h
  all_goals repeat' split at h
  all_goals first
    | (cases h; done)
    | (simp only [Option.some.injEq, Prod.mk.injEq] at h; obtain ⟨rfl, rfl⟩ := h; exact ⟨rfl, rfl⟩)
    | (simp only [Option.some.injEq, Prod.mk.injEq] at h; obtain ⟨rfl, rfl⟩ := h; exact ⟨rfl, by simp [notedOf, MSt.pgoto, MSt.goto, MSt.setObj, MSt.touch, MSt.destroy]⟩)

theorem estep_own {P : Prog σ} {e : Outer} {s : MSt σ} {es} {s'} (h : estep P e s = some (es, s')) :
    managedOf es = [] ∧ notedOf es = [] ∧ s'.messages = s.messages := by
  unfold estep at h
  cases e <;> dsimp only at h
  all_goals repeat' split at h
  all_goals first
    | (cases h; done)
    | (simp only [Option.some.injEq, Prod.mk.injEq] at h; obtain ⟨rfl, rfl⟩ := h; exact ⟨rfl, rfl, rfl⟩)

/-- First in, first out. -/
theorem run_own {P : Prog σ} {x tr s} (h : MRun P (mInit x) tr s) : notedOf tr = managedOf tr ++ s.messages := by
  induction h with
  | refl => rfl
  | step hr h ih =>
    rw [notedOf_append, managedOf_append]
    cases h with
    | handler t h =>
      obtain ⟨h1, h2⟩ := hstep_own h
      rw [h1, List.append_nil, ih, h2, List.append_assoc]
    | pusher p w h =>
      obtain ⟨h1, h2⟩ := pstep_own h
      rw [h1, h2, ih]; simp
    | env e h =>
      obtain ⟨h1, h2, h3⟩ := estep_own h
      rw [h1, h2, h3, ih]; simp

/-- If a thread sleeps while there are tasks, another thread or call is on its way, or one has ended. -/
def NInv (s : MSt σ) : Prop :=
  s.terminate = false → s.tasks ≠ [] → ∀ t, s.th t = .waiting →
    (∃ x, (s.th x).resting = false) ∨ (∃ p, (s.pu p).tasking = true) ∨ ∃ x, s.th x = .finished

theorem hstep_to {P : Prog σ} {t : Nat} {s : MSt σ} {es} {s'} (h : hstep P t s = some (es, s')) :
    (s'.th t).resting = false ∨ s'.th t = .finished ∨ (s.th t = .judge ∧ s'.th t = .waiting ∧ s'.tasks = s.tasks) := by
  unfold hstep at h
  cases hp : s.th t <;> rw [hp] at h <;> dsimp only at h
  all_goals repeat' split at h
  all_goals first
    | (cases h; done)
    | (simp only [Option.some.injEq, Prod.mk.injEq] at h; obtain ⟨rfl, rfl⟩ := h
       simp only [MSt.goto, MSt.setObj, MSt.touch, MSt.destroy, MSt.notifyAll, put_same]
       first
         | exact Or.inl rfl
         | exact Or.inr (Or.inl trivial)
         | exact Or.inr (Or.inr ⟨trivial, trivial, trivial⟩)
         | (split <;> exact Or.inl rfl))

theorem pstep_to {P : Prog σ} {p w : Nat} {s : MSt σ} {es} {s'} (I : MInv P s) (h : pstep P p w s = some (es, s')) :
    (s'.tasks = s.tasks ∧ s'.th = s.th ∧ (s.pu p).tasking = false) ∨ (∃ x, (s'.th x).resting = false) ∨ ∀ t, s'.th t ≠ .waiting := by
  unfold pstep at h
  cases hp : s.pu p <;> rw [hp] at h <;> dsimp only at h
  case task k =>
    split at h
    · split at h
      · simp only [Option.some.injEq, Prod.mk.injEq] at h; obtain ⟨rfl, rfl⟩ := h
        right; left
        exact ⟨w, by simp [MSt.goto, MSt.pgoto, put, rest_all]⟩
      · split at h
        · rename_i hno
          simp only [Option.some.injEq, Prod.mk.injEq] at h; obtain ⟨rfl, rfl⟩ := h
          right; right
          intro t
          show s.th t ≠ _
          by_cases ht : t < P.threads
          · exact hno t (List.mem_range.2 ht)
          · rw [I.off t (by omega)]; simp
        · cases h
    · cases h
  all_goals repeat' split at h
  all_goals first
    | (cases h; done)
    | (simp only [Option.some.injEq, Prod.mk.injEq] at h; obtain ⟨rfl, rfl⟩ := h
       first | exact Or.inl ⟨rfl, rfl, by first | rfl | simp [PPC.tasking]⟩ | (exfalso; simp_all; done))

theorem run_ninv {P : Prog σ} {x tr s} (h : MRun P (mInit x) tr s) : NInv s := by
  induction h with
  | refl => intro _ h; exact absurd rfl h
  | step hr h ih =>
    rename_i tr0 s0 es0 s00
    obtain ⟨I, _, _, _⟩ := run_kq hr
    have W := run_winv hr
    cases h with
    | handler t h =>
      intro h1 h2 u hu
      rcases hstep_to h with h3 | h3 | ⟨h3, h4, h5⟩
      · exact Or.inl ⟨t, h3⟩
      · exact Or.inr (Or.inr ⟨t, h3⟩)
      · exact absurd (by rw [h5]; exact W.ct t (by rw [h3]; rfl)) h2
    | pusher p w h =>
      intro h1 h2 u hu
      have ho := (pstep_others P p w _ _ _ h)
      rcases pstep_to I h with ⟨h3, h4, h5⟩ | h3 | h3
      · rw [h4] at hu ⊢
        rcases ih (by rw [← ho.2.2.2.1]; exact h1) (by rw [← h3]; exact h2) u hu with h6 | ⟨q, h6⟩ | h6
        · exact Or.inl h6
        · refine Or.inr (Or.inl ⟨q, ?_⟩)
          rw [ho.2.1 q (by rintro rfl; rw [h5] at h6; cases h6)]; exact h6
        · exact Or.inr (Or.inr h6)
      · exact Or.inl h3
      · exact absurd hu (h3 u)
    | env e h =>
      have key : ∀ (s : MSt σ) t, s.notifyAll.th t ≠ .waiting := by
        intro s t
        simp only [MSt.notifyAll]
        split
        · simp
        · assumption
      intro h1 h2 u hu
      cases e with
      | start =>
        simp only [estep] at h
        split at h
        · cases h
          dsimp only at hu h2 ⊢
          have hw : s0.th u = .waiting := by
            split at hu
            · cases hu
            · exact hu
          cases ht : s0.terminate with
          | true => have := W.tw ht u; rw [hw] at this; cases this
          | false =>
            rcases ih ht h2 u hw with ⟨y, h6⟩ | h6 | ⟨y, h6⟩
            · refine Or.inl ⟨y, ?_⟩
              split
              · rename_i hh; rw [hh.2] at h6; cases h6
              · exact h6
            · exact Or.inr (Or.inl h6)
            · refine Or.inr (Or.inr ⟨y, ?_⟩)
              rw [h6]; simp
        · cases h
      | stop =>
        simp only [estep] at h
        split at h
        · cases h; exact absurd hu (key _ u)
        · cases h
      | terminate =>
        simp only [estep] at h
        split at h
        · cases h; exact absurd hu (key _ u)
        · cases h
      | join =>
        simp only [estep] at h
        split at h
        · cases h; cases hu
        · cases h
      | close c => simp only [estep] at h; cases h; exact ih h1 h2 u hu
      | spurious t =>
        simp only [estep] at h
        split at h
        · cases h; exact Or.inl ⟨t, by simp [MSt.goto, put, rest_all]⟩
        · cases h
      | push p k m =>
        obtain ⟨hi, rfl, rfl⟩ := estep_push _ _ _ _ _ _ _ h
        rcases ih h1 h2 u hu with h6 | ⟨q, h6⟩ | h6
        · exact Or.inl h6
        · refine Or.inr (Or.inl ⟨q, ?_⟩)
          simp only [MSt.pgoto]
          rw [put_other _ _ _ (by rintro rfl; rw [hi] at h6; cases h6)]; exact h6
        · exact Or.inr (Or.inr h6)

/-- At rest, unless terminate() was called or a thread has ended, all management messages have been dealt with. -/
theorem still_own {P : Prog σ} {x tr s} (h : MRun P (mInit x) tr s) (hs : Still P s) (ht : s.terminate = false)
    (hl : ∃ t, s.th t ≠ .off) (hf : ∀ t, s.th t ≠ .finished) : managedOf tr = notedOf tr := by
  obtain ⟨I, _, _, _⟩ := run_kq h
  obtain ⟨h1, h2⟩ := still_rest I hs
  obtain ⟨t, hl⟩ := hl
  have hw : s.th t = .waiting := by
    have := h1 t
    cases hp : s.th t <;> rw [hp] at this <;> simp_all [rest_all]
  have htasks : s.tasks = [] := by
    by_cases he : s.tasks = []
    · exact he
    · rcases run_ninv h ht he t hw with ⟨y, hy⟩ | ⟨p, hp⟩ | ⟨y, hy⟩
      · rw [h1 y] at hy; cases hy
      · rw [h2 p] at hp; cases hp
      · exact absurd hy (hf y)
  obtain ⟨N, c1, c2⟩ := run_cinv h
  have z1 : total (fun t => (s.th t).own.toNat) P.threads = 0 := by
    rw [total_congr (g := fun _ => 0)]
    · clear c2; generalize P.threads = n; induction n with
      | zero => rfl
      | succ n ih => simp [total, ih]
    · intro i _
      have := h1 i
      cases hp : s.th i <;> rw [hp] at this <;> simp_all [rest_all, HPC.own]
  have z2 : total (fun p => (s.pu p).own.toNat) N = 0 := by
    rw [total_congr (g := fun _ => 0)]
    · clear c2 c1; induction N with
      | zero => rfl
      | succ n ih => simp [total, ih]
    · intro i _; rw [h2 i]; rfl
  rw [htasks, z1, z2] at c2
  have : s.messages = [] := List.eq_nil_of_length_eq_zero (by rw [c2]; rfl)
  rw [run_own h, this, List.append_nil]

end Fcgi.Model
