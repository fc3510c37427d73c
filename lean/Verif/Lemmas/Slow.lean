import Verif.Lemmas.ManagerRequest
/-! # Enough threads are on the way to the queue of tasks -/
namespace Fcgi.Model
open Fcgi.Spec
variable {σ : Type}

/-- The thread will look at the queue of tasks before it does anything else. -/
def HPC.coming : HPC → Bool
  | .boot | .top | .test | .drain | .relock | .woken => true
  | _ => false

/-- How many of the first `n` threads are on the way to the queue of tasks. -/
def comers (f : Nat → HPC) : Nat → Nat
  | 0 => 0
  | n + 1 => comers f n + (f n).coming.toNat

theorem comers_mono {f g : Nat → HPC} (h : ∀ t, (f t).coming = true → (g t).coming = true) (n : Nat) : comers f n ≤ comers g n := by
  induction n with
  | zero => exact Nat.le_refl 0
  | succ n ih =>
    have := h n
    simp only [comers]
    cases hf : (f n).coming
    · simp; omega
    · rw [this hf]; omega

theorem comers_put_ge (f : Nat → HPC) (t : Nat) (pc : HPC) (n : Nat) (h : n ≤ t) : comers (put f t pc) n = comers f n := by
  induction n with
  | zero => rfl
  | succ n ih => simp only [comers]; rw [ih (by omega), put_other _ _ _ (by omega)]

theorem comers_put (f : Nat → HPC) (t : Nat) (pc : HPC) (n : Nat) (h : t < n) :
    comers (put f t pc) n + (f t).coming.toNat = comers f n + pc.coming.toNat := by
  induction n with
  | zero => omega
  | succ n ih =>
    simp only [comers]
    by_cases ht : t = n
    · subst ht; rw [comers_put_ge _ _ _ _ (Nat.le_refl _), put_same]; omega
    · rw [put_other _ _ _ (fun e => ht e.symm)]
      have := ih (by omega)
      omega

/-- While a thread waits there are as many on the way as there are tasks. -/
def Staffed (P : Prog σ) (s : MSt σ) : Prop := (∀ t, s.th t ≠ .waiting) ∨ s.tasks.length ≤ comers s.th P.threads

theorem staffed_of {P : Prog σ} {s s' : MSt σ} (C : Staffed P s) (ht : s'.tasks.length ≤ s.tasks.length)
    (hc : ∀ t, (s.th t).coming = true → (s'.th t).coming = true) (hs : ∀ t, s'.th t = .waiting → s.th t = .waiting ∨ s'.tasks = []) : Staffed P s' := by
  rcases C with C | C
  · by_cases h0 : s'.tasks = []
    · exact .inr (by rw [h0]; exact Nat.zero_le _)
    · exact .inl fun t h => (hs t h).elim (C t) h0
  · exact .inr (Nat.le_trans ht (Nat.le_trans C (comers_mono hc _)))

theorem staffed_goto {P : Prog σ} {s s' : MSt σ} (C : Staffed P s) (t : Nat) (pc : HPC) (hth : s'.th = put s.th t pc) (ht : s'.tasks = s.tasks)
    (hc : (s.th t).coming = true → pc.coming = true) (hs : pc = .waiting → s'.tasks = []) : Staffed P s' := by
  refine staffed_of C (by rw [ht]; exact Nat.le_refl _) (fun x hx => ?_) (fun x hx => ?_)
  · rw [hth]
    by_cases h : x = t
    · subst h; rw [put_same]; exact hc hx
    · rw [put_other _ _ _ h]; exact hx
  · rw [hth] at hx
    by_cases h : x = t
    · subst h; rw [put_same] at hx; exact .inr (hs hx)
    · rw [put_other _ _ _ h] at hx; exact .inl hx

theorem hstep_staffed (P : Prog σ) (t : Nat) (s : MSt σ) (es) (s') (I : MInv P s) (W : WInv s) (C : Staffed P s) (hf : ∀ t, .finished t ∉ es)
    (h : hstep P t s = some (es, s')) : Staffed P s' := by
  have hlt : t < P.threads := by
    by_cases h' : t < P.threads
    · exact h'
    · unfold hstep at h; rw [I.off t (by omega)] at h; cases h
  have ct := W.ct t
  unfold hstep at h
  split at h
  all_goals rename_i hpc
  case h_6 =>
    split at h
    · cases h; exact staffed_goto C t _ rfl rfl (fun _ => rfl) (by simp)
    · cases h; exact absurd (List.mem_singleton.2 rfl) (hf t)
  case h_7 =>
    split at h
    · rename_i k rest htasks
      cases h
      rcases C with C | C
      · refine .inl fun x => ?_
        simp only [MSt.goto]
        by_cases hx : x = t
        · subst hx; rw [put_same]; simp
        · rw [put_other _ _ _ hx]; exact C x
      · refine .inr ?_
        have := comers_put s.th t (.popped k) P.threads hlt
        rw [hpc] at this
        simp only [MSt.goto, HPC.coming, Bool.toNat_true, Bool.toNat_false] at this ⊢
        rw [htasks, List.length_cons] at C
        omega
    · rename_i htasks
      cases h
      exact .inr (by simp [MSt.goto, htasks])
  case h_12 =>
    cases h
    refine staffed_goto C t _ rfl rfl (by rw [hpc]; simp [HPC.coming]) ?_
    split <;> simp
  case h_20 =>
    split at h
    · cases h; exact absurd (List.mem_singleton.2 rfl) (hf t)
    · cases h
      exact staffed_goto C t _ rfl rfl (by rw [hpc]; simp [HPC.coming]) (fun _ => ct (by rw [hpc]; rfl))
  all_goals repeat' split at h
  all_goals first
    | (cases h; done)
    | (cases h; exact staffed_goto C t _ rfl rfl (by rw [hpc]; simp [HPC.coming]) (by simp))

theorem pstep_staffed (P : Prog σ) (p w : Nat) (s : MSt σ) (es) (s') (I : MInv P s) (C : Staffed P s) (h : pstep P p w s = some (es, s')) : Staffed P s' := by
  unfold pstep at h
  split at h
  case h_1 => cases h
  case h_8 =>
    split at h
    · split at h
      · rename_i hw
        cases h
        have hlt : w < P.threads := by
          by_cases h' : w < P.threads
          · exact h'
          · rw [I.off w (by omega)] at hw; cases hw
        refine .inr ?_
        have := comers_put s.th w .woken P.threads hlt
        rw [hw] at this
        simp only [MSt.goto, MSt.pgoto, HPC.coming, Bool.toNat_true, Bool.toNat_false] at this ⊢
        rw [List.length_append, List.length_singleton]
        rcases C with C | C
        · exact absurd hw (C w)
        · omega
      · split at h
        · rename_i hno
          cases h
          refine .inl fun x => ?_
          by_cases hx : x < P.threads
          · exact hno x (List.mem_range.2 hx)
          · show s.th x ≠ _
            rw [I.off x (by omega)]; simp
        · cases h
    · cases h
  all_goals repeat' split at h
  all_goals first
    | (cases h; done)
    | (cases h; exact staffed_of C (Nat.le_refl _) (fun _ hx => hx) (fun _ hx => .inl hx))

theorem estep_staffed (P : Prog σ) (e : Outer) (s : MSt σ) (es) (s') (C : Staffed P s) (h : estep P e s = some (es, s')) : Staffed P s' := by
  have all : ∀ s1 : MSt σ, Staffed P s1.notifyAll := fun s1 => .inl fun x => by
    simp only [MSt.notifyAll]
    split
    · simp
    · assumption
  unfold estep at h
  split at h
  · split at h
    · cases h
      refine staffed_of C (Nat.le_refl _) (fun x hx => ?_) (fun x hx => ?_)
      · dsimp only; split
        · rfl
        · exact hx
      · dsimp only at hx; split at hx
        · cases hx
        · exact .inl hx
    · cases h
  · split at h
    · cases h; exact all _
    · cases h
  · split at h
    · cases h; exact all _
    · cases h
  · split at h
    · cases h; exact .inl fun x => by simp
    · cases h
  · cases h; exact staffed_of C (Nat.le_refl _) (fun _ hx => hx) (fun _ hx => .inl hx)
  · split at h
    · rename_i hpc
      cases h
      exact staffed_goto C _ _ rfl rfl (fun _ => rfl) (by simp)
    · cases h
  · split at h
    · cases h; exact staffed_of C (Nat.le_refl _) (fun _ hx => hx) (fun _ hx => .inl hx)
    · cases h

theorem run_staffed {P : Prog σ} {x tr s'} (h : MRun P (mInit x) tr s') (hf : ∀ t, .finished t ∉ tr) : Staffed P s' := by
  induction h with
  | refl => exact .inl fun _ => by simp [mInit]
  | step hr h ih =>
    have C := ih fun t ht => hf t (List.mem_append_left _ ht)
    cases h with
    | handler t h => exact hstep_staffed P t _ _ _ (run_kq hr).1 (run_winv hr) C (fun t ht => hf t (List.mem_append_right _ ht)) h
    | pusher p w h => exact pstep_staffed P p w _ _ _ (run_kq hr).1 C h
    | env e h => exact estep_staffed P e _ _ _ C h

end Fcgi.Model
