import Verif.Lemmas.Slow
import Verif.Props.Manager
/-! # C156: an application that takes long does not hold up the other requests -/
namespace Fcgi.Props
open Fcgi Fcgi.Model Fcgi.Spec
variable {σ : Type} {P : Prog σ} {x : σ} {tr : List MEvent} {s : MSt σ}

/-- The thread is inside the application, handling message `m` of request `r`. -/
def Inside (s : MSt σ) (t r : Nat) (m : Message) : Prop := ∃ k, s.th t = .work k r m

/-- Nothing can move but the threads `slow`, each of which is inside the application (and may stay there as long as it likes). -/
structure StillBut (P : Prog σ) (slow : Nat → Prop) (s : MSt σ) : Prop where
  inside : ∀ t, slow t → ∃ r m, Inside s t r m
  others : ∀ t, ¬ slow t → hstep P t s = none
  calls : ∀ p w, pstep P p w s = none

theorem StillBut.but {slow : Nat → Prop} (hs : StillBut P slow s) : ∀ t, (∃ k r m, s.th t = .work k r m) ∨ hstep P t s = none := by
  intro t
  by_cases h : slow t
  · obtain ⟨r, m, k, hk⟩ := hs.inside t h
    exact .inl ⟨k, r, m, hk⟩
  · exact .inr (hs.others t h)

theorem StillBut.work {slow : Nat → Prop} (hs : StillBut P slow s) {t k r m} (h : s.th t = .work k r m) : slow t := by
  apply Classical.byContradiction
  intro hn
  have := hs.others t hn
  unfold hstep at this
  rw [h] at this
  cases this

/-- What the observer sees of a thread that is inside the application: it has begun to handle that message and has not ended. -/
theorem C156_inside (h : MRun P (mInit x) tr s) {t r m} (hi : Inside s t r m) : watch r tr = .busy t m := by
  obtain ⟨k, hk⟩ := hi
  exact (run_tinv h).wk t r m (by rw [hk]; rfl)

/-- While any number of threads are inside the application and do not come back, the other threads and all calls (records that arrive, callbacks) come to an
end of what they do: nobody waits for the slow ones. -/
theorem C156_no_deadlock (h : MRun P (mInit x) tr s) {slow : Nat → Prop} (hs : StillBut P slow s) :
    (∀ t, ¬ slow t → s.th t = .off ∨ s.th t = .waiting ∨ s.th t = .finished) ∧ ∀ p, s.pu p = .idle := by
  obtain ⟨h1, h2⟩ := still_but (run_kq h).1 hs.but hs.calls
  refine ⟨fun t ht => ?_, h2⟩
  rcases h1 t with c | ⟨k, r, m, c⟩
  · cases hp : s.th t <;> simp_all [rest_all]
  · exact absurd (hs.work c) ht

/-- And then every request being served, except those that the slow threads are handling, has had all its messages handled to the end - provided that
there is one thread more than the slow ones, and none has ended (after stop() or terminate()). -/
theorem C156_others_handled (h : MRun P (mInit x) tr s) {slow : Nat → Prop} (hs : StillBut P slow s) (hfin : ∀ t, .finished t ∉ tr)
    (ht : ∃ t, ¬ slow t ∧ s.th t ≠ .off ∧ s.th t ≠ .finished) (k : RequestId) (r : Nat) (hk : serving tr k = some r) :
    (∃ t m, slow t ∧ watch r tr = .busy t m) ∨ endedBy r tr = acceptedBy r tr := by
  obtain ⟨I, S, K, Q⟩ := run_kq h
  have R := run_rinv h
  have T := run_tinv h
  obtain ⟨h1, h2⟩ := still_but I hs.but hs.calls
  obtain ⟨w, w1, w2, w3⟩ := ht
  have hw : s.th w = .waiting := by
    rcases (C156_no_deadlock h hs).1 w w1 with c | c | c
    · exact absurd c w2
    · exact c
    · exact absurd c w3
  have htasks : s.tasks = [] := by
    rcases run_staffed h hfin with C | C
    · exact absurd hw (C w)
    · have h0 : ∀ n, comers s.th n = 0 := by
        intro n
        induction n with
        | zero => rfl
        | succ n ih =>
          simp only [comers, ih, Nat.zero_add]
          rcases h1 n with c | ⟨k, r, m, c⟩
          · cases hp : s.th n <;> simp_all [rest_all, HPC.coming]
          · rw [c]; rfl
      rw [h0] at C
      exact List.eq_nil_of_length_eq_zero (by omega)
  rw [R.sv] at hk
  have hm := mlookup_mem hk
  by_cases hin : ∃ t m, Inside s t r m
  · obtain ⟨t, m, hi⟩ := hin
    obtain ⟨k', hk'⟩ := hi
    exact .inl ⟨t, m, hs.work hk', C156_inside h ⟨k', hk'⟩⟩
  refine .inr ?_
  have hq : (s.objs r).queue = [] := by
    cases hh : (s.objs r).queue with
    | nil => rfl
    | cons m q =>
      exfalso
      have hne : (s.objs r).queue ≠ [] := by rw [hh]; simp
      rcases Q k r hm hne with hk | ⟨u, hu⟩ | ⟨p, hp⟩
      · rw [htasks] at hk; cases hk
      · rcases h1 u with c | ⟨k', r', m', c⟩
        · cases hp : s.th u <;> simp_all [rest_all, A_all]
        · rw [c] at hu
          cases hu
          have := I.mt u (k, r') (by rw [c]; rfl)
          have := I.nd k r r' hm this
          subst this
          exact hin ⟨u, m', k, c⟩
      · rw [h2 p] at hp; cases hp
  have hfree : watch r tr = .free := by
    apply T.wm
    · cases hx : (s.objs r).mutex with
      | none => rfl
      | some u =>
        have hu := (I.mu r u).1 hx
        rcases h1 u with c | ⟨k', r', m', c⟩
        · cases hp : s.th u <;> simp_all [rest_all, N_all]
        · rw [c] at hu
          cases hu
          exact absurd ⟨u, m', k', c⟩ hin
    · exact (I.al r).2 ⟨k, hm⟩
  have := begun_ended r tr (by rw [hfree]; simp)
  rw [hfree, List.append_nil] at this
  rw [R.qu, hq, List.append_nil, this]

/-- A step of the others leaves a thread inside the application where it is. -/
theorem slow_hstep_others {t t' : Nat} {es s'} (h : hstep P t s = some (es, s')) (hne : t' ≠ t) {k r m} (hw : s.th t' = .work k r m) : s'.th t' = .work k r m := by
  unfold hstep at h
  split at h
  all_goals repeat' split at h
  all_goals first
    | (cases h; done)
    | (cases h
       simp only [MSt.goto, MSt.notifyAll, MSt.setObj, MSt.touch, MSt.destroy]
       rw [put_other _ _ _ hne]
       simp [hw])

theorem slow_pstep_others {p w t' : Nat} {es s'} (h : pstep P p w s = some (es, s')) {k r m} (hw : s.th t' = .work k r m) : s'.th t' = .work k r m := by
  unfold pstep at h
  split at h
  all_goals repeat' split at h
  all_goals first
    | (cases h; done)
    | (cases h; exact hw)
    | (rename_i hx
       cases h
       simp only [MSt.goto, MSt.pgoto]
       rw [put_other _ _ _ (fun e => by rw [e, hx] at hw; cases hw)]
       exact hw)

/-- From everywhere, whatever threads are inside the application, the others get there without them. -/
theorem C156_reaches (h : MRun P (mInit x) tr s) (slow : Nat → Prop) (hi : ∀ t, slow t → ∃ r m, Inside s t r m) :
    ∃ tr' s', MRun P s tr' s' ∧ StillBut P slow s' ∧ ∀ t r m, slow t → Inside s t r m → Inside s' t r m := by
  have acc := run_acc h
  clear h
  induction acc with
  | intro s _ ih =>
    by_cases hs : StillBut P slow s
    · exact ⟨[], s, .refl s, hs, fun _ _ _ _ h => h⟩
    · have : ∃ s' es, Inner P s s' ∧ MStep P s es s' ∧ ∀ t r m, slow t → Inside s t r m → Inside s' t r m := by
        by_cases h1 : ∀ t, ¬ slow t → hstep P t s = none
        · have h2 : ¬ ∀ p w, pstep P p w s = none := fun h2 => hs ⟨hi, h1, h2⟩
          simp only [Classical.not_forall] at h2
          obtain ⟨p, w, h2⟩ := h2
          cases hp : pstep P p w s with
          | none => exact absurd hp h2
          | some y =>
            exact ⟨y.2, y.1, .inr ⟨p, w, y.1, hp⟩, .pusher p w hp, fun t r m _ ⟨k, hk⟩ => ⟨k, slow_pstep_others hp hk⟩⟩
        · simp only [Classical.not_forall] at h1
          obtain ⟨t, hn, h1⟩ := h1
          cases hp : hstep P t s with
          | none => exact absurd hp h1
          | some y =>
            exact ⟨y.2, y.1, .inl ⟨t, y.1, hp⟩, .handler t hp, fun t' r m ht ⟨k, hk⟩ =>
              ⟨k, slow_hstep_others hp (fun e => hn (e ▸ ht)) hk⟩⟩
      obtain ⟨s', es, hinner, hstep, hkeep⟩ := this
      obtain ⟨tr', s'', hr, hst, hk⟩ := ih s' hinner (fun t ht => by
        obtain ⟨r, m, hx⟩ := hi t ht
        exact ⟨r, m, hkeep t r m ht hx⟩)
      exact ⟨_, s'', MRun.trans (.step (.refl s) hstep) hr, hst, fun t r m ht hx => hk t r m ht (hkeep t r m ht hx)⟩

/-- Thread 0 is inside the application with the first request, to which another message has come meanwhile; thread 1 serves the second one. -/
def mgrSlow : List Choice :=
  [.e .start] ++ mgrStart 0 ++ mgrStart 1 ++ mgrPush mgrKey mgrBegin 2 0 ++ mgrPush mgrKey mgrParams 3 0 ++ List.replicate 8 (.h 0) ++
  mgrPush mgrKey mgrAbort 3 1 ++ List.replicate 10 (.h 1) ++ mgrPush ⟨6, 1⟩ mgrBegin 2 0 ++ mgrPush ⟨6, 1⟩ mgrParams 3 1 ++ List.replicate 18 (.h 1)

-- all hypotheses are met, and the two requests are the two cases of the conclusion
example : ∃ tr s, MRun (mgrDemo 2) (mInit 0) tr s ∧ StillBut (mgrDemo 2) (· = 0) s ∧ (∀ t, .finished t ∉ tr) ∧ s.th 1 = .waiting ∧
    serving tr mgrKey = some 0 ∧ watch 0 tr = .busy 0 mgrParams ∧ acceptedBy 0 tr = [mgrParams, mgrAbort] ∧ endedBy 0 tr = [] ∧
    serving tr ⟨6, 1⟩ = some 1 ∧ acceptedBy 1 tr = [mgrParams] ∧ endedBy 1 tr = [mgrParams] := by
  have h : (play (mgrDemo 2) (mInit 0) mgrSlow).any (fun y => decide (y.2.th 0 = .work mgrKey 0 mgrParams ∧ y.2.th 1 = .waiting ∧ y.2.pu 0 = .idle ∧
      y.1.all (fun e => match e with | .finished _ => false | _ => true) = true ∧
      serving y.1 mgrKey = some 0 ∧ watch 0 y.1 = .busy 0 mgrParams ∧ acceptedBy 0 y.1 = [mgrParams, mgrAbort] ∧ endedBy 0 y.1 = [] ∧
      serving y.1 ⟨6, 1⟩ = some 1 ∧ acceptedBy 1 y.1 = [mgrParams] ∧ endedBy 1 y.1 = [mgrParams])) = true := by rfl
  simp only [Option.any_eq_true, decide_eq_true_eq] at h
  obtain ⟨⟨tr, s⟩, hp, h0, h1, hpu, hfin, hrest⟩ := h
  have hr := play_run hp
  have hoff : ∀ t, t ≠ 0 → t ≠ 1 → s.th t = .off := fun t a b => (run_kq hr).1.off t (by show 2 ≤ t; omega)
  have hidle : ∀ p, s.pu p = .idle := fun p => by
    by_cases hq : p = 0
    · subst hq; exact hpu
    · rw [play_pu hp (by rfl) p hq]; rfl
  refine ⟨tr, s, hr, ⟨?_, ?_, ?_⟩, ?_, h1, hrest⟩
  · rintro t rfl; exact ⟨0, mgrParams, mgrKey, h0⟩
  · intro t ht
    have : s.th t = .off ∨ s.th t = .waiting := by
      by_cases e : t = 1
      · subst e; exact .inr h1
      · exact .inl (hoff t ht e)
    unfold hstep
    rcases this with e | e <;> rw [e]
  · intro p w; unfold pstep; rw [hidle p]
  · intro t ht
    have := List.all_eq_true.1 hfin _ ht
    cases this

end Fcgi.Props
