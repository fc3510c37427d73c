import Verif.Lemmas.MailServe
/-! # Waking and ending the mailer's thread -/
namespace Fcgi.Model
open Fcgi.Spec

structure MailWake (tr : List MailEvent) (s : MlSt) : Prop where
  term : s.pc = .off ∨ (s.term = true → .terminated ∈ tr)
  stop : s.pc = .off ∨ (s.stop = true → .stopped ∈ tr)
  wakeT : s.pc = .connect ∨ s.pc = .poll → s.term = true → s.waking = true
  wakeS : (∀ e ∈ s.queue, e.to_ ≠ []) → s.pc = .connect ∨ s.pc = .poll → s.stop = true → s.queue = [] → s.inEmail = false → s.waking = true ∨ (∃ e, .queued e ∈ tr ∧ e.to_ = [])
  from_ : ∀ e ∈ s.queue, .queued e ∈ tr

theorem take_fields (s : MlSt) : s.take.term = s.term ∧ s.take.stop = s.stop ∧ s.take.waking = s.waking ∧ (∀ e ∈ s.take.queue, e ∈ s.queue) := by
  unfold MlSt.take
  repeat' split
  · exact ⟨rfl, rfl, rfl, fun _ h => h⟩
  · exact ⟨rfl, rfl, rfl, fun _ h => h⟩
  · rename_i h; exact ⟨rfl, rfl, rfl, fun _ hm => by rw [h]; exact List.mem_cons_of_mem _ hm⟩

theorem reply_fields (o : Bytes) (s : MlSt) (room : Nat) : (s.reply o room).2.term = s.term ∧ (s.reply o room).2.stop = s.stop ∧ (s.reply o room).2.waking = s.waking ∧
    (s.reply o room).2.queue = s.queue ∧ (s.reply o room).2.null = s.null := by
  have hw : ∀ (t : MlSt) cmd room next, (t.write cmd room next).2.term = t.term ∧ (t.write cmd room next).2.stop = t.stop ∧ (t.write cmd room next).2.waking = t.waking ∧
      (t.write cmd room next).2.queue = t.queue ∧ (t.write cmd room next).2.null = t.null := by
    intro t cmd room next
    unfold MlSt.write
    split <;> exact ⟨rfl, rfl, rfl, rfl, rfl⟩
  unfold MlSt.reply
  dsimp only
  repeat' split
  all_goals first | exact ⟨rfl, rfl, rfl, rfl, rfl⟩ | exact hw _ _ _ _ | exact hw s.purge _ _ _

/-- After the test was passed, with nothing taken that has no recipient, there is something to do. -/
theorem take_todo {s : MlSt} (he : s.ends = false) (hq : ∀ e ∈ s.queue, e.to_ ≠ []) (hs : s.take.stop = true) (h1 : s.take.queue = []) (h2 : s.take.inEmail = false) : False := by
  have hst : s.stop = true := by rw [← (take_fields s).2.1]; exact hs
  simp only [MlSt.ends, hst, Bool.true_and, Bool.or_eq_false_iff] at he
  unfold MlSt.take at h1 h2
  by_cases hi : s.inEmail
  · rw [if_pos hi] at h2; rw [hi] at h2; cases h2
  · rw [if_neg hi] at h1 h2
    cases hqq : s.queue with
    | nil => simp [hqq, hi] at he
    | cons e q =>
      rw [hqq] at h2
      dsimp only at h2
      have := hq e (by rw [hqq]; simp)
      simp [MlSt.inEmail] at h2
      exact this h2

theorem MailWake.quiet {tr s es} {s' : MlSt} (I : MailWake tr s) (h1 : s.pc ≠ .off) (ht : s'.term = s.term) (hs : s'.stop = s.stop) (hq : ∀ e ∈ s'.queue, e ∈ s.queue)
    (hp : s'.pc ≠ .connect ∧ s'.pc ≠ .poll) : MailWake (tr ++ es) s' := by
  refine ⟨Or.inr ?_, Or.inr ?_, ?_, ?_, fun e he => List.mem_append_left _ (I.from_ e (hq e he))⟩
  · rw [ht]; intro h; exact List.mem_append_left _ ((I.term.resolve_left h1) h)
  · rw [hs]; intro h; exact List.mem_append_left _ ((I.stop.resolve_left h1) h)
  · rintro (h | h)
    · exact absurd h hp.1
    · exact absurd h hp.2
  · rintro _ (h | h)
    · exact absurd h hp.1
    · exact absurd h hp.2

theorem MailWake.taken {tr s} {s0 : MlSt} (I : MailWake tr s) (h1 : s.pc ≠ .off) (he : s0.ends = false) (ht : s0.term = s.term) (hs : s0.stop = s.stop) (hq : s0.queue = s.queue) :
    MailWake (tr ++ []) { s0.take with pc := .connect } := by
  obtain ⟨t1, t2, t3, t4⟩ := take_fields s0
  rw [List.append_nil]
  refine ⟨Or.inr ?_, Or.inr ?_, ?_, ?_, fun e he => I.from_ e (hq ▸ t4 e he)⟩
  · intro h; exact (I.term.resolve_left h1) (by rw [← ht, ← t1]; exact h)
  · intro h; exact (I.stop.resolve_left h1) (by rw [← hs, ← t2]; exact h)
  · intro _ h
    have : s0.term = true := by rw [← t1]; exact h
    simp [MlSt.ends, this] at he
  · intro _ _ hst hqe hin
    by_cases hall : ∀ e ∈ s0.queue, e.to_ ≠ []
    · exact (take_todo he hall hst hqe hin).elim
    · refine Or.inr ?_
      have ⟨e, hm⟩ := Classical.not_forall.1 hall
      have ⟨h1, h2⟩ := Classical.not_imp.1 hm
      exact ⟨e, I.from_ e (hq ▸ h1), Classical.not_not.1 h2⟩

theorem MailWake.step {o tr s es} {s' : MlSt} (I : MailWake tr s) (h : MailStep o s es s') : MailWake (tr ++ es) s' := by
  cases h with
  | handler f h =>
    unfold mstep at h
    split at h
    all_goals try (rename_i hp)
    all_goals try (cases h; done)
    all_goals have hoff : s.pc ≠ .off := by rw [hp]; simp
    · split at h
      · cases h; exact I.quiet hoff rfl rfl (fun _ h => h) (by simp)
      · rename_i he
        split at h
        · cases h; exact I.quiet hoff rfl rfl (fun _ h => h) (by simp)
        · cases h; exact I.taken hoff (by simpa using he) rfl rfl rfl
    · dsimp only at h
      split at h
      · cases h; exact I.quiet hoff rfl rfl (fun _ h => h) (by simp)
      · rename_i he
        cases h; exact I.taken hoff (by simpa using he) rfl rfl rfl
    · have poll : ∀ t : MlSt, t.term = s.term → t.stop = s.stop → t.waking = s.waking → t.queue = s.queue → t.cur = s.cur → ∀ es, MailWake (tr ++ es) { t with pc := .poll } := by
        intro t h1 h2 h3 h4 h5 es
        refine ⟨Or.inr ?_, Or.inr ?_, ?_, ?_, ?_⟩
        · intro h; exact List.mem_append_left _ ((I.term.resolve_left hoff) (h1 ▸ h))
        · intro h; exact List.mem_append_left _ ((I.stop.resolve_left hoff) (h2 ▸ h))
        · intro _ h; exact h3.trans (I.wakeT (Or.inl hp) (h1 ▸ h))
        · intro hq _ hs hqe hi
          rcases I.wakeS (h4 ▸ hq) (Or.inl hp) (h2 ▸ hs) (h4 ▸ hqe) (by simpa [MlSt.inEmail, h5] using hi) with h | ⟨e, h6, h7⟩
          · exact Or.inl (h3.trans h)
          · exact Or.inr ⟨e, List.mem_append_left _ h6, h7⟩
        · intro e he; exact List.mem_append_left _ (I.from_ e (h4 ▸ he))
      split at h
      · split at h
        · cases h; exact poll { s with line := [], valid := true, null := false, state := .connected } rfl rfl rfl rfl rfl _
        · cases h; exact I.quiet hoff rfl rfl (fun _ h => h) (by simp)
        · cases h
      · cases h; exact poll s rfl rfl rfl rfl rfl _
    · split at h
      · split at h
        · split at h
          · cases h; exact I.quiet hoff rfl rfl (fun _ h => h) (by dsimp only; split <;> simp)
          · cases h
        · cases h; exact I.quiet hoff rfl rfl (fun _ h => h) (by simp)
        · cases h; exact I.quiet hoff rfl rfl (fun _ h => h) (by simp)
        · cases h
      · cases h; exact I.quiet hoff rfl rfl (fun _ h => h) (by simp)
    · split at h
      · rename_i b room
        split at h
        · generalize hr : s.reply o room = x at h
          obtain ⟨out, t⟩ := x
          dsimp only at h
          cases h
          have hf := reply_fields o s room
          rw [hr] at hf
          obtain ⟨f1, f2, f3, f4, _⟩ := hf
          dsimp only at f1 f2 f3 f4
          have hpc : s'.pc = .test := by rw [show s' = (s.reply o room).2 by rw [hr]]; rfl
          exact I.quiet hoff f1 f2 (fun _ h => f4 ▸ h) (by rw [hpc]; simp)
        · cases h; exact I.quiet hoff rfl rfl (fun _ h => h) (by simp)
      · dsimp only at h
        split at h
        · cases h; exact I.quiet hoff rfl rfl (fun _ h => h) (by simp)
        · split at h
          · split at h
            · cases h
              rename_i closed _ _ _ _
              obtain ⟨f1, f2, f3, f4, _⟩ := reply_fields o { s with valid := s.valid && !closed } 0
              exact I.quiet hoff f1 f2 (fun _ h => by have h' : _ ∈ _ := h; dsimp only at h'; rw [f4] at h'; exact h') (by dsimp only; rw [reply_pc]; simp)
            · cases h; exact I.quiet hoff rfl rfl (fun _ h => h) (by simp)
          · cases h; exact I.quiet hoff rfl rfl (fun _ h => h) (by simp)
      · cases h
  | call c h =>
    cases c with
    | queue e =>
      cases h
      refine ⟨I.term.imp id fun h ht => List.mem_append_left _ (h ht), I.stop.imp id fun h ht => List.mem_append_left _ (h ht), fun _ _ => rfl, fun _ _ _ _ _ => Or.inl rfl, ?_⟩
      intro x hx
      rcases List.mem_append.1 hx with hx | hx
      · exact List.mem_append_left _ (I.from_ x hx)
      · rw [List.mem_singleton.1 hx]; simp
    | stop =>
      cases h
      exact ⟨I.term.imp id fun h ht => List.mem_append_left _ (h ht), Or.inr fun _ => by simp, fun _ _ => rfl, fun _ _ _ _ _ => Or.inl rfl, fun e he => List.mem_append_left _ (I.from_ e he)⟩
    | terminate =>
      cases h
      exact ⟨Or.inr fun _ => by simp, I.stop.imp id fun h ht => List.mem_append_left _ (h ht), fun _ _ => rfl, fun _ _ _ _ _ => Or.inl rfl, fun e he => List.mem_append_left _ (I.from_ e he)⟩
    | start =>
      simp only [mcall] at h
      split at h
      · cases h
        exact ⟨Or.inr (by simp), Or.inr (by simp), by simp, by simp, fun e he => List.mem_append_left _ (I.from_ e he)⟩
      · cases h

theorem MailRun.wake {o : Bytes} {a b : Bool} {tr s} (h : MailRun o (mailInit a b) tr s) : MailWake tr s := by
  generalize hi : mailInit a b = s0 at h
  induction h with
  | refl =>
    subst hi
    exact ⟨Or.inl rfl, Or.inl rfl, by simp [mailInit], by simp [mailInit], by simp [mailInit]⟩
  | step _ hs ih => exact ih.step hs

/-- The end of the thread is a step of its own. -/
theorem MailStep.ended {o s es} {s' : MlSt} (h : MailStep o s es s') (hm : MailEvent.ended ∈ es) : es = [.ended] ∧ s'.pc = .done ∧ s'.waiting = s.waiting ∧ (s.term = true ∨ s.stop = true ∧ s.queue = [] ∧ s.inEmail = false) := by
  have talkNo : ∀ (t : List Talk), MailEvent.ended ∉ t.map MailEvent.talk := by
    intro t h; obtain ⟨_, _, e⟩ := List.mem_map.1 h; cases e
  have hends : ∀ t : MlSt, t.ends = true → t.term = true ∨ t.stop = true ∧ t.queue = [] ∧ t.inEmail = false := by
    intro t h
    simpa [MlSt.ends, and_assoc] using h
  cases h with
  | handler f h =>
    unfold mstep at h
    split at h
    all_goals try (rename_i hp)
    all_goals try (cases h; done)
    · split at h
      · rename_i he; cases h; exact ⟨rfl, rfl, rfl, hends _ he⟩
      · split at h
        · cases h; cases hm
        · cases h; cases hm
    · dsimp only at h
      split at h
      · rename_i he; cases h; exact ⟨rfl, rfl, rfl, hends _ he⟩
      · cases h; cases hm
    · split at h
      · split at h
        · cases h; simp at hm
        · cases h; cases hm
        · cases h
      · cases h; cases hm
    · split at h
      · split at h
        · split at h
          · cases h; cases hm
          · cases h
        · cases h; cases hm
        · cases h; cases hm
        · cases h
      · cases h; cases hm
    · split at h
      · rename_i b room
        split at h
        · generalize hr : s.reply o room = x at h
          obtain ⟨out, t⟩ := x
          dsimp only at h
          cases h
          exact absurd hm (talkNo (.heard b :: said out))
        · cases h; simp at hm
      · dsimp only at h
        split at h
        · cases h; cases hm
        · split at h
          · split at h
            · cases h; cases hm
            · cases h; cases hm
          · cases h; cases hm
      · cases h
  | call c h =>
    cases c with
    | queue e => cases h; simp at hm
    | stop => cases h; simp at hm
    | terminate => cases h; simp at hm
    | start =>
      simp only [mcall] at h
      split at h
      · cases h; simp at hm
      · cases h

theorem MailRun.ended {o : Bytes} {s0 s : MlSt} {tr : List MailEvent} (h : MailRun o s0 tr s) (before after : List MailEvent) (e : tr = before ++ .ended :: after) :
    ∃ s1 s2, MailRun o s0 before s1 ∧ MailStep o s1 [.ended] s2 := by
  induction h generalizing after with
  | refl => cases before <;> cases e
  | @step tr s1 es s2 run hs ih =>
    rcases List.append_eq_append_iff.1 e with ⟨x, h1, h2⟩ | ⟨x, h1, h2⟩
    · -- the event is in the last step
      have hm : MailEvent.ended ∈ es := by rw [h2]; simp
      have hes := (hs.ended hm).1
      rw [hes] at h2 hs
      cases x with
      | nil => rw [List.append_nil] at h1; exact ⟨s1, s2, h1 ▸ run, hs⟩
      | cons y x => have := congrArg List.length h2; simp at this
    · cases x with
      | nil =>
        rw [List.append_nil] at h1
        rw [List.nil_append] at h2
        have hm : MailEvent.ended ∈ es := by rw [← h2]; simp
        have hes := (hs.ended hm).1
        rw [hes] at hs
        exact ⟨s1, s2, h1 ▸ run, hs⟩
      | cons y x =>
        rw [List.cons_append] at h2
        have h3 := (List.cons.inj h2).1
        exact ih x (by rw [h1, ← h3])

end Fcgi.Model
