import Verif.Lemmas.ManagerTrace
/-! # Lost connections -/
namespace Fcgi.Model
open Fcgi.Spec
variable {σ : Type}

theorem pstep_sweep (P : Prog σ) (p w : Nat) (s : MSt σ) (es) (s') (h : pstep P p w s = some (es, s')) :
    ∃ pc, s'.pu = put s.pu p pc ∧ ∀ x l, pc = .sweep x l →
      (s.pu p = .lost x ∧ l = s.table.filter (fun e => e.1.socket = x) ∧ s'.table = s.table ∧ es = []) ∨
      ∃ k r, s.pu p = .sweep x ((k, r) :: l) ∧
        ((es = [.removed r] ∧ s'.table = s.table.filter (fun e => e.1 ≠ k) ∧ (s.objs r).mutex = none) ∨
         (es = [.spared r] ∧ s'.table = s.table ∧ (s.objs r).mutex ≠ none)) := by
  unfold pstep at h
  split at h
  all_goals rename_i hpc
  case h_3 =>
    split at h
    · cases h
      refine ⟨_, rfl, fun x l hx => ?_⟩
      cases hx
      exact Or.inl ⟨hpc, rfl, rfl, rfl⟩
    · cases h
  case h_4 =>
    split at h
    · rename_i hm
      cases h
      refine ⟨_, rfl, fun x l hx => ?_⟩
      cases hx
      exact Or.inr ⟨_, _, hpc, Or.inl ⟨rfl, rfl, hm⟩⟩
    · rename_i hm
      cases h
      refine ⟨_, rfl, fun x l hx => ?_⟩
      cases hx
      exact Or.inr ⟨_, _, hpc, Or.inr ⟨rfl, rfl, hm⟩⟩
  all_goals repeat' split at h
  all_goals first
    | (cases h; done)
    | (cases h; exact ⟨_, rfl, fun x l hx => by cases hx⟩)

/-- A call changes the table only while it holds m_requestsMutex. -/
theorem pstep_table (P : Prog σ) (p w : Nat) (s : MSt σ) (es) (s') (h : pstep P p w s = some (es, s')) :
    (s.pu p).holdsW = true ∨ s'.table = s.table := by
  unfold pstep at h
  split at h
  all_goals rename_i hpc
  all_goals (rw [hpc]; simp only [W_all, true_or, Bool.false_eq_true, false_or])
  all_goals repeat' split at h
  all_goals first
    | (cases h; done)
    | (cases h; rfl)

theorem estep_table (P : Prog σ) (e : Outer) (s : MSt σ) (es) (s') (h : estep P e s = some (es, s')) :
    s'.table = s.table ∧ (s'.pu = s.pu ∨ ∃ p, s.pu p = .idle ∧ ∃ pc, s'.pu = put s.pu p pc ∧ ∀ x l, pc ≠ .sweep x l) := by
  unfold estep at h
  split at h
  case h_7 =>
    split at h
    · rename_i hp
      cases h
      refine ⟨rfl, Or.inr ⟨_, hp, _, rfl, ?_⟩⟩
      intro x l
      repeat' split
      all_goals simp
    · cases h
  all_goals repeat' split at h
  all_goals first
    | (cases h; done)
    | (cases h; exact ⟨rfl, Or.inl rfl⟩)

theorem only_writer {P : Prog σ} {s : MSt σ} (I : MInv P s) {p q : Nat} (hp : (s.pu p).holdsW = true) (hq : (s.pu q).holdsW = true) : q = p := by
  have h1 := (I.wp p).2 hp
  have h2 := (I.wp q).2 hq
  rw [h1] at h2; cases h2; rfl

/-- The requests a sweep will look at belong to its connection, and those of the connection it has gone past were spared. -/
structure VInv (p : Nat) (tr : List MEvent) (s : MSt σ) : Prop where
  so : ∀ x l, s.pu p = .sweep x l → ∀ e ∈ l, e.1.socket = x
  sp : ∀ x l, s.pu p = .sweep x l → ∀ k r, (k, r) ∈ s.table → k.socket = x → (k, r) ∈ l ∨ .spared r ∈ tr

theorem step_vinv {P : Prog σ} {s es s' tr p} (I : MInv P s) (S : MSInv s) (V : VInv p tr s) (h : MStep P s es s') : VInv p (tr ++ es) s' := by
  obtain ⟨so, sp⟩ := V
  have keep : s'.pu p = s.pu p → ((s.pu p).holdsW = true → s'.table = s.table) → VInv p (tr ++ es) s' := by
    intro h1 h2
    refine ⟨by rw [h1]; exact so, ?_⟩
    intro x l hx k r hm hk
    rw [h1] at hx
    rw [h2 (by rw [hx]; rfl)] at hm
    rcases sp x l hx k r hm hk with h | h
    · exact Or.inl h
    · exact Or.inr (by simp [h])
  cases h with
  | handler t h =>
    obtain ⟨h1, h2⟩ := hstep_table P t s es s' h
    refine keep (by rw [h1]) (fun hw => ?_)
    rcases h2 with ⟨_, h2⟩ | ⟨k, r, hpc, h2⟩
    · exact h2
    · have a := (I.wh t).2 (by rw [hpc]; rfl)
      have b := (I.wp p).2 hw
      rw [a] at b; cases b
  | env e h =>
    obtain ⟨h1, h2⟩ := estep_table P e s es s' h
    rcases h2 with h2 | ⟨q, hq, pc, h2, h3⟩
    · exact keep (by rw [h2]) (fun _ => h1)
    · by_cases hqp : p = q
      · subst hqp
        refine ⟨fun x l hx => ?_, fun x l hx => ?_⟩ <;> (rw [h2, put_same] at hx; exact absurd hx (h3 x l))
      · exact keep (by rw [h2, put_other _ _ _ hqp]) (fun _ => h1)
  | pusher q w h =>
    by_cases hqp : q = p
    · subst hqp
      obtain ⟨pc, h1, h2⟩ := pstep_sweep P q w s es s' h
      refine ⟨fun x l hx => ?_, fun x l hx => ?_⟩
      · rw [h1, put_same] at hx
        rcases h2 x l hx with ⟨_, rfl, _, _⟩ | ⟨k, r, h3, _⟩
        · intro e he; simpa using (List.mem_filter.1 he).2
        · intro e he; exact so x _ h3 e (List.mem_cons_of_mem _ he)
      · rw [h1, put_same] at hx
        intro k' r' hm hk
        rcases h2 x l hx with ⟨_, rfl, h4, _⟩ | ⟨k, r, h3, h4⟩
        · rw [h4] at hm
          exact Or.inl (List.mem_filter.2 ⟨hm, by simpa using hk⟩)
        · rcases h4 with ⟨he, ht, _⟩ | ⟨he, ht, _⟩
          · rw [ht] at hm
            have hm' := List.mem_filter.1 hm
            rcases sp x _ h3 k' r' hm'.1 hk with h | h
            · rcases List.mem_cons.1 h with h | h
              · cases h; simp at hm'
              · exact Or.inl h
            · exact Or.inr (by simp [h])
          · rw [ht] at hm
            rcases sp x _ h3 k' r' hm hk with h | h
            · rcases List.mem_cons.1 h with h | h
              · cases h; exact Or.inr (by simp [he])
              · exact Or.inl h
            · exact Or.inr (by simp [h])
    · obtain ⟨pc, h1, _⟩ := pstep_sweep P q w s es s' h
      refine keep (by rw [h1, put_other _ _ _ (Ne.symm hqp)]) (fun hw => ?_)
      rcases pstep_table P q w s es s' h with h | h
      · exact absurd (only_writer I hw h) hqp
      · exact h

theorem run_vinv {P : Prog σ} {s tr s' p} (I : MInv P s) (S : MSInv s) (h0 : ∀ x l, s.pu p ≠ .sweep x l) (h : MRun P s tr s') : VInv p tr s' := by
  induction h with
  | refl => exact ⟨fun x l h => absurd h (h0 x l), fun x l h => absurd h (h0 x l)⟩
  | step hr h ih => exact step_vinv (mrun_inv I S hr).1 (mrun_inv I S hr).2 ih h

/-! ### All requests of a lost connection are removed, if nobody had just found it in order -/

/-- The request id the thread is about to let go although it has not ended. -/
def HPC.letting : HPC → Option RequestId
  | .stay k _ => some k
  | _ => none
theorem letting_all : (HPC.off.letting = none) ∧
    (HPC.boot.letting = none) ∧
    (HPC.top.letting = none) ∧
    (HPC.test.letting = none) ∧
    (HPC.drain.letting = none) ∧
    (∀ (k : RequestId), (HPC.popped k).letting = none) ∧
    (∀ (k : RequestId), (HPC.find k).letting = none) ∧
    (∀ (k : RequestId) (r : Nat), (HPC.enter k r).letting = none) ∧
    (∀ (k : RequestId) (r : Nat), (HPC.look k r).letting = none) ∧
    (∀ (k : RequestId) (r : Nat) (m : Message), (HPC.work k r m).letting = none) ∧
    (∀ (k : RequestId) (r : Nat), (HPC.kept k r).letting = none) ∧
    (∀ (k : RequestId) (r : Nat), (HPC.stay k r).letting = some k) ∧
    (∀ (k : RequestId) (r : Nat), (HPC.part k r).letting = none) ∧
    (∀ (k : RequestId) (r : Nat), (HPC.over k r).letting = none) ∧
    (∀ (k : RequestId) (r : Nat), (HPC.erase k r).letting = none) ∧
    (HPC.relock.letting = none) ∧
    (HPC.check.letting = none) ∧
    (HPC.judge.letting = none) ∧
    (HPC.waiting.letting = none) ∧
    (HPC.woken.letting = none) ∧
    (HPC.finished.letting = none) := by
  refine ⟨?_, ?_, ?_, ?_, ?_, ?_, ?_, ?_, ?_, ?_, ?_, ?_, ?_, ?_, ?_, ?_, ?_, ?_, ?_, ?_, ?_⟩ <;> intros <;> rfl
theorem put_letting (f : Nat → HPC) (t x : Nat) (pc : HPC) : (put f t pc x).letting = if x = t then pc.letting else (f x).letting := by
  unfold put; split <;> rfl
theorem notify_letting (f : Nat → HPC) (x : Nat) : (if f x = .waiting then HPC.woken else f x).letting = (f x).letting := by
  split <;> simp_all [letting_all]

/-- What a step does to who holds which request. -/
theorem hstep_hold (P : Prog σ) (t : Nat) (s : MSt σ) (es) (s') (h : hstep P t s = some (es, s')) :
    s'.invalid = s.invalid ∧ (∀ x, x ≠ t → (s'.th x).mutexOf = (s.th x).mutexOf ∧ (s'.th x).letting = (s.th x).letting) ∧
    (∀ e, (s.th t).mutexOf = some e → (s'.th t).mutexOf = some e ∨ (s.th t).letting = some e.1 ∨ s'.table = s.table.filter (fun x => x.1 ≠ e.1)) ∧
    (∀ k, (s'.th t).letting = some k → s.invalid k.socket = false) := by
  unfold hstep at h
  split at h
  all_goals rename_i hpc
  all_goals (have pM := congrArg HPC.mutexOf hpc; have pL := congrArg HPC.letting hpc; simp only [M_all, letting_all] at pM pL)
  case h_12 =>
    cases h
    refine ⟨rfl, fun x hx => ?_, ?_, ?_⟩ <;>
      (simp only [MSt.goto, MSt.setObj, MSt.touch, put_M, put_letting, M_all, letting_all]; repeat' split) <;>
      simp_all [M_all, letting_all]
  all_goals repeat' split at h
  all_goals first
    | (cases h; done)
    | (cases h
       refine ⟨rfl, fun x hx => ?_, ?_, ?_⟩ <;>
        simp only [MSt.goto, MSt.setObj, MSt.touch, MSt.destroy, MSt.notifyAll, put_M, put_letting, M_all, letting_all, notify_M, notify_letting] <;> grind)

theorem pstep_hold (P : Prog σ) (p w : Nat) (s : MSt σ) (es) (s') (h : pstep P p w s = some (es, s')) :
    s'.invalid = s.invalid ∧ ∀ x, (s'.th x).mutexOf = (s.th x).mutexOf ∧ (s'.th x).letting = (s.th x).letting := by
  unfold pstep at h
  split at h
  all_goals rename_i hpc
  case h_8 =>
    split at h
    · split at h
      · rename_i hw
        have pM := congrArg HPC.mutexOf hw; have pL := congrArg HPC.letting hw; simp only [M_all, letting_all] at pM pL
        cases h
        refine ⟨rfl, fun x => ?_⟩
        simp only [MSt.goto, MSt.pgoto, put_M, put_letting, M_all, letting_all]; grind
      · split at h
        · cases h; exact ⟨rfl, fun x => ⟨rfl, rfl⟩⟩
        · cases h
    · cases h
  all_goals repeat' split at h
  all_goals first
    | (cases h; done)
    | (cases h; exact ⟨rfl, fun x => ⟨rfl, rfl⟩⟩)

theorem estep_hold (P : Prog σ) (e : Outer) (s : MSt σ) (es) (s') (h : estep P e s = some (es, s')) :
    (∀ x, s.invalid x = true → s'.invalid x = true) ∧
    (∀ x, (s'.th x).mutexOf = (s.th x).mutexOf ∧ (s'.th x).letting = (s.th x).letting ∨ (P.threads ≤ x ∨ s.th x = .off ∨ s.th x = .finished) ∧ s'.th x = .off) := by
  unfold estep at h
  split at h
  · split at h
    · cases h
      refine ⟨fun x h => h, fun x => Or.inl ?_⟩
      dsimp only
      split
      · rename_i h; rw [h.2]; exact ⟨rfl, rfl⟩
      · exact ⟨rfl, rfl⟩
    · cases h
  · split at h
    · cases h; exact ⟨fun x h => h, fun x => Or.inl ⟨notify_M _ _, notify_letting _ _⟩⟩
    · cases h
  · split at h
    · cases h; exact ⟨fun x h => h, fun x => Or.inl ⟨notify_M _ _, notify_letting _ _⟩⟩
    · cases h
  · split at h
    · rename_i hj
      cases h
      refine ⟨fun x h => h, fun x => Or.inr ⟨?_, rfl⟩⟩
      by_cases hx : x < P.threads
      · exact Or.inr (hj x (List.mem_range.2 hx))
      · exact Or.inl (by omega)
    · cases h
  · cases h
    refine ⟨fun x h => ?_, fun x => Or.inl ⟨rfl, rfl⟩⟩
    dsimp only; split
    · rfl
    · exact h
  · split at h
    · rename_i hw
      have pM := congrArg HPC.mutexOf hw; have pL := congrArg HPC.letting hw; simp only [M_all, letting_all] at pM pL
      cases h
      refine ⟨fun x h => h, fun x => Or.inl ?_⟩
      simp only [MSt.goto, put_M, put_letting, M_all, letting_all]; grind
    · cases h
  · split at h
    · cases h
      exact ⟨fun x h => h, fun x => Or.inl ⟨rfl, rfl⟩⟩
    · cases h

/-- All requests of connection `x` are still to be looked at by the call `p` or are held by a thread that will
see that the connection is closed. -/
structure MGInv (p x : Nat) (s : MSt σ) : Prop where
  iv : s.invalid x = true
  ns : ∀ t k, (s.th t).letting = some k → k.socket ≠ x
  ge : ∀ k r, (k, r) ∈ s.table → k.socket = x →
    s.pu p = .lost x ∨ (∃ l, s.pu p = .sweep x l ∧ (k, r) ∈ l) ∨ ∃ t, (s.th t).mutexOf = some (k, r)

theorem step_ginv {P : Prog σ} {s es s' p x} (I : MInv P s) (S : MSInv s) (G : MGInv p x s) (h : MStep P s es s')
    (hn : ∀ r k m, .created r k m ∈ es → k.socket ≠ x) : MGInv p x s' := by
  obtain ⟨iv, ns, ge⟩ := G
  have hE := step_effect I S h
  -- entries of the connection do not come in
  have old : ∀ k r, (k, r) ∈ s'.table → k.socket = x → (k, r) ∈ s.table := by
    intro k r hm hk
    clear h
    cases hE with
    | none h => rwa [h.table] at hm
    | quiet e he h => rwa [h.table] at hm
    | dropped k m hl hb h => rwa [h.table] at hm
    | accepted k m r hl ht hn hq hs => rwa [ht] at hm
    | began k r t m hpc ht hn hq hq' hs => rwa [ht] at hm
    | ended k r t m hpc ht hn hq hs => rwa [ht] at hm
    | removed k r hm' ht hn hq hs => rw [ht] at hm; exact (List.mem_filter.1 hm).1
    | created k' m hl hb ht hn' hq hs =>
      rw [ht] at hm
      rcases List.mem_cons.1 hm with h | h
      · cases h; exact absurd hk (hn _ _ _ (List.mem_singleton.2 rfl))
      · exact h
  cases h with
  | handler t h =>
    obtain ⟨h1, h2⟩ := hstep_table P t s es s' h
    obtain ⟨i1, i2, i3, i4⟩ := hstep_hold P t s es s' h
    refine ⟨by rw [i1]; exact iv, ?_, ?_⟩
    · intro u k hu hk
      by_cases hut : u = t
      · subst hut
        have := i4 k hu
        rw [hk, iv] at this; cases this
      · rw [(i2 u hut).2] at hu
        exact ns u k hu hk
    · intro k r hm hk
      rcases ge k r (old k r hm hk) hk with h | ⟨l, h, h'⟩ | ⟨u, h⟩
      · exact Or.inl (by rw [h1]; exact h)
      · exact Or.inr (Or.inl ⟨l, by rw [h1]; exact h, h'⟩)
      · clear h2
        have hold := h
        by_cases hut : u = t
        · subst hut
          rcases i3 _ hold with h' | h' | h'
          · exact Or.inr (Or.inr ⟨u, h'⟩)
          · exact absurd hk (ns u _ h')
          · rw [h'] at hm
            have := (List.mem_filter.1 hm).2
            simp at this
        · exact Or.inr (Or.inr ⟨u, by rw [(i2 u hut).1]; exact hold⟩)
  | env e h =>
    obtain ⟨h1, h2⟩ := estep_table P e s es s' h
    obtain ⟨i1, i2⟩ := estep_hold P e s es s' h
    refine ⟨i1 x iv, ?_, ?_⟩
    · intro u k hu
      rcases i2 u with h | ⟨_, h⟩
      · rw [h.2] at hu; exact ns u k hu
      · rw [h] at hu; cases hu
    · intro k r hm hk
      have hm' := old k r hm hk
      have pc : (s.pu p ≠ .idle → s'.pu p = s.pu p) := by
        intro hne
        rcases h2 with h2 | ⟨q, hq, pc, h2, h3⟩
        · rw [h2]
        · rw [h2, put_other]
          rintro rfl; exact hne hq
      rcases ge k r hm' hk with h | ⟨l, h, h'⟩ | ⟨u, h⟩
      · exact Or.inl (by rw [pc (by rw [h]; simp)]; exact h)
      · exact Or.inr (Or.inl ⟨l, by rw [pc (by rw [h]; simp)]; exact h, h'⟩)
      · rcases i2 u with h'' | ⟨h'', _⟩
        · exact Or.inr (Or.inr ⟨u, by rw [h''.1]; exact h⟩)
        · exfalso
          rcases h'' with h'' | h'' | h''
          · rw [I.off u h''] at h; cases h
          · rw [h''] at h; cases h
          · rw [h''] at h; cases h
  | pusher q w h =>
    obtain ⟨i1, i2⟩ := pstep_hold P q w s es s' h
    refine ⟨by rw [i1]; exact iv, ?_, ?_⟩
    · intro u k hu
      rw [(i2 u).2] at hu; exact ns u k hu
    · intro k r hm hk
      have hm' := old k r hm hk
      rcases ge k r hm' hk with hh | ⟨l, hh, h'⟩ | ⟨u, hh⟩
      · by_cases hqp : p = q
        · subst hqp
          unfold pstep at h
          rw [hh] at h
          dsimp only at h
          split at h
          · cases h
            refine Or.inr (Or.inl ⟨_, put_same _ _ _, List.mem_filter.2 ⟨hm', by simpa using hk⟩⟩)
          · cases h
        · obtain ⟨pc, h1, _⟩ := pstep_sweep P q w s es s' h
          exact Or.inl (by rw [h1, put_other _ _ _ hqp]; exact hh)
      · by_cases hqp : p = q
        · subst hqp
          unfold pstep at h
          rw [hh] at h
          cases l with
          | nil => cases h'
          | cons e l =>
            obtain ⟨k1, r1⟩ := e
            dsimp only at h
            rcases List.mem_cons.1 h' with he | he
            · cases he
              split at h
              · cases h
                simp [MSt.pgoto, MSt.destroy] at hm
              · rename_i hmu
                cases hx : (s.objs r).mutex with
                | none => exact absurd hx hmu
                | some u =>
                  obtain ⟨k2, hk2⟩ := NM ((I.mu r u).1 hx)
                  have := I.ni _ _ _ (I.mt u _ hk2) hm'
                  subst this
                  exact Or.inr (Or.inr ⟨u, by rw [(i2 u).1]; exact hk2⟩)
            · split at h <;> (cases h; exact Or.inr (Or.inl ⟨l, put_same _ _ _, he⟩))
        · obtain ⟨pc, h1, _⟩ := pstep_sweep P q w s es s' h
          exact Or.inr (Or.inl ⟨l, by rw [h1, put_other _ _ _ hqp]; exact hh, h'⟩)
      · exact Or.inr (Or.inr ⟨u, by rw [(i2 u).1]; exact hh⟩)

theorem run_ginv {P : Prog σ} {s tr s' p x} (I : MInv P s) (S : MSInv s) (G : MGInv p x s) (h : MRun P s tr s')
    (hn : ∀ r k m, .created r k m ∈ tr → k.socket ≠ x) : MGInv p x s' := by
  induction h with
  | refl => exact G
  | step hr h ih =>
    have ih := ih (fun r k m hm => hn r k m (by simp [hm]))
    exact step_ginv (mrun_inv I S hr).1 (mrun_inv I S hr).2 ih h (fun r k m hm => hn r k m (by simp [hm]))

end Fcgi.Model
