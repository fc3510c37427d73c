import Verif.Lemmas.Manager
/-! # Invariants of the manager's threads, continued -/
namespace Fcgi.Model
open Fcgi.Spec
variable {σ : Type}

/-- Invariant of the treatment of lost connections. -/
structure MSInv (s : MSt σ) : Prop where
  sw : ∀ p, ∀ e ∈ (s.pu p).todo, e ∈ s.table
  sd : ∀ p, ((s.pu p).todo.map Prod.fst).Nodup
  nl : (s.table.map Prod.fst).Nodup

theorem holdsW_todo {pc : PPC} (h : pc.holdsW = false) : pc.todo = [] := by
  cases pc <;> simp_all [W_all, PPC.todo]

/-- Steps of handler threads change the table only by removing, and only while holding m_requestsMutex. -/
theorem hstep_table (P : Prog σ) (t : Nat) (s : MSt σ) (es) (s') (h : hstep P t s = some (es, s')) :
    s'.pu = s.pu ∧ ((s.th t).erasing = false ∧ s'.table = s.table ∨ ∃ k r, s.th t = .erase k r ∧ s'.table = s.table.filter (fun e => e.1 ≠ k)) := by
  unfold hstep at h
  split at h
  case h_17 hpc =>
    cases h
    exact ⟨rfl, Or.inr ⟨_, _, hpc, rfl⟩⟩
  all_goals rename_i hpc
  all_goals (have pE := congrArg HPC.erasing hpc; simp only [E_all] at pE; rw [pE])
  all_goals repeat' split at h
  all_goals first
    | (cases h; done)
    | (cases h; exact ⟨rfl, Or.inl ⟨rfl, rfl⟩⟩)

theorem hstep_sinv (P : Prog σ) (t : Nat) (s : MSt σ) (es) (s') (I : MInv P s) (S : MSInv s) (h : hstep P t s = some (es, s')) : MSInv s' := by
  obtain ⟨h1, h2⟩ := hstep_table P t s es s' h
  rcases h2 with ⟨_, h2⟩ | ⟨k, r, hpc, h2⟩
  · exact ⟨by rw [h1, h2]; exact S.sw, by rw [h1]; exact S.sd, by rw [h2]; exact S.nl⟩
  · have hw : s.writer = some (.handler t) := (I.wh t).2 (by rw [hpc]; rfl)
    have htodo : ∀ p, (s.pu p).todo = [] := by
      intro p
      apply holdsW_todo
      have := I.wp p
      rw [hw] at this
      simpa using this
    refine ⟨by rw [h1]; intro p e he; rw [htodo p] at he; simp at he, by rw [h1]; exact S.sd, ?_⟩
    rw [h2]
    exact List.Nodup.sublist (List.Sublist.map _ List.filter_sublist) S.nl

set_option maxHeartbeats 2000000 in
theorem estep_inv (P : Prog σ) (e : Outer) (s : MSt σ) (es) (s') (I : MInv P s) (h : estep P e s = some (es, s')) : MInv P s' := by
  obtain ⟨tl, rd, wh, wp, rw', mu, mt, ms, mq, mx, nd, ni, nx, al, off⟩ := I
  unfold estep at h
  split at h
  · split at h
    · cases h
      have key : ∀ x, ((if x < P.threads ∧ s.th x = .off then HPC.boot else s.th x).holdsT = (s.th x).holdsT) ∧
          ((if x < P.threads ∧ s.th x = .off then HPC.boot else s.th x).holdsR = (s.th x).holdsR) ∧
          ((if x < P.threads ∧ s.th x = .off then HPC.boot else s.th x).erasing = (s.th x).erasing) ∧
          ((if x < P.threads ∧ s.th x = .off then HPC.boot else s.th x).mutexOf = (s.th x).mutexOf) ∧
          ((if x < P.threads ∧ s.th x = .off then HPC.boot else s.th x).holdsM = (s.th x).holdsM) ∧
          ((if x < P.threads ∧ s.th x = .off then HPC.boot else s.th x).msgsOf = (s.th x).msgsOf) ∧
          ((if x < P.threads ∧ s.th x = .off then HPC.boot else s.th x).sawEmpty = (s.th x).sawEmpty) := by
        intro x
        split
        · rename_i h; rw [h.2]; exact ⟨rfl, rfl, rfl, rfl, rfl, rfl, rfl⟩
        · exact ⟨rfl, rfl, rfl, rfl, rfl, rfl, rfl⟩
      constructor <;> simp only [key]
      all_goals first | assumption | grind
    · cases h
  · split at h
    · cases h; fields; all_goals first | assumption | grind
    · cases h
  · split at h
    · cases h; fields; all_goals first | assumption | grind
    · cases h
  · split at h
    · rename_i hall
      cases h
      have key : ∀ x, s.th x = .off ∨ s.th x = .finished := by
        intro x
        by_cases hx : x < P.threads
        · exact hall x (List.mem_range.2 hx)
        · exact Or.inl (off x (by omega))
      have key' : ∀ x, (s.th x).holdsT = false ∧ (s.th x).holdsR = false ∧ (s.th x).erasing = false ∧ (s.th x).mutexOf = none ∧
          (s.th x).holdsM = none ∧ (s.th x).msgsOf = none ∧ (s.th x).sawEmpty = none := by
        intro x
        rcases key x with h | h <;> rw [h] <;> exact ⟨rfl, rfl, rfl, rfl, rfl, rfl, rfl⟩
      fields
      all_goals grind
    · cases h
  · cases h; fields; all_goals first | assumption | grind
  · split at h
    · rename_i hpc
      profile hpc
      cases h; fields; all_goals grind [put]
    · cases h
  · split at h
    · rename_i hpc
      have hW := congrArg PPC.holdsW hpc
      simp only [W_all] at hW
      cases h
      split
      · fields; all_goals grind [put]
      · split
        · fields; all_goals grind [put]
        · fields; all_goals grind [put]
    · cases h

theorem estep_sinv (P : Prog σ) (e : Outer) (s : MSt σ) (es) (s') (S : MSInv s) (h : estep P e s = some (es, s')) : MSInv s' := by
  obtain ⟨sw, sd, nl⟩ := S
  unfold estep at h
  split at h
  all_goals repeat' split at h
  all_goals first
    | (cases h; done)
    | (cases h; exact ⟨sw, sd, nl⟩)
    | skip
  all_goals
    cases h
    refine ⟨fun q e he => sw q e ?_, fun q => ?_, nl⟩
    · simp only [MSt.pgoto, put] at he
      split at he
      · simp [PPC.todo] at he
      · exact he
    · simp only [MSt.pgoto, put]
      split
      · simp [PPC.todo]
      · exact sd q

theorem SQ {pc : HPC} {r} (h : pc.sawEmpty = some r) : pc.msgsOf = some r := by
  cases pc <;> simp_all [S_all, Q_all]

set_option maxHeartbeats 4000000 in
theorem pstep_inv (P : Prog σ) (p w : Nat) (s : MSt σ) (es) (s') (I : MInv P s) (S : MSInv s) (h : pstep P p w s = some (es, s')) : MInv P s' := by
  obtain ⟨tl, rd, wh, wp, rw', mu, mt, ms, mq, mx, nd, ni, nx, al, off⟩ := I
  obtain ⟨sw, sd, nl⟩ := S
  unfold pstep at h
  split at h
  case h_1 => cases h
  all_goals rename_i hpc
  all_goals (have pW := congrArg PPC.holdsW hpc; simp only [W_all] at pW)
  case h_2 => cases h; fields; all_goals grind [put]
  case h_3 =>
    split at h
    · cases h; fields; all_goals grind [put]
    · cases h
  case h_4 =>
    have hm := sw p _ (by rw [hpc]; exact List.mem_cons_self)
    split at h
    · cases h; fields; all_goals grind [put, MN, NM]
    · cases h; fields; all_goals grind [put]
  case h_5 => cases h; fields; all_goals grind [put]
  case h_6 =>
    split at h
    · cases h; fields; all_goals grind [put]
    · cases h
  case h_7 =>
    split at h
    · rename_i hl
      have hm := lookup_none hl
      split at h
      · split at h
        · cases h; fields; all_goals grind [put]
        · split at h
          · have f1 : (s.objs s.next).mutex = none := by
              cases hh : (s.objs s.next).mutex with
              | none => rfl
              | some t =>
                obtain ⟨k, hk⟩ := NM ((mu _ t).1 hh)
                have := nx _ (mt t _ hk)
                simp at this
            have f2 : (s.objs s.next).msgs = none := by
              cases hh : (s.objs s.next).msgs with
              | none => rfl
              | some t =>
                have := mx t _ ((ms _ t).1 hh)
                simp at this
            cases h; fields; all_goals grind [put]
          · cases h; fields; all_goals grind [put]
      · cases h; fields; all_goals grind [put]
    · rename_i hl
      have hm := mlookup_mem hl
      split at h
      · cases h; fields; all_goals grind [put, SQ]
      · cases h
  case h_8 =>
    split at h
    · split at h
      · rename_i hw
        profile hw
        cases h; fields; all_goals grind [put]
      · split at h
        · cases h; fields; all_goals grind [put]
        · cases h
    · cases h

theorem pstep_sinv (P : Prog σ) (p w : Nat) (s : MSt σ) (es) (s') (I : MInv P s) (S : MSInv s) (h : pstep P p w s = some (es, s')) : MSInv s' := by
  obtain ⟨sw, sd, nl⟩ := S
  have key : ∀ pc x, PPC.todo pc = [] → (put s.pu p pc x).todo = [] ∨ (put s.pu p pc x).todo = (s.pu x).todo := by
    intro pc x hpc'
    unfold put
    split
    · exact Or.inl hpc'
    · exact Or.inr rfl
  have quiet : ∀ (s1 : MSt σ) pc, PPC.todo pc = [] → s1.pu = put s.pu p pc → (∀ q, q ≠ p → (s.pu q).todo = [] ∨ s1.table = s.table) →
      (s1.table.map Prod.fst).Nodup → MSInv s1 := by
    intro s1 pc h1 h2 h3 h4
    refine ⟨fun q e he => ?_, fun q => ?_, h4⟩
    · rw [h2] at he
      by_cases hq : q = p
      · subst hq; rw [put_same, h1] at he; simp at he
      · rw [put_other _ _ _ hq] at he
        rcases h3 q hq with h | h
        · rw [h] at he; simp at he
        · rw [h]; exact sw q e he
    · rw [h2]
      rcases key pc q h1 with h | h <;> rw [h]
      · simp
      · exact sd q
  unfold pstep at h
  split at h
  case h_1 => cases h
  all_goals rename_i hpc
  all_goals (have pW := congrArg PPC.holdsW hpc; simp only [W_all] at pW)
  case h_2 => cases h; exact quiet _ _ rfl rfl (fun _ _ => Or.inr rfl) nl
  case h_3 =>
    split at h
    · cases h
      refine ⟨fun q e he => ?_, fun q => ?_, nl⟩
      · simp only [MSt.pgoto] at he
        by_cases hq : q = p
        · subst hq; rw [put_same] at he; simp only [PPC.todo, List.mem_filter] at he; exact he.1
        · rw [put_other _ _ _ hq] at he; exact sw q e he
      · simp only [MSt.pgoto]
        by_cases hq : q = p
        · subst hq; rw [put_same]
          exact List.Nodup.sublist (List.Sublist.map _ List.filter_sublist) nl
        · rw [put_other _ _ _ hq]; exact sd q
    · cases h
  case h_4 =>
    rename_i socket k r todo
    have others : ∀ q, q ≠ p → (s.pu q).todo = [] := by
      intro q hq
      apply holdsW_todo
      have h1 := (I.wp p).2 pW
      have h2 := I.wp q
      rw [h1] at h2
      cases hh : (s.pu q).holdsW with
      | false => rfl
      | true => have := h2.2 hh; simp at this; exact absurd this.symm hq
    have hd := sd p
    have hs := sw p
    rw [hpc] at hd hs
    simp only [PPC.todo, List.map_cons, List.nodup_cons, List.mem_cons] at hd hs
    split at h
    · cases h
      refine ⟨fun q e he => ?_, fun q => ?_, ?_⟩
      · simp only [MSt.pgoto, MSt.destroy] at he ⊢
        by_cases hq : q = p
        · subst hq; rw [put_same] at he
          simp only [PPC.todo] at he
          refine List.mem_filter.2 ⟨hs e (Or.inr he), ?_⟩
          simp only [ne_eq, decide_not, Bool.not_eq_eq_eq_not, Bool.not_true, decide_eq_false_iff_not]
          intro hk
          exact hd.1 (hk ▸ List.mem_map_of_mem he)
        · rw [put_other _ _ _ hq, MSt.touch, others q hq] at he; simp at he
      · simp only [MSt.pgoto, MSt.destroy]
        by_cases hq : q = p
        · subst hq; rw [put_same]; exact hd.2
        · rw [put_other _ _ _ hq]; exact sd q
      · exact List.Nodup.sublist (List.Sublist.map _ List.filter_sublist) nl
    · cases h
      refine ⟨fun q e he => ?_, fun q => ?_, nl⟩
      · simp only [MSt.pgoto, MSt.touch] at he ⊢
        by_cases hq : q = p
        · subst hq; rw [put_same] at he; exact hs e (Or.inr he)
        · rw [put_other _ _ _ hq, others q hq] at he; simp at he
      · simp only [MSt.pgoto]
        by_cases hq : q = p
        · subst hq; rw [put_same]; exact hd.2
        · rw [put_other _ _ _ hq]; exact sd q
  case h_5 => cases h; exact quiet _ _ rfl rfl (fun _ _ => Or.inr rfl) nl
  case h_6 =>
    split at h
    · cases h; exact quiet _ _ rfl rfl (fun _ _ => Or.inr rfl) nl
    · cases h
  case h_7 =>
    have others : ∀ q, q ≠ p → (s.pu q).todo = [] := by
      intro q hq
      apply holdsW_todo
      have h1 := (I.wp p).2 pW
      have h2 := I.wp q
      rw [h1] at h2
      cases hh : (s.pu q).holdsW with
      | false => rfl
      | true => have := h2.2 hh; simp at this; exact absurd this.symm hq
    split at h
    · rename_i hl
      split at h
      · split at h
        · cases h; exact quiet _ _ rfl rfl (fun _ _ => Or.inr rfl) nl
        · split at h
          · cases h
            refine quiet _ _ rfl rfl (fun q hq => Or.inl (others q hq)) ?_
            simp only [MSt.pgoto, List.map_cons, List.nodup_cons]
            refine ⟨?_, nl⟩
            intro hm
            obtain ⟨⟨a, b⟩, hm', rfl⟩ := List.mem_map.1 hm
            exact lookup_none hl b hm'
          · cases h; exact quiet _ _ rfl rfl (fun _ _ => Or.inr rfl) nl
      · cases h; exact quiet _ _ rfl rfl (fun _ _ => Or.inr rfl) nl
    · split at h
      · cases h; exact quiet _ _ rfl rfl (fun _ _ => Or.inr rfl) nl
      · cases h
  case h_8 =>
    split at h
    · split at h
      · cases h; exact quiet _ _ rfl rfl (fun _ _ => Or.inr rfl) nl
      · split at h
        · cases h; exact quiet _ _ rfl rfl (fun _ _ => Or.inr rfl) nl
        · cases h
    · cases h

theorem init_inv (P : Prog σ) (x : σ) : MInv P (mInit x) ∧ MSInv (mInit x) := by
  constructor
  · constructor <;> simp [mInit, T_all, R_all, E_all, M_all, N_all, Q_all, S_all, W_all]
  · constructor <;> simp [mInit, PPC.todo]

theorem step_inv {P : Prog σ} {s es s'} (I : MInv P s) (S : MSInv s) (h : MStep P s es s') : MInv P s' ∧ MSInv s' := by
  cases h with
  | handler t h => exact ⟨hstep_inv P t s es s' I h, hstep_sinv P t s es s' I S h⟩
  | pusher p w h => exact ⟨pstep_inv P p w s es s' I S h, pstep_sinv P p w s es s' I S h⟩
  | env e h => exact ⟨estep_inv P e s es s' I h, estep_sinv P e s es s' S h⟩

theorem mrun_inv {P : Prog σ} {s tr s'} (I : MInv P s) (S : MSInv s) (h : MRun P s tr s') : MInv P s' ∧ MSInv s' := by
  induction h with
  | refl => exact ⟨I, S⟩
  | step _ h ih => exact step_inv ih.1 ih.2 h

end Fcgi.Model
