import Verif.Model.Calls
import Verif.Spec.Calls
import Verif.Lemmas.ManagerRequest
/-! # Lemmas about the calls of `push` -/
namespace Fcgi.Model
open Fcgi.Spec
variable {σ : Type} {P : Prog σ} {places : Place → Prop}

/-! ### A run with calls is a run -/

theorem nstep_mstep {s cs es s'} (h : NStep P places s cs es s') : MStep P s.m es s'.m := by
  cases h with
  | handler t _ h => exact .handler t h
  | pusher p w h => exact .pusher p w h
  | env e _ h => exact .env e h
  | within t p k m pl _ _ _ h => exact .env _ h
  | outside p k m h => exact .env _ h

theorem nrun_mrun {s cs tr s'} (h : NRun P places s cs tr s') : MRun P s.m tr s'.m := by
  induction h with
  | refl => exact .refl _
  | step _ h ih => exact .step ih (nstep_mstep h)

/-! ### Every call is answered once -/

/-- A call of `push` on its way with message `m` for `k`. -/
def PPC.brings (k : RequestId) (m : Message) (pc : PPC) : Nat := if pc = .call k m ∨ pc = .route k m then 1 else 0

theorem takenFor_append (k : RequestId) (tr es : List MEvent) : takenFor k (tr ++ es) = takenFor k tr ++ takenFor k es := by
  simp [takenFor]
theorem callsFor_append (k : RequestId) (a b : List (RequestId × Message)) : callsFor k (a ++ b) = callsFor k a ++ callsFor k b := by
  simp [callsFor]

theorem hstep_taken (t : Nat) (s : MSt σ) (es s') (h : hstep P t s = some (es, s')) (k : RequestId) : s'.pu = s.pu ∧ takenFor k es = [] := by
  refine ⟨(hstep_table P t _ _ _ h).1, ?_⟩
  unfold hstep at h
  split at h
  all_goals repeat' split at h
  all_goals first
    | (cases h; done)
    | (cases h; rfl)

theorem brings_route (k k' : RequestId) (m m' : Message) (l : List Message) (hl : l = if k' = k then [m'] else []) :
    (PPC.route k' m').brings k m = l.count m := by
  subst hl
  unfold PPC.brings
  by_cases c : k' = k
  · by_cases d : m' = m
    · simp [c, d]
    · simp [c, d]
  · simp [c]

theorem pstep_taken (p w : Nat) (s : MSt σ) (es s') (h : pstep P p w s = some (es, s')) (k : RequestId) (m : Message)
    (hm : (s.pu p).brings k m = 1 → Sound m) :
    ∃ pc, s'.pu = put s.pu p pc ∧ (s.pu p).brings k m = (takenFor k es).count m + pc.brings k m := by
  unfold pstep at h
  split at h
  all_goals rename_i hpc
  case h_7 k' m' =>
    split at h
    · split at h
      · rename_i h0
        split at h
        · rename_i hn
          cases h
          refine ⟨_, rfl, ?_⟩
          rw [hpc] at hm ⊢
          have : ¬ Sound m' := by
            intro hs
            rcases hs with hs | hs
            · exact hs h0
            · rw [List.getElem?_eq_none_iff] at hn; omega
          by_cases c : k' = k ∧ m' = m
          · obtain ⟨rfl, rfl⟩ := c
            exact absurd (hm (by simp [PPC.brings])) this
          · have c' : ¬ (k' = k ∧ m' = m) := c
            simp [PPC.brings, takenFor, c']
        · split at h
          · cases h
            refine ⟨_, rfl, ?_⟩
            rw [hpc, brings_route k k' m m' _ rfl]
            simp only [takenFor, List.filterMap_cons, List.filterMap_nil]
            split <;> simp [PPC.brings, *]
          · cases h
            refine ⟨_, rfl, ?_⟩
            rw [hpc, brings_route k k' m m' _ rfl]
            simp only [takenFor, List.filterMap_cons, List.filterMap_nil]
            split <;> simp [PPC.brings, *]
      · cases h
        refine ⟨_, rfl, ?_⟩
        rw [hpc, brings_route k k' m m' _ rfl]
        simp only [takenFor, List.filterMap_cons, List.filterMap_nil]
        split <;> simp [PPC.brings, *]
    · split at h
      · cases h
        refine ⟨_, rfl, ?_⟩
        rw [hpc, brings_route k k' m m' _ rfl]
        simp only [takenFor, List.filterMap_cons, List.filterMap_nil]
        split <;> simp [PPC.brings, *]
      · cases h
  all_goals repeat' split at h
  all_goals first
    | (cases h; done)
    | (cases h; refine ⟨_, rfl, ?_⟩; rw [hpc]; simp [PPC.brings, takenFor]; done)

theorem estep_taken (e : Outer) (he : ∀ p k m, e ≠ .push p k m) (s : MSt σ) (es s') (h : estep P e s = some (es, s')) (k : RequestId) :
    s'.pu = s.pu ∧ takenFor k es = [] := by
  unfold estep at h
  split at h
  case h_7 => exact absurd rfl (he _ _ _)
  all_goals repeat' split at h
  all_goals first
    | (cases h; done)
    | (cases h; exact ⟨rfl, rfl⟩)

theorem push_taken (p : Nat) (k' : RequestId) (m' : Message) (s : MSt σ) (es s') (h : estep P (.push p k' m') s = some (es, s')) (k : RequestId)
    (hk : Ordinary k) (m : Message) :
    ∃ pc, s'.pu = put s.pu p pc ∧ s.pu p = .idle ∧ takenFor k es = [] ∧ pc.brings k m = (callsFor k [(k', m')]).count m := by
  simp only [estep] at h
  split at h
  · rename_i hp
    cases h
    refine ⟨_, rfl, hp, by split <;> rfl, ?_⟩
    by_cases c : k' = k
    · subst c
      rw [if_neg hk.1, if_neg hk.2]
      by_cases d : m' = m <;> simp [PPC.brings, callsFor, d]
    · have : ∀ pc : PPC, pc ∈ [PPC.note k' m', .lost k'.socket, .call k' m'] → pc.brings k m = 0 := by
        intro pc hpc
        simp only [List.mem_cons, List.not_mem_nil, or_false] at hpc
        rcases hpc with rfl | rfl | rfl <;> simp [PPC.brings, c]
      have hz : (callsFor k [(k', m')]).count m = 0 := by simp [callsFor, c]
      rw [hz]
      apply this
      split
      · simp
      · split <;> simp
  · cases h

/-- The calls for a request id, and what has become of them. -/
def CallsInv (k : RequestId) (cs : List (RequestId × Message)) (tr : List MEvent) (s : MSt σ) : Prop :=
  ∃ N, (∀ q, N ≤ q → s.pu q = .idle) ∧ ∀ m, (callsFor k cs).count m = (takenFor k tr).count m + total (fun p => (s.pu p).brings k m) N

theorem total_zero {f : Nat → Nat} {n : Nat} (h : ∀ i, i < n → f i = 0) : total f n = 0 := by
  induction n with
  | zero => rfl
  | succ n ih => rw [total, ih fun i hi => h i (by omega), h n (by omega)]

theorem total_more {f : Nat → Nat} {N M : Nat} (hM : N ≤ M) (h : ∀ i, N ≤ i → f i = 0) : total f M = total f N := by
  induction M with
  | zero => have : N = 0 := by omega
            rw [this]
  | succ M ih =>
    by_cases c : N = M + 1
    · rw [c]
    · rw [total, ih (by omega), h M (by omega), Nat.add_zero]

theorem CallsInv.grow {k cs tr} {s : MSt σ} (h : CallsInv k cs tr s) (p : Nat) :
    ∃ N, p < N ∧ (∀ q, N ≤ q → s.pu q = .idle) ∧ ∀ m, (callsFor k cs).count m = (takenFor k tr).count m + total (fun p => (s.pu p).brings k m) N := by
  obtain ⟨N, h1, h2⟩ := h
  refine ⟨max N (p + 1), by omega, fun q hq => h1 q (by omega), fun m => ?_⟩
  rw [h2 m, total_more (N := N) (M := max N (p + 1)) (by omega)]
  intro i hi
  rw [h1 i hi]; rfl

theorem nrun_calls {x : σ} {s cs tr} (h : NRun P places (nInit x) cs tr s) (k : RequestId) (hk : Ordinary k) (hs : ∀ m ∈ callsFor k cs, Sound m) :
    CallsInv k cs tr s.m := by
  induction h with
  | refl => exact ⟨0, fun q _ => rfl, fun m => rfl⟩
  | @step cs tr s1 cs' es s2 hr h ih =>
    have ih := ih (fun m hm => hs m (by rw [callsFor_append]; exact List.mem_append_left _ hm))
    cases h with
    | handler t hf h =>
      obtain ⟨N, h1, h2⟩ := ih
      obtain ⟨e1, e2⟩ := hstep_taken t _ _ _ h k
      refine ⟨N, by dsimp only; rw [e1]; exact h1, fun m => ?_⟩
      dsimp only
      rw [e1, takenFor_append, e2, List.append_nil, List.append_nil]
      exact h2 m
    | env e hp h =>
      obtain ⟨N, h1, h2⟩ := ih
      obtain ⟨e1, e2⟩ := estep_taken e hp _ _ _ h k
      refine ⟨N, by dsimp only; rw [e1]; exact h1, fun m => ?_⟩
      dsimp only
      rw [e1, takenFor_append, e2, List.append_nil, List.append_nil]
      exact h2 m
    | pusher p w h =>
      obtain ⟨N, h0, h1, h2⟩ := ih.grow p
      rw [List.append_nil] at hs
      have hsound : ∀ m, (s1.m.pu p).brings k m = 1 → Sound m := by
        intro m hm
        apply hs
        have := le_total (f := fun p => (s1.m.pu p).brings k m) h0
        try dsimp only at this
        have h3 := h2 m
        exact List.count_pos_iff.1 (by omega)
      obtain ⟨pc, e1, _⟩ := pstep_taken p w _ _ _ h k ⟨0, []⟩ (hsound _)
      refine ⟨N, ?_, fun m => ?_⟩
      · intro q hq
        dsimp only
        rw [e1, put_other _ _ _ (by omega)]
        exact h1 q hq
      · obtain ⟨pc', e1', e2⟩ := pstep_taken p w _ _ _ h k m (hsound m)
        dsimp only
        rw [e1', takenFor_append, List.count_append, List.append_nil, h2 m]
        have := total_put (fun pc => PPC.brings k m pc) s1.m.pu h0 pc'
        try dsimp only at this
        omega
    | within t p k' m' pl ha hpl hf h =>
      obtain ⟨N, h0, h1, h2⟩ := ih.grow p
      obtain ⟨pc, e1, _⟩ := push_taken p k' m' _ _ _ h k hk ⟨0, []⟩
      refine ⟨N, ?_, fun m => ?_⟩
      · intro q hq
        dsimp only
        rw [e1, put_other _ _ _ (by omega)]
        exact h1 q hq
      · obtain ⟨pc', e1', e2, e3, e4⟩ := push_taken p k' m' _ _ _ h k hk m
        dsimp only
        rw [e1', takenFor_append, callsFor_append, List.count_append, e3, List.append_nil, h2 m]
        have := total_put (fun pc => PPC.brings k m pc) s1.m.pu h0 pc'
        have hz : (s1.m.pu p).brings k m = 0 := by rw [e2]; rfl
        try dsimp only at this
        omega
    | outside p k' m' h =>
      obtain ⟨N, h0, h1, h2⟩ := ih.grow p
      obtain ⟨pc, e1, _⟩ := push_taken p k' m' _ _ _ h k hk ⟨0, []⟩
      refine ⟨N, ?_, fun m => ?_⟩
      · intro q hq
        dsimp only
        rw [e1, put_other _ _ _ (by omega)]
        exact h1 q hq
      · obtain ⟨pc', e1', e2, e3, e4⟩ := push_taken p k' m' _ _ _ h k hk m
        dsimp only
        rw [e1', takenFor_append, callsFor_append, List.count_append, e3, List.append_nil, h2 m]
        have := total_put (fun pc => PPC.brings k m pc) s1.m.pu h0 pc'
        have hz : (s1.m.pu p).brings k m = 0 := by rw [e2]; rfl
        try dsimp only at this
        omega

/-- When no call is under way, all calls for `k` have been taken, each once. -/
theorem nrun_perm {x : σ} {s cs tr} (h : NRun P places (nInit x) cs tr s) (k : RequestId) (hk : Ordinary k) (hs : ∀ m ∈ callsFor k cs, Sound m)
    (hi : ∀ p, s.m.pu p = .idle) : (callsFor k cs).Perm (takenFor k tr) := by
  obtain ⟨N, _, h2⟩ := nrun_calls h k hk hs
  rw [List.perm_iff_count]
  intro m
  rw [h2 m, total_zero (fun i _ => by rw [hi]; rfl), Nat.add_zero]

/-! ### Handler threads that call `push` themselves -/

/-- A handler thread that is in a call is in code of the application. -/
def CallerInv (places : Place → Prop) (s : NSt σ) : Prop :=
  ∀ t p, s.call t = some p → s.m.pu p ≠ .idle → ∃ pl, places pl ∧ pl.here (s.m.th t) = true

theorem NSt.inCall_iff {s : NSt σ} {t : Nat} : s.inCall t = true ↔ ∃ p, s.call t = some p ∧ s.m.pu p ≠ .idle := by
  unfold NSt.inCall
  cases s.call t <;> simp

/-- Threads other than the one that moves stay where they are, unless they wait, are off or have finished. -/
theorem hstep_elsewhere (t : Nat) (s : MSt σ) (es s') (h : hstep P t s = some (es, s')) (u : Nat) (hu : u ≠ t) (hw : s.th u ≠ .waiting) : s'.th u = s.th u := by
  unfold hstep at h
  split at h
  all_goals repeat' split at h
  all_goals first
    | (cases h; done)
    | (cases h; simp [MSt.goto, MSt.touch, MSt.setObj, MSt.destroy, put, hu]; done)
    | (cases h; simp [MSt.goto, MSt.notifyAll, put, hu, hw]; done)

theorem pstep_elsewhere (p w : Nat) (s : MSt σ) (es s') (h : pstep P p w s = some (es, s')) (u : Nat) (hw : s.th u ≠ .waiting) : s'.th u = s.th u := by
  unfold pstep at h
  split at h
  all_goals repeat' split at h
  all_goals first
    | (cases h; done)
    | (cases h; simp [MSt.pgoto, MSt.goto, MSt.touch, MSt.setObj, MSt.destroy, put]; done)
    | (cases h; rename_i hw'; simp only [MSt.pgoto, MSt.goto, put]; split
       · rename_i c; subst c; exact absurd hw' hw
       · rfl)

theorem estep_others (e : Outer) (s : MSt σ) (es s') (h : estep P e s = some (es, s')) (u : Nat) (hu : u < P.threads) (hw : s.th u ≠ .waiting) (ho : s.th u ≠ .off)
    (hf : s.th u ≠ .finished) : s'.th u = s.th u := by
  unfold estep at h
  split at h
  all_goals repeat' split at h
  all_goals first
    | (cases h; done)
    | (cases h; simp [MSt.pgoto, ho]; done)
    | (cases h; simp [MSt.notifyAll, hw]; done)
    | (cases h; rename_i hj; exact absurd (hj u (List.mem_range.2 hu)) (by simp [ho, hf]))
    | (cases h; rename_i hw'; simp only [MSt.goto, put]; split
       · rename_i c; subst c; exact absurd hw' hw
       · rfl)

theorem here_busy {pl : Place} {pc : HPC} (h : pl.here pc = true) : pc ≠ .waiting ∧ pc ≠ .off ∧ pc ≠ .finished := by
  cases pl <;> cases pc <;> simp_all [Place.here]

theorem nrun_caller {x : σ} {s cs tr} (h : NRun P places (nInit x) cs tr s) : CallerInv places s := by
  induction h with
  | refl => intro t p h; cases h
  | @step cs tr s1 cs' es s2 hr h ih =>
    have I := (run_kq (nrun_mrun hr)).1
    have hlt : ∀ {t : Nat} {pl : Place}, pl.here (s1.m.th t) = true → t < P.threads := by
      intro t pl h
      apply Nat.lt_of_not_le
      intro c
      exact (here_busy h).2.1 (I.off t c)
    cases h with
    | handler t hf h =>
      intro u p hc hp
      dsimp only at hc hp ⊢
      rw [(hstep_table P t _ _ _ h).1] at hp
      have hut : u ≠ t := by
        intro c
        subst c
        rw [NSt.inCall_iff.2 ⟨p, hc, hp⟩] at hf
        cases hf
      obtain ⟨pl, h1, h2⟩ := ih u p hc hp
      exact ⟨pl, h1, by rw [hstep_elsewhere t _ _ _ h u hut (here_busy h2).1]; exact h2⟩
    | pusher p w h =>
      intro u q hc hq
      dsimp only at hc hq ⊢
      have hq' : s1.m.pu q ≠ .idle := by
        obtain ⟨pc, e1, _⟩ := pstep_sweep P p w _ _ _ h
        rw [e1] at hq
        by_cases c : q = p
        · subst c
          intro hi
          unfold pstep at h
          rw [hi] at h
          cases h
        · rwa [put_other _ _ _ c] at hq
      obtain ⟨pl, h1, h2⟩ := ih u q hc hq'
      exact ⟨pl, h1, by rw [pstep_elsewhere p w _ _ _ h u (here_busy h2).1]; exact h2⟩
    | env e hp h =>
      intro u q hc hq
      dsimp only at hc hq ⊢
      rw [(estep_taken e hp _ _ _ h ⟨0, 0⟩).1] at hq
      obtain ⟨pl, h1, h2⟩ := ih u q hc hq
      exact ⟨pl, h1, by rw [estep_others e _ _ _ h u (hlt h2) (here_busy h2).1 (here_busy h2).2.1 (here_busy h2).2.2]; exact h2⟩
    | within t p k m pl0 ha hpl hf h =>
      intro u q hc hq
      dsimp only at hc hq ⊢
      by_cases c : u = t
      · subst c
        exact ⟨pl0, ha, by rw [estep_others _ _ _ _ h u (hlt hpl) (here_busy hpl).1 (here_busy hpl).2.1 (here_busy hpl).2.2]; exact hpl⟩
      · rw [put_other _ _ _ c] at hc
        unfold NSt.named at hc
        split at hc
        · cases hc
        · rename_i hn
          have hqp : q ≠ p := by intro d; subst d; exact hn hc
          have hq' : s1.m.pu q ≠ .idle := by
            simp only [estep] at h
            split at h
            · cases h
              simp only [MSt.pgoto] at hq
              rwa [put_other _ _ _ hqp] at hq
            · cases h
          obtain ⟨pl, h1, h2⟩ := ih u q hc hq'
          exact ⟨pl, h1, by rw [estep_others _ _ _ _ h u (hlt h2) (here_busy h2).1 (here_busy h2).2.1 (here_busy h2).2.2]; exact h2⟩
    | outside p k m h =>
      intro u q hc hq
      dsimp only at hc hq ⊢
      unfold NSt.named at hc
      split at hc
      · cases hc
      · rename_i hn
        have hqp : q ≠ p := by intro d; subst d; exact hn hc
        have hq' : s1.m.pu q ≠ .idle := by
          simp only [estep] at h
          split at h
          · cases h
            simp only [MSt.pgoto] at hq
            rwa [put_other _ _ _ hqp] at hq
          · cases h
        obtain ⟨pl, h1, h2⟩ := ih u q hc hq'
        exact ⟨pl, h1, by rw [estep_others _ _ _ _ h u (hlt h2) (here_busy h2).1 (here_busy h2).2.1 (here_busy h2).2.2]; exact h2⟩

/-- If handler threads call `push` only from functions like `response()`, a state in which nobody can move is one in which nobody has
anything to do. -/
theorem nstill_still {x : σ} {s cs tr} (h : NRun P (· = .response) (nInit x) cs tr s) (hs : NStill P s) : Still P s.m := by
  have C := nrun_caller h
  have I := (run_kq (nrun_mrun h)).1
  have hw : ∀ t, (∃ k r m, s.m.th t = .work k r m) ∨ hstep P t s.m = none := by
    intro t
    rcases hs.1 t with c | c
    · obtain ⟨p, h1, h2⟩ := NSt.inCall_iff.1 c
      obtain ⟨pl, rfl, h4⟩ := C t p h1 h2
      left
      cases hp : s.m.th t <;> rw [hp] at h4 <;> first | (cases h4; done) | exact ⟨_, _, _, rfl⟩
    · exact .inr c
  have hidle := (still_but I hw hs.2).2
  refine ⟨fun t => ?_, hs.2⟩
  rcases hs.1 t with c | c
  · obtain ⟨p, _, h2⟩ := NSt.inCall_iff.1 c
    exact absurd (hidle p) h2
  · exact c

/-- A call from the destructor of a request: the thread waits for the mutex it holds itself, for ever. -/
structure Trapped (t p : Nat) (k : RequestId) (m : Message) (s : NSt σ) : Prop where
  call : s.call t = some p
  pu : s.m.pu p = .call k m
  th : ∃ k' r, s.m.th t = .erase k' r

theorem nstep_trapped {x : σ} {s cs tr} (hr : NRun P places (nInit x) cs tr s) {t p k m} (T : Trapped t p k m s) {cs' es s'} (h : NStep P places s cs' es s') :
    Trapped t p k m s' := by
  have I := (run_kq (nrun_mrun hr)).1
  obtain ⟨k0, r0, hth⟩ := T.th
  have hlt : t < P.threads := by
    apply Nat.lt_of_not_le
    intro c
    rw [I.off t c] at hth
    cases hth
  have hb : s.m.th t ≠ .waiting ∧ s.m.th t ≠ .off ∧ s.m.th t ≠ .finished := by rw [hth]; simp
  have hin : s.inCall t = true := NSt.inCall_iff.2 ⟨p, T.call, by rw [T.pu]; simp⟩
  have hwr : s.m.writer = some (.handler t) := (I.wh t).2 (by rw [hth]; rfl)
  cases h with
  | handler u hf h =>
    have hut : t ≠ u := by intro c; subst c; rw [hin] at hf; cases hf
    exact ⟨T.call, by dsimp only; rw [(hstep_table P u _ _ _ h).1]; exact T.pu, k0, r0, by dsimp only; rw [hstep_elsewhere u _ _ _ h t hut hb.1]; exact hth⟩
  | pusher q w h =>
    obtain ⟨pc, e1, _⟩ := pstep_sweep P q w _ _ _ h
    have hq : p ≠ q := by
      intro c
      subst c
      unfold pstep at h
      rw [T.pu] at h
      simp [hwr] at h
    exact ⟨T.call, by dsimp only; rw [e1, put_other _ _ _ hq]; exact T.pu, k0, r0, by dsimp only; rw [pstep_elsewhere q w _ _ _ h t hb.1]; exact hth⟩
  | env e hp h =>
    exact ⟨T.call, by dsimp only; rw [(estep_taken e hp _ _ _ h ⟨0, 0⟩).1]; exact T.pu, k0, r0,
      by dsimp only; rw [estep_others e _ _ _ h t hlt hb.1 hb.2.1 hb.2.2]; exact hth⟩
  | within u q k' m' pl ha hpl hf h =>
    have hut : t ≠ u := by intro c; subst c; rw [hin] at hf; cases hf
    have hth' := estep_others _ _ _ _ h t hlt hb.1 hb.2.1 hb.2.2
    simp only [estep] at h
    split at h
    · rename_i hi
      have hq : p ≠ q := by intro c; subst c; rw [T.pu] at hi; cases hi
      cases h
      refine ⟨?_, ?_, k0, r0, by dsimp only; rw [hth']; exact hth⟩
      · dsimp only
        rw [put_other _ _ _ hut]
        unfold NSt.named
        rw [if_neg (by rw [T.call]; simpa using hq)]
        exact T.call
      · dsimp only [MSt.pgoto]
        rw [put_other _ _ _ hq]
        exact T.pu
    · cases h
  | outside q k' m' h =>
    have hth' := estep_others _ _ _ _ h t hlt hb.1 hb.2.1 hb.2.2
    simp only [estep] at h
    split at h
    · rename_i hi
      have hq : p ≠ q := by intro c; subst c; rw [T.pu] at hi; cases hi
      cases h
      refine ⟨?_, ?_, k0, r0, by dsimp only; rw [hth']; exact hth⟩
      · dsimp only
        unfold NSt.named
        rw [if_neg (by rw [T.call]; simpa using hq)]
        exact T.call
      · dsimp only [MSt.pgoto]
        rw [put_other _ _ _ hq]
        exact T.pu
    · cases h

theorem NRun.trans {a cs tr b cs' tr' c} (h : NRun P places a cs tr b) (h' : NRun P places b cs' tr' c) :
    NRun P places a (cs ++ cs') (tr ++ tr') c := by
  induction h' with
  | refl => simpa using h
  | step _ hs ih => rw [← List.append_assoc, ← List.append_assoc]; exact .step ih hs

/-! ### Runs given by a list of choices -/

inductive NChoice where
  | h (t : Nat)
  | p (p w : Nat)
  | e (o : Outer)
  | within (t p : Nat) (k : RequestId) (m : Message) (pl : Place)
  | outside (p : Nat) (k : RequestId) (m : Message)

def Outer.isPush : Outer → Bool
  | .push _ _ _ => true
  | _ => false

def nchoose (P : Prog σ) (s : NSt σ) : NChoice → Option (List (RequestId × Message) × List MEvent × NSt σ)
  | .h t => if s.inCall t then none else (hstep P t s.m).map fun y => ([], y.1, { s with m := y.2 })
  | .p p w => (pstep P p w s.m).map fun y => ([], y.1, { s with m := y.2 })
  | .e o => if o.isPush then none else (estep P o s.m).map fun y => ([], y.1, { s with m := y.2 })
  | .within t p k m pl => if s.inCall t || !pl.here (s.m.th t) then none else
      (estep P (.push p k m) s.m).map fun y => ([(k, m)], y.1, ⟨y.2, put (s.named p) t (some p)⟩)
  | .outside p k m => (estep P (.push p k m) s.m).map fun y => ([(k, m)], y.1, ⟨y.2, s.named p⟩)

def nplay (P : Prog σ) : NSt σ → List NChoice → Option (List (RequestId × Message) × List MEvent × NSt σ)
  | s, [] => some ([], [], s)
  | s, c :: cs =>
    match nchoose P s c with
    | none => none
    | some (ks, es, s') =>
      match nplay P s' cs with
      | none => none
      | some (ks', tr, s'') => some (ks ++ ks', es ++ tr, s'')

/-- The place from which the choice makes a call. -/
def NChoice.place : NChoice → Option Place
  | .within _ _ _ _ pl => some pl
  | _ => none

/-- The name of the call the choice moves. -/
def NChoice.name : NChoice → Nat
  | .p n _ => n
  | .within _ n _ _ _ => n
  | .outside n _ _ => n
  | _ => 0

theorem nchoose_step {s : NSt σ} {c ks es s'} (h : nchoose P s c = some (ks, es, s')) (hp : ∀ pl, c.place = some pl → places pl) :
    NStep P places s ks es s' ∧ ∀ q, c.name < q → s'.m.pu q = s.m.pu q := by
  cases c with
  | h t =>
    simp only [nchoose] at h
    split at h
    · cases h
    · rename_i hi
      simp only [Option.map_eq_some_iff] at h
      obtain ⟨y, h1, h2⟩ := h
      cases h2
      exact ⟨.handler t (by simpa using hi) h1, fun q _ => by dsimp only; rw [(hstep_table P t _ _ _ h1).1]⟩
  | p p w =>
    simp only [nchoose, Option.map_eq_some_iff] at h
    obtain ⟨y, h1, h2⟩ := h
    cases h2
    obtain ⟨pc, e1, _⟩ := pstep_sweep P p w _ _ _ h1
    exact ⟨.pusher p w h1, fun q hq => by dsimp only [NChoice.name] at hq ⊢; rw [e1, put_other _ _ _ (by omega)]⟩
  | e o =>
    simp only [nchoose] at h
    split at h
    · cases h
    · rename_i hi
      simp only [Option.map_eq_some_iff] at h
      obtain ⟨y, h1, h2⟩ := h
      cases h2
      have ho : ∀ p k m, o ≠ .push p k m := by rintro p k m rfl; exact hi rfl
      exact ⟨.env o ho h1, fun q _ => by dsimp only; rw [(estep_taken o ho _ _ _ h1 ⟨0, 0⟩).1]⟩
  | within t p k m pl =>
    simp only [nchoose] at h
    split at h
    · cases h
    · rename_i hi
      simp only [Option.map_eq_some_iff] at h
      obtain ⟨y, h1, h2⟩ := h
      cases h2
      simp only [Bool.or_eq_true, not_or, Bool.not_eq_true, Bool.not_eq_false'] at hi
      refine ⟨.within t p k m pl (hp pl rfl) hi.2 hi.1 h1, fun q hq => ?_⟩
      simp only [estep] at h1
      split at h1
      · cases h1
        dsimp only [NChoice.name, MSt.pgoto] at hq ⊢
        rw [put_other _ _ _ (by omega)]
      · cases h1
  | outside p k m =>
    simp only [nchoose, Option.map_eq_some_iff] at h
    obtain ⟨y, h1, h2⟩ := h
    cases h2
    refine ⟨.outside p k m h1, fun q hq => ?_⟩
    simp only [estep] at h1
    split at h1
    · cases h1
      dsimp only [NChoice.name, MSt.pgoto] at hq ⊢
      rw [put_other _ _ _ (by omega)]
    · cases h1

theorem nplay_run {cs : List NChoice} : ∀ {s ks tr s'}, nplay P s cs = some (ks, tr, s') → (∀ c ∈ cs, ∀ pl, c.place = some pl → places pl) →
    NRun P places s ks tr s' ∧ ∀ q, (∀ c ∈ cs, c.name < q) → s'.m.pu q = s.m.pu q := by
  induction cs with
  | nil => intro s ks tr s' h _; cases h; exact ⟨.refl _, fun _ _ => rfl⟩
  | cons c cs ih =>
    intro s ks tr s' h hp
    unfold nplay at h
    split at h
    · cases h
    · rename_i hc
      split at h
      · cases h
      · rename_i hn
        cases h
        obtain ⟨a1, a2⟩ := nchoose_step (places := places) hc (hp c (by simp))
        obtain ⟨b1, b2⟩ := ih hn fun c hc => hp c (by simp [hc])
        refine ⟨by simpa using NRun.trans (.step (.refl s) a1) b1, fun q hq => ?_⟩
        rw [b2 q fun c hc => hq c (by simp [hc]), a2 q (hq c (by simp))]

/-- A run by choices, with calls named below `n` and the places allowed. -/
theorem nplay_any {cs : List NChoice} {x : σ} {f : List (RequestId × Message) × List MEvent × NSt σ → Bool}
    (hp : ∀ c ∈ cs, ∀ pl, c.place = some pl → places pl) (h : (nplay P (nInit x) cs).any f = true) :
    ∃ ks tr s', NRun P places (nInit x) ks tr s' ∧ f (ks, tr, s') = true ∧ ∀ n, (∀ c ∈ cs, c.name < n) → (∀ q, q < n → s'.m.pu q = .idle) →
      (∀ t, t < P.threads → (s'.m.th t).resting = true) → NStill P s' := by
  cases hq : nplay P (nInit x) cs with
  | none => rw [hq] at h; cases h
  | some y =>
    obtain ⟨ks, tr, s'⟩ := y
    rw [hq] at h
    obtain ⟨a1, a2⟩ := nplay_run hq hp
    refine ⟨ks, tr, s', a1, h, fun n h1 h2 h3 => ?_⟩
    have : Still P s'.m := by
      apply still_of_rest
      · intro t
        by_cases ht : t < P.threads
        · exact h3 t ht
        · rw [(run_kq (nrun_mrun a1)).1.off t (by omega)]; rfl
      · intro q
        by_cases hq : q < n
        · exact h2 q hq
        · rw [a2 q fun c hc => Nat.lt_of_lt_of_le (h1 c hc) (by omega)]; rfl
    exact ⟨fun t => .inr (this.1 t), this.2⟩

end Fcgi.Model
