import Verif.Lemmas.ServerAll
/-! # One request per id, and why requests go -/
namespace Fcgi.Model
open Fcgi.Spec

/-! ### Why requests go -/

/-- Why a request may go: it is complete, or its connection is closed or announced as lost. -/
def Cause {σ} (tr : List MEvent) (s : MSt σ) (k : RequestId) (r : Nat) : Prop :=
  (∃ t m, .ended r t m true ∈ tr) ∨ s.invalid k.socket = true ∨ .lost k.socket ∈ tr

theorem Cause.mono {σ} {tr es : List MEvent} {s s' : MSt σ} {k r} (h : Cause tr s k r) (hv : ∀ x, s.invalid x = true → s'.invalid x = true) :
    Cause (tr ++ es) s' k r := by
  rcases h with ⟨t, m, h⟩ | h | h
  · exact Or.inl ⟨t, m, by simp [h]⟩
  · exact Or.inr (Or.inl (hv _ h))
  · exact Or.inr (Or.inr (by simp [h]))

structure CauseInv {σ} (tr : List MEvent) (s : MSt σ) : Prop where
  ov : ∀ t k r, s.th t = .over k r ∨ s.th t = .erase k r → Cause tr s k r
  pl : ∀ p x, s.pu p = .lost x → .lost x ∈ tr
  ps : ∀ p x l, s.pu p = .sweep x l → .lost x ∈ tr ∧ ∀ e ∈ l, e.1.socket = x
  cr : ∀ r k m, .created r k m ∈ tr → (k, r) ∈ s.table ∨ Cause tr s k r

theorem step_cause {σ} {P : Prog σ} {tr s es s'} (I : MInv P s) (S : MSInv s) (O : ObjInv tr s) (C : CauseInv tr s) (h : MStep P s es s') :
    CauseInv (tr ++ es) s' := by
  have hv : ∀ x, s.invalid x = true → s'.invalid x = true := by
    intro x hx
    cases h with
    | handler t h => rw [hstep_invalid _ _ _ _ _ h]; exact hx
    | pusher p w h => rw [pstep_invalid _ _ _ _ _ _ h]; exact hx
    | env e h =>
      by_cases he : ∃ x, e = .close x
      · obtain ⟨y, rfl⟩ := he
        simp only [estep, Option.some.injEq, Prod.mk.injEq] at h
        obtain ⟨rfl, rfl⟩ := h
        dsimp only; split
        · rfl
        · exact hx
      · rw [estep_invalid _ _ (fun y hy => he ⟨y, hy⟩) _ _ _ h]; exact hx
  have hlm : ∀ {x : Nat}, .lost x ∈ tr → .lost x ∈ tr ++ es := by intro x hx; simp [hx]
  -- what removes a request has a cause
  have hrem : ∀ k r, (k, r) ∈ s.table → (k, r) ∉ s'.table → Cause (tr ++ es) s' k r := by
    intro k r hm hn
    cases h with
    | handler t h =>
      obtain ⟨_, h2⟩ := hstep_table P t s es s' h
      rcases h2 with ⟨_, h2⟩ | ⟨k', r', hpc, h2⟩
      · rw [h2] at hn; exact absurd hm hn
      · have hk : k = k' := by
          apply Classical.byContradiction
          intro hne
          exact hn (by rw [h2]; simp [hm, hne])
        subst hk
        have := I.nd k r r' hm (I.mt t _ (by rw [hpc]; rfl))
        subst this
        exact (C.ov t k r (Or.inr hpc)).mono hv
    | pusher p w h =>
      have h' := h
      unfold pstep at h'
      cases hp : s.pu p <;> rw [hp] at h' <;> dsimp only at h'
      case sweep x l =>
        obtain ⟨c1, c2⟩ := C.ps p x l hp
        cases l with
        | nil => dsimp only at h'; simp only [Option.some.injEq, Prod.mk.injEq] at h'; obtain ⟨rfl, rfl⟩ := h'; exact absurd hm hn
        | cons e l =>
          obtain ⟨k', r'⟩ := e
          dsimp only at h'
          split at h'
          · simp only [Option.some.injEq, Prod.mk.injEq] at h'; obtain ⟨rfl, rfl⟩ := h'
            have hk : k = k' := by
              apply Classical.byContradiction
              intro hne
              exact hn (by simp [MSt.pgoto, MSt.destroy, MSt.touch, hm, hne])
            subst hk
            have := c2 (k, r') (by simp)
            right; right
            rw [this]; exact hlm c1
          · simp only [Option.some.injEq, Prod.mk.injEq] at h'; obtain ⟨rfl, rfl⟩ := h'; exact absurd hm hn
      all_goals repeat' split at h'
      all_goals first
        | (cases h'; done)
        | (simp only [Option.some.injEq, Prod.mk.injEq] at h'; obtain ⟨rfl, rfl⟩ := h'
           first | exact absurd hm hn | (exfalso; exact hn (by simp [MSt.pgoto, hm])) | (exfalso; simp_all; done))
    | env e h =>
      unfold estep at h
      cases e <;> dsimp only at h
      all_goals repeat' split at h
      all_goals first
        | (cases h; done)
        | (simp only [Option.some.injEq, Prod.mk.injEq] at h; obtain ⟨rfl, rfl⟩ := h; exact absurd hm hn)
  refine ⟨?_, ?_, ?_, ?_⟩
  · intro t k r ht
    by_cases hold : s.th t = .over k r ∨ s.th t = .erase k r
    · exact (C.ov t k r hold).mono hv
    · cases h with
      | handler t' h =>
        by_cases htt : t = t'
        · subst htt
          unfold hstep at h
          cases hp : s.th t <;> rw [hp] at h hold <;> dsimp only at h
          case work k' r' m =>
            simp only [Option.some.injEq, Prod.mk.injEq] at h; obtain ⟨rfl, rfl⟩ := h
            simp only [MSt.goto, put_eq] at ht
            split at ht
            · rename_i hc
              rcases ht with ht | ht <;> cases ht
              exact Or.inl ⟨t, m, by simp [hc]⟩
            · rcases ht with ht | ht <;> cases ht
          case kept k' r' =>
            split at h
            · rename_i hi
              simp only [Option.some.injEq, Prod.mk.injEq] at h; obtain ⟨rfl, rfl⟩ := h
              simp only [MSt.goto, put_eq] at ht
              rcases ht with ht | ht <;> cases ht
              exact Or.inr (Or.inl hi)
            · simp only [Option.some.injEq, Prod.mk.injEq] at h; obtain ⟨rfl, rfl⟩ := h
              simp only [MSt.goto, put_eq] at ht
              rcases ht with ht | ht <;> cases ht
          case over k' r' =>
            split at h
            · simp only [Option.some.injEq, Prod.mk.injEq] at h; obtain ⟨rfl, rfl⟩ := h
              simp only [MSt.goto, put_eq] at ht
              rcases ht with ht | ht <;> cases ht
              exact absurd (Or.inl rfl) hold
            · cases h
          all_goals repeat' split at h
          all_goals first
            | (cases h; done)
            | (simp only [Option.some.injEq, Prod.mk.injEq] at h; obtain ⟨rfl, rfl⟩ := h
               simp only [MSt.goto, put_eq] at ht
               rcases ht with ht | ht <;> cases ht)
        · exfalso
          have : s'.th t = s.th t ∨ s'.th t = .woken := by
            unfold hstep at h
            cases hp : s.th t' <;> rw [hp] at h <;> dsimp only at h
            all_goals repeat' split at h
            all_goals first
              | (cases h; done)
              | (simp only [Option.some.injEq, Prod.mk.injEq] at h; obtain ⟨rfl, rfl⟩ := h
                 simp only [MSt.goto, put_other _ _ _ htt]
                 first | exact Or.inl rfl | (simp [MSt.setObj, MSt.touch, MSt.destroy]; done) | (simp only [MSt.notifyAll]; split <;> simp))
          rcases this with h' | h'
          · rw [h'] at ht; exact hold ht
          · rw [h'] at ht; rcases ht with ht | ht <;> cases ht
      | pusher p w h =>
        exfalso
        have : s'.th t = s.th t ∨ s'.th t = .woken := by
          unfold pstep at h
          cases hp : s.pu p <;> rw [hp] at h <;> dsimp only at h
          all_goals repeat' split at h
          all_goals first
            | (cases h; done)
            | (simp only [Option.some.injEq, Prod.mk.injEq] at h; obtain ⟨rfl, rfl⟩ := h
               first | exact Or.inl rfl | (simp only [MSt.pgoto, MSt.goto, put]; split <;> simp))
        rcases this with h' | h'
        · rw [h'] at ht; exact hold ht
        · rw [h'] at ht; rcases ht with ht | ht <;> cases ht
      | env e h =>
        exfalso
        have : s'.th t = s.th t ∨ s'.th t = .woken ∨ s'.th t = .off ∨ s'.th t = .boot := by
          unfold estep at h
          cases e <;> dsimp only at h
          all_goals repeat' split at h
          all_goals first
            | (cases h; done)
            | (simp only [Option.some.injEq, Prod.mk.injEq] at h; obtain ⟨rfl, rfl⟩ := h
               first | exact Or.inl rfl | (simp only [MSt.pgoto, MSt.goto, put, MSt.notifyAll]; split <;> simp) | simp)
        rcases this with h' | h' | h' | h'
        · rw [h'] at ht; exact hold ht
        all_goals rw [h'] at ht; rcases ht with ht | ht <;> cases ht
  · intro p x hp
    cases h with
    | handler t h => rw [(hstep_routed _ _ _ _ _ h).2.1] at hp; exact hlm (C.pl p x hp)
    | pusher p' w h =>
      unfold pstep at h
      cases hp' : s.pu p' <;> rw [hp'] at h <;> dsimp only at h
      all_goals repeat' split at h
      all_goals first
        | (cases h; done)
        | (simp only [Option.some.injEq, Prod.mk.injEq] at h; obtain ⟨rfl, rfl⟩ := h
           by_cases hpp : p = p'
           · subst hpp; simp [MSt.pgoto, put] at hp
           · simp only [MSt.pgoto, put_other _ _ _ hpp] at hp; exact hlm (C.pl p x hp))
    | env e h =>
      by_cases hpush : ∃ p k m, e = .push p k m
      · obtain ⟨p', k, m, rfl⟩ := hpush
        obtain ⟨hi, rfl, rfl⟩ := estep_push _ _ _ _ _ _ _ h
        by_cases hpp : p = p'
        · subst hpp
          simp only [MSt.pgoto, put_eq] at hp
          split at hp
          · cases hp
          · split at hp
            · rename_i hk; cases hp; simp [hk]
            · cases hp
        · simp only [MSt.pgoto, put_other _ _ _ hpp] at hp; exact hlm (C.pl p x hp)
      · obtain ⟨rfl, h1, h2⟩ := estep_other _ _ (fun p k m hh => hpush ⟨p, k, m, hh⟩) _ _ _ h
        rw [h1] at hp; exact hlm (C.pl p x hp)
  · intro p x l hp
    cases h with
    | handler t h =>
      rw [(hstep_routed _ _ _ _ _ h).2.1] at hp
      exact ⟨hlm (C.ps p x l hp).1, (C.ps p x l hp).2⟩
    | pusher p' w h =>
      by_cases hpp : p = p'
      · subst hpp
        unfold pstep at h
        cases hp' : s.pu p <;> rw [hp'] at h <;> dsimp only at h
        case lost y =>
          split at h
          · simp only [Option.some.injEq, Prod.mk.injEq] at h; obtain ⟨rfl, rfl⟩ := h
            simp only [MSt.pgoto, put_eq, PPC.sweep.injEq] at hp
            obtain ⟨rfl, rfl⟩ := hp
            exact ⟨hlm (C.pl p y hp'), by intro e he; simpa using (List.mem_filter.1 he).2⟩
          · cases h
        case sweep y l' =>
          obtain ⟨c1, c2⟩ := C.ps p y l' hp'
          cases l' with
          | nil =>
            dsimp only at h; simp only [Option.some.injEq, Prod.mk.injEq] at h; obtain ⟨rfl, rfl⟩ := h
            simp [MSt.pgoto, put] at hp
          | cons e l' =>
            obtain ⟨k', r'⟩ := e
            dsimp only at h
            split at h <;>
            · simp only [Option.some.injEq, Prod.mk.injEq] at h; obtain ⟨rfl, rfl⟩ := h
              simp only [MSt.pgoto, put_eq, PPC.sweep.injEq] at hp
              obtain ⟨rfl, rfl⟩ := hp
              exact ⟨hlm c1, fun e he => c2 e (by simp [he])⟩
        all_goals repeat' split at h
        all_goals first
          | (cases h; done)
          | (simp only [Option.some.injEq, Prod.mk.injEq] at h; obtain ⟨rfl, rfl⟩ := h
             first | (simp [MSt.pgoto, put] at hp; done) | (exfalso; simp_all; done))
      · obtain ⟨pc, h1, _⟩ := pstep_sweep P p' w _ _ _ h
        rw [h1, put_other _ _ _ hpp] at hp
        exact ⟨hlm (C.ps p x l hp).1, (C.ps p x l hp).2⟩
    | env e h =>
      by_cases hpush : ∃ p k m, e = .push p k m
      · obtain ⟨p', k, m, rfl⟩ := hpush
        obtain ⟨hi, rfl, rfl⟩ := estep_push _ _ _ _ _ _ _ h
        by_cases hpp : p = p'
        · subst hpp
          simp only [MSt.pgoto, put_eq] at hp
          split at hp
          · cases hp
          · split at hp <;> cases hp
        · simp only [MSt.pgoto, put_other _ _ _ hpp] at hp
          exact ⟨hlm (C.ps p x l hp).1, (C.ps p x l hp).2⟩
      · obtain ⟨rfl, h1, h2⟩ := estep_other _ _ (fun p k m hh => hpush ⟨p, k, m, hh⟩) _ _ _ h
        rw [h1] at hp
        exact ⟨hlm (C.ps p x l hp).1, (C.ps p x l hp).2⟩
  · intro r k m hm
    rcases List.mem_append.1 hm with hm | hm
    · rcases C.cr r k m hm with h' | h'
      · by_cases hn : (k, r) ∈ s'.table
        · exact Or.inl hn
        · exact Or.inr (hrem k r h' hn)
      · exact Or.inr (h'.mono hv)
    · left
      have hE := step_effect I S h
      cases hE with
      | created k' m' hl hb ht hn hq hs =>
        simp only [List.mem_singleton, MEvent.created.injEq] at hm
        obtain ⟨rfl, rfl, rfl⟩ := hm
        rw [ht]; simp
      | none h => cases hm
      | quiet e he h => simp only [List.mem_singleton] at hm; subst hm; simp [Spec.MEvent.quiet] at he
      | _ => simp at hm

theorem run_cause {σ} {P : Prog σ} {x tr s} (h : MRun P (mInit x) tr s) : CauseInv tr s := by
  induction h with
  | refl => exact ⟨by simp [mInit], by simp [mInit], by simp [mInit], by simp⟩
  | step hr hs ih => exact step_cause (run_kq hr).1 (run_kq hr).2.1 (run_objs hr) ih hs

/-! ### One request per BEGIN_REQUEST -/

/-- The FastCGI records among the messages for `k`, as dealt with. -/
def routedFor (k : RequestId) (tr : List MEvent) : List Message :=
  (routedOf tr).filterMap fun x => if x.1 = k ∧ x.2.type = 0 then some x.2 else none

/-- The FastCGI records accepted for the request object. -/
def recordsTo (r : Nat) (tr : List MEvent) : List Message := (acceptedBy r tr).filter fun m => m.type = 0

theorem routedFor_append (k a b) : routedFor k (a ++ b) = routedFor k a ++ routedFor k b := by
  simp [routedFor, routedOf_append]
theorem recordsTo_append (r a b) : recordsTo r (a ++ b) = recordsTo r a ++ recordsTo r b := by
  simp [recordsTo, acceptedBy_append]

structure OnceInv {σ} (k : RequestId) (b : Message) (tr : List MEvent) (s : MSt σ) : Prop where
  main : (objsOf k tr = [] ∧ routedFor k tr = []) ∨
    ∃ r, objsOf k tr = [r] ∧ .created r k b ∈ tr ∧ b :: recordsTo r tr <+: routedFor k tr ∧
      (s.table.lookup k = some r → b :: recordsTo r tr = routedFor k tr)

theorem run_once {σ} {P : Prog σ} {x tr s} (h : MRun P (mInit x) tr s) (k : RequestId) (b : Message) (ins : List Message)
    (hb : isBegin b = true) (hin : ∀ m ∈ ins, isBegin m = false) (hp : routedFor k tr <+: b :: ins) : OnceInv k b tr s := by
  induction h with
  | refl => exact ⟨Or.inl ⟨rfl, rfl⟩⟩
  | step hr hs ih =>
    rename_i tr s' es s''
    obtain ⟨I, S, K, Q⟩ := run_kq hr
    have R := run_rinv hr
    have O := run_objs hr
    have hE := step_effect I S hs
    clear hs
    have ih := ih (by rw [routedFor_append] at hp; exact List.IsPrefix.trans (List.prefix_append _ _) hp)
    -- events not about `k`
    have quiet : ∀ e, objsOf k [e] = [] → routedFor k [e] = [] → (∀ r, r ∈ objsOf k tr → recordsTo r [e] = []) →
        (∀ r, s''.table.lookup k = some r → s'.table.lookup k = some r) → OnceInv k b (tr ++ [e]) s'' := by
      intro e h1 h2 h3 h4
      constructor
      rw [objsOf_append, h1, List.append_nil, routedFor_append, h2, List.append_nil]
      rcases ih.main with h | ⟨r, e1, e2, e3, e4⟩
      · exact Or.inl h
      · have h5 := h3 r (by rw [e1]; simp)
        refine Or.inr ⟨r, e1, by simp [e2], ?_, fun hl => ?_⟩ <;> rw [recordsTo_append, h5, List.append_nil]
        · exact e3
        · exact e4 (h4 r hl)
    cases hE with
    | none h => rw [List.append_nil]; exact ⟨by rw [h.table]; exact ih.main⟩
    | quiet e he h =>
      refine quiet e ?_ ?_ ?_ (by rw [h.table]; exact fun _ h => h)
      · cases e <;> simp_all [Spec.MEvent.quiet, objsOf]
      · cases e <;> simp_all [Spec.MEvent.quiet, routedFor, routedOf]
      · intro r _; cases e <;> simp_all [Spec.MEvent.quiet, recordsTo, acceptedBy]
    | began k' r t m hpc ht hn hq hq' hs =>
      exact quiet _ (by simp [objsOf]) (by simp [routedFor, routedOf]) (by simp [recordsTo, acceptedBy]) (by rw [ht]; exact fun _ h => h)
    | ended k' r t m hpc ht hn hq hs =>
      exact quiet _ (by simp [objsOf]) (by simp [routedFor, routedOf]) (by simp [recordsTo, acceptedBy]) (by rw [ht]; exact fun _ h => h)
    | removed k' r hm ht hn hq hs =>
      refine quiet _ (by simp [objsOf]) (by simp [routedFor, routedOf]) (by simp [recordsTo, acceptedBy]) ?_
      intro r' hl
      rw [ht, lookup_filter] at hl
      split at hl
      · cases hl
      · exact hl
    | dropped k' m hl hb' h =>
      by_cases hk : k' = k ∧ m.type = 0
      · obtain ⟨rfl, h0⟩ := hk
        have hrf : routedFor k' [MEvent.dropped k' m] = [m] := by simp [routedFor, routedOf, h0]
        rw [routedFor_append, hrf] at hp
        constructor
        rw [objsOf_append, routedFor_append, hrf]
        have hob : objsOf k' [MEvent.dropped k' m] = [] := by simp [objsOf]
        rw [hob, List.append_nil]
        rcases ih.main with ⟨h1, h2⟩ | ⟨r, e1, e2, e3, e4⟩
        · rw [h2] at hp
          have : m = b := by
            obtain ⟨w, hw⟩ := hp
            simp at hw; exact hw.1
          subst this; rw [hb] at hb'; cases hb'
        · refine Or.inr ⟨r, e1, by simp [e2], ?_, fun hl' => ?_⟩
          · rw [recordsTo_append]
            simp only [recordsTo, acceptedBy, List.filterMap_cons, List.filterMap_nil, List.filter_nil, List.append_nil] at e3 ⊢
            exact List.IsPrefix.trans e3 (List.prefix_append _ _)
          · rw [h.table, hl] at hl'; cases hl'
      · refine quiet _ (by simp [objsOf]) ?_ (by simp [recordsTo, acceptedBy]) (by rw [h.table]; exact fun _ h => h)
        simp only [routedFor, routedOf, List.filterMap_cons, List.filterMap_nil]
        rw [if_neg hk]
    | created k' m hl hb' ht hn hq hs =>
      by_cases hk : k' = k
      · subst hk
        have h0 : m.type = 0 := by
          simp only [isBegin, Bool.and_eq_true, decide_eq_true_eq] at hb'; exact hb'.1
        have hrf : routedFor k' [MEvent.created s'.next k' m] = [m] := by simp [routedFor, routedOf, h0]
        rw [routedFor_append, hrf] at hp
        constructor
        rw [objsOf_append, routedFor_append, hrf]
        have hob : objsOf k' [MEvent.created s'.next k' m] = [s'.next] := by simp [objsOf]
        rw [hob]
        rcases ih.main with ⟨h1, h2⟩ | ⟨r, e1, e2, e3, e4⟩
        · rw [h2] at hp
          have hmb : m = b := by
            obtain ⟨w, hw⟩ := hp
            simp at hw; exact hw.1
          subst hmb
          have hq0 : recordsTo s'.next (tr ++ [MEvent.created s'.next k' m]) = [] := by
            rw [recordsTo_append]
            have := R.qn _ (Nat.le_refl s'.next)
            simp only [recordsTo, this, List.filter_nil, List.nil_append]
            simp [acceptedBy]
          refine Or.inr ⟨s'.next, by rw [h1]; rfl, by simp, ?_, fun _ => ?_⟩ <;> rw [hq0, h2] <;> simp
        · exfalso
          have : m ∈ ins := by
            obtain ⟨w, hw⟩ := hp
            obtain ⟨w', hw'⟩ := e3
            rw [← hw'] at hw
            simp only [List.cons_append, List.cons.injEq] at hw
            rw [← hw.2]; simp
          rw [hin m this] at hb'; cases hb'
      · refine quiet _ (by simp [objsOf, hk]) (by simp [routedFor, routedOf, hk]) (by simp [recordsTo, acceptedBy]) ?_
        intro r hl'
        rw [ht, lookup_cons', if_neg (fun h => hk h.symm)] at hl'
        exact hl'
    | accepted k' m r' hl ht hn hq hs =>
      have hmt := mlookup_mem hl
      obtain ⟨pre, hpre, hnin⟩ := O.ls k' r' hmt
      by_cases hk : k' = k
      · subst hk
        rcases ih.main with ⟨h1, h2⟩ | ⟨r, e1, e2, e3, e4⟩
        · rw [h1] at hpre; simp at hpre
        · have hr' : r' = r := by
            rw [e1] at hpre
            cases pre with
            | nil => simp at hpre; exact hpre.symm
            | cons a pre => simp at hpre
          subst hr'
          have e4 := e4 hl
          constructor
          have hob : objsOf k' [MEvent.accepted r' k' m] = [] := by simp [objsOf]
          rw [objsOf_append, hob, List.append_nil, routedFor_append]
          have key : b :: recordsTo r' (tr ++ [MEvent.accepted r' k' m]) = routedFor k' tr ++ routedFor k' [MEvent.accepted r' k' m] := by
            rw [recordsTo_append, ← e4]
            by_cases h0 : m.type = 0 <;> simp [recordsTo, acceptedBy, routedFor, routedOf, h0]
          exact Or.inr ⟨r', e1, by simp [e2], by rw [key]; exact List.prefix_refl _, fun _ => key⟩
      · refine quiet _ (by simp [objsOf]) (by simp [routedFor, routedOf, hk]) ?_ (by rw [ht]; exact fun _ h => h)
        intro r hr
        have : r' ≠ r := by
          intro h; subst h
          obtain ⟨m1, hm1⟩ := mem_objsOf.1 hr
          obtain ⟨m2, hm2⟩ := mem_objsOf.1 (show r' ∈ objsOf k' tr by rw [hpre]; simp)
          exact hk (O.un _ _ _ _ _ hm2 hm1).1
        simp [recordsTo, acceptedBy, this]

end Fcgi.Model
