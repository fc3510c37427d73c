import Verif.Model.Curler
namespace Fcgi.Model
open Fcgi.Spec

/-- What holds after any history (apart from the functions). -/
structure CurlerInv (conc : Nat) (tr : List CurlerEvent) (s : CurlerSt) : Prop where
  conc : s.conc = conc
  excl : s.pc.holds = true → s.lock = none
  perm : s.handles.Perm (s.running ++ s.msgs)
  nodup : s.handles.Nodup
  bound : s.handles.length ≤ s.conc
  order : queuedRs tr = begunRs tr ++ s.queue
  balance : (begunRs tr).Perm (finishedRs tr ++ s.handles)
  wake : s.pc = .off ∨ (s.waking = true → 0 < s.bytes ∨ 0 < s.writing ∨ s.lock = some .write ∨ s.pc = .reset)
  quiet : s.pc = .poll ∨ s.pc = .fill → s.ends = true → 0 < s.bytes ∨ 0 < s.asked ∨ 0 < s.saw ∨ 0 < s.writing ∨ s.lock ≠ none
  quietQ : s.pc = .poll → s.mayFill = true → 0 < s.bytes ∨ 0 < s.asked ∨ 0 < s.saw ∨ 0 < s.writing ∨ s.lock ≠ none
  bytes : s.pc = .wakeLock → 0 < s.bytes
  term : s.pc = .off ∨ (s.term = true ↔ .terminated ∈ sinceStart tr)
  stop : s.pc = .off ∨ (s.stop = true ↔ .stopped ∈ sinceStart tr)
  more : ∀ r m, s.pc = .callback r m ∨ s.pc = .clear r m → m = !s.msgs.isEmpty
  cb : ∀ r, callbackOf r tr = s.cb r

theorem kinv_init (conc : Nat) (a b c : Bool) : CurlerInv conc [] (curlerInit conc a b c) := by
  constructor <;> simp [curlerInit, CurlerPC.holds, queuedRs, begunRs, finishedRs, callbackOf]

theorem queuedRs_append (a b : List CurlerEvent) : queuedRs (a ++ b) = queuedRs a ++ queuedRs b := by simp [queuedRs]
theorem begunRs_append (a b : List CurlerEvent) : begunRs (a ++ b) = begunRs a ++ begunRs b := by simp [begunRs]
theorem finishedRs_append (a b : List CurlerEvent) : finishedRs (a ++ b) = finishedRs a ++ finishedRs b := by simp [finishedRs]
theorem callbackOf_append (r : Nat) (a b : List CurlerEvent) : callbackOf r (a ++ b) = b.foldl (cbAfter r) (callbackOf r a) := by simp [callbackOf]

theorem sinceStart_nil : sinceStart [] = [] := rfl
theorem sinceStart_started (tr : List CurlerEvent) : sinceStart (tr ++ [.started]) = [] := by simp [sinceStart]
theorem sinceStart_other (tr : List CurlerEvent) (e : CurlerEvent) (h : e ≠ .started) : sinceStart (tr ++ [e]) = sinceStart tr ++ [e] := by simp [sinceStart, h]

/-- A new event that is none of these. -/
def Plain (es : List CurlerEvent) : Prop := es = [] ∨ ∃ e, es = [e] ∧ e ≠ .started ∧ e ≠ .stopped ∧ e ≠ .terminated

theorem Plain.term {es tr : List CurlerEvent} (h : Plain es) : .terminated ∈ sinceStart (tr ++ es) ↔ .terminated ∈ sinceStart tr := by
  rcases h with rfl | ⟨e, rfl, h1, h2, h3⟩
  · simp
  · rw [sinceStart_other _ _ h1]; simp [h3.symm]

theorem Plain.stop {es tr : List CurlerEvent} (h : Plain es) : .stopped ∈ sinceStart (tr ++ es) ↔ .stopped ∈ sinceStart tr := by
  rcases h with rfl | ⟨e, rfl, h1, h2, h3⟩
  · simp
  · rw [sinceStart_other _ _ h1]; simp [h2.symm]

/-- Moving to another place only. -/
theorem CurlerInv.move {conc : Nat} {tr : List CurlerEvent} {s : CurlerSt} (i : CurlerInv conc tr s) (pc : CurlerPC) (es : List CurlerEvent)
    (h1 : s.pc ≠ .off) (h2 : s.pc ≠ .reset) (h3 : pc.holds = true → s.lock = none)
    (h4 : pc = .poll ∨ pc = .fill → s.ends = true → 0 < s.bytes ∨ 0 < s.asked ∨ 0 < s.saw ∨ 0 < s.writing ∨ s.lock ≠ none)
    (h5 : pc = .poll → s.mayFill = true → 0 < s.bytes ∨ 0 < s.asked ∨ 0 < s.saw ∨ 0 < s.writing ∨ s.lock ≠ none)
    (h6 : pc = .wakeLock → 0 < s.bytes) (h7 : queuedRs es = [] ∧ begunRs es = [] ∧ finishedRs es = [] ∧ ∀ r k, es.foldl (cbAfter r) k = k)
    (h8 : Plain es) (h9 : ∀ r m, pc = .callback r m ∨ pc = .clear r m → m = !s.msgs.isEmpty) :
    CurlerInv conc (tr ++ es) { s with pc := pc } := by
  constructor
  case conc => exact i.conc
  case excl => exact h3
  case perm => exact i.perm
  case nodup => exact i.nodup
  case bound => exact i.bound
  case order => rw [queuedRs_append, begunRs_append, h7.1, h7.2.1]; simpa using i.order
  case balance => rw [finishedRs_append, begunRs_append, h7.2.2.1, h7.2.1]; simpa using i.balance
  case wake => 
    refine Or.inr fun hw => ?_
    rcases i.wake.resolve_left h1 hw with h | h | h | h
    · exact Or.inl h
    · exact Or.inr (Or.inl h)
    · exact Or.inr (Or.inr (Or.inl h))
    · exact absurd h h2
  case quiet => exact h4
  case quietQ => exact h5
  case bytes => exact h6
  case term => rw [h8.term]; exact Or.inr (i.term.resolve_left h1)
  case stop => rw [h8.stop]; exact Or.inr (i.stop.resolve_left h1)
  case more => exact h9
  case cb => intro r; rw [callbackOf_append, h7.2.2.2, i.cb]

theorem act_perm {s s' : CurlerSt} {rs : List Nat} {pc : CurlerPC} (h : s.act rs pc = some s') (hp : s.handles.Perm (s.running ++ s.msgs)) (hn : s.handles.Nodup) :
    s' = { s with running := s.running.filter (fun r => r ∉ rs), msgs := s.msgs ++ rs, count := (s.running.filter (fun r => r ∉ rs)).length, pc := pc } ∧
    s.handles.Perm (s.running.filter (fun r => r ∉ rs) ++ (s.msgs ++ rs)) := by
  unfold CurlerSt.act at h
  split at h
  case isFalse => cases h
  case isTrue hc =>
    dsimp only at h
    cases h
    refine ⟨rfl, hp.trans ?_⟩
    have hr : s.running.Nodup := ((hp.nodup_iff.1 hn).sublist (List.sublist_append_left _ _))
    have : s.running.Perm (s.running.filter (fun r => r ∉ rs) ++ rs) := by
      rw [List.perm_iff_count]
      intro a
      rw [List.count_append]
      by_cases ha : a ∈ rs
      · have h1 : rs.count a = 1 := Nat.le_antisymm (List.nodup_iff_count.1 hc.1 a) (List.count_pos_iff.2 ha)
        have h2 : s.running.count a = 1 := Nat.le_antisymm (List.nodup_iff_count.1 hr a) (List.count_pos_iff.2 (hc.2 a ha))
        have h3 : (s.running.filter (fun r => r ∉ rs)).count a = 0 := by
          rw [List.count_eq_zero]; simp [ha]
        omega
      · rw [List.count_eq_zero.2 ha, List.count_filter (by simpa using ha)]; rfl
    refine (this.append_right _).trans ?_
    rw [List.append_assoc]
    exact (List.perm_append_comm).append_left _

theorem kinv_step {conc : Nat} {tr es : List CurlerEvent} {s s' : CurlerSt} (i : CurlerInv conc tr s) (f : KFate) (h : kstep f s = some (es, s')) : CurlerInv conc (tr ++ es) s' := by
  unfold kstep at h
  split at h
  case h_1 hp =>  -- relock
    split at h <;> cases h
    exact i.move _ _ (by simp [hp]) (by simp [hp]) (fun _ => by assumption) (by simp) (by simp) (by simp) (by simp [queuedRs, begunRs, finishedRs]) (by simp [Plain]) (by simp)
  case h_2 hp =>  -- test
    have hl := i.excl (by simp [hp, CurlerPC.holds])
    split at h
    · cases h
      exact i.move _ _ (by simp [hp]) (by simp [hp]) (fun _ => hl) (by simp) (by simp) (by simp) (by simp [queuedRs, begunRs, finishedRs, cbAfter]) (by simp [Plain]) (by simp)
    · rename_i hend
      split at h
      · cases h
        exact i.move _ _ (by simp [hp]) (by simp [hp]) (fun _ => hl) (fun _ h => absurd h hend) (by simp) (by simp) (by simp [queuedRs, begunRs, finishedRs]) (by simp [Plain]) (by simp)
      · rename_i hm
        cases h
        exact i.move _ _ (by simp [hp]) (by simp [hp]) (fun _ => hl) (fun _ h => absurd h hend) (fun _ h => absurd h hm) (by simp) (by simp [queuedRs, begunRs, finishedRs]) (by simp [Plain]) (by simp)
  case h_3 hp =>  -- fill
    have hl := i.excl (by simp [hp, CurlerPC.holds])
    split at h
    case isFalse => cases h
    case isTrue hm =>
      unfold CurlerSt.take at h
      split at h
      · rename_i hq; simp [CurlerSt.mayFill, hq] at hm
      · rename_i r q hq
        split at h
        · cases h
          exact i.move _ _ (by simp [hp]) (by simp [hp]) (fun _ => hl) (by simp) (by simp) (by simp) (by simp [queuedRs, begunRs, finishedRs, cbAfter]) (by simp [Plain]) (by simp)
        · rename_i hnew
          cases h
          simp only [CurlerSt.mayFill, hq, List.isEmpty_cons, Bool.not_false, Bool.true_and, decide_eq_true_eq] at hm
          constructor
          case conc => exact i.conc
          case excl => exact fun _ => hl
          case perm =>
            refine (i.perm.append_right [r]).trans ?_
            dsimp only
            rw [List.append_assoc, List.append_assoc]
            exact (List.perm_append_comm).append_left _
          case nodup => dsimp only; rw [List.nodup_append]; exact ⟨i.nodup, by simp, by simpa using fun a ha => by rintro rfl; exact hnew ha⟩
          case bound => dsimp only; rw [List.length_append]; exact hm
          case order => have := i.order; rw [hq] at this; rw [queuedRs_append, begunRs_append]; simp [queuedRs, begunRs] at this ⊢; exact this
          case balance =>
            rw [begunRs_append, finishedRs_append]
            simp only [begunRs, finishedRs, List.filterMap_cons, List.filterMap_nil, List.append_nil]
            rw [← List.append_assoc]
            exact i.balance.append_right _
          case wake => 
            refine Or.inr fun hw => ?_
            rcases i.wake.resolve_left (by simp [hp]) hw with h | h | h | h
            · exact Or.inl h
            · exact Or.inr (Or.inl h)
            · exact Or.inr (Or.inr (Or.inl h))
            · rw [hp] at h; cases h
          case quiet =>
            intro _ he
            refine i.quiet (Or.inr hp) ?_
            have : s.term = true := by simpa [CurlerSt.ends] using he
            simp [CurlerSt.ends, this]
          case quietQ => intro h; dsimp only at h; rw [hp] at h; cases h
          case bytes => intro h; dsimp only at h; rw [hp] at h; cases h
          case term => exact Or.inr ((i.term.resolve_left (by simp [hp])).trans (Plain.term (by simp [Plain])).symm)
          case stop => exact Or.inr ((i.stop.resolve_left (by simp [hp])).trans (Plain.stop (by simp [Plain])).symm)
          case more => dsimp only; intro r m h; simp [hp] at h
          case cb => intro r; rw [callbackOf_append, i.cb]; rfl
  case h_4 rs hp =>
    have hl := i.excl (by simp [hp, CurlerPC.holds])
    split at h
    · cases h
    · rename_i hm
      rw [Option.map_eq_some_iff] at h
      obtain ⟨s1, hs, h⟩ := h
      cases h
      obtain ⟨rfl, hperm⟩ := act_perm hs i.perm i.nodup
      have i2 : CurlerInv conc tr { s with running := s.running.filter (fun r => r ∉ rs), msgs := s.msgs ++ rs, count := (s.running.filter (fun r => r ∉ rs)).length } :=
        { i with perm := hperm, more := by intro r m h; dsimp only at h; simp [hp] at h }
      exact i2.move .poll [] (by simp [hp]) (by simp [hp]) (fun _ => hl) (fun _ h => i2.quiet (Or.inr hp) h) (fun _ h => absurd h hm) (by simp) (by simp [queuedRs, begunRs, finishedRs]) (by simp [Plain]) (by simp)
  case h_5 hp =>
    split at h
    · cases h
      exact i.move _ _ (by simp [hp]) (by simp [hp]) (by simp [CurlerPC.holds]) (by simp) (by simp) (fun _ => by assumption) (by simp [queuedRs, begunRs, finishedRs]) (by simp [Plain]) (by simp)
    · cases h
  case h_6 hp =>
    split at h
    · cases h
      exact i.move _ _ (by simp [hp]) (by simp [hp]) (by simp [CurlerPC.holds]) (by simp) (by simp) (by simp) (by simp [queuedRs, begunRs, finishedRs]) (by simp [Plain]) (by simp)
    · cases h
  case h_7 hp =>
    cases h
    exact i.move _ _ (by simp [hp]) (by simp [hp]) (by simp [CurlerPC.holds]) (by simp) (by simp) (by simp) (by simp [queuedRs, begunRs, finishedRs, cbAfter]) (by simp [Plain]) (by simp)
  case h_8 hp =>
    cases h
    refine i.move _ _ (by simp [hp]) (by simp [hp]) (by simp [CurlerPC.holds]) (by simp) (by simp) (by simp) ?_ ?_ (by simp)
    · split <;> simp [queuedRs, begunRs, finishedRs, cbAfter]
    · split <;> simp [Plain]
  case h_9 hp =>
    split at h
    · rename_i hl
      cases h
      refine { i with excl := fun _ => hl, wake := Or.inr fun _ => Or.inr (Or.inr (Or.inr rfl)), quiet := by simp, quietQ := by simp, bytes := by simp, 
                      term := Or.inr ((i.term.resolve_left (by simp [hp])).trans (Plain.term (by simp [Plain])).symm),
                      stop := Or.inr ((i.stop.resolve_left (by simp [hp])).trans (Plain.stop (by simp [Plain])).symm),
                      more := by simp,
                      order := by simpa using i.order, balance := by simpa using i.balance, cb := by simpa using i.cb }
    · cases h
  case h_10 hp =>
    have hl := i.excl (by simp [hp, CurlerPC.holds])
    cases h
    refine { i with excl := fun _ => hl, wake := Or.inr (by simp), quiet := by simp, quietQ := by simp, bytes := by simp, 
                      term := Or.inr ((i.term.resolve_left (by simp [hp])).trans (Plain.term (by simp [Plain])).symm),
                      stop := Or.inr ((i.stop.resolve_left (by simp [hp])).trans (Plain.stop (by simp [Plain])).symm),
                      more := by simp,
                      order := by simpa using i.order, balance := by simpa using i.balance, cb := by simpa using i.cb }
  case h_11 rs hp =>
    rw [Option.map_eq_some_iff] at h
    obtain ⟨s1, hs, h⟩ := h
    cases h
    obtain ⟨rfl, hperm⟩ := act_perm hs i.perm i.nodup
    have i2 : CurlerInv conc tr { s with running := s.running.filter (fun r => r ∉ rs), msgs := s.msgs ++ rs, count := (s.running.filter (fun r => r ∉ rs)).length } :=
      { i with perm := hperm, more := by intro r m h; dsimp only at h; simp [hp] at h }
    exact i2.move .info [] (by simp [hp]) (by simp [hp]) (by simp [CurlerPC.holds]) (by simp) (by simp) (by simp) (by simp [queuedRs, begunRs, finishedRs]) (by simp [Plain]) (by simp)
  case h_12 hp =>
    unfold CurlerSt.note at h
    split at h
    · cases h
      exact i.move _ _ (by simp [hp]) (by simp [hp]) (by simp [CurlerPC.holds]) (by simp) (by simp) (by simp) (by simp [queuedRs, begunRs, finishedRs]) (by simp [Plain]) (by simp)
    · rename_i r ms hm
      split at h
      · rename_i hr
        cases h
        have i2 : CurlerInv conc (tr ++ [.finished r]) { s with msgs := ms, handles := s.handles.erase r, pc := .callback r !ms.isEmpty } := by
          constructor
          case conc => exact i.conc
          case excl => simp [CurlerPC.holds]
          case perm =>
            have h1 : s.handles.Perm (r :: (s.running ++ ms)) := by
              refine i.perm.trans ?_
              rw [hm]
              exact List.perm_middle
            exact (h1.erase r).trans (by simp)
          case nodup => exact i.nodup.erase r
          case bound => exact Nat.le_trans List.length_erase_le i.bound
          case order => rw [queuedRs_append, begunRs_append]; simpa [queuedRs, begunRs] using i.order
          case balance =>
            rw [begunRs_append, finishedRs_append]
            simp only [begunRs, finishedRs, List.filterMap_cons, List.filterMap_nil, List.append_nil]
            refine i.balance.trans ?_
            rw [List.append_assoc]
            exact (List.perm_cons_erase hr).append_left _
          case wake =>
            refine Or.inr fun hw => ?_
            rcases i.wake.resolve_left (by simp [hp]) hw with h | h | h | h
            · exact Or.inl h
            · exact Or.inr (Or.inl h)
            · exact Or.inr (Or.inr (Or.inl h))
            · rw [hp] at h; cases h
          case quiet => simp
          case quietQ => simp
          case bytes => simp
          case term => exact Or.inr ((i.term.resolve_left (by simp [hp])).trans (Plain.term (by simp [Plain])).symm)
          case stop => exact Or.inr ((i.stop.resolve_left (by simp [hp])).trans (Plain.stop (by simp [Plain])).symm)
          case more => dsimp only; intro r' m h; simp at h; rw [h.2]; simp
          case cb => intro r; rw [callbackOf_append, i.cb]; rfl
        exact i2
      · cases h
        exact i.move _ _ (by simp [hp]) (by simp [hp]) (by simp [CurlerPC.holds]) (by simp) (by simp) (by simp) (by simp [queuedRs, begunRs, finishedRs, cbAfter]) (by simp [Plain]) (by simp)
  case h_13 r more hp =>
    split at h
    · cases h
      unfold nextMessage
      refine i.move _ _ (by simp [hp]) (by simp [hp]) ?_ ?_ ?_ ?_ (by simp [queuedRs, begunRs, finishedRs]) (by simp [Plain]) ?_ <;> cases more <;> simp [CurlerPC.holds]
    · cases h
      exact i.move _ _ (by simp [hp]) (by simp [hp]) (by simp [CurlerPC.holds]) (by simp) (by simp) (by simp) (by simp [queuedRs, begunRs, finishedRs, cbAfter]) (by simp [Plain]) (fun r' m h => i.more r' m (Or.inl (by simp at h; simp [hp, h])))
  case h_14 r more hp =>
    cases h
    have i2 : CurlerInv conc (tr ++ []) { s with pc := nextMessage more } := by
      unfold nextMessage
      refine i.move _ _ (by simp [hp]) (by simp [hp]) ?_ ?_ ?_ ?_ (by simp [queuedRs, begunRs, finishedRs]) (by simp [Plain]) ?_ <;> cases more <;> simp [CurlerPC.holds]
    refine { i2 with term := ?_, stop := ?_, order := by simpa [queuedRs, begunRs] using i2.order, balance := by simpa [begunRs, finishedRs] using i2.balance, cb := ?_ }
    · exact i2.term.imp id fun h => h.trans (by rw [List.append_nil]; exact (Plain.term (by simp [Plain])).symm)
    · exact i2.stop.imp id fun h => h.trans (by rw [List.append_nil]; exact (Plain.stop (by simp [Plain])).symm)
    · intro x
      rw [callbackOf_append, i.cb]
      simp only [List.foldl_cons, List.foldl_nil, cbAfter]
      by_cases hx : x = r
      · simp [hx]
      · simp [hx, Ne.symm hx]
  case h_15 => cases h

theorem kinv_call {conc : Nat} {tr es : List CurlerEvent} {s s' : CurlerSt} (i : CurlerInv conc tr s) (c : KCall) (h : kcall c s = some (es, s')) : CurlerInv conc (tr ++ es) s' := by
  unfold kcall at h
  split at h
  · cases h
  rename_i hc
  have memT : Plain es → (s.pc = .off ∨ (s.term = true ↔ .terminated ∈ sinceStart (tr ++ es))) := fun h => by rw [h.term]; exact i.term
  have memS : Plain es → (s.pc = .off ∨ (s.stop = true ↔ .stopped ∈ sinceStart (tr ++ es))) := fun h => by rw [h.stop]; exact i.stop
  split at h
  · rename_i r k
    cases h
    refine { i with term := memT (by simp [Plain]), stop := memS (by simp [Plain]), order := by simpa [queuedRs, begunRs] using i.order, balance := by simpa [begunRs, finishedRs] using i.balance, cb := ?_ }
    intro x
    rw [callbackOf_append, i.cb]
    simp only [List.foldl_cons, List.foldl_nil, cbAfter]
    by_cases hx : x = r
    · simp [hx]
    · simp [hx, Ne.symm hx]
  · rename_i r
    split at h <;> cases h
    rename_i hl
    refine { i with excl := fun h => ?_, order := ?_, balance := ?_, wake := ?_, quiet := ?_, quietQ := ?_, term := memT (by simp [Plain]), stop := memS (by simp [Plain]), cb := ?_ }
    · rw [show CurlerPC.holds s.pc = true from h] at hl; simp at hl
    · rw [queuedRs_append, begunRs_append, i.order]; simp [queuedRs, begunRs]
    · simpa [begunRs, finishedRs] using i.balance
    · refine i.wake.imp id fun h hw => ?_
      rcases h hw with h | h | h | h
      · exact Or.inl h
      · exact Or.inr (Or.inl h)
      · rw [hl.1] at h; cases h
      · exact Or.inr (Or.inr (Or.inr h))
    · intro _ _; simp
    · intro _ _; simp
    · intro x; rw [callbackOf_append, i.cb]; rfl
  · split at h
    · cases h
    · rename_i hl
      have hh : s.pc.holds = false := by
        cases hh : s.pc.holds with
        | false => rfl
        | true => have := i.excl hh; rw [hl] at this; cases this
      cases h
      cases hw : s.waking with
      | false =>
        refine { i with excl := ?_, order := by simpa using i.order, balance := by simpa using i.balance, wake := ?_, quiet := ?_, quietQ := ?_, term := memT (by simp [Plain]), stop := memS (by simp [Plain]), cb := by simpa using i.cb }
        · dsimp only; rw [hh]; intro h; cases h
        · exact Or.inr fun h => by cases h
        · intro _ _; simp
        · intro _ _; simp
      | true =>
        refine { i with excl := fun _ => by simp, order := by simpa using i.order, balance := by simpa using i.balance, wake := ?_, quiet := ?_, quietQ := ?_, term := memT (by simp [Plain]), stop := memS (by simp [Plain]), cb := by simpa using i.cb }
        · refine i.wake.imp id fun h _ => ?_
          rcases h hw with h | h | h | h
          · exact Or.inl h
          · exact Or.inr (Or.inl h)
          · rw [hl] at h; cases h
          · exact Or.inr (Or.inr (Or.inr h))
        · intro hp he
          dsimp only at hp
          rcases hp with hp | hp
          · rcases (i.wake.resolve_left (by simp [hp])) hw with h | h | h | h
            · exact Or.inl h
            · exact Or.inr (Or.inr (Or.inr (Or.inl h)))
            · rw [hl] at h; cases h
            · rw [hp] at h; cases h
          · rw [hp] at hh; cases hh
        · intro hp he
          dsimp only at hp
          rcases (i.wake.resolve_left (by simp [hp])) hw with h | h | h | h
          · exact Or.inl h
          · exact Or.inr (Or.inr (Or.inr (Or.inl h)))
          · rw [hl] at h; cases h
          · rw [hp] at h; cases h
    · rename_i hl
      have hh : s.pc.holds = false := by
        cases hh : s.pc.holds with
        | false => rfl
        | true => have := i.excl hh; rw [hl] at this; cases this
      cases h
      refine { i with excl := ?_, order := by simpa using i.order, balance := by simpa using i.balance, wake := ?_, quiet := ?_, quietQ := ?_, term := memT (by simp [Plain]), stop := memS (by simp [Plain]), cb := by simpa using i.cb }
      · dsimp only; rw [hh]; intro h; cases h
      · exact Or.inr fun _ => Or.inr (Or.inr (Or.inl rfl))
      · intro _ _; simp
      · intro _ _; simp
    · rename_i hl
      cases h
      refine { i with excl := fun _ => rfl, order := by simpa using i.order, balance := by simpa using i.balance, wake := ?_, quiet := ?_, quietQ := ?_, bytes := fun _ => Nat.succ_pos _, term := memT (by simp [Plain]), stop := memS (by simp [Plain]), cb := by simpa using i.cb }
      · exact Or.inr fun _ => Or.inl (Nat.succ_pos _)
      · intro _ _; exact Or.inl (Nat.succ_pos _)
      · intro _ _; exact Or.inl (Nat.succ_pos _)
  · cases h
    refine { i with order := by simpa [queuedRs, begunRs] using i.order, balance := by simpa [begunRs, finishedRs] using i.balance, quiet := ?_, quietQ := ?_, term := i.term.imp id fun h => h.trans (by rw [sinceStart_other _ _ (by simp)]; simp), stop := Or.inr (by rw [sinceStart_other _ _ (by simp)]; simp), cb := ?_ }
    · intro _ _; exact Or.inr (Or.inl (Nat.succ_pos _))
    · intro _ _; exact Or.inr (Or.inl (Nat.succ_pos _))
    · intro x; rw [callbackOf_append, i.cb]; rfl
  · cases h
    refine { i with order := by simpa [queuedRs, begunRs] using i.order, balance := by simpa [begunRs, finishedRs] using i.balance, quiet := ?_, quietQ := ?_, term := Or.inr (by rw [sinceStart_other _ _ (by simp)]; simp), stop := i.stop.imp id fun h => h.trans (by rw [sinceStart_other _ _ (by simp)]; simp), cb := ?_ }
    · intro _ _; exact Or.inr (Or.inl (Nat.succ_pos _))
    · intro _ _; exact Or.inr (Or.inl (Nat.succ_pos _))
    · intro x; rw [callbackOf_append, i.cb]; rfl
  · split at h <;> cases h
    rename_i ha
    cases hw : s.waking with
    | false =>
      refine { i with order := by simpa using i.order, balance := by simpa using i.balance, wake := ?_, quiet := ?_, quietQ := ?_, term := memT (by simp [Plain]), stop := memS (by simp [Plain]), cb := by simpa using i.cb }
      · exact Or.inr fun h => by cases h
      · intro _ _; exact Or.inr (Or.inr (Or.inl (by simp)))
      · intro _ _; exact Or.inr (Or.inr (Or.inl (by simp)))
    | true =>
      have key : s.pc = .poll ∨ s.pc = .fill → 0 < s.bytes ∨ 0 < s.asked - 1 ∨ 0 < s.saw ∨ 0 < s.writing ∨ s.lock ≠ none := by
        intro hp
        rcases (i.wake.resolve_left (by rcases hp with hp | hp <;> simp [hp])) hw with h | h | h | h
        · exact Or.inl h
        · exact Or.inr (Or.inr (Or.inr (Or.inl h)))
        · exact Or.inr (Or.inr (Or.inr (Or.inr (by simp [h]))))
        · rcases hp with hp | hp <;> (rw [hp] at h; cases h)
      refine { i with order := by simpa using i.order, balance := by simpa using i.balance, wake := i.wake.imp id fun h _ => h hw, quiet := ?_, quietQ := ?_, term := memT (by simp [Plain]), stop := memS (by simp [Plain]), cb := by simpa using i.cb }
      · intro hp _; exact key hp
      · intro hp _; exact key (Or.inl hp)
  · split at h <;> cases h
    refine { i with order := by simpa using i.order, balance := by simpa using i.balance, wake := ?_, quiet := ?_, quietQ := ?_, term := memT (by simp [Plain]), stop := memS (by simp [Plain]), cb := by simpa using i.cb }
    · exact Or.inr fun _ => Or.inr (Or.inl (Nat.succ_pos _))
    · intro _ _; exact Or.inr (Or.inr (Or.inr (Or.inl (Nat.succ_pos _))))
    · intro _ _; exact Or.inr (Or.inr (Or.inr (Or.inl (Nat.succ_pos _))))
  · split at h <;> cases h
    refine { i with order := by simpa using i.order, balance := by simpa using i.balance, wake := ?_, quiet := ?_, quietQ := ?_, bytes := fun _ => Nat.succ_pos _, term := memT (by simp [Plain]), stop := memS (by simp [Plain]), cb := by simpa using i.cb }
    · exact Or.inr fun _ => Or.inl (Nat.succ_pos _)
    · intro _ _; exact Or.inl (Nat.succ_pos _)
    · intro _ _; exact Or.inl (Nat.succ_pos _)
  · split at h <;> cases h
    rename_i hp
    refine { i with excl := by simp [CurlerPC.holds], order := by simpa [queuedRs, begunRs] using i.order, balance := by simpa [begunRs, finishedRs] using i.balance, wake := Or.inr (by simp), quiet := by simp, quietQ := by simp, bytes := by simp, more := by simp, term := Or.inr (by rw [sinceStart_started]; simp), stop := Or.inr (by rw [sinceStart_started]; simp), cb := ?_ }
    intro x; rw [callbackOf_append, i.cb]; rfl
  · split at h <;> cases h
    rename_i hp
    refine { i with excl := by simp [CurlerPC.holds], order := by simpa using i.order, balance := by simpa using i.balance, wake := Or.inl rfl, quiet := by simp, quietQ := by simp, bytes := by simp, more := by simp, term := Or.inl rfl, stop := Or.inl rfl, cb := by simpa using i.cb }

theorem CurlerRun.inv {conc : Nat} {a b c : Bool} {tr : List CurlerEvent} {s : CurlerSt} (h : CurlerRun (curlerInit conc a b c) tr s) : CurlerInv conc tr s := by
  generalize h0 : curlerInit conc a b c = s0 at h
  induction h with
  | refl => subst h0; exact kinv_init ..
  | step run h ih => cases h with
    | handler f h => exact kinv_step ih f h
    | call c h => exact kinv_call ih c h

end Fcgi.Model
