import Verif.Lemmas.ManagerProgress
/-! # What the steps do to the requests, by event -/
namespace Fcgi.Model
open Fcgi.Spec
variable {σ : Type}

/-- Events that leave the requests as they are. -/
def Spec.MEvent.quiet : MEvent → Bool
  | .spared _ | .lost _ | .noted _ _ | .managed _ _ | .finished _ => true
  | _ => false

/-- Table, queues and states are the same. -/
structure Same (s s' : MSt σ) : Prop where
  table : s'.table = s.table
  next : s'.next = s.next
  queue : ∀ r, (s'.objs r).queue = (s.objs r).queue
  state : ∀ r, (s'.objs r).state = (s.objs r).state

inductive Effect (P : Prog σ) (s : MSt σ) (s' : MSt σ) : List MEvent → Prop where
  | none (h : Same s s') : Effect P s s' []
  | quiet (e : MEvent) (he : Spec.MEvent.quiet e = true) (h : Same s s') : Effect P s s' [e]
  | dropped (k m) (hl : s.table.lookup k = .none) (hm : isBegin m = false) (h : Same s s') : Effect P s s' [.dropped k m]
  | created (k m) (hl : s.table.lookup k = .none) (hm : isBegin m = true)
      (ht : s'.table = (k, s.next) :: s.table) (hn : s'.next = s.next + 1)
      (hq : ∀ r, (s'.objs r).queue = if r = s.next then [] else (s.objs r).queue)
      (hs : ∀ r, (s'.objs r).state = if r = s.next then P.make k m.data else (s.objs r).state) :
      Effect P s s' [.created s.next k m]
  | accepted (k m r) (hl : s.table.lookup k = some r) (ht : s'.table = s.table) (hn : s'.next = s.next)
      (hq : ∀ x, (s'.objs x).queue = if x = r then (s.objs r).queue ++ [m] else (s.objs x).queue)
      (hs : ∀ x, (s'.objs x).state = (s.objs x).state) : Effect P s s' [.accepted r k m]
  | began (k r t m) (hpc : s.th t = .look k r) (ht : s'.table = s.table) (hn : s'.next = s.next)
      (hq : (s.objs r).queue = m :: (s'.objs r).queue) (hq' : ∀ x, x ≠ r → (s'.objs x).queue = (s.objs x).queue)
      (hs : ∀ x, (s'.objs x).state = (s.objs x).state) : Effect P s s' [.began r t m]
  | ended (k r t m) (hpc : s.th t = .work k r m) (ht : s'.table = s.table) (hn : s'.next = s.next)
      (hq : ∀ x, (s'.objs x).queue = (s.objs x).queue)
      (hs : ∀ x, (s'.objs x).state = if x = r then (P.handle (s.objs r).state m).1 else (s.objs x).state) :
      Effect P s s' [.ended r t m (P.handle (s.objs r).state m).2]
  | removed (k r) (hm : (k, r) ∈ s.table) (ht : s'.table = s.table.filter (fun e => e.1 ≠ k)) (hn : s'.next = s.next)
      (hq : ∀ x, (s'.objs x).queue = (s.objs x).queue) (hs : ∀ x, (s'.objs x).state = (s.objs x).state) :
      Effect P s s' [.removed r]

theorem put_state (f : Nat → Obj σ) (r x : Nat) (o : Obj σ) : (put f r o x).state = if x = r then o.state else (f x).state := by
  unfold put; split <;> rfl

macro "efields" : tactic => `(tactic| (
  simp only [MSt.goto, MSt.pgoto, MSt.setObj, MSt.touch, MSt.destroy, MSt.notifyAll, put_queue, put_state]))
macro "same" : tactic => `(tactic| (constructor <;> efields <;> grind))

theorem hstep_effect (P : Prog σ) (t : Nat) (s : MSt σ) (es) (s') (I : MInv P s) (h : hstep P t s = some (es, s')) : Effect P s s' es := by
  unfold hstep at h
  split at h
  all_goals rename_i hpc
  case h_11 =>
    split at h
    · cases h; exact .none (by same)
    · rename_i hq
      cases h; exact .began _ _ _ _ hpc rfl rfl (by efields; rw [hq]; simp) (by efields; grind) (by efields; grind)
  case h_12 =>
    cases h; exact .ended _ _ _ _ hpc rfl rfl (by efields; grind) (by efields; grind)
  case h_17 =>
    cases h
    exact .removed _ _ (I.mt t _ (congrArg HPC.mutexOf hpc)) rfl rfl (by efields; grind) (by efields; grind)
  all_goals repeat' split at h
  all_goals first
    | (cases h; done)
    | (cases h; exact .none (by same))
    | (cases h; exact .quiet _ rfl (by same))

theorem pstep_effect (P : Prog σ) (p w : Nat) (s : MSt σ) (es) (s') (S : MSInv s) (h : pstep P p w s = some (es, s')) : Effect P s s' es := by
  unfold pstep at h
  split at h
  all_goals rename_i hpc
  case h_4 =>
    split at h
    · cases h
      exact .removed _ _ (S.sw p _ (by rw [hpc]; exact List.mem_cons_self)) rfl rfl (by efields; grind) (by efields; grind)
    · cases h; exact .quiet _ rfl (by same)
  case h_7 =>
    split at h
    · rename_i hl
      split at h
      · rename_i h0
        split at h
        · cases h; exact .none (by same)
        · rename_i type h1
          split at h
          · rename_i h2
            cases h; exact .created _ _ hl (by simp [isBegin, h0, h1, h2]) rfl rfl (by efields; grind) (by efields; grind)
          · rename_i h2
            cases h; exact .dropped _ _ hl (by simp [isBegin, h0, h1, h2]) (by same)
      · rename_i h0
        cases h; exact .dropped _ _ hl (by simp [isBegin, h0]) (by same)
    · rename_i hl
      split at h
      · cases h; exact .accepted _ _ _ hl rfl rfl (by efields; grind) (by efields; grind)
      · cases h
  all_goals repeat' split at h
  all_goals first
    | (cases h; done)
    | (cases h; exact .none (by same))
    | (cases h; exact .quiet _ rfl (by same))

theorem estep_effect (P : Prog σ) (e : Outer) (s : MSt σ) (es) (s') (h : estep P e s = some (es, s')) : Effect P s s' es := by
  unfold estep at h
  split at h
  all_goals repeat' split at h
  all_goals first
    | (cases h; done)
    | (cases h; exact .none (by same))
    | (cases h; exact .quiet _ rfl (by same))

theorem step_effect {P : Prog σ} {s es s'} (I : MInv P s) (S : MSInv s) (h : MStep P s es s') : Effect P s s' es := by
  cases h with
  | handler t h => exact hstep_effect P t s es s' I h
  | pusher p w h => exact pstep_effect P p w s es s' S h
  | env e h => exact estep_effect P e s es s' h

/-! ### Routing -/

theorem serving_snoc (tr : List MEvent) (e : MEvent) : serving (tr ++ [e]) = (serving tr).see e := by
  simp [serving]
theorem lookup_cons' {k k' : RequestId} {r : Nat} {l : List (RequestId × Nat)} :
    ((k, r) :: l).lookup k' = if k' = k then some r else l.lookup k' := by
  rw [List.lookup_cons]
  by_cases h : k' = k
  · simp [h]
  · rw [show (k' == k) = false by simpa using h, if_neg h]
theorem lookup_filter {l : List (RequestId × Nat)} {k k' : RequestId} :
    (l.filter (fun e => e.1 ≠ k)).lookup k' = if k' = k then none else l.lookup k' := by
  induction l with
  | nil => simp
  | cons e l ih =>
    obtain ⟨a, b⟩ := e
    rw [List.filter_cons, lookup_cons']
    by_cases h : a = k
    · simp only [h, ne_eq, not_true, decide_false, Bool.false_eq_true, if_false]
      rw [ih]; split <;> rfl
    · simp only [ne_eq, h, not_false_iff, decide_true, if_true]
      rw [lookup_cons', ih]
      by_cases h1 : k' = a
      · subst h1; simp [h]
      · simp [h1]
theorem mem_lookup {l : List (RequestId × Nat)} {k : RequestId} {r : Nat} (hn : (l.map Prod.fst).Nodup) (h : (k, r) ∈ l) : l.lookup k = some r := by
  induction l with
  | nil => simp at h
  | cons e l ih =>
    obtain ⟨a, b⟩ := e
    rw [lookup_cons']
    simp only [List.map_cons, List.nodup_cons] at hn
    rcases List.mem_cons.1 h with h' | h'
    · cases h'; simp
    · split
      · rename_i hh; subst hh
        exact absurd (List.mem_map_of_mem (f := Prod.fst) h') hn.1
      · exact ih hn.2 h'

theorem snoc_eq {α} {l : List α} {a : α} {x : α} {b c : List α} (h : l ++ [a] = b ++ x :: c) :
    (c = [] ∧ l = b ∧ a = x) ∨ ∃ c', l = b ++ x :: c' := by
  rcases List.eq_nil_or_concat c with rfl | ⟨c', y, rfl⟩
  · have := List.append_inj' h rfl
    simp at this
    exact Or.inl ⟨rfl, this.1, this.2⟩
  · rw [show b ++ x :: c'.concat y = (b ++ x :: c') ++ [y] by simp] at h
    exact Or.inr ⟨c', (List.append_inj' h rfl).1⟩

/-- The invariant of the trace. -/
structure MRInv (tr : List MEvent) (s : MSt σ) : Prop where
  sv : ∀ k, serving tr k = s.table.lookup k
  nw : ∀ r k m, .created r k m ∈ tr → r < s.next
  ok : WellRouted tr
  qu : ∀ r, acceptedBy r tr = begunBy r tr ++ (s.objs r).queue
  qn : ∀ r, s.next ≤ r → acceptedBy r tr = []

theorem acceptedBy_append (r tr es) : acceptedBy r (tr ++ es) = acceptedBy r tr ++ acceptedBy r es := by simp [acceptedBy]
theorem begunBy_append (r tr es) : begunBy r (tr ++ es) = begunBy r tr ++ begunBy r es := by simp [begunBy]
theorem endedBy_append (r tr es) : endedBy r (tr ++ es) = endedBy r tr ++ endedBy r es := by simp [endedBy]

theorem ok_snoc {tr : List MEvent} {e : MEvent} (h : WellRouted tr) (he : Routed tr e) : WellRouted (tr ++ [e]) := by
  intro b x a hb
  rcases snoc_eq hb with ⟨_, rfl, rfl⟩ | ⟨c, hc⟩
  · exact he
  · exact h b x c hc

theorem step_rinv {P : Prog σ} {s es s' tr} (I : MInv P s) (S : MSInv s) (R : MRInv tr s) (h : MStep P s es s') : MRInv (tr ++ es) s' := by
  obtain ⟨sv, nw, ok, qu, qn⟩ := R
  have hE := step_effect I S h
  clear h
  cases hE with
  | none h =>
    rw [List.append_nil]
    exact ⟨by rw [h.table]; exact sv, by rw [h.next]; exact nw, ok, fun r => by rw [h.queue]; exact qu r, by rw [h.next]; exact qn⟩
  | quiet e he h =>
    have h1 : ∀ r, acceptedBy r [e] = [] := by cases e <;> simp_all [acceptedBy, Spec.MEvent.quiet]
    have h2 : ∀ r, begunBy r [e] = [] := by cases e <;> simp_all [begunBy, Spec.MEvent.quiet]
    refine ⟨fun k => ?_, fun r k m hm => ?_, ok_snoc ok ?_, fun r => ?_, fun r hr => ?_⟩
    · rw [serving_snoc, h.table, ← sv]; cases e <;> simp_all [Serving.see, Spec.MEvent.quiet]
    · rw [h.next]
      rcases List.mem_append.1 hm with hm | hm
      · exact nw r k m hm
      · rw [List.mem_singleton] at hm; subst hm; simp [Spec.MEvent.quiet] at he
    · cases e <;> simp_all [Routed, Spec.MEvent.quiet]
    · rw [acceptedBy_append, begunBy_append, h1, h2, h.queue, qu]; simp
    · rw [acceptedBy_append, h1, qn r (by rw [h.next] at hr; exact hr)]; rfl
  | dropped k m hl hb h =>
    refine ⟨fun k' => ?_, fun r k' m' hm => ?_, ok_snoc ok ?_, fun r => ?_, fun r hr => ?_⟩
    · rw [serving_snoc, h.table, ← sv]; rfl
    · rw [h.next]; exact nw r k' m' (by simpa using hm)
    · exact ⟨hb, by rw [sv, hl]⟩
    · rw [acceptedBy_append, begunBy_append, h.queue, qu]; simp [acceptedBy, begunBy]
    · rw [acceptedBy_append, qn r (by rw [h.next] at hr; exact hr)]; rfl
  | created k m hl hb ht hn hq hs =>
    refine ⟨fun k' => ?_, fun r k' m' hm => ?_, ok_snoc ok ?_, fun r => ?_, fun r hr => ?_⟩
    · rw [serving_snoc, ht, lookup_cons']; simp only [Serving.see, sv]
    · rw [hn]
      rcases List.mem_append.1 hm with hm | hm
      · have := nw r k' m' hm; omega
      · rw [List.mem_singleton] at hm; injection hm with h1; omega
    · refine ⟨hb, by rw [sv, hl], fun k' m' hm => ?_⟩
      have := nw _ _ _ hm; omega
    · rw [acceptedBy_append, begunBy_append, hq]
      split
      · rename_i hr
        have h1 := qn r (by omega)
        have h2 := qu r
        rw [h1] at h2
        have h3 := List.append_eq_nil_iff.1 h2.symm
        rw [h1, h3.1]; rfl
      · rw [qu]; simp [acceptedBy, begunBy]
    · rw [acceptedBy_append, qn r (by omega)]; rfl
  | accepted k m r hl ht hn hq hs =>
    have hr := I.nx _ (mlookup_mem hl)
    refine ⟨fun k' => ?_, fun r k' m' hm => ?_, ok_snoc ok ?_, fun x => ?_, fun x hx => ?_⟩
    · rw [serving_snoc, ht]; simp only [Serving.see, sv]
    · rw [hn]; exact nw r k' m' (by simpa using hm)
    · show serving tr k = some r; rw [sv, hl]
    · rw [acceptedBy_append, begunBy_append, hq, qu]
      by_cases h : x = r
      · simp [acceptedBy, begunBy, h]
      · simp [acceptedBy, begunBy, h, Ne.symm h]
    · simp only at hr
      rw [acceptedBy_append, qn x (by omega)]
      have : r ≠ x := by omega
      simp [acceptedBy, this]
  | began k r t m hpc ht hn hq hq' hs =>
    refine ⟨fun k' => ?_, fun r k' m' hm => ?_, ok_snoc ok ?_, fun x => ?_, fun x hx => ?_⟩
    · rw [serving_snoc, ht]; simp only [Serving.see, sv]
    · rw [hn]; exact nw r k' m' (by simpa using hm)
    · trivial
    · rw [acceptedBy_append, begunBy_append, qu]
      by_cases h : x = r
      · subst h; rw [hq]; simp [acceptedBy, begunBy]
      · rw [hq' x h]; simp [acceptedBy, begunBy, Ne.symm h]
    · rw [acceptedBy_append, qn x (by omega)]; rfl
  | ended k r t m hpc ht hn hq hs =>
    refine ⟨fun k' => ?_, fun r k' m' hm => ?_, ok_snoc ok ?_, fun x => ?_, fun x hx => ?_⟩
    · rw [serving_snoc, ht]; simp only [Serving.see, sv]
    · rw [hn]; exact nw r k' m' (by simpa using hm)
    · trivial
    · rw [acceptedBy_append, begunBy_append, qu, hq]; simp [acceptedBy, begunBy]
    · rw [acceptedBy_append, qn x (by omega)]; rfl
  | removed k r hm ht hn hq hs =>
    refine ⟨fun k' => ?_, fun r k' m' hm => ?_, ok_snoc ok ?_, fun x => ?_, fun x hx => ?_⟩
    · rw [serving_snoc, ht, lookup_filter]
      simp only [Serving.see, sv]
      by_cases h : k' = k
      · subst h; simp [mem_lookup S.nl hm]
      · rw [if_neg h, if_neg]
        intro hh
        exact h (I.ni _ _ _ (mlookup_mem hh) hm)
    · rw [hn]; exact nw r k' m' (by simpa using hm)
    · exact ⟨k, by rw [sv, mem_lookup S.nl hm]⟩
    · rw [acceptedBy_append, begunBy_append, qu, hq]; simp [acceptedBy, begunBy]
    · rw [acceptedBy_append, qn x (by omega)]; rfl

theorem run_rinv {P : Prog σ} {x tr s'} (h : MRun P (mInit x) tr s') : MRInv tr s' := by
  induction h with
  | refl =>
    refine ⟨fun k => rfl, by simp, ?_, fun r => rfl, fun r _ => rfl⟩
    intro b e a h; simp at h
  | step hr h ih => exact step_rinv (run_kq hr).1 (run_kq hr).2.1 ih h

end Fcgi.Model
