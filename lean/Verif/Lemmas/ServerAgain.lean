import Verif.Lemmas.ServerWire
import Verif.Lemmas.ServerRoute
import Verif.Props.Manager
import Verif.Spec.ManagerTerms
/-! # Requests with the same id, one after the other -/
namespace Fcgi.Model
open Fcgi.Spec

/-- A request object with what was routed for its id from its BEGIN_REQUEST record on, up to the next one. -/
structure Seg where
  r : Nat
  b : Message
  ms : List Message

def Seg.all (x : Seg) : List Message := x.b :: x.ms

structure SegInv {σ} (k : RequestId) (tr : List MEvent) (s : MSt σ) (pre : List Message) (segs : List Seg) : Prop where
  obj : objsOf k tr = segs.map (·.r)
  rt : routedFor k tr = pre ++ segs.flatMap Seg.all
  pn : ∀ m ∈ pre, isBegin m = false
  cr : ∀ x ∈ segs, .created x.r k x.b ∈ tr
  be : ∀ x ∈ segs, isBegin x.b = true
  nb : ∀ x ∈ segs, ∀ m ∈ x.ms, isBegin m = false
  px : ∀ x ∈ segs, recordsTo x.r tr <+: x.ms
  cu : ∀ r, s.table.lookup k = some r → ∃ init x, segs = init ++ [x] ∧ x.r = r ∧ recordsTo r tr = x.ms ∧ ∀ y ∈ init, y.r ≠ r

theorem run_segs {σ} {P : Prog σ} {x tr s} (h : MRun P (mInit x) tr s) (k : RequestId) (ha : Apart k tr) :
    ∃ pre segs, SegInv k tr s pre segs := by
  induction h with
  | refl => exact ⟨[], [], ⟨rfl, rfl, by simp, by simp, by simp, by simp, by simp, by intro r hr; simp [mInit] at hr⟩⟩
  | step hr hs ih =>
    rename_i tr s' es s''
    obtain ⟨I, S, K, Q⟩ := run_kq hr
    have R := run_rinv hr
    have O := run_objs hr
    have hE := step_effect I S hs
    clear hs
    obtain ⟨pre, segs, J⟩ := ih (fun r m hm => ha r m (by simp [hm]))
    have quiet : ∀ e, objsOf k [e] = [] → routedFor k [e] = [] → (∀ r, r ∈ objsOf k tr → recordsTo r [e] = []) →
        (∀ r, s''.table.lookup k = some r → s'.table.lookup k = some r) → ∃ pre segs, SegInv k (tr ++ [e]) s'' pre segs := by
      intro e h1 h2 h3 h4
      have h5 : ∀ x ∈ segs, recordsTo x.r (tr ++ [e]) = recordsTo x.r tr := by
        intro x hx
        rw [recordsTo_append, h3 x.r (by rw [J.obj]; exact List.mem_map.2 ⟨x, hx, rfl⟩), List.append_nil]
      refine ⟨pre, segs, ⟨by rw [objsOf_append, h1, List.append_nil]; exact J.obj, by rw [routedFor_append, h2, List.append_nil]; exact J.rt, J.pn,
        fun x hx => by simp [J.cr x hx], J.be, J.nb, fun x hx => by rw [h5 x hx]; exact J.px x hx, fun r hl => ?_⟩⟩
      obtain ⟨init, x, e1, e2, e3, e4⟩ := J.cu r (h4 r hl)
      exact ⟨init, x, e1, e2, by rw [← e2, h5 x (by rw [e1]; simp), e2]; exact e3, e4⟩
    cases hE with
    | none h => rw [List.append_nil]; exact ⟨pre, segs, ⟨J.obj, J.rt, J.pn, J.cr, J.be, J.nb, J.px, by rw [h.table]; exact J.cu⟩⟩
    | quiet e he h =>
      refine quiet e ?_ ?_ ?_ (by rw [h.table]; exact fun _ h => h)
      · cases e <;> simp_all [Spec.MEvent.quiet, objsOf]
      · cases e <;> simp_all [Spec.MEvent.quiet, routedFor, routedOf]
      · intro r _; cases e <;> simp_all [Spec.MEvent.quiet, recordsTo, acceptedBy]
    | began k' r t m hpc ht hn hq hq' hs =>
      exact quiet _ (by simp [objsOf]) (by simp [routedFor, routedOf]) (by simp [recordsTo, acceptedBy]) (by rw [ht]; exact fun _ h => h)
    | ended k' r t m hpc ht hn hq hs =>
      exact quiet _ (by simp [objsOf]) (by simp [routedFor, routedOf]) (by simp [recordsTo, acceptedBy]) (by rw [ht]; exact fun _ h => h)
    | removed k' r hm ht hn hq hs =>
      refine quiet _ (by simp [objsOf]) (by simp [routedFor, routedOf]) (by simp [recordsTo, acceptedBy]) ?_
      intro r' hl
      rw [ht, lookup_filter] at hl
      split at hl
      · cases hl
      · exact hl
    | dropped k' m hl hb' h =>
      by_cases hk : k' = k ∧ m.type = 0
      · obtain ⟨rfl, h0⟩ := hk
        have hrf : routedFor k' [MEvent.dropped k' m] = [m] := by simp [routedFor, routedOf, h0]
        have hob : objsOf k' [MEvent.dropped k' m] = [] := by simp [objsOf]
        have hrc : ∀ r, recordsTo r (tr ++ [MEvent.dropped k' m]) = recordsTo r tr := by
          intro r; rw [recordsTo_append]; simp [recordsTo, acceptedBy]
        by_cases hs : segs = []
        · subst hs
          refine ⟨pre ++ [m], [], ⟨by rw [objsOf_append, hob, List.append_nil]; exact J.obj, by rw [routedFor_append, hrf, J.rt]; simp, ?_,
            by simp, by simp, by simp, by simp, fun r hl' => by rw [h.table, hl] at hl'; cases hl'⟩⟩
          intro m' hm'
          rcases List.mem_append.1 hm' with hm' | hm'
          · exact J.pn m' hm'
          · rw [List.mem_singleton] at hm'; subst hm'; exact hb'
        · obtain ⟨init, y, rfl⟩ : ∃ init y, segs = init ++ [y] := ⟨segs.dropLast, segs.getLast hs, (List.dropLast_concat_getLast hs).symm⟩
          have hy : y ∈ init ++ [y] := by simp
          have hi : ∀ z ∈ init, z ∈ init ++ [y] := fun z hz => by simp [hz]
          have each : ∀ {Q : Seg → Prop}, (∀ z ∈ init ++ [y], Q z) → Q ⟨y.r, y.b, y.ms ++ [m]⟩ → ∀ z ∈ init ++ [⟨y.r, y.b, y.ms ++ [m]⟩], Q z := by
            intro Q h1 h2 z hz
            rcases List.mem_append.1 hz with hz | hz
            · exact h1 z (hi z hz)
            · rw [List.mem_singleton] at hz; subst hz; exact h2
          refine ⟨pre, init ++ [⟨y.r, y.b, y.ms ++ [m]⟩], ⟨?_, ?_, J.pn, ?_, ?_, ?_, ?_, fun r hl' => by rw [h.table, hl] at hl'; cases hl'⟩⟩
          · rw [objsOf_append, hob, List.append_nil, J.obj]; simp
          · rw [routedFor_append, hrf, J.rt]; simp [Seg.all]
          · exact each (fun z hz => by simp [J.cr z hz]) (by have := J.cr y hy; simp [this])
          · exact each J.be (J.be y hy)
          · refine each J.nb ?_
            intro m' hm'
            rcases List.mem_append.1 hm' with hm' | hm'
            · exact J.nb y hy m' hm'
            · rw [List.mem_singleton] at hm'; subst hm'; exact hb'
          · refine each (fun z hz => by rw [hrc]; exact J.px z hz) ?_
            rw [hrc]; exact List.IsPrefix.trans (J.px y hy) (List.prefix_append _ _)
      · refine quiet _ (by simp [objsOf]) ?_ (by simp [recordsTo, acceptedBy]) (by rw [h.table]; exact fun _ h => h)
        simp only [routedFor, routedOf, List.filterMap_cons, List.filterMap_nil]
        rw [if_neg hk]
    | created k' m hl hb' ht hn hq hs =>
      by_cases hk : k' = k
      · subst hk
        have h0 : m.type = 0 := by
          simp only [isBegin, Bool.and_eq_true, decide_eq_true_eq] at hb'; exact hb'.1
        have hrf : routedFor k' [MEvent.created s'.next k' m] = [m] := by simp [routedFor, routedOf, h0]
        have hob : objsOf k' [MEvent.created s'.next k' m] = [s'.next] := by simp [objsOf]
        have hrc : ∀ r, recordsTo r (tr ++ [MEvent.created s'.next k' m]) = recordsTo r tr := by
          intro r; rw [recordsTo_append]; simp [recordsTo, acceptedBy]
        have hq0 : recordsTo s'.next tr = [] := by
          simp only [recordsTo, R.qn _ (Nat.le_refl s'.next), List.filter_nil]
        have each : ∀ {Q : Seg → Prop}, (∀ z ∈ segs, Q z) → Q ⟨s'.next, m, []⟩ → ∀ z ∈ segs ++ [⟨s'.next, m, []⟩], Q z := by
          intro Q h1 h2 z hz
          rcases List.mem_append.1 hz with hz | hz
          · exact h1 z hz
          · rw [List.mem_singleton] at hz; subst hz; exact h2
        refine ⟨pre, segs ++ [⟨s'.next, m, []⟩], ⟨?_, ?_, J.pn, ?_, ?_, ?_, ?_, ?_⟩⟩
        · rw [objsOf_append, hob, J.obj]; simp
        · rw [routedFor_append, hrf, J.rt]; simp [Seg.all]
        · exact each (fun z hz => by simp [J.cr z hz]) (by simp)
        · exact each J.be hb'
        · exact each J.nb (by simp)
        · exact each (fun z hz => by rw [hrc]; exact J.px z hz) (by rw [hrc, hq0]; simp)
        · intro r hl'
          rw [ht, lookup_cons', if_pos rfl] at hl'
          cases hl'
          refine ⟨segs, ⟨s'.next, m, []⟩, rfl, rfl, by rw [hrc, hq0], fun y hy he => ?_⟩
          have := O.nw _ _ _ (J.cr y hy)
          omega
      · refine quiet _ (by simp [objsOf, hk]) (by simp [routedFor, routedOf, hk]) (by simp [recordsTo, acceptedBy]) ?_
        intro r hl'
        rw [ht, lookup_cons', if_neg (fun h => hk h.symm)] at hl'
        exact hl'
    | accepted k' m r' hl ht hn hq hs =>
      have hmt := mlookup_mem hl
      by_cases hk : k' = k
      · subst hk
        obtain ⟨init, y, e1, e2, e3, e4⟩ := J.cu r' hl
        subst e1
        have hob : objsOf k' [MEvent.accepted r' k' m] = [] := by simp [objsOf]
        have hoth : ∀ z ∈ init, recordsTo z.r (tr ++ [MEvent.accepted r' k' m]) = recordsTo z.r tr := by
          intro z hz
          rw [recordsTo_append]
          have : r' ≠ z.r := fun he => e4 z hz he.symm
          simp [recordsTo, acceptedBy, this]
        by_cases h0 : m.type = 0
        · have hrf : routedFor k' [MEvent.accepted r' k' m] = [m] := by simp [routedFor, routedOf, h0]
          have hrc : recordsTo r' (tr ++ [MEvent.accepted r' k' m]) = y.ms ++ [m] := by
            rw [recordsTo_append, e3]; simp [recordsTo, acceptedBy, h0]
          have hy : y ∈ init ++ [y] := by simp
          have hi : ∀ z ∈ init, z ∈ init ++ [y] := fun z hz => by simp [hz]
          have each : ∀ {Q : Seg → Prop}, (∀ z ∈ init, Q z) → Q ⟨y.r, y.b, y.ms ++ [m]⟩ → ∀ z ∈ init ++ [⟨y.r, y.b, y.ms ++ [m]⟩], Q z := by
            intro Q h1 h2 z hz
            rcases List.mem_append.1 hz with hz | hz
            · exact h1 z hz
            · rw [List.mem_singleton] at hz; subst hz; exact h2
          refine ⟨pre, init ++ [⟨y.r, y.b, y.ms ++ [m]⟩], ⟨?_, ?_, J.pn, ?_, ?_, ?_, ?_, ?_⟩⟩
          · rw [objsOf_append, hob, List.append_nil, J.obj]; simp
          · rw [routedFor_append, hrf, J.rt]; simp [Seg.all]
          · exact each (fun z hz => by simp [J.cr z (hi z hz)]) (by have := J.cr y hy; simp [this])
          · exact each (fun z hz => J.be z (hi z hz)) (J.be y hy)
          · refine each (fun z hz => J.nb z (hi z hz)) ?_
            intro m' hm'
            rcases List.mem_append.1 hm' with hm' | hm'
            · exact J.nb y hy m' hm'
            · rw [List.mem_singleton] at hm'; subst hm'; exact ha r' m' (by simp)
          · refine each (fun z hz => by rw [hoth z hz]; exact J.px z (hi z hz)) ?_
            show recordsTo y.r _ <+: y.ms ++ [m]
            rw [e2, hrc]; exact List.prefix_refl _
          · intro r hl'
            rw [ht, hl] at hl'
            cases hl'
            exact ⟨init, _, rfl, e2, hrc, e4⟩
        · refine quiet _ hob (by simp [routedFor, routedOf, h0]) ?_ (by rw [ht]; exact fun _ h => h)
          intro r hr
          simp only [recordsTo, acceptedBy, List.filterMap_cons, List.filterMap_nil]
          split <;> simp_all
      · refine quiet _ (by simp [objsOf]) (by simp [routedFor, routedOf, hk]) ?_ (by rw [ht]; exact fun _ h => h)
        intro r hr
        have : r' ≠ r := by
          intro h; subst h
          obtain ⟨m1, hm1⟩ := mem_objsOf.1 hr
          obtain ⟨pre', hpre, _⟩ := O.ls k' r' hmt
          obtain ⟨m2, hm2⟩ := mem_objsOf.1 (show r' ∈ objsOf k' tr by rw [hpre]; simp)
          exact hk ((O.un _ _ _ _ _ hm2 hm1).1)
        simp [recordsTo, acceptedBy, this]

/-! ### The objects and the conversations -/

/-- The objects belong to the conversations, in order; what was routed is the first part of what was sent. -/
inductive Aligned : List Seg → List (Message × List Message) → Prop where
  | nil (cs) : Aligned [] cs
  | last {x : Seg} {b ins} (cs) (hb : x.b = b) (hm : x.ms <+: ins) : Aligned [x] ((b, ins) :: cs)
  | cons {x y : Seg} {xs b ins cs} (hb : x.b = b) (hm : x.ms = ins) (h : Aligned (y :: xs) cs) : Aligned (x :: y :: xs) ((b, ins) :: cs)

theorem seg_stop {p : Message → Bool} : ∀ (a b : List Message) (z : Message) (u w : List Message), (∀ m ∈ a, p m = false) → (∀ m ∈ b, p m = false) →
    p z = true → (∀ v vs, w = v :: vs → p v = true) → a ++ z :: u <+: b ++ w → a = b ∧ z :: u <+: w
  | [], [], z, u, w, _, _, _, _, h => ⟨rfl, by simpa using h⟩
  | [], m :: b, z, u, w, _, hb, hz, _, h => by
    rw [List.nil_append, List.cons_append, List.cons_prefix_cons] at h
    rw [h.1, hb m (by simp)] at hz; cases hz
  | m :: a, [], z, u, w, ha, _, _, hw, h => by
    rw [List.nil_append, List.cons_append] at h
    obtain ⟨t, ht⟩ := h
    have := hw m (a ++ z :: u ++ t) (by rw [← ht]; simp)
    rw [ha m (by simp)] at this; cases this
  | m :: a, m' :: b, z, u, w, ha, hb, hz, hw, h => by
    rw [List.cons_append, List.cons_append, List.cons_prefix_cons] at h
    obtain ⟨h1, h2⟩ := seg_stop a b z u w (fun m hm => ha m (by simp [hm])) (fun m hm => hb m (by simp [hm])) hz hw h.2
    exact ⟨by rw [h.1, h1], h2⟩

theorem seg_last {p : Message → Bool} : ∀ (a b : List Message) (w : List Message), (∀ m ∈ a, p m = false) →
    (∀ v vs, w = v :: vs → p v = true) → a <+: b ++ w → a <+: b
  | [], b, w, _, _, _ => by simp
  | m :: a, [], w, ha, hw, h => by
    rw [List.nil_append] at h
    obtain ⟨t, ht⟩ := h
    have := hw m (a ++ t) (by rw [← ht]; simp)
    rw [ha m (by simp)] at this; cases this
  | m :: a, m' :: b, w, ha, hw, h => by
    rw [List.cons_append, List.cons_prefix_cons] at h
    rw [List.cons_prefix_cons]
    exact ⟨h.1, seg_last a b w (fun m hm => ha m (by simp [hm])) hw h.2⟩

theorem seg_align : ∀ (segs : List Seg) (cs : List (Message × List Message)), (∀ x ∈ segs, isBegin x.b = true) → (∀ x ∈ segs, ∀ m ∈ x.ms, isBegin m = false) →
    (∀ x ∈ cs, isBegin x.1 = true) → (∀ x ∈ cs, ∀ m ∈ x.2, isBegin m = false) →
    segs.flatMap Seg.all <+: cs.flatMap (fun x => x.1 :: x.2) → Aligned segs cs
  | [], cs, _, _, _, _, _ => .nil cs
  | x :: xs, [], _, _, _, _, h => by simp [Seg.all] at h
  | x :: xs, (b, ins) :: cs, h1, h2, h3, h4, h => by
    rw [List.flatMap_cons, List.flatMap_cons, Seg.all, List.cons_append, List.cons_append, List.cons_prefix_cons] at h
    obtain ⟨hb, h⟩ := h
    have hw : ∀ v vs, cs.flatMap (fun x => x.1 :: x.2) = v :: vs → isBegin v = true := by
      intro v vs hv
      cases cs with
      | nil => simp at hv
      | cons c cs =>
        simp only [List.flatMap_cons, List.cons_append, List.cons.injEq] at hv
        rw [← hv.1]; exact h3 c (by simp)
    cases xs with
    | nil =>
      simp only [List.flatMap_nil, List.append_nil] at h
      exact .last cs hb (seg_last _ _ _ (h2 x (by simp)) hw h)
    | cons y ys =>
      rw [List.flatMap_cons, Seg.all, List.cons_append] at h
      obtain ⟨g1, g2⟩ := seg_stop _ _ _ _ _ (h2 x (by simp)) (fun m hm => h4 (b, ins) (by simp) m hm) (h1 y (by simp)) hw h
      refine .cons hb g1 (seg_align (y :: ys) cs (fun z hz => h1 z (by simp [hz])) (fun z hz => h2 z (by simp [hz])) (fun z hz => h3 z (by simp [hz]))
        (fun z hz => h4 z (by simp [hz])) ?_)
      rw [List.flatMap_cons, Seg.all, List.cons_append]; exact g2

/-- And if all of it was routed, then there is an object for each conversation. -/
theorem aligned_all : ∀ {segs : List Seg} {cs : List (Message × List Message)}, Aligned segs cs →
    segs.flatMap Seg.all = cs.flatMap (fun x => x.1 :: x.2) → segs.map (fun x => (x.b, x.ms)) = cs
  | _, _, .nil cs, h => by
    cases cs with
    | nil => rfl
    | cons c cs => simp at h
  | _, _, .last cs hb hm, h => by
    rename_i x b ins
    simp only [List.flatMap_cons, Seg.all, List.flatMap_nil, List.append_nil, List.cons_append, List.cons.injEq] at h
    obtain ⟨w, hw⟩ := hm
    have : w = [] ∧ cs = [] := by
      have h' := congrArg List.length h.2
      rw [← hw] at h'
      simp only [List.length_append] at h'
      constructor
      · exact List.length_eq_zero_iff.1 (by omega)
      · cases cs with
        | nil => rfl
        | cons c cs =>
          simp only [List.flatMap_cons, List.length_append, List.length_cons] at h'
          omega
    obtain ⟨rfl, rfl⟩ := this
    simp [hb, ← hw]
  | _, _, .cons hb hm hA, h => by
    rename_i x y xs b ins cs
    replace h : x.b :: (x.ms ++ (y :: xs).flatMap Seg.all) = b :: (ins ++ cs.flatMap (fun x => x.1 :: x.2)) := h
    rw [List.cons.injEq, hm] at h
    have := aligned_all hA (List.append_cancel_left h.2)
    rw [List.map_cons, this, hb, hm]

/-- The records handled are the first of those of the conversation. -/
theorem aligned_mem : ∀ {segs : List Seg} {cs : List (Message × List Message)}, Aligned segs cs → ∀ x ∈ segs, ∃ c ∈ cs, x.b = c.1 ∧ x.ms <+: c.2
  | _, _, .nil _, x, hx => by cases hx
  | _, _, .last cs hb hm, x, hx => by
    rw [List.mem_singleton] at hx; subst hx
    exact ⟨_, List.mem_cons_self, hb, hm⟩
  | _, _, .cons hb hm hA, z, hz => by
    rcases List.mem_cons.1 hz with rfl | hz
    · exact ⟨_, List.mem_cons_self, hb, by rw [hm]; exact List.prefix_refl _⟩
    · obtain ⟨c, hc, h⟩ := aligned_mem hA z hz
      exact ⟨c, List.mem_cons_of_mem _ hc, h⟩

/-- Complete requests are gone when nothing is left to be done. -/
theorem still_gone {σ} {P : Prog σ} {x tr s} (h : MRun P (mInit x) tr s) (hs : Still P s) {r t m} (he : .ended r t m true ∈ tr) (k : RequestId) :
    (k, r) ∉ s.table := by
  intro hm
  obtain ⟨I, S, K, Q⟩ := run_kq h
  obtain ⟨h1, h2⟩ := still_rest I hs
  have T := run_tinv h
  have hfree : watch r tr = .free := by
    apply T.wm
    · cases hx : (s.objs r).mutex with
      | none => rfl
      | some u =>
        have hu := (I.mu r u).1 hx
        have := h1 u
        cases hp : s.th u <;> simp_all [rest_all, N_all]
    · exact (I.al r).2 ⟨k, hm⟩
  rcases watch_over he with hh | hh <;> rw [hh] at hfree <;> cases hfree

/-! ### The requests, alone -/

variable {U : Type} [Transmits U]

theorem routed_segs {σ} {P : Prog σ} {x tr s} (h : MRun P (mInit x) tr s) (k : RequestId) (ha : Apart k tr) (cs : List (Message × List Message))
    (hb : ∀ x ∈ cs, isBegin x.1 = true) (hin : ∀ x ∈ cs, ∀ m ∈ x.2, isBegin m = false) (hp : routedFor k tr <+: cs.flatMap (fun x => x.1 :: x.2)) :
    ∃ segs, SegInv k tr s [] segs ∧ Aligned segs cs := by
  obtain ⟨pre, segs, J⟩ := run_segs h k ha
  have hpre : pre = [] := by
    cases pre with
    | nil => rfl
    | cons m pre =>
      exfalso
      rw [J.rt] at hp
      cases cs with
      | nil => simp at hp
      | cons c cs =>
        rw [List.flatMap_cons, List.cons_append, List.cons_append, List.cons_prefix_cons] at hp
        have := J.pn m (by simp)
        rw [hp.1, hb c (by simp)] at this; cases this
  subst hpre
  exact ⟨segs, J, seg_align segs cs J.be J.nb hb hin (by rw [← List.nil_append (segs.flatMap _), ← J.rt]; exact hp)⟩

omit [Transmits U] in
theorem ended_segs {P : SrvProg U} {tr s} (hr : MRun P.prog (mInit none) tr s) (k : RequestId) (ha : Apart k tr) (cs : List (Message × List Message))
    (hb : ∀ x ∈ cs, isBegin x.1 = true) (hin : ∀ x ∈ cs, ∀ m ∈ x.2, isBegin m = false) (hp : routedFor k tr <+: cs.flatMap (fun x => x.1 :: x.2))
    (r : Nat) (hrk : r ∈ objsOf k tr) : ∃ c ∈ cs, (endedBy r tr).filter (fun m => m.type = 0) <+: c.2 := by
  obtain ⟨segs, J, hA⟩ := routed_segs hr k ha cs hb hin hp
  rw [J.obj] at hrk
  obtain ⟨x, hx, rfl⟩ := List.mem_map.1 hrk
  obtain ⟨c, hc, _, h2⟩ := aligned_mem hA x hx
  refine ⟨c, hc, List.IsPrefix.trans ?_ h2⟩
  exact List.IsPrefix.trans (List.IsPrefix.filter _ (Props.C41_order hr x.r).2) (J.px x hx)

theorem sound_segs {P : SrvProg U} {tr s} (hr : MRun P.prog (mInit none) tr s) (k : RequestId) (ha : Apart k tr) (cs : List (Message × List Message))
    (hb : ∀ x ∈ cs, isBegin x.1 = true) (hin : ∀ x ∈ cs, ∀ m ∈ x.2, isBegin m = false) (hp : routedFor k tr <+: cs.flatMap (fun x => x.1 :: x.2))
    (hsafe : ∀ c ∈ cs, ∀ role kill ms, ms.filter (fun m => m.type = 0) <+: c.2 →
      ∃ x, handleAll P.handle (P.fresh k.socket k.id role kill) ms = .ok x) : SoundFor k tr s := by
  induction hr with
  | refl => intro r m0 hm; cases hm
  | step hr hs ih =>
    rename_i tr s' es s''
    have ih := ih (fun r m hm => ha r m (by simp [hm])) (by rw [routedFor_append] at hp; exact List.IsPrefix.trans (List.prefix_append _ _) hp)
    have hr'' := MRun.step hr hs
    obtain ⟨I, S, _, _⟩ := run_kq hr
    have O := run_objs hr
    have hE := step_effect I S hs
    have quiet : (∀ r m, .created r k m ∈ tr ++ es → .created r k m ∈ tr) → (∀ r, (s''.objs r).state = (s'.objs r).state) → SoundFor k (tr ++ es) s'' := by
      intro h1 h2 r m0 hm
      rw [h2]; exact ih r m0 (h1 r m0 hm)
    clear hs
    cases hE with
    | none h => exact quiet (by simp) h.state
    | quiet e he h =>
      refine quiet ?_ h.state
      intro r m hm
      rcases List.mem_append.1 hm with hm | hm
      · exact hm
      · rw [List.mem_singleton] at hm; subst hm; simp [Spec.MEvent.quiet] at he
    | dropped k' m hl hb h => exact quiet (by simp) h.state
    | accepted k' m r hl ht hn hq hs => exact quiet (by simp) hs
    | began k' r t m hpc ht hn hq hq' hs => exact quiet (by simp) hs
    | removed k' r hm ht hn hq hs => exact quiet (by simp) hs
    | created k' m hl hb ht hn hq hs =>
      intro r m0 hm
      rw [hs]
      split
      · simp [SrvProg.prog, kindProg]
      · rename_i hne
        rcases List.mem_append.1 hm with hm | hm
        · exact ih r m0 hm
        · simp only [List.mem_singleton, MEvent.created.injEq] at hm
          exact absurd hm.1 hne
    | ended k' r' t m hpc ht hn hq hs =>
      intro r m0 hm
      have hm' : .created r k m0 ∈ tr := by simpa using hm
      rw [hs]
      by_cases hrr : r = r'
      · subst hrr
        rw [if_pos rfl]
        obtain ⟨q, hq⟩ := Option.ne_none_iff_exists'.1 (ih r m0 hm')
        have hk : k' = k := by
          obtain ⟨m1, hm1⟩ := (run_ainv hr).cr k' r (I.mt t _ (by rw [hpc]; rfl))
          exact (O.un _ _ _ _ _ hm1 hm').1
        subst hk
        obtain ⟨role, kill, e2⟩ := work_alone hr hpc hq
        have e4 := handleAll_snoc P.handle _ _ _ m e2
        obtain ⟨c1, hc1, hpre⟩ := ended_segs hr'' k' ha cs hb hin hp r (mem_objsOf.2 ⟨m0, hm⟩)
        have h7 : ∀ c, endedBy r (tr ++ [.ended r t m c]) = endedBy r tr ++ [m] := by
          intro c; rw [endedBy_append]; simp [endedBy]
        rw [h7] at hpre
        obtain ⟨x, hx⟩ := hsafe c1 hc1 role kill _ hpre
        rw [hx] at e4
        rw [hq]
        simp only [SrvProg.prog, kindProg]
        cases hh : P.handle q m with
        | ok y => simp
        | _ => rw [hh] at e4; cases e4
      · rw [if_neg hrr]; exact ih r m0 hm'

end Fcgi.Model
