import Verif.Model.Sockets
import Verif.Spec.SocketTerms
/-! # Invariant of socket handles -/
namespace Fcgi.Model
open Fcgi.Spec

/-- `ex d`: connection `d` need not (yet) be in the map. -/
structure SkInv (ex : Nat → Prop) (tr : List SEvent) (s : SkSt) : Prop where
  lf : ∀ d, life d tr = if d < s.next then (if (s.datas d).valid then .live (s.datas d).fd else .shut) else .unborn
  ow : ∀ fd d, s.owner fd = some d ↔ d < s.next ∧ (s.datas d).valid = true ∧ (s.datas d).fd = fd
  mp : ∀ e ∈ s.map, ∃ d, e.2 = ⟨some d, true⟩ ∧ d < s.next ∧ (s.datas d).fd = e.1
  nd : (s.map.map Prod.fst).Nodup
  ii : ∀ d, d < s.next → (s.datas d).valid = true → ex d ∨ ((s.datas d).fd, (⟨some d, true⟩ : Handle)) ∈ s.map
  us : ∀ i h, s.handles i = some h → h.original = false ∧ ∀ d, h.data = some d → d < s.next
  en : s.ended = true → s.map = []

theorem life_append (d tr es) : life d (tr ++ es) = es.foldl (Life.see d) (life d tr) := by simp [life]

theorem sk_mem {l : List (Nat × Handle)} {k v} (h : l.lookup k = some v) : (k, v) ∈ l := by
  induction l with
  | nil => simp at h
  | cons e l ih =>
    obtain ⟨a, b⟩ := e
    rw [List.lookup_cons] at h
    by_cases hk : k = a
    · subst hk; simp at h; simp [h]
    · rw [show (k == a) = false by simpa using hk] at h
      exact List.mem_cons_of_mem _ (ih h)

theorem sk_none {l : List (Nat × Handle)} {k} (h : l.lookup k = none) (v : Handle) : (k, v) ∉ l := by
  intro hm
  rw [List.lookup_eq_none_iff] at h
  simpa using h _ hm

theorem sk_nodup {l : List (Nat × Handle)} (h : (l.map Prod.fst).Nodup) {k v w} (h1 : (k, v) ∈ l) (h2 : (k, w) ∈ l) : v = w := by
  induction l with
  | nil => cases h1
  | cons e l ih =>
    simp only [List.map_cons, List.nodup_cons, List.mem_map, not_exists, not_and] at h
    rcases List.mem_cons.1 h1 with h1 | h1 <;> rcases List.mem_cons.1 h2 with h2 | h2
    · rw [← h1] at h2; cases h2; rfl
    · exact absurd (by rw [← h1]) (h.1 _ h2)
    · exact absurd (by rw [← h2]) (h.1 _ h1)
    · exact ih h.2 h1 h2

/-- What stays the same, or at most goes down. -/
structure SkLe (s s' : SkSt) : Prop where
  ma : s'.map = s.map
  nx : s'.next = s.next
  ha : s'.handles = s.handles
  fd : ∀ d, (s'.datas d).fd = (s.datas d).fd
  va : ∀ d, (s'.datas d).valid = true → (s.datas d).valid = true
  ee : s'.ended = s.ended

theorem SkLe.rfl (s : SkSt) : SkLe s s := ⟨Eq.refl _, Eq.refl _, Eq.refl _, fun _ => Eq.refl _, fun _ h => h, Eq.refl _⟩
theorem SkLe.trans {s s' s''} (h : SkLe s s') (h' : SkLe s' s'') : SkLe s s'' :=
  ⟨h'.ma.trans h.ma, h'.nx.trans h.nx, h'.ha.trans h.ha, fun d => (h'.fd d).trans (h.fd d), fun d hd => h.va d (h'.va d hd), h'.ee.trans h.ee⟩

theorem shut_inv {ex tr s d} (I : SkInv ex tr s) (hd : d < s.next) (hv : (s.datas d).valid = true) :
    SkInv ex (tr ++ (s.shut d).1) (s.shut d).2 ∧ SkLe s (s.shut d).2 ∧ ((s.shut d).2.datas d).valid = false := by
  obtain ⟨lf, ow, mp, nd, ii, us, en⟩ := I
  have howner : s.owner (s.datas d).fd = some d := (ow _ _).2 ⟨hd, hv, rfl⟩
  refine ⟨⟨?_, ?_, ?_, nd, ?_, us, en⟩, ⟨rfl, rfl, rfl, ?_, ?_, rfl⟩, ?_⟩
  · intro e
    rw [life_append, lf]
    simp only [SkSt.shut, SkSt.setData, List.foldl_cons, List.foldl_nil, Life.see, howner]
    by_cases he : d = e
    · subst he; simp [hd, hv]
    · have he' : e ≠ d := fun h => he h.symm
      simp [he, he']
  · intro fd e
    simp only [SkSt.shut, SkSt.setData]
    by_cases he : e = d
    · subst he
      simp only [if_true, Bool.false_eq_true, false_and, and_false, iff_false]
      split
      · simp
      · intro h; exact absurd ((ow _ _).1 h).2.2.symm (by assumption)
    · simp only [he, if_false]
      split
      · rename_i hfd
        simp only [reduceCtorEq, false_iff]
        intro h
        have := (ow fd e).2 h
        rw [hfd, howner] at this
        cases this; exact he rfl
      · exact ow fd e
  · intro e he
    obtain ⟨d', h1, h2, h3⟩ := mp e he
    refine ⟨d', h1, h2, ?_⟩
    simp only [SkSt.shut, SkSt.setData]
    split
    · rename_i hh; subst hh; exact h3
    · exact h3
  · intro e he hve
    simp only [SkSt.shut, SkSt.setData] at hve ⊢
    by_cases hh : e = d
    · subst hh; simp at hve
    · simp only [hh, if_false] at hve ⊢
      exact ii e he hve
  · intro e
    simp only [SkSt.shut, SkSt.setData]
    split
    · rename_i hh; subst hh; rfl
    · rfl
  · intro e
    simp only [SkSt.shut, SkSt.setData]
    split
    · simp
    · exact fun h => h
  · simp [SkSt.shut, SkSt.setData]

theorem destruct_inv {ex tr s h} (I : SkInv ex tr s) (hd : ∀ d, h.data = some d → d < s.next) :
    SkInv ex (tr ++ (s.destruct h).1) (s.destruct h).2 ∧ SkLe s (s.destruct h).2 ∧
      (h.original = true → ∀ d, h.data = some d → ((s.destruct h).2.datas d).valid = false) := by
  unfold SkSt.destruct
  cases hh : h.data with
  | none => exact ⟨by simpa using I, SkLe.rfl s, fun _ d h => by cases h⟩
  | some d =>
    dsimp only
    split
    · rename_i hc
      simp only [Bool.and_eq_true] at hc
      obtain ⟨h1, h2, h3⟩ := shut_inv I (hd d hh) hc.2
      exact ⟨h1, h2, fun _ d' hd' => by cases hd'; exact h3⟩
    · rename_i hc
      refine ⟨by simpa using I, SkLe.rfl s, fun ho d' hd' => ?_⟩
      cases hd'
      simpa [ho] using hc

theorem erase_inv {ex tr s fd} (I : SkInv ex tr s) :
    SkInv ex (tr ++ (s.erase fd).1) (s.erase fd).2 ∧ (s.erase fd).2.next = s.next ∧ (s.erase fd).2.handles = s.handles ∧
      (s.erase fd).2.map = s.map.filter (fun e => e.1 ≠ fd) ∧ (∀ d, ((s.erase fd).2.datas d).fd = (s.datas d).fd) ∧
      (∀ d, ((s.erase fd).2.datas d).valid = true → (s.datas d).valid = true) ∧ (s.erase fd).2.ended = s.ended := by
  unfold SkSt.erase
  cases hl : s.map.lookup fd with
  | none =>
    refine ⟨by simpa using I, rfl, rfl, ?_, fun _ => rfl, fun _ h => h, rfl⟩
    symm
    rw [List.filter_eq_self]
    intro e he
    have := sk_none hl e.2
    simp only [ne_eq, decide_not, Bool.not_eq_true', decide_eq_false_iff_not]
    rintro rfl
    exact this he
  | some h =>
    dsimp only
    obtain ⟨d, hd1, hd2, hd3⟩ := I.mp _ (sk_mem hl)
    -- the state with the smaller map
    have I1 : SkInv (fun e => ex e ∨ e = d) tr { s with map := s.map.filter (fun e => e.1 ≠ fd) } := by
      obtain ⟨lf, ow, mp, nd, ii, us, en⟩ := I
      refine ⟨lf, ow, fun e he => mp e (List.mem_filter.1 he).1, nd.sublist (List.filter_sublist.map _), ?_, us, fun he => ?_⟩
      · intro e he hv
        rcases ii e he hv with h' | h'
        · exact Or.inl (Or.inl h')
        · by_cases hfd : (s.datas e).fd = fd
          · have := sk_nodup nd (hfd ▸ h') (sk_mem hl)
            have hd1 : h = ⟨some d, true⟩ := hd1
            rw [hd1] at this
            cases this
            exact Or.inl (Or.inr rfl)
          · exact Or.inr (List.mem_filter.2 ⟨h', by simpa using hfd⟩)
      · simp only [en he, List.filter_nil]
    have hlt : ∀ d', h.data = some d' → d' < s.next := fun d' hd' => by
      have hd1 : h = ⟨some d, true⟩ := hd1
      rw [hd1] at hd'; cases hd'; exact hd2
    obtain ⟨h1, h2, h3⟩ := destruct_inv I1 hlt
    have h3 := h3 (by have hd1 : h = ⟨some d, true⟩ := hd1; rw [hd1]) d (by have hd1 : h = ⟨some d, true⟩ := hd1; rw [hd1])
    refine ⟨?_, h2.nx, h2.ha, h2.ma, h2.fd, h2.va, h2.ee⟩
    refine ⟨h1.lf, h1.ow, h1.mp, h1.nd, fun e he hv => ?_, h1.us, h1.en⟩
    rcases h1.ii e he hv with (h' | h') | h'
    · exact Or.inl h'
    · subst h'; rw [h3] at hv; cases hv
    · exact Or.inr h'

theorem close_inv {ex tr s h} (I : SkInv ex tr s) (hd : ∀ d, h.data = some d → d < s.next) :
    SkInv ex (tr ++ (s.close h).1) (s.close h).2 ∧ (s.close h).2.next = s.next ∧ (s.close h).2.handles = s.handles ∧
      (∀ d, ((s.close h).2.datas d).fd = (s.datas d).fd) ∧
      (∀ d, ((s.close h).2.datas d).valid = true → (s.datas d).valid = true) ∧ (s.close h).2.ended = s.ended ∧
      (∀ d, h.data = some d → ((s.close h).2.datas d).valid = false) := by
  unfold SkSt.close
  cases hh : h.data with
  | none => exact ⟨by simpa using I, rfl, rfl, fun _ => rfl, fun _ h => h, rfl, fun d h => by cases h⟩
  | some d =>
    dsimp only
    split
    · rename_i hv
      obtain ⟨h1, h2, h3⟩ := shut_inv I (hd d hh) hv
      obtain ⟨e1, e2, e3, e4, e5, e6, e7⟩ := erase_inv (fd := (s.datas d).fd) h1
      rw [← List.append_assoc]
      refine ⟨e1, e2.trans h2.nx, e3.trans h2.ha, fun x => (e5 x).trans (h2.fd x), fun x hx => h2.va x (e6 x hx), e7.trans h2.ee, ?_⟩
      intro x hx
      cases hx
      cases hc : (((s.shut d).2.erase (s.datas d).fd).2.datas d).valid with
      | false => rfl
      | true => rw [e6 d hc] at h3; cases h3
    · rename_i hv
      refine ⟨by simpa using I, rfl, rfl, fun _ => rfl, fun _ h => h, rfl, fun x hx => ?_⟩
      cases hx; simpa using hv

theorem adopt_inv {tr s fd added} (I : SkInv (fun _ => False) tr s) (ho : s.owner fd = none) (he : s.ended = false) :
    SkInv (fun _ => False) (tr ++ (s.adopt fd added).1) (s.adopt fd added).2 ∧ s.next < (s.adopt fd added).2.next ∧
      (s.adopt fd added).2.handles = s.handles ∧ (s.adopt fd added).2.ended = false ∧
      ((s.adopt fd added).2.map.lookup fd).isSome = true := by
  unfold SkSt.adopt
  dsimp only
  generalize hs1 : ({ s.setData s.next ⟨fd, true, false⟩ with
    next := s.next + 1, owner := fun x => if x = fd then some s.next else s.owner x } : SkSt) = s1
  have I1 : SkInv (fun e => e = s.next) (tr ++ [.opened s.next fd]) s1 := by
    obtain ⟨lf, ow, mp, nd, ii, us, en⟩ := I
    subst hs1
    refine ⟨?_, ?_, ?_, nd, ?_, ?_, en⟩
    · intro d
      rw [life_append, lf]
      simp only [List.foldl_cons, List.foldl_nil, Life.see, SkSt.setData]
      by_cases hd : s.next = d
      · subst hd; simp
      · have hd' : d ≠ s.next := fun h => hd h.symm
        simp only [hd, hd', if_false]
        by_cases hlt : d < s.next
        · simp [hlt, Nat.lt_succ_of_lt hlt]
        · have : ¬ d < s.next + 1 := by omega
          simp [hlt, this]
    · intro x d
      simp only [SkSt.setData]
      by_cases hd : d = s.next
      · subst hd
        simp only [if_true, Nat.lt_succ_self, true_and]
        split
        · rename_i hx; simp [hx]
        · rename_i hx
          constructor
          · intro h; have := ((ow _ _).1 h).1; omega
          · intro h; exact absurd h.symm hx
      · simp only [hd, if_false]
        split
        · rename_i hx
          subst hx
          constructor
          · intro h; cases h; exact absurd rfl hd
          · rintro ⟨h1, h2, h3⟩
            have : s.owner x = some d := (ow _ _).2 ⟨by omega, h2, h3⟩
            rw [ho] at this; cases this
        · rw [ow]; constructor
          · rintro ⟨h1, h2, h3⟩; exact ⟨by omega, h2, h3⟩
          · rintro ⟨h1, h2, h3⟩; exact ⟨by omega, h2, h3⟩
    · intro e he
      obtain ⟨d, h1, h2, h3⟩ := mp e he
      refine ⟨d, h1, Nat.lt_succ_of_lt h2, ?_⟩
      simp only [SkSt.setData]
      rw [if_neg (by omega)]; exact h3
    · intro d hd hv
      simp only [SkSt.setData] at hv ⊢
      by_cases hn : d = s.next
      · exact Or.inl hn
      · simp only [hn, if_false] at hv ⊢
        have hd' : d < s.next + 1 := hd
        rcases ii d (by omega) hv with h | h
        · exact h.elim
        · exact Or.inr h
    · intro i h hh
      obtain ⟨h1, h2⟩ := us i h hh
      exact ⟨h1, fun d hd => Nat.lt_succ_of_lt (h2 d hd)⟩
  have hn1 : s1.next = s.next + 1 := by subst hs1; rfl
  have hh1 : s1.handles = s.handles := by subst hs1; rfl
  have he1 : s1.ended = false := by subst hs1; exact he
  have hf1 : (s1.datas s.next).fd = fd := by subst hs1; simp [SkSt.setData]
  clear I hs1
  -- after the constructor
  obtain ⟨x, hx⟩ : ∃ x, x = if added = true then ([], s1) else s1.close ⟨some s.next, true⟩ := ⟨_, rfl⟩
  rw [← hx]
  have Ix : SkInv (fun e => e = s.next) (tr ++ [.opened s.next fd] ++ x.1) x.2 ∧ x.2.next = s.next + 1 ∧ x.2.handles = s.handles ∧
      x.2.ended = false ∧ (x.2.datas s.next).fd = fd := by
    cases added with
    | true => simp only [if_true] at hx; subst hx; exact ⟨by simpa using I1, hn1, hh1, he1, hf1⟩
    | false =>
      simp only [Bool.false_eq_true, if_false] at hx; subst hx
      obtain ⟨c1, c2, c3, c4, c5, c6, c7⟩ := close_inv I1 (h := ⟨some s.next, true⟩) (by intro d hd; cases hd; omega)
      exact ⟨c1, c2.trans hn1, c3.trans hh1, c6.trans he1, (c4 _).trans hf1⟩
  clear hx I1
  obtain ⟨Ix, hn, hh, hen, hf⟩ := Ix
  have asc : ∀ l : List SEvent, tr ++ SEvent.opened s.next fd :: (x.1 ++ l) = tr ++ [.opened s.next fd] ++ x.1 ++ l := by intro l; simp
  rw [asc]
  split
  · rename_i hl
    obtain ⟨d1, d2, d3⟩ := destruct_inv Ix (h := ⟨some s.next, true⟩) (by intro d hd; cases hd; omega)
    have d3 := d3 rfl s.next rfl
    refine ⟨⟨d1.lf, d1.ow, d1.mp, d1.nd, fun e he hv => ?_, d1.us, d1.en⟩, by rw [d2.nx, hn]; omega, d2.ha.trans hh, d2.ee.trans hen, by rw [d2.ma]; exact hl⟩
    rcases d1.ii e he hv with h' | h'
    · subst h'; rw [d3] at hv; cases hv
    · exact Or.inr h'
  · rename_i hl
    refine ⟨?_, by dsimp only; rw [hn]; omega, hh, hen, by simp [List.lookup_cons]⟩
    rw [List.append_nil]
    have hl : x.2.map.lookup fd = none := by cases h : x.2.map.lookup fd with | none => rfl | some _ => simp [h] at hl
    refine ⟨Ix.lf, Ix.ow, ?_, ?_, ?_, Ix.us, fun h => by rw [hen] at h; cases h⟩
    · intro e he
      rcases List.mem_cons.1 he with rfl | he
      · exact ⟨s.next, rfl, by dsimp only; omega, hf⟩
      · exact Ix.mp e he
    · simp only [List.map_cons, List.nodup_cons]
      refine ⟨fun hm => ?_, Ix.nd⟩
      obtain ⟨e, he1, he2⟩ := List.mem_map.1 hm
      obtain ⟨a, b⟩ := e
      dsimp only at he2
      subst he2
      exact sk_none hl b he1
    · intro e he hv
      rcases Ix.ii e he hv with h' | h'
      · subst h'; rw [hf]; exact Or.inr (by simp)
      · exact Or.inr (List.mem_cons_of_mem _ h')

theorem clear_inv {ex} : ∀ (l : List (Nat × Handle)) {tr s}, SkInv ex tr s → (∀ e ∈ l, ∀ d, e.2.data = some d → d < s.next) →
    SkInv ex (tr ++ (s.clear l).1) (s.clear l).2 ∧ SkLe s (s.clear l).2 ∧
      ∀ e ∈ l, e.2.original = true → ∀ d, e.2.data = some d → ((s.clear l).2.datas d).valid = false := by
  intro l
  induction l with
  | nil => intro tr s I _; exact ⟨by simpa [SkSt.clear] using I, SkLe.rfl s, by simp⟩
  | cons e l ih =>
    intro tr s I hl
    obtain ⟨k, h⟩ := e
    obtain ⟨d1, d2, d3⟩ := destruct_inv I (h := h) (hl (k, h) (by simp))
    obtain ⟨c1, c2, c3⟩ := ih d1 (fun e he d hd => by rw [d2.nx]; exact hl e (List.mem_cons_of_mem _ he) d hd)
    simp only [SkSt.clear]
    rw [← List.append_assoc]
    refine ⟨c1, d2.trans c2, ?_⟩
    intro e he ho d hd
    rcases List.mem_cons.1 he with rfl | he
    · have := d3 ho d hd
      cases hc : (((s.destruct h).2.clear l).2.datas d).valid with
      | false => rfl
      | true => rw [c2.va d hc] at this; cases this
    · exact c3 e he ho d hd

theorem put_inv {ex tr s i x} (I : SkInv ex tr s) (hx : ∀ h, x = some h → h.original = false ∧ ∀ d, h.data = some d → d < s.next) :
    SkInv ex tr (s.put i x) := by
  obtain ⟨lf, ow, mp, nd, ii, us, en⟩ := I
  refine ⟨lf, ow, mp, nd, ii, ?_, en⟩
  intro j h hj
  simp only [SkSt.put] at hj
  split at hj
  · exact hx h hj
  · exact us j h hj

theorem sk_io {ex tr s d} (I : SkInv ex tr s) (hd : d < s.next) (hv : (s.datas d).valid = true) :
    SkInv ex (tr ++ [.io d (s.datas d).fd (s.owner (s.datas d).fd)]) s := by
  obtain ⟨lf, ow, mp, nd, ii, us, en⟩ := I
  refine ⟨?_, ow, mp, nd, ii, us, en⟩
  intro e
  have howner : s.owner (s.datas d).fd = some d := (ow _ _).2 ⟨hd, hv, rfl⟩
  rw [life_append, lf]
  simp only [List.foldl_cons, List.foldl_nil, Life.see, howner]
  by_cases he : d = e
  · subst he; simp [hd, hv]
  · simp [he]

theorem skStep_inv {tr s o es v s'} (I : SkInv (fun _ => False) tr s) (h : skStep o s = some (es, v, s')) :
    SkInv (fun _ => False) (tr ++ es) s' := by
  unfold skStep at h
  cases o with
  | accept fd added =>
    dsimp only at h
    split at h
    · rename_i hc
      cases h
      exact (adopt_inv I hc.2 hc.1).1
    · cases h
  | connect fd added i =>
    dsimp only at h
    split at h
    · rename_i hc
      have A := adopt_inv (added := added) I hc.2.1 hc.1
      split at h
      · rename_i g hg
        cases h
        refine put_inv A.1 ?_
        intro x hx
        cases hx
        obtain ⟨d, h1, h2, _⟩ := A.1.mp _ (sk_mem hg)
        have h1 : g = ⟨some d, true⟩ := h1
        exact ⟨rfl, fun d' hd' => by rw [h1] at hd'; cases hd'; exact h2⟩
      · cases h
    · cases h
  | poll fd i =>
    dsimp only at h
    split at h
    · split at h
      · rename_i g hg
        cases h
        rw [List.append_nil]
        refine put_inv I ?_
        intro x hx
        cases hx
        obtain ⟨d, h1, h2, _⟩ := I.mp _ (sk_mem hg)
        have h1 : g = ⟨some d, true⟩ := h1
        exact ⟨rfl, fun d' hd' => by rw [h1] at hd'; cases hd'; exact h2⟩
      · cases h
    · cases h
  | hangup fd =>
    dsimp only at h
    split at h
    · rename_i d _ _
      split at h
      · cases h
        rw [List.append_nil]
        obtain ⟨lf, ow, mp, nd, ii, us, en⟩ := I
        have k1 : ∀ e, ((s.setData d { s.datas d with closing := true }).datas e).fd = (s.datas e).fd := by
          intro e; simp only [SkSt.setData]; split
          · rename_i hh; rw [hh]
          · rfl
        have k2 : ∀ e, ((s.setData d { s.datas d with closing := true }).datas e).valid = (s.datas e).valid := by
          intro e; simp only [SkSt.setData]; split
          · rename_i hh; rw [hh]
          · rfl
        refine ⟨?_, ?_, ?_, nd, ?_, us, en⟩
        · intro e; rw [k1, k2]; exact lf e
        · intro x e; rw [k1, k2]; exact ow x e
        · intro e he; obtain ⟨d', h1, h2, h3⟩ := mp e he; exact ⟨d', h1, h2, by rw [k1]; exact h3⟩
        · intro e he hv; rw [k2] at hv; rw [k1]; exact ii e he hv
      · cases h
    · cases h
  | default i =>
    dsimp only at h
    split at h
    · cases h
      rw [List.append_nil]
      exact put_inv I (by intro x hx; cases hx; exact ⟨rfl, by intro d hd; cases hd⟩)
    · cases h
  | copy i j =>
    dsimp only at h
    split at h
    · rename_i x hx
      cases h
      rw [List.append_nil]
      exact put_inv I (by intro y hy; cases hy; exact ⟨rfl, (I.us _ _ hx).2⟩)
    · cases h
  | assign i j =>
    dsimp only at h
    split at h
    · rename_i _ x _ hx
      cases h
      rw [List.append_nil]
      exact put_inv I (by intro y hy; cases hy; exact ⟨rfl, (I.us _ _ hx).2⟩)
    · cases h
  | move i j =>
    dsimp only at h
    split at h
    · rename_i x hx
      cases h
      rw [List.append_nil]
      refine put_inv (put_inv I ?_) ?_
      · intro y hy; cases hy; exact I.us _ _ hx
      · intro y hy; cases hy; exact ⟨rfl, (I.us _ _ hx).2⟩
    · cases h
  | drop i =>
    dsimp only at h
    split at h
    · rename_i x hx
      cases h
      exact put_inv (destruct_inv I (I.us _ _ hx).2).1 (by intro y hy; cases hy)
    · cases h
  | close i =>
    dsimp only at h
    split at h
    · rename_i x hx
      cases h
      exact (close_inv I (I.us _ _ hx).2).1
    · cases h
  | read i a =>
    dsimp only at h
    split at h
    · rename_i x hx
      split at h
      · rename_i d hd
        have hlt := (I.us _ _ hx).2 d hd
        split at h
        · rename_i hv
          have J := sk_io I hlt hv
          have C := close_inv J (I.us _ _ hx).2
          split at h
          · cases h; exact J
          · cases h
            have := C.1
            rw [List.append_assoc] at this; exact this
          · split at h
            · cases h
              have := C.1
              rw [List.append_assoc] at this; exact this
            · cases h; exact J
        · cases h; rw [List.append_nil]; exact I
      · cases h; rw [List.append_nil]; exact I
    · cases h
  | write i a =>
    dsimp only at h
    split at h
    · rename_i x hx
      split at h
      · rename_i d hd
        have hlt := (I.us _ _ hx).2 d hd
        split at h
        · rename_i hv
          simp only [Bool.and_eq_true] at hv
          have J := sk_io I hlt hv.1
          have C := close_inv J (I.us _ _ hx).2
          split at h
          · cases h; exact J
          · cases h
            have := C.1
            rw [List.append_assoc] at this; exact this
          · cases h; exact J
        · cases h; rw [List.append_nil]; exact I
      · cases h; rw [List.append_nil]; exact I
    · cases h
  | finish =>
    dsimp only at h
    split at h
    · rename_i he
      cases h
      obtain ⟨c1, c2, c3⟩ := clear_inv s.map I (fun e hm d hd => by
        obtain ⟨d', h1, h2, _⟩ := I.mp e hm
        rw [h1] at hd; cases hd; exact h2)
      refine ⟨c1.lf, c1.ow, by simp, by simp, ?_, c1.us, fun _ => rfl⟩
      intro d hd hv
      exfalso
      rcases c1.ii d hd hv with h' | h'
      · exact h'
      · rw [c2.ma] at h'
        have := c3 _ h' rfl d rfl
        rw [this] at hv; cases hv
    · cases h

theorem live_data {ex tr s c fd} (I : SkInv ex tr s) (h : life c tr = .live fd) : (s.datas c).valid = true ∧ fd = (s.datas c).fd := by
  rw [I.lf] at h
  split at h
  · split at h
    · cases h; exact ⟨by assumption, rfl⟩
    · cases h
  · cases h

/-! ### hanging up -/

theorem shut_closing (s : SkSt) (d c) : ((s.shut d).2.datas c).closing = (s.datas c).closing := by
  simp only [SkSt.shut, SkSt.setData]
  split
  · rename_i h; subst h; rfl
  · rfl
theorem destruct_closing (s : SkSt) (h c) : ((s.destruct h).2.datas c).closing = (s.datas c).closing := by
  unfold SkSt.destruct
  split
  · split
    · exact shut_closing ..
    · rfl
  · rfl
theorem erase_closing (s : SkSt) (fd c) : ((s.erase fd).2.datas c).closing = (s.datas c).closing := by
  unfold SkSt.erase
  split
  · rfl
  · exact destruct_closing ..
theorem skClose_closing (s : SkSt) (h c) : ((s.close h).2.datas c).closing = (s.datas c).closing := by
  unfold SkSt.close
  split
  · split
    · exact (erase_closing ..).trans (shut_closing ..)
    · rfl
  · rfl
theorem clear_closing : ∀ (l) (s : SkSt) (c), ((s.clear l).2.datas c).closing = (s.datas c).closing
  | [], s, c => rfl
  | (_, h) :: l, s, c => by
    simp only [SkSt.clear]
    exact (clear_closing l _ c).trans (destruct_closing ..)
theorem shut_next (s : SkSt) (d) : (s.shut d).2.next = s.next := rfl
theorem destruct_next (s : SkSt) (h) : (s.destruct h).2.next = s.next := by
  unfold SkSt.destruct
  repeat' split
  all_goals rfl
theorem erase_next (s : SkSt) (fd) : (s.erase fd).2.next = s.next := by
  unfold SkSt.erase
  split
  · rfl
  · exact destruct_next ..
theorem close_next (s : SkSt) (h) : (s.close h).2.next = s.next := by
  unfold SkSt.close
  split
  · split
    · exact (erase_next ..).trans (shut_next ..)
    · rfl
  · rfl
theorem clear_next : ∀ (l) (s : SkSt), (s.clear l).2.next = s.next
  | [], s => rfl
  | (_, h) :: l, s => by
    simp only [SkSt.clear]
    exact (clear_next l _).trans (destruct_next ..)

theorem adopt_closing (s : SkSt) (fd added c) : ((s.adopt fd added).2.datas c).closing = (if c = s.next then false else (s.datas c).closing) ∧
    (s.adopt fd added).2.next = s.next + 1 := by
  have e : ∀ x : SkSt, ((if (x.map.lookup fd).isSome then x.destruct ⟨some s.next, true⟩ else ([], { x with map := (fd, ⟨some s.next, true⟩) :: x.map })).2.datas c).closing =
      (x.datas c).closing ∧ (if (x.map.lookup fd).isSome then x.destruct ⟨some s.next, true⟩ else ([], { x with map := (fd, ⟨some s.next, true⟩) :: x.map })).2.next = x.next := by
    intro x; split
    · exact ⟨destruct_closing .., destruct_next ..⟩
    · exact ⟨rfl, rfl⟩
  simp only [SkSt.adopt]
  refine ⟨(e _).1.trans ?_, (e _).2.trans ?_⟩
  · split
    · simp only [SkSt.setData]; split <;> rfl
    · refine (skClose_closing ..).trans ?_
      simp only [SkSt.setData]; split <;> rfl
  · split
    · rfl
    · exact close_next ..

theorem skStep_closing {tr s o es v s'} (I : SkInv (fun _ => False) tr s) (h : skStep o s = some (es, v, s')) :
    (∀ c, ¬ c < s.next → c < s'.next → (s'.datas c).closing = false) ∧
    (∀ c, c < s.next → (s'.datas c).closing = (s.datas c).closing ∨ (o = .hangup (s.datas c).fd ∧ (s'.datas c).closing = true)) := by
  have same : s'.next = s.next → (∀ c, (s'.datas c).closing = (s.datas c).closing) → _ :=
    fun h1 h2 => (⟨fun c k1 k2 => absurd (h1 ▸ k2) k1, fun c _ => Or.inl (h2 c)⟩ :
      (∀ c, ¬ c < s.next → c < s'.next → (s'.datas c).closing = false) ∧
      (∀ c, c < s.next → (s'.datas c).closing = (s.datas c).closing ∨ (o = .hangup (s.datas c).fd ∧ (s'.datas c).closing = true)))
  have ad : ∀ fd added, s'.next = (s.adopt fd added).2.next → s'.datas = (s.adopt fd added).2.datas → 
      (∀ c, ¬ c < s.next → c < s'.next → (s'.datas c).closing = false) ∧
      (∀ c, c < s.next → (s'.datas c).closing = (s.datas c).closing ∨ (o = .hangup (s.datas c).fd ∧ (s'.datas c).closing = true)) := by
    intro fd added h1 h2
    have hc := fun c => adopt_closing s fd added c
    refine ⟨fun c k1 k2 => ?_, fun c k => Or.inl ?_⟩
    · rw [h1, (hc 0).2] at k2
      rw [h2, (hc c).1, if_pos (by omega)]
    · rw [h2, (hc c).1, if_neg (by omega)]
  unfold skStep at h
  cases o <;> dsimp only at h
  case hangup fd =>
    split at h
    · rename_i d b hl
      split at h
      · cases h
        refine ⟨fun c k1 k2 => absurd k2 k1, fun c _ => ?_⟩
        by_cases hcd : c = d
        · right
          obtain ⟨d', e1, _, e2⟩ := I.mp _ (sk_mem hl)
          cases e1
          subst hcd
          exact ⟨by rw [e2], by simp [SkSt.setData]⟩
        · left; simp [SkSt.setData, hcd]
      · cases h
    · cases h
  all_goals
    repeat' split at h
    all_goals first
      | (cases h; done)
      | (cases h; exact same rfl (fun _ => rfl))
      | (cases h; exact same (close_next ..) (fun _ => skClose_closing ..))
      | (cases h; exact same (destruct_next ..) (fun _ => destruct_closing ..))
      | (cases h; exact same (clear_next ..) (fun _ => clear_closing ..))
      | (cases h; exact ad _ _ rfl rfl)

theorem skInit_inv : SkInv (fun _ => False) [] skInit := by
  constructor <;> simp [skInit, life]

theorem skRun_inv {tr s} (h : SkRun skInit tr s) : SkInv (fun _ => False) tr s := by
  induction h with
  | refl => exact skInit_inv
  | step _ o h ih => exact skStep_inv ih h

/-! ### Without failures of the poll set the map has live connections only -/

theorem SkRunF.run {s tr s'} (h : SkRunF s tr s') : SkRun s tr s' := by
  induction h with
  | refl => exact .refl _
  | step _ o _ h ih => exact .step ih o h

def Lively (s : SkSt) : Prop := ∀ e ∈ s.map, ∀ d, e.2.data = some d → (s.datas d).valid = true

theorem destruct_user {s : SkSt} {h : Handle} (ho : h.original = false) : s.destruct h = ([], s) := by
  unfold SkSt.destruct
  cases h.data with
  | none => rfl
  | some d => dsimp only; rw [ho]; rfl

theorem close_lively {tr s h} (I : SkInv (fun _ => False) tr s) (L : Lively s) (hd : ∀ d, h.data = some d → d < s.next) :
    Lively (s.close h).2 := by
  unfold SkSt.close
  cases hh : h.data with
  | none => exact L
  | some d =>
    dsimp only
    split
    · rename_i hv
      have hin := (I.ii d (hd d hh) hv).elim (fun h => h.elim) id
      obtain ⟨h1, h2, h3⟩ := shut_inv I (hd d hh) hv
      obtain ⟨e1, e2, e3, e4, e5, e6, e7⟩ := erase_inv (fd := (s.datas d).fd) h1
      intro e he d' hd'
      rw [e4, h2.ma] at he
      obtain ⟨he1, he2⟩ := List.mem_filter.1 he
      have hne : e.1 ≠ (s.datas d).fd := by simpa using he2
      obtain ⟨d'', g1, g2, g3⟩ := I.mp e he1
      rw [g1] at hd'; cases hd'
      have hdd : d' ≠ d := by rintro rfl; exact hne g3.symm
      have hv' := L e he1 d' (by rw [g1])
      -- neither the closing nor the erasing concerns d'
      have k1 : ((s.shut d).2.datas d').valid = true := by
        simp only [SkSt.shut, SkSt.setData, if_neg hdd]; exact hv'
      have k2 : (s.shut d).2.map.lookup (s.datas d).fd = some ⟨some d, true⟩ := by
        rw [h2.ma]
        cases hl : s.map.lookup (s.datas d).fd with
        | none => exact absurd hin (sk_none hl _)
        | some g => rw [sk_nodup I.nd (sk_mem hl) hin]
      unfold SkSt.erase
      rw [k2]
      simp only [SkSt.destruct, h3, Bool.and_false, Bool.false_eq_true, if_false]
      exact k1
    · exact L

theorem adopt_fine {tr s fd} (I : SkInv (fun _ => False) tr s) (L : Lively s) (ho : s.owner fd = none) :
    (s.adopt fd true).1 = [.opened s.next fd] ∧ (s.adopt fd true).2.map = (fd, ⟨some s.next, true⟩) :: s.map ∧
    Lively (s.adopt fd true).2 ∧ ((s.adopt fd true).2.datas s.next).valid = true ∧ ((s.adopt fd true).2.datas s.next).fd = fd := by
  have hl : s.map.lookup fd = none := by
    cases hl : s.map.lookup fd with
    | none => rfl
    | some h =>
      exfalso
      have hm := sk_mem hl
      obtain ⟨d, h1, h2, h3⟩ := I.mp _ hm
      have hv := L _ hm d (by rw [h1])
      have := (I.ow fd d).2 ⟨h2, hv, h3⟩
      rw [ho] at this; cases this
  unfold SkSt.adopt
  simp only [if_true, SkSt.setData, hl, Option.isSome_none, Bool.false_eq_true, if_false, List.append_nil, true_and]
  refine ⟨?_, trivial⟩
  intro e he d hd
  dsimp only at he ⊢
  rcases List.mem_cons.1 he with rfl | he
  · cases hd; simp
  · obtain ⟨d', h1, h2, h3⟩ := I.mp e he
    rw [h1] at hd; cases hd
    rw [if_neg (by omega)]
    exact L e he d (by rw [h1])

theorem skStep_lively {tr s o es v s'} (I : SkInv (fun _ => False) tr s) (L : Lively s) (ho : o.fine)
    (h : skStep o s = some (es, v, s')) : Lively s' := by
  unfold skStep at h
  cases o with
  | accept fd added =>
    cases (ho : added = true)
    dsimp only at h
    split at h
    · rename_i hc
      cases h
      exact (adopt_fine I L hc.2).2.2.1
    · cases h
  | connect fd added i =>
    cases (ho : added = true)
    dsimp only at h
    split at h
    · rename_i hc
      split at h
      · cases h; exact (adopt_fine I L hc.2.1).2.2.1
      · cases h
    · cases h
  | hangup fd =>
    dsimp only at h
    split at h
    · split at h
      · cases h
        intro e he d hd
        simp only [SkSt.setData]
        have := L e he d hd
        split
        · rename_i hh; subst hh; exact this
        · exact this
      · cases h
    · cases h
  | drop i =>
    dsimp only at h
    split at h
    · rename_i x hx
      rw [destruct_user (I.us _ _ hx).1] at h
      cases h; exact L
    · cases h
  | close i =>
    dsimp only at h
    split at h
    · rename_i x hx
      cases h
      exact close_lively I L (I.us _ _ hx).2
    · cases h
  | read i a =>
    dsimp only at h
    split at h
    · rename_i x hx
      have C := close_lively I L (I.us _ _ hx).2
      repeat' split at h
      all_goals first
        | (cases h; exact L)
        | (cases h; exact C)
    · cases h
  | write i a =>
    dsimp only at h
    split at h
    · rename_i x hx
      have C := close_lively I L (I.us _ _ hx).2
      repeat' split at h
      all_goals first
        | (cases h; exact L)
        | (cases h; exact C)
    · cases h
  | finish =>
    dsimp only at h
    split at h
    · cases h; intro e he; cases he
    · cases h
  | poll fd i => 
    dsimp only at h
    repeat' split at h
    all_goals first
      | (cases h; done)
      | (cases h; exact L)
  | default i => 
    dsimp only at h
    repeat' split at h
    all_goals first
      | (cases h; done)
      | (cases h; exact L)
  | copy i j => 
    dsimp only at h
    repeat' split at h
    all_goals first
      | (cases h; done)
      | (cases h; exact L)
  | assign i j => 
    dsimp only at h
    repeat' split at h
    all_goals first
      | (cases h; done)
      | (cases h; exact L)
  | move i j => 
    dsimp only at h
    repeat' split at h
    all_goals first
      | (cases h; done)
      | (cases h; exact L)

theorem skRun_lively {tr s} (h : SkRunF skInit tr s) : Lively s := by
  induction h with
  | refl => intro e he; cases he
  | step hr o ho h ih => exact skStep_lively (skRun_inv hr.run) ih ho h

end Fcgi.Model
