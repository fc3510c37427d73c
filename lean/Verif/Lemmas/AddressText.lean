import Verif.Lemmas.Address
/-! # `assign` on the texts of an address -/
namespace Fcgi.Model
open Fcgi Fcgi.Spec

theorem take_of_take {l xs ys : Bytes} (h : l.take (xs ++ ys).length = xs ++ ys) : l.take xs.length = xs := by
  have : (l.take (xs ++ ys).length).take xs.length = xs := by rw [h]; simp
  rw [List.take_take, Nat.min_eq_left (by simp)] at this
  exact this

theorem padded_none {s : AddrSt} {bs : Bytes} (h : Has s bs) (hp : s.pad = none) (hl : bs.length = 16) : s.padded = bs := by
  unfold AddrSt.padded
  rw [hp]
  have := h.tk
  rw [hl, ← h.len, List.take_length] at this
  exact this

theorem padded_some {s : AddrSt} {xs ys : Bytes} (h : Has s (xs ++ ys)) (hp : s.pad = some xs.length) :
    s.padded = xs ++ List.replicate (16 - (xs.length + ys.length)) 0 ++ ys := by
  unfold AddrSt.padded
  have hw : s.write = xs.length + ys.length := by rw [h.wr]; simp
  rw [hp]
  simp only
  have hx := take_of_take h.tk
  split
  · rename_i he
    have : ys = [] := List.eq_nil_of_length_eq_zero (by omega)
    subst this
    rw [← he, hx]
    simp
  · rw [hx, hw]
    congr 1
    unfold slice
    have := h.tk
    rw [List.length_append] at this
    rw [this]
    simp

theorem assign_go {text after old : Bytes} {r : Option AddrSt} (h : go (text ++ after) text.length 0 ⟨old, 0, none, 0⟩ = .ok r) :
    assign text after old = .ok (match r with | none => List.replicate 16 0 | some s => s.padded) := by
  unfold assign
  unfold go at h
  rw [Nat.sub_zero] at h
  rw [h]
  cases r <;> rfl

theorem has_start {old : Bytes} (h : old.length = 16) (p : Option Nat) (c : UInt16) : Has ⟨old, 0, p, c⟩ [] := ⟨h, rfl, by simp⟩

theorem has_pad {s : AddrSt} {bs : Bytes} (h : Has s bs) (p : Option Nat) : Has { s with pad := p } bs := ⟨h.len, h.wr, h.tk⟩

/-- A tail at the end of the text. -/
theorem go_tail {mem t xs : Bytes} {len : Nat} (h : Tail t xs) (pre after : Bytes) (s : AddrSt) (bs : Bytes) (hm : mem = pre ++ (t ++ after))
    (hl : pre.length + t.length = len) (ha : after ≠ []) (hc : s.chunk = 0) (hs : Has s bs) (hb : bs.length + xs.length ≤ 16)
    (hp : bs.length + xs.length = 16 ∨ s.pad ≠ none) :
    ∃ s', Has s' (bs ++ xs) ∧ s'.pad = s.pad ∧ go mem len pre.length s = .ok (some s') := by
  cases h with
  | groups h => exact go_groups_end h pre after s bs hm hl hc hs hb hp
  | @quad t bs' q cs h hq =>
    simp only [List.length_append, List.length_cons] at hl hb hp ⊢
    have hcs : cs.length = 4 := by cases hq; rfl
    have h2 := groups_len h
    obtain ⟨s1, e1, e2, e3, e4⟩ := go_groups (mem := mem) (len := len) h pre (q ++ after) s bs (by simpa using hm) (by omega) hc hs (by omega)
    have := (go_quad (mem := mem) (len := len) (pre := pre ++ t ++ [58]) (after := after) (s := s1) hq (by simpa using hm) (by simp; omega) ha e2 e1).1
      (by intro hh; have := congrArg List.length hh; rw [List.length_append, List.length_nil] at this; omega) (by simp; omega)
    obtain ⟨s', f1, f2, f3⟩ := this
    refine ⟨s', by simpa using f1, by rw [f2, e3], ?_⟩
    rw [e4, ← f3]
    congr 1
    simp; omega

/-- Colons after a text that ends with `::` are passed over. -/
theorem go_colons {mem : Bytes} {len : Nat} {s : AddrSt} (hp : s.pad = some s.write) : ∀ k, (∀ i, i ≤ k → mem[len - 1 + i]? = some 58) → 0 < len →
    len + 1 + k ≤ mem.length + 1 → go mem len len s = go mem len (len + 1 + k) s := by
  have hs : ({ s with pad := some s.write } : AddrSt) = s := by rw [← hp]
  intro k
  induction k with
  | zero =>
    intro h hl hm
    have h1 := go_pad (mem := mem) (len := len) (read := len) (s := s) (by omega) (Or.inl (Nat.le_refl _)) (Or.inr (h 0 (by omega))) (Or.inr hp)
    rw [hs] at h1
    exact h1
  | succ k ih =>
    intro h hl hm
    rw [ih (fun i hi => h i (by omega)) hl (by omega)]
    have h1 := go_pad (mem := mem) (len := len) (read := len + 1 + k) (s := s) (by omega) (Or.inl (by omega))
      (Or.inr (by rw [show len + 1 + k - 1 = len - 1 + (k + 1) by omega]; exact h (k + 1) (by omega))) (Or.inr hp)
    rw [hs] at h1
    exact h1

theorem endsColons_split {after : Bytes} (h : EndsColons after) : ∃ k c more, after = List.replicate k 58 ++ c :: more ∧ c ≠ 58 := by
  induction after with
  | nil => obtain ⟨c, hc, _⟩ := h; cases hc
  | cons x l ih =>
    by_cases hx : x = 58
    · obtain ⟨c, hc, hn⟩ := h
      have hl : c ∈ l := by rcases List.mem_cons.1 hc with rfl | hc; exact absurd hx hn; exact hc
      obtain ⟨k, d, more, e, hd⟩ := ih ⟨c, hl, hn⟩
      exact ⟨k + 1, d, more, by rw [e, hx, List.replicate_succ]; rfl, hd⟩
    · exact ⟨0, x, l, rfl, hx⟩

theorem endsColons_append {after : Bytes} (h : EndsColons after) (l : Bytes) : EndsColons (l ++ after) := by
  obtain ⟨c, hc, hn⟩ := h; exact ⟨c, by simp [hc], hn⟩

theorem endsColons_ne {after : Bytes} (h : EndsColons after) : after ≠ [] := by
  obtain ⟨c, hc, _⟩ := h; intro e; rw [e] at hc; cases hc

/-- The end of a text that ends with `::`. -/
theorem go_trailing {mem pre after : Bytes} {len : Nat} {s : AddrSt} {bs : Bytes} (hm : mem = pre ++ 58 :: after) (hl : pre.length + 1 = len) (hc : EndsColons after)
    (h0 : s.chunk = 0) (hs : Has s bs) (hb : bs.length ≤ 14) (hp : s.pad = some bs.length) :
    ∃ s', Has s' (bs ++ [0, 0]) ∧ s'.pad = s.pad ∧ go mem len len s = .ok (some s') := by
  obtain ⟨k, c, more, rfl, hn⟩ := endsColons_split hc
  have hml : mem.length = len + k + 1 + more.length := by rw [hm]; simp; omega
  have h58 : ∀ i, i ≤ k → mem[len - 1 + i]? = some 58 := by
    intro i hi
    rw [show pre ++ 58 :: (List.replicate k 58 ++ c :: more) = pre ++ (List.replicate (k + 1) 58 ++ c :: more) by rw [List.replicate_succ]; rfl] at hm
    rw [hm, List.getElem?_append_right (by omega), List.getElem?_append_left (by simp; omega), List.getElem?_replicate, if_pos (by omega)]
  have hcc : mem[len + k]? = some c := by
    rw [show pre ++ 58 :: (List.replicate k 58 ++ c :: more) = (pre ++ 58 :: List.replicate k 58) ++ c :: more by simp] at hm
    rw [hm, show len + k = (pre ++ 58 :: List.replicate k 58).length by simp; omega]; exact getElem_after
  rw [go_colons (by rw [hp, hs.wr]) k h58 (by omega) (by omega)]
  obtain ⟨s', f1, f2, f3, f4⟩ := go_group (mem := mem) (len := len) (read := len + 1 + k) (s := s) (p := c) (bs := bs) (n := 0) (by omega) (Or.inl (by omega)) (by omega)
    (by rw [show len + 1 + k - 1 = len + k by omega]; exact hcc) hn hs h0 (by omega) (by omega)
  refine ⟨s', f1, f3, ?_⟩
  rw [f4, if_pos (by omega), if_neg (by rw [hp]; simp)]

theorem zeros_snoc (n : Nat) : List.replicate n (0 : Byte) ++ [0, 0] = List.replicate (n + 2) 0 := by
  rw [show n + 2 = n + 1 + 1 by omega, List.replicate_succ', List.replicate_succ']
  simp

/-- Every text of an address gives the address. -/
theorem assign_text {t a after old : Bytes} (h : AddrText t a) (hc : EndsColons after) (ho : old.length = 16) :
    assign t (after) old = .ok a := by
  have hne := endsColons_ne hc
  cases h with
  | v4 h =>
    rename_i cs
    obtain ⟨s', f1, f2, f3⟩ := (go_quad (mem := t ++ after) (len := t.length) (pre := []) (after := after) (s := ⟨old, 0, none, 0⟩) h rfl (by simp) hne rfl
      (has_start ho _ _)).2 rfl
    rw [assign_go f3]
    have hcs : cs.length = 4 := by cases h; rfl
    simp only
    rw [padded_some (xs := []) f1 f2]
    simp [hcs]
  | full h hl =>
    obtain ⟨s', f1, f2, f3⟩ := go_tail (mem := t ++ after) (len := t.length) h [] (after) ⟨old, 0, none, 0⟩ [] rfl (by simp) hne rfl (has_start ho _ _)
      (by simp; omega) (by simp; omega)
    rw [assign_go f3]
    simp only
    rw [padded_none f1 f2 (by simpa using hl)]
    rfl
  | none =>
    have e1 := go_pad (mem := [58, 58] ++ after) (len := 2) (read := 0) (s := ⟨old, 0, none, 0⟩) (by simp) (Or.inr rfl) (Or.inl rfl) (Or.inl rfl)
    have e2 := go_pad (mem := [58, 58] ++ after) (len := 2) (read := 1) (s := ⟨old, 0, some 0, 0⟩) (by simp) (Or.inr rfl) (Or.inr rfl) (Or.inr rfl)
    obtain ⟨s', f1, f2, f3⟩ := go_trailing (mem := [58, 58] ++ after) (len := 2) (pre := [58]) (after := after) (s := ⟨old, 0, some 0, 0⟩) rfl rfl hc rfl
      (has_start ho _ _) (by simp) rfl
    rw [assign_go (e1.trans (e2.trans f3))]
    simp only
    rw [padded_some (xs := []) f1 f2]
    rfl
  | @left t xs h hl =>
    obtain ⟨s1, e1, e2, e3, e4⟩ := go_groups (mem := t ++ [58, 58] ++ after) (len := (t ++ [58, 58]).length) h [] (58 :: after) ⟨old, 0, none, 0⟩ []
      (by simp) (by simp) rfl (has_start ho _ _) (by simp; omega)
    simp only [List.length_nil, List.nil_append, Nat.zero_add] at e1 e4
    have e5 := go_pad (mem := t ++ [58, 58] ++ after) (len := (t ++ [58, 58]).length) (read := t.length + 1) (s := s1) (by simp)
      (Or.inr (by rw [show t ++ [58, 58] ++ after = (t ++ [58]) ++ 58 :: (after) by simp, show t.length + 1 = (t ++ [58]).length by simp]; exact getElem_after))
      (Or.inr (by rw [show t ++ [58, 58] ++ after = t ++ 58 :: (58 :: (after)) by simp, show t.length + 1 - 1 = t.length by simp]; exact getElem_after))
      (Or.inl e3)
    obtain ⟨s', f1, f2, f3⟩ := go_trailing (mem := t ++ [58, 58] ++ after) (len := (t ++ [58, 58]).length) (pre := t ++ [58]) (after := after)
      (s := { s1 with pad := some s1.write }) (bs := xs) (by simp) (by simp) hc e2 (has_pad e1 _) hl (by simp only [e1.wr])
    rw [show t.length + 1 + 1 = (t ++ [58, 58]).length by simp] at e5
    rw [assign_go (e4.trans (e5.trans f3))]
    simp only
    rw [padded_some f1 (by rw [f2]; simp only [e1.wr]), List.append_assoc]
    congr 2
    simp only [List.length_cons, List.length_nil]
    rw [zeros_snoc]
    congr 1
    omega
  | @right t ys h hl =>
    have e1 := go_pad (mem := [58, 58] ++ t ++ after) (len := ([58, 58] ++ t).length) (read := 0) (s := ⟨old, 0, none, 0⟩) (by simp) (Or.inr rfl) (Or.inl rfl) (Or.inl rfl)
    have e2 := go_pad (mem := [58, 58] ++ t ++ after) (len := ([58, 58] ++ t).length) (read := 1) (s := ⟨old, 0, some 0, 0⟩) (by simp) (Or.inr rfl) (Or.inr rfl) (Or.inr rfl)
    obtain ⟨s', f1, f2, f3⟩ := go_tail (mem := [58, 58] ++ t ++ after) (len := ([58, 58] ++ t).length) h [58, 58] (after) ⟨old, 0, some 0, 0⟩ [] (by simp) (by simp; omega)
      hne rfl (has_start ho _ _) (by simp; omega) (Or.inr (by simp))
    rw [assign_go (e1.trans (e2.trans f3))]
    simp only
    rw [padded_some (xs := []) f1 f2]
    simp
  | @mid t xs t' ys h h' hl =>
    have key : ∀ s : AddrSt, s.chunk = 0 → Has s xs → s.pad = some xs.length →
        ∃ s', Has s' (xs ++ ys) ∧ s'.pad = s.pad ∧ go (t ++ [58, 58] ++ t' ++ after) (t ++ [58, 58] ++ t').length (t ++ [58, 58]).length s = .ok (some s') := by
      intro s h1 h2 h3
      rcases h' with h' | h'
      · exact go_tail h' (t ++ [58, 58]) (after) s xs (by simp) (by simp; omega) hne h1 h2 (by omega) (Or.inr (by rw [h3]; simp))
      · have := groups_len h
        have hcs : ys.length = 4 := by cases h'; rfl
        exact (go_quad (mem := t ++ [58, 58] ++ t' ++ after) (len := (t ++ [58, 58] ++ t').length) (pre := t ++ [58, 58]) (after := after) h' (by simp) (by simp; omega) hne h1 h2).1
          (by intro hh; rw [hh] at this; simp at this) (by omega)
    obtain ⟨s1, e1, e2, e3, e4⟩ := go_groups (mem := t ++ [58, 58] ++ t' ++ after) (len := (t ++ [58, 58] ++ t').length) h [] (58 :: (t' ++ after)) ⟨old, 0, none, 0⟩ []
      (by simp) (by simp) rfl (has_start ho _ _) (by simp; omega)
    simp only [List.length_nil, List.nil_append, Nat.zero_add] at e1 e4
    have e5 := go_pad (mem := t ++ [58, 58] ++ t' ++ after) (len := (t ++ [58, 58] ++ t').length) (read := t.length + 1) (s := s1) (by simp)
      (Or.inr (by rw [show t ++ [58, 58] ++ t' ++ after = (t ++ [58]) ++ 58 :: (t' ++ after) by simp, show t.length + 1 = (t ++ [58]).length by simp]; exact getElem_after))
      (Or.inr (by rw [show t ++ [58, 58] ++ t' ++ after = t ++ 58 :: (58 :: (t' ++ after)) by simp, show t.length + 1 - 1 = t.length by simp]; exact getElem_after))
      (Or.inl e3)
    obtain ⟨s', f1, f2, f3⟩ := key { s1 with pad := some s1.write } e2 (has_pad e1 _) (by simp only [e1.wr])
    rw [show t.length + 1 + 1 = (t ++ [58, 58]).length by simp] at e5
    rw [assign_go (e4.trans (e5.trans f3))]
    simp only
    rw [padded_some f1 (by rw [f2]; simp only [e1.wr])]

end Fcgi.Model
