import Verif.Lemmas.AtofLoop
/-! # C132: reading a decimal fraction (`Http::atof`) -/
namespace Fcgi.Props
open Fcgi Fcgi.Spec Fcgi.Model

theorem atof_cons {c v after} (h : c ≠ 45) : atof (c :: v) after = (atofLoop (c :: v ++ after) (c :: v).length (some 0) (some 0)).bind fun r => .ok (false, toFlt r) := by
  simp only [atof, List.cons_append, rd, List.getElem?_cons_zero]
  rw [if_neg (by simp)]
  show (if c = 45 then _ else _) = _
  rw [if_neg h]; rfl

theorem atof_minus {v after} : atof (45 :: v) after = (atofLoop (v ++ after) v.length (some 0) (some 0)).bind fun r => .ok (true, toFlt r) := by
  simp only [atof, List.cons_append, rd, List.getElem?_cons_zero]
  rw [if_neg (by simp)]
  rfl

/-- **C132** (bounds): whatever the characters of the range, `atof` returns, and what follows the range in memory is neither read nor of influence (with nothing
at all after the range an access there would be undefined). -/
theorem C132_bounds (value after : List Nat) : ∃ x, atof value after = .ok x ∧ atof value [] = .ok x := by
  cases value with
  | nil => exact ⟨(false, some 0), rfl, rfl⟩
  | cons c v =>
    by_cases h : c = 45
    · subst h
      obtain ⟨x, h1, h2⟩ := atofLoop_bounds v after (some 0) (some 0)
      refine ⟨(true, toFlt x), ?_, ?_⟩
      · rw [atof_minus, h1]; rfl
      · rw [atof_minus, List.append_nil, h2]; rfl
    · obtain ⟨x, h1, h2⟩ := atofLoop_bounds (c :: v) after (some 0) (some 0)
      refine ⟨(false, toFlt x), ?_, ?_⟩
      · rw [atof_cons h, h1]; rfl
      · rw [atof_cons h, List.append_nil, h2]; rfl

/-- **C132** (end): the number ends before the first character that is no digit, no point and no minus sign in front; what comes after has no influence. -/
theorem C132_stops (v rest after : List Nat) (c : Nat) (h1 : ¬ IsDigitCode c) (h2 : c ≠ 46) (h3 : v = [] → c ≠ 45) :
    atof (v ++ c :: rest) after = atof v [] := by
  cases v with
  | nil =>
    rw [List.nil_append, atof_cons (h3 rfl), List.cons_append, List.length_cons, atofLoop_stop h1 h2]
    decide +kernel
  | cons d v =>
    by_cases h : d = 45
    · subst h
      rw [List.cons_append, atof_minus, atof_minus, List.append_nil, ← atofLoop_cut (v := v) (rest := rest) (after := after) h1 h2]
    · rw [List.cons_append, atof_cons h, atof_cons h, List.append_nil, ← atofLoop_cut (v := d :: v) (rest := rest) (after := after) h1 h2]
      rfl

/-- **C132** (sign): a minus sign in front negates. -/
theorem C132_sign (v after : List Nat) (h : v.head? ≠ some 45) : ∃ x, atof v after = .ok (false, x) ∧ atof (45 :: v) after = .ok (true, x) := by
  cases v with
  | nil =>
    refine ⟨some 0, rfl, ?_⟩
    rw [atof_minus, atofLoop_rest (by simp)]
    decide +kernel
  | cons c v =>
    obtain ⟨x, h1, -⟩ := atofLoop_bounds (c :: v) after (some 0) (some 0)
    refine ⟨toFlt x, ?_, ?_⟩
    · rw [atof_cons (by simpa using h), h1]; rfl
    · rw [atof_minus, h1]; rfl

/-- **C132** (integers): digits denoting a number below 2^53 (with a text after them that neither starts with a digit nor with a point) are read as the `float`
nearest to it. Values are in units of 2^-1074; `dblOne` is 1. -/
theorem C132_integer (a rest after : List Nat) (ha : ∀ c ∈ a, IsDigitCode c) (h0 : a ≠ []) (hn : decimalOf a < 2^53)
    (hrest : ∀ c ∈ rest.head?, ¬ IsDigitCode c ∧ c ≠ 46) :
    ∃ x, atof (a ++ rest) after = .ok (false, some x) ∧ Nearest 24 925 (decimalOf a * dblOne) 1 x := by
  obtain ⟨c, v, rfl⟩ : ∃ c v, a = c :: v := by cases a with
    | nil => exact absurd rfl h0
    | cons c v => exact ⟨c, v, rfl⟩
  have hc := ha c (by simp)
  have h1 := atofLoop_exact (l := rest ++ after) (k := rest.length) (n := 0) ha hn
  rw [atofLoop_rest hrest, Nat.zero_mul] at h1
  obtain ⟨x, hx, hw⟩ := toFlt_some (r := decimalOf (c :: v) * dblOne) (Nat.mul_lt_mul_of_pos_right (Nat.lt_trans hn (by decide)) dblOne_pos)
  refine ⟨x, ?_, hw⟩
  rw [List.cons_append, atof_cons (by rintro rfl; exact absurd hc (by unfold IsDigitCode; omega)), ← List.cons_append, List.length_append, List.append_assoc, h1]
  show Res.ok (false, toFlt (some (decimalOf (c :: v) * dblOne))) = _
  rw [hx]

/-- **C132** (integers, exactly): up to 2^24 the value read is the value written. -/
theorem C132_exact (a rest after : List Nat) (ha : ∀ c ∈ a, IsDigitCode c) (h0 : a ≠ []) (hn : decimalOf a ≤ 2^24)
    (hrest : ∀ c ∈ rest.head?, ¬ IsDigitCode c ∧ c ≠ 46) : atof (a ++ rest) after = .ok (false, some (decimalOf a * dblOne)) := by
  obtain ⟨x, h1, -, h2⟩ := C132_integer a rest after ha h0 (Nat.lt_of_le_of_lt hn (by decide)) hrest
  rw [h1]
  have h3 : IsFloating 24 925 (decimalOf a * dblOne) := by
    by_cases h : decimalOf a < 2^24
    · exact ⟨_, 1074, h, by decide, rfl⟩
    · refine ⟨2^23, 1075, by decide, by decide, ?_⟩
      rw [show decimalOf a = 2^24 by omega]; decide +kernel
  have h4 := h2 _ h3
  simp only [apart, Nat.mul_one] at h4
  rw [show x = decimalOf a * dblOne by omega]

/-- **C132** (fractions): digits `a`, a point and digits `b`, with at most 38 and 300 digits: the result is the `float` nearest to a number that differs from the one
written by at most `2 |a| + 2 |b| + 1` relative errors of 2^-53. Missing: longer texts, where it is false (`C132_long_violated`), and texts with more than one point
(`C132_points_violated`). -/
theorem C132_value_partial (a b rest after : List Nat) (ha : ∀ c ∈ a, IsDigitCode c) (hb : ∀ c ∈ b, IsDigitCode c) (hal : a.length ≤ 38) (hbl : b.length ≤ 300)
    (hrest : ∀ c ∈ rest.head?, ¬ IsDigitCode c ∧ c ≠ 46) :
    ∃ r x, atof (a ++ 46 :: b ++ rest) after = .ok (false, some x) ∧ Nearest 24 925 r 1 x ∧
      Within (2 * a.length + 2 * b.length + 1) r (decimalOf (a ++ b) * dblOne) (10^b.length) := by
  have hne : ∃ c v, a ++ 46 :: b ++ rest = c :: v ∧ c ≠ 45 := by
    cases a with
    | nil => exact ⟨46, b ++ rest, rfl, by decide⟩
    | cons c v => exact ⟨c, _, rfl, by rintro rfl; exact absurd (ha 45 (by simp)) (by unfold IsDigitCode; omega)⟩
  obtain ⟨r1, h1, hw1, hn1⟩ := atofLoop_int (l := 46 :: (b ++ (rest ++ after))) (k := b.length + rest.length + 1) (i := 0) (r := 0) (n := 0) ha (by omega) (by decide)
    (by rw [Nat.zero_mul]; exact within_self 0)
  obtain ⟨t, ht, htw⟩ := dblTenth_some
  obtain ⟨r2, m2, h2, hw2, hn2⟩ := atofLoop_frac (l := rest ++ after) (k := rest.length) (i := a.length) (j := 0) (r := r1) (m := t) (n := moreDigits 0 a) hb (by omega) (by omega)
    (by simpa using hn1) (within_cast hw1 (Nat.zero_add _ ▸ rfl) rfl (Nat.pow_zero _).symm |>.mono) htw
  rw [Nat.zero_add, ← moreDigits_app] at hw2 hn2
  have hlt : r2 < 2 * 10^38 * dblOne := by
    have d1 := (hw2.double (by omega)).1
    have d2 : r2 * 10^b.length < 2 * 10^38 * dblOne * 10^b.length := by
      refine Nat.lt_of_le_of_lt d1 ?_
      have d3 : moreDigits 0 (a ++ b) < 10^38 * 10^b.length := by
        refine Nat.lt_of_lt_of_le hn2 ?_
        rw [Nat.pow_add]; exact Nat.mul_le_mul_right _ (Nat.pow_le_pow_right (by decide) hal)
      have d4 := Nat.mul_lt_mul_of_pos_right d3 dblOne_pos
      have d5 : 2 * 10^38 * dblOne * 10^b.length = 2 * (10^38 * 10^b.length * dblOne) := by
        rw [Nat.mul_assoc 2, Nat.mul_assoc 2, Nat.mul_right_comm]
      rw [d5]; exact Nat.mul_lt_mul_of_pos_left d4 (by decide)
    exact Nat.lt_of_mul_lt_mul_right d2
  obtain ⟨x, hx, hxn⟩ := toFlt_some hlt
  refine ⟨r2, x, ?_, hxn, hw2⟩
  obtain ⟨c, v, hcv, hc⟩ := hne
  rw [hcv, atof_cons hc, ← hcv]
  have hl : (a ++ 46 :: b ++ rest).length = a.length + (b.length + rest.length + 1) := by simp [Nat.add_assoc]
  have ho : a ++ 46 :: b ++ rest ++ after = a ++ 46 :: (b ++ (rest ++ after)) := by simp
  rw [hl, ho, h1, atofLoop_point, ht, h2, atofLoop_rest hrest]
  show Res.ok (false, toFlt (some r2)) = _
  rw [hx]

/-! Violations and examples. The texts are `1.2.3`, `0.1` followed by 330 zeros, `3.14;`, `16777217`. -/

/-- **C132 fails**: a second point does not end the number but starts the fraction again: `1.2.3` is read as `1.5`. -/
theorem C132_points_violated : atof [49, 46, 50, 46, 51] [] = atof [49, 46, 53] [] := by decide +kernel

/-- **C132 fails**: after some 330 digits the multiplier is zero and further digits count as integer digits: `0.1` with 330 zeros after it is read as more than a million. -/
theorem C132_long_violated : ∃ x, atof ([48, 46, 49] ++ List.replicate 330 48) [] = .ok (false, some x) ∧ 1000000 * dblOne < x := by
  have : (match atof ([48, 46, 49] ++ List.replicate 330 48) [] with | .ok (false, some x) => decide (1000000 * dblOne < x) | _ => false) = true := by decide +kernel
  split at this
  · rename_i x h; exact ⟨x, h, of_decide_eq_true this⟩
  · cases this

example : (∀ c ∈ ([51] : List Nat), IsDigitCode c) ∧ (∀ c ∈ ([49, 52] : List Nat), IsDigitCode c) ∧ decimalOf ([51] ++ [49, 52]) = 314 ∧
    (∀ c ∈ ([59] : List Nat).head?, ¬ IsDigitCode c ∧ c ≠ 46) := by simp [IsDigitCode, decimalOf]
example : decimalOf [49, 54, 55, 55, 55, 50, 49, 55] = 2^24 + 1 ∧ atof [49, 54, 55, 55, 55, 50, 49, 55] [] = .ok (false, some (2^24 * dblOne)) := by decide +kernel
example : atof [45, 50, 46, 53, 59] [48] = .ok (true, some (5 * dblOne / 2)) := by decide +kernel

end Fcgi.Props
