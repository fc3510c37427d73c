import Verif.Lemmas.Atof
/-! # Lemmas: the loop of `atof` -/
namespace Fcgi.Model
open Fcgi Fcgi.Spec

set_option exponentiation.threshold 2000

theorem within_cast {e e' r n n' d d' : Nat} (h : Within e r n d) (he : e = e') (hn : n = n') (hd : d = d') : Within e' r n' d' := by
  subst he; subst hn; subst hd; exact h
theorem within_self (n : Nat) : Within 0 n n 1 := within_cast (Within.exact n 1) rfl (Nat.mul_one n) rfl

/-- The digits read on top of `n`. -/
def moreDigits (n : Nat) (ds : List Nat) : Nat := ds.foldl (fun n c => n * 10 + (c - 48)) n

theorem moreDigits_cons (n c : Nat) (ds : List Nat) : moreDigits n (c :: ds) = moreDigits (n * 10 + (c - 48)) ds := by
  simp only [moreDigits, List.foldl_cons]
theorem moreDigits_app (n : Nat) (a b : List Nat) : moreDigits n (a ++ b) = moreDigits (moreDigits n a) b := by
  unfold moreDigits; rw [List.foldl_append]

theorem dblOne_pos : 0 < dblOne := Nat.two_pow_pos _
theorem dblNat_small {c : Nat} (h : c ≤ 10) : dblNat c = some (c * dblOne) := by
  have : ∀ c, c < 11 → dblNat c = some (c * dblOne) := by decide +kernel
  exact this c (by omega)

theorem digit_low {c : Nat} (h : IsDigitCode c) : c % 16 = c - 48 ∧ c - 48 < 10 ∧ (0x30 ≤ c ∧ c ≤ 0x39) := by
  obtain ⟨h1, h2⟩ := h; omega

theorem dblMul_some (a b : Nat) : dblMul (some a) (some b) = toDbl (a * b) dblOne := rfl
theorem dblAdd_some (a b : Nat) : dblAdd (some a) (some b) = toDbl (a + b) 1 := rfl
theorem atofLoop_digit {c l left r m} (h : 0x30 ≤ c ∧ c ≤ 0x39) : atofLoop (c :: l) (left + 1) r m =
    if m = some 0 then atofLoop l left (dblAdd (dblMul r (dblNat 10)) (dblNat (c % 16))) m
      else atofLoop l left (dblAdd r (dblMul (dblNat (c % 16)) m)) (dblMul m dblTenth) := by
  rw [atofLoop, if_pos h]

/-- A sum or product is a finite `double` unless it is very large. -/
theorem toDbl_some {n d : Nat} (hd : 0 < d) (h : 2^52 * d ≤ n ∨ d ∣ n) (hb : n ≤ 2^1020 * dblOne * d) :
    ∃ x, toDbl n d = some x ∧ Within 1 x n d := by
  have hw := round_within n d hd h
  refine ⟨roundTo 53 0 n d, ?_, hw⟩
  have h1 := (hw.double (by decide)).1
  have h2 : roundTo 53 0 n d * d ≤ (2 * (2^1020 * dblOne)) * d := by
    refine Nat.le_trans h1 ?_
    rw [Nat.mul_assoc]; exact Nat.mul_le_mul_left _ hb
  have h3 := Nat.le_of_mul_le_mul_right h2 hd
  have h4 : 2 * (2^1020 * dblOne) < 2^1024 * dblOne := by
    have := dblOne_pos
    generalize dblOne = U at *
    omega
  simp only [toDbl]
  rw [if_pos (by omega)]

theorem atofLoop_int {a l : List Nat} {k i r n : Nat} (ha : ∀ c ∈ a, IsDigitCode c) (hi : i + a.length ≤ 300) (hn : n < 10^i)
    (hr : Within (2 * i) r (n * dblOne) 1) :
    ∃ r', atofLoop (a ++ l) (a.length + k) (some r) (some 0) = atofLoop l k (some r') (some 0) ∧
      Within (2 * (i + a.length)) r' (moreDigits n a * dblOne) 1 ∧ moreDigits n a < 10^(i + a.length) := by
  induction a generalizing i r n with
  | nil => exact ⟨r, by simp, hr, hn⟩
  | cons c a ih =>
    have hc := digit_low (ha c (by simp))
    simp only [List.length_cons] at hi ⊢
    have hpi : (10:Nat)^i ≤ 10^299 := Nat.pow_le_pow_right (by decide) (by omega)
    have hr2 := (hr.double (by omega)).1
    have hrb : r ≤ 2 * (10^299 * dblOne) := by
      have : n * dblOne ≤ 10^299 * dblOne := Nat.mul_le_mul_right _ (by omega)
      omega
    -- the product with ten
    obtain ⟨x, hx, hxw⟩ := toDbl_some (n := r * (10 * dblOne)) (d := dblOne) dblOne_pos (.inr ⟨r * 10, by ac_rfl⟩) (by
      rw [← Nat.mul_assoc]
      apply Nat.mul_le_mul_right
      have := dblOne_pos
      generalize dblOne = U at *
      omega)
    have hxw1 : Within (2 * i + 1) x (n * dblOne * 10) 1 := by
      have h1 : Within (2 * i) (r * 10) (n * dblOne * 10) 1 := within_cast (hr.mul (within_self 10)) (Nat.add_zero _) rfl (Nat.mul_one 1)
      have h2 : Within 1 x (r * 10) 1 := by
        apply Within.cancel (c := dblOne) dblOne_pos
        rw [Nat.one_mul, Nat.mul_assoc]; exact hxw
      exact within_cast (h1.trans h2) rfl rfl (Nat.mul_one 1)
    have hxb := (hxw1.double (by omega)).1
    -- the sum
    have hdw : Within 0 ((c - 48) * dblOne) ((c - 48) * dblOne) 1 := within_self _
    have hs := hxw1.add (hdw.le (e' := 2 * i + 1) (by omega))
    have hn10 : n * 10 + (c - 48) < 10^(i+1) := by rw [Nat.pow_succ]; omega
    have hcb : (c - 48) * dblOne ≤ 9 * dblOne := Nat.mul_le_mul_right _ (by omega)
    have hnb : n * dblOne ≤ 10^299 * dblOne := Nat.mul_le_mul_right _ (by omega)
    obtain ⟨y, hy, hyw⟩ := toDbl_some (n := x + (c - 48) * dblOne) (d := 1) (by decide) (.inr ⟨_, (Nat.one_mul _).symm⟩) (by
      have := dblOne_pos
      generalize dblOne = U at *
      omega)
    have hyw1 := within_cast (hs.trans hyw) rfl rfl (Nat.mul_one 1)
    have he : n * dblOne * 10 + (c - 48) * dblOne = (n * 10 + (c - 48)) * dblOne := by rw [Nat.add_mul]; congr 1; ac_rfl
    rw [he] at hyw1
    obtain ⟨r', h1, h2, h3⟩ := ih (i := i + 1) (r := y) (n := n * 10 + (c - 48)) (fun c hc => ha c (by simp [hc])) (by omega) hn10
      (by rw [show 2 * (i + 1) = 2 * i + 1 + 1 by omega]; exact hyw1)
    refine ⟨r', ?_, ?_, ?_⟩
    · rw [← h1, List.cons_append, show a.length + 1 + k = (a.length + k) + 1 by omega]
      rw [atofLoop_digit hc.2.2, if_pos rfl, hc.1, dblNat_small (c := 10) (by decide), dblNat_small (c := c - 48) (by omega)]
      rw [dblMul_some, hx, dblAdd_some, hy]
    · rw [moreDigits_cons, show i + (a.length + 1) = i + 1 + a.length by omega]; exact h2
    · rw [moreDigits_cons, show i + (a.length + 1) = i + 1 + a.length by omega]; exact h3

/-- The literal 0.1. -/
theorem dblTenth_some : ∃ t, dblTenth = some t ∧ Within 1 t dblOne 10 := by
  obtain ⟨x, h1, h2⟩ := toDbl_some (n := dblOne) (d := 10) (by decide) (.inl (by decide +kernel)) (by
    have := dblOne_pos
    generalize dblOne = U at *
    omega)
  exact ⟨x, h1, h2⟩

theorem atofLoop_frac {b l : List Nat} {k i j r m n : Nat} (hb : ∀ c ∈ b, IsDigitCode c) (hi : i ≤ 100) (hj : j + b.length ≤ 300) (hn : n < 10^(i + j))
    (hr : Within (2 * i + 2 * j + 1) r (n * dblOne) (10^j)) (hm : Within (2 * j + 1) m dblOne (10^(j+1))) :
    ∃ r' m', atofLoop (b ++ l) (b.length + k) (some r) (some m) = atofLoop l k (some r') (some m') ∧
      Within (2 * i + 2 * (j + b.length) + 1) r' (moreDigits n b * dblOne) (10^(j + b.length)) ∧ moreDigits n b < 10^(i + (j + b.length)) := by
  induction b generalizing j r m n with
  | nil => exact ⟨r, m, by simp, hr, hn⟩
  | cons c b ih =>
    have hc := digit_low (hb c (by simp))
    simp only [List.length_cons] at hj ⊢
    have hpow : (10:Nat)^(j+1) ≤ 10^301 := Nat.pow_le_pow_right (by decide) (by omega)
    have hpos : 0 < (10:Nat)^(j+1) := Nat.pow_pos (by decide)
    have hm2 := hm.double (by omega)
    -- the multiplier is not zero and at most one
    have hm0 : m ≠ 0 := by
      rintro rfl
      have := dblOne_pos
      simp at hm2
      omega
    have hmb : m ≤ 2 * dblOne := by
      have : m * 1 ≤ m * 10^(j+1) := Nat.mul_le_mul_left _ hpos
      omega
    -- the term
    obtain ⟨x, hx, hxw⟩ := toDbl_some (n := (c - 48) * dblOne * m) (d := dblOne) dblOne_pos (.inr ⟨(c - 48) * m, by ac_rfl⟩) (by
      have h1 : (c - 48) * dblOne * m = (c - 48) * m * dblOne := by ac_rfl
      rw [h1]
      apply Nat.mul_le_mul_right
      have : (c - 48) * m ≤ 9 * (2 * dblOne) := Nat.mul_le_mul (by omega) hmb
      have := dblOne_pos
      generalize dblOne = U at *
      omega)
    have hxw1 : Within (2 * j + 1 + 1) x ((c - 48) * dblOne) (10^(j+1)) := by
      have h1 : Within (0 + (2 * j + 1)) ((c - 48) * m) ((c - 48) * dblOne) (1 * 10^(j+1)) := (within_self (c - 48)).mul hm
      have h2 : Within 1 x ((c - 48) * m) 1 := by
        apply Within.cancel (c := dblOne) dblOne_pos
        rw [Nat.one_mul, show (c - 48) * m * dblOne = (c - 48) * dblOne * m by ac_rfl]; exact hxw
      exact within_cast (h1.trans h2) (by omega) rfl (by rw [Nat.one_mul, Nat.mul_one])
    -- the sum
    have hr' : Within (2 * i + 2 * j + 1 + 1) r (n * dblOne * 10) (10^(j+1)) := by rw [Nat.pow_succ]; exact (hr.scale 10).mono
    have hs := hr'.add (hxw1.le (e' := 2 * i + 2 * j + 1 + 1) (by omega))
    have he : n * dblOne * 10 + (c - 48) * dblOne = (n * 10 + (c - 48)) * dblOne := by rw [Nat.add_mul]; congr 1; ac_rfl
    rw [he] at hs
    have hn10 : n * 10 + (c - 48) < 10^(i + (j + 1)) := by rw [← Nat.add_assoc, Nat.pow_succ]; omega
    have hsb : r + x ≤ 2 * (10^100 * dblOne) := by
      have h1 := (hs.double (by omega)).1
      have h2 : (r + x) * 10^(j+1) ≤ 2 * (10^100 * dblOne) * 10^(j+1) := by
        refine Nat.le_trans h1 ?_
        have h3 : (n * 10 + (c - 48)) * dblOne ≤ 10^(i + (j+1)) * dblOne := Nat.mul_le_mul_right _ (by omega)
        have h4 : (10:Nat)^(i + (j+1)) ≤ 10^100 * 10^(j+1) := by
          rw [Nat.pow_add]; exact Nat.mul_le_mul_right _ (Nat.pow_le_pow_right (by decide) hi)
        have h5 := Nat.mul_le_mul_right dblOne h4
        have h6 : 2 * (10^100 * dblOne) * 10^(j+1) = 2 * (10^100 * 10^(j+1) * dblOne) := by ac_rfl
        rw [h6]
        exact Nat.mul_le_mul_left _ (Nat.le_trans h3 h5)
      exact Nat.le_of_mul_le_mul_right h2 hpos
    obtain ⟨y, hy, hyw⟩ := toDbl_some (n := r + x) (d := 1) (by decide) (.inr ⟨_, (Nat.one_mul _).symm⟩) (by
      have := dblOne_pos
      generalize dblOne = U at *
      omega)
    have hyw1 := hs.trans hyw
    rw [Nat.mul_one] at hyw1
    -- the next multiplier
    obtain ⟨t, ht, htw⟩ := dblTenth_some
    have hmt := hm.mul htw
    have hmt2 := hmt.double (by omega)
    have hpow2 : (10:Nat)^(j+1) * 10 ≤ 10^302 := by rw [← Nat.pow_succ]; exact Nat.pow_le_pow_right (by decide) (by omega)
    obtain ⟨m', hm', hmw'⟩ := toDbl_some (n := m * t) (d := dblOne) dblOne_pos (.inl (by
        have h1 : dblOne * dblOne ≤ 2 * (m * t) * 10^302 := by
          refine Nat.le_trans hmt2.2 ?_
          rw [← Nat.mul_assoc]; exact Nat.mul_le_mul_left _ hpow2
        have h2 : 2^52 * (2 * 10^302) ≤ dblOne := by decide +kernel
        have h3 := Nat.mul_le_mul_right dblOne h2
        have h4 : 2^52 * dblOne * (2 * 10^302) ≤ m * t * (2 * 10^302) := by
          calc 2^52 * dblOne * (2 * 10^302) = 2^52 * (2 * 10^302) * dblOne := by ac_rfl
            _ ≤ dblOne * dblOne := h3
            _ ≤ _ := h1
            _ = _ := by ac_rfl
        exact Nat.le_of_mul_le_mul_right h4 (by decide +kernel))) (by
      have htb := (htw.double (by decide)).1
      have h1 : m * t ≤ (2 * dblOne) * t := Nat.mul_le_mul_right _ hmb
      have h2 : (2 * dblOne) * t ≤ (2 * dblOne) * dblOne := Nat.mul_le_mul_left _ (by omega)
      refine Nat.le_trans h1 (Nat.le_trans h2 (Nat.mul_le_mul_right _ ?_))
      have := dblOne_pos
      generalize dblOne = U at *
      omega)
    have hmw1 : Within (2 * (j + 1) + 1) m' dblOne (10^(j+1+1)) := by
      have h1 := hmt.trans hmw'
      rw [show 2 * j + 1 + 1 + 1 = 2 * (j + 1) + 1 by omega, ← Nat.pow_succ] at h1
      exact Within.cancel dblOne_pos h1
    obtain ⟨r', q', h1, h2, h3⟩ := ih (j := j + 1) (r := y) (m := m') (n := n * 10 + (c - 48)) (fun c hc => hb c (by simp [hc])) (by omega) hn10
      (by rw [show 2 * i + 2 * (j + 1) + 1 = 2 * i + 2 * j + 1 + 1 + 1 by omega]; exact hyw1) hmw1
    refine ⟨r', q', ?_, ?_, ?_⟩
    · rw [← h1, List.cons_append, show b.length + 1 + k = (b.length + k) + 1 by omega]
      rw [atofLoop_digit hc.2.2, if_neg (by simpa using hm0), hc.1, dblNat_small (c := c - 48) (by omega)]
      rw [ht]
      rw [dblMul_some, hx, dblAdd_some, hy, dblMul_some, hm']
    · rw [moreDigits_cons, show j + (b.length + 1) = j + 1 + b.length by omega]; exact h2
    · rw [moreDigits_cons, show j + (b.length + 1) = j + 1 + b.length by omega]; exact h3

/-- Nothing beyond the range is read. -/
theorem atofLoop_bounds (v after : List Nat) (r m : Dbl) : ∃ x, atofLoop (v ++ after) v.length r m = .ok x ∧ atofLoop v v.length r m = .ok x := by
  induction v generalizing r m with
  | nil => exact ⟨r, by cases after <;> rfl, rfl⟩
  | cons c v ih =>
    simp only [List.cons_append, List.length_cons, atofLoop]
    split
    · split <;> exact ih _ _
    · split
      · exact ih _ _
      · exact ⟨r, rfl, rfl⟩

/-- A rounded number of the format is itself. -/
theorem roundTo_exact {bits least x d : Nat} (hb : 0 < bits) (hd : 0 < d) (h : IsFloating bits least x) : roundTo bits least (x * d) d = x := by
  have := (roundTo_nearest bits least (x * d) d hd hb).2 x h
  refine Nat.eq_of_mul_eq_mul_right hd ?_
  simp only [apart] at this
  omega

theorem dblOne_floating {n : Nat} (h : n < 2^53) : IsFloating 53 0 (n * dblOne) := ⟨n, 1074, h, Nat.zero_le _, rfl⟩

theorem toDbl_exact {n d : Nat} (hd : 0 < d) (h : n < 2^53) : toDbl (n * dblOne * d) d = some (n * dblOne) := by
  simp only [toDbl]
  rw [roundTo_exact (by decide) hd (dblOne_floating h), if_pos]
  have := dblOne_pos
  refine Nat.mul_lt_mul_of_pos_right ?_ this
  refine Nat.lt_trans h ?_
  decide +kernel

theorem moreDigits_le (n : Nat) (a : List Nat) : n ≤ moreDigits n a := by
  induction a generalizing n with
  | nil => exact Nat.le_refl _
  | cons c a ih => rw [moreDigits_cons]; exact Nat.le_trans (by omega) (ih _)

/-- Digits whose value is below 2^53 are read exactly. -/
theorem atofLoop_exact {a l : List Nat} {k n : Nat} (ha : ∀ c ∈ a, IsDigitCode c) (hn : moreDigits n a < 2^53) :
    atofLoop (a ++ l) (a.length + k) (some (n * dblOne)) (some 0) = atofLoop l k (some (moreDigits n a * dblOne)) (some 0) := by
  induction a generalizing n with
  | nil => rw [List.nil_append, List.length_nil, Nat.zero_add]; rfl
  | cons c a ih =>
    have hc := digit_low (ha c (by simp))
    rw [moreDigits_cons] at hn ⊢
    have hle := moreDigits_le (n * 10 + (c - 48)) a
    rw [← ih (fun c hc => ha c (by simp [hc])) hn, List.cons_append, List.length_cons, show a.length + 1 + k = (a.length + k) + 1 by omega]
    rw [atofLoop_digit hc.2.2, if_pos rfl, hc.1, dblNat_small (c := 10) (by decide), dblNat_small (c := c - 48) (by omega)]
    have e1 : n * dblOne * (10 * dblOne) = n * 10 * dblOne * dblOne := by ac_rfl
    have e2 : n * 10 * dblOne + (c - 48) * dblOne = (n * 10 + (c - 48)) * dblOne * 1 := by rw [Nat.mul_one, Nat.add_mul]
    rw [dblMul_some, e1, toDbl_exact dblOne_pos (by omega), dblAdd_some, e2, toDbl_exact (by decide) (by omega)]

/-- A character that is no digit and no point ends the loop. -/
theorem atofLoop_stop {c l left r m} (h1 : ¬ IsDigitCode c) (h2 : c ≠ 46) : atofLoop (c :: l) (left + 1) r m = .ok r := by
  rw [atofLoop, if_neg (show ¬ (0x30 ≤ c ∧ c ≤ 0x39) from h1), if_neg h2]

theorem atofLoop_point {l left r m} : atofLoop (46 :: l) (left + 1) r m = atofLoop l left r dblTenth := by
  rw [atofLoop, if_neg (by decide), if_pos rfl]

theorem atofLoop_rest {rest after r m} (h : ∀ c ∈ rest.head?, ¬ IsDigitCode c ∧ c ≠ 46) : atofLoop (rest ++ after) rest.length r m = .ok r := by
  cases rest with
  | nil => cases after <;> rfl
  | cons c t =>
    obtain ⟨h1, h2⟩ := h c (by simp)
    exact atofLoop_stop h1 h2

theorem atofLoop_cut {v r m c rest after} (h1 : ¬ IsDigitCode c) (h2 : c ≠ 46) :
    atofLoop (v ++ c :: rest ++ after) (v ++ c :: rest).length r m = atofLoop v v.length r m := by
  induction v generalizing r m with
  | nil => rw [List.nil_append, List.cons_append, List.length_cons, atofLoop_stop h1 h2]; rfl
  | cons d v ih =>
    simp only [List.cons_append, List.length_cons, atofLoop] at ih ⊢
    split
    · split <;> exact ih
    · split
      · exact ih
      · rfl

/-- The value as a `float` is finite below 2·10^38. -/
theorem toFlt_some {r : Nat} (h : r < 2 * 10^38 * dblOne) : ∃ x, toFlt (some r) = some x ∧ Nearest 24 925 r 1 x := by
  refine ⟨roundTo 24 925 r 1, ?_, roundTo_nearest _ _ _ _ (by decide) (by decide)⟩
  obtain ⟨k, q, s, hk, hn, hs, hx, hq, hq'⟩ := round_parts 24 925 r 1 (by decide) (by decide)
  have h1 : roundTo 24 925 r 1 ≤ (q + 1) * 2^k := by
    rw [hx]; exact Nat.mul_le_mul_right _ (by split <;> omega)
  have h2 : (q + 1) * 2^k ≤ r + 2^k := by
    rw [Nat.add_mul, Nat.one_mul, hn, Nat.one_mul, Nat.mul_comm q]; omega
  have h3 : 2^k * 2^23 ≤ r + 2^948 := by
    by_cases h0 : k = 925
    · subst h0
      refine Nat.le_trans ?_ (Nat.le_add_left _ _)
      decide +kernel
    · have := hq' (by omega)
      have h4 := Nat.mul_le_mul_left (2^k) this
      rw [Nat.one_mul] at hn
      refine Nat.le_trans h4 ?_
      omega
  have h5 : (2^948 : Nat) ≤ dblOne := by decide +kernel
  simp only [toFlt]
  rw [if_pos]
  refine Nat.lt_of_le_of_lt (Nat.le_trans h1 h2) ?_
  generalize roundTo 24 925 r 1 = z at *
  generalize dblOne = U at *
  generalize 2^k = K at *
  generalize 2^948 = W at *
  omega

end Fcgi.Model
