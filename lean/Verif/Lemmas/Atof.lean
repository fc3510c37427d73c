import Verif.Model.Atof
import Verif.Spec.Atof
/-! # Lemmas: rounding -/
namespace Fcgi.Model
open Fcgi Fcgi.Spec

/-- The parts of the quotient. -/
theorem round_parts (bits least n d : Nat) (hd : 0 < d) (hb : 0 < bits) : ∃ k q r, least ≤ k ∧ n = d * 2^k * q + r ∧ r < d * 2^k ∧
    roundTo bits least n d = (if d * 2^k < 2 * r ∨ (2 * r = d * 2^k ∧ q % 2 = 1) then q + 1 else q) * 2^k ∧ q < 2^bits ∧ (least < k → 2^(bits - 1) ≤ q) := by
  refine ⟨max least (Nat.log2 (n / d) + 1 - bits), n / (d * 2^(max least (Nat.log2 (n / d) + 1 - bits))), n % (d * 2^(max least (Nat.log2 (n / d) + 1 - bits))),
    by omega, (Nat.div_add_mod _ _).symm, Nat.mod_lt _ (Nat.mul_pos hd (Nat.two_pow_pos _)), rfl, ?_, ?_⟩
  · rw [← Nat.div_div_eq_div_mul, Nat.div_lt_iff_lt_mul (Nat.two_pow_pos _), ← Nat.pow_add]
    by_cases h0 : n / d = 0
    · rw [h0]; exact Nat.two_pow_pos _
    · exact Nat.lt_of_lt_of_le ((Nat.log2_lt h0).1 (Nat.lt_succ_self _)) (Nat.pow_le_pow_right (by decide) (by omega))
  · intro hk
    have h0 : n / d ≠ 0 := by
      intro h0; rw [h0] at hk; simp at hk; omega
    rw [← Nat.div_div_eq_div_mul, Nat.le_div_iff_mul_le (Nat.two_pow_pos _), ← Nat.pow_add]
    have := Nat.log2_self_le h0
    exact Nat.le_trans (Nat.pow_le_pow_right (by decide) (by omega)) this

theorem between {D n q q' r t : Nat} (hn : n = D * q + r) (hr : r < D) (hq : q' = if D < 2 * r ∨ (2 * r = D ∧ q % 2 = 1) then q + 1 else q) :
    apart (q' * D) n ≤ apart (t * D) n ∧ apart (q' * D) n ≤ r ∧ 2 * apart (q' * D) n ≤ D := by
  have e1 : (q + 1) * D = D * q + D := by rw [Nat.add_mul, Nat.one_mul, Nat.mul_comm]
  have e0 : q * D = D * q := Nat.mul_comm _ _
  have h1 : apart (q' * D) n ≤ r ∧ apart (q' * D) n ≤ D - r := by
    unfold apart
    split at hq
    · rw [hq, e1]; omega
    · rw [hq, e0]; omega
  have h2 : t ≤ q ∨ q + 1 ≤ t := by omega
  refine ⟨?_, h1.1, by omega⟩
  rcases h2 with h2 | h2
  · have := Nat.mul_le_mul_right D h2
    rw [e0] at this
    refine Nat.le_trans h1.1 ?_
    unfold apart; omega
  · have := Nat.mul_le_mul_right D h2
    rw [e1] at this
    refine Nat.le_trans h1.2 ?_
    unfold apart; omega

/-- Rounding gives a nearest number of the format. -/
theorem roundTo_nearest (bits least n d : Nat) (hd : 0 < d) (hb : 0 < bits) : Nearest bits least n d (roundTo bits least n d) := by
  obtain ⟨k, q, r, hk, hn, hr, hx, hq, hq'⟩ := round_parts bits least n d hd hb
  generalize hqq : (if d * 2^k < 2 * r ∨ (2 * r = d * 2^k ∧ q % 2 = 1) then q + 1 else q) = q' at hx
  have hxd : roundTo bits least n d * d = q' * (d * 2^k) := by rw [hx, Nat.mul_assoc, Nat.mul_comm (2^k) d]
  constructor
  · rw [hx]
    by_cases hlt : q' < 2^bits
    · exact ⟨q', k, hlt, hk, rfl⟩
    · have : q' = 2^bits := by split at hqq <;> omega
      refine ⟨2^(bits - 1), k + 1, Nat.pow_lt_pow_right (by decide) (by omega), by omega, ?_⟩
      rw [this, ← Nat.pow_add, ← Nat.pow_add]
      congr 1; omega
  · rintro y ⟨m, j, hm, hj, rfl⟩
    rw [hxd]
    by_cases hjk : k ≤ j
    · have : m * 2^j * d = (m * 2^(j - k)) * (d * 2^k) := by
        rw [show 2^j = 2^(j-k) * 2^k by rw [← Nat.pow_add]; congr 1; omega]
        ac_rfl
      rw [this]
      exact (between hn hr hqq.symm).1
    · refine Nat.le_trans (between (t := 0) hn hr hqq.symm).2.1 ?_
      have h1 := hq' (by omega)
      have h2 : m * 2^j ≤ q * 2^k := by
        have a1 : m * 2^j ≤ 2^bits * 2^(k-1) := Nat.mul_le_mul (by omega) (Nat.pow_le_pow_right (by decide) (by omega))
        have a2 : 2^bits * 2^(k-1) = 2^(bits-1) * 2^k := by
          rw [← Nat.pow_add, ← Nat.pow_add]; congr 1; omega
        exact Nat.le_trans (a2 ▸ a1) (Nat.mul_le_mul_right _ h1)
      have h3 := Nat.mul_le_mul_right d h2
      have h4 : q * 2^k * d = d * 2^k * q := by ac_rfl
      rw [h4] at h3
      unfold apart; omega

/-- One rounding to `double` is one relative error, if the quotient is not tiny. -/
theorem round_within (n d : Nat) (hd : 0 < d) (h : 2^52 * d ≤ n ∨ d ∣ n) : Within 1 (roundTo 53 0 n d) n d := by
  obtain ⟨k, q, r, hk, hn, hr, hx, hq, hq'⟩ := round_parts 53 0 n d hd (by decide)
  generalize hqq : (if d * 2^k < 2 * r ∨ (2 * r = d * 2^k ∧ q % 2 = 1) then q + 1 else q) = q' at hx
  have hxd : roundTo 53 0 n d * d = q' * (d * 2^k) := by rw [hx, Nat.mul_assoc, Nat.mul_comm (2^k) d]
  obtain ⟨_, b1, b2⟩ := between (t := 0) hn hr hqq.symm
  have key : 2^53 * apart (q' * (d * 2^k)) n ≤ n := by
    have big : 2^52 * (d * 2^k) ≤ n → 2^53 * apart (q' * (d * 2^k)) n ≤ n := by
      intro h; omega
    by_cases h0 : k = 0
    · rcases h with h | h
      · apply big; rw [h0]; simpa using h
      · have : r = 0 := by
          have hdn : d ∣ d * 2^k * q + r := hn ▸ h
          have h1 : d ∣ r := (Nat.dvd_add_right (Nat.dvd_trans (Nat.dvd_mul_right d _) (Nat.dvd_mul_right _ _))).1 hdn
          rw [h0] at hr
          exact Nat.eq_zero_of_dvd_of_lt h1 (by simpa using hr)
        omega
    · apply big
      have := hq' (by omega)
      have h1 : d * 2^k * 2^52 ≤ d * 2^k * q := Nat.mul_le_mul_left _ this
      rw [Nat.mul_comm (2^52)]; omega
  unfold Within
  rw [hxd]
  unfold apart at key
  simp only [Nat.pow_one]
  constructor <;> omega

/-! ## Relative errors -/

end Fcgi.Model
namespace Fcgi.Spec

theorem Within.exact (n d : Nat) : Within 0 n (n * d) d := by constructor <;> simp
theorem Within.mono {e r n d} (h : Within e r n d) : Within (e + 1) r n d := by
  have a1 : (2^53 - 1 : Nat) ≤ 2^53 := by decide
  have a2 : (2^53 : Nat) ≤ 2^53 + 1 := by decide
  simp only [Within] at h ⊢
  generalize (2^53 - 1 : Nat) = C at *
  generalize (2^53 + 1 : Nat) = A at *
  generalize (2^53 : Nat) = B at *
  simp only [Nat.pow_succ]
  obtain ⟨h1, h2⟩ := h
  constructor
  · calc C^e * C * n = C^e * n * C := by ac_rfl
      _ ≤ B^e * (r * d) * B := Nat.mul_le_mul h1 a1
      _ = _ := by ac_rfl
  · calc B^e * B * (r * d) = B^e * (r * d) * B := by ac_rfl
      _ ≤ A^e * n * A := Nat.mul_le_mul h2 a2
      _ = _ := by ac_rfl
theorem Within.le {e e' r n d} (h : Within e r n d) (he : e ≤ e') : Within e' r n d := by
  induction he with
  | refl => exact h
  | step _ ih => exact ih.mono
theorem Within.scale {e r n d} (h : Within e r n d) (c : Nat) : Within e r (n * c) (d * c) := by
  obtain ⟨h1, h2⟩ := h
  constructor
  · calc (2^53 - 1)^e * (n * c) = (2^53 - 1)^e * n * c := by ac_rfl
      _ ≤ (2^53)^e * (r * d) * c := Nat.mul_le_mul_right _ h1
      _ = _ := by ac_rfl
  · calc (2^53)^e * (r * (d * c)) = (2^53)^e * (r * d) * c := by ac_rfl
      _ ≤ (2^53 + 1)^e * n * c := Nat.mul_le_mul_right _ h2
      _ = _ := by ac_rfl
theorem Within.add {e r r' n n' d} (h : Within e r n d) (h' : Within e r' n' d) : Within e (r + r') (n + n') d := by
  obtain ⟨h1, h2⟩ := h
  obtain ⟨h1', h2'⟩ := h'
  constructor
  · rw [Nat.add_mul, Nat.mul_add, Nat.mul_add]; exact Nat.add_le_add h1 h1'
  · rw [Nat.add_mul, Nat.mul_add, Nat.mul_add]; exact Nat.add_le_add h2 h2'
theorem Within.mul {e e' r r' n n' d d'} (h : Within e r n d) (h' : Within e' r' n' d') : Within (e + e') (r * r') (n * n') (d * d') := by
  obtain ⟨h1, h2⟩ := h
  obtain ⟨h1', h2'⟩ := h'
  simp only [Within, Nat.pow_add]
  constructor
  · calc (2^53 - 1)^e * (2^53 - 1)^e' * (n * n') = ((2^53 - 1)^e * n) * ((2^53 - 1)^e' * n') := by ac_rfl
      _ ≤ ((2^53)^e * (r * d)) * ((2^53)^e' * (r' * d')) := Nat.mul_le_mul h1 h1'
      _ = _ := by ac_rfl
  · calc (2^53)^e * (2^53)^e' * (r * r' * (d * d')) = ((2^53)^e * (r * d)) * ((2^53)^e' * (r' * d')) := by ac_rfl
      _ ≤ ((2^53 + 1)^e * n) * ((2^53 + 1)^e' * n') := Nat.mul_le_mul h2 h2'
      _ = _ := by ac_rfl
/-- An error on top of others. -/
theorem Within.trans {e e' x r n d c} (h : Within e r n d) (h' : Within e' x r c) : Within (e + e') x n (d * c) := by
  obtain ⟨h1, h2⟩ := h
  obtain ⟨h1', h2'⟩ := h'
  simp only [Within, Nat.pow_add]
  constructor
  · calc (2^53 - 1)^e * (2^53 - 1)^e' * n = (2^53 - 1)^e' * ((2^53 - 1)^e * n) := by ac_rfl
      _ ≤ (2^53 - 1)^e' * ((2^53)^e * (r * d)) := Nat.mul_le_mul_left _ h1
      _ = ((2^53 - 1)^e' * r) * ((2^53)^e * d) := by ac_rfl
      _ ≤ ((2^53)^e' * (x * c)) * ((2^53)^e * d) := Nat.mul_le_mul_right _ h1'
      _ = _ := by ac_rfl
  · calc (2^53)^e * (2^53)^e' * (x * (d * c)) = ((2^53)^e' * (x * c)) * ((2^53)^e * d) := by ac_rfl
      _ ≤ ((2^53 + 1)^e' * r) * ((2^53)^e * d) := Nat.mul_le_mul_right _ h2'
      _ = (2^53 + 1)^e' * ((2^53)^e * (r * d)) := by ac_rfl
      _ ≤ (2^53 + 1)^e' * ((2^53 + 1)^e * n) := Nat.mul_le_mul_left _ h2
      _ = _ := by ac_rfl
/-- A common factor can be left out. -/
theorem Within.cancel {e r n d c} (hc : 0 < c) (h : Within e r (n * c) (d * c)) : Within e r n d := by
  obtain ⟨h1, h2⟩ := h
  constructor
  · refine Nat.le_of_mul_le_mul_right (c := c) ?_ hc
    calc (2^53 - 1)^e * n * c = (2^53 - 1)^e * (n * c) := by ac_rfl
      _ ≤ _ := h1
      _ = _ := by ac_rfl
  · refine Nat.le_of_mul_le_mul_right (c := c) ?_ hc
    calc (2^53)^e * (r * d) * c = (2^53)^e * (r * (d * c)) := by ac_rfl
      _ ≤ _ := h2
      _ = _ := by ac_rfl

/-- Up to a thousand errors less than double or halve. -/
theorem Within.double {e r n d} (h : Within e r n d) (he : e ≤ 1000) : r * d ≤ 2 * n ∧ n ≤ 2 * (r * d) := by
  have h' := h.le he
  obtain ⟨h1, h2⟩ := h'
  have c1 : (2^53 + 1)^1000 ≤ 2 * (2^53)^1000 := by decide +kernel
  have c2 : (2^53)^1000 ≤ 2 * (2^53 - 1)^1000 := by decide +kernel
  have hp : 0 < (2^53)^1000 := Nat.pow_pos (by decide)
  have hq : 0 < (2^53 - 1)^1000 := Nat.pow_pos (by decide)
  generalize (2^53 + 1)^1000 = A at *
  generalize (2^53)^1000 = B at *
  generalize (2^53 - 1)^1000 = C at *
  constructor
  · refine Nat.le_of_mul_le_mul_left (c := B) ?_ hp
    calc B * (r * d) ≤ A * n := h2
      _ ≤ 2 * B * n := Nat.mul_le_mul_right _ c1
      _ = _ := by ac_rfl
  · refine Nat.le_of_mul_le_mul_left (c := C) ?_ hq
    calc C * n ≤ B * (r * d) := h1
      _ ≤ 2 * C * (r * d) := Nat.mul_le_mul_right _ c2
      _ = _ := by ac_rfl

end Fcgi.Spec
