import Verif.Model.Base64
import Verif.Spec.Base64
import Verif.Spec.SessionTerms
namespace Fcgi.Model
open Fcgi Fcgi.Spec

theorem or_hi (hi lo k : Nat) (h : lo < 2^k) : (hi <<< k) ||| lo = hi * 2^k + lo := by
  rw [Nat.shiftLeft_eq, Nat.mul_comm, ← Nat.two_pow_add_eq_or_of_lt h]

theorem triple_lt (a b c : UInt8) : triple a b c < 2^24 := by
  have := a.toNat_lt; have := b.toNat_lt; have := c.toNat_lt
  unfold triple; omega

theorem encBuffer (a b c : UInt8) : (((0 ||| a.toNat <<< 16) ||| b.toNat <<< 8) ||| c.toNat <<< 0) = triple a b c := by
  have ha := a.toNat_lt; have hb := b.toNat_lt; have hc := c.toNat_lt
  rw [Nat.zero_or, show a.toNat <<< 16 = (a.toNat <<< 8) <<< 8 by rw [← Nat.shiftLeft_add], ← Nat.shiftLeft_or_distrib,
    or_hi _ _ 8 hb, Nat.shiftLeft_zero, or_hi _ _ 8 hc]
  rfl

theorem rd64 (v : Nat) (h : v < 64) : rd base64Characters v = .ok (char64 v) := by
  have : ∀ i : Fin 64, rd base64Characters i.val = .ok (char64 i.val) := by decide +kernel
  exact this ⟨v, h⟩

theorem and63 (n : Nat) : n &&& 0x3f = n % 64 := Nat.and_two_pow_sub_one_eq_mod n 6
theorem and255 (n : Nat) : n &&& 0xff = n % 256 := Nat.and_two_pow_sub_one_eq_mod n 8

theorem enc_group (fuel : Nat) (a b c : UInt8) (rest out : Bytes) (buf : Nat) (pd : Int) :
    encLoop (fuel + 4) (a :: b :: c :: rest) buf (-6) pd out =
      encLoop fuel rest (triple a b c) (-6) (-6)
        (out ++ [char64 (triple a b c / 64^3), char64 (triple a b c / 64^2 % 64), char64 (triple a b c / 64 % 64), char64 (triple a b c % 64)]) := by
  have ht := triple_lt a b c
  have e := encBuffer a b c
  simp only [encLoop, encFill, ne_eq, reduceCtorEq, not_false_eq_true, true_or, not_true_eq_false, if_false, if_true,
    Nat.reduceMul, Nat.mul_zero, Nat.reduceAdd, e, Int.reduceNeg, Int.reduceEq, Int.reduceSub, Int.reduceToNat, and63, Nat.shiftRight_eq_div_pow,
    Int.reduceGT, or_true]
  rw [rd64 _ (Nat.mod_lt _ (by decide)), rd64 _ (Nat.mod_lt _ (by decide)), rd64 _ (Nat.mod_lt _ (by decide)), rd64 _ (Nat.mod_lt _ (by decide))]
  simp only [Res.ok_bind, List.append_assoc, List.cons_append, List.nil_append]
  congr 4
  · congr 1; omega
  · simp

theorem enc_spec : ∀ (data : Bytes) (fuel : Nat) (buf : Nat) (pd : Int) (out : Bytes), 4 * data.length < fuel →
    encLoop fuel data buf (-6) pd out = .ok (out ++ base64 data) := by
  intro data
  induction data using base64.induct with
  | case1 =>
    intro fuel buf pd out h
    obtain ⟨f, rfl⟩ : ∃ f, fuel = f + 1 := ⟨fuel - 1, by omega⟩
    simp [encLoop, base64]
  | case2 a =>
    intro fuel buf pd out h
    simp only [List.length_cons, List.length_nil] at h
    obtain ⟨f, rfl⟩ : ∃ f, fuel = f + 5 := ⟨fuel - 5, by omega⟩
    have ht := triple_lt a 0 0
    have e := encBuffer a 0 0
    simp only [UInt8.toNat_zero, Nat.zero_shiftLeft, Nat.or_zero] at e
    simp only [encLoop, encFill, ne_eq, reduceCtorEq, not_false_eq_true, true_or, not_true_eq_false, if_false, if_true,
      Nat.reduceMul, Nat.mul_zero, Nat.reduceAdd, e, Int.reduceNeg, Int.reduceEq, Int.reduceSub, Int.reduceToNat, and63, Nat.shiftRight_eq_div_pow,
      Int.reduceGT, or_true, Int.reduceAdd, or_self]
    rw [rd64 _ (Nat.mod_lt _ (by decide)), rd64 _ (Nat.mod_lt _ (by decide))]
    simp only [Res.ok_bind, base64, List.append_assoc, List.cons_append, List.nil_append]
    congr 3
    congr 1; omega
  | case3 a b =>
    intro fuel buf pd out h
    simp only [List.length_cons, List.length_nil] at h
    obtain ⟨f, rfl⟩ : ∃ f, fuel = f + 5 := ⟨fuel - 5, by omega⟩
    have ht := triple_lt a b 0
    have e := encBuffer a b 0
    simp only [UInt8.toNat_zero, Nat.zero_shiftLeft, Nat.or_zero] at e
    simp only [encLoop, encFill, ne_eq, reduceCtorEq, not_false_eq_true, true_or, not_true_eq_false, if_false, if_true,
      Nat.reduceMul, Nat.mul_zero, Nat.reduceAdd, e, Int.reduceNeg, Int.reduceEq, Int.reduceSub, Int.reduceToNat, and63, Nat.shiftRight_eq_div_pow,
      Int.reduceGT, or_true, Int.reduceAdd, or_self]
    rw [rd64 _ (Nat.mod_lt _ (by decide)), rd64 _ (Nat.mod_lt _ (by decide)), rd64 _ (Nat.mod_lt _ (by decide))]
    simp only [Res.ok_bind, base64, List.append_assoc, List.cons_append, List.nil_append]
    congr 3
    congr 1; omega
  | case4 a b c rest ih =>
    intro fuel buf pd out h
    simp only [List.length_cons] at h
    obtain ⟨f, rfl⟩ : ∃ f, fuel = f + 4 := ⟨fuel - 4, by omega⟩
    rw [enc_group, ih f _ _ _ (by omega), base64]
    simp

/-! ### decoding -/

theorem digit_code (v : Nat) (h : v < 64) : b64Digit (code64 v) = .value v := by
  have : ∀ i : Fin 64, b64Digit (code64 i.val) = .value i.val := by decide +kernel
  exact this ⟨v, h⟩

theorem digit_value {c : Int} {v : Nat} (h : b64Digit c = .value v) : v < 64 ∧ c = code64 v := by
  have h1 : ∀ i : Fin 26, code64 i.val = 65 + i.val := by decide +kernel
  have h2 : ∀ i : Fin 26, code64 (26 + i.val) = 97 + i.val := by decide +kernel
  have h3 : ∀ i : Fin 10, code64 (52 + i.val) = 48 + i.val := by decide +kernel
  unfold b64Digit at h
  split at h
  · next hc =>
    cases h
    refine ⟨by omega, ?_⟩
    have := h1 ⟨(c - 65).toNat, by omega⟩
    simp only at this; rw [this]; omega
  split at h
  · next hc =>
    cases h
    refine ⟨by omega, ?_⟩
    have := h2 ⟨(c - 97).toNat, by omega⟩
    simp only at this
    rw [show (c - (97 - 26)).toNat = 26 + (c - 97).toNat by omega, this]; omega
  split at h
  · next hc =>
    cases h
    refine ⟨by omega, ?_⟩
    have := h3 ⟨(c - 48).toNat, by omega⟩
    simp only at this
    rw [show (c - (48 - 52)).toNat = 52 + (c - 48).toNat by omega, this]; omega
  split at h
  · next hc => cases h; exact ⟨by decide, by rw [hc]; decide⟩
  split at h
  · next hc => cases h; exact ⟨by decide, by rw [hc]; decide⟩
  split at h <;> cases h

theorem digit_pad {c : Int} : b64Digit c = .pad ↔ c = 61 := by
  constructor
  · intro h
    unfold b64Digit at h
    split at h; · cases h
    split at h; · cases h
    split at h; · cases h
    split at h; · cases h
    split at h; · cases h
    split at h
    · assumption
    · cases h
  · rintro rfl; decide

theorem decBuffer (a b c d : Nat) (ha : a < 64) (hb : b < 64) (hc : c < 64) (hd : d < 64) :
    ((((0 ||| a <<< 18) ||| b <<< 12) ||| c <<< 6) ||| d <<< 0) = ((a * 64 + b) * 64 + c) * 64 + d := by
  rw [Nat.zero_or, show a <<< 18 = (a <<< 6) <<< 12 by rw [← Nat.shiftLeft_add], ← Nat.shiftLeft_or_distrib,
    or_hi _ _ 6 hb, show (a * 2^6 + b) <<< 12 = ((a * 2^6 + b) <<< 6) <<< 6 by rw [← Nat.shiftLeft_add],
    ← Nat.shiftLeft_or_distrib, or_hi _ _ 6 hc, Nat.shiftLeft_zero, or_hi _ _ 6 hd]

theorem decQuantum_end (t : List Int) (buf : Nat) : decQuantum t buf (-6) = some (t, buf, -9) := by
  rw [decQuantum.eq_def, if_pos rfl]

/-- One complete group. -/
theorem dec_group (cap fuel : Nat) (a b c d : Nat) (ha : a < 64) (hb : b < 64) (hc : c < 64) (hd : d < 64) (text : List Int) (buf : Nat)
    (ps : Int) (mem : Bytes) (hcap : mem.length + 3 ≤ cap) :
    decLoop cap (fuel + 3) (code64 a :: code64 b :: code64 c :: code64 d :: text) buf (-8) ps mem =
      decLoop cap fuel text (((a * 64 + b) * 64 + c) * 64 + d) (-8) (-9) (mem ++ unbase64 [a, b, c, d]) := by
  have e := decBuffer a b c d ha hb hc hd
  simp only [decLoop, decQuantum, decQuantum_end, digit_code _ ha, digit_code _ hb, digit_code _ hc, digit_code _ hd, ne_eq, reduceCtorEq, not_false_eq_true,
    true_or, not_true_eq_false, if_false, if_true, Int.reduceNeg, Int.reduceEq, Int.reduceSub, Int.reduceToNat, e, Option.map_some,
    Int.reduceGT, or_true, and255, Nat.shiftRight_eq_div_pow, List.length_append, List.length_cons, List.length_nil, Int.reduceLE, ge_iff_le]
  rw [if_neg (by omega), if_neg (by omega), if_neg (by omega)]
  congr 1
  have hm : ∀ n, UInt8.ofNat (n % 256) = UInt8.ofNat n := by
    intro n; apply UInt8.toNat_inj.1; simp
  simp only [unbase64, List.append_assoc, List.cons_append, List.nil_append, hm]
  simp

/-- Writing a whole number of groups does not fit. -/
theorem dec_group_oob (cap fuel : Nat) (a b c d : Nat) (ha : a < 64) (hb : b < 64) (hc : c < 64) (hd : d < 64) (text : List Int) (buf : Nat)
    (ps : Int) (mem : Bytes) (hcap : cap < mem.length + 3) :
    decLoop cap (fuel + 3) (code64 a :: code64 b :: code64 c :: code64 d :: text) buf (-8) ps mem = .ub .oobWrite := by
  have e := decBuffer a b c d ha hb hc hd
  simp only [decLoop, decQuantum, decQuantum_end, digit_code _ ha, digit_code _ hb, digit_code _ hc, digit_code _ hd, ne_eq, reduceCtorEq, not_false_eq_true,
    true_or, not_true_eq_false, if_false, if_true, Int.reduceNeg, Int.reduceEq, Int.reduceSub, Int.reduceToNat, e, Option.map_some,
    Int.reduceGT, or_true, and255, Nat.shiftRight_eq_div_pow, List.length_append, List.length_cons, List.length_nil, Int.reduceLE, ge_iff_le]
  by_cases h1 : cap ≤ mem.length
  · rw [if_pos h1]
  · rw [if_neg h1]
    by_cases h2 : cap ≤ mem.length + (0 + 1)
    · rw [if_pos h2]
    · rw [if_neg h2, if_pos (by omega)]

/-- Any number of complete groups. -/
theorem dec_groups (cap : Nat) : ∀ (vals : List Nat) (k : Nat), vals.length = 4 * k → (∀ v ∈ vals, v < 64) → ∀ (fuel : Nat) (text : List Int)
    (buf : Nat) (ps : Int) (mem : Bytes), mem.length + 3 * k ≤ cap →
    ∃ buf' ps', decLoop cap (fuel + 3 * k) (vals.map code64 ++ text) buf (-8) ps mem =
      decLoop cap fuel text buf' (-8) ps' (mem ++ unbase64 vals) ∧ (unbase64 vals).length = 3 * k := by
  intro vals
  induction vals using unbase64.induct with
  | case1 a b c d vals ih =>
    intro k hl hv fuel text buf ps mem hcap
    obtain ⟨k, rfl⟩ : ∃ j, k = j + 1 := ⟨k - 1, by simp at hl; omega⟩
    simp only [List.length_cons] at hl
    have s := dec_group cap (fuel + 3 * k) a b c d (hv a (by simp)) (hv b (by simp)) (hv c (by simp)) (hv d (by simp))
      (vals.map code64 ++ text) buf ps mem (by omega)
    obtain ⟨buf', ps', e1, e2⟩ := ih k (by omega) (fun v h => hv v (by simp [h])) fuel text (((a * 64 + b) * 64 + c) * 64 + d) (-9)
      (mem ++ unbase64 [a, b, c, d]) (by simp [unbase64]; omega)
    refine ⟨buf', ps', ?_, ?_⟩
    · rw [show fuel + 3 * (k + 1) = fuel + 3 * k + 3 by omega]
      simp only [List.map_cons, List.cons_append]
      rw [s, e1]
      simp [unbase64]
    · simp only [unbase64, List.length_append, List.length_cons, List.length_nil, e2]; omega
  | case2 vals hne =>
    intro k hl _ fuel text buf ps mem _
    have : vals = [] := by
      match vals, hl, hne with
      | [], _, _ => rfl
      | [_], hl, _ => simp at hl; omega
      | [_, _], hl, _ => simp at hl; omega
      | [_, _, _], hl, _ => simp at hl; omega
      | a :: b :: c :: d :: r, _, hne => exact absurd rfl (hne a b c d r)
    subst this
    have : k = 0 := by simp at hl; omega
    subst this
    exact ⟨buf, ps, by simp [unbase64], rfl⟩

/-- What ends the loop. -/
theorem dec_end (cap fuel : Nat) (buf : Nat) (ps : Int) (mem : Bytes) :
    decLoop cap (fuel + 1) [] buf (-8) ps mem = .ok (mem.length, mem) := by
  simp [decLoop]

theorem quantum_fail (c : Int) (h : b64Digit c = .foreign) (t : List Int) : ∀ (vs : List Nat) (n : Nat), vs.length ≤ 3 - n → n ≤ 3 → (∀ v ∈ vs, v < 64) →
    ∀ buf, decQuantum (vs.map code64 ++ c :: t) buf (18 - 6 * n) = none := by
  intro vs
  induction vs with
  | nil =>
    intro n hl hn _ buf
    rw [List.map_nil, List.nil_append, decQuantum.eq_def, if_neg (by omega)]
    simp only [h]
  | cons v vs ih =>
    intro n hl hn hv buf
    simp only [List.length_cons] at hl
    rw [List.map_cons, List.cons_append, decQuantum.eq_def, if_neg (by omega)]
    simp only [digit_code v (hv v (by simp))]
    have := ih (n + 1) (by omega) (by omega) (fun v h => hv v (by simp [h]))
    rw [show (18 : Int) - 6 * n - 6 = 18 - 6 * (n + 1 : Nat) by push_cast; omega]
    exact this _

theorem quantum_short : ∀ (vs : List Nat) (n : Nat), vs.length ≤ 3 - n → n ≤ 3 → (∀ v ∈ vs, v < 64) →
    ∀ buf, decQuantum (vs.map code64) buf (18 - 6 * n) = none := by
  intro vs
  induction vs with
  | nil =>
    intro n hl hn _ buf
    rw [List.map_nil, decQuantum.eq_def, if_neg (by omega)]
  | cons v vs ih =>
    intro n hl hn hv buf
    simp only [List.length_cons] at hl
    rw [List.map_cons, decQuantum.eq_def, if_neg (by omega)]
    simp only [digit_code v (hv v (by simp))]
    have := ih (n + 1) (by omega) (by omega) (fun v h => hv v (by simp [h]))
    rw [show (18 : Int) - 6 * n - 6 = 18 - 6 * (n + 1 : Nat) by push_cast; omega]
    exact this _

/-- A foreign character in the current group. -/
theorem dec_foreign (cap fuel : Nat) (vs : List Nat) (hl : vs.length ≤ 3) (hv : ∀ v ∈ vs, v < 64) (c : Int) (hc : b64Digit c = .foreign)
    (t : List Int) (buf : Nat) (ps : Int) (mem : Bytes) :
    decLoop cap (fuel + 1) (vs.map code64 ++ c :: t) buf (-8) ps mem = .ok (0, mem) := by
  have := quantum_fail c hc t vs 0 (by omega) (by omega) hv 0
  have this' : decQuantum (vs.map code64 ++ c :: t) 0 18 = none := by simpa using this
  simp [decLoop, this']

/-- The text ends inside a group. -/
theorem dec_short (cap fuel : Nat) (vs : List Nat) (hl : vs.length ≤ 3) (h0 : vs ≠ []) (hv : ∀ v ∈ vs, v < 64) (buf : Nat) (ps : Int) (mem : Bytes) :
    decLoop cap (fuel + 1) (vs.map code64) buf (-8) ps mem = .ok (0, mem) := by
  have := quantum_short vs 0 (by omega) (by omega) hv 0
  have this' : decQuantum (vs.map code64) 0 18 = none := by simpa using this
  simp [decLoop, this', h0]

theorem dec_pad0 (cap fuel : Nat) (t : List Int) (buf : Nat) (ps : Int) (mem : Bytes) :
    decLoop cap (fuel + 1) (61 :: t) buf (-8) ps mem =
      if cap ≤ mem.length then .ub .oobWrite else .ok (mem.length, mem ++ [0]) := by
  simp [decLoop, decQuantum, digit_pad.2 rfl]

theorem dec_pad1 (cap fuel : Nat) (a : Nat) (ha : a < 64) (t : List Int) (buf : Nat) (ps : Int) (mem : Bytes) (hcap : mem.length + 1 ≤ cap) :
    decLoop cap (fuel + 1) (code64 a :: 61 :: t) buf (-8) ps mem = .ok (mem.length + 1, mem ++ [UInt8.ofNat (a * 4)]) := by
  have hm : ∀ n, UInt8.ofNat (n % 256) = UInt8.ofNat n := by
    intro n; apply UInt8.toNat_inj.1; simp
  have e := decBuffer a 0 0 0 ha (by decide) (by decide) (by decide)
  simp only [Nat.zero_shiftLeft, Nat.or_zero] at e
  simp only [decLoop, decQuantum, digit_code _ ha, digit_pad.2 rfl, ne_eq, reduceCtorEq, not_false_eq_true,
    true_or, not_true_eq_false, if_false, if_true, Int.reduceNeg, Int.reduceEq, Int.reduceSub, Int.reduceToNat, e, Option.map_some,
    and255, Nat.shiftRight_eq_div_pow, Int.reduceLE, ge_iff_le, Int.reduceDiv, hm]
  rw [if_neg (by omega), show (((a * 64 + 0) * 64 + 0) * 64 + 0) / 2^16 = a * 4 by omega]

theorem dec_pad2 (cap fuel : Nat) (a b : Nat) (ha : a < 64) (hb : b < 64) (t : List Int) (buf : Nat) (ps : Int) (mem : Bytes) (hcap : mem.length + 2 ≤ cap) :
    ∃ x, decLoop cap (fuel + 2) (code64 a :: code64 b :: 61 :: t) buf (-8) ps mem =
      .ok (mem.length + 1, mem ++ lastBytes [a, b] ++ [x]) := by
  have hm : ∀ n, UInt8.ofNat (n % 256) = UInt8.ofNat n := by
    intro n; apply UInt8.toNat_inj.1; simp
  have e := decBuffer a b 0 0 ha hb (by decide) (by decide)
  simp only [Nat.zero_shiftLeft, Nat.or_zero] at e
  simp only [decLoop, decQuantum, decQuantum_end, digit_code _ ha, digit_code _ hb, digit_pad.2 rfl, ne_eq, reduceCtorEq, not_false_eq_true,
    true_or, not_true_eq_false, if_false, if_true, Int.reduceNeg, Int.reduceEq, Int.reduceSub, Int.reduceToNat, e, Option.map_some,
    Int.reduceGT, or_true, and255, Nat.shiftRight_eq_div_pow, List.length_append, List.length_cons, List.length_nil, Int.reduceLE, ge_iff_le, Int.reduceDiv, hm]
  rw [if_neg (by omega), if_neg (by omega)]
  refine ⟨UInt8.ofNat ((((a * 64 + b) * 64 + 0) * 64 + 0) / 2^8), ?_⟩
  rw [lastBytes, show ((a * 64 + b) * 64 + 0) * 64 + 0 = (a * 64 + b) * 4096 by omega,
    show (a * 64 + b) * 4096 / 2^16 = (a * 64 + b) / 16 by omega]

theorem dec_pad3 (cap fuel : Nat) (a b c : Nat) (ha : a < 64) (hb : b < 64) (hc : c < 64) (t : List Int) (buf : Nat) (ps : Int) (mem : Bytes)
    (hcap : mem.length + 2 ≤ cap) :
    decLoop cap (fuel + 2) (code64 a :: code64 b :: code64 c :: 61 :: t) buf (-8) ps mem =
      .ok (mem.length + 2, mem ++ lastBytes [a, b, c]) := by
  have hm : ∀ n, UInt8.ofNat (n % 256) = UInt8.ofNat n := by
    intro n; apply UInt8.toNat_inj.1; simp
  have e := decBuffer a b c 0 ha hb hc (by decide)
  simp only [Nat.zero_shiftLeft, Nat.or_zero] at e
  simp only [decLoop, decQuantum, decQuantum_end, digit_code _ ha, digit_code _ hb, digit_code _ hc, digit_pad.2 rfl, ne_eq, reduceCtorEq, not_false_eq_true,
    true_or, not_true_eq_false, if_false, if_true, Int.reduceNeg, Int.reduceEq, Int.reduceSub, Int.reduceToNat, e, Option.map_some,
    Int.reduceGT, or_true, and255, Nat.shiftRight_eq_div_pow, List.length_append, List.length_cons, List.length_nil, Int.reduceLE, ge_iff_le, Int.reduceDiv, hm]
  rw [if_neg (by omega), if_neg (by omega), lastBytes]
  rw [show (((a * 64 + b) * 64 + c) * 64 + 0) / 2^16 = ((a * 64 + b) * 64 + c) / 1024 by omega,
    show (((a * 64 + b) * 64 + c) * 64 + 0) / 2^8 = ((a * 64 + b) * 64 + c) / 4 by omega]
  simp

/-! ### any text -/

theorem digit_split (text : List Int) : ∃ (vals : List Nat) (rest : List Int), text = vals.map code64 ++ rest ∧ (∀ v ∈ vals, v < 64) ∧
    (rest = [] ∨ ∃ c t, rest = c :: t ∧ (b64Digit c = .foreign ∨ c = 61)) := by
  induction text with
  | nil => exact ⟨[], [], rfl, by simp, Or.inl rfl⟩
  | cons c text ih =>
    cases hc : b64Digit c with
    | value v =>
      obtain ⟨h1, h2⟩ := digit_value hc
      obtain ⟨vals, rest, e1, e2, e3⟩ := ih
      refine ⟨v :: vals, rest, by rw [e1, h2]; rfl, ?_, e3⟩
      intro x hx
      rcases List.mem_cons.1 hx with rfl | hx
      · exact h1
      · exact e2 x hx
    | pad => exact ⟨[], c :: text, rfl, by simp, Or.inr ⟨c, text, rfl, Or.inr (digit_pad.1 hc)⟩⟩
    | foreign => exact ⟨[], c :: text, rfl, by simp, Or.inr ⟨c, text, rfl, Or.inl hc⟩⟩

/-- Four-aligned prefix and the rest. -/
theorem vals_split (vals : List Nat) : ∃ full part, vals = full ++ part ∧ full.length = 4 * (vals.length / 4) ∧ part.length = vals.length % 4 := by
  refine ⟨vals.take (4 * (vals.length / 4)), vals.drop (4 * (vals.length / 4)), by simp, ?_, ?_⟩
  · simp; omega
  · simp; omega

/-! ### round trip -/

theorem triple_bytes (a b c : UInt8) : UInt8.ofNat (triple a b c / 256^2) = a ∧ UInt8.ofNat (triple a b c / 256) = b ∧ UInt8.ofNat (triple a b c) = c := by
  have ha := a.toNat_lt; have hb := b.toNat_lt; have hc := c.toNat_lt
  refine ⟨?_, ?_, ?_⟩ <;> apply UInt8.toNat_inj.1 <;> simp only [UInt8.toNat_ofNat', triple] <;> omega

theorem dec_base64 : ∀ (data : Bytes) (fuel cap buf : Nat) (ps : Int) (mem : Bytes), 3 * (base64 data).length < fuel →
    mem.length + (base64 data).length * 3 / 4 ≤ cap →
    ∃ extra : Bytes, extra.length ≤ 1 ∧ decLoop cap fuel (codes (base64 data)) buf (-8) ps mem =
      .ok (mem.length + data.length, mem ++ data ++ extra) := by
  intro data
  induction data using base64.induct with
  | case1 =>
    intro fuel cap buf ps mem h _
    obtain ⟨f, rfl⟩ : ∃ f, fuel = f + 1 := ⟨fuel - 1, by omega⟩
    exact ⟨[], by simp, by simp [base64, codes, dec_end]⟩
  | case2 a =>
    intro fuel cap buf ps mem h hcap
    simp only [base64, List.length_cons, List.length_nil] at h hcap
    obtain ⟨f, rfl⟩ : ∃ f, fuel = f + 2 := ⟨fuel - 2, by omega⟩
    have ht := triple_lt a 0 0
    obtain ⟨x, hx⟩ := dec_pad2 cap f (triple a 0 0 / 64^3) (triple a 0 0 / 64^2 % 64) (by omega) (by omega) [61] buf ps mem (by omega)
    refine ⟨[x], by simp, ?_⟩
    rw [base64]
    refine Eq.trans hx ?_
    have e : (triple a 0 0 / 64 ^ 3 * 64 + triple a 0 0 / 64 ^ 2 % 64) / 16 = triple a 0 0 / 256^2 := by omega
    rw [lastBytes, e, (triple_bytes a 0 0).1]
    rfl
  | case3 a b =>
    intro fuel cap buf ps mem h hcap
    simp only [base64, List.length_cons, List.length_nil] at h hcap
    obtain ⟨f, rfl⟩ : ∃ f, fuel = f + 2 := ⟨fuel - 2, by omega⟩
    have ht := triple_lt a b 0
    have hx := dec_pad3 cap f (triple a b 0 / 64^3) (triple a b 0 / 64^2 % 64) (triple a b 0 / 64 % 64) (by omega) (by omega) (by omega) [] buf ps mem (by omega)
    refine ⟨[], by simp, ?_⟩
    rw [base64]
    refine Eq.trans hx ?_
    have e1 : ((triple a b 0 / 64 ^ 3 * 64 + triple a b 0 / 64 ^ 2 % 64) * 64 + triple a b 0 / 64 % 64) / 1024 = triple a b 0 / 256^2 := by omega
    have e2 : ((triple a b 0 / 64 ^ 3 * 64 + triple a b 0 / 64 ^ 2 % 64) * 64 + triple a b 0 / 64 % 64) / 4 = triple a b 0 / 256 := by omega
    rw [lastBytes, e1, e2, (triple_bytes a b 0).1, (triple_bytes a b 0).2.1]
    simp
  | case4 a b c rest ih =>
    intro fuel cap buf ps mem h hcap
    simp only [base64, List.length_cons, List.length_nil, List.length_append] at h hcap
    obtain ⟨f, rfl⟩ : ∃ f, fuel = f + 3 := ⟨fuel - 3, by omega⟩
    have ht := triple_lt a b c
    have hg := dec_group cap f (triple a b c / 64^3) (triple a b c / 64^2 % 64) (triple a b c / 64 % 64) (triple a b c % 64)
      (by omega) (by omega) (by omega) (by omega) (codes (base64 rest)) buf ps mem (by omega)
    have e : ((triple a b c / 64 ^ 3 * 64 + triple a b c / 64 ^ 2 % 64) * 64 + triple a b c / 64 % 64) * 64 + triple a b c % 64 = triple a b c := by omega
    have hu : unbase64 [triple a b c / 64^3, triple a b c / 64^2 % 64, triple a b c / 64 % 64, triple a b c % 64] = [a, b, c] := by
      simp only [unbase64, e, (triple_bytes a b c).1, (triple_bytes a b c).2.1, (triple_bytes a b c).2.2, List.append_nil]
    rw [hu, e] at hg
    obtain ⟨extra, h1, h2⟩ := ih f cap (triple a b c) (-9) (mem ++ [a, b, c]) (by omega) (by simp; omega)
    refine ⟨extra, h1, ?_⟩
    rw [base64]
    refine Eq.trans hg ?_
    rw [h2]
    simp; omega

theorem base64_length (data : Bytes) : (base64 data).length = 4 * ((data.length + 2) / 3) := by
  induction data using base64.induct with
  | case1 => rfl
  | case2 a => simp [base64]
  | case3 a b => simp [base64]
  | case4 a b c rest ih => simp only [base64, List.length_append, List.length_cons, List.length_nil, ih]; omega

end Fcgi.Model
