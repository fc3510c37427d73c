import Verif.Lemmas.AddressText
import Verif.Spec.AddressTerms
/-! # Printing addresses -/
namespace Fcgi.Model
open Fcgi Fcgi.Spec

theorem digitChar_hex : ∀ (u : Bool) (d : Nat), d < 16 → HexDigit (digitChar u d) d := by
  have : ∀ (u : Bool) (d : Fin 16), b!"0123456789abcdef"[d.val]? = some (digitChar u d.val) ∨ b!"0123456789ABCDEF"[d.val]? = some (digitChar u d.val) := by decide
  intro u d h
  exact this u ⟨d, h⟩

theorem numDigits_hex (u : Bool) : ∀ (k n : Nat), n < 16 ^ k → HexNum (numDigits 16 u k n) n := by
  intro k
  induction k with
  | zero => intro n h; obtain rfl : n = 0 := by simpa using h
            exact .nil
  | succ k ih =>
    intro n h
    unfold numDigits
    have hd := digitChar_hex u (n % 16) (by omega)
    split
    · have := HexNum.snoc .nil hd
      rw [show 16 * 0 + n % 16 = n by omega] at this
      exact this
    · have := HexNum.snoc (ih (n / 16) (by rw [Nat.pow_succ] at h; omega)) hd
      rw [show 16 * (n / 16) + n % 16 = n by omega] at this
      exact this

theorem numDigits_length (u : Bool) : ∀ (k n : Nat), (numDigits 16 u (k + 1) n).length ≤ k + 1 ∧ 1 ≤ (numDigits 16 u (k + 1) n).length := by
  intro k
  induction k with
  | zero => intro n; unfold numDigits; split <;> simp [numDigits]
  | succ k ih =>
    intro n
    unfold numDigits
    split
    · simp
    · have := ih (n / 16); simp; omega

theorem numDigits_fuel (u : Bool) : ∀ (k m n : Nat), n < 16 ^ (k + 1) → k + 1 ≤ m → numDigits 16 u m n = numDigits 16 u (k + 1) n := by
  intro k
  induction k with
  | zero =>
    intro m n h hm
    obtain ⟨m, rfl⟩ : ∃ m', m = m' + 1 := ⟨m - 1, by omega⟩
    unfold numDigits
    simp only [Nat.zero_add, Nat.pow_one] at h
    rw [if_pos h, if_pos h]
  | succ k ih =>
    intro m n h hm
    obtain ⟨m, rfl⟩ : ∃ m', m = m' + 1 := ⟨m - 1, by omega⟩
    unfold numDigits
    split
    · rfl
    · rw [ih m (n / 16) (by rw [Nat.pow_succ] at h; omega) (by omega)]

theorem numText_hex {f : NumFmt} (hf : f.plain) {n : Nat} (hn : n < 65536) :
    HexNum (numText f true n) n ∧ 1 ≤ (numText f true n).length ∧ (numText f true n).length ≤ 4 := by
  have e : numText f true n = numDigits 16 f.uppercase 4 n := by
    unfold numText
    rw [hf.1, hf.2]
    simp only [Bool.false_eq_true, false_and, if_false, if_true]
    exact numDigits_fuel _ 3 5 n (by omega) (by omega)
  rw [e]
  exact ⟨numDigits_hex _ 4 n (by omega), (numDigits_length _ 3 n).2, (numDigits_length _ 3 n).1⟩

set_option maxRecDepth 4000 in
theorem numText_octet (f : NumFmt) (b : Byte) : Octet (numText f false b.toNat) b := by
  have key : ∀ (u : Bool) (n : Fin 256), numDigits 10 u 5 n.val ≠ [] ∧ (numDigits 10 u 5 n.val).all (fun c => decide (48 ≤ c.toNat ∧ c.toNat ≤ 57)) = true ∧
      decimalValue (numDigits 10 u 5 n.val) = n.val ∧ (numDigits 10 u 5 n.val).length ≤ 3 := by decide
  have e : numText f false b.toNat = numDigits 10 f.uppercase 5 b.toNat := by
    have := (key f.uppercase ⟨b.toNat, b.toNat_lt⟩).2.2.2
    dsimp only at this
    unfold numText
    cases f.sep with
    | none => simp
    | some c => simp [show ¬ 3 < (numDigits 10 f.uppercase 5 b.toNat).length by omega]
  rw [e]
  obtain ⟨h1, h2, h3, h4⟩ := key f.uppercase ⟨b.toNat, b.toNat_lt⟩
  refine ⟨⟨h1, ?_, h3⟩, h4⟩
  intro c hc
  have := List.all_eq_true.1 h2 c hc
  exact of_decide_eq_true (p := _ ∧ _) this

/-! ### Groups -/

theorem drop_two {a : Bytes} {i : Nat} (h : 2 * i + 1 < a.length) :
    a.drop (2 * i) = [a.getD (2 * i) 0, a.getD (2 * i + 1) 0] ++ a.drop (2 * (i + 1)) := by
  have e1 := List.drop_eq_getElem_cons (l := a) (i := 2 * i) (by omega)
  have e2 := List.drop_eq_getElem_cons (l := a) (i := 2 * i + 1) h
  rw [e1, e2, show 2 * i + 1 + 1 = 2 * (i + 1) by omega]
  simp [List.getD_eq_getElem?_getD, h, show 2 * i < a.length by omega]

theorem groupAt_lt (a : Bytes) (i : Nat) : groupAt a i < 65536 := by
  unfold groupAt
  have := (a.getD (2 * i) 0).toNat_lt
  have := (a.getD (2 * i + 1) 0).toNat_lt
  omega

theorem print_group {f : NumFmt} (hf : f.plain) (a : Bytes) (i : Nat) :
    HexGroup (numText f true (groupAt a i)) [a.getD (2 * i) 0, a.getD (2 * i + 1) 0] := by
  obtain ⟨h1, h2, h3⟩ := numText_hex hf (groupAt_lt a i)
  refine ⟨_, h1, h2, h3, ?_⟩
  unfold groupAt
  have e1 := (a.getD (2 * i) 0).toNat_lt
  have e2 := (a.getD (2 * i + 1) 0).toNat_lt
  rw [show ((a.getD (2 * i) 0).toNat * 256 + (a.getD (2 * i + 1) 0).toNat) / 256 = (a.getD (2 * i) 0).toNat by omega,
    show ((a.getD (2 * i) 0).toNat * 256 + (a.getD (2 * i + 1) 0).toNat) % 256 = (a.getD (2 * i + 1) 0).toNat by omega]
  simp

/-- Whether group `i` is in the range replaced. -/
def insideRun (sub : Option (Nat × Nat)) (i : Nat) : Prop := ∃ b e, sub = some (b, e) ∧ b ≤ i ∧ i ≤ e

theorem printGroups_outside {f : NumFmt} {a : Bytes} {sub : Option (Nat × Nat)} {k : Nat} {out : Bytes} (hf : f.plain) (hk : k < 8) (ho : ¬ insideRun sub (7 - k))
    (hl : out.length ≤ 5 * (7 - k)) :
    printGroups f a sub (k + 1) out = printGroups f a sub k (out ++ (numText f true (groupAt a (7 - k)) ++ if k = 0 then [] else [58])) := by
  obtain ⟨h1, h2, h3⟩ := numText_hex hf (groupAt_lt a (7 - k))
  conv => lhs; unfold printGroups
  have hi : 8 - (k + 1) = 7 - k := by omega
  have hin : inRun sub (7 - k) = false := by
    unfold inRun
    cases sub with
    | none => rfl
    | some p =>
      obtain ⟨b, e⟩ := p
      simp only [decide_eq_false_iff_not]
      intro hh
      exact ho ⟨b, e, rfl, hh⟩
  simp only [hi, hin, Bool.false_eq_true, if_false]
  have hput : putBuf out (numText f true (groupAt a (7 - k))) = .ok (out ++ numText f true (groupAt a (7 - k))) := by
    unfold putBuf; rw [if_pos (by omega)]
  rw [hput]
  simp only [Res.ok_bind]
  by_cases h0 : k = 0
  · subst h0
    simp
  · rw [if_pos (by omega), if_neg h0]
    have : putBuf (out ++ numText f true (groupAt a (7 - k))) [58] = .ok (out ++ numText f true (groupAt a (7 - k)) ++ [58]) := by
      unfold putBuf; rw [if_pos (by simp; omega)]
    rw [this]
    simp

/-- The groups after the range, or all of them. -/
theorem print_rest {f : NumFmt} {a : Bytes} {sub : Option (Nat × Nat)} (hf : f.plain) (ha : a.length = 16) : ∀ (k : Nat), k < 8 → (∀ j, 7 - k ≤ j → ¬ insideRun sub j) →
    ∃ t, Groups t (a.drop (2 * (7 - k))) ∧ t.length + 1 ≤ 5 * (k + 1) ∧ ∀ out : Bytes, out.length ≤ 5 * (7 - k) → printGroups f a sub (k + 1) out = .ok (out ++ t) := by
  intro k
  induction k with
  | zero =>
    intro hk ho
    have h3 := (numText_hex hf (groupAt_lt a 7)).2.2
    refine ⟨numText f true (groupAt a 7), ?_, by omega, ?_⟩
    · have := Groups.one (print_group hf a 7)
      rw [drop_two (by omega), List.drop_eq_nil_of_le (by omega), List.append_nil]
      exact this
    · intro out hl
      rw [printGroups_outside hf hk (ho _ (Nat.le_refl _)) hl]
      simp [printGroups]
  | succ k ih =>
    intro hk ho
    obtain ⟨t, h1, hl1, h2⟩ := ih (by omega) (fun j hj => ho j (by omega))
    have h4 := (numText_hex hf (groupAt_lt a (7 - (k + 1)))).2.2
    refine ⟨numText f true (groupAt a (7 - (k + 1))) ++ 58 :: t, ?_, by simp only [List.length_append, List.length_cons]; omega, ?_⟩
    · have := Groups.cons (print_group hf a (7 - (k + 1))) h1
      rw [drop_two (by omega)]
      rw [show 7 - (k + 1) + 1 = 7 - k by omega]
      exact this
    · intro out hl
      have h3 := (numText_hex hf (groupAt_lt a (7 - (k + 1)))).2.2
      rw [printGroups_outside hf hk (ho _ (Nat.le_refl _)) hl, if_neg (by omega), h2 _ (by simp only [List.length_append, List.length_cons, List.length_nil]; omega)]
      simp

/-- The groups before the range, which begins at `b`. -/
theorem print_before {f : NumFmt} {a : Bytes} {b e : Nat} (hf : f.plain) (ha : a.length = 16) (hb : b ≤ 7) : ∀ (m : Nat), m < b →
    ∃ t, Groups t (slice a (2 * (b - 1 - m)) (2 * b)) ∧ t.length + 1 ≤ 5 * (m + 1) ∧
      ∀ out : Bytes, out.length ≤ 5 * (b - 1 - m) → printGroups f a (some (b, e)) (8 - (b - 1 - m)) out = printGroups f a (some (b, e)) (8 - b) (out ++ t ++ [58]) := by
  intro m
  induction m with
  | zero =>
    intro hm
    have h3 := (numText_hex hf (groupAt_lt a (b - 1))).2.2
    refine ⟨numText f true (groupAt a (b - 1)), ?_, by omega, ?_⟩
    · have := Groups.one (print_group hf a (b - 1))
      have e : slice a (2 * (b - 1 - 0)) (2 * b) = [a.getD (2 * (b - 1)) 0, a.getD (2 * (b - 1) + 1) 0] := by
        unfold slice
        rw [List.drop_take, Nat.sub_zero, drop_two (by omega), show 2 * b - 2 * (b - 1) = 2 by omega]
        simp
      rw [e]; exact this
    · intro out hl
      have := printGroups_outside (a := a) (sub := some (b, e)) (k := 8 - b) (out := out) hf (by omega) (by rintro ⟨b', e', h, h1, h2⟩; cases h; omega) (by omega)
      rw [show 8 - (b - 1 - 0) = 8 - b + 1 by omega, this, if_neg (by omega), show 7 - (8 - b) = b - 1 by omega]
      simp
  | succ m ih =>
    intro hm
    obtain ⟨t, h1, h2, h3⟩ := ih (by omega)
    have h4 := (numText_hex hf (groupAt_lt a (b - 1 - (m + 1)))).2.2
    refine ⟨numText f true (groupAt a (b - 1 - (m + 1))) ++ 58 :: t, ?_, by simp; omega, ?_⟩
    · have := Groups.cons (print_group hf a (b - 1 - (m + 1))) h1
      have e : slice a (2 * (b - 1 - (m + 1))) (2 * b) = [a.getD (2 * (b - 1 - (m + 1))) 0, a.getD (2 * (b - 1 - (m + 1)) + 1) 0] ++ slice a (2 * (b - 1 - m)) (2 * b) := by
        unfold slice
        rw [List.drop_take, drop_two (by omega), List.drop_take, show b - 1 - (m + 1) + 1 = b - 1 - m by omega]
        rw [List.take_append]
        congr 1
        · rw [List.take_of_length_le (by simp; omega)]
        · congr 1
          simp; omega
      rw [e]; exact this
    · intro out hl
      have := printGroups_outside (a := a) (sub := some (b, e)) (k := 8 - (b - 1 - m)) (out := out) hf (by omega) (by rintro ⟨b', e', h, h1, h2⟩; cases h; omega) (by omega)
      rw [show 8 - (b - 1 - (m + 1)) = 8 - (b - 1 - m) + 1 by omega, this, if_neg (by omega), show 7 - (8 - (b - 1 - m)) = b - 1 - (m + 1) by omega,
        h3 _ (by simp; omega)]
      simp

/-- Inside the range. -/
theorem print_inside {f : NumFmt} {a : Bytes} {b e : Nat} (he : e ≤ 7) : ∀ (m : Nat), m ≤ e - b → b ≤ e → ∀ out : Bytes, out.length + (if e - m = b ∧ b = 0 then 1 else 0) ≤ 39 →
    printGroups f a (some (b, e)) (8 - (e - m)) out = printGroups f a (some (b, e)) (7 - e) (out ++ (if e - m = b ∧ b = 0 then [58] else []) ++ [58]) := by
  intro m
  induction m with
  | zero =>
    intro hm hbe out hl
    have hl' : out.length ≤ 39 := by omega
    rw [Nat.sub_zero] at hl
    rw [show 8 - (e - 0) = 7 - e + 1 by omega]
    conv => lhs; unfold printGroups
    have hi : 8 - (7 - e + 1) = e := by omega
    simp only [hi, inRun, hbe, Nat.le_refl, and_self, decide_true, if_true, Option.any_some, Nat.sub_zero]
    by_cases h0 : e = b ∧ e = 0
    · have h0' : e = b ∧ b = 0 := by omega
      rw [if_pos h0'] at hl
      rw [if_pos (by simpa using h0), if_pos h0']
      simp only [putBuf]
      rw [if_pos (by simp; omega)]
      simp only [Res.ok_bind]
      rw [if_pos (by simp; omega)]
      simp
    · have h0' : ¬ (e = b ∧ b = 0) := by omega
      rw [if_neg (by simpa using h0), if_neg h0']
      simp only [putBuf, Res.ok_bind]
      rw [if_pos (by simp; omega)]
      simp
  | succ m ih =>
    intro hm hbe out hl
    rw [show 8 - (e - (m + 1)) = 8 - (e - m) + 1 by omega]
    conv => lhs; unfold printGroups
    have hi : 8 - (8 - (e - m) + 1) = e - (m + 1) := by omega
    have h1 : b ≤ e - (m + 1) ∧ e - (m + 1) ≤ e := by omega
    have h2 : ¬ e - (m + 1) = e := by omega
    simp only [hi, inRun, h1, and_self, decide_true, if_true, Option.any_some, h2, decide_false, Bool.false_eq_true, if_false]
    by_cases h0 : e - (m + 1) = b ∧ e - (m + 1) = 0
    · have h0' : e - (m + 1) = b ∧ b = 0 := by omega
      rw [if_pos h0'] at hl
      rw [if_pos (by simpa using h0), if_pos h0']
      simp only [putBuf]
      rw [if_pos (by simp; omega)]
      simp only [Res.ok_bind]
      rw [ih (by omega) hbe _ (by rw [if_neg (by omega)]; simp; omega), if_neg (by omega)]
      simp
    · have h0' : ¬ (e - (m + 1) = b ∧ b = 0) := by omega
      rw [if_neg (by simpa using h0), if_neg h0']
      simp only [Res.ok_bind]
      rw [ih (by omega) hbe _ (by rw [if_neg (by omega)]; omega), if_neg (by omega)]

/-! ### The range of zeroes -/

/-- The range is of zero groups. -/
def ZeroRun (a : Bytes) (r : Option (Nat × Nat)) : Prop := ∀ b e, r = some (b, e) → b ≤ e ∧ e ≤ 7 ∧ ∀ i, b ≤ i → i ≤ e → groupAt a i = 0

/-- A candidate ends before `i`. -/
def ZeroCand (a : Bytes) (r : Option (Nat × Nat)) (i : Nat) : Prop := ∀ b e, r = some (b, e) → b < e ∧ e = i ∧ ∀ j, b ≤ j → j < e → groupAt a j = 0

theorem zeroRunEnd_ok {a : Bytes} {sub cand : Option (Nat × Nat)} {i : Nat} (hi : i ≤ 8) (h1 : ZeroRun a sub) (h2 : ZeroCand a cand i) : ZeroRun a (zeroRunEnd sub cand) := by
  unfold zeroRunEnd
  split
  · rename_i b e
    obtain ⟨h3, rfl, h4⟩ := h2 b e rfl
    split
    · intro b' e' hh
      cases hh
      exact ⟨by omega, by omega, fun i hb he => h4 i hb (by omega)⟩
    · exact h1
  · exact h1

theorem zeroRun_ok {a : Bytes} : ∀ (k : Nat) (sub cand : Option (Nat × Nat)), k ≤ 8 → ZeroRun a sub → ZeroCand a cand (8 - k) → ZeroRun a (zeroRun a k sub cand) := by
  intro k
  induction k with
  | zero => intro sub cand _ h1 h2; exact zeroRunEnd_ok (Nat.le_refl _) h1 h2
  | succ k ih =>
    intro sub cand hk h1 h2
    unfold zeroRun
    simp only
    split
    · rename_i hz
      cases cand with
      | none =>
        refine ih _ _ (by omega) h1 ?_
        intro b e hh; cases hh
        refine ⟨by omega, by omega, fun j h3 h4 => ?_⟩
        rw [show j = 8 - (k + 1) by omega]; exact hz
      | some p =>
        obtain ⟨b, e⟩ := p
        obtain ⟨h3, rfl, h4⟩ := h2 b e rfl
        refine ih _ _ (by omega) h1 ?_
        intro b' e' hh; cases hh
        refine ⟨by omega, by omega, fun j h5 h6 => ?_⟩
        by_cases hj : j < 8 - (k + 1)
        · exact h4 j h5 hj
        · rw [show j = 8 - (k + 1) by omega]; exact hz
    · exact ih _ _ (by omega) (zeroRunEnd_ok (by omega) h1 h2) (by intro b e hh; cases hh)

theorem groupAt_zero {a : Bytes} {i : Nat} (h : groupAt a i = 0) : a.getD (2 * i) 0 = 0 ∧ a.getD (2 * i + 1) 0 = 0 := by
  unfold groupAt at h
  refine ⟨UInt8.toNat_inj.1 ?_, UInt8.toNat_inj.1 ?_⟩
  · show _ = 0; omega
  · show _ = 0; omega

/-- The bytes of zero groups. -/
theorem drop_zeros {a : Bytes} {b e : Nat} (ha : a.length = 16) (he : e ≤ 7) : ∀ (m : Nat), m ≤ e + 1 - b → (∀ i, b ≤ i → i ≤ e → groupAt a i = 0) → b ≤ e + 1 →
    a.drop (2 * (e + 1 - m)) = List.replicate (2 * m) 0 ++ a.drop (2 * (e + 1)) := by
  intro m
  induction m with
  | zero => intro _ _ _; simp
  | succ m ih =>
    intro hm hz hb
    rw [drop_two (by omega), (groupAt_zero (hz (e + 1 - (m + 1)) (by omega) (by omega))).1, (groupAt_zero (hz (e + 1 - (m + 1)) (by omega) (by omega))).2,
      show e + 1 - (m + 1) + 1 = e + 1 - m by omega, ih (by omega) hz hb, show 2 * (m + 1) = 2 * m + 1 + 1 by omega, List.replicate_succ, List.replicate_succ]
    rfl

/-! ### The whole -/

theorem printGroups_text {f : NumFmt} {a : Bytes} {sub : Option (Nat × Nat)} (hf : f.plain) (ha : a.length = 16) (hz : ZeroRun a sub) :
    ∃ t, printGroups f a sub 8 [] = .ok t ∧ AddrText t a ∧ t.length ≤ 39 := by
  cases sub with
  | none =>
    obtain ⟨t, h1, h2, h3⟩ := print_rest (f := f) (a := a) (sub := none) hf ha 7 (by omega) (by rintro j _ ⟨b, e, hh, _⟩; cases hh)
    exact ⟨t, h3 [] (by simp), .full (.groups h1) (by simp [ha]), by omega⟩
  | some p =>
    obtain ⟨b, e⟩ := p
    obtain ⟨hbe, he, hzz⟩ := hz b e rfl
    have hmid : a.drop (2 * b) = List.replicate (2 * (e + 1 - b)) 0 ++ a.drop (2 * (e + 1)) := by
      have := drop_zeros ha he (e + 1 - b) (Nat.le_refl _) hzz (by omega)
      rwa [show e + 1 - (e + 1 - b) = b by omega] at this
    have rest : e < 7 → ∃ t, Groups t (a.drop (2 * (e + 1))) ∧ t.length + 1 ≤ 5 * (7 - e) ∧ ∀ out : Bytes, out.length ≤ 5 * (e + 1) →
        printGroups f a (some (b, e)) (7 - e) out = .ok (out ++ t) := by
      intro he7
      obtain ⟨t, h1, h2, h3⟩ := print_rest (f := f) (a := a) (sub := some (b, e)) hf ha (6 - e) (by omega) (by rintro j hj ⟨b', e', hh, h4, h5⟩; cases hh; omega)
      rw [show 7 - (6 - e) = e + 1 by omega, show 6 - e + 1 = 7 - e by omega] at *
      exact ⟨t, h1, h2, h3⟩
    by_cases hb : b = 0
    · subst hb
      have h1 := print_inside (f := f) (a := a) (b := 0) he e (by omega) hbe [] (by simp)
      rw [Nat.sub_self, if_pos ⟨rfl, rfl⟩] at h1
      rw [h1]
      by_cases he7 : e = 7
      · subst he7
        refine ⟨[58, 58], rfl, ?_, by simp⟩
        have : a = List.replicate 16 0 := by
          have hd : a.drop 16 = [] := List.drop_eq_nil_of_le (by omega)
          simpa [hd] using hmid
        rw [this]
        exact .none
      · obtain ⟨t, h2, h3, h4⟩ := rest (by omega)
        refine ⟨_, h4 _ (by simp; omega), ?_, by simp; omega⟩
        have := AddrText.right (.groups h2) (by simp [ha]; omega)
        have e1 : List.replicate (16 - (a.drop (2 * (e + 1))).length) 0 ++ a.drop (2 * (e + 1)) = a := by
          rw [List.length_drop, ha, show 16 - (16 - 2 * (e + 1)) = 2 * (e + 1 - 0) by omega, ← hmid]
          simp
        rw [e1] at this
        exact this
    · obtain ⟨t, h1, h2, h3⟩ := print_before (f := f) (a := a) (b := b) (e := e) hf ha (by omega) (b - 1) (by omega)
      rw [show b - 1 - (b - 1) = 0 by omega] at h1 h3
      have h3 := h3 [] (by simp)
      have h4 := print_inside (f := f) (a := a) (b := b) he (e - b) (by omega) hbe ([] ++ t ++ [58]) (by rw [if_neg (by omega)]; simp; omega)
      rw [show e - (e - b) = b by omega, if_neg (by omega)] at h4
      rw [Nat.sub_zero] at h3
      rw [h3, h4]
      have hta : a.take (2 * b) ++ a.drop (2 * b) = a := List.take_append_drop _ _
      have hs : slice a (2 * 0) (2 * b) = a.take (2 * b) := by simp [slice]
      rw [hs] at h1
      by_cases he7 : e = 7
      · subst he7
        refine ⟨t ++ [58, 58], by simp [printGroups], ?_, by simp; omega⟩
        have := AddrText.left h1 (by simp; omega)
        have e1 : a.take (2 * b) ++ List.replicate (16 - (a.take (2 * b)).length) 0 = a := by
          have hd : a.drop 16 = [] := List.drop_eq_nil_of_le (by omega)
          simp only [Nat.reduceAdd, Nat.reduceMul, hd, List.append_nil] at hmid
          rw [List.length_take, ha, Nat.min_eq_left (by omega), show 16 - 2 * b = 2 * (8 - b) by omega, ← hmid, hta]
        rw [e1] at this
        exact this
      · obtain ⟨t', h5, h6, h7⟩ := rest (by omega)
        refine ⟨t ++ [58, 58] ++ t', by rw [h7 _ (by simp; omega)]; simp, ?_, by simp; omega⟩
        have := AddrText.mid h1 (Or.inl (.groups h5)) (by simp [ha]; omega)
        have e1 : a.take (2 * b) ++ List.replicate (16 - ((a.take (2 * b)).length + (a.drop (2 * (e + 1))).length)) 0 ++ a.drop (2 * (e + 1)) = a := by
          rw [List.length_take, List.length_drop, ha, Nat.min_eq_left (by omega), show 16 - (2 * b + (16 - 2 * (e + 1))) = 2 * (e + 1 - b) by omega, List.append_assoc, ← hmid, hta]
        rw [e1] at this
        exact this

theorem printOctets_ok {f : NumFmt} (hf : f.plain) : ∀ (bs out : Bytes), out.length + 4 * bs.length ≤ 40 →
    printOctets f out bs = .ok (out ++ bs.flatMap (fun b => numText f false b.toNat ++ [46])) := by
  intro bs
  induction bs with
  | nil => intro out _; simp [printOctets]
  | cons b bs ih =>
    intro out hl
    have := (numText_octet f b).2
    simp only [List.length_cons] at hl
    unfold printOctets putBuf
    rw [if_pos (by omega)]
    simp only [Res.ok_bind]
    rw [if_pos (by simp; omega)]
    simp only [Res.ok_bind]
    rw [ih _ (by simp; omega)]
    simp

/-- What is printed is a text of the address and has at most 39 characters. -/
theorem printBuffer_text {f : NumFmt} {a : Bytes} (hf : f.plain) (ha : a.length = 16) :
    ∃ t, printBuffer f a = .ok t ∧ AddrText t a ∧ t.length ≤ 39 := by
  have hz : ZeroRun a (zeroRun a 8 none none) := zeroRun_ok 8 none none (Nat.le_refl _) (by intro b e hh; cases hh) (by intro b e hh; cases hh)
  unfold printBuffer
  simp only
  split
  · rename_i hv
    obtain ⟨h1, h2⟩ := hv
    rw [h1] at hz
    obtain ⟨_, _, hzz⟩ := hz 0 4 rfl
    have hmid := drop_zeros ha (e := 4) (b := 0) (by omega) 5 (by omega) hzz (by omega)
    simp only [Nat.reduceAdd, Nat.reduceSub, Nat.reduceMul, List.drop_zero] at hmid
    have h10 := drop_two (a := a) (i := 5) (by omega)
    have h12 := drop_two (a := a) (i := 6) (by omega)
    have h14 := drop_two (a := a) (i := 7) (by omega)
    have h16 : a.drop 16 = [] := List.drop_eq_nil_of_le (by omega)
    simp only [Nat.reduceAdd, Nat.reduceMul] at h10 h12 h14
    rw [h16] at h14
    rw [h14] at h12
    rw [h12] at h10
    rw [h10] at hmid
    have hff : a.getD 10 0 = 255 ∧ a.getD 11 0 = 255 := by
      unfold groupAt at h2
      have := (a.getD (2 * 5) 0).toNat_lt
      have := (a.getD (2 * 5 + 1) 0).toNat_lt
      refine ⟨UInt8.toNat_inj.1 ?_, UInt8.toNat_inj.1 ?_⟩
      · show (a.getD (2 * 5) 0).toNat = 255; omega
      · show (a.getD (2 * 5 + 1) 0).toNat = 255; omega
    rw [hff.1, hff.2] at hmid
    have hF : HexNum (numText f true 0xffff) 0xffff ∧ 1 ≤ (numText f true 0xffff).length ∧ (numText f true 0xffff).length ≤ 4 := numText_hex hf (by omega)
    have hFG : HexGroup (numText f true 0xffff) [255, 255] := ⟨_, hF.1, hF.2.1, hF.2.2, rfl⟩
    rw [h12]
    generalize a.getD 12 0 = x1 at *
    generalize a.getD 13 0 = x2 at *
    generalize a.getD 14 0 = x3 at *
    generalize a.getD 15 0 = x4 at *
    have o1 := numText_octet f x1
    have o2 := numText_octet f x2
    have o3 := numText_octet f x3
    have o4 := numText_octet f x4
    have l1 := o1.2
    have l2 := o2.2
    have l3 := o3.2
    have l4 := o4.2
    refine ⟨[58, 58] ++ (numText f true 0xffff ++ 58 :: (numText f false x1.toNat ++ 46 :: (numText f false x2.toNat ++ 46 :: (numText f false x3.toNat ++ 46 :: numText f false x4.toNat)))), ?_, ?_, ?_⟩
    · have p : ∀ (o s : Bytes), o.length + s.length ≤ 40 → putBuf o s = .ok (o ++ s) := fun o s hh => by unfold putBuf; rw [if_pos hh]
      rw [p _ _ (by simp)]; simp only [Res.ok_bind]
      rw [p _ _ (by simp)]; simp only [Res.ok_bind]
      rw [p _ _ (by simp only [List.length_append, List.length_cons, List.length_nil]; omega)]; simp only [Res.ok_bind]
      rw [p _ _ (by simp only [List.length_append, List.length_cons, List.length_nil]; omega)]; simp only [Res.ok_bind]
      rw [printOctets_ok hf _ _ (by simp only [List.length_append, List.length_cons, List.length_nil]; omega)]
      simp only [Res.ok_bind, List.append_nil, List.cons_append, List.nil_append, List.flatMap_cons, List.flatMap_nil]
      have : ∀ (x y : Bytes) (z : Byte), (x ++ (y ++ [z])).dropLast = x ++ y := by intro x y z; rw [← List.append_assoc, List.dropLast_concat]
      show Res.ok _ = _
      congr 1
      generalize numText f true 0xffff = F
      generalize numText f false x1.toNat = t1
      generalize numText f false x2.toNat = t2
      generalize numText f false x3.toNat = t3
      generalize numText f false x4.toNat = t4
      have e : (58 : Byte) :: 58 :: (F ++ [58] ++ (t1 ++ [46] ++ (t2 ++ [46] ++ (t3 ++ [46] ++ (t4 ++ [46]))))) =
        (58 :: 58 :: (F ++ 58 :: (t1 ++ 46 :: (t2 ++ 46 :: (t3 ++ 46 :: t4))))) ++ [46] := by simp
      have e' := congrArg List.dropLast e
      rw [List.dropLast_concat] at e'
      simpa using e'
    · have := AddrText.right (.quad (.one hFG) (.mk o1 o2 o3 o4)) (by simp)
      rw [hmid]
      simpa using this
    · simp; omega
  · exact printGroups_text hf ha hz

end Fcgi.Model
