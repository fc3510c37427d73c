import Verif.Lemmas.AddressGet
import Verif.Lemmas.AddressText
import Verif.Lemmas.HttpMore
/-! # Memory safety of the address parsers; foreign characters; order and masks -/
namespace Fcgi.Model
open Fcgi Fcgi.Spec

/-- No undefined behaviour other than overflow of a number, and the address has 16 bytes. -/
def Fine (r : Res (Option AddrSt)) : Prop := r = .ub .signedOverflow ∨ r = .ok none ∨ ∃ s, r = .ok (some s) ∧ s.data.length = 16 ∧ s.write ≤ 16 ∧ ∀ p, s.pad = some p → p ≤ s.write

theorem atoi_fine (v after : Bytes) (hv : v ≠ []) (ha : after ≠ []) : atoi v after = .ub .signedOverflow ∨ ∃ x, atoi v after = .ok x := by
  unfold atoi
  match v, hv with
  | c :: v, _ =>
    have hl := List.length_pos_iff.2 ha
    simp only [List.cons_append, rd, List.getElem?_cons_zero, Res.ok_bind, List.length_cons, List.drop_succ_cons, List.drop_zero, Nat.add_sub_cancel]
    split
    · rcases atoiDigits_safe (v ++ after) v.length 0 (by simp; omega) with h | ⟨x, h⟩
      · rw [h]; left; rfl
      · rw [h]; right; exact ⟨-x, rfl⟩
    · exact atoiDigits_safe (c :: (v ++ after)) (v.length + 1) 0 (by simp; omega)

theorem octets_fine {mem : Bytes} {len : Nat} (hm : len < mem.length) : ∀ (k read : Nat) (s : AddrSt), s.data.length = 16 → s.write + k ≤ 16 → (∀ p, s.pad = some p → p ≤ s.write) →
    Fine (octets mem len k read s) := by
  intro k
  induction k with
  | zero => intro read s h1 h2 h3; exact Or.inr (Or.inr ⟨s, rfl, h1, by omega, h3⟩)
  | succ k ih =>
    intro read s h1 h2 h3
    unfold octets
    simp only
    split
    · split
      · rename_i hp
        have hne : slice mem (findDot mem read len + 1) len ≠ [] := by
          intro hh
          have := congrArg List.length hh
          simp only [slice, List.length_drop, List.length_take, List.length_nil] at this
          omega
        have hne' : mem.drop len ≠ [] := by
          intro hh
          have := congrArg List.length hh
          simp only [List.length_drop, List.length_nil] at this
          omega
        rcases atoi_fine _ _ hne hne' with h | ⟨x, h⟩
        · rw [h]; left; rfl
        · rw [h]
          simp only [Res.ok_bind, storeByte]
          rw [if_pos (by omega)]
          simp only [Res.ok_bind]
          exact ih _ _ (by simpa using h1) (by simp; omega) (fun p hp => by have := h3 p hp; simp; omega)
      · exact Or.inr (Or.inl rfl)
    · exact Or.inr (Or.inr ⟨s, rfl, h1, by omega, h3⟩)

theorem group_fine {s : AddrSt} (h1 : s.data.length = 16) (h2 : s.write ≤ 14) :
    ∃ s', s.group = .ok s' ∧ s'.data.length = 16 ∧ s'.write = s.write + 2 ∧ s'.pad = s.pad ∧ s'.chunk = 0 := by
  unfold AddrSt.group storeByte
  rw [if_pos (by omega)]
  simp only [Res.ok_bind]
  rw [if_pos (by simp; omega)]
  exact ⟨_, rfl, by simpa using h1, rfl, rfl, rfl⟩

theorem firstOctet_fine {s : AddrSt} (h1 : s.data.length = 16) (h3 : ∀ p, s.pad = some p → p ≤ s.write) :
    s.firstOctet = .ok none ∨ ∃ s', s.firstOctet = .ok (some s') ∧ s'.data.length = 16 ∧ s'.write ≤ 13 ∧ ∀ p, s'.pad = some p → p ≤ s'.write := by
  unfold AddrSt.firstOctet storeByte
  split
  · right
    rw [if_pos (by omega)]
    simp only [Res.ok_bind]
    rw [if_pos (by simp; omega)]
    simp only [Res.ok_bind]
    rw [if_pos (by simp; omega)]
    exact ⟨_, rfl, by simpa using h1, by simp, by simp⟩
  · split
    · left; rfl
    · right
      rw [if_pos (by omega)]
      exact ⟨_, rfl, by simpa using h1, by simp; omega, fun p hp => by have := h3 p hp; simp; omega⟩

/-- A text followed by something that is not a colon. -/
theorem assignLoop_fine {text after : Bytes} {c : Byte} {n : Nat} (hc : c ≠ 58) (hn : after[n]? = some c) : ∀ (fuel read : Nat) (s : AddrSt), read ≤ text.length + 1 + n → fuel + read = text.length + after.length + 2 →
    s.data.length = 16 → s.write ≤ 14 → (∃ k, s.write = 2 * k) → (∀ p, s.pad = some p → p ≤ s.write) → (text.length + 1 ≤ read → s.pad ≠ none) →
    Fine (assignLoop (text ++ after) text.length fuel read s) := by
  intro fuel
  induction fuel with
  | zero => intro read s h1 h2; have := (List.getElem?_eq_some_iff.1 hn).1; omega
  | succ fuel ih =>
    intro read s h1 h2 h3 h4 h5 h6 h7
    unfold assignLoop
    have hlen : (text ++ after).length = text.length + after.length := by simp
    have hnl : n < after.length := (List.getElem?_eq_some_iff.1 hn).1
    have hmid : (text ++ after)[text.length + n]? = some c := by rw [List.getElem?_append_right (by omega), show text.length + n - text.length = n by omega, hn]
    have hget : ∀ i, i ≤ text.length + n → ∃ x, (text ++ after)[i]? = some x := by
      intro i hi
      exact ⟨_, List.getElem?_eq_getElem (by omega)⟩
    -- at the end or a colon
    have hstop : ∀ empty, (if read = 0 then Res.ok true else do let c' ← rd (text ++ after) (read - 1); return decide (c' = 58)) = Res.ok empty →
        (read = text.length + 1 + n → empty = false) →
        Fine (if empty = true then (if s.pad ≠ none ∧ s.pad ≠ some s.write then Res.ok none else assignLoop (text ++ after) text.length fuel (read + 1) { s with pad := some s.write })
          else do
            let s ← s.group
            if s.write ≥ 16 ∨ read ≥ text.length then
              if read ≥ text.length ∧ s.write < 16 ∧ s.pad = none then .ok none else .ok (some s)
            else assignLoop (text ++ after) text.length fuel (read + 1) s) := by
      intro empty _ hemp
      cases empty with
      | true =>
        rw [if_pos rfl]
        split
        · exact Or.inr (Or.inl rfl)
        · have : read ≠ text.length + 1 + n := fun h => by have := hemp h; cases this
          exact ih (read + 1) _ (by omega) (by omega) h3 h4 h5 (by intro p hp; cases hp; exact Nat.le_refl _) (by simp)
      | false =>
        rw [if_neg (by simp)]
        obtain ⟨s', g1, g2, g3, g4, _⟩ := group_fine h3 h4
        rw [g1]
        simp only [Res.ok_bind]
        split
        · split
          · exact Or.inr (Or.inl rfl)
          · exact Or.inr (Or.inr ⟨s', rfl, g2, by omega, fun p hp => by rw [g4] at hp; have := h6 p hp; omega⟩)
        · obtain ⟨k, hk⟩ := h5
          exact ih (read + 1) s' (by omega) (by omega) g2 (by omega) ⟨k + 1, by omega⟩ (fun p hp => by rw [g4] at hp; have := h6 p hp; omega) (by intro; omega)
    have hempty : ∃ empty, (if read = 0 then Res.ok true else do let c' ← rd (text ++ after) (read - 1); return decide (c' = 58)) = Res.ok empty ∧ (read = text.length + 1 + n → empty = false) := by
      split
      · rename_i h0; exact ⟨true, rfl, by omega⟩
      · obtain ⟨x, hx⟩ := hget (read - 1) (by omega)
        refine ⟨decide (x = 58), by simp [rd, hx], ?_⟩
        intro hr
        rw [hr, show text.length + 1 + n - 1 = text.length + n by omega, hmid] at hx
        cases hx
        simpa using hc
    obtain ⟨empty, he, hemp⟩ := hempty
    by_cases hr : read ≥ text.length
    · simp only [hr, if_true, Res.ok_bind]
      rw [he]
      have := hstop empty he hemp
      simpa [hr] using this
    · obtain ⟨x, hx⟩ := hget read (by omega)
      by_cases h58 : x = 58
      · have e : (do let c ← rd (text ++ after) read; return decide (c = 58) : Res Bool) = .ok true := by simp [rd, hx, h58]
        simp only [hr, if_false]
        rw [e]
        simp only [Res.ok_bind, if_true]
        rw [he]
        have := hstop empty he hemp
        simpa [hr] using this
      · have e : (do let c ← rd (text ++ after) read; return decide (c = 58) : Res Bool) = .ok false := by simp [rd, hx, h58]
        simp only [hr, if_false]
        rw [e]
        simp only [Res.ok_bind, Bool.false_eq_true, if_false]
        have e' : rd (text ++ after) read = .ok x := by simp [rd, hx]
        rw [e']
        simp only [Res.ok_bind]
        split
        · exact ih (read + 1) _ (by omega) (by omega) h3 h4 h5 h6 (by intro; omega)
        · split
          · rcases firstOctet_fine h3 h6 with h | ⟨s', h, h8, h9, h10⟩
            · rw [h]; exact Or.inr (Or.inl rfl)
            · rw [h]
              simp only [Res.ok_bind]
              exact octets_fine (by omega) 3 read s' h8 (by omega) h10
          · exact Or.inr (Or.inl rfl)

theorem padded_length {s : AddrSt} (h1 : s.data.length = 16) (h2 : s.write ≤ 16) (h3 : ∀ p, s.pad = some p → p ≤ s.write) : s.padded.length = 16 := by
  unfold AddrSt.padded
  split
  · exact h1
  · rename_i p hp
    have := h3 p hp
    split
    · simp [h1]; omega
    · simp [slice, h1]; omega

theorem assign_fine {text after old : Bytes} (hc : EndsColons after) (ho : old.length = 16) :
    assign text after old = .ub .signedOverflow ∨ ∃ a, assign text after old = .ok a ∧ a.length = 16 := by
  obtain ⟨c, hc1, hc2⟩ := hc
  obtain ⟨n, hn⟩ := List.getElem?_of_mem hc1
  have h := assignLoop_fine (text := text) (after := after) hc2 hn ((text ++ after).length + 2) 0 ⟨old, 0, none, 0⟩ (by omega) (by simp) ho (by simp) ⟨0, rfl⟩
    (by intro p hp; cases hp) (by intro h; omega)
  unfold assign
  rcases h with h | h | ⟨s, h, h1, h2, h3⟩
  · rw [h]; left; rfl
  · rw [h]; right; exact ⟨_, rfl, by simp⟩
  · rw [h]; right; exact ⟨_, rfl, padded_length h1 h2 h3⟩

/-! ### Foreign characters -/

theorem go_foreign {mem : Bytes} {len : Nat} {c : Byte} {rest : Bytes} (hf : Foreign c) : ∀ (p pre : Bytes) (s : AddrSt), mem = pre ++ (p ++ c :: rest) → pre.length + p.length < len →
    (∀ x ∈ p, x = 58 ∨ ∃ d, HexDigit x d) → s.data.length = 16 → s.write + 2 * p.count 58 ≤ 14 → go mem len pre.length s = .ok none := by
  intro p
  induction p with
  | nil =>
    intro pre s hm hl hp h1 h2
    have hc : mem[pre.length]? = some c := by rw [hm]; exact getElem_after
    have hr : pre.length < mem.length := (List.getElem?_eq_some_iff.1 hc).1
    unfold go
    rw [show mem.length + 2 - pre.length = (mem.length + 2 - (pre.length + 1)) + 1 by omega]
    unfold assignLoop
    simp only [List.length_nil] at hl
    have hnl : ¬ pre.length ≥ len := by omega
    simp [hnl, rd, hc, hf.1, hf.2.1, foreign_addr hf]
  | cons x p ih =>
    intro pre s hm hl hp h1 h2
    have hx : mem[pre.length]? = some x := by rw [hm]; exact getElem_after
    have hr : pre.length < mem.length := (List.getElem?_eq_some_iff.1 hx).1
    simp only [List.length_cons] at hl
    have next : ∀ s' : AddrSt, s'.data.length = 16 → s'.write + 2 * p.count 58 ≤ 14 → go mem len (pre.length + 1) s' = .ok none := by
      intro s' h3 h4
      have := ih (pre ++ [x]) s' (by simpa using hm) (by simp; omega) (fun y hy => hp y (List.mem_cons_of_mem _ hy)) h3 h4
      simpa using this
    by_cases h58 : x = 58
    · subst h58
      rw [List.count_cons_self] at h2
      unfold go
      rw [show mem.length + 2 - pre.length = (mem.length + 2 - (pre.length + 1)) + 1 by omega]
      unfold assignLoop
      have hnl : ¬ pre.length ≥ len := by omega
      obtain ⟨s', g1, g2, g3, g4, _⟩ := group_fine (s := s) h1 (by omega)
      have hempty : ∃ empty, (if pre.length = 0 then Res.ok true else do let c' ← rd mem (pre.length - 1); return decide (c' = 58)) = Res.ok empty := by
        split
        · exact ⟨true, rfl⟩
        · have : pre.length - 1 < mem.length := by omega
          exact ⟨decide (mem[pre.length - 1] = 58), by simp [rd, List.getElem?_eq_getElem this]⟩
      obtain ⟨empty, he⟩ := hempty
      have e : (do let c ← rd mem pre.length; return decide (c = 58) : Res Bool) = .ok true := by simp [rd, hx]
      simp only [hnl, if_false]
      rw [e]
      simp only [Res.ok_bind, if_true]
      rw [he]
      simp only [Res.ok_bind]
      cases empty with
      | true =>
        simp only [if_true]
        split
        · rfl
        · exact next _ h1 (by simp; omega)
      | false =>
        simp only [Bool.false_eq_true, if_false]
        rw [g1]
        simp only [Res.ok_bind]
        rw [if_neg (show ¬ (s'.write ≥ 16 ∨ False) by rintro (h | h) <;> omega)]
        exact next s' g2 (by omega)
    · have hcnt : (x :: p).count 58 = p.count 58 := List.count_cons_of_ne h58
      rw [hcnt] at h2
      rcases hp x (List.mem_cons_self ..) with h | ⟨d, hd⟩
      · exact absurd h h58
      · rw [go_digit (by omega) hx (hexDigit_addr hd).1]
        exact next _ h1 h2

/-! ### Extraction is safe -/

theorem getOctets_fine : ∀ (k : Nat) (s : Bytes) (st : AddrSt) (fail : Bool), st.data.length = 16 → st.write + k ≤ 16 → (∀ p, st.pad = some p → p ≤ st.write) →
    ∃ st' fail' s', getOctets k s st fail = .ok (st', fail', s') ∧ st'.data.length = 16 ∧ st'.write ≤ 16 ∧ ∀ p, st'.pad = some p → p ≤ st'.write := by
  intro k
  induction k with
  | zero => intro s st fail h1 h2 h3; exact ⟨st, fail, s, rfl, h1, by omega, h3⟩
  | succ k ih =>
    intro s st fail h1 h2 h3
    unfold getOctets
    split
    · simp only [storeByte]
      rw [if_pos (by omega)]
      simp only [Res.ok_bind]
      exact ih _ _ _ (by simpa using h1) (by simp; omega) (fun p hp => by have := h3 p hp; simp; omega)
    · exact ⟨st, true, s, rfl, h1, by omega, h3⟩

theorem getLoop_fine : ∀ (n : Nat) (s : Bytes) (last : Byte) (st : AddrSt), st.data.length = 16 → st.write ≤ 14 → (∃ k, st.write = 2 * k) → (∀ p, st.pad = some p → p ≤ st.write) →
    ∃ st' fail' s', getLoop n s last st = .ok (st', fail', s') ∧ st'.data.length = 16 ∧ st'.write ≤ 16 ∧ ∀ p, st'.pad = some p → p ≤ st'.write := by
  intro n
  induction n with
  | zero => intro s last st h1 h2 h3 h4; exact ⟨st, true, s, rfl, h1, by omega, h4⟩
  | succ n ih =>
    intro s last st h1 h2 h3 h4
    unfold getLoop
    simp only
    split
    · exact ih _ _ _ h1 h2 h3 h4
    · split
      · rcases firstOctet_fine h1 h4 with h | ⟨s', h, h5, h6, h7⟩
        · rw [h]; exact ⟨st, true, s, rfl, h1, by omega, h4⟩
        · rw [h]
          simp only [Res.ok_bind]
          exact getOctets_fine 3 s s' false h5 (by omega) h7
      · split
        · split
          · exact ⟨st, true, s, rfl, h1, by omega, h4⟩
          · exact ih _ _ _ h1 h2 h3 (by intro p hp; cases hp; exact Nat.le_refl _)
        · obtain ⟨s', g1, g2, g3, g4, _⟩ := group_fine h1 h2
          have g5 : ∀ p, s'.pad = some p → p ≤ s'.write := fun p hp => by rw [g4] at hp; have := h4 p hp; omega
          rw [g1]
          simp only [Res.ok_bind]
          split
          · exact ⟨_, _, _, rfl, g2, by omega, g5⟩
          · split
            · exact ⟨_, _, _, rfl, g2, by omega, g5⟩
            · obtain ⟨k, hk⟩ := h3
              exact ih _ _ _ g2 (by omega) ⟨k + 1, by omega⟩ g5

/-! ### Order and masks -/

theorem bigEndian_acc : ∀ (a : Bytes) (n : Nat), a.foldl (fun n b => 256 * n + b.toNat) n = n * 256 ^ a.length + bigEndian a := by
  intro a
  induction a with
  | nil => intro n; simp [bigEndian]
  | cons x a ih =>
    intro n
    unfold bigEndian
    rw [List.foldl_cons, List.foldl_cons, ih, ih (256 * 0 + x.toNat), List.length_cons, Nat.pow_succ]
    rw [Nat.add_mul, Nat.mul_zero, Nat.zero_add, ← Nat.add_assoc]
    congr 2
    rw [Nat.mul_comm 256 n, Nat.mul_assoc, Nat.mul_comm 256]

theorem bigEndian_cons (x : Byte) (a : Bytes) : bigEndian (x :: a) = x.toNat * 256 ^ a.length + bigEndian a := by
  conv => lhs; unfold bigEndian
  rw [List.foldl_cons, bigEndian_acc]
  simp

theorem bigEndian_lt (a : Bytes) : bigEndian a < 256 ^ a.length := by
  induction a with
  | nil => simp [bigEndian]
  | cons x a ih =>
    rw [bigEndian_cons, List.length_cons, Nat.pow_succ]
    have := x.toNat_lt
    have : (x.toNat + 1) * 256 ^ a.length ≤ 256 * 256 ^ a.length := Nat.mul_le_mul_right _ (by omega)
    rw [Nat.add_mul] at this
    rw [Nat.mul_comm (256 ^ a.length)]
    omega

theorem memLess_iff : ∀ (a b : Bytes), a.length = b.length → (memLess a b = true ↔ bigEndian a < bigEndian b) := by
  intro a
  induction a with
  | nil => intro b h; cases b with
    | nil => simp [memLess, bigEndian]
    | cons => simp at h
  | cons x a ih =>
    intro b h
    cases b with
    | nil => simp at h
    | cons y b =>
      simp only [List.length_cons, Nat.add_right_cancel_iff] at h
      unfold memLess
      rw [bigEndian_cons, bigEndian_cons, h]
      by_cases hxy : x = y
      · subst hxy
        rw [if_pos rfl, ih b h]
        omega
      · rw [if_neg hxy, decide_eq_true_eq, UInt8.lt_iff_toNat_lt]
        have ha := bigEndian_lt a
        have hb := bigEndian_lt b
        rw [h] at ha
        have hne : x.toNat ≠ y.toNat := fun h => hxy (UInt8.toNat_inj.1 h)
        constructor
        · intro hlt
          have : (x.toNat + 1) * 256 ^ b.length ≤ y.toNat * 256 ^ b.length := Nat.mul_le_mul_right _ hlt
          rw [Nat.add_mul] at this
          omega
        · intro hlt
          apply Nat.lt_of_not_le
          intro hle
          have : (y.toNat + 1) * 256 ^ b.length ≤ x.toNat * 256 ^ b.length := Nat.mul_le_mul_right _ (by omega)
          rw [Nat.add_mul] at this
          omega

theorem bigEndian_inj : ∀ {a b : Bytes}, a.length = b.length → bigEndian a = bigEndian b → a = b := by
  intro a
  induction a with
  | nil => intro b h _; cases b with
    | nil => rfl
    | cons => simp at h
  | cons x a ih =>
    intro b h he
    cases b with
    | nil => simp at h
    | cons y b =>
      simp only [List.length_cons, Nat.add_right_cancel_iff] at h
      rw [bigEndian_cons, bigEndian_cons, h] at he
      have ha := bigEndian_lt a
      have hb := bigEndian_lt b
      rw [h] at ha
      have hxy : x.toNat = y.toNat := by
        apply Nat.le_antisymm
        · apply Nat.le_of_not_lt
          intro hlt
          have : (y.toNat + 1) * 256 ^ b.length ≤ x.toNat * 256 ^ b.length := Nat.mul_le_mul_right _ hlt
          rw [Nat.add_mul] at this
          omega
        · apply Nat.le_of_not_lt
          intro hlt
          have : (x.toNat + 1) * 256 ^ b.length ≤ y.toNat * 256 ^ b.length := Nat.mul_le_mul_right _ hlt
          rw [Nat.add_mul] at this
          omega
      rw [hxy] at he
      rw [UInt8.toNat_inj.1 hxy, ih h (by omega)]

/-- The words of `xs` and `ys` combined. -/
theorem unword_and : ∀ (xs ys : Bytes), xs.length = ys.length →
    unword64 xs.length (xs.foldr (fun x n => x.toNat + 256 * n) 0 &&& ys.foldr (fun x n => x.toNat + 256 * n) 0) = List.zipWith (· &&& ·) xs ys := by
  intro xs
  induction xs with
  | nil => intro ys h; cases ys with
    | nil => rfl
    | cons => simp at h
  | cons x xs ih =>
    intro ys h
    cases ys with
    | nil => simp at h
    | cons y ys =>
      simp only [List.length_cons, Nat.add_right_cancel_iff] at h
      simp only [List.foldr_cons, List.length_cons, unword64, List.zipWith_cons_cons]
      have hx := x.toNat_lt
      have hy := y.toNat_lt
      generalize hX : xs.foldr (fun x n => x.toNat + 256 * n) 0 = X
      generalize hY : ys.foldr (fun x n => x.toNat + 256 * n) 0 = Y
      rw [hX] at ih
      have ih := ih ys h
      rw [hY] at ih
      have hdiv : (x.toNat + 256 * X &&& y.toNat + 256 * Y) / 256 = X &&& Y := by
        have e : ∀ n, n / 256 = n >>> 8 := fun n => by rw [Nat.shiftRight_eq_div_pow]
        rw [e, Nat.shiftRight_and_distrib, ← e, ← e]
        congr 1 <;> omega
      have hmod : (x.toNat + 256 * X &&& y.toNat + 256 * Y) % 256 = x.toNat &&& y.toNat := by
        rw [show (256 : Nat) = 2 ^ 8 from rfl, Nat.and_mod_two_pow]
        congr 1 <;> omega
      rw [hdiv, ih]
      congr 1
      apply UInt8.toNat_inj.1
      rw [UInt8.toNat_ofNat', UInt8.toNat_and]
      exact hmod

end Fcgi.Model
