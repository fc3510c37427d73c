import Verif.Model.Address
import Verif.Spec.Address
import Verif.Lemmas.Http
/-! # Lemmas about parsing addresses -/
namespace Fcgi.Model
open Fcgi Fcgi.Spec

/-! ### Digits -/

theorem hexDigit_addr {c d} (h : HexDigit c d) : addrDigit c = some d ∧ d < 16 := by
  have hd : d < 16 := by
    rcases h with h | h
    · obtain ⟨h', _⟩ := List.getElem?_eq_some_iff.1 h; simpa using h'
    · obtain ⟨h', _⟩ := List.getElem?_eq_some_iff.1 h; simpa using h'
  refine ⟨?_, hd⟩
  have key : ∀ d : Fin 16, ∀ c : Byte, (b!"0123456789abcdef"[d.val]? = some c ∨ b!"0123456789ABCDEF"[d.val]? = some c) → addrDigit c = some d.val := by
    intro d c h
    rcases h with h | h
    · obtain ⟨h1, rfl⟩ := List.getElem?_eq_some_iff.1 h
      revert d; decide
    · obtain ⟨h1, rfl⟩ := List.getElem?_eq_some_iff.1 h
      revert d; decide
  exact key ⟨d, hd⟩ c h

set_option maxRecDepth 4000 in
theorem addrDigit_hex {c d} (h : addrDigit c = some d) : HexDigit c d := by
  have key : ∀ c : Byte, ∀ d, addrDigit c = some d → HexDigit c d := by
    refine byte_forall ?_
    have : ∀ n : Fin 256, (addrDigit (UInt8.ofNat n.val)).all
      (fun d => decide (b!"0123456789abcdef"[d]? = some (UInt8.ofNat n.val) ∨ b!"0123456789ABCDEF"[d]? = some (UInt8.ofNat n.val))) = true := by decide
    intro n d hd
    have := this n
    rw [hd] at this
    have this := of_decide_eq_true (p := _ ∨ _) this
    exact this
  exact key c d h

theorem addrDigit_colon : addrDigit 58 = none := by decide
theorem addrDigit_dot : addrDigit 46 = none := by decide

theorem isDigit_addr {c} (h : IsDigit c) : addrDigit c = some (c.toNat - 48) := by
  unfold addrDigit
  rw [if_pos]
  obtain ⟨h1, h2⟩ := h
  exact ⟨UInt8.le_iff_toNat_le.2 (by simpa using h1), UInt8.le_iff_toNat_le.2 (by simpa using h2)⟩

theorem foreign_addr {c} (h : Foreign c) : addrDigit c = none := by
  cases hd : addrDigit c with
  | none => rfl
  | some d => exact absurd (addrDigit_hex hd) (h.2.2 d)

theorem digit_chunk {s : AddrSt} {n v : Nat} (hs : s.chunk = UInt16.ofNat n) (hv : v < 16) :
    (s.digit v).chunk = UInt16.ofNat (16 * n + v) := by
  apply UInt16.toNat_inj.1
  have h4 : (4 : UInt16).toNat % 16 = 4 := rfl
  have hv' : v % 2 ^ 16 = v := Nat.mod_eq_of_lt (by omega)
  simp only [AddrSt.digit, hs, UInt16.toNat_or, UInt16.toNat_shiftLeft, UInt16.toNat_ofNat', h4]
  rw [hv']
  have : (n % 2 ^ 16) <<< 4 % 2 ^ 16 = 2 ^ 4 * (n % 2 ^ 12) := by
    rw [Nat.shiftLeft_eq]
    omega
  rw [this, ← Nat.two_pow_add_eq_or_of_lt (by omega)]
  omega

/-! ### Storing -/

/-- `bs` has been written. -/
structure Has (s : AddrSt) (bs : Bytes) : Prop where
  len : s.data.length = 16
  wr : s.write = bs.length
  tk : s.data.take bs.length = bs

theorem take_set_snoc {l : Bytes} {bs : Bytes} {b : Byte} (h : l.take bs.length = bs) (hl : bs.length < l.length) :
    (l.set bs.length b).take (bs.length + 1) = bs ++ [b] := by
  rw [List.take_add_one, List.take_set_of_le (Nat.le_refl _), h]
  simp [hl]

theorem store_has {s : AddrSt} {bs : Bytes} {b : Byte} (h : Has s bs) (hl : bs.length < 16) :
    ∃ d, storeByte s.data s.write b = .ok d ∧ ∀ p c, Has ⟨d, s.write + 1, p, c⟩ (bs ++ [b]) := by
  refine ⟨s.data.set s.write b, ?_, ?_⟩
  · rw [storeByte, if_pos (by rw [h.len, h.wr]; exact hl)]
  · intro p c
    refine ⟨by simp [h.len], by simp [h.wr], ?_⟩
    rw [List.length_append, h.wr]
    exact take_set_snoc h.tk (by rw [h.len]; exact hl)

theorem group_has {s : AddrSt} {bs : Bytes} {n : Nat} (h : Has s bs) (hc : s.chunk = UInt16.ofNat n) (hn : n < 65536) (hl : bs.length + 2 ≤ 16) :
    ∃ s', s.group = .ok s' ∧ Has s' (bs ++ [UInt8.ofNat (n / 256), UInt8.ofNat (n % 256)]) ∧ s'.chunk = 0 ∧ s'.pad = s.pad := by
  have h1 : UInt8.ofNat ((s.chunk &&& 0xff00) >>> 8).toNat = UInt8.ofNat (n / 256) := by
    congr 1
    have h8 : (8 : UInt16).toNat % 16 = 8 := rfl
    have hff : (0xff00 : UInt16).toNat = 0xff00 := rfl
    rw [hc]
    simp only [UInt16.toNat_shiftRight, UInt16.toNat_and, UInt16.toNat_ofNat', h8, hff]
    rw [Nat.mod_eq_of_lt (by omega : n < 2 ^ 16), Nat.shiftRight_and_distrib]
    have : (0xff00 : Nat) >>> 8 = 2 ^ 8 - 1 := rfl
    rw [this, Nat.and_two_pow_sub_one_eq_mod, Nat.shiftRight_eq_div_pow]
    omega
  have h2 : UInt8.ofNat (s.chunk &&& 0x00ff).toNat = UInt8.ofNat (n % 256) := by
    congr 1
    have hff : (0x00ff : UInt16).toNat = 2 ^ 8 - 1 := rfl
    rw [hc]
    simp only [UInt16.toNat_and, UInt16.toNat_ofNat', hff]
    rw [Nat.and_two_pow_sub_one_eq_mod]
    omega
  obtain ⟨d1, e1, k1⟩ := store_has (b := UInt8.ofNat (n / 256)) h (by omega)
  obtain ⟨d2, e2, k2⟩ := store_has (b := UInt8.ofNat (n % 256)) (k1 s.pad 0) (by simp; omega)
  refine ⟨⟨d2, s.write + 2, s.pad, 0⟩, ?_, ?_, rfl, rfl⟩
  · unfold AddrSt.group
    rw [h1, h2, e1]
    simp only [Res.ok_bind]
    rw [e2]
    rfl
  · have := k2 s.pad 0
    simpa using this

/-! ### The loop of `assign` -/

/-- The loop at `read`, with the fuel it has there. -/
def go (mem : Bytes) (len read : Nat) (s : AddrSt) : Res (Option AddrSt) := assignLoop mem len (mem.length + 2 - read) read s

variable {mem : Bytes} {len : Nat}

theorem go_digit {read : Nat} {s : AddrSt} {c v} (hl : read < len) (hc : mem[read]? = some c) (hv : addrDigit c = some v) :
    go mem len read s = go mem len (read + 1) (s.digit v) := by
  have hr : read < mem.length := (List.getElem?_eq_some_iff.1 hc).1
  have hne : c ≠ 58 := by rintro rfl; rw [addrDigit_colon] at hv; cases hv
  unfold go
  rw [show mem.length + 2 - read = (mem.length + 2 - (read + 1)) + 1 by omega]
  conv => lhs; unfold assignLoop
  have h1 : ¬ read ≥ len := by omega
  simp [h1, rd, hc, hne, hv]

theorem go_pad {read : Nat} {s : AddrSt} (hr : read ≤ mem.length) (hl : read ≥ len ∨ mem[read]? = some 58)
    (hp : read = 0 ∨ mem[read - 1]? = some 58) (hs : s.pad = none ∨ s.pad = some s.write) :
    go mem len read s = go mem len (read + 1) { s with pad := some s.write } := by
  unfold go
  rw [show mem.length + 2 - read = (mem.length + 2 - (read + 1)) + 1 by omega]
  conv => lhs; unfold assignLoop
  have h1 : (if read ≥ len then Res.ok true else do let c ← rd mem read; return decide (c = 58)) = Res.ok true := by
    split
    · rfl
    · rcases hl with hl | hl
      · omega
      · simp [rd, hl]
  have h2 : (if read = 0 then Res.ok true else do let c ← rd mem (read - 1); return decide (c = 58)) = Res.ok true := by
    split
    · rfl
    · rcases hp with hp | hp
      · omega
      · simp [rd, hp]
  have h3 : ¬ (s.pad ≠ none ∧ s.pad ≠ some s.write) := by rcases hs with hs | hs <;> simp [hs]
  rw [h1]
  simp only [Res.ok_bind, if_true]
  rw [h2]
  simp only [Res.ok_bind, if_true]
  rw [if_neg h3]

theorem go_group {read : Nat} {s : AddrSt} {p bs n} (hr : read ≤ mem.length + 1) (hl : read ≥ len ∨ mem[read]? = some 58) (h0 : read ≠ 0)
    (hp : mem[read - 1]? = some p) (hne : p ≠ 58) (h : Has s bs) (hc : s.chunk = UInt16.ofNat n) (hn : n < 65536)
    (hlen : bs.length + 2 ≤ 16) :
    ∃ s', Has s' (bs ++ [UInt8.ofNat (n / 256), UInt8.ofNat (n % 256)]) ∧ s'.chunk = 0 ∧ s'.pad = s.pad ∧
      go mem len read s = if bs.length + 2 = 16 ∨ read ≥ len then (if read ≥ len ∧ bs.length + 2 < 16 ∧ s.pad = none then .ok none else .ok (some s'))
        else go mem len (read + 1) s' := by
  obtain ⟨s', e1, e2, e3, e4⟩ := group_has h hc hn hlen
  refine ⟨s', e2, e3, e4, ?_⟩
  unfold go
  rw [show mem.length + 2 - read = (mem.length + 2 - (read + 1)) + 1 by omega]
  conv => lhs; unfold assignLoop
  have h1 : (if read ≥ len then Res.ok true else do let c ← rd mem read; return decide (c = 58)) = Res.ok true := by
    split
    · rfl
    · rcases hl with hl | hl
      · omega
      · simp [rd, hl]
  have h2 : (if read = 0 then Res.ok true else do let c ← rd mem (read - 1); return decide (c = 58)) = Res.ok false := by
    rw [if_neg h0]
    simp [rd, hp, hne]
  rw [h1]
  simp only [Res.ok_bind, if_true]
  rw [h2]
  simp only [Res.ok_bind, Bool.false_eq_true, if_false]
  rw [e1]
  simp only [Res.ok_bind]
  have hw : s'.write = bs.length + 2 := by rw [e2.wr]; simp
  rw [hw, e4]
  by_cases hb : bs.length + 2 = 16 ∨ read ≥ len
  · rw [if_pos hb, if_pos (by omega)]
  · rw [if_neg hb, if_neg (by omega)]

theorem getElem_mid {α} {pre t rest : List α} {i : Nat} (h : i < t.length) : (pre ++ (t ++ rest))[pre.length + i]? = t[i]? := by
  rw [List.getElem?_append_right (by omega), show pre.length + i - pre.length = i by omega, List.getElem?_append_left h]

theorem getElem_after {α} {pre rest : List α} {c : α} : (pre ++ c :: rest)[pre.length]? = some c := by simp

/-- Reading hexadecimal digits. -/
theorem go_hex : ∀ {t : Bytes} {v : Nat}, HexNum t v → ∀ (pre rest : Bytes) (s : AddrSt), mem = pre ++ (t ++ rest) → pre.length + t.length ≤ len → s.chunk = 0 →
    ∃ s', go mem len pre.length s = go mem len (pre.length + t.length) s' ∧ s'.chunk = UInt16.ofNat v ∧ s'.data = s.data ∧ s'.write = s.write ∧ s'.pad = s.pad := by
  intro t v h
  induction h with
  | nil => intro pre rest s _ _ hc; exact ⟨s, rfl, hc, rfl, rfl, rfl⟩
  | @snoc t n c d h hd ih =>
    intro pre rest s hm hl hc
    simp only [List.length_append, List.length_singleton] at hl
    obtain ⟨s1, e1, e2, e3, e4, e5⟩ := ih pre (c :: rest) s (by simpa using hm) (by omega) hc
    obtain ⟨hd1, hd2⟩ := hexDigit_addr hd
    refine ⟨s1.digit d, ?_, digit_chunk e2 hd2, e3, e4, e5⟩
    rw [e1, go_digit (c := c) (by omega) ?_ hd1]
    · simp [Nat.add_assoc]
    · rw [hm, show pre ++ (t ++ [c] ++ rest) = (pre ++ t) ++ c :: rest by simp, show pre.length + t.length = (pre ++ t).length by simp]
      exact getElem_after

theorem hexNum_lt : ∀ {t : Bytes} {v : Nat}, HexNum t v → v < 16 ^ t.length := by
  intro t v h
  induction h with
  | nil => simp
  | @snoc t n c d h hd ih =>
    obtain ⟨_, hd2⟩ := hexDigit_addr hd
    rw [List.length_append, List.length_singleton, Nat.pow_succ]
    omega

theorem hexNum_last {t : Bytes} {v : Nat} (h : HexNum t v) (ht : t ≠ []) : ∃ t' c, t = t' ++ [c] ∧ c ≠ 58 ∧ c ≠ 46 := by
  cases h with
  | nil => exact absurd rfl ht
  | @snoc t n c d h hd =>
    refine ⟨t, c, rfl, ?_, ?_⟩
    · rintro rfl; have := (hexDigit_addr hd).1; rw [addrDigit_colon] at this; cases this
    · rintro rfl; have := (hexDigit_addr hd).1; rw [addrDigit_dot] at this; cases this

/-- Reading a group up to its end. -/
theorem go_hexGroup {t xs : Bytes} (h : HexGroup t xs) (pre rest : Bytes) (s : AddrSt) {bs : Bytes} (hm : mem = pre ++ (t ++ rest))
    (hl : pre.length + t.length = len ∨ pre.length + t.length < len ∧ rest.head? = some 58) (hc : s.chunk = 0) (hs : Has s bs) (hb : bs.length + 2 ≤ 16) :
    ∃ s', Has s' (bs ++ xs) ∧ s'.chunk = 0 ∧ s'.pad = s.pad ∧
      go mem len pre.length s = if bs.length + 2 = 16 ∨ pre.length + t.length ≥ len then
          (if pre.length + t.length ≥ len ∧ bs.length + 2 < 16 ∧ s.pad = none then .ok none else .ok (some s'))
        else go mem len (pre.length + t.length + 1) s' := by
  obtain ⟨n, hn, h1, h4, rfl⟩ := h
  obtain ⟨s1, e1, e2, e3, e4, e5⟩ := go_hex (len := len) hn pre rest s hm (by omega) hc
  have hlt := hexNum_lt hn
  have : n < 65536 := Nat.lt_of_lt_of_le hlt (Nat.le_trans (Nat.pow_le_pow_right (by omega) h4) (by omega))
  obtain ⟨t', c, rfl, hne, _⟩ := hexNum_last hn (by intro hh; rw [hh] at h1; simp at h1)
  have hs1 : Has s1 bs := ⟨by rw [e3]; exact hs.len, by rw [e4]; exact hs.wr, by rw [e3]; exact hs.tk⟩
  obtain ⟨s', f1, f2, f3, f4⟩ := go_group (mem := mem) (len := len) (read := pre.length + (t' ++ [c]).length) (s := s1) (p := c) (bs := bs) (n := n)
    (by rw [hm]; simp; omega)
    (by
      rcases hl with hl | ⟨_, hl⟩
      · left; omega
      · right
        cases rest with
        | nil => cases hl
        | cons r rest =>
          cases hl
          rw [hm, show pre ++ (t' ++ [c] ++ 58 :: rest) = (pre ++ (t' ++ [c])) ++ 58 :: rest by simp,
            show pre.length + (t' ++ [c]).length = (pre ++ (t' ++ [c])).length by simp]
          exact getElem_after)
    (by simp)
    (by
      rw [hm, show pre ++ (t' ++ [c] ++ rest) = (pre ++ t') ++ c :: rest by simp,
        show pre.length + (t' ++ [c]).length - 1 = (pre ++ t').length by simp]
      exact getElem_after) hne hs1 e2 this hb
  refine ⟨s', f1, f2, by rw [f3, e5], ?_⟩
  rw [e1, f4, e5]

theorem hexGroup_len {t xs : Bytes} (h : HexGroup t xs) : xs.length = 2 := by obtain ⟨n, _, _, _, rfl⟩ := h; rfl

theorem groups_len {t xs : Bytes} (h : Groups t xs) : 2 ≤ xs.length := by
  induction h with
  | one h => rw [hexGroup_len h]; omega
  | cons h r ih => rw [List.length_append, hexGroup_len h]; omega

/-- Reading groups followed by a colon, not filling the address. -/
theorem go_groups {t xs : Bytes} (h : Groups t xs) : ∀ (pre rest : Bytes) (s : AddrSt) (bs : Bytes), mem = pre ++ (t ++ 58 :: rest) →
    pre.length + t.length < len → s.chunk = 0 → Has s bs → bs.length + xs.length < 16 →
    ∃ s', Has s' (bs ++ xs) ∧ s'.chunk = 0 ∧ s'.pad = s.pad ∧ go mem len pre.length s = go mem len (pre.length + t.length + 1) s' := by
  induction h with
  | @one t xs h =>
    intro pre rest s bs hm hl hc hs hb
    have h2 := hexGroup_len h
    obtain ⟨s', f1, f2, f3, f4⟩ := go_hexGroup (len := len) h pre (58 :: rest) s hm (Or.inr ⟨hl, rfl⟩) hc hs (by omega)
    rw [if_neg (by omega)] at f4
    exact ⟨s', f1, f2, f3, f4⟩
  | @cons t xs t' xs' h r ih =>
    intro pre rest s bs hm hl hc hs hb
    have h2 := hexGroup_len h
    simp only [List.length_append, List.length_cons] at hl hb
    obtain ⟨s1, f1, f2, f3, f4⟩ := go_hexGroup (len := len) h pre (58 :: (t' ++ 58 :: rest)) s (by simpa using hm) (Or.inr ⟨by omega, rfl⟩) hc hs (by omega)
    rw [if_neg (by omega)] at f4
    obtain ⟨s', g1, g2, g3, g4⟩ := ih (pre ++ t ++ [58]) rest s1 (bs ++ xs) (by simpa using hm) (by simp; omega) f2 f1 (by simp; omega)
    refine ⟨s', by simpa using g1, g2, by rw [g3, f3], ?_⟩
    rw [f4]
    have e1 : (pre ++ t ++ [58]).length = pre.length + t.length + 1 := by simp; omega
    rw [e1] at g4
    rw [g4]
    congr 1
    simp; omega

/-- Reading groups up to the end of the text. -/
theorem go_groups_end {t xs : Bytes} (h : Groups t xs) : ∀ (pre rest : Bytes) (s : AddrSt) (bs : Bytes), mem = pre ++ (t ++ rest) →
    pre.length + t.length = len → s.chunk = 0 → Has s bs → bs.length + xs.length ≤ 16 → bs.length + xs.length = 16 ∨ s.pad ≠ none →
    ∃ s', Has s' (bs ++ xs) ∧ s'.pad = s.pad ∧ go mem len pre.length s = .ok (some s') := by
  induction h with
  | @one t xs h =>
    intro pre rest s bs hm hl hc hs hb hp
    have h2 := hexGroup_len h
    obtain ⟨s', f1, f2, f3, f4⟩ := go_hexGroup (len := len) h pre rest s hm (Or.inl hl) hc hs (by omega)
    rw [if_pos (by omega), if_neg] at f4
    · exact ⟨s', f1, f3, f4⟩
    · rintro ⟨_, q1, q2⟩
      rcases hp with hp | hp
      · omega
      · exact hp q2
  | @cons t xs t' xs' h r ih =>
    intro pre rest s bs hm hl hc hs hb hp
    have h2 := hexGroup_len h
    have h3 := groups_len r
    simp only [List.length_append, List.length_cons] at hl hb hp
    obtain ⟨s1, f1, f2, f3, f4⟩ := go_hexGroup (len := len) h pre (58 :: (t' ++ rest)) s (by simpa using hm) (Or.inr ⟨by omega, rfl⟩) hc hs (by omega)
    rw [if_neg (by omega)] at f4
    obtain ⟨s', g1, g2, g3⟩ := ih (pre ++ t ++ [58]) rest s1 (bs ++ xs) (by simpa using hm) (by simp; omega) f2 f1 (by simp; omega)
      (by rw [f3]; simp; rcases hp with hp | hp
          · left; omega
          · right; exact hp)
    refine ⟨s', by simpa using g1, by rw [g2, f3], ?_⟩
    rw [f4]
    have e1 : (pre ++ t ++ [58]).length = pre.length + t.length + 1 := by simp; omega
    rw [e1] at g3
    rw [g3]

/-! ### Dotted parts -/

theorem octet_lt {b : Byte} : b.toNat < 256 := b.toNat_lt

theorem decimalOctet_three : ∀ x y z : Fin 10, decimalOctet (UInt16.ofNat ((x.val * 16 + y.val) * 16 + z.val)) = UInt8.ofNat ((x.val * 10 + y.val) * 10 + z.val) := by
  decide

theorem isDigit_hex {c} (h : IsDigit c) : HexDigit c (c.toNat - 48) := addrDigit_hex (isDigit_addr h)

theorem isDigit_ne {c} (h : IsDigit c) : c ≠ 46 ∧ c ≠ 58 ∧ c ≠ 45 := by
  obtain ⟨h1, h2⟩ := h
  refine ⟨?_, ?_, ?_⟩ <;> rintro rfl <;> simp at h1 h2

/-- The digits of an octet, read as hexadecimal, give back the octet. -/
theorem octet_hex {t : Bytes} {b : Byte} (h : Octet t b) : ∃ n, HexNum t n ∧ decimalOctet (UInt16.ofNat n) = b := by
  obtain ⟨⟨h1, h2, h3⟩, h4⟩ := h
  have fin : ∀ c, IsDigit c → c.toNat - 48 < 10 := by intro c hc; unfold IsDigit at hc; omega
  have back : UInt8.ofNat b.toNat = b := by simp
  match t, h1, h4 with
  | [x], _, _ =>
    have hx := h2 x (by simp)
    refine ⟨_, .snoc (t := []) .nil (isDigit_hex hx), ?_⟩
    have := decimalOctet_three 0 0 ⟨_, fin x hx⟩
    simp only [decimalValue, List.foldl] at h3
    rw [← back, ← h3]
    simpa using this
  | [x, y], _, _ =>
    have hx := h2 x (by simp)
    have hy := h2 y (by simp)
    refine ⟨_, .snoc (t := [x]) (.snoc (t := []) .nil (isDigit_hex hx)) (isDigit_hex hy), ?_⟩
    have := decimalOctet_three 0 ⟨_, fin x hx⟩ ⟨_, fin y hy⟩
    simp only [decimalValue, List.foldl] at h3
    rw [← back, ← h3]
    simp only [Fin.val_zero, Nat.zero_mul, Nat.zero_add, Nat.mul_zero] at this ⊢
    rw [Nat.mul_comm 16, this, Nat.mul_comm 10]
  | [x, y, z], _, _ =>
    have hx := h2 x (by simp)
    have hy := h2 y (by simp)
    have hz := h2 z (by simp)
    refine ⟨_, .snoc (t := [x, y]) (.snoc (t := [x]) (.snoc (t := []) .nil (isDigit_hex hx)) (isDigit_hex hy)) (isDigit_hex hz), ?_⟩
    have := decimalOctet_three ⟨_, fin x hx⟩ ⟨_, fin y hy⟩ ⟨_, fin z hz⟩
    simp only [decimalValue, List.foldl] at h3
    rw [← back, ← h3]
    simp only [Nat.zero_add, Nat.mul_zero] at this ⊢
    rw [Nat.mul_comm 16, Nat.mul_comm 16, this, Nat.mul_comm 10, Nat.mul_comm 10]

theorem ofInt_toNat (b : Byte) : UInt8.ofInt (b.toNat : Int) = b := by
  have h : (b.toNat : Int) % 2 ^ 8 = b.toNat := by have := @octet_lt b; omega
  unfold UInt8.ofInt
  rw [h]
  simp

theorem atoi_octet {t more : Bytes} {b : Byte} (h : Octet t b) (left after : Bytes) (hm : more = t ++ left) (hl : left = [] ∧ after ≠ [] ∨ left.head? = some 46) :
    ∃ v, atoi more after = .ok v ∧ UInt8.ofInt v = b := by
  obtain ⟨h1, h4⟩ := h
  have hb : b.toNat ≤ 2147483647 := by have := @octet_lt b; omega
  rcases hl with ⟨rfl, ha⟩ | hl
  · rw [List.append_nil] at hm; subst hm
    exact ⟨_, atoi_decimal h1 hb ha, ofInt_toNat b⟩
  · cases left with
    | nil => cases hl
    | cons c left =>
      cases hl
      subst hm
      refine ⟨(b.toNat : Int), ?_, ofInt_toNat b⟩
      obtain ⟨h1, h2, h3⟩ := h1
      match t, h1 with
      | x :: t, _ =>
        have hx := (isDigit_ne (h2 x (by simp))).2.2
        unfold atoi
        simp only [List.cons_append, rd, List.getElem?_cons_zero, Res.ok_bind, if_neg hx]
        have := atoiDigits_ok (x :: t) (46 :: (left ++ after)) ((x :: (t ++ 46 :: left)).length) 0 h2 (by simp) (Or.inr ⟨46, _, rfl, by unfold IsDigit; decide⟩)
          (by have : decimalValue (x :: t) ≤ 2147483647 := by omega
              exact this)
        have e : x :: (t ++ 46 :: left ++ after) = x :: t ++ 46 :: (left ++ after) := by simp
        rw [e]
        rw [show ((0 : Nat) : Int) = 0 from rfl] at this
        rw [this]
        rw [← h3]; rfl

theorem findDot_eq {mem pre d rest : Bytes} {len : Nat} (hm : mem = pre ++ (d ++ 46 :: rest)) (hd : ∀ c ∈ d, c ≠ 46) (hl : pre.length + d.length < len) :
    findDot mem pre.length len = pre.length + d.length := by
  unfold findDot slice
  congr 1
  subst hm
  rw [List.take_append, List.drop_append, List.drop_of_length_le (by rw [List.length_take]; omega)]
  have : pre.length - (List.take len pre).length = 0 := by rw [List.length_take]; omega
  rw [this, List.drop_zero, List.nil_append, List.take_append]
  rw [List.take_of_length_le (by omega), List.findIdx_append]
  have h1 : List.findIdx (fun x => decide (x = 46)) d = d.length := by
    rw [List.findIdx_eq_length]
    intro c hc; simp [hd c hc]
  rw [h1, if_neg (by omega)]
  obtain ⟨k, hk⟩ : ∃ k, len - pre.length - d.length = k + 1 := ⟨len - pre.length - d.length - 1, by omega⟩
  rw [hk, List.take_succ_cons, List.findIdx_cons]
  simp

theorem octet_no {t : Bytes} {b : Byte} (h : Octet t b) : ∀ c ∈ t, c ≠ 46 := fun c hc => (isDigit_ne (h.1.2.1 c hc)).1
theorem octet_pos {t : Bytes} {b : Byte} (h : Octet t b) : 0 < t.length := List.length_pos_iff.2 h.1.1

/-- One more octet: `read` is at or before the dot. -/
theorem octets_step {mem pre d t left : Bytes} {b : Byte} {len k : Nat} {s : AddrSt} {bs : Bytes} (h : Octet t b)
    (hm : mem = pre ++ (d ++ 46 :: (t ++ left))) (hd : ∀ c ∈ d, c ≠ 46)
    (hl : pre.length + d.length + 1 + t.length = len ∧ left ≠ [] ∨ pre.length + d.length + 1 + t.length < len ∧ left.head? = some 46)
    (hle : len ≤ mem.length) (hs : Has s bs) (hb : bs.length < 16) :
    ∃ s', Has s' (bs ++ [b]) ∧ s'.pad = s.pad ∧ octets mem len (k + 1) pre.length s = octets mem len k (pre.length + d.length + 1) s' := by
  have hp := octet_pos h
  have hfd := findDot_eq hm hd (len := len) (by omega)
  obtain ⟨dd, e1, e2⟩ := store_has (b := b) hs hb
  have hsl : ∃ l2, slice mem (pre.length + d.length + 1) len = t ++ l2 ∧ (l2 = [] ∧ mem.drop len ≠ [] ∨ l2.head? = some 46) := by
    obtain ⟨P, hsp, hpl⟩ : ∃ P, mem = P ++ (t ++ left) ∧ P.length = pre.length + d.length + 1 := ⟨pre ++ (d ++ [46]), by simp [hm], by simp; omega⟩
    refine ⟨left.take (len - (pre.length + d.length + 1 + t.length)), ?_, ?_⟩
    · unfold slice
      rw [← hpl]
      conv => lhs; rw [hsp]
      rw [List.take_append, List.drop_append, List.drop_of_length_le (by rw [List.length_take]; omega), List.nil_append]
      have h0 : P.length - (List.take len P).length = 0 := by rw [List.length_take]; omega
      rw [h0, List.drop_zero, List.take_append, List.take_of_length_le (by omega)]
      congr 2
      omega
    · rcases hl with ⟨h1, h2⟩ | ⟨h1, h2⟩
      · left
        refine ⟨by rw [h1]; simp, ?_⟩
        rw [hsp, ← h1, ← hpl, ← List.length_append, ← List.append_assoc, List.drop_left]
        exact h2
      · right
        cases left with
        | nil => cases h2
        | cons c left =>
          obtain ⟨k, hk⟩ : ∃ k, len - (pre.length + d.length + 1 + t.length) = k + 1 := ⟨len - (pre.length + d.length + 1 + t.length) - 1, by omega⟩
          rw [hk, List.take_succ_cons]
          exact h2
  obtain ⟨l2, g1, g2⟩ := hsl
  obtain ⟨v, e3, e4⟩ := atoi_octet h l2 (mem.drop len) g1 g2
  refine ⟨_, e2 s.pad s.chunk, rfl, ?_⟩
  conv => lhs; unfold octets
  rw [if_pos (by omega)]
  simp only [hfd]
  rw [if_pos (by omega), e3]
  simp only [Res.ok_bind]
  rw [e4, e1]
  rfl

theorem firstOctet_has {s : AddrSt} {bs : Bytes} (hs : Has s bs) (h0 : bs ≠ []) (h12 : bs.length ≤ 12) :
    ∃ s', s.firstOctet = .ok (some s') ∧ Has s' (bs ++ [decimalOctet s.chunk]) ∧ s'.pad = s.pad := by
  obtain ⟨d, e1, e2⟩ := store_has (b := decimalOctet s.chunk) hs (by omega)
  have := List.length_pos_iff.2 h0
  refine ⟨_, ?_, e2 s.pad (s.chunk <<< 12), rfl⟩
  unfold AddrSt.firstOctet
  rw [if_neg (by rw [hs.wr]; omega), if_neg (by rw [hs.wr]; omega), e1]
  rfl

theorem firstOctet_zero {s : AddrSt} (hs : Has s []) :
    ∃ s', s.firstOctet = .ok (some s') ∧ Has s' ([255, 255] ++ [decimalOctet s.chunk]) ∧ s'.pad = some 0 := by
  obtain ⟨d1, e1, k1⟩ := store_has (b := 255) hs (by simp)
  obtain ⟨d2, e2, k2⟩ := store_has (b := 255) (k1 s.pad s.chunk) (by simp)
  obtain ⟨d3, e3, k3⟩ := store_has (b := decimalOctet s.chunk) (k2 s.pad s.chunk) (by simp)
  have hw : s.write = 0 := hs.wr
  rw [hw] at e1 e2 e3 k3
  refine ⟨_, ?_, k3 (some 0) (s.chunk <<< 12), rfl⟩
  unfold AddrSt.firstOctet
  rw [if_pos hw, e1]
  simp only [Res.ok_bind]
  rw [e2]
  simp only [Res.ok_bind]
  rw [e3]
  rfl

theorem go_dot {mem : Bytes} {len read : Nat} {s s' : AddrSt} (hl : read < len) (hc : mem[read]? = some 46) (h : s.firstOctet = .ok (some s')) :
    go mem len read s = octets mem len 3 read s' := by
  have hr : read < mem.length := (List.getElem?_eq_some_iff.1 hc).1
  unfold go
  rw [show mem.length + 2 - read = (mem.length + 2 - (read + 1)) + 1 by omega]
  conv => lhs; unfold assignLoop
  have h1 : ¬ read ≥ len := by omega
  simp [h1, rd, hc, addrDigit_dot, h]

/-- Reading `a.b.c.d` at the end of the text. -/
theorem go_quad {mem q cs pre after : Bytes} {len : Nat} {s : AddrSt} {bs : Bytes} (h : Quad q cs) (hm : mem = pre ++ (q ++ after)) (hl : pre.length + q.length = len)
    (ha : after ≠ []) (hc : s.chunk = 0) (hs : Has s bs) :
    (bs ≠ [] → bs.length ≤ 12 → ∃ s', Has s' (bs ++ cs) ∧ s'.pad = s.pad ∧ go mem len pre.length s = .ok (some s')) ∧
    (bs = [] → ∃ s', Has s' ([255, 255] ++ cs) ∧ s'.pad = some 0 ∧ go mem len pre.length s = .ok (some s')) := by
  cases h with
  | @mk t1 t2 t3 t4 a b c d h1 h2 h3 h4 =>
    simp only [List.length_append, List.length_cons] at hl
    obtain ⟨n, hn, hd⟩ := octet_hex h1
    obtain ⟨s1, e1, e2, e3, e4, e5⟩ := go_hex (mem := mem) (len := len) hn pre (46 :: (t2 ++ 46 :: (t3 ++ 46 :: t4)) ++ after) s (by simpa using hm) (by omega) hc
    have hs1 : Has s1 bs := ⟨by rw [e3]; exact hs.len, by rw [e4]; exact hs.wr, by rw [e3]; exact hs.tk⟩
    have hdot : mem[pre.length + t1.length]? = some 46 := by
      rw [hm, show pre ++ (t1 ++ 46 :: (t2 ++ 46 :: (t3 ++ 46 :: t4)) ++ after) = (pre ++ t1) ++ 46 :: ((t2 ++ 46 :: (t3 ++ 46 :: t4)) ++ after) by simp,
        ← List.length_append]
      exact getElem_after
    have hml : len ≤ mem.length := by rw [hm]; simp; omega
    have rest : ∀ (s2 : AddrSt) (ys : Bytes), Has s2 ys → ys.length ≤ 13 →
        ∃ s', Has s' (ys ++ [b, c, d]) ∧ s'.pad = s2.pad ∧ octets mem len 3 (pre.length + t1.length) s2 = .ok (some s') := by
      intro s2 ys hs2 hys
      obtain ⟨s3, f1, f2, f3⟩ := octets_step (mem := mem) (pre := pre ++ t1) (d := []) (t := t2) (left := 46 :: (t3 ++ 46 :: t4) ++ after) (len := len) (k := 2) (s := s2) h2
        (by simp [hm]) (by simp) (Or.inr ⟨by simp; omega, rfl⟩) hml hs2 (by omega)
      obtain ⟨s4, g1, g2, g3⟩ := octets_step (mem := mem) (pre := pre ++ t1 ++ [46]) (d := t2) (t := t3) (left := 46 :: t4 ++ after) (len := len) (k := 1) (s := s3) h3
        (by simp [hm]) (octet_no h2) (Or.inr ⟨by simp; omega, rfl⟩) hml f1 (by simp; omega)
      obtain ⟨s5, i1, i2, i3⟩ := octets_step (mem := mem) (pre := pre ++ t1 ++ [46] ++ t2 ++ [46]) (d := t3) (t := t4) (left := after) (len := len) (k := 0) (s := s4) h4
        (by simp [hm]) (octet_no h3) (Or.inl ⟨by simp; omega, ha⟩) hml g1 (by simp; omega)
      refine ⟨s5, by simpa using i1, by rw [i2, g2, f2], ?_⟩
      simp only [List.length_append, List.length_cons, List.length_nil, Nat.add_zero, Nat.zero_add] at f3 g3 i3
      rw [f3, g3]
      have : pre.length + t1.length + 1 + t2.length + 1 = pre.length + t1.length + 1 + t2.length + 1 := rfl
      rw [i3]
      rfl
    refine ⟨?_, ?_⟩
    · intro hb0 hb
      obtain ⟨s2, j1, j2, j3⟩ := firstOctet_has hs1 hb0 hb
      rw [e2, hd] at j2
      obtain ⟨s', k1, k2, k3⟩ := rest s2 _ j2 (by simp; omega)
      refine ⟨s', by simpa using k1, by rw [k2, j3, e5], ?_⟩
      rw [e1, go_dot (by omega) hdot j1, k3]
    · rintro rfl
      obtain ⟨s2, j1, j2, j3⟩ := firstOctet_zero hs1
      rw [e2, hd] at j2
      obtain ⟨s', k1, k2, k3⟩ := rest s2 _ j2 (by simp)
      refine ⟨s', by simpa using k1, by rw [k2, j3], ?_⟩
      rw [e1, go_dot (by omega) hdot j1, k3]

end Fcgi.Model
