import Verif.Lemmas.AddressSafe
import Verif.Lemmas.AddressGet
import Verif.Lemmas.AddressPrint
import Verif.Lemmas.AddressText
/-! # Addresses: C47-C49, C72-C74 -/
namespace Fcgi.Props
open Fcgi Fcgi.Model Fcgi.Spec

/-- An address used below: 1:0:0:2::3. -/
def addr123 : Bytes := [0,1, 0,0, 0,0, 0,2, 0,0, 0,0, 0,0, 0,3]

/-! ### C47 -/

theorem addrText_ne_nil {t a : Bytes} (h : AddrText t a) : t ≠ [] := by
  have hg : ∀ {t bs}, Groups t bs → t ≠ [] := by
    intro t bs h
    cases h with
    | one h => obtain ⟨n, _, h1, _⟩ := h; intro e; rw [e] at h1; simp at h1
    | cons h r => simp
  cases h with
  | v4 h => cases h; simp
  | full h hl => cases h with
    | groups h => exact hg h
    | quad h hq => simp
  | none => simp
  | left h hl => simp
  | right h hl => simp
  | mid h h' hl => simp

theorem emitLeft_eq (fill : Byte) : ∀ (t : Bytes) (n : Nat), t.length ≤ n → emitLeft fill n t = t ++ List.replicate (n - t.length) fill := by
  intro t
  induction t with
  | nil =>
    intro n _
    induction n with
    | zero => rfl
    | succ n ih => simp only [emitLeft, ih (by simp)]; simp [List.replicate_succ]
  | cons c t ih =>
    intro n h
    cases n with
    | zero => simp at h
    | succ n =>
      simp only [List.length_cons] at h
      simp only [emitLeft, ih n (by omega), List.length_cons, List.cons_append]
      rw [Nat.add_sub_add_right]

theorem emitRight_eq (fill : Byte) : ∀ (t : Bytes) (n : Nat), t ≠ [] → emitRight fill n t = List.replicate n fill ++ t := by
  intro t n ht
  induction n with
  | zero => simp [emitRight]
  | succ n ih => simp [emitRight, ih, ht, List.replicate_succ]

/-- C47: every address is what its printed form parses to, whatever the address object held before, whether upper case is
asked for, and whatever the alignment. -/
theorem C47_roundTrip (f : NumFmt) (left : Bool) (fill : Byte) (a old : Bytes) (hs : f.showbase = false) (hg : f.sep = none)
    (ha : a.length = 16) (ho : old.length = 16) :
    ∃ t, printAddr f left fill 0 a = .ok t ∧ addressOf t old = .ok a := by
  obtain ⟨t, h1, h2, h3⟩ := printBuffer_text (f := f) ⟨hs, hg⟩ ha
  refine ⟨t, ?_, assign_text h2 ⟨0, by simp, by decide⟩ ho⟩
  unfold printAddr
  rw [h1]
  cases left
  · simp [emitRight_eq fill t _ (addrText_ne_nil h2)]
  · simp [emitLeft_eq fill t _ (Nat.le_refl _)]

/-- C47: what is printed is a text of the address as RFC 4291 has it. -/
theorem C47_text (f : NumFmt) (left : Bool) (fill : Byte) (a : Bytes) (hs : f.showbase = false) (hg : f.sep = none) (ha : a.length = 16) :
    ∃ t, printAddr f left fill 0 a = .ok t ∧ AddrText t a := by
  obtain ⟨t, h1, h2, h3⟩ := printBuffer_text (f := f) ⟨hs, hg⟩ ha
  refine ⟨t, ?_, h2⟩
  unfold printAddr
  rw [h1]
  cases left
  · simp [emitRight_eq fill t _ (addrText_ne_nil h2)]
  · simp [emitLeft_eq fill t _ (Nat.le_refl _)]

/-- C47: different addresses are printed differently. -/
theorem C47_injective (f : NumFmt) (left : Bool) (fill : Byte) (a b t : Bytes) (hs : f.showbase = false) (hg : f.sep = none)
    (ha : a.length = 16) (hb : b.length = 16) (h1 : printAddr f left fill 0 a = .ok t) (h2 : printAddr f left fill 0 b = .ok t) : a = b := by
  obtain ⟨t1, e1, p1⟩ := C47_roundTrip f left fill a a hs hg ha ha
  obtain ⟨t2, e2, p2⟩ := C47_roundTrip f left fill b a hs hg hb ha
  rw [h1] at e1; rw [h2] at e2
  cases e1; cases e2
  rw [p1] at p2
  cases p2; rfl

example : printAddr {} false 32 0 addr123 = .ok b!"1:0:0:2::3" := by decide +kernel
example : printAddr { uppercase := true } false 32 0 ([0xfe, 0x80] ++ List.replicate 12 0 ++ [0xab, 0xcd]) = .ok b!"FE80::ABCD" := by decide +kernel
example : printAddr {} true 32 0 (List.replicate 10 0 ++ [255, 255, 192, 168, 0, 1]) = .ok b!"::ffff:192.168.0.1" := by decide +kernel
example : printAddr {} true 32 0 (List.replicate 16 0) = .ok b!"::" := by decide +kernel

/-! ### C48 -/

/-- C48: every text of an address, in any of the forms of RFC 4291 but `::a.b.c.d`, gives that address; the text need not
be followed by a NUL, only by something other than colons. -/
theorem C48_text (t a after old : Bytes) (h : AddrText t a) (hc : EndsColons after) (ho : old.length = 16) :
    assign t after old = .ok a := assign_text h hc ho

/-- C48: whatever follows, if the parser does not read past it, it finds that address. -/
theorem C48_any (t a x after old : Bytes) (h : AddrText t a) (ho : old.length = 16) (hx : assign t after old = .ok x) : x = a :=
  assign_any h ho hx

/-- C48: dotted text gives the mapped address. -/
theorem C48_v4 (t1 t2 t3 t4 old : Bytes) (a b c d : Byte) (h1 : Octet t1 a) (h2 : Octet t2 b) (h3 : Octet t3 c) (h4 : Octet t4 d)
    (ho : old.length = 16) :
    addressOf (t1 ++ [46] ++ t2 ++ [46] ++ t3 ++ [46] ++ t4) old = .ok [0, 0, 0, 0, 0, 0, 0, 0, 0, 0, 0xff, 0xff, a, b, c, d] := by
  have := assign_text (after := [0]) (AddrText.v4 (Quad.mk h1 h2 h3 h4)) ⟨0, by simp, by decide⟩ ho
  simpa [addressOf] using this

theorem octet_dec {t : Bytes} {b : Byte} (h : IsDecimal t b.toNat) (hl : t.length ≤ 3) : Octet t b := ⟨h, hl⟩

/-- C48: eight groups give their values. -/
theorem C48_groups (t a old : Bytes) (h : Groups t a) (ha : a.length = 16) (ho : old.length = 16) : addressOf t old = .ok a :=
  assign_text (AddrText.full (.groups h) ha) ⟨0, by simp, by decide⟩ ho

/-- C48: no text makes the parser go out of bounds, if something other than colons follows it in memory (which is so for
a text that ends with a NUL).  A number after a dot that does not fit an int is undefined (`atoi`). -/
theorem C48_safe (t after old : Bytes) (hc : EndsColons after) (ho : old.length = 16) :
    assign t after old = .ub .signedOverflow ∨ ∃ a, assign t after old = .ok a ∧ a.length = 16 :=
  assign_fine hc ho

/-- C48, in part: a character that has no place in an address, after digits and colons, makes the address zero.  Missing:
characters after the eighth group or after a dot, see below. -/
theorem C48_foreign_partial (p rest old after : Bytes) (x : Byte) (hx : Foreign x) (hp : ∀ y ∈ p, y = 58 ∨ ∃ d, HexDigit y d)
    (hn : p.count 58 ≤ 7) (ho : old.length = 16) :
    assign (p ++ x :: rest) after old = .ok (List.replicate 16 0) := by
  have h := go_foreign (mem := (p ++ x :: rest) ++ after) (len := (p ++ x :: rest).length) (c := x) (rest := rest ++ after) hx p [] ⟨old, 0, none, 0⟩
    (by simp) (by simp) hp ho (by simp; omega)
  unfold go at h
  unfold assign
  simp only [List.length_nil, Nat.sub_zero] at h
  rw [h]
  rfl

theorem foreign_g : Foreign 103 := by
  refine ⟨by decide, by decide, ?_⟩
  intro d h
  have hb : d < 16 := by
    rcases h with h | h <;> · have := (List.getElem?_eq_some_iff.1 h).1; simpa using this
  have : ∀ d : Fin 16, ¬ (b!"0123456789abcdef"[d.val]? = some 103 ∨ b!"0123456789ABCDEF"[d.val]? = some 103) := by decide
  exact this ⟨d, hb⟩ h

example (old : Bytes) (ho : old.length = 16) : assign b!"ab:g" [0] old = .ok (List.replicate 16 0) :=
  C48_foreign_partial b!"ab:" [] old [0] 103 foreign_g (by
    intro y hy
    simp only [List.mem_cons, List.not_mem_nil, or_false] at hy
    rcases hy with rfl | rfl | rfl
    · exact Or.inr ⟨10, Or.inl rfl⟩
    · exact Or.inr ⟨11, Or.inl rfl⟩
    · exact Or.inl rfl) (by decide) ho

theorem dec_lit (t : Bytes) (n : Nat) (h : (t ≠ [] ∧ (∀ c ∈ t, 48 ≤ c ∧ c ≤ 57) ∧ decimalValue t = n)) : IsDecimal t n := h

/-- C48 fails for the form `::a.b.c.d`: it gives `::ffff:a.b.c.d`. -/
theorem C48_compat_violated :
    Compat b!"::1.2.3.4" (List.replicate 12 0 ++ [1, 2, 3, 4]) ∧
    addressOf b!"::1.2.3.4" (List.replicate 16 7) = .ok (List.replicate 10 0 ++ [0xff, 0xff, 1, 2, 3, 4]) := by
  constructor
  · have o : ∀ (c : Byte) (b : Byte), IsDecimal [c] b.toNat → Octet [c] b := fun c b h => ⟨h, by simp⟩
    exact Compat.mk (Quad.mk (t1 := [49]) (t2 := [50]) (t3 := [51]) (t4 := [52])
      (o 49 1 (dec_lit _ _ (by decide))) (o 50 2 (dec_lit _ _ (by decide))) (o 51 3 (dec_lit _ _ (by decide))) (o 52 4 (dec_lit _ _ (by decide))))
  · decide +kernel

/-- C48 fails: what follows the eighth group is not looked at. -/
theorem C48_junk_violated :
    addressOf b!"1:2:3:4:5:6:7:8:xyz" (List.replicate 16 7) = .ok [0,1,0,2,0,3,0,4,0,5,0,6,0,7,0,8] ∧
    addressOf b!"1.2.3.4xyz" (List.replicate 16 7) = .ok (List.replicate 10 0 ++ [0xff, 0xff, 1, 2, 3, 4]) := by decide +kernel

/-- C48 fails: a text that ends in a colon is taken as if it ended in two. -/
theorem C48_colon_violated :
    addressOf b!"1:2:" (List.replicate 16 7) = .ok ([0, 1, 0, 2] ++ List.replicate 12 0) := by decide +kernel

/-- C48 fails: this text leaves ten bytes of the object as they were (uninitialised in a new object), so that the address
depends on what was there. -/
theorem C48_stale_violated :
    addressOf b!"1:2.3.4.5" (List.replicate 16 7) = .ok ([0, 1, 2, 3, 4, 5] ++ List.replicate 10 7) ∧
    addressOf b!"1:2.3.4.5" (List.replicate 16 9) = .ok ([0, 1, 2, 3, 4, 5] ++ List.replicate 10 9) := by decide +kernel

/-- C48 fails: a text with nothing after it in memory is read past its end. -/
theorem C48_overread_violated (old : Bytes) (ho : old.length = 16) :
    assign b!"::" [] old = .ub .oobRead ∧ assign b!"1.2.3.4" [] old = .ub .oobRead := by
  match old, ho with
  | [x0,x1,x2,x3,x4,x5,x6,x7,x8,x9,xa,xb,xc,xd,xe,xf], _ => exact ⟨rfl, rfl⟩

/-- The overflow that `C48_safe` allows does occur. -/
theorem C48_overflow_violated (old : Bytes) (ho : old.length = 16) :
    addressOf b!"1.2.3.99999999999" old = .ub .signedOverflow := by
  match old, ho with
  | [x0,x1,x2,x3,x4,x5,x6,x7,x8,x9,xa,xb,xc,xd,xe,xf], _ => rfl

/-! ### C49 -/

/-- C49: an address is less than another if the number its bytes make, the first being most significant, is. -/
theorem C49_less (a b : Bytes) (ha : a.length = 16) (hb : b.length = 16) : addrLess a b = true ↔ bigEndian a < bigEndian b :=
  memLess_iff a b (by rw [ha, hb])

/-- C49: `<` is a strict total order. -/
theorem C49_order (a b c : Bytes) (ha : a.length = 16) (hb : b.length = 16) (hc : c.length = 16) :
    addrLess a a = false ∧ (addrLess a b = true → addrLess b c = true → addrLess a c = true) ∧
    (addrLess a b = true ∨ addrEq a b = true ∨ addrLess b a = true) ∧ ¬ (addrLess a b = true ∧ addrLess b a = true) := by
  refine ⟨?_, ?_, ?_, ?_⟩
  · rw [Bool.eq_false_iff]; intro h; have := (C49_less a a ha ha).1 h; omega
  · intro h1 h2
    have := (C49_less a b ha hb).1 h1
    have := (C49_less b c hb hc).1 h2
    exact (C49_less a c ha hc).2 (by omega)
  · rcases Nat.lt_trichotomy (bigEndian a) (bigEndian b) with h | h | h
    · exact Or.inl ((C49_less a b ha hb).2 h)
    · have := bigEndian_inj (by rw [ha, hb]) h
      subst this
      exact Or.inr (Or.inl (by simp [addrEq]))
    · exact Or.inr (Or.inr ((C49_less b a hb ha).2 h))
  · rintro ⟨h1, h2⟩
    have := (C49_less a b ha hb).1 h1
    have := (C49_less b a hb ha).1 h2
    omega

/-- C49: `==` is equality of the bytes. -/
theorem C49_equal (a b : Bytes) : addrEq a b = true ↔ a = b := by simp [addrEq]

/-- C49: the mask is taken byte by byte. -/
theorem C49_mask (a b : Bytes) (ha : a.length = 16) (hb : b.length = 16) : addrMask a b = List.zipWith (· &&& ·) a b := by
  have ht : ∀ c : Bytes, c.length = 16 → (c.drop 8).take 8 = c.drop 8 := fun c hc => List.take_of_length_le (by rw [List.length_drop, hc]; decide)
  unfold addrMask word64
  rw [ht a ha, ht b hb]
  have l1 : ∀ c : Bytes, c.length = 16 → (c.take 8).length = 8 := fun c hc => by simp [hc]
  have l2 : ∀ c : Bytes, c.length = 16 → (c.drop 8).length = 8 := fun c hc => by simp [hc]
  have h1 := unword_and (a.take 8) (b.take 8) (by rw [l1 a ha, l1 b hb])
  have h2 := unword_and (a.drop 8) (b.drop 8) (by rw [l2 a ha, l2 b hb])
  rw [l1 a ha] at h1
  rw [l2 a ha] at h2
  rw [h1, h2]
  have hz : (List.take 8 a).length = (List.take 8 b).length := by rw [l1 a ha, l1 b hb]
  rw [← List.zipWith_append hz, List.take_append_drop, List.take_append_drop]

/-- C49: only the zero address is false. -/
theorem C49_bool (a : Bytes) (ha : a.length = 16) : addrBool a = false ↔ ∀ x ∈ a, x = 0 := by
  unfold addrBool
  simp only [Bool.not_eq_false', beq_iff_eq]
  constructor
  · intro h x hx; rw [h] at hx; exact (List.mem_replicate.1 hx).2
  · intro h; exact List.eq_replicate_iff.2 ⟨ha, h⟩

example : addrLess addr123 (addr123.set 0 1) = true := by decide
example : addrMask addr123 (List.replicate 8 0xff ++ List.replicate 8 0) = [0,1, 0,0, 0,0, 0,2] ++ List.replicate 8 0 := by decide

/-! ### C72 -/

/-- C72, in part: with no base prefix and no grouping of digits asked for, printing an address stays in the buffer.
Missing: the other settings, see below. -/
theorem C72_fits_partial (f : NumFmt) (a : Bytes) (hs : f.showbase = false) (hg : f.sep = none) (ha : a.length = 16) :
    ∃ t, printBuffer f a = .ok t ∧ t.length ≤ 39 := by
  obtain ⟨t, h1, _, h3⟩ := printBuffer_text (f := f) ⟨hs, hg⟩ ha
  exact ⟨t, h1, h3⟩

/-- C72 fails if the stream shows the base (`std::showbase`). -/
theorem C72_showbase_violated : printBuffer { showbase := true } (List.replicate 16 0x11) = .ub .oobWrite := by decide +kernel

/-- C72 fails if the locale of the stream groups digits by three. -/
theorem C72_grouping_violated : printBuffer { sep := some 44 } (List.replicate 16 0x11) = .ub .oobWrite := by decide +kernel

example : printBuffer {} (List.replicate 16 0x11) = .ok b!"1111:1111:1111:1111:1111:1111:1111:1111" := by decide +kernel

/-! ### C73 -/

/-- C73: an address is printed with as many fill characters as the width asks for, after it if left alignment is set and
before it otherwise; the address itself is never cut. -/
theorem C73_width (f : NumFmt) (left : Bool) (fill : Byte) (width : Nat) (a : Bytes) (hs : f.showbase = false) (hg : f.sep = none)
    (ha : a.length = 16) :
    ∃ t, printAddr f left fill 0 a = .ok t ∧ AddrText t a ∧
      printAddr f left fill width a = .ok (if left then t ++ List.replicate (width - t.length) fill else List.replicate (width - t.length) fill ++ t) := by
  obtain ⟨t, h1, h2, h3⟩ := printBuffer_text (f := f) ⟨hs, hg⟩ ha
  have hne := addrText_ne_nil h2
  refine ⟨t, ?_, h2, ?_⟩
  · unfold printAddr
    rw [h1]
    cases left
    · simp [emitRight_eq fill t _ hne]
    · simp [emitLeft_eq fill t _ (Nat.le_refl _)]
  · unfold printAddr
    rw [h1]
    cases left
    · simp [emitRight_eq fill t _ hne]
    · simp only [Res.ok_bind, if_true]
      rw [emitLeft_eq fill t _ (Nat.le_max_right ..)]
      rw [show max width t.length - t.length = width - t.length by omega]
      rfl

example : printAddr {} false 42 12 addr123 = .ok b!"**1:0:0:2::3" := by decide +kernel
example : printAddr {} true 42 12 addr123 = .ok b!"1:0:0:2::3**" := by decide +kernel

/-! ### C74 -/

/-- C74: a text of an address is read from a stream up to its end, and not further. -/
theorem C74_text (t a r junk old : Bytes) (h : AddrText t a) (hl : t.length ≤ 39) (hj : junk.length = 16)
    (hr : ∀ c, r.head? = some c → Foreign c) :
    getAddr (t ++ r) junk old = .ok (a, false, r) :=
  get_text h (fun c hc => ⟨foreign_addr (hr c hc), (hr c hc).2.1, (hr c hc).1⟩) hj hl

/-- C74: what has been printed is read back, and the rest of the stream is left. -/
theorem C74_roundTrip (f : NumFmt) (left : Bool) (fill : Byte) (a r junk old : Bytes) (hs : f.showbase = false) (hg : f.sep = none)
    (ha : a.length = 16) (hj : junk.length = 16) (hr : ∀ c, r.head? = some c → Foreign c) :
    ∃ t, printAddr f left fill 0 a = .ok t ∧ getAddr (t ++ r) junk old = .ok (a, false, r) := by
  obtain ⟨t, h1, h2, h3⟩ := printBuffer_text (f := f) ⟨hs, hg⟩ ha
  refine ⟨t, ?_, C74_text t a r junk old h2 h3 hj hr⟩
  unfold printAddr
  rw [h1]
  cases left
  · simp [emitRight_eq fill t _ (addrText_ne_nil h2)]
  · simp [emitLeft_eq fill t _ (Nat.le_refl _)]

/-- C74: no stream makes the extraction go out of bounds; if it fails the address is as before. -/
theorem C74_safe (s junk old : Bytes) (hj : junk.length = 16) (ho : old.length = 16) :
    ∃ a fail r, getAddr s junk old = .ok (a, fail, r) ∧ a.length = 16 ∧ (fail = true → a = old) := by
  obtain ⟨st, fail, r, h, h1, h2, h3⟩ := getLoop_fine 40 s 0 ⟨junk, 0, none, 0⟩ hj (by simp) ⟨0, rfl⟩ (by intro p hp; cases hp)
  refine ⟨if fail then old else st.padded, fail, r, ?_, ?_, ?_⟩
  · unfold getAddr
    rw [h]
    rfl
  · cases fail
    · exact padded_length h1 h2 h3
    · exact ho
  · intro e; simp [e]

/-- A decimal number as the library reads it, with a sign perhaps. -/
def SignedNumber (t : Bytes) : Prop := ∃ sign ds : Bytes, t = sign ++ ds ∧ (sign = [] ∨ sign = b!"-" ∨ sign = b!"+") ∧ ds ≠ [] ∧ ∀ c ∈ ds, IsDigit c

theorem getUnsigned_good {s : Bytes} (h : (getUnsigned s).2.1 = false) :
    ∃ t, SignedNumber t ∧ s = t ++ (getUnsigned s).2.2 := by
  unfold getUnsigned at h ⊢
  dsimp only at h ⊢
  generalize hb : (if s.head? = some 45 ∨ s.head? = some 43 then s.drop 1 else s) = body at h ⊢
  have hsign : ∃ sign, s = sign ++ body ∧ (sign = [] ∨ sign = b!"-" ∨ sign = b!"+") := by
    cases s with
    | nil => exact ⟨[], by rw [← hb]; rfl, Or.inl rfl⟩
    | cons x s =>
      by_cases hx : x = 45 ∨ x = 43
      · rw [if_pos (by simpa using hx)] at hb
        refine ⟨[x], by rw [← hb]; rfl, ?_⟩
        rcases hx with rfl | rfl
        · exact Or.inr (Or.inl rfl)
        · exact Or.inr (Or.inr rfl)
      · rw [if_neg (by simpa using hx)] at hb
        exact ⟨[], by rw [← hb]; rfl, Or.inl rfl⟩
  obtain ⟨sign, e, hs⟩ := hsign
  have hne : body.takeWhile (fun c => 48 ≤ c && c ≤ 57) ≠ [] := by
    intro e; rw [if_pos e] at h; cases h
  rw [if_neg hne] at h ⊢
  have hd : ∀ c ∈ body.takeWhile (fun c => 48 ≤ c && c ≤ 57), IsDigit c := by
    intro c hc
    have := List.all_eq_true.1 (List.all_takeWhile (l := body) (p := fun c => 48 ≤ c && c ≤ 57)) c hc
    simp only [Bool.and_eq_true, decide_eq_true_eq] at this
    exact ⟨this.1, this.2⟩
  refine ⟨sign ++ body.takeWhile (fun c => 48 ≤ c && c ≤ 57), ⟨sign, _, rfl, hs, hne, hd⟩, ?_⟩
  have hsplit : body.takeWhile (fun c => 48 ≤ c && c ≤ 57) ++ body.dropWhile (fun c => 48 ≤ c && c ≤ 57) = body := List.takeWhile_append_dropWhile
  have hi : ∀ (p : Prop) [Decidable p] (a b : Nat × Bool × Bytes) (r : Bytes), a.2.2 = r → b.2.2 = r → (if p then a else b).2.2 = r := by
    intro p _ a b r ha hb; split <;> assumption
  rw [hi _ _ _ (body.dropWhile (fun c => 48 ≤ c && c ≤ 57)) rfl rfl, List.append_assoc, hsplit, e]

theorem getOctets_good : ∀ (k : Nat) (s : Bytes) (st : AddrSt) (fail : Bool) (st' : AddrSt) (left : Bytes),
    getOctets k s st fail = .ok (st', false, left) →
    fail = false ∧ ∃ os : List Bytes, os.length = k ∧ (∀ o ∈ os, SignedNumber o) ∧ s = os.flatMap (fun o => 46 :: o) ++ left := by
  intro k
  induction k with
  | zero => intro s st fail st' left h; simp only [getOctets] at h; cases h; exact ⟨rfl, [], rfl, by simp, rfl⟩
  | succ k ih =>
    intro s st fail st' left h
    unfold getOctets at h
    split at h
    · rename_i s
      dsimp only at h
      obtain ⟨d, hd, h⟩ := Res.bind_eq_ok.1 h
      obtain ⟨h1, os, h2, h3, h4⟩ := ih _ _ _ _ _ h
      simp only [Bool.or_eq_false_iff] at h1
      obtain ⟨t, ht, e⟩ := getUnsigned_good h1.2
      refine ⟨h1.1, t :: os, by simp [h2], ?_, ?_⟩
      · intro o ho
        rcases List.mem_cons.1 ho with rfl | ho
        · exact ht
        · exact h3 o ho
      · simp only [List.flatMap_cons, List.cons_append, List.append_assoc]
        rw [← h4, ← e]
    · cases h

theorem getLoop_digits : ∀ (d : Bytes), (∀ c ∈ d, IsDigit c) → ∀ (n : Nat) (r : Bytes) (last : Byte) (st : AddrSt) (res : AddrSt × Bool × Bytes),
    res.2.1 = false → getLoop n (d ++ r) last st = .ok res → ∃ n' last' st', getLoop n' r last' st' = .ok res := by
  intro d
  induction d with
  | nil => intro _ n r last st res _ h; exact ⟨n, last, st, h⟩
  | cons c d ih =>
    intro hd n r last st res hr h
    cases n with
    | zero => simp only [getLoop] at h; cases h; cases hr
    | succ n =>
      rw [getLoop] at h
      simp only [List.cons_append, List.headD_cons, isDigit_addr (hd c List.mem_cons_self), List.drop_one, List.tail_cons] at h
      exact ih (fun x hx => hd x (List.mem_cons_of_mem _ hx)) _ _ _ _ _ hr h

/-- C74: of a dotted text nothing but four numbers is accepted. -/
theorem C74_dotted (d r junk old a left : Bytes) (hd : ∀ c ∈ d, IsDigit c) (h : getAddr (d ++ 46 :: r) junk old = .ok (a, false, left)) :
    ∃ x y z, SignedNumber x ∧ SignedNumber y ∧ SignedNumber z ∧ r = x ++ b!"." ++ y ++ b!"." ++ z ++ left := by
  unfold getAddr at h
  obtain ⟨⟨st, fail, s⟩, h1, h2⟩ := Res.bind_eq_ok.1 h
  dsimp only at h2
  have e2 : fail = false ∧ s = left := by cases fail <;> simp_all
  obtain ⟨rfl, rfl⟩ := e2
  obtain ⟨n, last, st', h3⟩ := getLoop_digits d hd _ _ _ _ _ rfl h1
  cases n with
  | zero => simp only [getLoop] at h3; cases h3
  | succ n =>
    rw [getLoop] at h3
    simp only [List.headD_cons, addrDigit_dot, if_true] at h3
    obtain ⟨o, _, h4⟩ := Res.bind_eq_ok.1 h3
    cases o with
    | none => cases h4
    | some st'' =>
      obtain ⟨_, os, h5, h6, h7⟩ := getOctets_good _ _ _ _ _ _ h4
      match os, h5, h6, h7 with
      | [x, y, z], _, h6, h7 =>
        refine ⟨x, y, z, h6 x (by simp), h6 y (by simp), h6 z (by simp), ?_⟩
        simp only [List.flatMap_cons, List.flatMap_nil, List.cons_append, List.append_nil, List.append_assoc, List.cons.injEq, true_and] at h7
        rw [h7]
        simp

example : getAddr b!"1.2.3.x" (List.replicate 16 7) addr123 = .ok (addr123, true, b!"x") := by decide +kernel

/-- C74 fails: this text is accepted, and what the address then holds was never written. -/
theorem C74_junk_violated :
    getAddr b!"1:2.3.4.5" (List.replicate 16 7) addr123 = .ok ([0, 1, 2, 3, 4, 5] ++ List.replicate 10 7, false, []) ∧
    getAddr b!"1:2.3.4.5" (List.replicate 16 9) addr123 = .ok ([0, 1, 2, 3, 4, 5] ++ List.replicate 10 9, false, []) := by decide +kernel

example : getAddr b!"1:0:0:2::3 x" (List.replicate 16 7) [] = .ok (addr123, false, b!" x") := by decide +kernel
example : getAddr b!"1:0:0:2 x" (List.replicate 16 7) addr123 = .ok (addr123, true, b!" x") := by decide +kernel

end Fcgi.Props
