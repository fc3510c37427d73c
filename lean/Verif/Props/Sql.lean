import Verif.Lemmas.Sql
import Verif.Lemmas.HttpWide
/-! # SQL values: C50-C52, C75, C76 -/
namespace Fcgi.Props
open Fcgi Fcgi.Model Fcgi.Spec

/-- A conversion for the examples: bytes below 128 only. -/
def asciiConv : WConv where
  out s := if s.all (fun c => c < 128) then some (s.map fun c => c.toUInt8) else none
  inn b := if b.all (fun c => c < 128) then some (b.map fun c => c.toUInt32) else none

theorem asciiConv_inverse : WConv.Inverse asciiConv := by
  intro s b h
  simp only [asciiConv] at h ⊢
  split at h
  · rename_i ha
    cases h
    have key : ∀ s : List UInt32, s.all (fun c => c < 128) = true → (s.map (fun c => c.toUInt8)).all (fun c => c < 128) = true ∧ (s.map fun c => c.toUInt8).map (fun c => c.toUInt32) = s := by
      intro s
      induction s with
      | nil => intro _; exact ⟨rfl, rfl⟩
      | cons c s ih =>
        intro h
        simp only [List.all_cons, Bool.and_eq_true, decide_eq_true_eq] at h
        obtain ⟨h1, h2⟩ := ih h.2
        have hc : c.toNat < 128 := h.1
        have e : c.toUInt8.toNat = c.toNat := by rw [UInt32.toNat_toUInt8]; omega
        simp only [List.map_cons, List.all_cons, h1, h2, Bool.and_true, decide_eq_true_eq]
        refine ⟨?_, ?_⟩
        · show c.toUInt8.toNat < 128; omega
        · congr 1
          apply UInt32.toNat_inj.1
          rw [UInt8.toNat_toUInt32, e]
    rw [if_pos (key s ha).1, (key s ha).2]
  · cases h

theorem int64_ok {x : Int} (h1 : -2^63 ≤ x) (h2 : x < 2^63) : int64 x = .ok (Int64.ofInt x) ∧ (Int64.ofInt x).toInt = x := by
  constructor
  · unfold int64; rw [if_pos ⟨h1, h2⟩]
  · exact Int64.toInt_ofInt_of_le (by simpa using h1) (by simpa using h2)

theorem int32_ok {x : Int} (h1 : -2^31 ≤ x) (h2 : x < 2^31) : (Int32.ofInt x).toInt = x :=
  Int32.toInt_ofInt_of_le (by simpa using h1) (by simpa using h2)

theorem Int64_range (x : Int64) : -2^63 ≤ x.toInt ∧ x.toInt < 2^63 := by
  have h1 := Int64.le_toInt x
  have h2 := Int64.toInt_lt x
  exact ⟨by simpa using h1, by simpa using h2⟩

/-! ### C50 -/

/-- C50: every value within the limits has a wire form, and it is PostgreSQL's. -/
theorem C50_wire (cv : WConv) (junk : Nat → Byte) (v : SqlVal) (h : Sendable cv v) :
    ∃ b : Bytes, encode cv junk v = .ok b ∧ Cell cv v b ∧ b.length < 2^31 := by
  have arr : ∀ {α : Type} [SqlNum α] [SqlNumLaws α] (xs : List α), 20 + xs.length * (4 + SqlNum.width α) < 2^31 →
      ∃ b : Bytes, encodeNums junk xs = .ok b ∧ ArrayCell (SqlNum.oid α).toNat (xs.map (SqlNumLaws.wire (α := α))) b ∧ b.length < 2^31 := by
    intro α _ _ xs hh
    refine ⟨_, encodeNums_ok junk xs (by omega), Or.inl ⟨beDigits 4 1, beDigits_length 4 1, ?_, rfl⟩, ?_⟩
    · have hn : xs.length ≤ xs.length * (4 + SqlNum.width α) := Nat.le_mul_of_pos_right _ (by omega)
      simp only [List.length_map]; omega
    · unfold arrayBytes
      simp only [List.length_append, beDigits_length, flatMap_length]
      omega
  have txt : ∀ xs : List Bytes, 20 + (xs.map fun s => 4 + s.length).sum < 2^31 →
      ∃ b : Bytes, encodeTexts junk xs = .ok b ∧ (∀ s ∈ xs, s.length < 2^31) ∧ ArrayCell 25 xs b ∧ b.length < 2^31 := by
    intro xs hh
    have hs := sum_lens xs
    refine ⟨_, encodeTexts_ok junk xs (by omega), ?_, Or.inl ⟨beDigits 4 1, beDigits_length 4 1, by omega, rfl⟩, ?_⟩
    · intro s hm; have := mem_le_sum hm; omega
    · unfold arrayBytes
      simp only [List.length_append, beDigits_length, textsLen_append]
      omega
  cases v with
  | bool b => exact ⟨_, rfl, rfl, by simp⟩
  | smallint x => exact ⟨_, rfl, SqlNumLaws.put_wire x, by rw [SqlNumLaws.put_wire, SqlNumLaws.wire_length]; decide⟩
  | integer x => exact ⟨_, rfl, SqlNumLaws.put_wire x, by rw [SqlNumLaws.put_wire, SqlNumLaws.wire_length]; decide⟩
  | bigint x => exact ⟨_, rfl, SqlNumLaws.put_wire x, by rw [SqlNumLaws.put_wire, SqlNumLaws.wire_length]; decide⟩
  | real x => exact ⟨_, rfl, SqlNumLaws.put_wire x, by rw [SqlNumLaws.put_wire, SqlNumLaws.wire_length]; decide⟩
  | double x => exact ⟨_, rfl, SqlNumLaws.put_wire x, by rw [SqlNumLaws.put_wire, SqlNumLaws.wire_length]; decide⟩
  | text s => exact ⟨_, rfl, rfl, h⟩
  | wtext s =>
    obtain ⟨b, h1, h2⟩ := h
    exact ⟨b, by simp [encode, convertW, h1], h1, h2⟩
  | bytea s => exact ⟨_, rfl, rfl, h⟩
  | timestamptz t =>
    have hr := Int64_range t
    simp only [Sendable] at h
    obtain ⟨e1, e2⟩ := int64_ok (x := t.toInt - 946684800000000) h (by omega)
    refine ⟨SqlNum.put (Int64.ofInt (t.toInt - 946684800000000)), ?_, ⟨h, ?_⟩, ?_⟩
    · simp only [encode, epochUs, e1]; rfl
    · rw [SqlNumLaws.put_wire]; show twosComplement 8 _ = _; rw [e2]
    · rw [SqlNumLaws.put_wire, SqlNumLaws.wire_length]; decide
  | date d =>
    simp only [Sendable] at h
    refine ⟨_, rfl, ⟨h.1, h.2, ?_⟩, ?_⟩
    · rw [SqlNumLaws.put_wire]; show twosComplement 4 _ = _; rw [epochDays, int32_ok h.1 h.2]
    · rw [SqlNumLaws.put_wire, SqlNumLaws.wire_length]; decide
  | inet a =>
    refine ⟨_, rfl, Or.inl ⟨128, h, rfl⟩, ?_⟩
    have : a.length = 16 := h
    simp [this]
  | smallints xs => exact arr xs h
  | integers xs => exact arr xs h
  | bigints xs => exact arr xs h
  | reals xs => exact arr xs h
  | doubles xs => exact arr xs h
  | texts xs => obtain ⟨b, h1, h2, h3, h4⟩ := txt xs h; exact ⟨b, h1, ⟨h2, h3⟩, h4⟩
  | wtexts xs =>
    obtain ⟨bs, e, hl⟩ := h
    obtain ⟨b, h1, h2, h3, h4⟩ := txt bs hl
    exact ⟨b, by simp only [encode, convertWs_ok xs bs e, h1], ⟨bs, e, h2, h3⟩, h4⟩

/-- C50, C51, C52: a field that holds a value in PostgreSQL's format is read as that value. -/
theorem C50_read (cv : WConv) (hi : WConv.Inverse cv) (v : SqlVal) (b : Bytes) (h : Cell cv v b) :
    readCell cv (some b) v.type = .ok (some v) := by
  have num : ∀ {α : Type} [SqlNum α] [SqlNumLaws α] (x : α), SqlNum.get (SqlNumLaws.wire x ++ [0]) 0 = .ok x := by
    intro α _ _ x
    have := SqlNumLaws.get_wire x [] [0]
    simpa using this
  cases v with
  | bool x => cases h; cases x <;> rfl
  | smallint x => cases h; simp only [readCell, SqlVal.type, cellMem]; rw [show twosComplement 2 x.toInt = SqlNumLaws.wire x from rfl, num]; rfl
  | integer x => cases h; simp only [readCell, SqlVal.type, cellMem]; rw [show twosComplement 4 x.toInt = SqlNumLaws.wire x from rfl, num]; rfl
  | bigint x => cases h; simp only [readCell, SqlVal.type, cellMem]; rw [show twosComplement 8 x.toInt = SqlNumLaws.wire x from rfl, num]; rfl
  | real x => cases h; simp only [readCell, SqlVal.type, cellMem]; rw [show beDigits 4 x.bits.toNat = SqlNumLaws.wire x from rfl, num]; rfl
  | double x => cases h; simp only [readCell, SqlVal.type, cellMem]; rw [show beDigits 8 x.bits.toNat = SqlNumLaws.wire x from rfl, num]; rfl
  | text s => cases h; simp [readCell, SqlVal.type, cellMem, cellLen]
  | wtext s => simp [readCell, SqlVal.type, cellMem, cellLen, hi s b h]
  | bytea s => cases h; simp [readCell, SqlVal.type, cellMem, cellLen]
  | timestamptz t =>
    obtain ⟨h1, h2⟩ := h
    have hr := Int64_range t
    obtain ⟨_, e2⟩ := int64_ok (x := t.toInt - 946684800000000) h1 (by omega)
    have e : twosComplement 8 (t.toInt - 946684800000000) = SqlNumLaws.wire (Int64.ofInt (t.toInt - 946684800000000)) := by
      show _ = twosComplement 8 (Int64.ofInt _).toInt
      rw [e2]
    simp only [readCell, SqlVal.type, cellMem]
    rw [h2, e, num, Res.ok_bind, e2, epochUs, show (946684800000000 : Int) + (t.toInt - 946684800000000) = t.toInt by omega,
      (int64_ok hr.1 hr.2).1]
    simp [Int64.ofInt_toInt]
  | date d =>
    obtain ⟨h1, h2, h3⟩ := h
    have e2 := int32_ok h1 h2
    have e : twosComplement 4 (d - 10957) = SqlNumLaws.wire (Int32.ofInt (d - 10957)) := by
      show _ = twosComplement 4 (Int32.ofInt _).toInt
      rw [e2]
    simp only [readCell, SqlVal.type, cellMem]
    rw [h3, e, num, Res.ok_bind, e2, epochDays]
    simp only [Res.pure_eq]
    congr 3
    omega
  | inet a =>
    rcases h with ⟨bits, hl, rfl⟩ | ⟨bits, x, y, z, w, rfl, rfl⟩
    · have h20 : ([3, bits, 0, 16] ++ a).length = 20 := by simp [hl]
      have e : ∀ old, readInet (([3, bits, 0, 16] ++ a) ++ [0]) 20 old = .ok a := by
        intro old
        unfold readInet
        rw [if_neg (by decide), if_pos rfl, if_pos (by rw [List.length_append, h20]; decide)]
        have : (([3, bits, 0, 16] ++ a ++ [0]).take 20) = [3, bits, 0, 16] ++ a := List.take_left' h20
        unfold slice
        rw [this]
        rfl
      simp only [readCell, SqlVal.type, cellMem, cellLen]
      rw [h20, e]
      rfl
    · rfl
  | smallints xs => simp only [readCell, SqlVal.type, cellMem]; rw [readNums_ok (α := Int16) h]; rfl
  | integers xs => simp only [readCell, SqlVal.type, cellMem]; rw [readNums_ok (α := Int32) h]; rfl
  | bigints xs => simp only [readCell, SqlVal.type, cellMem]; rw [readNums_ok (α := Int64) h]; rfl
  | reals xs => simp only [readCell, SqlVal.type, cellMem]; rw [readNums_ok (α := Real4) h]; rfl
  | doubles xs => simp only [readCell, SqlVal.type, cellMem]; rw [readNums_ok (α := Real8) h]; rfl
  | texts xs => simp only [readCell, SqlVal.type, cellMem]; rw [readTexts_ok h.1 h.2]; rfl
  | wtexts xs =>
    obtain ⟨bs, h1, h2, h3⟩ := h
    simp only [readCell, SqlVal.type, cellMem]; rw [readWTexts_ok hi h1 h2 h3]; rfl

/-- C50: reading a field that holds the bytes of a parameter gives the parameter. -/
theorem C50_roundTrip (cv : WConv) (hi : WConv.Inverse cv) (junk : Nat → Byte) (v : SqlVal) (h : Sendable cv v) :
    ∃ b, encode cv junk v = .ok b ∧ readCell cv (some b) v.type = .ok (some v) := by
  obtain ⟨b, h1, h2, _⟩ := C50_wire cv junk v h
  exact ⟨b, h1, C50_read cv hi v b h2⟩

/-! ### With the conversion of the library -/

/-- The conversions of parameters.cpp and results.cpp. -/
def utf8Conv : WConv := ⟨utf8Out, utf8All⟩

theorem utf8Put_scalar (c : UInt32) : (isScalar c → utf8Put c = some (utf8Encode c.toNat)) ∧ (¬ isScalar c → utf8Put c = none) := by
  have hs : isScalar c ↔ c.toNat < 0xd800 ∨ 0xe000 ≤ c.toNat ∧ c.toNat < 0x110000 := by
    simp only [isScalar, UInt32.lt_iff_toNat_lt, UInt32.le_iff_toNat_le]; exact Iff.rfl
  rw [hs]
  simp only [utf8Put, utf8Encode]
  generalize c.toNat = n
  refine ⟨fun h => ?_, fun h => ?_⟩
  · by_cases h1 : n < 0x80
    · rw [if_pos (by omega), if_pos h1]
    · rw [if_neg (by omega), if_neg h1]
      by_cases h2 : n < 0x800
      · rw [if_pos (by omega), if_pos h2]; simp only [Nat.add_comm]
      · rw [if_neg (by omega), if_neg h2]
        by_cases h3 : n < 0x10000
        · rw [if_pos (by omega), if_neg (by omega), if_pos h3]; simp only [show 2^12 = 4096 from rfl, show 2^6 = 64 from rfl, Nat.add_comm 0xe0, Nat.add_comm 0x80]
        · rw [if_neg (by omega), if_pos (by omega), if_neg h3]; simp only [show 2^18 = 262144 from rfl, show 2^12 = 4096 from rfl, show 2^6 = 64 from rfl, Nat.add_comm 0xf0, Nat.add_comm 0x80]
  · by_cases h3 : n ≤ 0xffff
    · rw [if_neg (by omega), if_neg (by omega), if_pos h3, if_pos (by omega)]
    · rw [if_neg (by omega), if_neg (by omega), if_neg h3, if_neg (by omega)]

/-- The library encodes exactly the Unicode texts, in UTF-8. -/
theorem utf8Out_iff (t : List UInt32) (b : Bytes) : utf8Out t = some b ↔ IsText t ∧ b = utf8Text t := by
  induction t generalizing b with
  | nil => simp [utf8Out, IsText, utf8Text, eq_comm]
  | cons c t ih =>
    by_cases hc : isScalar c
    · have e : utf8Out (c :: t) = (utf8Out t).map (utf8Encode c.toNat ++ ·) := by
        simp only [utf8Out, (utf8Put_scalar c).1 hc]
        cases utf8Out t <;> rfl
      rw [e, Option.map_eq_some_iff]
      constructor
      · rintro ⟨r, hr, rfl⟩
        obtain ⟨h1, rfl⟩ := (ih r).1 hr
        refine ⟨fun d hd => ?_, rfl⟩
        rcases List.mem_cons.1 hd with rfl | hd
        · exact hc
        · exact h1 d hd
      · rintro ⟨h1, rfl⟩
        exact ⟨utf8Text t, (ih _).2 ⟨fun d hd => h1 d (by simp [hd]), rfl⟩, rfl⟩
    · have e : utf8Out (c :: t) = none := by simp only [utf8Out, (utf8Put_scalar c).2 hc]; rfl
      rw [e]
      constructor
      · intro h; cases h
      · rintro ⟨h1, _⟩; exact absurd (h1 c (by simp)) hc

theorem utf8Conv_inverse : WConv.Inverse utf8Conv := by
  intro t b h
  obtain ⟨h1, rfl⟩ := (utf8Out_iff t b).1 h
  exact utf8All_text t h1

/-- A wide text is sent as its UTF-8 form and comes back as it was. -/
theorem C50_wide (junk : Nat → Byte) (t : List UInt32) (h : IsText t) (hl : (utf8Text t).length < 2^31) :
    encode utf8Conv junk (.wtext t) = .ok (utf8Text t) ∧ readCell utf8Conv (some (utf8Text t)) .wtext = .ok (some (.wtext t)) := by
  have ho : utf8Conv.out t = some (utf8Text t) := (utf8Out_iff t _).2 ⟨h, rfl⟩
  refine ⟨by simp only [encode, convertW, ho]; rfl, ?_⟩
  obtain ⟨b, h1, h2⟩ := C50_roundTrip utf8Conv utf8Conv_inverse junk (.wtext t) ⟨_, ho, hl⟩
  simp only [encode, convertW, ho, Option.getD_some, Res.ok.injEq] at h1
  subst h1
  exact h2

/-- So do arrays of wide texts. -/
theorem C50_wides (junk : Nat → Byte) (ts : List (List UInt32)) (h : ∀ t ∈ ts, IsText t) (hs : Sendable utf8Conv (.texts (ts.map utf8Text))) :
    ∃ b, encode utf8Conv junk (.wtexts ts) = .ok b ∧ encode utf8Conv junk (.texts (ts.map utf8Text)) = .ok b ∧
      readCell utf8Conv (some b) .wtexts = .ok (some (.wtexts ts)) ∧ readCell utf8Conv (some b) .texts = .ok (some (.texts (ts.map utf8Text))) := by
  have hc : convertWs utf8Conv ts = ts.map utf8Text := by
    clear hs
    induction ts with
    | nil => rfl
    | cons t ts ih =>
      have ho : utf8Conv.out t = some (utf8Text t) := (utf8Out_iff t _).2 ⟨h t (by simp), rfl⟩
      simp only [convertWs, ho, List.map_cons, ih (fun x hx => h x (by simp [hx]))]
  have e : encode utf8Conv junk (.wtexts ts) = encode utf8Conv junk (.texts (ts.map utf8Text)) := by simp only [encode, hc]
  obtain ⟨b, h1, h2⟩ := C50_roundTrip utf8Conv utf8Conv_inverse junk _ hs
  have hm : ts.map utf8Conv.out = (ts.map utf8Text).map some := by
    rw [List.map_map]
    exact List.map_congr_left fun t ht => (utf8Out_iff t _).2 ⟨h t ht, rfl⟩
  obtain ⟨b', h1', h2'⟩ := C50_roundTrip utf8Conv utf8Conv_inverse junk (.wtexts ts) ⟨ts.map utf8Text, hm, hs⟩
  rw [e, h1] at h1'
  cases h1'
  exact ⟨b, e.trans h1, h1, h2', h2⟩

/-- A text that is not Unicode is sent as the empty text. -/
theorem C50_not_text (junk : Nat → Byte) (t : List UInt32) (h : ¬ IsText t) : encode utf8Conv junk (.wtext t) = .ok [] := by
  have ho : utf8Conv.out t = none := by
    cases ho : utf8Conv.out t with
    | none => rfl
    | some b => exact absurd ((utf8Out_iff t b).1 ho).1 h
  simp only [encode, convertW, ho]; rfl

example : IsText [0x48, 0xe9, 0x20ac, 0x1f600] ∧ utf8Text [0x48, 0xe9, 0x20ac, 0x1f600] = [0x48, 0xc3, 0xa9, 0xe2, 0x82, 0xac, 0xf0, 0x9f, 0x98, 0x80] := by
  refine ⟨?_, by decide⟩
  intro c hc
  simp only [List.mem_cons, List.not_mem_nil, or_false] at hc
  rcases hc with rfl | rfl | rfl | rfl <;> unfold isScalar <;> decide
example : ¬ IsText [0xd800] := by intro h; have := h 0xd800 (by simp); unfold isScalar at this; revert this; decide

example : encode asciiConv (fun _ => 7) (.bigint (-2)) = .ok [255, 255, 255, 255, 255, 255, 255, 254] := by decide +kernel
example : Sendable asciiConv (.wtext [104, 105]) := ⟨b!"hi", rfl, by decide⟩
example : readCell asciiConv (some [0, 0, 0, 10]) .date = .ok (some (.date 10967)) := by decide +kernel

/-- C50 fails for a text with a character that cannot be encoded: an empty text is sent. -/
theorem C50_unencodable_violated : encode asciiConv (fun _ => 0) (.wtext [104, 0x100]) = .ok [] := by decide +kernel

/-- C50 fails for times far in the past: the difference to the epoch overflows. -/
theorem C50_overflow_violated : encode asciiConv (fun _ => 0) (.timestamptz (-9223372036854775808)) = .ub .signedOverflow := by decide +kernel

/-! ### C51 -/

/-- C51: an array of numbers of less than 2^32 bytes is sent as PostgreSQL's array with its elements. -/
theorem C51_nums (junk : Nat → Byte) (xs : List Int32) (ys : List Int64) (zs : List Int16)
    (hx : 20 + xs.length * 8 < 2^32) (hy : 20 + ys.length * 12 < 2^32) (hz : 20 + zs.length * 6 < 2^32) :
    encodeNums junk xs = .ok (arrayBytes 23 (beDigits 4 1) (xs.map fun x => twosComplement 4 x.toInt)) ∧
    encodeNums junk ys = .ok (arrayBytes 20 (beDigits 4 1) (ys.map fun x => twosComplement 8 x.toInt)) ∧
    encodeNums junk zs = .ok (arrayBytes 21 (beDigits 4 1) (zs.map fun x => twosComplement 2 x.toInt)) :=
  ⟨encodeNums_ok junk xs hx, encodeNums_ok junk ys hy, encodeNums_ok junk zs hz⟩

/-- C51: so is an array of floating point numbers. -/
theorem C51_floats (junk : Nat → Byte) (xs : List Real4) (ys : List Real8) (hx : 20 + xs.length * 8 < 2^32) (hy : 20 + ys.length * 12 < 2^32) :
    encodeNums junk xs = .ok (arrayBytes 700 (beDigits 4 1) (xs.map fun x => beDigits 4 x.bits.toNat)) ∧
    encodeNums junk ys = .ok (arrayBytes 701 (beDigits 4 1) (ys.map fun x => beDigits 8 x.bits.toNat)) :=
  ⟨encodeNums_ok junk xs hx, encodeNums_ok junk ys hy⟩

/-- C51: assigning to element `i` of an array parameter sends the array with that element changed, and nothing else. -/
theorem C51_assign (junk : Nat → Byte) (xs : List Int32) (ys : List Int64) (zs : List Int16)
    (hx : 20 + xs.length * 8 < 2^32) (hy : 20 + ys.length * 12 < 2^32) (hz : 20 + zs.length * 6 < 2^32)
    (i : Nat) (x : Int32) (y : Int64) (z : Int16) :
    (i < xs.length → (do let b ← encodeNums junk xs
                         setElem b i x) = .ok (arrayBytes 23 (beDigits 4 1) ((xs.set i x).map fun x => twosComplement 4 x.toInt))) ∧
    (i < ys.length → (do let b ← encodeNums junk ys
                         setElem b i y) = .ok (arrayBytes 20 (beDigits 4 1) ((ys.set i y).map fun x => twosComplement 8 x.toInt))) ∧
    (i < zs.length → (do let b ← encodeNums junk zs
                         setElem b i z) = .ok (arrayBytes 21 (beDigits 4 1) ((zs.set i z).map fun x => twosComplement 2 x.toInt))) :=
  ⟨fun h => setElem_ok junk xs hx i h x, fun h => setElem_ok junk ys hy i h y, fun h => setElem_ok junk zs hz i h z⟩

/-- C51: so for an array of floating point numbers. -/
theorem C51_assign_floats (junk : Nat → Byte) (xs : List Real4) (ys : List Real8) (hx : 20 + xs.length * 8 < 2^32) (hy : 20 + ys.length * 12 < 2^32)
    (i : Nat) (x : Real4) (y : Real8) :
    (i < xs.length → (do let b ← encodeNums junk xs
                         setElem b i x) = .ok (arrayBytes 700 (beDigits 4 1) ((xs.set i x).map fun x => beDigits 4 x.bits.toNat))) ∧
    (i < ys.length → (do let b ← encodeNums junk ys
                         setElem b i y) = .ok (arrayBytes 701 (beDigits 4 1) ((ys.set i y).map fun x => beDigits 8 x.bits.toNat))) :=
  ⟨fun h => setElem_ok junk xs hx i h x, fun h => setElem_ok junk ys hy i h y⟩

example : (do let b ← encodeNums (fun _ => 9) [(1 : Int32), 2, 3]
              setElem b 1 (7 : Int32)) = encodeNums (fun _ => 9) [(1 : Int32), 7, 3] := by decide +kernel

/-- C51: so is an array of texts. -/
theorem C51_texts (junk : Nat → Byte) (xs : List Bytes) (h : 20 + (xs.map fun s => 4 + s.length).sum < 2^32) :
    encodeTexts junk xs = .ok (arrayBytes 25 (beDigits 4 1) xs) := encodeTexts_ok junk xs h

/-- C51: element `k` of a parameter that is an array of texts is the text given for it. -/
theorem C51_element (junk : Nat → Byte) (xs : List Bytes) (h : 20 + (xs.map fun s => 4 + s.length).sum < 2^31) (k : Nat) (hk : k < xs.length) :
    ∃ b, encodeTexts junk xs = .ok b ∧ textAt b k 20 = .ok (some xs[k]) := by
  refine ⟨_, encodeTexts_ok junk xs (by omega), ?_⟩
  have hs := sum_lens xs
  have := textAt_ok k xs (arrHeader 25 xs.length) [] (fun s hm => by have := mem_le_sum hm; omega) hk
  rw [arrHeader_length] at this
  simpa [arrayBytes, arrHeader, List.append_assoc] using this

/-- C51: reading back an array gives its elements. -/
theorem C51_roundTrip (cv : WConv) (hi : WConv.Inverse cv) (junk : Nat → Byte) (xs : List Int32) (ts : List Bytes)
    (hx : 20 + xs.length * 8 < 2^31) (ht : 20 + (ts.map fun s => 4 + s.length).sum < 2^31) :
    (∃ b, encode cv junk (.integers xs) = .ok b ∧ readCell cv (some b) .integers = .ok (some (.integers xs))) ∧
    (∃ b, encode cv junk (.texts ts) = .ok b ∧ readCell cv (some b) .texts = .ok (some (.texts ts))) :=
  ⟨C50_roundTrip cv hi junk (.integers xs) hx, C50_roundTrip cv hi junk (.texts ts) ht⟩

example : encode asciiConv (fun _ => 7) (.smallints [1, -1]) =
    .ok [0,0,0,1, 0,0,0,0, 0,0,0,21, 0,0,0,2, 0,0,0,1, 0,0,0,2,0,1, 0,0,0,2,255,255] := by decide +kernel
example : readCell asciiConv (some [0,0,0,1, 0,0,0,0, 0,0,0,25, 0,0,0,2, 0,0,0,1, 0,0,0,2,104,105, 0,0,0,0]) .texts = .ok (some (.texts [b!"hi", []])) := by decide +kernel

/-- C51 fails for arrays of 2^32 bytes and more: the size of the buffer is computed modulo 2^32, and the elements are written
past its end. -/
theorem C51_huge_violated (junk : Nat → Byte) (xs : List Int64) (h1 : 2^32 ≤ 20 + xs.length * 12) (h2 : xs.length < 2^32 - 5) :
    encodeNums junk xs = .ub .oobWrite := by
  unfold encodeNums resizeArray
  have e1 : xs.length % 2^32 = xs.length := Nat.mod_eq_of_lt (by omega)
  simp only [e1]
  generalize hm : (4 * ((5 + xs.length) % 2^32) + xs.length * SqlNum.width Int64) % 2^32 = m
  have hmlt : m < 2^32 := by rw [← hm]; exact Nat.mod_lt _ (by decide)
  have hne : xs ≠ [] := by intro e; subst e; simp at h1
  by_cases h20 : 20 ≤ m
  · rw [storeHeader_ok (by rw [newBuf_length]; exact h20) (by omega), Res.ok_bind]
    refine storeElems_over xs 0 _ hne ?_
    simp only [List.length_append, arrHeader_length, List.length_drop, newBuf_length]
    show 20 + (m - 20) < 20 + (0 + xs.length) * 12
    omega
  · have hs : ∃ k, storeHeader (newBuf junk m) (SqlNum.oid Int64) xs.length = .ub k ∧ k = .oobWrite := by
      unfold storeHeader
      rcases storeAt_cases (newBuf junk m) 0 (putInt 1) with ⟨_, b1, a1, c1⟩ | ⟨_, a1⟩
      · rw [a1, Res.ok_bind]
        rcases storeAt_cases b1 4 (putInt 0) with ⟨_, b2, a2, c2⟩ | ⟨_, a2⟩
        · rw [a2, Res.ok_bind]
          rcases storeAt_cases b2 8 (to32 (SqlNum.oid Int64)) with ⟨_, b3, a3, c3⟩ | ⟨_, a3⟩
          · rw [a3, Res.ok_bind]
            rcases storeAt_cases b3 12 (putInt xs.length) with ⟨_, b4, a4, c4⟩ | ⟨_, a4⟩
            · rw [a4, Res.ok_bind]
              rcases storeAt_cases b4 16 (putInt 1) with ⟨h5, b5, a5, c5⟩ | ⟨_, a5⟩
              · have : (putInt 1).length = 4 := rfl
                rw [this, c4, c3, c2, c1, newBuf_length] at h5
                omega
              · exact ⟨_, a5, rfl⟩
            · rw [a4]; exact ⟨_, rfl, rfl⟩
          · rw [a3]; exact ⟨_, rfl, rfl⟩
        · rw [a2]; exact ⟨_, rfl, rfl⟩
      · rw [a1]; exact ⟨_, rfl, rfl⟩
    obtain ⟨k, hk, rfl⟩ := hs
    rw [hk]
    rfl

example : (2:Nat)^32 ≤ 20 + 357913940 * 12 ∧ 357913940 < 2^32 - 5 := by decide

/-- C51 fails for an array made by its size and filled by `[]`: the lengths of the elements are never set.  Here they are
zero, and the array is read as an empty one. -/
theorem C51_resize_violated :
    (do let b ← resizeArray Int32 (fun _ => 0) 2
        let b ← setElem b 0 (5 : Int32)
        let b ← setElem b 1 (6 : Int32)
        readCell asciiConv (some b) .integers) = .ok (some (.integers [])) := by decide +kernel

/-! ### C52 -/

/-- C52, in part: fields of these types are read safely whatever they hold, NULL included. -/
theorem C52_any_partial (cv : WConv) (cell : Option Bytes) (t : SqlType) (h : t = .bool ∨ t = .text ∨ t = .wtext ∨ t = .bytea ∨ t = .inet) :
    ∃ v, readCell cv cell t = .ok (some v) := by
  rcases h with rfl | rfl | rfl | rfl | rfl
  · unfold readCell
    cases cell with
    | none => exact ⟨_, rfl⟩
    | some b => cases b with
      | nil => exact ⟨_, rfl⟩
      | cons x b => exact ⟨_, rfl⟩
  · exact ⟨_, rfl⟩
  · exact ⟨_, rfl⟩
  · exact ⟨_, rfl⟩
  · cases cell with
    | none => exact ⟨_, rfl⟩
    | some b =>
      have e : ∀ old, ∃ a, readInet (b ++ [0]) b.length old = .ok a := by
        intro old
        unfold readInet
        by_cases h8 : b.length = 8
        · rw [if_pos h8, if_pos (by simp [h8])]; exact ⟨_, rfl⟩
        · rw [if_neg h8]
          by_cases h20 : b.length = 20
          · rw [if_pos h20, if_pos (by simp [h20])]; exact ⟨_, rfl⟩
          · rw [if_neg h20]; exact ⟨_, rfl⟩
      simp only [readCell, cellLen, cellMem]
      obtain ⟨a, ha⟩ := e (List.replicate 16 0)
      rw [ha]
      exact ⟨_, rfl⟩

/-- C52, in part: fields of fixed size that are not NULL and have the size are read safely (a time so far off that it
overflows apart). -/
theorem C52_fixed_partial (cv : WConv) (b : Bytes) (t : SqlType) (n : Nat) (h : fixedSize t = some (n : Int)) (hl : n = b.length) :
    (∃ v, readCell cv (some b) t = .ok (some v)) ∨ readCell cv (some b) t = .ub .signedOverflow := by
  have rdok : ∀ i, i < b.length + 1 → ∃ c, rd (b ++ [0]) i = .ok c := by
    intro i hi
    have : i < (b ++ [0]).length := by simpa using hi
    exact ⟨_, rd_ok this⟩
  have g16 : 2 ≤ b.length → ∃ x, read16 (b ++ [0]) 0 = .ok x := by
    intro hh
    obtain ⟨c0, e0⟩ := rdok 0 (by omega)
    obtain ⟨c1, e1⟩ := rdok (0+1) (by omega)
    exact ⟨_, by unfold read16; rw [e0, Res.ok_bind, e1, Res.ok_bind]; rfl⟩
  have g32 : 4 ≤ b.length → ∃ x, read32 (b ++ [0]) 0 = .ok x := by
    intro hh
    obtain ⟨c0, e0⟩ := rdok 0 (by omega)
    obtain ⟨c1, e1⟩ := rdok (0+1) (by omega)
    obtain ⟨c2, e2⟩ := rdok (0+2) (by omega)
    obtain ⟨c3, e3⟩ := rdok (0+3) (by omega)
    exact ⟨_, by unfold read32; rw [e0, Res.ok_bind, e1, Res.ok_bind, e2, Res.ok_bind, e3, Res.ok_bind]; rfl⟩
  have g64 : 8 ≤ b.length → ∃ x, read64 (b ++ [0]) 0 = .ok x := by
    intro hh
    obtain ⟨c0, e0⟩ := rdok 0 (by omega)
    obtain ⟨c1, e1⟩ := rdok (0+1) (by omega)
    obtain ⟨c2, e2⟩ := rdok (0+2) (by omega)
    obtain ⟨c3, e3⟩ := rdok (0+3) (by omega)
    obtain ⟨c4, e4⟩ := rdok (0+4) (by omega)
    obtain ⟨c5, e5⟩ := rdok (0+5) (by omega)
    obtain ⟨c6, e6⟩ := rdok (0+6) (by omega)
    obtain ⟨c7, e7⟩ := rdok (0+7) (by omega)
    exact ⟨_, by unfold read64; rw [e0, Res.ok_bind, e1, Res.ok_bind, e2, Res.ok_bind, e3, Res.ok_bind, e4, Res.ok_bind, e5, Res.ok_bind, e6, Res.ok_bind, e7, Res.ok_bind]; rfl⟩
  cases t <;> simp only [fixedSize, Option.some.injEq, reduceCtorEq] at h
  · left
    obtain ⟨c0, e0⟩ := rdok 0 (by omega)
    exact ⟨_, by simp only [readCell, cellMem, e0, Res.ok_bind]; rfl⟩
  · left; obtain ⟨x, e⟩ := g16 (by omega); exact ⟨_, by simp only [readCell, cellMem, SqlNum.get, e, Res.ok_bind, Res.pure_eq]; rfl⟩
  · left; obtain ⟨x, e⟩ := g32 (by omega); exact ⟨_, by simp only [readCell, cellMem, SqlNum.get, e, Res.ok_bind, Res.pure_eq]; rfl⟩
  · left; obtain ⟨x, e⟩ := g64 (by omega); exact ⟨_, by simp only [readCell, cellMem, SqlNum.get, e, Res.ok_bind, Res.pure_eq]; rfl⟩
  · left; obtain ⟨x, e⟩ := g32 (by omega); exact ⟨_, by simp only [readCell, cellMem, SqlNum.get, e, Res.ok_bind, Res.pure_eq]; rfl⟩
  · left; obtain ⟨x, e⟩ := g64 (by omega); exact ⟨_, by simp only [readCell, cellMem, SqlNum.get, e, Res.ok_bind, Res.pure_eq]; rfl⟩
  · obtain ⟨x, e⟩ := g64 (by omega)
    simp only [readCell, cellMem, SqlNum.get, e, Res.ok_bind, Res.pure_eq]
    unfold int64
    split
    · left; exact ⟨_, rfl⟩
    · right; rfl
  · left; obtain ⟨x, e⟩ := g32 (by omega); exact ⟨_, by simp only [readCell, cellMem, SqlNum.get, e, Res.ok_bind, Res.pure_eq]; rfl⟩

/-- C52 fails: a NULL in a verified column of numbers is read past the end of the one byte there is. -/
theorem C52_null_violated : verify [.bigint] [⟨20, 8⟩] = 0 ∧ readCell asciiConv none .bigint = .ub .oobRead := by decide +kernel

/-- C52 fails: nothing checks that an array has the elements it says it has. -/
theorem C52_array_violated : verify [.integers] [⟨1007, -1⟩] = 0 ∧
    readCell asciiConv (some (beDigits 4 1 ++ beDigits 4 0 ++ beDigits 4 23 ++ beDigits 4 1 ++ beDigits 4 1)) .integers = .ub .oobRead := by decide +kernel

/-- C52 fails: an array that says it has less than no elements throws. -/
theorem C52_negative_violated :
    readCell asciiConv (some ([0,0,0,1, 0,0,0,0, 0,0,0,25, 255,255,255,255, 0,0,0,1])) .texts = .ok none := by decide +kernel

/-- C52 fails: an array with a NULL in it is read as an empty one. -/
theorem C52_nullElement_violated :
    readCell asciiConv (some ([0,0,0,1, 0,0,0,1, 0,0,0,23, 0,0,0,2, 0,0,0,1] ++ [0,0,0,4, 0,0,0,9] ++ [255,255,255,255])) .integers = .ok (some (.integers [])) := by decide +kernel

/-! ### C75 -/

theorem verifyType_iff (t : SqlType) (c : Column) : verifyType t c = true ↔ Holds t c := by
  have e : ∀ n : UInt32, pgType (pgName t) = some n.toNat ↔ n = t.oid := by
    intro n
    have : pgType (pgName t) = some t.oid.toNat := by cases t <;> rfl
    rw [this, Option.some.injEq, UInt32.toNat_inj, eq_comm]
  unfold Holds
  rw [e]
  cases t <;> simp [verifyType, fixedSize]

/-- C50: the type announced for a parameter is PostgreSQL's. -/
theorem C50_type (v : SqlVal) : pgType (pgName v.type) = some v.type.oid.toNat := by cases v <;> rfl

/-- C50: and so are the types announced for the elements of arrays. -/
theorem C50_element_types : pgType "int2" = some (SqlNum.oid Int16).toNat ∧ pgType "int4" = some (SqlNum.oid Int32).toNat ∧
    pgType "int8" = some (SqlNum.oid Int64).toNat ∧ pgType "float4" = some (SqlNum.oid Real4).toNat ∧ pgType "float8" = some (SqlNum.oid Real8).toNat :=
  ⟨rfl, rfl, rfl, rfl, rfl⟩

theorem verifyFrom_zero : ∀ (ts : List SqlType) (cs : List Column) (i : Nat), ts.length = cs.length →
    (verifyFrom i ts cs = 0 ↔ ∀ k (h1 : k < ts.length) (h2 : k < cs.length), Holds ts[k] cs[k]) := by
  intro ts
  induction ts with
  | nil => intro cs i _; simp [verifyFrom]
  | cons t ts ih =>
    intro cs i hl
    cases cs with
    | nil => simp at hl
    | cons c cs =>
      simp only [List.length_cons, Nat.add_right_cancel_iff] at hl
      simp only [verifyFrom]
      by_cases hv : verifyType t c = true
      · rw [if_pos hv, ih cs (i + 1) hl]
        constructor
        · intro h k h1 h2
          cases k with
          | zero => exact (verifyType_iff t c).1 hv
          | succ k => exact h k (by simpa using h1) (by simpa using h2)
        · intro h k h1 h2
          have := h (k + 1) (by simpa using h1) (by simpa using h2)
          simpa using this
      · rw [if_neg hv]
        constructor
        · intro h; omega
        · intro h
          exact absurd ((verifyType_iff t c).2 (h 0 (by simp) (by simp))) hv

theorem verifyFrom_pos : ∀ (ts : List SqlType) (cs : List Column) (i n : Nat), ts.length = cs.length → 0 < n → verifyFrom i ts cs = n →
    i < n ∧ (∃ (h1 : n - i - 1 < ts.length) (h2 : n - i - 1 < cs.length), ¬ Holds ts[n - i - 1] cs[n - i - 1]) ∧
    ∀ k (h1 : k < ts.length) (h2 : k < cs.length), k < n - i - 1 → Holds ts[k] cs[k] := by
  intro ts
  induction ts with
  | nil => intro cs i n _ hn h; simp [verifyFrom] at h; omega
  | cons t ts ih =>
    intro cs i n hl hn h
    cases cs with
    | nil => simp at hl
    | cons c cs =>
      simp only [List.length_cons, Nat.add_right_cancel_iff] at hl
      simp only [verifyFrom] at h
      by_cases hv : verifyType t c = true
      · rw [if_pos hv] at h
        obtain ⟨h1, ⟨h2, h3, h4⟩, h5⟩ := ih cs (i + 1) n hl hn h
        have e : n - i - 1 = (n - (i + 1) - 1) + 1 := by omega
        refine ⟨by omega, ⟨by rw [e]; simpa using h2, by rw [e]; simpa using h3, ?_⟩, ?_⟩
        · simp only [e, List.getElem_cons_succ]; exact h4
        · intro k g1 g2 g3
          cases k with
          | zero => exact (verifyType_iff t c).1 hv
          | succ k => exact h5 k (by simpa using g1) (by simpa using g2) (by omega)
      · rw [if_neg hv] at h
        subst h
        have e : i + 1 - i - 1 = 0 := by omega
        refine ⟨by omega, ⟨by rw [e]; simp, by rw [e]; simp, ?_⟩, ?_⟩
        · simp only [e, List.getElem_cons_zero]
          exact fun hh => hv ((verifyType_iff t c).2 hh)
        · intro k _ _ g3; omega

/-- C75: `verify()` is 0 exactly if the columns are as many as the types and each holds values of its type. -/
theorem C75_zero (types : List SqlType) (columns : List Column) :
    verify types columns = 0 ↔ types.length = columns.length ∧ ∀ k (h1 : k < types.length) (h2 : k < columns.length), Holds types[k] columns[k] := by
  unfold verify
  by_cases h : columns.length = types.length
  · rw [if_neg (by simpa using h)]
    have := verifyFrom_zero types columns 0 h.symm
    constructor
    · intro e; exact ⟨h.symm, this.1 (by exact_mod_cast e)⟩
    · intro e; exact_mod_cast this.2 e.2
  · rw [if_pos h]
    constructor
    · intro e; omega
    · intro e; exact absurd e.1.symm h

/-- C75: a positive result is the number of the first column that does not hold values of its type; -1 is a wrong number of
columns, and there is no other result. -/
theorem C75_column (types : List SqlType) (columns : List Column) :
    (verify types columns = -1 ∧ types.length ≠ columns.length) ∨ verify types columns = 0 ∨
    ∃ n : Nat, verify types columns = n + 1 ∧ (∃ (h1 : n < types.length) (h2 : n < columns.length), ¬ Holds types[n] columns[n]) ∧
      ∀ k (h1 : k < types.length) (h2 : k < columns.length), k < n → Holds types[k] columns[k] := by
  unfold verify
  by_cases h : columns.length = types.length
  · rw [if_neg (by simpa using h)]
    right
    generalize hn : verifyFrom 0 types columns = n
    cases n with
    | zero => left; rfl
    | succ n =>
      right
      obtain ⟨_, h2, h3⟩ := verifyFrom_pos types columns 0 (n + 1) h.symm (by omega) hn
      exact ⟨n, by simp, by simpa using h2, by simpa using h3⟩
  · rw [if_pos h]
    exact Or.inl ⟨rfl, fun e => h e.symm⟩

example : verify [.integer, .text] [⟨23, 4⟩, ⟨25, -1⟩] = 0 := by decide
example : verify [.integer, .text] [⟨23, 4⟩, ⟨17, -1⟩] = 2 := by decide

/-! ### C76 -/

/-- C76, in part: a parameter is sent as its value, or as NULL if it was set to null.  Missing: empty BYTEA, see below. -/
theorem C76_sent_partial (cv : WConv) (junk : Nat → Byte) (null : Bool) (v : SqlVal) (h : Sendable cv v) (hb : v ≠ .bytea []) :
    (null = true → sentCell cv junk null v = .ok none) ∧ (null = false → ∃ b, sentCell cv junk null v = .ok (some b) ∧ Cell cv v b) := by
  constructor
  · rintro rfl; rfl
  · rintro rfl
    obtain ⟨b, h1, h2, _⟩ := C50_wire cv junk v h
    refine ⟨b, ?_, h2⟩
    have e : sentCell cv junk false v = (do let b ← encode cv junk v; return some b) := by
      cases v with
      | bytea s => cases s with
        | nil => exact absurd rfl hb
        | cons x s => rfl
      | _ => rfl
    rw [e, h1]
    rfl

/-- C76 fails: an empty BYTEA is sent as NULL. -/
theorem C76_bytea_violated : sentCell asciiConv (fun _ => 0) false (.bytea []) = .ok none := rfl

example : Sendable asciiConv (.texts [b!"a", b!"bc"]) := by unfold Sendable; decide
example : sentCell asciiConv (fun _ => 0) false (.text []) = .ok (some []) := rfl

end Fcgi.Props
