import Verif.Spec.Sql
import Verif.Lemmas.Endian
import Verif.Props.Wire
/-! # Lemmas on SQL values -/
namespace Fcgi.Model
open Fcgi Fcgi.Spec Fcgi.Props

theorem beDigits_length : ∀ (w n : Nat), (beDigits w n).length = w := by
  intro w
  induction w with
  | zero => intro n; rfl
  | succ w ih => intro n; simp [beDigits, ih]

theorem mod16 (x : Int16) : ((x.toInt % 256 ^ 2).toNat) = x.toUInt16.toNat := by
  have : x.toInt = x.toBitVec.toInt := rfl
  rw [this, BitVec.toInt_eq_toNat_bmod]
  have h : x.toBitVec.toNat = x.toUInt16.toNat := rfl
  rw [h]
  have := x.toUInt16.toNat_lt
  simp only [Int.bmod]
  split <;> omega

theorem mod32 (x : Int32) : ((x.toInt % 256 ^ 4).toNat) = x.toUInt32.toNat := by
  have : x.toInt = x.toBitVec.toInt := rfl
  rw [this, BitVec.toInt_eq_toNat_bmod]
  have h : x.toBitVec.toNat = x.toUInt32.toNat := rfl
  rw [h]
  have := x.toUInt32.toNat_lt
  simp only [Int.bmod]
  split <;> omega

theorem mod64 (x : Int64) : ((x.toInt % 256 ^ 8).toNat) = x.toUInt64.toNat := by
  have : x.toInt = x.toBitVec.toInt := rfl
  rw [this, BitVec.toInt_eq_toNat_bmod]
  have h : x.toBitVec.toNat = x.toUInt64.toNat := rfl
  rw [h]
  have := x.toUInt64.toNat_lt
  simp only [Int.bmod]
  split <;> omega

theorem to16_beDigits (u : UInt16) : to16 u = beDigits 2 u.toNat := (C01_network_order u 0 0).1
theorem to32_beDigits (u : UInt32) : to32 u = beDigits 4 u.toNat := (C01_network_order 0 u 0).2.1
theorem to64_beDigits (u : UInt64) : to64 u = beDigits 8 u.toNat := (C01_network_order 0 0 u).2.2

/-- What the proofs need of a numeric type: its form on the wire. -/
class SqlNumLaws (α : Type) [SqlNum α] where
  wire : α → Bytes
  put_wire : ∀ x : α, SqlNum.put x = wire x
  wire_length : ∀ x : α, (wire x).length = SqlNum.width α
  get_wire : ∀ (x : α) (pre rest : Bytes), SqlNum.get (pre ++ wire x ++ rest) pre.length = .ok x
  small : SqlNum.width α < 256

instance : SqlNumLaws Int16 where
  wire x := twosComplement 2 x.toInt
  put_wire x := by simp only [SqlNum.put, twosComplement, mod16, to16_beDigits]
  wire_length x := by simp [twosComplement, beDigits_length, SqlNum.width]
  get_wire x pre rest := by
    simp only [twosComplement, mod16, ← to16_beDigits, SqlNum.get, C01_roundtrip16]; rfl
  small := by decide

instance : SqlNumLaws Int32 where
  wire x := twosComplement 4 x.toInt
  put_wire x := by simp only [SqlNum.put, twosComplement, mod32, to32_beDigits]
  wire_length x := by simp [twosComplement, beDigits_length, SqlNum.width]
  get_wire x pre rest := by
    simp only [twosComplement, mod32, ← to32_beDigits, SqlNum.get, C01_roundtrip32]; rfl
  small := by decide

instance : SqlNumLaws Int64 where
  wire x := twosComplement 8 x.toInt
  put_wire x := by simp only [SqlNum.put, twosComplement, mod64, to64_beDigits]
  wire_length x := by simp [twosComplement, beDigits_length, SqlNum.width]
  get_wire x pre rest := by
    simp only [twosComplement, mod64, ← to64_beDigits, SqlNum.get, C01_roundtrip64]; rfl
  small := by decide

instance : SqlNumLaws Real4 where
  wire x := beDigits 4 x.bits.toNat
  put_wire x := by simp only [SqlNum.put, to32_beDigits]
  wire_length x := by simp [beDigits_length, SqlNum.width]
  get_wire x pre rest := by
    simp only [← to32_beDigits, SqlNum.get, C01_roundtrip32]; rfl
  small := by decide

instance : SqlNumLaws Real8 where
  wire x := beDigits 8 x.bits.toNat
  put_wire x := by simp only [SqlNum.put, to64_beDigits]
  wire_length x := by simp [beDigits_length, SqlNum.width]
  get_wire x pre rest := by
    simp only [← to64_beDigits, SqlNum.get, C01_roundtrip64]; rfl
  small := by decide

/-! ### Words -/

theorem putInt_beDigits {n : Nat} (h : n < 2^32) : putInt n = beDigits 4 n := by
  unfold putInt
  rw [to32_beDigits]
  congr 1
  rw [UInt32.toNat_ofNat']
  exact Nat.mod_eq_of_lt h

theorem read32_beDigits {n : Nat} (h : n < 2^32) (pre rest : Bytes) : read32 (pre ++ beDigits 4 n ++ rest) pre.length = .ok (UInt32.ofNat n) := by
  rw [← putInt_beDigits h]
  exact C01_roundtrip32 _ _ _

theorem getInt_beDigits {n : Nat} (h : n < 2^31) (pre rest : Bytes) : getInt (pre ++ beDigits 4 n ++ rest) pre.length = .ok (n : Int) := by
  unfold getInt
  rw [read32_beDigits (by omega)]
  simp only [Res.ok_bind, Res.pure_eq]
  congr 1
  have e : (⟨UInt32.ofNat n⟩ : Int32).toInt = (UInt32.ofNat n).toBitVec.toInt := rfl
  rw [e, BitVec.toInt_eq_toNat_bmod]
  have h2 : (UInt32.ofNat n).toBitVec.toNat = n := by
    show (UInt32.ofNat n).toNat = n
    rw [UInt32.toNat_ofNat']
    exact Nat.mod_eq_of_lt (by omega)
  rw [h2]
  simp only [Int.bmod]
  split <;> omega

/-! ### Buffers -/

theorem storeAt_app {pre rest bs : Bytes} {off : Nat} (ho : off = pre.length) (h : bs.length ≤ rest.length) :
    storeAt (pre ++ rest) off bs = .ok (pre ++ bs ++ rest.drop bs.length) := by
  subst ho
  unfold storeAt
  rw [if_pos (by simp; omega)]
  simp [List.take_append, List.drop_append]

theorem newBuf_length (junk : Nat → Byte) (n : Nat) : (newBuf junk n).length = n := by simp [newBuf]

/-- The header as bytes. -/
def arrHeader (oid dim : Nat) : Bytes := beDigits 4 1 ++ beDigits 4 0 ++ beDigits 4 oid ++ beDigits 4 dim ++ beDigits 4 1

theorem arrHeader_length (oid dim : Nat) : (arrHeader oid dim).length = 20 := by simp [arrHeader, beDigits_length]

theorem storeHeader_ok {buf : Bytes} {oid : UInt32} {dim : Nat} (hb : 20 ≤ buf.length) (hd : dim < 2^32) :
    storeHeader buf oid dim = .ok (arrHeader oid.toNat dim ++ buf.drop 20) := by
  unfold storeHeader
  have l4 : ∀ n, (beDigits 4 n).length = 4 := beDigits_length 4
  rw [putInt_beDigits (by decide), putInt_beDigits (by decide), to32_beDigits, putInt_beDigits hd]
  have s1 : storeAt buf 0 (beDigits 4 1) = .ok (beDigits 4 1 ++ buf.drop 4) := by
    have := storeAt_app (pre := []) (rest := buf) (bs := beDigits 4 1) (off := 0) rfl (by rw [l4]; omega)
    simpa [l4] using this
  rw [s1, Res.ok_bind]
  rw [storeAt_app (by rw [l4]) (by rw [l4, List.length_drop]; omega), Res.ok_bind]
  rw [storeAt_app (by simp [l4]) (by simp only [l4, List.length_drop]; omega), Res.ok_bind]
  rw [storeAt_app (by simp [l4]) (by simp only [l4, List.length_drop]; omega), Res.ok_bind]
  rw [storeAt_app (by simp [l4]) (by simp only [l4, List.length_drop]; omega)]
  simp only [arrHeader, l4, List.drop_drop, List.append_assoc]

/-! ### Arrays of numbers -/

theorem flatMap_length {α : Type} [SqlNum α] [SqlNumLaws α] (xs : List α) :
    ((xs.map SqlNumLaws.wire).flatMap elementBytes).length = xs.length * (4 + SqlNum.width α) := by
  induction xs with
  | nil => simp
  | cons x xs ih =>
    simp only [List.map_cons, List.flatMap_cons, List.length_append, ih, elementBytes, beDigits_length, SqlNumLaws.wire_length, List.length_cons, Nat.add_mul]
    omega

theorem storeElems_ok {α : Type} [SqlNum α] [SqlNumLaws α] : ∀ (xs : List α) (i : Nat) (pre rest : Bytes), pre.length = 20 + i * (4 + SqlNum.width α) →
    xs.length * (4 + SqlNum.width α) ≤ rest.length →
    storeElems (pre ++ rest) i xs = .ok (pre ++ (xs.map SqlNumLaws.wire).flatMap elementBytes ++ rest.drop (xs.length * (4 + SqlNum.width α))) := by
  intro xs
  induction xs with
  | nil => intro i pre rest _ _; simp [storeElems]
  | cons x xs ih =>
    intro i pre rest hp hr
    have hw : SqlNum.width α < 256 := SqlNumLaws.small
    have hl := SqlNumLaws.wire_length x
    simp only [List.length_cons, Nat.add_mul, Nat.one_mul] at hr
    unfold storeElems
    simp only
    rw [putInt_beDigits (by omega)]
    rw [storeAt_app (by rw [hp]) (by rw [beDigits_length]; omega), Res.ok_bind]
    rw [SqlNumLaws.put_wire]
    rw [storeAt_app (by rw [List.length_append, hp, beDigits_length]) (by rw [beDigits_length, hl, List.length_drop]; omega), Res.ok_bind]
    rw [ih (i + 1) _ _ (by simp only [List.length_append, hp, beDigits_length, hl, Nat.add_mul]; omega)
      (by simp only [List.length_drop, beDigits_length, hl]; omega)]
    congr 1
    simp only [List.map_cons, List.flatMap_cons, elementBytes, hl, beDigits_length, List.drop_drop, List.append_assoc, List.length_cons, Nat.add_mul, Nat.one_mul]
    rw [Nat.add_comm (xs.length * (4 + SqlNum.width α)) (4 + SqlNum.width α)]

theorem encodeNums_ok {α : Type} [SqlNum α] [SqlNumLaws α] (junk : Nat → Byte) (xs : List α) (h : 20 + xs.length * (4 + SqlNum.width α) < 2^32) :
    encodeNums junk xs = .ok (arrayBytes (SqlNum.oid α).toNat (beDigits 4 1) (xs.map SqlNumLaws.wire)) := by
  unfold encodeNums resizeArray
  have hn : xs.length ≤ xs.length * (4 + SqlNum.width α) := Nat.le_mul_of_pos_right _ (by omega)
  have e1 : xs.length % 2^32 = xs.length := Nat.mod_eq_of_lt (by omega)
  have h4 : xs.length * (4 + SqlNum.width α) = 4 * xs.length + xs.length * SqlNum.width α := by rw [Nat.mul_add]; omega
  have e2 : (5 + xs.length) % 2^32 = 5 + xs.length := Nat.mod_eq_of_lt (by omega)
  have e3 : (4 * (5 + xs.length) + xs.length * SqlNum.width α) % 2^32 = 20 + xs.length * (4 + SqlNum.width α) := by
    rw [Nat.mod_eq_of_lt (by omega)]; omega
  simp only [e1, e2, e3]
  rw [storeHeader_ok (by rw [newBuf_length]; omega) (by omega), Res.ok_bind]
  rw [storeElems_ok xs 0 _ _ (by rw [arrHeader_length]; omega) (by rw [List.length_drop, newBuf_length]; omega)]
  congr 1
  rw [List.drop_drop, List.drop_eq_nil_of_le (by rw [newBuf_length]; omega)]
  simp [arrayBytes, arrHeader, List.append_assoc]

/-- Assigning to one element of an array that is filled. -/
theorem setElem_ok {α : Type} [SqlNum α] [SqlNumLaws α] (junk : Nat → Byte) (xs : List α) (h : 20 + xs.length * (4 + SqlNum.width α) < 2^32)
    (i : Nat) (hi : i < xs.length) (x : α) :
    (do let b ← encodeNums junk xs
        setElem b i x) = .ok (arrayBytes (SqlNum.oid α).toNat (beDigits 4 1) ((xs.set i x).map SqlNumLaws.wire)) := by
  rw [encodeNums_ok junk xs h, Res.ok_bind]
  have hs : xs = xs.take i ++ xs[i] :: xs.drop (i + 1) := by simp
  have ht : xs.set i x = xs.take i ++ x :: xs.drop (i + 1) := by
    rw [List.set_eq_take_append_cons_drop, if_pos hi]
  have hl : (xs.set i x).length = xs.length := List.length_set ..
  have htl : (xs.take i).length = i := by simp; omega
  have hw := SqlNumLaws.wire_length x
  have hw' := SqlNumLaws.wire_length xs[i]
  have e1 : arrayBytes (SqlNum.oid α).toNat (beDigits 4 1) (xs.map SqlNumLaws.wire) =
      (arrHeader (SqlNum.oid α).toNat xs.length ++ ((xs.take i).map SqlNumLaws.wire).flatMap elementBytes ++ beDigits 4 (SqlNum.width α)) ++
        (SqlNumLaws.wire xs[i] ++ ((xs.drop (i + 1)).map SqlNumLaws.wire).flatMap elementBytes) := by
    simp only [arrayBytes, List.length_map]
    have hf : (xs.map SqlNumLaws.wire).flatMap elementBytes = ((xs.take i).map SqlNumLaws.wire).flatMap elementBytes ++
        (elementBytes (SqlNumLaws.wire xs[i]) ++ ((xs.drop (i + 1)).map SqlNumLaws.wire).flatMap elementBytes) := by
      conv => lhs; rw [hs]
      rw [List.map_append, List.flatMap_append, List.map_cons, List.flatMap_cons]
    rw [hf]
    simp only [arrHeader, elementBytes, hw', List.append_assoc]
  have e2 : arrayBytes (SqlNum.oid α).toNat (beDigits 4 1) ((xs.set i x).map SqlNumLaws.wire) =
      (arrHeader (SqlNum.oid α).toNat xs.length ++ ((xs.take i).map SqlNumLaws.wire).flatMap elementBytes ++ beDigits 4 (SqlNum.width α)) ++
        (SqlNumLaws.wire x ++ ((xs.drop (i + 1)).map SqlNumLaws.wire).flatMap elementBytes) := by
    have : ((xs.set i x).map SqlNumLaws.wire).length = xs.length := by rw [List.length_map, hl]
    simp only [arrayBytes, this]
    rw [ht]
    simp [arrHeader, elementBytes, hw, List.append_assoc]
  rw [e1, e2]
  unfold setElem
  rw [SqlNumLaws.put_wire, storeAt_app (by
    simp only [List.length_append, arrHeader_length, flatMap_length, htl, beDigits_length]; omega) (by
    rw [List.length_append, hw, hw']; omega)]
  congr 1
  rw [hw, ← hw', List.drop_left, List.append_assoc]

/-- Words of an array in memory. -/
theorem arrayHeader_ok {oid : UInt32} {lb rest : Bytes} {elems : List Bytes} (hl : lb.length = 4) (hn : elems.length < 2^31) :
    arrayHeader (arrayBytes oid.toNat lb elems ++ rest) oid = .ok (some (elems.length : Int)) := by
  have l4 : ∀ n, (beDigits 4 n).length = 4 := beDigits_length 4
  have r0 : getInt (arrayBytes oid.toNat lb elems ++ rest) 0 = .ok 1 := by
    have := getInt_beDigits (n := 1) (by decide) [] (beDigits 4 0 ++ beDigits 4 oid.toNat ++ beDigits 4 elems.length ++ lb ++ elems.flatMap elementBytes ++ rest)
    simpa [arrayBytes, List.append_assoc] using this
  have r1 : getInt (arrayBytes oid.toNat lb elems ++ rest) 4 = .ok 0 := by
    have := getInt_beDigits (n := 0) (by decide) (beDigits 4 1) (beDigits 4 oid.toNat ++ beDigits 4 elems.length ++ lb ++ elems.flatMap elementBytes ++ rest)
    simpa [arrayBytes, List.append_assoc, l4] using this
  have r2 : read32 (arrayBytes oid.toNat lb elems ++ rest) 8 = .ok oid := by
    have := read32_beDigits (n := oid.toNat) oid.toNat_lt (beDigits 4 1 ++ beDigits 4 0) (beDigits 4 elems.length ++ lb ++ elems.flatMap elementBytes ++ rest)
    simpa [arrayBytes, List.append_assoc, l4] using this
  have r3 : getInt (arrayBytes oid.toNat lb elems ++ rest) 12 = .ok (elems.length : Int) := by
    have := getInt_beDigits (n := elems.length) hn (beDigits 4 1 ++ beDigits 4 0 ++ beDigits 4 oid.toNat) (lb ++ elems.flatMap elementBytes ++ rest)
    simpa [arrayBytes, List.append_assoc, l4] using this
  unfold arrayHeader
  simp [r0, r1, r2, r3]

theorem arrayHeader_empty {oid : UInt32} {o : Nat} {rest : Bytes} : arrayHeader (emptyArrayBytes o ++ rest) oid = .ok none := by
  have r0 : getInt (emptyArrayBytes o ++ rest) 0 = .ok 0 := by
    have := getInt_beDigits (n := 0) (by decide) [] (beDigits 4 0 ++ beDigits 4 o ++ rest)
    simpa [emptyArrayBytes, List.append_assoc] using this
  unfold arrayHeader
  simp [r0]

theorem readElems_ok {α : Type} [SqlNum α] [SqlNumLaws α] : ∀ (xs : List α) (i : Nat) (pre rest : Bytes) (acc : List α), pre.length = 20 + i * (4 + SqlNum.width α) →
    readElems (pre ++ (xs.map SqlNumLaws.wire).flatMap elementBytes ++ rest) xs.length i acc = .ok (acc ++ xs) := by
  intro xs
  induction xs with
  | nil => intro i pre rest acc _; simp [readElems]
  | cons x xs ih =>
    intro i pre rest acc hp
    have hw : SqlNum.width α < 256 := SqlNumLaws.small
    have hl := SqlNumLaws.wire_length x
    have e : pre ++ ((x :: xs).map SqlNumLaws.wire).flatMap elementBytes ++ rest =
        pre ++ beDigits 4 (SqlNum.width α) ++ (SqlNumLaws.wire x ++ ((xs.map SqlNumLaws.wire).flatMap elementBytes ++ rest)) := by
      simp [elementBytes, hl, List.append_assoc]
    have e2 : pre ++ ((x :: xs).map SqlNumLaws.wire).flatMap elementBytes ++ rest =
        (pre ++ beDigits 4 (SqlNum.width α)) ++ SqlNumLaws.wire x ++ ((xs.map SqlNumLaws.wire).flatMap elementBytes ++ rest) := by
      simp [elementBytes, hl, List.append_assoc]
    have e3 : pre ++ ((x :: xs).map SqlNumLaws.wire).flatMap elementBytes ++ rest =
        (pre ++ beDigits 4 (SqlNum.width α) ++ SqlNumLaws.wire x) ++ (xs.map SqlNumLaws.wire).flatMap elementBytes ++ rest := by
      simp [elementBytes, hl, List.append_assoc]
    have g1 : getInt (pre ++ ((x :: xs).map SqlNumLaws.wire).flatMap elementBytes ++ rest) (20 + i * (4 + SqlNum.width α)) = .ok (SqlNum.width α : Int) := by
      rw [e, ← hp]; exact getInt_beDigits (by omega) _ _
    have g2 : SqlNum.get (pre ++ ((x :: xs).map SqlNumLaws.wire).flatMap elementBytes ++ rest) (24 + i * (4 + SqlNum.width α)) = .ok x := by
      rw [e2, show 24 + i * (4 + SqlNum.width α) = (pre ++ beDigits 4 (SqlNum.width α)).length by simp [hp, beDigits_length]; omega]
      exact SqlNumLaws.get_wire x _ _
    simp only [List.length_cons]
    unfold readElems
    rw [g1, Res.ok_bind, if_neg (by simp), g2, Res.ok_bind, e3]
    rw [ih (i + 1) _ rest (acc ++ [x]) (by simp only [List.length_append, hp, beDigits_length, hl, Nat.add_mul]; omega)]
    simp

theorem readNums_ok {α : Type} [SqlNum α] [SqlNumLaws α] {xs : List α} {b : Bytes} (h : ArrayCell (SqlNum.oid α).toNat (xs.map SqlNumLaws.wire) b) :
    readNums (b ++ [0]) [] = .ok (some xs) := by
  rcases h with ⟨lb, hl, hn, rfl⟩ | ⟨he, rfl⟩
  · unfold readNums
    rw [arrayHeader_ok hl hn, Res.ok_bind]
    simp only [List.length_map] at hn ⊢
    rw [if_neg (by omega), Int.toNat_natCast]
    have := readElems_ok xs 0 (beDigits 4 1 ++ beDigits 4 0 ++ beDigits 4 (SqlNum.oid α).toNat ++ beDigits 4 xs.length ++ lb) [0] [] (by simp [beDigits_length, hl])
    unfold arrayBytes
    simp only [List.length_map]
    rw [this]
    rfl
  · have : xs = [] := by simpa using he
    subst this
    unfold readNums
    rw [arrayHeader_empty]
    rfl

/-! ### Arrays of texts -/

theorem textsLen_append (xs : List Bytes) : (xs.flatMap elementBytes).length = (xs.map fun s => 4 + s.length).sum := by
  induction xs with
  | nil => rfl
  | cons x xs ih => simp only [List.flatMap_cons, List.length_append, ih, elementBytes, beDigits_length, List.map_cons, List.sum_cons]

theorem storeTexts_ok : ∀ (xs : List Bytes) (pre rest : Bytes), (∀ s ∈ xs, s.length < 2^32) → (xs.map fun s => 4 + s.length).sum ≤ rest.length →
    storeTexts (pre ++ rest) pre.length xs = .ok (pre ++ xs.flatMap elementBytes ++ rest.drop (xs.map fun s => 4 + s.length).sum) := by
  intro xs
  induction xs with
  | nil => intro pre rest _ _; simp [storeTexts]
  | cons s xs ih =>
    intro pre rest hs hr
    simp only [List.map_cons, List.sum_cons] at hr
    unfold storeTexts
    rw [putInt_beDigits (hs s (List.mem_cons_self ..))]
    rw [storeAt_app rfl (by rw [beDigits_length]; omega), Res.ok_bind]
    rw [storeAt_app (by rw [List.length_append, beDigits_length]) (by rw [beDigits_length, List.length_drop]; omega), Res.ok_bind]
    have := ih (pre ++ beDigits 4 s.length ++ s) (List.drop s.length (List.drop (beDigits 4 s.length).length rest)) (fun y hy => hs y (List.mem_cons_of_mem _ hy))
      (by simp only [List.length_drop, beDigits_length]; omega)
    rw [show (pre ++ beDigits 4 s.length ++ s).length = pre.length + 4 + s.length by simp [beDigits_length]; omega] at this
    rw [this]
    congr 1
    simp only [List.flatMap_cons, elementBytes, beDigits_length, List.drop_drop, List.append_assoc, List.map_cons, List.sum_cons]

theorem dataSize_eq : ∀ (xs : List Bytes) (n : Nat), n + (xs.map List.length).sum < 2^32 → xs.foldl (fun n s => (n + s.length) % 2^32) n = n + (xs.map List.length).sum := by
  intro xs
  induction xs with
  | nil => intro n _; simp
  | cons s xs ih =>
    intro n h
    simp only [List.map_cons, List.sum_cons] at h
    simp only [List.foldl_cons]
    rw [Nat.mod_eq_of_lt (by omega), ih _ (by omega)]
    simp only [List.map_cons, List.sum_cons]
    omega

theorem sum_lens (xs : List Bytes) : (xs.map fun s => 4 + s.length).sum = 4 * xs.length + (xs.map List.length).sum := by
  induction xs with
  | nil => rfl
  | cons s xs ih => simp only [List.map_cons, List.sum_cons, ih, List.length_cons]; omega

theorem mem_le_sum {xs : List Bytes} {s : Bytes} (h : s ∈ xs) : s.length ≤ (xs.map List.length).sum := by
  induction xs with
  | nil => simp at h
  | cons x xs ih =>
    simp only [List.map_cons, List.sum_cons]
    rcases List.mem_cons.1 h with rfl | h
    · omega
    · have := ih h; omega

theorem encodeTexts_ok (junk : Nat → Byte) (xs : List Bytes) (h : 20 + (xs.map fun s => 4 + s.length).sum < 2^32) :
    encodeTexts junk xs = .ok (arrayBytes 25 (beDigits 4 1) xs) := by
  have hs := sum_lens xs
  unfold encodeTexts
  simp only
  rw [dataSize_eq xs 0 (by omega)]
  have e3 : (4 * (5 + xs.length) + (0 + (xs.map List.length).sum)) % 2^32 = 20 + (xs.map fun s => 4 + s.length).sum := by
    rw [Nat.mod_eq_of_lt (by omega)]; omega
  rw [e3, storeHeader_ok (by rw [newBuf_length]; omega) (by omega), Res.ok_bind]
  have := storeTexts_ok xs (arrHeader 25 xs.length) (List.drop 20 (newBuf junk (20 + (xs.map fun s => 4 + s.length).sum)))
    (fun s hh => by have := mem_le_sum hh; omega) (by rw [List.length_drop, newBuf_length]; omega)
  rw [arrHeader_length] at this
  rw [show (25 : UInt32).toNat = 25 from rfl, this]
  congr 1
  rw [List.drop_drop, List.drop_eq_nil_of_le (by rw [newBuf_length]; omega)]
  simp [arrayBytes, arrHeader, List.append_assoc]

theorem element_split (pre s tail : Bytes) (xs : List Bytes) :
    pre ++ (s :: xs).flatMap elementBytes ++ tail = pre ++ beDigits 4 s.length ++ (s ++ (xs.flatMap elementBytes ++ tail)) := by
  simp [elementBytes, List.append_assoc]

theorem take_element (pre s tail : Bytes) (xs : List Bytes) :
    ((pre ++ (s :: xs).flatMap elementBytes ++ tail).drop (pre.length + 4)).take s.length = s := by
  rw [element_split]
  rw [show pre ++ beDigits 4 s.length ++ (s ++ (xs.flatMap elementBytes ++ tail)) = (pre ++ beDigits 4 s.length) ++ (s ++ (xs.flatMap elementBytes ++ tail)) from rfl]
  rw [List.drop_append, List.drop_eq_nil_of_le (by simp [beDigits_length]), show pre.length + 4 - (pre ++ beDigits 4 s.length).length = 0 by simp [beDigits_length]]
  simp

theorem readStrings_ok : ∀ (xs : List Bytes) (pre tail : Bytes) (acc : List Bytes), (∀ s ∈ xs, s.length < 2^31) →
    readStrings (pre ++ xs.flatMap elementBytes ++ tail) xs.length pre.length acc = .ok (some (acc ++ xs)) := by
  intro xs
  induction xs with
  | nil => intro pre tail acc _; simp [readStrings]
  | cons s xs ih =>
    intro pre tail acc hs
    have h := hs s (List.mem_cons_self ..)
    have g : getInt (pre ++ (s :: xs).flatMap elementBytes ++ tail) pre.length = .ok (s.length : Int) := by
      rw [element_split]; exact getInt_beDigits h _ _
    simp only [List.length_cons]
    unfold readStrings
    rw [g, Res.ok_bind, if_neg (by omega), Int.toNat_natCast, if_pos (by simp [elementBytes, beDigits_length]; omega), take_element]
    have := ih (pre ++ beDigits 4 s.length ++ s) tail (acc ++ [s]) (fun y hy => hs y (List.mem_cons_of_mem _ hy))
    rw [show (pre ++ beDigits 4 s.length ++ s).length = pre.length + 4 + s.length by simp [beDigits_length]; omega] at this
    rw [element_split]
    simpa [List.append_assoc] using this

theorem readTexts_ok {xs : List Bytes} {b : Bytes} (hs : ∀ s ∈ xs, s.length < 2^31) (h : ArrayCell 25 xs b) : readTexts (b ++ [0]) [] = .ok (some xs) := by
  rcases h with ⟨lb, hl, hn, rfl⟩ | ⟨rfl, rfl⟩
  · unfold readTexts
    rw [show (25 : Nat) = (25 : UInt32).toNat from rfl, arrayHeader_ok hl hn, Res.ok_bind]
    simp only
    rw [if_neg (by omega), Int.toNat_natCast]
    have := readStrings_ok xs (beDigits 4 1 ++ beDigits 4 0 ++ beDigits 4 25 ++ beDigits 4 xs.length ++ lb) [0] [] hs
    rw [show (beDigits 4 1 ++ beDigits 4 0 ++ beDigits 4 25 ++ beDigits 4 xs.length ++ lb).length = 20 by simp [beDigits_length, hl]] at this
    exact this
  · unfold readTexts
    rw [arrayHeader_empty]
    rfl

theorem readWStrings_ok {cv : WConv} (hi : WConv.Inverse cv) : ∀ (ws : List (List UInt32)) (xs : List Bytes) (pre tail : Bytes) (acc : List (List UInt32)), ws.map cv.out = xs.map some → (∀ s ∈ xs, s.length < 2^31) →
    readWStrings cv (pre ++ xs.flatMap elementBytes ++ tail) xs.length pre.length acc = .ok (acc ++ ws) := by
  intro ws
  induction ws with
  | nil =>
    intro xs pre tail acc he _
    have : xs = [] := by simpa using he.symm
    subst this
    simp [readWStrings]
  | cons w ws ih =>
    intro xs pre tail acc he hs
    cases xs with
    | nil => simp at he
    | cons s xs =>
      simp only [List.map_cons, List.cons.injEq] at he
      have h := hs s (List.mem_cons_self ..)
      have g : getInt (pre ++ (s :: xs).flatMap elementBytes ++ tail) pre.length = .ok (s.length : Int) := by
        rw [element_split]; exact getInt_beDigits h _ _
      simp only [List.length_cons]
      unfold readWStrings
      rw [g, Res.ok_bind, if_neg (by omega), Int.toNat_natCast, if_pos (by simp [elementBytes, beDigits_length]; omega), take_element, hi w s he.1]
      simp only
      have := ih xs (pre ++ beDigits 4 s.length ++ s) tail (acc ++ [w]) he.2 (fun y hy => hs y (List.mem_cons_of_mem _ hy))
      rw [show (pre ++ beDigits 4 s.length ++ s).length = pre.length + 4 + s.length by simp [beDigits_length]; omega] at this
      rw [element_split]
      simpa [List.append_assoc] using this

theorem readWTexts_ok {cv : WConv} (hi : WConv.Inverse cv) {ws : List (List UInt32)} {xs : List Bytes} {b : Bytes} (he : ws.map cv.out = xs.map some) (hs : ∀ s ∈ xs, s.length < 2^31)
    (h : ArrayCell 25 xs b) : readWTexts cv (b ++ [0]) [] = .ok (some ws) := by
  rcases h with ⟨lb, hl, hn, rfl⟩ | ⟨rfl, rfl⟩
  · unfold readWTexts
    rw [show (25 : Nat) = (25 : UInt32).toNat from rfl, arrayHeader_ok hl hn, Res.ok_bind]
    simp only
    rw [if_neg (by omega), Int.toNat_natCast]
    have := readWStrings_ok hi ws xs (beDigits 4 1 ++ beDigits 4 0 ++ beDigits 4 25 ++ beDigits 4 xs.length ++ lb) [0] [] he hs
    rw [show (beDigits 4 1 ++ beDigits 4 0 ++ beDigits 4 25 ++ beDigits 4 xs.length ++ lb).length = 20 by simp [beDigits_length, hl]] at this
    unfold arrayBytes
    rw [show (25 : UInt32).toNat = 25 from rfl, this]
    rfl
  · have : ws = [] := by simpa using he
    subst this
    unfold readWTexts
    rw [arrayHeader_empty]
    rfl

theorem convertWs_ok {cv : WConv} : ∀ (ws : List (List UInt32)) (xs : List Bytes), ws.map cv.out = xs.map some → convertWs cv ws = xs := by
  intro ws
  induction ws with
  | nil => intro xs h; have : xs = [] := by simpa using h.symm
           subst this; rfl
  | cons w ws ih =>
    intro xs h
    cases xs with
    | nil => simp at h
    | cons s xs =>
      simp only [List.map_cons, List.cons.injEq] at h
      simp only [convertWs, h.1, ih xs h.2]

theorem textAt_ok : ∀ (k : Nat) (xs : List Bytes) (pre tail : Bytes), (∀ s ∈ xs, s.length < 2^31) → (hk : k < xs.length) →
    textAt (pre ++ xs.flatMap elementBytes ++ tail) k pre.length = .ok (some xs[k]) := by
  intro k
  induction k with
  | zero =>
    intro xs pre tail hs hk
    cases xs with
    | nil => simp at hk
    | cons s xs =>
      have g : getInt (pre ++ (s :: xs).flatMap elementBytes ++ tail) pre.length = .ok (s.length : Int) := by
        rw [element_split]; exact getInt_beDigits (hs s (List.mem_cons_self ..)) _ _
      unfold textAt
      rw [if_neg (by omega), Int.toNat_natCast, g, Res.ok_bind, if_neg (by omega)]
      simp only [Int.toNat_natCast]
      rw [show ((pre.length : Int) + 4).toNat = pre.length + 4 by omega, if_pos (by simp [elementBytes, beDigits_length]; omega), take_element]
      rfl
  | succ k ih =>
    intro xs pre tail hs hk
    cases xs with
    | nil => simp at hk
    | cons s xs =>
      have g : getInt (pre ++ (s :: xs).flatMap elementBytes ++ tail) pre.length = .ok (s.length : Int) := by
        rw [element_split]; exact getInt_beDigits (hs s (List.mem_cons_self ..)) _ _
      unfold textAt
      rw [if_neg (by omega), Int.toNat_natCast, g, Res.ok_bind]
      have := ih xs (pre ++ beDigits 4 s.length ++ s) tail (fun y hy => hs y (List.mem_cons_of_mem _ hy)) (by simpa using hk)
      rw [show ((pre ++ beDigits 4 s.length ++ s).length : Int) = (pre.length : Int) + 4 + s.length by simp [beDigits_length]; omega] at this
      rw [element_split]
      simpa [List.append_assoc] using this

/-! ### Arrays that are too large -/

theorem storeAt_cases (buf : Bytes) (off : Nat) (bs : Bytes) :
    (off + bs.length ≤ buf.length ∧ ∃ b, storeAt buf off bs = .ok b ∧ b.length = buf.length) ∨ (buf.length < off + bs.length ∧ storeAt buf off bs = .ub .oobWrite) := by
  unfold storeAt
  split
  · left; refine ⟨by assumption, _, rfl, ?_⟩; simp; omega
  · right; exact ⟨by omega, rfl⟩

theorem storeElems_over {α : Type} [SqlNum α] [SqlNumLaws α] : ∀ (xs : List α) (i : Nat) (buf : Bytes), xs ≠ [] → buf.length < 20 + (i + xs.length) * (4 + SqlNum.width α) →
    storeElems buf i xs = .ub .oobWrite := by
  intro xs
  induction xs with
  | nil => intro i buf h; exact absurd rfl h
  | cons x xs ih =>
    intro i buf _ hb
    unfold storeElems
    simp only
    rcases storeAt_cases buf (20 + i * (4 + SqlNum.width α)) (putInt (SqlNum.width α)) with ⟨h1, b, h2, h3⟩ | ⟨h1, h2⟩
    · rw [h2, Res.ok_bind]
      rcases storeAt_cases b (20 + i * (4 + SqlNum.width α) + 4) (SqlNum.put x) with ⟨h4, b', h5, h6⟩ | ⟨h4, h5⟩
      · rw [h5, Res.ok_bind]
        rw [SqlNumLaws.put_wire, SqlNumLaws.wire_length] at h4
        cases xs with
        | nil =>
          simp only [List.length_cons, List.length_nil, Nat.add_mul] at hb
          omega
        | cons y ys =>
          apply ih (i + 1) b' (by simp)
          simp only [List.length_cons, Nat.add_mul] at hb ⊢
          omega
      · rw [h5]; rfl
    · rw [h2]; rfl

end Fcgi.Model
