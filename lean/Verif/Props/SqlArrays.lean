import Verif.Props.Sql
/-! # C52: every array a server can send is read inside its buffer -/
namespace Fcgi.Props
open Fcgi Fcgi.Model Fcgi.Spec

theorem read16_total {m : Bytes} {o : Nat} (h : o + 2 ≤ m.length) : ∃ x, read16 m o = .ok x := by
  unfold read16
  rw [rd_ok (show o < m.length by omega), Res.ok_bind, rd_ok (show o + 1 < m.length by omega), Res.ok_bind]
  exact ⟨_, rfl⟩

theorem read32_total {m : Bytes} {o : Nat} (h : o + 4 ≤ m.length) : ∃ x, read32 m o = .ok x := by
  unfold read32
  rw [rd_ok (show o < m.length by omega), Res.ok_bind, rd_ok (show o + 1 < m.length by omega), Res.ok_bind,
    rd_ok (show o + 2 < m.length by omega), Res.ok_bind, rd_ok (show o + 3 < m.length by omega), Res.ok_bind]
  exact ⟨_, rfl⟩

theorem read64_total {m : Bytes} {o : Nat} (h : o + 8 ≤ m.length) : ∃ x, read64 m o = .ok x := by
  unfold read64
  rw [rd_ok (show o < m.length by omega), Res.ok_bind, rd_ok (show o + 1 < m.length by omega), Res.ok_bind,
    rd_ok (show o + 2 < m.length by omega), Res.ok_bind, rd_ok (show o + 3 < m.length by omega), Res.ok_bind,
    rd_ok (show o + 4 < m.length by omega), Res.ok_bind, rd_ok (show o + 5 < m.length by omega), Res.ok_bind,
    rd_ok (show o + 6 < m.length by omega), Res.ok_bind, rd_ok (show o + 7 < m.length by omega), Res.ok_bind]
  exact ⟨_, rfl⟩

/-- A number that lies in the buffer can be read. -/
def GetTotal (α : Type) [SqlNum α] : Prop := ∀ (m : Bytes) (o : Nat), o + SqlNum.width α ≤ m.length → ∃ x : α, SqlNum.get m o = .ok x

theorem getTotal16 : GetTotal Int16 := fun m o h => by
  obtain ⟨x, e⟩ := read16_total (m := m) (o := o) h
  exact ⟨_, by simp only [SqlNum.get, e, Res.ok_bind, Res.pure_eq]; rfl⟩
theorem getTotal32 : GetTotal Int32 := fun m o h => by
  obtain ⟨x, e⟩ := read32_total (m := m) (o := o) h
  exact ⟨_, by simp only [SqlNum.get, e, Res.ok_bind, Res.pure_eq]; rfl⟩
theorem getTotal64 : GetTotal Int64 := fun m o h => by
  obtain ⟨x, e⟩ := read64_total (m := m) (o := o) h
  exact ⟨_, by simp only [SqlNum.get, e, Res.ok_bind, Res.pure_eq]; rfl⟩
theorem getTotalR4 : GetTotal Real4 := fun m o h => by
  obtain ⟨x, e⟩ := read32_total (m := m) (o := o) h
  exact ⟨_, by simp only [SqlNum.get, e, Res.ok_bind, Res.pure_eq]; rfl⟩
theorem getTotalR8 : GetTotal Real8 := fun m o h => by
  obtain ⟨x, e⟩ := read64_total (m := m) (o := o) h
  exact ⟨_, by simp only [SqlNum.get, e, Res.ok_bind, Res.pure_eq]; rfl⟩

theorem readElems_total {α : Type} [SqlNum α] (hg : GetTotal α) (hw : SqlNum.width α < 256) : ∀ (es : List Bytes) (i : Nat) (pre rest : Bytes) (acc : List α),
    (∀ e ∈ es, e.length = SqlNum.width α) → pre.length = 20 + i * (4 + SqlNum.width α) →
    ∃ r, readElems (pre ++ es.flatMap elementBytes ++ rest) es.length i acc = .ok r ∧ r.length = acc.length + es.length := by
  intro es
  induction es with
  | nil => intro i pre rest acc _ _; exact ⟨acc, by simp [readElems]⟩
  | cons e es ih =>
    intro i pre rest acc hs hp
    have hl := hs e (List.mem_cons_self ..)
    have g1 : getInt (pre ++ (e :: es).flatMap elementBytes ++ rest) (20 + i * (4 + SqlNum.width α)) = .ok (SqlNum.width α : Int) := by
      rw [element_split, ← hp, hl]; exact getInt_beDigits (by omega) _ _
    obtain ⟨x, g2⟩ := hg (pre ++ (e :: es).flatMap elementBytes ++ rest) (24 + i * (4 + SqlNum.width α)) (by
      rw [element_split]; simp only [List.length_append, beDigits_length]; omega)
    obtain ⟨r, h1, h2⟩ := ih (i + 1) (pre ++ beDigits 4 e.length ++ e) rest (acc ++ [x]) (fun y hy => hs y (List.mem_cons_of_mem _ hy))
      (by simp only [List.length_append, hp, beDigits_length, hl, Nat.add_mul]; omega)
    refine ⟨r, ?_, by simp at h2 ⊢; omega⟩
    simp only [List.length_cons]
    unfold readElems
    rw [g1, Res.ok_bind, if_neg (by simp), g2, Res.ok_bind, element_split]
    simpa [List.append_assoc] using h1

theorem readWStrings_total (cv : WConv) : ∀ (xs : List Bytes) (pre tail : Bytes) (acc : List (List UInt32)), (∀ s ∈ xs, s.length < 2^31) →
    ∃ r, readWStrings cv (pre ++ xs.flatMap elementBytes ++ tail) xs.length pre.length acc = .ok r := by
  intro xs
  induction xs with
  | nil => intro pre tail acc _; exact ⟨acc, by simp [readWStrings]⟩
  | cons s xs ih =>
    intro pre tail acc hs
    have h := hs s (List.mem_cons_self ..)
    have g : getInt (pre ++ (s :: xs).flatMap elementBytes ++ tail) pre.length = .ok (s.length : Int) := by
      rw [element_split]; exact getInt_beDigits h _ _
    simp only [List.length_cons]
    unfold readWStrings
    rw [g, Res.ok_bind, if_neg (by omega), Int.toNat_natCast, if_pos (by simp [elementBytes, beDigits_length]; omega), take_element]
    cases cv.inn s with
    | none => exact ⟨acc, rfl⟩
    | some w =>
      obtain ⟨r, hr⟩ := ih (pre ++ beDigits 4 s.length ++ s) tail (acc ++ [w]) (fun y hy => hs y (List.mem_cons_of_mem _ hy))
      rw [show (pre ++ beDigits 4 s.length ++ s).length = pre.length + 4 + s.length by simp [beDigits_length]; omega] at hr
      refine ⟨r, ?_⟩
      rw [element_split]
      simpa [List.append_assoc] using hr

/-- Not one dimension, or nulls announced: nothing is read. -/
theorem arrayHeader_skip {nulls : Bool} {o : Nat} {dims : List (Nat × Bytes)} {elems : List (Option Bytes)} {rest : Bytes} {oid : UInt32}
    (hd : dims.length ≤ 6) (h : dims.length ≠ 1 ∨ nulls = true) : arrayHeader (serverArray nulls o dims elems ++ rest) oid = .ok none := by
  have r0 : getInt (serverArray nulls o dims elems ++ rest) 0 = .ok (dims.length : Int) := by
    have := getInt_beDigits (n := dims.length) (by omega) [] (beDigits 4 (if nulls then 1 else 0) ++ beDigits 4 o ++ dims.flatMap (fun d => beDigits 4 d.1 ++ d.2) ++
      elems.flatMap serverElement ++ rest)
    simpa [serverArray, List.append_assoc] using this
  have r1 : getInt (serverArray nulls o dims elems ++ rest) 4 = .ok ((if nulls then 1 else 0 : Nat) : Int) := by
    have := getInt_beDigits (n := if nulls then 1 else 0) (by split <;> decide) (beDigits 4 dims.length) (beDigits 4 o ++ dims.flatMap (fun d => beDigits 4 d.1 ++ d.2) ++
      elems.flatMap serverElement ++ rest)
    simpa [serverArray, List.append_assoc, beDigits_length] using this
  unfold arrayHeader
  rw [r0, Res.ok_bind]
  by_cases h1 : dims.length = 1
  · obtain rfl : nulls = true := h.resolve_left (fun n => n h1)
    rw [if_neg (by omega), r1, Res.ok_bind]
    rfl
  · rw [if_pos (by omega)]; rfl

theorem all_some {elems : List (Option Bytes)} (h : none ∉ elems) : ∃ es : List Bytes, elems = es.map some := by
  induction elems with
  | nil => exact ⟨[], rfl⟩
  | cons e l ih =>
    obtain ⟨es, rfl⟩ := ih (fun hm => h (List.mem_cons_of_mem _ hm))
    cases e with
    | none => exact absurd (List.mem_cons_self ..) h
    | some e => exact ⟨e :: es, rfl⟩

/-- One dimension without nulls is the plain form. -/
theorem serverArray_plain {w : Option Nat} {o : Nat} {dims : List (Nat × Bytes)} {elems : List (Option Bytes)} (h : IsServerArray w false dims elems) (hd : dims.length = 1) :
    ∃ (lb : Bytes) (es : List Bytes), lb.length = 4 ∧ es.length < 2^31 ∧ elems = es.map some ∧ serverArray false o dims elems = arrayBytes o lb es := by
  obtain ⟨es, rfl⟩ := all_some (h.noNulls rfl)
  match dims, hd with
  | [(n, lb)], _ =>
    have hc := h.count
    simp at hc
    have := h.shape.2 (n, lb) (List.mem_cons_self ..)
    refine ⟨lb, es, this.2, by omega, rfl, ?_⟩
    subst hc
    have e : ∀ l : List Bytes, (l.map some).flatMap serverElement = l.flatMap elementBytes := by
      intro l
      induction l with
      | nil => rfl
      | cons a l ih => simp [ih, serverElement]
    unfold serverArray arrayBytes
    rw [e]
    simp

theorem readNums_skip {α : Type} [SqlNum α] {nulls : Bool} {o : Nat} {dims : List (Nat × Bytes)} {elems : List (Option Bytes)}
    (hd : dims.length ≤ 6) (h : dims.length ≠ 1 ∨ nulls = true) : readNums (α := α) (serverArray nulls o dims elems ++ [0]) [] = .ok (some []) := by
  unfold readNums; rw [arrayHeader_skip hd h]; rfl

theorem readNums_total {α : Type} [SqlNum α] (hg : GetTotal α) (hw : SqlNum.width α < 256) {lb : Bytes} {es : List Bytes} (hl : lb.length = 4) (hn : es.length < 2^31)
    (hs : ∀ e ∈ es, e.length = SqlNum.width α) :
    ∃ r : List α, readNums (arrayBytes (SqlNum.oid α).toNat lb es ++ [0]) [] = .ok (some r) ∧ r.length = es.length := by
  obtain ⟨r, h1, h2⟩ := readElems_total hg hw es 0 (beDigits 4 1 ++ beDigits 4 0 ++ beDigits 4 (SqlNum.oid α).toNat ++ beDigits 4 es.length ++ lb) [0] [] hs (by simp [beDigits_length, hl])
  refine ⟨r, ?_, by simpa using h2⟩
  unfold readNums
  rw [arrayHeader_ok hl hn, Res.ok_bind]
  dsimp only
  rw [if_neg (by omega), Int.toNat_natCast]
  unfold arrayBytes
  rw [h1]
  rfl

/-- The number of elements of an array. -/
def elementCount : SqlVal → Nat
  | .smallints xs => xs.length
  | .integers xs => xs.length
  | .bigints xs => xs.length
  | .reals xs => xs.length
  | .doubles xs => xs.length
  | .texts xs => xs.length
  | .wtexts xs => xs.length
  | _ => 0

/-- C52, in part: whatever array a server sends, of any dimensions, with nulls or without, is read without leaving the buffer and without an exception: as
empty if it has nulls announced or not one dimension, and else with as many elements as it has (wide strings up to the first that cannot be converted). -/
theorem C52_arrays_partial (cv : WConv) (t : SqlType) (oid : Nat) (w : Option Nat) (empty : SqlVal) (ht : arrayOf t = some (oid, w, empty))
    (nulls : Bool) (dims : List (Nat × Bytes)) (elems : List (Option Bytes)) (h : IsServerArray w nulls dims elems) :
    ∃ v, readCell cv (some (serverArray nulls oid dims elems)) t = .ok (some v) ∧ (dims.length ≠ 1 ∨ nulls = true → v = empty) ∧
      (dims.length = 1 → nulls = false → t ≠ .wtexts → elementCount v = elems.length) := by
  by_cases hs : dims.length ≠ 1 ∨ nulls = true
  · refine ⟨empty, ?_, fun _ => rfl, fun a b => by simp [a, b] at hs⟩
    cases t <;> simp only [arrayOf, Option.some.injEq, Prod.mk.injEq, reduceCtorEq] at ht <;> obtain ⟨rfl, rfl, rfl⟩ := ht <;>
      simp only [readCell, cellMem]
    · rw [readNums_skip h.shape.1 hs]; rfl
    · rw [readNums_skip h.shape.1 hs]; rfl
    · rw [readNums_skip h.shape.1 hs]; rfl
    · rw [readNums_skip h.shape.1 hs]; rfl
    · rw [readNums_skip h.shape.1 hs]; rfl
    · unfold readTexts; rw [arrayHeader_skip h.shape.1 hs]; rfl
    · unfold readWTexts; rw [arrayHeader_skip h.shape.1 hs]; rfl
  · obtain ⟨h1, h2⟩ : dims.length = 1 ∧ nulls = false := by simpa using hs
    subst h2
    obtain ⟨lb, es, hl, hn, rfl, e⟩ := serverArray_plain (o := oid) h h1
    have hsz : ∀ x ∈ es, x.length < 2^31 ∧ ∀ n, w = some n → x.length = n := fun x hx => h.sizes x (List.mem_map_of_mem hx)
    rw [e]
    have fin : ∀ v, elementCount v = es.length → (dims.length ≠ 1 ∨ false = true → v = empty) ∧
        (dims.length = 1 → True → t ≠ .wtexts → elementCount v = (es.map some).length) := fun _ hv => ⟨fun a => absurd a hs, fun _ _ _ => by simpa using hv⟩
    cases t <;> simp only [arrayOf, Option.some.injEq, Prod.mk.injEq, reduceCtorEq] at ht <;> obtain ⟨rfl, rfl, rfl⟩ := ht <;>
      simp only [readCell, cellMem]
    · obtain ⟨r, e1, e2⟩ := readNums_total getTotal16 (by decide) hl hn (fun x hx => (hsz x hx).2 _ rfl)
      exact ⟨.smallints r, by rw [show (21 : Nat) = (SqlNum.oid Int16).toNat from rfl, e1]; rfl, fin (.smallints r) e2⟩
    · obtain ⟨r, e1, e2⟩ := readNums_total getTotal32 (by decide) hl hn (fun x hx => (hsz x hx).2 _ rfl)
      exact ⟨.integers r, by rw [show (23 : Nat) = (SqlNum.oid Int32).toNat from rfl, e1]; rfl, fin (.integers r) e2⟩
    · obtain ⟨r, e1, e2⟩ := readNums_total getTotal64 (by decide) hl hn (fun x hx => (hsz x hx).2 _ rfl)
      exact ⟨.bigints r, by rw [show (20 : Nat) = (SqlNum.oid Int64).toNat from rfl, e1]; rfl, fin (.bigints r) e2⟩
    · obtain ⟨r, e1, e2⟩ := readNums_total getTotalR4 (by decide) hl hn (fun x hx => (hsz x hx).2 _ rfl)
      exact ⟨.reals r, by rw [show (700 : Nat) = (SqlNum.oid Real4).toNat from rfl, e1]; rfl, fin (.reals r) e2⟩
    · obtain ⟨r, e1, e2⟩ := readNums_total getTotalR8 (by decide) hl hn (fun x hx => (hsz x hx).2 _ rfl)
      exact ⟨.doubles r, by rw [show (701 : Nat) = (SqlNum.oid Real8).toNat from rfl, e1]; rfl, fin (.doubles r) e2⟩
    · exact ⟨.texts es, by rw [readTexts_ok (fun x hx => (hsz x hx).1) (.inl ⟨lb, hl, hn, rfl⟩)]; rfl, fin (.texts es) rfl⟩
    · obtain ⟨r, hr⟩ := readWStrings_total cv es (beDigits 4 1 ++ beDigits 4 0 ++ beDigits 4 25 ++ beDigits 4 es.length ++ lb) [0] [] (fun x hx => (hsz x hx).1)
      rw [show (beDigits 4 1 ++ beDigits 4 0 ++ beDigits 4 25 ++ beDigits 4 es.length ++ lb).length = 20 by simp [beDigits_length, hl]] at hr
      refine ⟨.wtexts r, ?_, fun a => absurd a hs, fun _ _ c => absurd rfl c⟩
      unfold readWTexts
      rw [show (25 : Nat) = (25 : UInt32).toNat from rfl, arrayHeader_ok hl hn, Res.ok_bind]
      dsimp only
      rw [if_neg (by omega), Int.toNat_natCast]
      unfold arrayBytes
      rw [show (25 : UInt32).toNat = 25 from rfl, hr]
      rfl

/-- C52 fails for every type but Booleans, texts and addresses: a NULL is read past the end of the one byte there is. -/
theorem C52_nulls_violated (cv : WConv) (t : SqlType) (h : t ≠ .bool ∧ t ≠ .text ∧ t ≠ .wtext ∧ t ≠ .bytea ∧ t ≠ .inet) : readCell cv none t = .ub .oobRead := by
  cases t <;> first | rfl | simp at h

/-! ### Concrete cases -/

example : IsServerArray (some 4) true [(2, [0, 0, 0, 1]), (1, [0, 0, 0, 1])] [some [0, 0, 0, 7], none] :=
  ⟨by decide, by decide, by decide, by simp⟩
example : IsServerArray none false [(2, [0, 0, 0, 1])] [some b!"ab", some b!"c"] := ⟨by decide, by decide, by decide, by simp⟩
example : readCell asciiConv (some (serverArray false 25 [(2, [0, 0, 0, 1])] [some b!"ab", some b!"c"])) .texts = .ok (some (.texts [b!"ab", b!"c"])) := by decide +kernel
example : readCell asciiConv (some (serverArray true 23 [(2, [0, 0, 0, 1])] [some [0, 0, 0, 7], none])) .integers = .ok (some (.integers [])) := by decide +kernel

end Fcgi.Props
