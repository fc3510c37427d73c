/-!
# Base vocabulary of the model

Bytes, byte-string literals and the outcome type.  C++ undefined behaviour is a *distinct outcome*
(`Res.ub`) and a loop that does not finish within its fuel is another (`Res.stuck`), so that "no
undefined behaviour" and "terminates" are theorems rather than assumptions.
-/

namespace Fcgi

/-- An octet.  (C++ `char`/`unsigned char`/`uint8_t`; signedness is irrelevant to the object
representation, and where the C++ code compares a plain `char` the model says so.) -/
abbrev Byte := UInt8
abbrev Bytes := List UInt8

/-- `b!"text"` is the list of the UTF-8 bytes of `text`, as an explicit list of numerals. -/
syntax:max (name := bytesLit) "b!" str : term
macro_rules (kind := bytesLit)
  | `(b! $s:str) => do
    let bs := s.getString.toUTF8.toList
    let elems ← bs.toArray.mapM fun b => do
      let n := Lean.Syntax.mkNumLit (toString b.toNat)
      `(($n : UInt8))
    `([$[$elems],*])

/-- `c!"x"` is the byte of a one-character string. -/
syntax:max (name := byteLit) "c!" str : term
macro_rules (kind := byteLit)
  | `(c! $s:str) => do
    match s.getString.toUTF8.toList with
    | [b] =>
      let n := Lean.Syntax.mkNumLit (toString b.toNat)
      `(($n : UInt8))
    | _ => Lean.Macro.throwError "c! expects exactly one byte"

/-- Kinds of undefined behaviour the model distinguishes. -/
inductive UB where
  | oobRead        -- read outside the object
  | oobWrite       -- write outside the object
  | signedOverflow -- signed integer overflow
  | emptyAccess    -- front()/back() of an empty container
  | badRange       -- iterator range whose end precedes its begin
  deriving DecidableEq, Repr

/-- Outcome of running a piece of the model. -/
inductive Res (α : Type) where
  | ok (a : α)
  | ub (k : UB)
  | stuck            -- did not finish within the given fuel
  deriving DecidableEq, Repr

namespace Res
@[inline] protected def bind {α β} (x : Res α) (f : α → Res β) : Res β :=
  match x with
  | ok a => f a
  | ub k => ub k
  | stuck => stuck

instance : Monad Res where
  pure := ok
  bind := Res.bind

@[simp] theorem pure_eq {α} (a : α) : (pure a : Res α) = ok a := rfl
@[simp] theorem ok_bind {α β} (a : α) (f : α → Res β) : (ok a >>= f) = f a := rfl
@[simp] theorem ub_bind {α β} (k : UB) (f : α → Res β) : (ub k >>= f) = ub k := rfl
@[simp] theorem stuck_bind {α β} (f : α → Res β) : ((stuck : Res α) >>= f) = stuck := rfl
@[simp] theorem map_ok {α β} (g : α → β) (a : α) : (g <$> (ok a : Res α)) = ok (g a) := rfl

theorem bind_eq_ok {α β} {x : Res α} {f : α → Res β} {b : β} :
    (x >>= f) = ok b ↔ ∃ a, x = ok a ∧ f a = ok b := by
  cases x <;> simp
end Res

/-- Checked read of one element of an object held as a list. -/
def rd {α} (buf : List α) (i : Nat) : Res α :=
  match buf[i]? with
  | some b => .ok b
  | none => .ub .oobRead

theorem rd_ok {α} {buf : List α} {i : Nat} (h : i < buf.length) : rd buf i = .ok buf[i] := by
  simp [rd, List.getElem?_eq_getElem h]

theorem rd_oob {α} {buf : List α} {i : Nat} (h : buf.length ≤ i) : rd buf i = .ub .oobRead := by
  simp [rd, List.getElem?_eq_none h]

/-- The half-open range `[i, j)` of a buffer (iterator pair). -/
def slice {α} (buf : List α) (i j : Nat) : List α := (buf.take j).drop i

theorem slice_mid {α} (a b c : List α) (i j : Nat) (hi : i = a.length) (hj : j = a.length + b.length) :
    slice (a ++ (b ++ c)) i j = b := by
  subst hi hj
  simp [slice, List.take_append]

theorem split3 {α} (l : List α) (m n : Nat) (h : m + n ≤ l.length) :
    ∃ a b c, l = a ++ (b ++ c) ∧ a.length = m ∧ b.length = n := by
  refine ⟨l.take m, (l.drop m).take n, (l.drop m).drop n, ?_, ?_, ?_⟩
  · rw [List.take_append_drop, List.take_append_drop]
  · simp; omega
  · simp; omega

/-- To prove something of every byte it is enough to check the 256 of them. -/
theorem byte_forall {P : UInt8 → Prop} (h : ∀ n : Fin 256, P (UInt8.ofNat n.val)) : ∀ b, P b := by
  intro b
  have := h ⟨b.toNat, b.toNat_lt⟩
  simpa using this

theorem list_snoc_ind {α} {p : List α → Prop} (h0 : p []) (h1 : ∀ l a, p l → p (l ++ [a])) (l : List α) : p l := by
  have : ∀ l' : List α, p l'.reverse := by
    intro l'
    induction l' with
    | nil => simpa using h0
    | cons a l' ih => rw [List.reverse_cons]; exact h1 _ _ ih
  have := this l.reverse
  rwa [List.reverse_reverse] at this

end Fcgi
