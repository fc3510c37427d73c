import Verif.Base
/-! # Model of http.cpp 79-119: `atof<char>` and `atof<wchar_t>`

The numbers are IEEE 754 binary64 and, for the value returned, binary32, with the default rounding (to nearest, ties to even): C++ leaves the
formats open, all the platforms of the library have these. No negative number and no NaN arises before the sign is put in front. -/
namespace Fcgi.Model
open Fcgi

/-- A finite `double` that is not negative, as a multiple of the least one, 2^-1074; `none` is infinity. -/
abbrev Dbl := Option Nat

/-- 1 as a multiple of 2^-1074. -/
def dblOne : Nat := 2^1074

/-- The number with `bits` bits of precision, and a multiple of `least` times 2^-1074, that is nearest to `n / d` (in the same unit); of two nearest
ones the even one. -/
def roundTo (bits least n d : Nat) : Nat :=
  let k := max least (Nat.log2 (n / d) + 1 - bits)
  let q := n / (d * 2^k)
  let r := n % (d * 2^k)
  (if d * 2^k < 2 * r ∨ (2 * r = d * 2^k ∧ q % 2 = 1) then q + 1 else q) * 2^k

/-- Rounding to `double`. -/
def toDbl (n d : Nat) : Dbl := let x := roundTo 53 0 n d; if x < 2^1024 * dblOne then some x else none

/-- Rounding to `float` (least positive one 2^-149, that is 2^925 units). -/
def toFlt : Dbl → Dbl
  | none => none
  | some n => let x := roundTo 24 925 n 1; if x < 2^128 * dblOne then some x else none

/-- Addition; infinity stays. -/
def dblAdd : Dbl → Dbl → Dbl
  | some a, some b => toDbl (a + b) 1
  | _, _ => none

/-- Multiplication; with infinity it is used with a factor of 10 only. -/
def dblMul : Dbl → Dbl → Dbl
  | some a, some b => toDbl (a * b) dblOne
  | _, _ => none

/-- A small integer as a `double`. -/
def dblNat (n : Nat) : Dbl := toDbl (n * dblOne) 1

/-- The literal `0.1`. -/
def dblTenth : Dbl := toDbl dblOne 10

/-- http.cpp 97-116: the loop. `l` is the object from `start` on, `left` is `end-start`. Characters are their codes (a negative `char` as some number above 127:
like all but digits and the point it ends the loop). -/
def atofLoop : (l : List Nat) → (left : Nat) → (result multiplier : Dbl) → Res Dbl
  | _, 0, result, _ => .ok result
  | [], _+1, _, _ => .ub .oobRead
  | c :: l, left+1, result, multiplier =>
    if 0x30 ≤ c ∧ c ≤ 0x39 then
      if multiplier = some 0 then atofLoop l left (dblAdd (dblMul result (dblNat 10)) (dblNat (c % 16))) multiplier
      else atofLoop l left (dblAdd result (dblMul (dblNat (c % 16)) multiplier)) (dblMul multiplier dblTenth)
    else if c = 46 then atofLoop l left result dblTenth
    else .ok result

/-- http.cpp 84-119 `atof` on the range holding `value`, which `after` follows in memory: the sign and the `float`. -/
def atof (value after : List Nat) : Res (Bool × Dbl) :=
  if value = [] then .ok (false, some 0)
  else do
    let obj := value ++ after
    let c ← rd obj 0
    if c = 45 then
      let r ← atofLoop (obj.drop 1) (value.length - 1) (some 0) (some 0)
      return (true, toFlt r)
    else
      let r ← atofLoop obj value.length (some 0) (some 0)
      return (false, toFlt r)

end Fcgi.Model
