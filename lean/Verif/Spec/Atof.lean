import Verif.Base
/-! # Specification vocabulary for decimal fractions -/
namespace Fcgi.Spec

/-- A character that is a decimal digit. -/
def IsDigitCode (c : Nat) : Prop := 48 ≤ c ∧ c ≤ 57

/-- The number that digits denote, in base ten. -/
def decimalOf (ds : List Nat) : Nat := ds.foldl (fun n c => n * 10 + (c - 48)) 0

/-- How far two numbers are apart. -/
def apart (a b : Nat) : Nat := (a - b) + (b - a)

/-- The numbers of a binary floating-point format: less than `2^bits` times a power of two, not less than `2^least`. -/
def IsFloating (bits least x : Nat) : Prop := ∃ m k, m < 2^bits ∧ least ≤ k ∧ x = m * 2^k

/-- `x` is a number of the format and none is nearer to `n / d`. -/
def Nearest (bits least n d x : Nat) : Prop := IsFloating bits least x ∧ ∀ y, IsFloating bits least y → apart (x * d) n ≤ apart (y * d) n

/-- `r` is `n / d` up to `e` relative errors of at most 2^-53: between `(1 - 2^-53)^e` and `(1 + 2^-53)^e` times it. -/
def Within (e r n d : Nat) : Prop := (2^53 - 1)^e * n ≤ (2^53)^e * (r * d) ∧ (2^53)^e * (r * d) ≤ (2^53 + 1)^e * n

end Fcgi.Spec
