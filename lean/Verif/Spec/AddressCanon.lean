import Verif.Spec.Address
/-! # The canonical text of an address (RFC 5952) -/
namespace Fcgi.Spec
open Fcgi

/-- A number in the given base: small letters, no zero in front. -/
def digitsOf (base n : Nat) : Bytes := (Nat.toDigits base n).map fun c => UInt8.ofNat c.toNat

/-- The `i`th of the eight groups of an address. -/
def addrGroup (a : Bytes) (i : Nat) : Nat := 256 * (a.getD (2 * i) 0).toNat + (a.getD (2 * i + 1) 0).toNat

/-- The groups `i`, ..., `j-1`, in hexadecimal, separated by colons. -/
def groupsText (a : Bytes) (i j : Nat) : Bytes := [58].intercalate ((List.range' i (j - i)).map fun k => digitsOf 16 (addrGroup a k))

/-- The `n` groups from `b` on are zero. -/
def ZeroesAt (a : Bytes) (b n : Nat) : Prop := b + n ≤ 8 ∧ ∀ i, b ≤ i → i < b + n → addrGroup a i = 0

/-- They are, and there is no longer run of zeroes. -/
def LongestAt (a : Bytes) (b n : Nat) : Prop := 0 < n ∧ ZeroesAt a b n ∧ ∀ b' n', ZeroesAt a b' n' → n' ≤ n

/-- An IPv4 address. -/
def Mapped (a : Bytes) : Prop := ZeroesAt a 0 5 ∧ addrGroup a 5 = 0xffff

/-- Section 4 and 5: of the longest runs of zeroes the first is replaced by `::`, unless it is of one group only. -/
inductive Canonical (a : Bytes) : Bytes → Prop where
  | mapped (h : Mapped a) : Canonical a (b!"::ffff:" ++ [46].intercalate ((a.drop 12).map fun x => digitsOf 10 x.toNat))
  | full (hm : ¬ Mapped a) (h : ∀ b n, ZeroesAt a b n → n < 2) : Canonical a (groupsText a 0 8)
  | short {b n} (hm : ¬ Mapped a) (h2 : 2 ≤ n) (h : LongestAt a b n) (first : ∀ b', LongestAt a b' n → b ≤ b') :
    Canonical a (groupsText a 0 b ++ [58, 58] ++ groupsText a (b + n) 8)

end Fcgi.Spec
