import Verif.Spec.Http
/-! # Text forms of addresses (RFC 4291 section 2.2) and their order -/
namespace Fcgi.Spec
open Fcgi

/-- `c` is the hexadecimal digit of value `d`, in either case. -/
def HexDigit (c : Byte) (d : Nat) : Prop := b!"0123456789abcdef"[d]? = some c ∨ b!"0123456789ABCDEF"[d]? = some c

/-- `t` are hexadecimal digits, of the number `n`. -/
inductive HexNum : Bytes → Nat → Prop where
  | nil : HexNum [] 0
  | snoc {t n c d} (h : HexNum t n) (hd : HexDigit c d) : HexNum (t ++ [c]) (16 * n + d)

/-- A group: one to four hexadecimal digits, standing for two bytes. -/
def HexGroup (t : Bytes) (bs : Bytes) : Prop :=
  ∃ n, HexNum t n ∧ 1 ≤ t.length ∧ t.length ≤ 4 ∧ bs = [UInt8.ofNat (n / 256), UInt8.ofNat (n % 256)]

/-- Groups separated by colons. -/
inductive Groups : Bytes → Bytes → Prop where
  | one {t bs} (h : HexGroup t bs) : Groups t bs
  | cons {t bs t' bs'} (h : HexGroup t bs) (r : Groups t' bs') : Groups (t ++ 58 :: t') (bs ++ bs')

/-- A number from 0 to 255 in one to three decimal digits. -/
def Octet (t : Bytes) (b : Byte) : Prop := IsDecimal t b.toNat ∧ t.length ≤ 3

/-- `a.b.c.d` -/
inductive Quad : Bytes → Bytes → Prop where
  | mk {t1 t2 t3 t4 a b c d} (h1 : Octet t1 a) (h2 : Octet t2 b) (h3 : Octet t3 c) (h4 : Octet t4 d) :
    Quad (t1 ++ 46 :: (t2 ++ 46 :: (t3 ++ 46 :: t4))) [a, b, c, d]

/-- Groups, the last two of which may be in the form `a.b.c.d`. -/
inductive Tail : Bytes → Bytes → Prop where
  | groups {t bs} (h : Groups t bs) : Tail t bs
  | quad {t bs q cs} (h : Groups t bs) (hq : Quad q cs) : Tail (t ++ 58 :: q) (bs ++ cs)

/-- The texts of the address `a` (16 bytes): IPv4, and IPv6 with and without `::` (which stands for one or more groups of
zeroes).  Left out: `::a.b.c.d` (see `Compat`). -/
inductive AddrText : Bytes → Bytes → Prop where
  | v4 {q cs} (h : Quad q cs) : AddrText q ([0, 0, 0, 0, 0, 0, 0, 0, 0, 0, 255, 255] ++ cs)
  | full {t bs} (h : Tail t bs) (hl : bs.length = 16) : AddrText t bs
  | none : AddrText [58, 58] (List.replicate 16 0)
  | left {t xs} (h : Groups t xs) (hl : xs.length ≤ 14) : AddrText (t ++ [58, 58]) (xs ++ List.replicate (16 - xs.length) 0)
  | right {t ys} (h : Tail t ys) (hl : ys.length ≤ 14) : AddrText ([58, 58] ++ t) (List.replicate (16 - ys.length) 0 ++ ys)
  | mid {t xs t' ys} (h : Groups t xs) (h' : Tail t' ys ∨ Quad t' ys) (hl : xs.length + ys.length ≤ 14) :
    AddrText (t ++ [58, 58] ++ t') (xs ++ List.replicate (16 - (xs.length + ys.length)) 0 ++ ys)

/-- The form `::a.b.c.d`. -/
inductive Compat : Bytes → Bytes → Prop where
  | mk {q cs} (h : Quad q cs) : Compat ([58, 58] ++ q) (List.replicate 12 0 ++ cs)

/-- Not only colons (what follows a text in memory: the parser goes on over colons there). -/
def EndsColons (after : Bytes) : Prop := ∃ c ∈ after, c ≠ 58

/-- A character that has no place in an address. -/
def Foreign (c : Byte) : Prop := c ≠ 58 ∧ c ≠ 46 ∧ ∀ d, ¬ HexDigit c d

/-- The number with these bytes, the most significant first. -/
def bigEndian (a : Bytes) : Nat := a.foldl (fun n b => 256 * n + b.toNat) 0

end Fcgi.Spec
