import Verif.Base
/-! # Specification: HTML text, percent encoding -/
namespace Fcgi.Spec

/-- The five characters with a meaning in HTML text and attributes, and their entities. -/
inductive HtmlEntity : UInt8 → Bytes → Prop
  | quot : HtmlEntity 34 b!"&quot;"
  | amp : HtmlEntity 38 b!"&amp;"
  | apos : HtmlEntity 39 b!"&apos;"
  | lt : HtmlEntity 60 b!"&lt;"
  | gt : HtmlEntity 62 b!"&gt;"

/-- `HtmlText out s`: `out` is made of ordinary characters and the five entities only (no bare `"`,
`&`, `'`, `<`, `>`), and a browser shows it as `s`. -/
inductive HtmlText : Bytes → Bytes → Prop
  | nil : HtmlText [] []
  | plain (c : UInt8) {out s} (h : c ∉ [34, 38, 39, 60, 62]) : HtmlText out s → HtmlText (c :: out) (c :: s)
  | entity {c e out s} (h : HtmlEntity c e) : HtmlText out s → HtmlText (e ++ out) (c :: s)

/-- Value of a hexadecimal digit. -/
def hexValue (c : UInt8) : Option Nat :=
  if 48 ≤ c.toNat ∧ c.toNat ≤ 57 then some (c.toNat - 48)
  else if 65 ≤ c.toNat ∧ c.toNat ≤ 70 then some (c.toNat - 55)
  else if 97 ≤ c.toNat ∧ c.toNat ≤ 102 then some (c.toNat - 87)
  else none

/-- `UrlText out s`: `out` is a correct form-encoding of `s`: ordinary characters stand for themselves,
`+` for a space, `%XY` for the byte with hexadecimal digits `X`, `Y`. -/
inductive UrlText : Bytes → Bytes → Prop
  | nil : UrlText [] []
  | plain (c : UInt8) {out s} (h : c ≠ 37 ∧ c ≠ 43) : UrlText out s → UrlText (c :: out) (c :: s)
  | plus {out s} : UrlText out s → UrlText (43 :: out) (32 :: s)
  | esc (x y : UInt8) {h l out s} (hx : hexValue x = some h) (hy : hexValue y = some l) :
      UrlText out s → UrlText (37 :: x :: y :: out) (UInt8.ofNat (16 * h + l) :: s)

/-- The characters RFC 3986 reserves, and the unsafe `< > "`, space. -/
def urlReserved : Bytes := b!"!#$&'()*+,/:;=?@[]<>\" "

/-- UTF-8 (RFC 3629) of a Unicode scalar value. -/
def utf8Encode (c : Nat) : Bytes :=
  if c < 0x80 then [UInt8.ofNat c]
  else if c < 0x800 then [UInt8.ofNat (0xc0 + c / 64), UInt8.ofNat (0x80 + c % 64)]
  else if c < 0x10000 then
    [UInt8.ofNat (0xe0 + c / 4096), UInt8.ofNat (0x80 + c / 64 % 64), UInt8.ofNat (0x80 + c % 64)]
  else [UInt8.ofNat (0xf0 + c / 262144), UInt8.ofNat (0x80 + c / 4096 % 64), UInt8.ofNat (0x80 + c / 64 % 64),
    UInt8.ofNat (0x80 + c % 64)]

end Fcgi.Spec
