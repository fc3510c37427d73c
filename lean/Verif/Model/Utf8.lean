import Verif.Base
/-! # UTF-8 conversion of the C++ library, as the code uses it (not part of /repo) -/
namespace Fcgi.Model

/-- What a conversion of the bytes of a piece yields: the characters, how many bytes have been used, whether it failed. -/
abbrev Conv (α : Type) := Bytes → List α × Nat × Bool

/-- How a text in UTF-8 begins. -/
inductive Dec where
  | char (c : UInt32) (len : Nat)
  | incomplete
  | invalid
  deriving DecidableEq

def cont (b : Byte) : Bool := 0x80 ≤ b ∧ b < 0xc0

/-- One character of UTF-8, as `std::codecvt_utf8<wchar_t>::in` of libstdc++ (not part of /repo) reads it.  Simplified: surrogates,
which some of its versions accept, are invalid. -/
def utf8Decode1 : Bytes → Dec
  | [] => .incomplete
  | b1 :: rest =>
    if b1 < 0x80 then .char b1.toUInt32 1
    else if b1 < 0xc2 then .invalid
    else if b1 < 0xe0 then match rest with
      | [] => .incomplete
      | b2 :: _ => if cont b2 then .char (UInt32.ofNat ((b1.toNat - 0xc0) * 64 + (b2.toNat - 0x80))) 2 else .invalid
    else if b1 < 0xf0 then match rest with
      | [] => .incomplete
      | b2 :: rest => if !cont b2 || (b1 = 0xe0 && b2 < 0xa0) || (b1 = 0xed && b2 ≥ 0xa0) then .invalid else match rest with
        | [] => .incomplete
        | b3 :: _ => if cont b3 then .char (UInt32.ofNat ((b1.toNat - 0xe0) * 4096 + (b2.toNat - 0x80) * 64 + (b3.toNat - 0x80))) 3 else .invalid
    else if b1 < 0xf5 then match rest with
      | [] => .incomplete
      | b2 :: rest => if !cont b2 || (b1 = 0xf0 && b2 < 0x90) || (b1 = 0xf4 && b2 ≥ 0x90) then .invalid else match rest with
        | [] => .incomplete
        | b3 :: rest => if !cont b3 then .invalid else match rest with
          | [] => .incomplete
          | b4 :: _ =>
            if cont b4 then .char (UInt32.ofNat ((b1.toNat - 0xf0) * 262144 + (b2.toNat - 0x80) * 4096 + (b3.toNat - 0x80) * 64 + (b4.toNat - 0x80))) 4
            else .invalid
    else .invalid

/-- `converter.in` on a whole piece; an incomplete character at the end is not used. -/
def utf8Loop : (fuel : Nat) → Bytes → List UInt32 × Nat × Bool
  | 0, _ => ([], 0, false)
  | _ + 1, [] => ([], 0, false)
  | fuel + 1, b :: rest => match utf8Decode1 (b :: rest) with
    | .incomplete => ([], 0, false)
    | .invalid => ([], 0, true)
    | .char c len =>
      let r := utf8Loop fuel ((b :: rest).drop len)
      (c :: r.1, len + r.2.1, r.2.2)

def utf8In : Conv UInt32 := fun data => utf8Loop data.length data

/-- `std::wstring_convert<std::codecvt_utf8<wchar_t>>::from_bytes` on a whole text (used in http.cpp 39-52 and curl.cpp 407-411):
`none` is the exception `std::range_error`.  An incomplete character at the end is left out without an error, as libstdc++ does
(bits/locale_conv.h `__do_str_codecvt`: only the result `error` fails). -/
def utf8All (b : Bytes) : Option (List UInt32) := let (cs, _, failed) := utf8In b; if failed then none else some cs

/-- One character as `std::codecvt_utf8<wchar_t>::out` of libstdc++ (codecvt.cc `write_utf8_code_point`) writes it; `none` is the result
`error`.  Simplified: surrogates, which some of its versions accept, are errors. -/
def utf8Put (c : UInt32) : Option Bytes :=
  let n := c.toNat
  if n ≤ 0x7f then some [UInt8.ofNat n]
  else if n ≤ 0x7ff then some [UInt8.ofNat (n / 2^6 + 0xc0), UInt8.ofNat (n % 2^6 + 0x80)]
  else if n ≤ 0xffff then
    if 0xd800 ≤ n ∧ n ≤ 0xdfff then none
    else some [UInt8.ofNat (n / 2^12 + 0xe0), UInt8.ofNat (n / 2^6 % 2^6 + 0x80), UInt8.ofNat (n % 2^6 + 0x80)]
  else if n ≤ 0x10ffff then
    some [UInt8.ofNat (n / 2^18 + 0xf0), UInt8.ofNat (n / 2^12 % 2^6 + 0x80), UInt8.ofNat (n / 2^6 % 2^6 + 0x80), UInt8.ofNat (n % 2^6 + 0x80)]
  else none

/-- `std::wstring_convert<std::codecvt_utf8<wchar_t>>::to_bytes` on a whole text; `none` is the exception `std::range_error`. -/
def utf8Out : List UInt32 → Option Bytes
  | [] => some []
  | c :: t => do
    let b ← utf8Put c
    let r ← utf8Out t
    return b ++ r

end Fcgi.Model
