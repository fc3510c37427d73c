import Verif.Base
/-! # Specification: base64 (RFC 4648) -/
namespace Fcgi.Spec

/-- RFC 4648, table 1. -/
def alphabet : Bytes := b!"ABCDEFGHIJKLMNOPQRSTUVWXYZabcdefghijklmnopqrstuvwxyz0123456789+/"

/-- The character for a six-bit value. -/
def char64 (v : Nat) : UInt8 := alphabet[v]?.getD 0

/-- The three bytes as one 24-bit number, most significant first. -/
def triple (a b c : UInt8) : Nat := (a.toNat * 256 + b.toNat) * 256 + c.toNat

/-- RFC 4648, section 4. -/
def base64 : Bytes → Bytes
  | [] => []
  | [a] => [char64 (triple a 0 0 / 64^3), char64 (triple a 0 0 / 64^2 % 64), 61, 61]
  | [a, b] => [char64 (triple a b 0 / 64^3), char64 (triple a b 0 / 64^2 % 64), char64 (triple a b 0 / 64 % 64), 61]
  | a :: b :: c :: rest =>
    [char64 (triple a b c / 64^3), char64 (triple a b c / 64^2 % 64), char64 (triple a b c / 64 % 64), char64 (triple a b c % 64)]
      ++ base64 rest

/-- The bytes carried by complete groups of four six-bit values. -/
def unbase64 : List Nat → Bytes
  | a :: b :: c :: d :: rest =>
    let n := ((a * 64 + b) * 64 + c) * 64 + d
    [UInt8.ofNat (n / 256^2), UInt8.ofNat (n / 256), UInt8.ofNat n] ++ unbase64 rest
  | _ => []

/-- The whole bytes an incomplete last group determines. -/
def lastBytes : List Nat → Bytes
  | [a, b] => [UInt8.ofNat ((a * 64 + b) / 16)]
  | [a, b, c] => [UInt8.ofNat (((a * 64 + b) * 64 + c) / 1024), UInt8.ofNat (((a * 64 + b) * 64 + c) / 4)]
  | _ => []

end Fcgi.Spec
