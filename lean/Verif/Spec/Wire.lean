import Verif.Base
/-!
# Specification: FastCGI wire format

Written from the FastCGI 1.0 specification, independently of the model of the code.
-/
namespace Fcgi.Spec

/-- The number whose base-256 digits, most significant first, are `l`. -/
def beValue (l : Bytes) : Nat := l.foldl (fun acc b => acc * 256 + b.toNat) 0

/-- The `w` low base-256 digits of `n`, most significant first. -/
def beDigits : (w : Nat) → (n : Nat) → Bytes
  | 0, _ => []
  | w+1, n => UInt8.ofNat (n / 256^w) :: beDigits w n

/-! ### Name-value pairs (FastCGI 1.0, section 3.4) -/

/-- `EncLen n b`: the bytes `b` are a legal encoding of the length `n`: one byte below 128, or four
bytes big-endian with the top bit set. -/
inductive EncLen : Nat → Bytes → Prop
  | short (n : Nat) (h : n < 128) : EncLen n [UInt8.ofNat n]
  | long (n : Nat) (h : n < 2^31) : EncLen n (beDigits 4 (2^31 + n))

/-- `EncPair (name, value) b`: `b` encodes the pair. -/
def EncPair (nv : Bytes × Bytes) (b : Bytes) : Prop :=
  ∃ ln lv, EncLen nv.1.length ln ∧ EncLen nv.2.length lv ∧ b = ln ++ lv ++ nv.1 ++ nv.2

/-- A stream of pairs. -/
inductive EncPairs : List (Bytes × Bytes) → Bytes → Prop
  | nil : EncPairs [] []
  | cons {nv b nvs bs} : EncPair nv b → EncPairs nvs bs → EncPairs (nv :: nvs) (b ++ bs)

/-! ### Records (FastCGI 1.0, section 3.3) -/

/-- A FastCGI record as the specification draws it. -/
structure Record where
  version : UInt8
  type : UInt8
  id : Nat
  content : Bytes
  padding : Bytes
  reserved : UInt8
  deriving DecidableEq, Repr

/-- Field ranges of a record. -/
def Record.WF (r : Record) : Prop :=
  r.id < 2^16 ∧ r.content.length < 2^16 ∧ r.padding.length < 2^8

/-- The bytes of a record. -/
def Record.bytes (r : Record) : Bytes :=
  [r.version, r.type] ++ beDigits 2 r.id ++ beDigits 2 r.content.length
    ++ [UInt8.ofNat r.padding.length, r.reserved] ++ r.content ++ r.padding

/-- How long a peer believes the record starting with this 8-byte header is. -/
def framedLength (h : Bytes) : Nat :=
  8 + beValue ((h.drop 4).take 2) + beValue ((h.drop 6).take 1)

end Fcgi.Spec
