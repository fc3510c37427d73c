import Verif.Spec.Wire
import Verif.Model.Sql
/-! # PostgreSQL's binary format of values, and what `verify()` promises -/
namespace Fcgi.Spec
open Fcgi Fcgi.Model

/-- Two's complement in `w` bytes, the most significant first. -/
def twosComplement (w : Nat) (x : Int) : Bytes := beDigits w (x % 256 ^ w).toNat

/-- An element of an array: its length and its bytes. -/
def elementBytes (e : Bytes) : Bytes := beDigits 4 e.length ++ e

/-- An array of one dimension without nulls: dimensions, null flag, type of the elements, number of elements, lower bound
(`lb`), the elements. -/
def arrayBytes (oid : Nat) (lb : Bytes) (elems : List Bytes) : Bytes :=
  beDigits 4 1 ++ beDigits 4 0 ++ beDigits 4 oid ++ beDigits 4 elems.length ++ lb ++ elems.flatMap elementBytes

/-- An array without elements, as a server sends it: it has no dimensions. -/
def emptyArrayBytes (oid : Nat) : Bytes := beDigits 4 0 ++ beDigits 4 0 ++ beDigits 4 oid

/-- The forms of an array with these elements. -/
def ArrayCell (oid : Nat) (elems : List Bytes) (b : Bytes) : Prop :=
  (∃ lb : Bytes, lb.length = 4 ∧ elems.length < 2^31 ∧ b = arrayBytes oid lb elems) ∨ (elems = [] ∧ b = emptyArrayBytes oid)

/-- An element that may be null. -/
def serverElement : Option Bytes → Bytes
  | some e => elementBytes e
  | none => [255, 255, 255, 255]

/-- Any array as a server sends it (PostgreSQL's `array_send`): the number of dimensions, whether there may be nulls, the type of the elements,
the size and lower bound of each dimension, the elements, a null being one of length -1. -/
def serverArray (nulls : Bool) (oid : Nat) (dims : List (Nat × Bytes)) (elems : List (Option Bytes)) : Bytes :=
  beDigits 4 dims.length ++ beDigits 4 (if nulls then 1 else 0) ++ beDigits 4 oid ++ dims.flatMap (fun d => beDigits 4 d.1 ++ d.2) ++
    elems.flatMap serverElement

/-- What PostgreSQL calls an array of elements of `w` bytes, or of any length: at most six dimensions, as many elements as they say, no nulls unless
announced. -/
structure IsServerArray (w : Option Nat) (nulls : Bool) (dims : List (Nat × Bytes)) (elems : List (Option Bytes)) : Prop where
  shape : dims.length ≤ 6 ∧ ∀ d ∈ dims, d.1 < 2^31 ∧ d.2.length = 4
  count : elems.length = if dims = [] then 0 else (dims.map (·.1)).foldl (· * ·) 1
  noNulls : nulls = false → none ∉ elems
  sizes : ∀ e, some e ∈ elems → e.length < 2^31 ∧ ∀ n, w = some n → e.length = n

/-- The array types: the type of the elements and their size, and the empty array. -/
def arrayOf : SqlType → Option (Nat × Option Nat × SqlVal)
  | .smallints => some (21, some 2, .smallints [])
  | .integers => some (23, some 4, .integers [])
  | .bigints => some (20, some 8, .bigints [])
  | .reals => some (700, some 4, .reals [])
  | .doubles => some (701, some 8, .doubles [])
  | .texts => some (25, none, .texts [])
  | .wtexts => some (25, none, .wtexts [])
  | _ => none

/-- `b` is the value `v` in PostgreSQL's binary format.  Times count microseconds, dates days, from 2000-01-01. -/
def Cell (cv : WConv) : SqlVal → Bytes → Prop
  | .bool x, b => b = [if x then 1 else 0]
  | .smallint x, b => b = twosComplement 2 x.toInt
  | .integer x, b => b = twosComplement 4 x.toInt
  | .bigint x, b => b = twosComplement 8 x.toInt
  | .real x, b => b = beDigits 4 x.bits.toNat
  | .double x, b => b = beDigits 8 x.bits.toNat
  | .text s, b => b = s
  | .wtext s, b => cv.out s = some b
  | .bytea s, b => b = s
  | .timestamptz t, b => -2^63 ≤ t.toInt - 946684800000000 ∧ b = twosComplement 8 (t.toInt - 946684800000000)
  | .date d, b => -2^31 ≤ d - 10957 ∧ d - 10957 < 2^31 ∧ b = twosComplement 4 (d - 10957)
  | .inet a, b =>
    (∃ bits, a.length = 16 ∧ b = [3, bits, 0, 16] ++ a) ∨
    (∃ bits x y z w, a = [0,0,0,0,0,0,0,0,0,0,0xff,0xff, x, y, z, w] ∧ b = [2, bits, 0, 4, x, y, z, w])
  | .smallints xs, b => ArrayCell 21 (xs.map fun x => twosComplement 2 x.toInt) b
  | .integers xs, b => ArrayCell 23 (xs.map fun x => twosComplement 4 x.toInt) b
  | .bigints xs, b => ArrayCell 20 (xs.map fun x => twosComplement 8 x.toInt) b
  | .reals xs, b => ArrayCell 700 (xs.map fun x => beDigits 4 x.bits.toNat) b
  | .doubles xs, b => ArrayCell 701 (xs.map fun x => beDigits 8 x.bits.toNat) b
  | .texts xs, b => (∀ s ∈ xs, s.length < 2^31) ∧ ArrayCell 25 xs b
  | .wtexts xs, b => ∃ bs : List Bytes, xs.map cv.out = bs.map some ∧ (∀ s ∈ bs, s.length < 2^31) ∧ ArrayCell 25 bs b

/-- What the library's conversion is asked for: what it has encoded it decodes. -/
def WConv.Inverse (cv : WConv) : Prop := ∀ s b, cv.out s = some b → cv.inn b = some s

/-- Values within the limits of the wire format: everything but values of 2^31 bytes and more, texts that cannot be
encoded, times before 290278 BC and dates that are not a 32 bit number of days away. -/
def Sendable (cv : WConv) : SqlVal → Prop
  | .text s => s.length < 2^31
  | .wtext s => ∃ b : Bytes, cv.out s = some b ∧ b.length < 2^31
  | .bytea s => s.length < 2^31
  | .timestamptz t => -2^63 ≤ t.toInt - 946684800000000
  | .date d => -2^31 ≤ d - 10957 ∧ d - 10957 < 2^31
  | .inet a => a.length = 16
  | .smallints xs => 20 + xs.length * 6 < 2^31
  | .integers xs => 20 + xs.length * 8 < 2^31
  | .bigints xs => 20 + xs.length * 12 < 2^31
  | .reals xs => 20 + xs.length * 8 < 2^31
  | .doubles xs => 20 + xs.length * 12 < 2^31
  | .texts xs => 20 + (xs.map fun s => 4 + s.length).sum < 2^31
  | .wtexts xs => ∃ bs : List Bytes, xs.map cv.out = bs.map some ∧ 20 + (bs.map fun s => 4 + s.length).sum < 2^31
  | _ => True

/-- The size of a type whose values all have the same. -/
def fixedSize : SqlType → Option Int
  | .bool => some 1 | .smallint => some 2 | .integer => some 4 | .bigint => some 8 | .real => some 4 | .double => some 8
  | .timestamptz => some 8 | .date => some 4
  | _ => none

/-- PostgreSQL's numbers of the types (its pg_type catalog): name and array type. -/
def pgType : String → Option Nat
  | "bool" => some 16 | "bytea" => some 17 | "int8" => some 20 | "int2" => some 21 | "int4" => some 23 | "text" => some 25
  | "float4" => some 700 | "float8" => some 701 | "inet" => some 869 | "date" => some 1082 | "timestamptz" => some 1184
  | "_int2" => some 1005 | "_int4" => some 1007 | "_text" => some 1009 | "_int8" => some 1016 | "_float4" => some 1021
  | "_float8" => some 1022
  | _ => none

/-- PostgreSQL's names for the types. -/
def pgName : SqlType → String
  | .bool => "bool" | .smallint => "int2" | .integer => "int4" | .bigint => "int8" | .real => "float4" | .double => "float8"
  | .text => "text" | .wtext => "text" | .bytea => "bytea" | .timestamptz => "timestamptz" | .date => "date" | .inet => "inet"
  | .smallints => "_int2" | .integers => "_int4" | .bigints => "_int8" | .reals => "_float4" | .doubles => "_float8"
  | .texts => "_text" | .wtexts => "_text"

/-- The column holds values of the type. -/
def Holds (t : SqlType) (c : Column) : Prop := pgType (pgName t) = some c.ftype.toNat ∧ ∀ n, fixedSize t = some n → c.fsize = n

end Fcgi.Spec
