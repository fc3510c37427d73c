import Verif.Model.Endian
/-! # Model of SQL parameters and results (include/fastcgi++/sql/*.hpp, src/parameters.cpp, src/results.cpp,
src/sqlTraits.hpp)

The object identifiers are those of PostgreSQL's catalog/pg_type.h.  `std::string` and `std::vector<char>` are
lists of bytes, a `float` or `double` is its bit pattern (`BigEndian` copies it through a union). -/
namespace Fcgi.Model

/-! ### Numbers -/

/-- types.hpp 49 `REAL`, as its object representation. -/
structure Real4 where
  bits : UInt32
  deriving DecidableEq

/-- types.hpp 50 `DOUBLE_PRECISION` -/
structure Real8 where
  bits : UInt64
  deriving DecidableEq

/-- What the templates use of a numeric type: `sizeof`, `Traits<T>::oid`, `BigEndian<T>::set` and `BigEndian<T>::read`. -/
class SqlNum (α : Type) where
  width : Nat
  oid : UInt32
  put : α → Bytes
  get : Bytes → Nat → Res α

/-- endian.hpp 128-135, 167-186 for `int16_t`; sqlTraits.hpp 64-77 -/
instance : SqlNum Int16 where
  width := 2
  oid := 21
  put x := to16 x.toUInt16
  get b i := do let u ← read16 b i; return ⟨u⟩

/-- endian.hpp 128-135, 167-186 for `int32_t`; sqlTraits.hpp 78-91 -/
instance : SqlNum Int32 where
  width := 4
  oid := 23
  put x := to32 x.toUInt32
  get b i := do let u ← read32 b i; return ⟨u⟩

/-- endian.hpp 128-135, 167-186 for `int64_t`; sqlTraits.hpp 92-105 -/
instance : SqlNum Int64 where
  width := 8
  oid := 20
  put x := to64 x.toUInt64
  get b i := do let u ← read64 b i; return ⟨u⟩

/-- endian.hpp 128-135, 167-186 for `float`; sqlTraits.hpp 106-119 -/
instance : SqlNum Real4 where
  width := 4
  oid := 700
  put x := to32 x.bits
  get b i := do let u ← read32 b i; return ⟨u⟩

/-- endian.hpp 128-135, 167-186 for `double`; sqlTraits.hpp 120-133 -/
instance : SqlNum Real8 where
  width := 8
  oid := 701
  put x := to64 x.bits
  get b i := do let u ← read64 b i; return ⟨u⟩

/-- Assignment to an `ARRAY_SIZE` (types.hpp 61) of an unsigned or `size_t` value: only the low 32 bits stay. -/
def putInt (n : Nat) : Bytes := to32 (UInt32.ofNat n)

/-- The value of an `ARRAY_SIZE`. -/
def getInt (b : Bytes) (i : Nat) : Res Int := do
  let u ← read32 b i
  return (⟨u⟩ : Int32).toInt

/-- Writing `bs` at `off` in a buffer. -/
def storeAt (buf : Bytes) (off : Nat) (bs : Bytes) : Res Bytes :=
  if off + bs.length ≤ buf.length then .ok (buf.take off ++ bs ++ buf.drop (off + bs.length)) else .ub .oobWrite

/-- `new char[n]`: the content is not set; `junk` stands for it. -/
def newBuf (junk : Nat → Byte) (n : Nat) : Bytes := (List.range n).map junk

/-! ### Parameters -/

/-- parameters.cpp 72-94, 128-145: the words in front of the elements. -/
def storeHeader (buf : Bytes) (oid : UInt32) (dim : Nat) : Res Bytes := do
  let buf ← storeAt buf 0 (putInt 1)
  let buf ← storeAt buf 4 (putInt 0)
  let buf ← storeAt buf 8 (to32 oid)
  let buf ← storeAt buf 12 (putInt dim)
  storeAt buf 16 (putInt 1)

/-- parameters.cpp 68-95 `Parameter<ARRAY<Numeric>>::resize`, for `unsigned` arithmetic in 32 bits (`size` is `unsigned`,
`sizeof` is 64 bits wide, `m_size` is `unsigned`). -/
def resizeArray (α : Type) [SqlNum α] (junk : Nat → Byte) (size : Nat) : Res Bytes :=
  let size := size % 2^32
  let msize := (4 * ((5 + size) % 2^32) + size * SqlNum.width α) % 2^32
  storeHeader (newBuf junk msize) (SqlNum.oid α) size

/-- parameters.cpp 103-115: the loop. -/
def storeElems {α : Type} [SqlNum α] : (buf : Bytes) → (i : Nat) → List α → Res Bytes
  | buf, _, [] => .ok buf
  | buf, i, x :: xs => do
    let ptr := 20 + i * (4 + SqlNum.width α)
    let buf ← storeAt buf ptr (putInt (SqlNum.width α))
    let buf ← storeAt buf (ptr + 4) (SqlNum.put x)
    storeElems buf (i + 1) xs

/-- parameters.cpp 97-118 `Parameter<ARRAY<Numeric>>::operator=`: `m_data`, of `m_size` bytes. -/
def encodeNums {α : Type} [SqlNum α] (junk : Nat → Byte) (xs : List α) : Res Bytes := do
  let buf ← resizeArray α junk xs.length
  storeElems buf 0 xs

/-- parameters.hpp 251-256 `operator[]`, assigned to. -/
def setElem {α : Type} [SqlNum α] (buf : Bytes) (i : Nat) (x : α) : Res Bytes :=
  storeAt buf (24 + i * (4 + SqlNum.width α)) (SqlNum.put x)

/-- parameters.cpp 148-156: the loop. -/
def storeTexts : (buf : Bytes) → (ptr : Nat) → List Bytes → Res Bytes
  | buf, _, [] => .ok buf
  | buf, ptr, s :: xs => do
    let buf ← storeAt buf ptr (putInt s.length)
    let buf ← storeAt buf (ptr + 4) s
    storeTexts buf (ptr + 4 + s.length) xs

/-- parameters.cpp 126-157 `Parameter<ARRAY<TEXT>>::assign`; `dataSize` and `m_size` are `unsigned`. -/
def encodeTexts (junk : Nat → Byte) (xs : List Bytes) : Res Bytes := do
  let dataSize := xs.foldl (fun n s => (n + s.length) % 2^32) 0
  let msize := (4 * (5 + xs.length) + dataSize) % 2^32
  let buf ← storeHeader (newBuf junk msize) 25 xs.length
  storeTexts buf 20 xs

/-- parameters.cpp 159-171 `Parameter<ARRAY<TEXT>>::operator[]`, with `k` elements to pass; `none` if `std::string` refuses
the length. -/
def textAt (buf : Bytes) : (k : Nat) → (ptr : Int) → Res (Option Bytes)
  | 0, ptr => do
    let length ← (if ptr < 0 then .ub .oobRead else getInt buf ptr.toNat)
    if length < 0 then return none
    else
      let off := (ptr + 4).toNat
      if off + length.toNat ≤ buf.length then return some ((buf.drop off).take length.toNat) else .ub .oobRead
  | k+1, ptr => do
    let length ← (if ptr < 0 then .ub .oobRead else getInt buf ptr.toNat)
    textAt buf k (ptr + 4 + length)

/-- `std::wstring_convert<std::codecvt_utf8<wchar_t>>` (library): `to_bytes` and `from_bytes`; `none` is a `range_error`. -/
structure WConv where
  out : List UInt32 → Option Bytes
  inn : Bytes → Option (List UInt32)

/-- parameters.cpp 38-50 `Parameter<WTEXT>::convert` -/
def convertW (cv : WConv) (x : List UInt32) : Bytes := (cv.out x).getD []

/-- parameters.cpp 173-189: the strings before the first that cannot be converted. -/
def convertWs (cv : WConv) : List (List UInt32) → List Bytes
  | [] => []
  | x :: xs => match cv.out x with
    | some b => b :: convertWs cv xs
    | none => []

/-- A value of one of the types of types.hpp 45-60.  A `DATE` is the number of days from 1970-01-01 of a valid
`year_month_day`; the conversion between them is the library's. -/
inductive SqlVal where
  | bool (b : Bool)
  | smallint (x : Int16)
  | integer (x : Int32)
  | bigint (x : Int64)
  | real (x : Real4)
  | double (x : Real8)
  | text (s : Bytes)
  | wtext (s : List UInt32)
  | bytea (s : Bytes)
  | timestamptz (us : Int64)
  | date (days : Int)
  | inet (a : Bytes)
  | smallints (xs : List Int16)
  | integers (xs : List Int32)
  | bigints (xs : List Int64)
  | reals (xs : List Real4)
  | doubles (xs : List Real8)
  | texts (xs : List Bytes)
  | wtexts (xs : List (List UInt32))
  deriving DecidableEq

/-- The types. -/
inductive SqlType where
  | bool | smallint | integer | bigint | real | double | text | wtext | bytea | timestamptz | date | inet
  | smallints | integers | bigints | reals | doubles | texts | wtexts
  deriving DecidableEq

def SqlVal.type : SqlVal → SqlType
  | .bool _ => .bool | .smallint _ => .smallint | .integer _ => .integer | .bigint _ => .bigint | .real _ => .real
  | .double _ => .double | .text _ => .text | .wtext _ => .wtext | .bytea _ => .bytea | .timestamptz _ => .timestamptz
  | .date _ => .date | .inet _ => .inet | .smallints _ => .smallints | .integers _ => .integers | .bigints _ => .bigints
  | .reals _ => .reals | .doubles _ => .doubles | .texts _ => .texts | .wtexts _ => .wtexts

/-- sqlTraits.hpp: `Traits<T>::oid` (BOOLOID, INT2OID, ...). -/
def SqlType.oid : SqlType → UInt32
  | .bool => 16 | .smallint => 21 | .integer => 23 | .bigint => 20 | .real => 700 | .double => 701 | .text => 25 | .wtext => 25
  | .bytea => 17 | .timestamptz => 1184 | .date => 1082 | .inet => 869 | .smallints => 1005 | .integers => 1007
  | .bigints => 1016 | .reals => 1021 | .doubles => 1022 | .texts => 1009 | .wtexts => 1009

/-- The epoch, 2000-01-01, in microseconds and in days from 1970-01-01. -/
def epochUs : Int := 946684800000000
def epochDays : Int := 10957

/-- Signed 64 bit arithmetic. -/
def int64 (x : Int) : Res Int64 := if -2^63 ≤ x ∧ x < 2^63 then .ok (Int64.ofInt x) else .ub .signedOverflow

/-- `data()` and `size()` of a parameter: the bytes from the one on, of the number the other gives.  parameters.hpp 55-76
(`BOOL`), 78-113 (numbers), 115-135 (`TEXT`, `BYTEA`), 137-158 (`WTEXT`), 160-186 (`TIMESTAMPTZ`), 188-214 (`DATE`, the
number of days is converted to 32 bits), 216-238 (`INET`; 3 is PGSQL_AF_INET6), 240-342 (arrays). -/
def encode (cv : WConv) (junk : Nat → Byte) : SqlVal → Res Bytes
  | .bool b => .ok [if b then 1 else 0]
  | .smallint x => .ok (SqlNum.put x)
  | .integer x => .ok (SqlNum.put x)
  | .bigint x => .ok (SqlNum.put x)
  | .real x => .ok (SqlNum.put x)
  | .double x => .ok (SqlNum.put x)
  | .text s => .ok s
  | .wtext s => .ok (convertW cv s)
  | .bytea s => .ok s
  | .timestamptz us => do let d ← int64 (us.toInt - epochUs); return SqlNum.put d
  | .date days => .ok (SqlNum.put (Int32.ofInt (days - epochDays)))
  | .inet a => .ok ([3, 128, 0, 16] ++ a)
  | .smallints xs => encodeNums junk xs
  | .integers xs => encodeNums junk xs
  | .bigints xs => encodeNums junk xs
  | .reals xs => encodeNums junk xs
  | .doubles xs => encodeNums junk xs
  | .texts xs => encodeTexts junk xs
  | .wtexts xs => encodeTexts junk (convertWs cv xs)

/-- parameters.hpp 344-437, 461-472 `build_impl` for one column, and what `PQsendQueryParams` (library) makes of it:
a null pointer is SQL's NULL.  The pointer is null if the column was set to null, and if it is that of an empty
`std::vector` (libstdc++, a vector that has no storage). -/
def sentCell (cv : WConv) (junk : Nat → Byte) (null : Bool) (v : SqlVal) : Res (Option Bytes) :=
  if null then .ok none
  else match v with
    | .bytea [] => .ok none
    | v => do let b ← encode cv junk v; return some b

/-! ### Results -/

/-- What `PQgetvalue` points to (libpq): the value and a NUL, or the one byte `null_field` for a NULL. -/
def cellMem : Option Bytes → Bytes
  | some b => b ++ [0]
  | none => [0]

/-- `PQgetlength` (libpq) -/
def cellLen : Option Bytes → Nat
  | some b => b.length
  | none => 0

/-- results.cpp 224-249, 326-352, 380-406: the words in front of the elements; the number of elements if the array is one
to read, `none` if the function returns without reading it. -/
def arrayHeader (mem : Bytes) (oid : UInt32) : Res (Option Int) := do
  let ndim ← getInt mem 0
  if ndim ≠ 1 then return none else
  let hasNull ← getInt mem 4
  if hasNull ≠ 0 then return none else
  let type ← read32 mem 8
  if type ≠ oid then return none else
  let size ← getInt mem 12
  return some size

/-- results.cpp 253-271: the loop, `k` elements left. -/
def readElems {α : Type} [SqlNum α] (mem : Bytes) : (k : Nat) → (i : Nat) → (acc : List α) → Res (List α)
  | 0, _, acc => .ok acc
  | k+1, i, acc => do
    let length ← getInt mem (20 + i * (4 + SqlNum.width α))
    if length ≠ SqlNum.width α then readElems mem k (i + 1) acc
    else do
      let x ← SqlNum.get mem (24 + i * (4 + SqlNum.width α))
      readElems mem k (i + 1) (acc ++ [x])

/-- results.cpp 211-272 `field(int, int, ARRAY<Numeric>&)`; `old` is what the vector holds before; `none` is a
`std::length_error`, thrown by `reserve`.  Memory is taken to
suffice for any size that is not negative. -/
def readNums {α : Type} [SqlNum α] (mem : Bytes) (old : List α) : Res (Option (List α)) := do
  match ← arrayHeader mem (SqlNum.oid α) with
  | none => return some old
  | some size =>
    if size < 0 then return none
    else do
      let xs ← readElems mem size.toNat 0 []
      return some xs

/-- results.cpp 357-366: the loop. -/
def readStrings (mem : Bytes) : (k : Nat) → (ptr : Nat) → (acc : List Bytes) → Res (Option (List Bytes))
  | 0, _, acc => .ok (some acc)
  | k+1, ptr, acc => do
    let length ← getInt mem ptr
    if length < 0 then return none
    else if ptr + 4 + length.toNat ≤ mem.length then
      readStrings mem k (ptr + 4 + length.toNat) (acc ++ [(mem.drop (ptr + 4)).take length.toNat])
    else .ub .oobRead

/-- results.cpp 315-367 `field<TEXT>(int, int, ARRAY<TEXT>&)` -/
def readTexts (mem : Bytes) (old : List Bytes) : Res (Option (List Bytes)) := do
  match ← arrayHeader mem 25 with
  | none => return some old
  | some size =>
    if size < 0 then return none
    else readStrings mem size.toNat 20 []

/-- results.cpp 415-432: the loop; the strings before the first that cannot be converted stay.  `from_bytes(ptr, ptr+length)`
with a negative length is a range that ends before it begins. -/
def readWStrings (cv : WConv) (mem : Bytes) : (k : Nat) → (ptr : Nat) → (acc : List (List UInt32)) → Res (List (List UInt32))
  | 0, _, acc => .ok acc
  | k+1, ptr, acc => do
    let length ← getInt mem ptr
    if length < 0 then .ub .badRange
    else if ptr + 4 + length.toNat ≤ mem.length then
      match cv.inn ((mem.drop (ptr + 4)).take length.toNat) with
      | none => return acc
      | some s => readWStrings cv mem k (ptr + 4 + length.toNat) (acc ++ [s])
    else .ub .oobRead

/-- results.cpp 369-433 `field<WTEXT>(int, int, ARRAY<WTEXT>&)` -/
def readWTexts (cv : WConv) (mem : Bytes) (old : List (List UInt32)) : Res (Option (List (List UInt32))) := do
  match ← arrayHeader mem 25 with
  | none => return some old
  | some size =>
    if size < 0 then return none
    else do
      let xs ← readWStrings cv mem size.toNat 20 []
      return some xs

/-- results.cpp 176-207 `field<INET>`: `switch` on the length. -/
def readInet (mem : Bytes) (len : Nat) (old : Bytes) : Res Bytes :=
  if len = 8 then
    if 8 ≤ mem.length then .ok (List.replicate 10 0 ++ [0xff, 0xff] ++ slice mem 4 8) else .ub .oobRead
  else if len = 20 then
    if 20 ≤ mem.length then .ok (slice mem 4 20) else .ub .oobRead
  else .ok old

/-- results.hpp 166-180, 225-234 `row()` for one column: a new (empty, zero) object is filled by `field`.  results.cpp 65-78
(numbers), 104-111 (`BOOL`), 113-121 (`TEXT`), 123-147 (`WTEXT`), 149-161 (`TIMESTAMPTZ`), 163-174 (`DATE`),
176-207 (`INET`), 300-313 (`BYTEA`); `none` is an exception. -/
def readCell (cv : WConv) (cell : Option Bytes) : SqlType → Res (Option SqlVal)
  | .bool => do let c ← rd (cellMem cell) 0; return some (.bool (c ≠ 0))
  | .smallint => do let x ← SqlNum.get (cellMem cell) 0; return some (.smallint x)
  | .integer => do let x ← SqlNum.get (cellMem cell) 0; return some (.integer x)
  | .bigint => do let x ← SqlNum.get (cellMem cell) 0; return some (.bigint x)
  | .real => do let x ← SqlNum.get (cellMem cell) 0; return some (.real x)
  | .double => do let x ← SqlNum.get (cellMem cell) 0; return some (.double x)
  | .text => .ok (some (.text ((cellMem cell).take (cellLen cell))))
  | .wtext => .ok (some (.wtext ((cv.inn ((cellMem cell).take (cellLen cell))).getD [])))
  | .bytea => .ok (some (.bytea ((cellMem cell).take (cellLen cell))))
  | .timestamptz => do
    let x : Int64 ← SqlNum.get (cellMem cell) 0
    let t ← int64 (epochUs + x.toInt)
    return some (.timestamptz t)
  | .date => do
    let x : Int32 ← SqlNum.get (cellMem cell) 0
    return some (.date (epochDays + x.toInt))
  | .inet => do let a ← readInet (cellMem cell) (cellLen cell) (List.replicate 16 0); return some (.inet a)
  | .smallints => do let xs ← readNums (cellMem cell) []; return xs.map .smallints
  | .integers => do let xs ← readNums (cellMem cell) []; return xs.map .integers
  | .bigints => do let xs ← readNums (cellMem cell) []; return xs.map .bigints
  | .reals => do let xs ← readNums (cellMem cell) []; return xs.map .reals
  | .doubles => do let xs ← readNums (cellMem cell) []; return xs.map .doubles
  | .texts => do let xs ← readTexts (cellMem cell) []; return xs.map .texts
  | .wtexts => do let xs ← readWTexts cv (cellMem cell) []; return xs.map .wtexts

/-- A column of a result: `PQftype` and `PQfsize`. -/
structure Column where
  ftype : UInt32
  fsize : Int
  deriving DecidableEq

/-- sqlTraits.hpp: `Traits<T>::verifyType` -/
def verifyType (t : SqlType) (c : Column) : Bool :=
  match t with
  | .bool => c.ftype == t.oid && c.fsize == 1
  | .smallint => c.ftype == t.oid && c.fsize == 2
  | .integer => c.ftype == t.oid && c.fsize == 4
  | .bigint => c.ftype == t.oid && c.fsize == 8
  | .real => c.ftype == t.oid && c.fsize == 4
  | .double => c.ftype == t.oid && c.fsize == 8
  | .timestamptz => c.ftype == t.oid && c.fsize == 8
  | .date => c.ftype == t.oid && c.fsize == 4
  | _ => c.ftype == t.oid

/-- results.hpp 144-164 `verify_impl` from column `i` on. -/
def verifyFrom : (i : Nat) → List SqlType → List Column → Nat
  | i, t :: ts, c :: cs => if verifyType t c then verifyFrom (i + 1) ts cs else i + 1
  | _, _, _ => 0

/-- results.hpp 204-211 `verify()` of a `Results<Types...>` with at least one type (240-250 is the other). -/
def verify (types : List SqlType) (columns : List Column) : Int :=
  if columns.length ≠ types.length then -1 else verifyFrom 0 types columns

end Fcgi.Model
