import Verif.Base
/-! # Model of include/fastcgi++/endian.hpp -/
namespace Fcgi.Model

/-- endian.hpp 44-51 `BigEndian_base::from(arr, uint16_t&)`.  The array is the list of its two
bytes; the C++ integer promotions cannot lose bits. -/
def from16 (a0 a1 : UInt8) : UInt16 :=
  (a0.toUInt16 <<< 8) ||| (a1.toUInt16 <<< 0)

/-- endian.hpp 52-61 `BigEndian_base::from(arr, uint32_t&)`. -/
def from32 (a0 a1 a2 a3 : UInt8) : UInt32 :=
  (a0.toUInt32 <<< 24) ||| (a1.toUInt32 <<< 16) ||| (a2.toUInt32 <<< 8) ||| (a3.toUInt32 <<< 0)

/-- endian.hpp 62-75 `BigEndian_base::from(arr, uint64_t&)`. -/
def from64 (a0 a1 a2 a3 a4 a5 a6 a7 : UInt8) : UInt64 :=
  (a0.toUInt64 <<< 56) ||| (a1.toUInt64 <<< 48) ||| (a2.toUInt64 <<< 40) ||| (a3.toUInt64 <<< 32)
  ||| (a4.toUInt64 <<< 24) ||| (a5.toUInt64 <<< 16) ||| (a6.toUInt64 <<< 8) ||| (a7.toUInt64 <<< 0)

/-- endian.hpp 77-81 `BigEndian_base::to(arr, uint16_t)`. -/
def to16 (v : UInt16) : List UInt8 :=
  [((v &&& 0xff00) >>> 8).toUInt8, ((v &&& 0x00ff) >>> 0).toUInt8]

/-- endian.hpp 82-88 `BigEndian_base::to(arr, uint32_t)`. -/
def to32 (v : UInt32) : List UInt8 :=
  [((v &&& 0xff000000) >>> 24).toUInt8, ((v &&& 0x00ff0000) >>> 16).toUInt8,
   ((v &&& 0x0000ff00) >>> 8).toUInt8, ((v &&& 0x000000ff) >>> 0).toUInt8]

/-- endian.hpp 89-99 `BigEndian_base::to(arr, uint64_t)`. -/
def to64 (v : UInt64) : List UInt8 :=
  [((v &&& 0xff00000000000000) >>> 56).toUInt8, ((v &&& 0x00ff000000000000) >>> 48).toUInt8,
   ((v &&& 0x0000ff0000000000) >>> 40).toUInt8, ((v &&& 0x000000ff00000000) >>> 32).toUInt8,
   ((v &&& 0x00000000ff000000) >>> 24).toUInt8, ((v &&& 0x0000000000ff0000) >>> 16).toUInt8,
   ((v &&& 0x000000000000ff00) >>> 8).toUInt8, ((v &&& 0x00000000000000ff) >>> 0).toUInt8]

/-- endian.hpp 167-180 `BigEndian<uint16_t>::read(source)`: reads two bytes through a pointer;
`buf`/`i` is the object the pointer points into and the offset. -/
def read16 (buf : List UInt8) (i : Nat) : Res UInt16 := do
  let a0 ← rd buf i
  let a1 ← rd buf (i+1)
  return from16 a0 a1

/-- endian.hpp 167-180 `BigEndian<uint32_t>::read(source)`. -/
def read32 (buf : List UInt8) (i : Nat) : Res UInt32 := do
  let a0 ← rd buf i
  let a1 ← rd buf (i+1)
  let a2 ← rd buf (i+2)
  let a3 ← rd buf (i+3)
  return from32 a0 a1 a2 a3

/-- endian.hpp 167-180 `BigEndian<uint64_t>::read(source)`. -/
def read64 (buf : List UInt8) (i : Nat) : Res UInt64 := do
  let a0 ← rd buf i
  let a1 ← rd buf (i+1)
  let a2 ← rd buf (i+2)
  let a3 ← rd buf (i+3)
  let a4 ← rd buf (i+4)
  let a5 ← rd buf (i+5)
  let a6 ← rd buf (i+6)
  let a7 ← rd buf (i+7)
  return from64 a0 a1 a2 a3 a4 a5 a6 a7

end Fcgi.Model
