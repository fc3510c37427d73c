import Verif.Model.HttpText
/-! # Model of addresses (src/address.cpp, include/fastcgi++/address.hpp)

An address is the list of the 16 bytes of `m_data`. -/
namespace Fcgi.Model

/-! ### Comparison and masking -/

/-- address.hpp 129-135 `operator==` -/
def addrEq (a b : Bytes) : Bool := a == b

/-- `std::memcmp(a, b, size)<0`: the first byte that differs decides. -/
def memLess : Bytes → Bytes → Bool
  | x :: a, y :: b => if x = y then memLess a b else decide (x < y)
  | _, _ => false

/-- address.hpp 137-140 `operator<` -/
def addrLess (a b : Bytes) : Bool := memLess a b

/-- A 64 bit word in memory at the start of `b` (little endian). -/
def word64 (b : Bytes) : Nat := (b.take 8).foldr (fun x n => x.toNat + 256 * n) 0

/-- The bytes of a 64 bit word. -/
def unword64 : (k : Nat) → (n : Nat) → Bytes
  | 0, _ => []
  | k+1, n => UInt8.ofNat n :: unword64 k (n / 256)

/-- address.cpp 36-45 `operator&=`: the two words. -/
def addrMask (a b : Bytes) : Bytes :=
  unword64 8 (word64 a &&& word64 b) ++ unword64 8 (word64 (a.drop 8) &&& word64 (b.drop 8))

/-- address.cpp 515-522 `operator bool` -/
def addrBool (a : Bytes) : Bool := !(a == List.replicate 16 0)

/-! ### Parsing text -/

/-- address.cpp 94-99, 148, 390-395, 471: `*read - offset`. -/
def addrDigit (c : Byte) : Option Nat :=
  if 48 ≤ c ∧ c ≤ 57 then some (c.toNat - 48)
  else if 65 ≤ c ∧ c ≤ 70 then some (c.toNat - 55)
  else if 97 ≤ c ∧ c ≤ 102 then some (c.toNat - 87)
  else none

/-- The variables of the parsers: the 16 bytes, `write` and `pad` (as offsets; `none` for `m_data.end()`, or for the
null pointer in `operator>>`), `chunk`. -/
structure AddrSt where
  data : Bytes
  write : Nat
  pad : Option Nat
  chunk : UInt16
  deriving DecidableEq

/-- address.cpp 147-148, 470-471 -/
def AddrSt.digit (s : AddrSt) (v : Nat) : AddrSt := { s with chunk := (s.chunk <<< 4) ||| UInt16.ofNat v }

/-- `*write = v` for an offset `i`. -/
def storeByte (data : Bytes) (i : Nat) (v : Byte) : Res Bytes :=
  if i < data.length then .ok (data.set i v) else .ub .oobWrite

/-- address.cpp 81-84, 454-457: the value of a group is stored. -/
def AddrSt.group (s : AddrSt) : Res AddrSt := do
  let d ← storeByte s.data s.write (UInt8.ofNat ((s.chunk &&& 0xff00) >>> 8).toNat)
  let d ← storeByte d (s.write + 1) (UInt8.ofNat (s.chunk &&& 0x00ff).toNat)
  return { s with data := d, chunk := 0, write := s.write + 2 }

/-- address.cpp 119-124, 413-418: `chunk`, which has been read as hexadecimal, is taken for decimal. -/
def decimalOctet (chunk : UInt16) : Byte :=
  let nibble (c : UInt16) : Byte := UInt8.ofNat ((c &&& 0x0f00) >>> 8).toNat
  let o : UInt8 := nibble chunk
  let o : UInt8 := o * (10 : UInt8) + nibble (chunk <<< 4)
  o * (10 : UInt8) + nibble (chunk <<< 8)

/-- address.cpp 102-125, 398-419: the first part of a dotted address; `none` if there is no room. -/
def AddrSt.firstOctet (s : AddrSt) : Res (Option AddrSt) :=
  if s.write = 0 then do
    let d ← storeByte s.data 0 0xff
    let d ← storeByte d 1 0xff
    let d ← storeByte d 2 (decimalOctet s.chunk)
    return some { data := d, write := 3, pad := some 0, chunk := s.chunk <<< 12 }
  else if s.write > 12 then .ok none
  else do
    let d ← storeByte s.data s.write (decimalOctet s.chunk)
    return some { s with data := d, write := s.write + 1, chunk := s.chunk <<< 12 }

/-- `std::find(read, end, '.')` -/
def findDot (mem : Bytes) (read len : Nat) : Nat := read + (slice mem read len).findIdx (· = 46)

/-- address.cpp 128-139: the other parts, `k` of them left. -/
def octets (mem : Bytes) (len : Nat) : (k : Nat) → (read : Nat) → AddrSt → Res (Option AddrSt)
  | 0, _, s => .ok (some s)
  | k+1, read, s =>
    if read < len then
      let point := findDot mem read len
      if point + 1 < len then do
        let v ← atoi (slice mem (point + 1) len) (mem.drop len)
        let d ← storeByte s.data s.write (UInt8.ofInt v)
        octets mem len k (point + 1) { s with data := d, write := s.write + 1 }
      else .ok none
    else .ok (some s)

/-- address.cpp 64-149, the loop.  `mem` is the memory from `start` on, `len` the length of the text; `none` is `error`. -/
def assignLoop (mem : Bytes) (len : Nat) : (fuel : Nat) → (read : Nat) → AddrSt → Res (Option AddrSt)
  | 0, _, _ => .stuck
  | fuel+1, read, s => do
    let stop ← (if read ≥ len then .ok true else do let c ← rd mem read; return c = 58)
    if stop then
      let empty ← (if read = 0 then .ok true else do let c ← rd mem (read - 1); return c = 58)
      if empty then
        if s.pad ≠ none ∧ s.pad ≠ some s.write then .ok none
        else assignLoop mem len fuel (read + 1) { s with pad := some s.write }
      else do
        let s ← s.group
        if s.write ≥ 16 ∨ read ≥ len then
          if read ≥ len ∧ s.write < 16 ∧ s.pad = none then .ok none else .ok (some s)
        else assignLoop mem len fuel (read + 1) s
    else
      let c ← rd mem read
      match addrDigit c with
      | some v => assignLoop mem len fuel (read + 1) (s.digit v)
      | none =>
        if c = 46 then
          match ← s.firstOctet with
          | none => .ok none
          | some s => octets mem len 3 read s
        else .ok none

/-- address.cpp 157-167, 478-488: the zeroes are put in.  (`std::copy` to a range overlapping the source on the
left is undefined by the standard and a `memmove` in libstdc++; `operator>>` has `memmove`.) -/
def AddrSt.padded (s : AddrSt) : Bytes :=
  match s.pad with
  | none => s.data
  | some p =>
    if p = s.write then s.data.take s.write ++ List.replicate (16 - s.write) 0
    else s.data.take p ++ List.replicate (16 - s.write) 0 ++ slice s.data p s.write

/-- address.cpp 53-168 `Address::assign<char>` for a text that `after` follows in memory, on an object whose bytes are
`old`.  The computation of `start-1` is left out, the log entry too. -/
def assign (text after old : Bytes) : Res Bytes := do
  match ← assignLoop (text ++ after) text.length ((text ++ after).length + 2) 0 ⟨old, 0, none, 0⟩ with
  | none => return List.replicate 16 0
  | some s => return s.padded

/-- address.hpp 124-127 `Address(const char*)`: the text ends at the first NUL. -/
def addressOf (text old : Bytes) : Res Bytes := assign text [0] old

/-! ### Printing -/

/-- The settings of the stream that `num_put` obeys (besides the base, which is set by the inserter):
`sep` is the thousands separator of the locale if it groups by three. -/
structure NumFmt where
  showbase : Bool := false
  uppercase : Bool := false
  sep : Option Byte := none
  deriving DecidableEq

def digitChar (upper : Bool) (d : Nat) : Byte := UInt8.ofNat (if d < 10 then 48 + d else if upper then 55 + d else 87 + d)

/-- The digits of a number. -/
def numDigits (base : Nat) (upper : Bool) : (fuel : Nat) → Nat → Bytes
  | 0, _ => []
  | fuel+1, n => (if n < base then [] else numDigits base upper fuel (n / base)) ++ [digitChar upper (n % base)]

/-- `num_put::put` (library) for the numbers that occur, which have at most five digits.  `%lx`, `%#lx`, `%lX` or `%lu`. -/
def numText (f : NumFmt) (hex : Bool) (n : Nat) : Bytes :=
  let ds := numDigits (if hex then 16 else 10) f.uppercase 5 n
  let ds := match f.sep with
    | some c => if 3 < ds.length then ds.take (ds.length - 3) ++ [c] ++ ds.drop (ds.length - 3) else ds
    | none => ds
  if f.showbase ∧ hex ∧ n ≠ 0 then [48, if f.uppercase then 88 else 120] ++ ds else ds

/-- The value of the `i`th group (`BigEndian<uint16_t>`). -/
def groupAt (a : Bytes) (i : Nat) : Nat := (a.getD (2 * i) 0).toNat * 256 + (a.getD (2 * i + 1) 0).toNat

/-- `subEnd-subStart`, with both null pointers at first. -/
def subLength : Option (Nat × Nat) → Nat
  | none => 0
  | some (b, e) => e - b

/-- address.cpp 222-226, 232-236 -/
def zeroRunEnd (sub : Option (Nat × Nat)) : Option (Nat × Nat) → Option (Nat × Nat)
  | some (b, e) => if e - b > subLength sub then some (b, e - 1) else sub
  | none => sub

/-- address.cpp 196-239: the range replaced by `::`.  `cand` is the candidate while `inZero`. -/
def zeroRun (a : Bytes) : (k : Nat) → (sub cand : Option (Nat × Nat)) → Option (Nat × Nat)
  | 0, sub, cand => zeroRunEnd sub cand
  | k+1, sub, cand =>
    let i := 8 - (k + 1)
    if groupAt a i = 0 then
      match cand with
      | none => zeroRun a k sub (some (i, i + 1))
      | some (b, e) => zeroRun a k sub (some (b, e + 1))
    else zeroRun a k (zeroRunEnd sub cand) none

/-- Writing to `buffer[40]`. -/
def putBuf (out s : Bytes) : Res Bytes := if out.length + s.length ≤ 40 then .ok (out ++ s) else .ub .oobWrite

/-- address.cpp 263-274: the four numbers with a dot after each. -/
def printOctets (f : NumFmt) : (out : Bytes) → Bytes → Res Bytes
  | out, [] => .ok out
  | out, b :: bs => do
    let out ← putBuf out (numText f false b.toNat)
    let out ← putBuf out [46]
    printOctets f out bs

/-- address.cpp 287 `subStart <= it && it <= subEnd` -/
def inRun (sub : Option (Nat × Nat)) (i : Nat) : Bool :=
  match sub with
  | some (b, e) => decide (b ≤ i ∧ i ≤ e)
  | none => false

/-- address.cpp 280-310: the groups, `k` left. -/
def printGroups (f : NumFmt) (a : Bytes) (sub : Option (Nat × Nat)) : (k : Nat) → (out : Bytes) → Res Bytes
  | 0, out => .ok out
  | k+1, out => do
    let i := 8 - (k + 1)
    if inRun sub i then
      let out ← (if sub.any (fun x => i = x.1) ∧ i = 0 then putBuf out [58] else .ok out)
      let out ← (if sub.any (fun x => i = x.2) then putBuf out [58] else .ok out)
      printGroups f a sub k out
    else
      let out ← putBuf out (numText f true (groupAt a i))
      let out ← (if i < 7 then putBuf out [58] else .ok out)
      printGroups f a sub k out

/-- address.cpp 192-311: what is put in the buffer. -/
def printBuffer (f : NumFmt) (a : Bytes) : Res Bytes :=
  let sub := zeroRun a 8 none none
  if sub = some (0, 4) ∧ groupAt a 5 = 0xffff then do
    let out ← putBuf [] [58]
    let out ← putBuf out [58]
    let out ← putBuf out (numText f true 0xffff)
    let out ← putBuf out [58]
    let out ← printOctets f out (a.drop 12)
    return out.dropLast
  else printGroups f a sub 8 []

/-- address.cpp 317-322: the loop with `i` characters to go, for left alignment. -/
def emitLeft (fill : Byte) : (i : Nat) → (text : Bytes) → Bytes
  | 0, _ => []
  | i+1, c :: text => c :: emitLeft fill i text
  | i+1, [] => fill :: emitLeft fill i []

/-- address.cpp 323-328: the loop for other alignments; `i` is the room left (the characters are copied once it is 0). -/
def emitRight (fill : Byte) : (i : Nat) → (text : Bytes) → Bytes
  | 0, text => text
  | i+1, text => if text = [] then [] else fill :: emitRight fill i text

/-- address.cpp 178-349 `operator<<`: the characters sent to a stream that takes all of them.  `width`, `fill` and
`left` are the stream's settings. -/
def printAddr (f : NumFmt) (left : Bool) (fill : Byte) (width : Nat) (a : Bytes) : Res Bytes := do
  let t ← printBuffer f a
  return if left then emitLeft fill (max width t.length) t else emitRight fill (width - t.length) t

/-! ### Extraction -/

/-- `num_get::get` (library) for `unsigned int`, decimal, a locale without grouping: the number, failure, what is left. -/
def getUnsigned (s : Bytes) : Nat × Bool × Bytes :=
  let neg := s.head? = some 45
  let body := if s.head? = some 45 ∨ s.head? = some 43 then s.drop 1 else s
  let ds := body.takeWhile (fun c => 48 ≤ c && c ≤ 57)
  let rest := body.dropWhile (fun c => 48 ≤ c && c ≤ 57)
  let n := ds.foldl (fun n c => 10 * n + (c.toNat - 48)) 0
  if ds = [] then (0, true, rest)
  else if n > 4294967295 then (4294967295, true, rest)
  else (if neg then (4294967296 - n) % 4294967296 else n, false, rest)

/-- address.cpp 422-437: the other parts of a dotted address; `s` begins with `*read`. -/
def getOctets : (k : Nat) → (s : Bytes) → AddrSt → (fail : Bool) → Res (AddrSt × Bool × Bytes)
  | 0, s, st, fail => .ok (st, fail, s)
  | k+1, s, st, fail =>
    match s with
    | 46 :: s =>
      let g := getUnsigned s
      do
        let d ← storeByte st.data st.write (UInt8.ofNat g.1)
        getOctets k g.2.2 { st with data := d, write := st.write + 1 } (fail || g.2.1)
    | _ => .ok (st, true, s)

/-- address.cpp 383-474, the loop; `left` is `40-count`.  At the end of the stream `*read` is the character made of
`eof()`, -1 (libstdc++).  The result: the variables, whether `err` is `failbit`, what is left in the stream. -/
def getLoop : (left : Nat) → (s : Bytes) → (last : Byte) → AddrSt → Res (AddrSt × Bool × Bytes)
  | 0, s, _, st => .ok (st, true, s)
  | left+1, s, last, st =>
    let c := s.headD 0xff
    match addrDigit c with
    | some v => getLoop left (s.drop 1) c (st.digit v)
    | none =>
      if c = 46 then do
        match ← st.firstOctet with
        | none => return (st, true, s)
        | some st => getOctets 3 s st false
      else if c = 58 ∧ (last = 0 ∨ last = 58) then
        if st.pad ≠ none ∧ st.pad ≠ some st.write then .ok (st, true, s)
        else getLoop left (s.drop 1) 58 { st with pad := some st.write }
      else do
        let st ← st.group
        if st.write ≥ 16 then return (st, false, s)
        else if c ≠ 58 then return (st, st.pad.isNone, s)
        else getLoop left (s.drop 1) 58 st

/-- address.cpp 360-513 `operator>>` from a stream in a good state holding `s` (after white space), into an address
`old`; `junk` is what `buffer` holds before.  The result: the address, failure, what is left in the stream. -/
def getAddr (s junk old : Bytes) : Res (Bytes × Bool × Bytes) := do
  let (st, fail, s) ← getLoop 40 s 0 ⟨junk, 0, none, 0⟩
  return (if fail then old else st.padded, fail, s)

end Fcgi.Model
