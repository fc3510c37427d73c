import Verif.Base
/-! # Model of base64 (include/fastcgi++/http.hpp 605-682, src/http.cpp 769-776) -/
namespace Fcgi.Model

/-- http.cpp 769-776 `base64Characters`. -/
def base64Characters : Bytes := b!"ABCDEFGHIJKLMNOPQRSTUVWXYZabcdefghijklmnopqrstuvwxyz0123456789+/"

/-- What http.hpp 622-629 make of a character. -/
inductive B64Digit where
  | value (v : Nat)
  | pad
  | foreign
  deriving DecidableEq, Repr

/-- http.hpp 623-629.  The character has been converted to `int` (line 622): it may be negative for a
`char`, or large for a `wchar_t`. -/
def b64Digit (value : Int) : B64Digit :=
  if value ≥ 65 ∧ 90 ≥ value then .value (value - 65).toNat
  else if value ≥ 97 ∧ 122 ≥ value then .value (value - (97 - 26)).toNat
  else if value ≥ 48 ∧ 57 ≥ value then .value (value - (48 - 52)).toNat
  else if value = 43 then .value 62
  else if value = 47 then .value 63
  else if value = 61 then .pad
  else .foreign

/-- http.hpp 619-633: the inner loop reading up to four characters; `none` is `return destination`
(621, 629).  Otherwise the text left, `buffer` and `padStart`. -/
def decQuantum (text : List Int) (buffer : Nat) (bitPos : Int) : Option (List Int × Nat × Int) :=
  if bitPos = -6 then some (text, buffer, -9)
  else match text with
  | [] => none
  | value :: text =>
    match b64Digit value with
    | .value v => decQuantum text (buffer ||| v <<< bitPos.toNat) (bitPos - 6)
    | .pad => some (text, buffer, bitPos)
    | .foreign => none

/-- http.hpp 612-648, the loop.  `mem` is what has been written to the destination so far (so `dest` is
at offset `mem.length`), `cap` the room there.  The result is the offset of the returned iterator and
what was written. -/
def decLoop (cap : Nat) : (fuel : Nat) → (text : List Int) → (buffer : Nat) → (bitPos padStart : Int) → (mem : Bytes) → Res (Nat × Bytes)
  | 0, _, _, _, _, _ => .stuck
  | fuel+1, text, buffer, bitPos, padStart, mem =>
    if ¬ (text ≠ [] ∨ bitPos > -6) then .ok (mem.length, mem)
    else
      match (if bitPos = -8 then (decQuantum text 0 18).map fun q => (q.1, q.2.1, (16 : Int), q.2.2)
             else some (text, buffer, bitPos, padStart)) with
      | none => .ok (0, mem)
      | some (text, buffer, bitPos, padStart) =>
        if cap ≤ mem.length then .ub .oobWrite
        else
          let mem' := mem ++ [UInt8.ofNat ((buffer >>> bitPos.toNat) &&& 0xff)]
          let bitPos := bitPos - 8
          if padStart ≥ bitPos then
            if (padStart - bitPos) / 6 ≠ 0 then .ok (mem.length, mem') else .ok (mem.length + 1, mem')
          else decLoop cap fuel text buffer bitPos padStart mem'

/-- http.hpp 607-648 `base64Decode`.  (The fuel is enough for every text.) -/
def base64Decode (cap : Nat) (text : List Int) : Res (Nat × Bytes) :=
  decLoop cap (3 * text.length + 3) text 0 (-8) 0 []

/-- http.hpp 658-668: the inner loop reading up to three bytes, with `k` rounds left (`bitPos` is
`8 * k - 8`).  Returns the data left, `buffer` and `padded`. -/
def encFill : (k : Nat) → (data : Bytes) → (buffer : Nat) → (padded : Int) → Bytes × Nat × Int
  | 0, data, buffer, padded => (data, buffer, padded)
  | k+1, [], buffer, padded => encFill k [] buffer (padded + 6)
  | k+1, c :: data, buffer, padded => encFill k data (buffer ||| c.toNat <<< (8 * k)) padded

/-- http.hpp 654-682, the loop; the output is any output iterator. -/
def encLoop : (fuel : Nat) → (data : Bytes) → (buffer : Nat) → (bitPos padded : Int) → (out : Bytes) → Res Bytes
  | 0, _, _, _, _, _ => .stuck
  | fuel+1, data, buffer, bitPos, padded, out =>
    if ¬ (data ≠ [] ∨ bitPos > -6) then .ok out
    else
      let q := if bitPos = -6 then
          let f := encFill 3 data 0 (-6)
          (f.1, f.2.1, (18 : Int), f.2.2)
        else (data, buffer, bitPos, padded)
      if q.2.2.2 = q.2.2.1 then encLoop fuel q.1 q.2.1 (q.2.2.1 - 6) (q.2.2.2 - 6) (out ++ [61])
      else do
        let c ← rd base64Characters ((q.2.1 >>> q.2.2.1.toNat) &&& 0x3f)
        encLoop fuel q.1 q.2.1 (q.2.2.1 - 6) q.2.2.2 (out ++ [c])

/-- http.hpp 650-682 `base64Encode`. -/
def base64Encode (data : Bytes) : Res Bytes := encLoop (4 * data.length + 4) data 0 (-6) 0 []

end Fcgi.Model
