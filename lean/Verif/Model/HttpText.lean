import Verif.Base
/-! # Model of the text decoding helpers of src/http.cpp -/
namespace Fcgi.Model

/-- http.cpp 124-129: the state of the percent decoder; the byte under construction is in memory at
`*destination`. -/
inductive PctState where
  | normal
  | first (dest : UInt8)
  | second (dest : UInt8)
  deriving DecidableEq, Repr

/-- http.cpp 147-150 and 156-159: the value contributed by a character (none: `*destination` is left
as it is).  `char` may be signed, but bytes ≥ 128 fail both range tests either way. -/
def pctDigit (c : UInt8) : Option UInt8 :=
  if (c ||| 0x20) ≥ 97 ∧ (c ||| 0x20) ≤ 102 then some ((c ||| 0x20) - 0x57)
  else if c ≥ 48 ∧ c ≤ 57 then some (c &&& 0x0f)
  else none

/-- http.cpp 119-167 `percentEscapedToRealBytes`: the bytes between the original and the returned
`destination`.  An incomplete escape at the end writes `*destination` but does not advance it; every
write is at an offset not beyond the number of bytes consumed, so a destination as long as the input
suffices (all callers provide that). -/
def pctDecode : PctState → Bytes → Bytes
  | _, [] => []
  | .normal, c :: s =>
    if c = 37 then pctDecode (.first 0) s
    else if c = 43 then 32 :: pctDecode .normal s
    else c :: pctDecode .normal s
  | .first d, c :: s =>
    pctDecode (.second (match pctDigit c with
      | some v => v <<< 4
      | none => d)) s
  | .second d, c :: s =>
    (match pctDigit c with
      | some v => d ||| v
      | none => d) :: pctDecode .normal s

def percentEscapedToRealBytes (s : Bytes) : Bytes := pctDecode .normal s

/-- Value range of `int`. -/
def intMax : Int := 2147483647

/-- http.cpp 72-74: the digit loop of `atoi`.  `l` is the object from `start` on, `left` is
`end-start`.  The character is read before the range check.  `none` signals nothing: overflow of the
signed accumulator is undefined. -/
def atoiDigits : (l : Bytes) → (left : Nat) → (result : Int) → Res Int
  | [], _, _ => .ub .oobRead
  | c :: l, left, result =>
    if 0x30 ≤ c ∧ c ≤ 0x39 ∧ 0 < left then
      let result := result * 10 + ((c &&& 0x0f).toNat : Int)
      if result > intMax then .ub .signedOverflow
      else atoiDigits l (left - 1) result
    else .ok result

/-- http.cpp 63-77 `atoi<char,int>` on the range holding `value`, which the bytes `after` follow in
memory (the rest of the object). -/
def atoi (value after : Bytes) : Res Int := do
  let obj := value ++ after
  let c ← rd obj 0
  if c = 45 then
    let r ← atoiDigits (obj.drop 1) (value.length - 1) 0
    return -r
  else atoiDigits obj value.length 0

end Fcgi.Model
