import Verif.Spec.Text
/-! # Specification vocabulary for the HTTP client -/
namespace Fcgi.Spec

/-- What the transfer library gives to the object during a transfer: a header line or a piece of the body. -/
inductive Received where
  | header (line : Bytes)
  | body (data : Bytes)
  deriving DecidableEq

/-- The body: all its pieces. -/
def bodyOf (l : List Received) : Bytes := l.flatMap fun r => match r with | .body d => d | .header _ => []

/-- How many bytes a callback has been given. -/
def Received.size : Received → Nat
  | .header l => l.length
  | .body d => d.length

def isBlank (b : Byte) : Prop := b = 32 ∨ b = 9 ∨ b = 13 ∨ b = 10
instance (b : Byte) : Decidable (isBlank b) := by unfold isBlank; infer_instance

/-- A header line (RFC 9112, 5): name, colon, blanks, value, blanks and line end. -/
def HeaderLine (line name value : Bytes) : Prop := ∃ w1 w2, line = name ++ b!":" ++ w1 ++ value ++ w2 ∧ c!":" ∉ name ∧ (∀ b ∈ w1, isBlank b) ∧ (∀ b ∈ w2, isBlank b) ∧
  (∀ b, value.head? = some b → ¬ isBlank b) ∧ (∀ b, value.getLast? = some b → ¬ isBlank b)

/-- Does the line give the length of the body? (Spelled in one of two ways.) -/
def isLength (line : Bytes) : Prop := b!"Content-Length:" <+: line ∨ b!"content-length:" <+: line
instance (l : Bytes) : Decidable (isLength l) := by unfold isLength; infer_instance

def isDigit (b : Byte) : Prop := 48 ≤ b ∧ b ≤ 57
instance (b : Byte) : Decidable (isDigit b) := by unfold isDigit; infer_instance

/-- The number the digits stand for. -/
def decimal (digits : Bytes) : Nat := digits.foldl (fun n b => 10 * n + (b.toNat - 48)) 0

/-- `text` begins with the number `n`: white space, a sign, digits; what follows the digits does not matter. -/
def Number (text : Bytes) (n : Int) : Prop :=
  ∃ space sign digits rest, text = space ++ sign ++ digits ++ rest ∧ (∀ b ∈ space, b ∈ b!" \t\n\r" ∨ b = 11 ∨ b = 12) ∧
    digits ≠ [] ∧ (∀ b ∈ digits, isDigit b) ∧ (∀ b ∈ rest.head?, ¬ isDigit b) ∧
    (sign = b!"-" ∧ n = - (decimal digits : Int) ∨ (sign = [] ∨ sign = b!"+") ∧ n = decimal digits)

/-- The line gives a length, a number below 2^31. -/
def goodLength (line : Bytes) : Prop := ∃ name value, HeaderLine line name value ∧ value ≠ [] ∧ (∀ b ∈ value, isDigit b) ∧ decimal value < 2 ^ 31

/-- Unicode scalar values. -/
def isScalar (c : UInt32) : Prop := c < 0xd800 ∨ 0xe000 ≤ c ∧ c < 0x110000

/-- UTF-8 of a text. -/
def utf8Text (t : List UInt32) : Bytes := t.flatMap fun c => utf8Encode c.toNat

end Fcgi.Spec
