import Verif.Model.Streams
/-! # Specification vocabulary for the encoding manipulators on arbitrary streams -/
namespace Fcgi.Spec
open Fcgi.Model

/-- What a program does with its streams and stream buffers, which have numbers: `os.rdbuf(&buffer)` or `os.rdbuf(nullptr)`, and
`os << encoding`. -/
inductive EncOp where
  | attach (stream : Nat) (buffer : Option Nat)
  | manip (stream : Nat) (e : Enc)
  deriving DecidableEq

/-- The buffer a stream has after a history, newest operation first; `first` is the buffer it was made with. -/
def attachedTo (first : Nat → Option Nat) (stream : Nat) : List EncOp → Option Nat
  | [] => first stream
  | .attach s b :: h => if s = stream then b else attachedTo first stream h
  | .manip _ _ :: h => attachedTo first stream h

/-- The last encoding asked for through a stream that had the buffer at that time; none if none was. -/
def lastAsked (first : Nat → Option Nat) (buffer : Nat) : List EncOp → Enc
  | [] => .none
  | .attach _ _ :: h => lastAsked first buffer h
  | .manip s e :: h => if attachedTo first s h = some buffer then e else lastAsked first buffer h

/-- Encodings were only asked for where there is a web stream buffer. -/
def onlyWeb (web : Nat → Bool) (first : Nat → Option Nat) : List EncOp → Prop
  | [] => True
  | .attach _ _ :: h => onlyWeb web first h
  | .manip s _ :: h => onlyWeb web first h ∧ ∃ b, attachedTo first s h = some b ∧ web b = true

end Fcgi.Spec
