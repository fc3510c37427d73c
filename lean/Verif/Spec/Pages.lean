import Verif.Spec.Ostream
/-! # Specification: pages made of fixed text and of data -/
namespace Fcgi.Spec

/-- The characters that begin or end a tag or a quoted attribute value. -/
def isMarkup (b : UInt8) : Bool := b = 60 || b = 62 || b = 34 || b = 39

/-- The markup of some output, in order. -/
def markup (out : Bytes) : Bytes := out.filter isMarkup

/-- The characters of some output that are reserved in URLs, in order. -/
def reservedPart (out : Bytes) : Bytes := out.filter fun b => decide (b ∈ urlReserved)

/-- `SamePage C f ops ops'`: on a stream in the state `f` the two sequences of operations differ only in the data: strings inserted while an
encoding of `C` is set (and no field width). -/
inductive SamePage {α} (C : Coding → Prop) : OFmt α → List (OOp α) → List (OOp α) → Prop
  | nil {f} : SamePage C f [] []
  | fixed {f op ops ops'} : SamePage C (f.next op) ops ops' → SamePage C f (op :: ops) (op :: ops')
  | data {f s s' ops ops'} : C f.coding → f.width ≤ 0 → SamePage C (f.next (.insert s)) ops ops' → SamePage C f (.insert s :: ops) (.insert s' :: ops')

/-- The header part of a response: everything before the first empty line (`\n\n`), as web servers read it. -/
def headPart : Bytes → Bytes
  | [] => []
  | 10 :: 10 :: _ => []
  | b :: rest => b :: headPart rest

end Fcgi.Spec
