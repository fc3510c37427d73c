import Verif.Spec.Text
/-! # Specification: what an application says to an output stream

The operations of `std::basic_ostream` (C++17 [ostream.formatted], [ostream.unformatted]) and of the library's manipulator, and what the
peer should get for them: no buffers, no records. -/
namespace Fcgi.Spec

/-- The manipulator `Encoding`. -/
inductive Coding where
  | plain | html | url
  deriving DecidableEq, Repr

/-- What an application does with an output stream. -/
inductive OOp (α : Type) where
  /-- `os << string` -/
  | insert (s : List α)
  /-- `os << character` -/
  | char (c : α)
  /-- `os << number`: the text of the number, already padded -/
  | number (text : List α)
  | put (c : α)
  | write (s : List α)
  /-- `os << streambuf`: the pieces in which the source hands out its contents -/
  | copy (pieces : List (List α))
  /-- `os << nullptr string` -/
  | null
  /-- `setstate(failbit)`: also what an inserter of the application's own does when it fails -/
  | fail
  | clear
  | width (w : Int)
  | fillWith (c : α)
  | left (b : Bool)
  /-- `std::unitbuf`, `std::nounitbuf` -/
  | unit (b : Bool)
  | coding (e : Coding)
  | flush
  | dump (data : Bytes)
  | dumpStream (data : Bytes)
  deriving Repr

/-- The formatting state of a stream. -/
structure OFmt (α : Type) where
  good : Bool
  width : Int
  fill : α
  left : Bool
  coding : Coding
  deriving DecidableEq, Repr

/-- A piece of output: text under an encoding, or raw bytes. -/
inductive Item (α : Type) where
  | text (e : Coding) (s : List α)
  | raw (d : Bytes)
  deriving DecidableEq, Repr

/-- A string padded to the field width; padding is not encoded. -/
def OFmt.padded {α} (f : OFmt α) (s : List α) : List (Item α) :=
  let pad := List.replicate (f.width - s.length).toNat f.fill
  if f.left then [.text f.coding s, .text .plain pad] else [.text .plain pad, .text f.coding s]

/-- What one operation adds to the output.  A stream that has failed ignores everything but raw data.  Characters written one at a time
are not encoded (C59). -/
def OFmt.says {α} (f : OFmt α) : OOp α → List (Item α)
  | .insert s => if f.good then f.padded s else []
  | .char c => if f.good then (if f.width = 0 then [.text .plain [c]] else f.padded [c]) else []
  | .number t => if f.good then [.text f.coding t] else []
  | .put c => if f.good then [.text .plain [c]] else []
  | .write s => if f.good then [.text f.coding s] else []
  | .copy ps => if f.good then ps.map fun p => if p.length = 1 then .text .plain p else .text f.coding p else []
  | .dump d => [.raw d]
  | .dumpStream d => [.raw d]
  | _ => []

/-- What one operation does to the state. -/
def OFmt.next {α} (f : OFmt α) : OOp α → OFmt α
  | .insert _ | .char _ | .number _ => if f.good then { f with width := 0 } else f
  | .copy ps => if ps.all (·.isEmpty) then { f with good := false } else f
  | .null | .fail => { f with good := false }
  | .clear => { f with good := true }
  | .width w => { f with width := w }
  | .fillWith c => { f with fill := c }
  | .left b => { f with left := b }
  | .coding e => { f with coding := e }
  | _ => f

/-- The state after some operations. -/
def OFmt.after {α} (f : OFmt α) (ops : List (OOp α)) : OFmt α := ops.foldl OFmt.next f

/-- What a sequence of operations says. -/
def OFmt.said {α} : OFmt α → List (OOp α) → List (Item α)
  | _, [] => []
  | f, op :: ops => f.says op ++ said (f.next op) ops

/-- A new stream. -/
def OFmt.fresh {α} (space : α) : OFmt α := ⟨true, 0, space, false, .plain⟩

/-- Is `std::unitbuf` set after an operation? -/
def unitNext {α} (unit : Bool) : OOp α → Bool
  | .unit b => b
  | _ => unit

/-- Is it set after some operations on a new stream? -/
def unitAfter {α} (ops : List (OOp α)) : Bool := ops.foldl unitNext false

/-- The operations after which nothing may be held back: `flush()` (of a stream that has not failed, if the library looks at that), raw data,
and all output while `std::unitbuf` is set. -/
def Prompt {α} (sentry good unit : Bool) : OOp α → Prop
  | .flush => sentry = false ∨ good = true
  | .dump _ | .dumpStream _ => True
  | .insert _ | .char _ | .number _ | .put _ | .write _ | .copy _ => unit = true
  | _ => False

/-- Output in such portions that the buffer, where at most `n` characters wait, never has to be sent in the middle of a string: characters one at a time, strings
that fit, flushing; no encoding, no field width, no raw data. -/
def Portioned {α} : (n : Nat) → List (OOp α) → Prop
  | _, [] => True
  | n, .put _ :: ops | n, .char _ :: ops => Portioned (min (n + 1) 8192) ops
  | n, .insert s :: ops | n, .write s :: ops | n, .number s :: ops => n + s.length ≤ 8192 ∧ Portioned (n + s.length) ops
  | _, .flush :: ops => Portioned 0 ops
  | n, .unit _ :: ops => Portioned n ops
  | _, _ :: _ => False

/-- The characters written by an operation. -/
def OOp.chars {α} : OOp α → List α
  | .put c | .char c => [c]
  | .insert s | .write s | .number s => s
  | _ => []

/-- `Renders toBytes item out`: `out` is a correct rendering of the item for the peer. -/
def Renders {α} (toBytes : List α → Bytes) : Item α → Bytes → Prop
  | .text .plain s, out => out = toBytes s
  | .text .html s, out => HtmlText out (toBytes s)
  | .text .url s, out => UrlText out (toBytes s)
  | .raw d, out => out = d

/-- The pieces of `out` render the items, in order. -/
def RendersAll {α} (toBytes : List α → Bytes) : List (Item α) → Bytes → Prop
  | [], out => out = []
  | i :: is, out => ∃ a b, out = a ++ b ∧ Renders toBytes i a ∧ RendersAll toBytes is b

end Fcgi.Spec
