import Verif.Spec.EncManip
/-! # Model of the encoding manipulators (src/webstreambuf.cpp 41-60) on arbitrary streams -/
namespace Fcgi.Model
open Fcgi.Spec

/-- Streams and their buffers; `enc b` is `m_encoding` (webstreambuf.hpp 221) of the buffer `b`, if it is a `WebStreambuf`; `logged` the number of
messages logged by the manipulator. -/
structure EncWorld where
  rdbuf : Nat → Option Nat
  enc : Nat → Enc
  logged : Nat

/-- webstreambuf.hpp 238-241: the buffers begin with `Encoding::NONE`. -/
def encInit (first : Nat → Option Nat) : EncWorld := ⟨first, fun _ => .none, 0⟩

/-- `dynamic_cast<WebStreambuf<charT, traits>*>(os.rdbuf())`: a cast to a pointer gives a null pointer, here `none`, if there is no buffer or it is
not of that class; it does not throw.  `web b` says whether the buffer is a `WebStreambuf` of the stream's character type. -/
def castBuf (web : Nat → Bool) : Option Nat → Option Nat
  | some b => if web b then some b else none
  | none => none

/-- webstreambuf.cpp 41-60 `operator<<(std::basic_ostream&, const Encoding&)`: the handler of `std::bad_cast` is not reached, as nothing throws.
A write through the null pointer is a write outside any object. -/
def encManip (web : Nat → Bool) (s : Nat) (e : Enc) (w : EncWorld) : Res EncWorld :=
  match castBuf web (w.rdbuf s) with
  | some b => .ok { w with enc := fun c => if c = b then e else w.enc c }
  | none => .ub .oobWrite

/-- `std::basic_ios::rdbuf(sb)` (library) -/
def encAttach (s : Nat) (b : Option Nat) (w : EncWorld) : EncWorld := { w with rdbuf := fun t => if t = s then b else w.rdbuf t }

/-- A program's history, newest operation first. -/
def encRun (web : Nat → Bool) (first : Nat → Option Nat) : List EncOp → Res EncWorld
  | [] => .ok (encInit first)
  | .attach s b :: h => do let w ← encRun web first h; return encAttach s b w
  | .manip s e :: h => do let w ← encRun web first h; encManip web s e w

end Fcgi.Model
