import Verif.Model.Curl
import Verif.Model.ChunkWide
import Verif.Spec.Mail
/-! # Model of email objects (include/fastcgi++/email.hpp, src/email.cpp)

An email is an output stream with two addresses.  `Mailer::queue` (mailer.cpp 377-382) calls `data()`, which closes the stream and moves
chunks and addresses out of the object.  A closed stream (all of eofbit, failbit and badbit set) ignores insertions and flushes. -/
namespace Fcgi.Model
open Fcgi.Spec

/-- What users do with an email whose characters are `α`. -/
inductive EmailOp (α : Type) where
  | insert (s : List α)
  | put (c : α)
  | flush
  | setEnc (e : Enc)
  | to_ (a : List α)
  | sender (a : List α)
  deriving DecidableEq, Repr

/-- The text of chunks as mailer.cpp 237-241 sends it. -/
def chunkTexts (l : List Chunk) : List Bytes := l.map fun c => c.data.take c.size

/-! ### `Email<char>` -/

/-- email.hpp 108-126 with 44-59.  `post`: the stream buffer, as in Model/Curl (`.sent` once the chunks have been moved away). -/
structure NEmail where
  post : PostData
  to_ : Bytes
  sender : Bytes

def NEmail.fresh : NEmail := ⟨.writing freshChunks, [], []⟩

/-- email.hpp 128-146 and the stream. -/
def NEmail.step (fuel : Nat) (m : NEmail) : EmailOp UInt8 → Res NEmail
  | .to_ a => .ok { m with to_ := a }
  | .sender a => .ok { m with sender := a }
  | .insert s => match m.post with
    | .writing k => do return { m with post := .writing (← (KOp.insert s).step fuel k) }
    | .sent .. => .ok m
  | .put c => match m.post with
    | .writing k => do return { m with post := .writing (← (KOp.put c).step fuel k) }
    | .sent .. => .ok m
  | .flush => match m.post with
    | .writing k => do return { m with post := .writing (← KOp.flush.step fuel k) }
    | .sent .. => .ok m
  | .setEnc e => match m.post with
    | .writing k => .ok { m with post := .writing { k with enc := e } }
    | .sent b p _ => .ok { m with post := .sent b p e }

def NEmail.run (fuel : Nat) : NEmail → List (EmailOp UInt8) → Res NEmail
  | m, [] => .ok m
  | m, op :: ops => do NEmail.run fuel (← m.step fuel op) ops

/-- email.cpp 62-69 `close`: `emptyBuffer`, also of a buffer whose chunks are gone. -/
def NEmail.close (m : NEmail) : Res (List Chunk × Nat × Enc) :=
  match m.post with
  | .writing k => do let (k, _) ← emptyBufferK k; return (k.body, k.buf.length, k.enc)
  | .sent body pending e => do let (b, p) ← emptySent body pending; return (b, p, e)

/-- email.hpp 86-90 `data`, with 74-79: everything is moved to the email returned (moved strings are empty). -/
def NEmail.data (m : NEmail) : Res (Email × NEmail) := do
  let (body, pending, enc) ← m.close
  return (⟨m.to_, m.sender, chunkTexts body⟩, ⟨.sent [] pending enc, [], []⟩)

/-- The destructor: chunkstreambuf.hpp 89-92. -/
def NEmail.destroy (m : NEmail) : Res Unit := do let _ ← m.close; return ()

/-! ### `Email<wchar_t>` -/

structure WEmail where
  chunks : WideChunks
  open_ : Bool        -- the state of the stream
  to_ : Bytes
  sender : Bytes

def WEmail.fresh : WEmail := ⟨freshWide, true, [], []⟩

/-- email.cpp 35-60 (an address that cannot be converted: a warning, and the member stays as it is) and the stream. -/
def WEmail.step (m : WEmail) : EmailOp UInt32 → Res WEmail
  | .to_ a => .ok { m with to_ := (utf8Out a).getD m.to_ }
  | .sender a => .ok { m with sender := (utf8Out a).getD m.sender }
  | .insert s => if m.open_ then do return { m with chunks := ← (KWOp.insert s).step utf8Put m.chunks } else .ok m
  | .put c => if m.open_ then do return { m with chunks := ← (KWOp.put c).step utf8Put m.chunks } else .ok m
  | .flush => if m.open_ then do return { m with chunks := ← KWOp.flush.step utf8Put m.chunks } else .ok m
  | .setEnc e => .ok { m with chunks := { m.chunks with enc := e } }

def WEmail.run : WEmail → List (EmailOp UInt32) → Res WEmail
  | m, [] => .ok m
  | m, op :: ops => do WEmail.run (← m.step op) ops

/-- email.hpp 86-90 `data`. -/
def WEmail.data (m : WEmail) : Res (Email × WEmail) := do
  let (k, _) ← emptyBufferKW utf8Put m.chunks
  return (⟨m.to_, m.sender, chunkTexts k.sink⟩, ⟨{ k with sink := [] }, false, [], []⟩)

/-- The destructor: chunkstreambuf.hpp 112-115. -/
def WEmail.destroy (m : WEmail) : Res Unit := do let _ ← emptyBufferKW utf8Put m.chunks; return ()

end Fcgi.Model
