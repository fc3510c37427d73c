import Verif.Model.Streams
/-! # Model of `ChunkStreamBuf<wchar_t>` (src/chunkstreambuf.cpp 62-119) -/
namespace Fcgi.Model

/-- One call of `converter.out` (chunkstreambuf.cpp 91-98) with `room` bytes of room, `utf8` being the encoder of one character:
what is written, the characters left, whether it failed. -/
def outRound (utf8 : UInt32 → Option Bytes) : (room : Nat) → List UInt32 → Bytes × List UInt32 × Bool
  | _, [] => ([], [], false)
  | room, c :: s => match utf8 c with
    | none => ([], c :: s, true)
    | some x =>
      if x.length > room then ([], c :: s, false)
      else
        let r := outRound utf8 (room - x.length) s
        (x ++ r.1, r.2)

/-- chunkstreambuf.cpp 89-115: the loop.  The chunks, the characters that had not been converted when a call failed, success.  The
bytes such a call has written are not recorded. -/
def outLoop (utf8 : UInt32 → Option Bytes) : (fuel : Nat) → List Chunk → List UInt32 → Res (List Chunk × List UInt32 × Bool)
  | 0, _, _ => .stuck
  | fuel + 1, body, s => match body.getLast? with
    | none => .ub .emptyAccess
    | some c =>
      let r := outRound utf8 (chunkCapacity - c.size) s
      if r.2.2 then .ok (body, s, false)
      else
        let body := body.dropLast ++ [⟨c.data.take c.size ++ r.1, c.size + r.1.length⟩]
        if r.2.1 = [] then .ok (body, [], true)
        else outLoop utf8 fuel (body ++ [⟨[], 0⟩]) r.2.1

/-- chunkstreambuf.hpp 96-116: the sink is `m_body`. -/
abbrev WideChunks := WebBuf UInt32 (List Chunk)

/-- chunkstreambuf.cpp 62-65: a fresh buffer. -/
def freshWide : WideChunks := ⟨[], chunkCapacity, .none, []⟩

/-- chunkstreambuf.cpp 86-87: a chunk to write to. -/
def withRoom (body : List Chunk) : List Chunk :=
  match body.getLast? with
  | none => [⟨[], 0⟩]
  | some c => if c.size = chunkCapacity then body ++ [⟨[], 0⟩] else body

/-- chunkstreambuf.cpp 73-119 `emptyBuffer`. -/
def emptyBufferKW (utf8 : UInt32 → Option Bytes) (st : WideChunks) : Res (WideChunks × Bool) :=
  if st.buf = [] then .ok (st, true)
  else
    match outLoop utf8 (st.buf.length + 2) (withRoom st.sink) st.buf with
    | .ok (body, _, true) => .ok ({ st with buf := [], cap := chunkCapacity, sink := body }, true)
    | .ok (body, left, false) => .ok ({ st with buf := st.buf.take (st.buf.length - left.length), sink := body }, false)
    | .ub k => .ub k
    | .stuck => .stuck

/-- What users do with a wide chunk buffer. -/
inductive KWOp where
  | insert (s : List UInt32)
  | put (c : UInt32)
  | flush
  | setEnc (e : Enc)
  | clear   -- chunkstreambuf.cpp 67-71
  deriving DecidableEq, Repr

def KWOp.step (utf8 : UInt32 → Option Bytes) (st : WideChunks) : KWOp → Res WideChunks
  | .insert s => xsputn wideTable (emptyBufferKW utf8) (s.length + 1) st s
  | .put c => sputc (emptyBufferKW utf8) st c
  | .flush => do return (← emptyBufferKW utf8 st).1
  | .setEnc e => .ok { st with enc := e }
  | .clear => .ok { st with buf := [], cap := chunkCapacity, sink := [] }

def kwrun (utf8 : UInt32 → Option Bytes) : WideChunks → List KWOp → Res WideChunks
  | st, [] => .ok st
  | st, op :: ops => do kwrun utf8 (← op.step utf8 st) ops

end Fcgi.Model
