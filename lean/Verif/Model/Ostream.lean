import Verif.Spec.Ostream
import Verif.Model.Request
import Verif.Model.Utf8
/-! # Model of `std::basic_ostream` on top of the library's stream buffers, and of the streams of a request to its very end

`Request::out` and `Request::err` (request.hpp 165-168) are `std::basic_ostream`s on `FcgiStreambuf`s (377-381).  What the standard
library does with the stream buffer is modelled after libstdc++ 13: bits/ostream_insert.h, bits/ostream.tcc, bits/streambuf.tcc and
src/c++98/streambuf.cc.  Not modelled: exceptions of streams (`exceptions()` is never set by the library), what numbers look like. -/
namespace Fcgi.Model
open Fcgi.Spec (OOp Coding)

/-- A stream and its buffer.  `good` is `good()`, that is no bit of the state is set; `unit` is `std::ios_base::unitbuf`. -/
structure Ostr (α : Type) where
  st : WebBuf α FcgiSink
  good : Bool
  width : Int
  fill : α
  left : Bool
  unit : Bool

/-- What depends on the character type and the standard library: the heap, the table of escapes, the derived `emptyBuffer`, and whether
`flush()` looks at the state of the stream first (LWG issue 581: since GCC 12). -/
structure OEnv (α : Type) where
  heap : Nat → Nat → UInt8
  table : Enc → α → Option (List α)
  flush : WebBuf α FcgiSink → Res (WebBuf α FcgiSink × Bool)
  sentry : Bool

/-- `std::streambuf::sputc` and webstreambuf.cpp 205-215 `overflow`, with the result: false is end-of-file. -/
def sputcR {α} (flush : WebBuf α FcgiSink → Res (WebBuf α FcgiSink × Bool)) (st : WebBuf α FcgiSink) (c : α) :
    Res (WebBuf α FcgiSink × Bool) :=
  if st.buf.length < st.cap then .ok ({ st with buf := st.buf ++ [c] }, true)
  else do
    let r ← flush st
    if r.2 then
      if r.1.buf.length < r.1.cap then return ({ r.1 with buf := r.1.buf ++ [c] }, true)
      else .stuck        -- would call overflow again; shown not to happen
    else return (r.1, false)

/-- `sputn`: webstreambuf.cpp 143-203 `xsputn`, which claims to have written everything. -/
def Ostr.sputn {α} (E : OEnv α) (o : Ostr α) (s : List α) : Res (Ostr α) := do
  return { o with st := ← xsputn E.table E.flush (s.length + 1) o.st s }

/-- `sputc`, end-of-file setting badbit. -/
def Ostr.sputc1 {α} (E : OEnv α) (o : Ostr α) (c : α) : Res (Ostr α) := do
  let r ← sputcR E.flush o.st c
  return { o with st := r.1, good := o.good && r.2 }

/-- bits/ostream_insert.h 57-73 `__ostream_fill`. -/
def Ostr.fillN {α} (E : OEnv α) : Nat → Ostr α → Res (Ostr α)
  | 0, o => .ok o
  | n+1, o => do
    let r ← sputcR E.flush o.st o.fill
    if r.2 then fillN E n { o with st := r.1 } else return { o with st := r.1, good := false }

/-- ostream 510-519: the destructor of the sentry. -/
def Ostr.sentryEnd {α} (E : OEnv α) (o : Ostr α) : Res (Ostr α) :=
  if o.unit then do
    let r ← E.flush o.st
    return { o with st := r.1, good := o.good && r.2 }
  else .ok o

/-- Formatted and unformatted output functions: bits/ostream.tcc 46-58 the sentry, the body if the stream is good, the sentry's end. -/
def Ostr.guarded {α} (E : OEnv α) (o : Ostr α) (body : Ostr α → Res (Ostr α)) : Res (Ostr α) := do
  let o ← if o.good then body o else .ok o
  o.sentryEnd E

/-- bits/ostream_insert.h 75-108 `__ostream_insert`, the body. -/
def Ostr.insertBody {α} (E : OEnv α) (s : List α) (o : Ostr α) : Res (Ostr α) :=
  if o.width > s.length then do
    let n := (o.width - s.length).toNat
    let o ← if o.left then .ok o else o.fillN E n
    let o ← if o.good then o.sputn E s else .ok o
    let o ← if o.left && o.good then o.fillN E n else .ok o
    return { o with width := 0 }
  else do
    let o ← o.sputn E s
    return { o with width := 0 }

/-- src/c++98/streambuf.cc `__copy_streambufs_eof`: pieces of more than one character at once, others with `sputc`; returns the number
of characters copied.  It stops at end-of-file of the output without setting a bit. -/
def copyPieces {α} (E : OEnv α) : WebBuf α FcgiSink → (ret : Nat) → List (List α) → Res (WebBuf α FcgiSink × Nat)
  | st, ret, [] => .ok (st, ret)
  | st, ret, [] :: ps => copyPieces E st ret ps
  | st, ret, [c] :: ps => do
    let r ← sputcR E.flush st c
    if r.2 then copyPieces E r.1 (ret + 1) ps else return (r.1, ret)
  | st, ret, (c :: d :: s) :: ps => do
    let st ← xsputn E.table E.flush ((c :: d :: s).length + 1) st (c :: d :: s)
    copyPieces E st (ret + (c :: d :: s).length) ps

/-- The encoding chosen by the manipulator: webstreambuf.hpp `enum class Encoding`. -/
def encOf : Coding → Enc
  | .plain => .none
  | .html => .html
  | .url => .url

/-- One operation on a stream. -/
def Ostr.step {α} (E : OEnv α) (o : Ostr α) : OOp α → Res (Ostr α)
  | .insert s => o.guarded E (Ostr.insertBody E s)
  -- ostream 552-559 `operator<<(basic_ostream&, charT)`
  | .char c => if o.width ≠ 0 then o.guarded E (Ostr.insertBody E [c]) else o.guarded E (·.sputc1 E c)
  -- bits/ostream.tcc 60-92 `_M_insert`: num_put writes the padded text with one sputn and sets the width to 0
  | .number t => o.guarded E fun o => do
      let o ← o.sputn E t
      return { o with width := 0 }
  | .put c => o.guarded E (·.sputc1 E c)
  | .write s => o.guarded E (·.sputn E s)
  -- bits/ostream.tcc 122-149 `operator<<(streambuf*)`; the state is not good before: nothing is copied
  | .copy ps => if o.good then do
      let r ← copyPieces E o.st 0 ps
      Ostr.sentryEnd E { o with st := r.1, good := r.2 != 0 }
    else o.sentryEnd E
  | .null => .ok { o with good := false }
  | .fail => .ok { o with good := false }
  | .clear => .ok { o with good := true }
  | .width w => .ok { o with width := w }
  | .fillWith c => .ok { o with fill := c }
  | .left b => .ok { o with left := b }
  | .unit b => .ok { o with unit := b }
  -- webstreambuf.cpp 41-60: the manipulator does not look at the state
  | .coding e => .ok { o with st := { o.st with enc := encOf e } }
  -- bits/ostream.tcc 219-253
  | .flush =>
    if E.sentry then o.guarded E fun o => do
      let r ← E.flush o.st
      return { o with st := r.1, good := r.2 }
    else do
      let r ← E.flush o.st
      return { o with st := r.1, good := o.good && r.2 }
  | .dump d => do return { o with st := ← (SOp.dump d).step E.heap E.table E.flush o.st }
  | .dumpStream d => do return { o with st := ← (SOp.dumpStream d).step E.heap E.table E.flush o.st }

/-- request.hpp 114-123 and 226-241 of request.cpp: a new stream of a request.  `space` is `widen(' ')`. -/
def Ostr.fresh {α} (space : α) (sock : Nat) (id : UInt16) (type : UInt8) : Ostr α :=
  ⟨freshStream sock id type, true, 0, space, false, false⟩

/-- The two streams of a request and what has been handed to `m_send`: request.hpp 165-168, 377-381. -/
structure ReqStreams (α : Type) where
  out : Ostr α
  err : Ostr α
  log : List (Nat × Bytes × Bool)

/-- The records a stream sent since it was `o`. -/
def Ostr.newRecords {α} (o o' : Ostr α) : List (Nat × Bytes × Bool) :=
  (o'.st.sink.sent.drop o.st.sink.sent.length).map fun p => (p.1, p.2, false)

/-- Something done to `err` (true) or `out`. -/
def ReqStreams.on {α} (r : ReqStreams α) (err : Bool) (f : Ostr α → Res (Ostr α)) : Res (ReqStreams α) :=
  if err then do
    let o ← f r.err
    return { r with err := o, log := r.log ++ r.err.newRecords o }
  else do
    let o ← f r.out
    return { r with out := o, log := r.log ++ r.out.newRecords o }

/-- What the application writes in the whole life of a request. -/
def ReqStreams.run {α} (E : Bool → OEnv α) : ReqStreams α → List (Bool × OOp α) → Res (ReqStreams α)
  | r, [] => .ok r
  | r, (e, op) :: ops => do run E (← r.on e (·.step (E e) op)) ops

/-- request.cpp 33-57 `complete`. -/
def ReqStreams.complete {α} (E : Bool → OEnv α) (g : Nat → UInt8) (sock : Nat) (id : UInt16) (status : UInt8) (kill : Bool)
    (r : ReqStreams α) : Res (ReqStreams α) := do
  let r ← r.on false (·.step (E false) .flush)
  let r ← r.on true (·.step (E true) .flush)
  return { r with log := r.log ++ [(sock, endRequestRecord g id status, kill)] }

/-- fcgistreambuf.hpp 62-65: `~FcgiStreambuf` empties the buffer whatever the state of the stream. -/
def Ostr.destroy {α} (E : OEnv α) (o : Ostr α) : Res (Ostr α) := do
  let r ← E.flush o.st
  return { o with st := r.1 }

/-- The destructor of a request: its members in reverse order, `m_errStreamBuffer` before `m_outStreamBuffer` (request.hpp 377-381). -/
def ReqStreams.destroy {α} (E : Bool → OEnv α) (r : ReqStreams α) : Res (ReqStreams α) := do
  let r ← r.on true (·.destroy (E true))
  r.on false (·.destroy (E false))

/-- The streams of a new request. -/
def ReqStreams.fresh {α} (space : α) (sock : Nat) (id : UInt16) : ReqStreams α :=
  ⟨.fresh space sock id 6, .fresh space sock id 7, []⟩

/-- Narrow and wide streams. -/
def narrowOs (sentry : Bool) (g : Nat → Nat → Nat → UInt8) (err : Bool) : OEnv UInt8 :=
  ⟨g (if err then 7 else 6), charTable, emptyBufferC (g (if err then 7 else 6)), sentry⟩
def wideOs (sentry : Bool) (g : Nat → Nat → Nat → UInt8) (err : Bool) : OEnv UInt32 :=
  ⟨g (if err then 7 else 6), wideTable, emptyBufferW (g (if err then 7 else 6)) utf8Put, sentry⟩

/-- A request's whole life: what the application writes, `complete()`, the destructor (manager.cpp 297).  The records handed to the
transceiver by the time END_REQUEST is, and afterwards. -/
def wholeLife {α} (E : Bool → OEnv α) (g : Nat → UInt8) (space : α) (sock : Nat) (id : UInt16) (status : UInt8) (kill : Bool)
    (ops : List (Bool × OOp α)) : Res (ReqStreams α × ReqStreams α) := do
  let r ← (ReqStreams.fresh space sock id).run E ops
  let r ← r.complete E g sock id status kill
  let d ← r.destroy E
  return (r, d)

end Fcgi.Model
