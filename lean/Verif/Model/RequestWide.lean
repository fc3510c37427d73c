import Verif.Model.Request
import Verif.Model.HttpWide
/-! # Model of src/request.cpp for wide characters: `Request<wchar_t>`

The code is the template of Model/Request; what depends on the character type is the environment (Model/HttpWide), the stream buffers
(`emptyBufferW`) and the state of the streams `out` and `err`, which can fail: not every wide character can be sent. -/
namespace Fcgi.Model

/-- request.hpp 165-168, 377-381: `out` or `err` with its stream buffer.  `bad` is `std::ios_base::badbit`, which is never cleared
(users could call `clear()`; not modelled). -/
structure WStream where
  st : WebBuf UInt32 FcgiSink
  bad : Bool
  deriving Repr

/-- `std::wostream::put`: `sputc` and webstreambuf.cpp 205-215 `overflow`; the end-of-file result of a failed `emptyBuffer` sets badbit. -/
def wput (flush : WebBuf UInt32 FcgiSink → Res (WebBuf UInt32 FcgiSink × Bool)) (st : WebBuf UInt32 FcgiSink) (c : UInt32) : Res WStream :=
  if st.buf.length < st.cap then .ok ⟨{ st with buf := st.buf ++ [c] }, false⟩
  else do
    let r ← flush st
    if r.2 then
      if r.1.buf.length < r.1.cap then return ⟨{ r.1 with buf := r.1.buf ++ [c] }, false⟩
      else .stuck        -- would call overflow again; shown not to happen
    else return ⟨r.1, true⟩

/-- One operation on a stream.  Insertions into a stream that is bad do nothing (their sentry is false); `xsputn` claims to have written
everything, so it never makes the stream bad.  `flush()` does if `sync()` fails; whether it does something when the stream is bad already
depends on the version of the library (`sentry`; LWG issue 581).  The manipulators and `dump` do not look at the state. -/
def WStream.step (sentry : Bool) (g : Nat → Nat → UInt8) (s : WStream) : SOp UInt32 → Res WStream
  | .insert t => if s.bad then .ok s else do return ⟨← xsputn wideTable (emptyBufferW g utf8Put) (t.length + 1) s.st t, false⟩
  | .put c => if s.bad then .ok s else wput (emptyBufferW g utf8Put) s.st c
  | .flush => if s.bad && sentry then .ok s else do
    let r ← emptyBufferW g utf8Put s.st
    return ⟨r.1, s.bad || !r.2⟩
  | op => do return ⟨← op.step g wideTable (emptyBufferW g utf8Put) s.st, s.bad⟩

/-- See `Call`. -/
inductive CallW where
  | error
  | bigPost
  | unknownContent
  | inHandler (bytesReceived : Nat)
  | inProcessor (env : EnvW)
  | response (env : EnvW) (message : Message)
  deriving DecidableEq, Repr

/-- See `Ev`. -/
inductive EvW where
  | call (c : CallW)
  | write (err : Bool) (op : SOp UInt32)
  | sent (sock : Nat) (record : Bytes) (kill : Bool)
  deriving Repr

/-- See `Act`. -/
structure ActW (U : Type) where
  ops : List (Bool × SOp UInt32)
  env : EnvW
  user : U

/-- See `Handlers`. -/
structure HandlersW (U : Type) where
  error : U → EnvW → ActW U
  bigPost : U → EnvW → ActW U
  unknownContent : U → EnvW → ActW U
  inHandler : U → EnvW → Nat → ActW U
  inProcessor : U → EnvW → ActW U × Bool
  response : U → EnvW → Message → ActW U × Bool

/-- request.hpp 60-140, 300-390: the members of `Request<wchar_t>`; see `Req`. -/
structure ReqW (U : Type) where
  sock : Nat
  id : UInt16
  role : UInt16
  kill : Bool
  maxPostSize : Nat
  state : UInt8
  status : UInt8
  env : EnvW
  out : WStream
  err : WStream
  user : U
  log : List EvW

/-- request.hpp 82-92 and request.cpp 216-242 `configure`. -/
def freshReqW {U} (sock : Nat) (id role : UInt16) (kill : Bool) (maxPostSize : Nat) (user : U) : ReqW U where
  sock := sock
  id := id
  role := role
  kill := kill
  maxPostSize := maxPostSize
  state := 4
  status := 0
  env := {}
  out := ⟨freshStream sock id 6, false⟩
  err := ⟨freshStream sock id 7, false⟩
  user := user
  log := []

/-- The heap and the standard library: the bytes of fresh allocations, and `sentry` (see `WStream.step`). -/
structure Host where
  heap : Nat → Nat → Nat → UInt8
  sentry : Bool

/-- One operation on `out` or `err`; see `streamOp`. -/
def streamOpW {U} (g : Host) (r : ReqW U) (err : Bool) (op : SOp UInt32) : Res (ReqW U) :=
  if err then do
    let st ← r.err.step g.sentry (g.heap 7) op
    return { r with err := st, log := r.log ++
      (st.st.sink.sent.drop r.err.st.sink.sent.length).map fun p => .sent p.1 p.2 false }
  else do
    let st ← r.out.step g.sentry (g.heap 6) op
    return { r with out := st, log := r.log ++
      (st.st.sink.sent.drop r.out.st.sink.sent.length).map fun p => .sent p.1 p.2 false }

/-- The user's code writing to the streams. -/
def userOpsW {U} (g : Host) : ReqW U → List (Bool × SOp UInt32) → Res (ReqW U)
  | r, [] => .ok r
  | r, (e, op) :: ops => do
    let r ← streamOpW g { r with log := r.log ++ [.write e op] } e op
    userOpsW g r ops

/-- A call into the user's class. -/
def callW {U} (g : Host) (r : ReqW U) (c : CallW) (a : ActW U) : Res (ReqW U) := do
  let r ← userOpsW g { r with log := r.log ++ [.call c] } a.ops
  return { r with env := a.env, user := a.user }

/-- request.cpp 33-57 `complete`; the END_REQUEST record does not go through the streams. -/
def completeW {U} (g : Host) (r : ReqW U) : Res (ReqW U) := do
  let r ← streamOpW g r false .flush
  let r ← streamOpW g r true .flush
  return { r with log := r.log ++ [.sent r.sock (endRequestRecord (g.heap 3 0) r.id r.status) r.kill] }

/-- request.cpp 152-157; see `respond`. -/
def respondW {U} (h : HandlersW U) (g : Host) (r : ReqW U) (m : Message) : Res (ReqW U × Bool) := do
  let a := h.response r.user r.env m
  let r ← callW g r (.response r.env m) a.1
  if a.2 then return (← completeW g r, true) else return (r, false)

/-- request.cpp 83-90, 139-147 and 94-104, 106-115, 131-137: call an error handler and finish. -/
def failWithW {U} (g : Host) (r : ReqW U) (c : CallW) (a : ActW U) : Res (ReqW U × Bool) := do
  let r ← callW g r c a
  return (← completeW g r, true)

/-- request.cpp 119: `inProcessor() || parsePostBuffer()`. -/
def parsePostW (processed : Bool) (env : EnvW) : Res (EnvW × Bool) :=
  if processed then .ok (env, true) else parsePostBufferW env

/-- request.cpp 117-129 and 152-157: the empty STDIN record that ends the input. -/
def inputEndW {U} (h : HandlersW U) (g : Host) (r : ReqW U) (m : Message) : Res (ReqW U × Bool) := do
  let a := h.inProcessor r.user r.env
  let r ← callW g r (.inProcessor r.env) a.1
  let p ← parsePostW a.2 r.env
  if ¬ p.2 then failWithW g { r with env := p.1 } .unknownContent (h.unknownContent r.user p.1)
  else respondW h g { r with env := { p.1 with postBuffer := [] }, state := 6 } m

/-- request.cpp 69-158: one iteration of the loop of `handler`, for one message. -/
def handleMsgW {U} (h : HandlersW U) (g : Host) (r : ReqW U) (m : Message) : Res (ReqW U × Bool) :=
  if m.type = 0 then do
    let type ← rd m.data 1
    let len ← read16 m.data 4
    let contentLength := len.toNat
    let body := 8
    let bodyEnd := body + contentLength
    if type = 2 then return (← completeW g r, true)
    else if type ≠ r.state then failWithW g r .error (h.error r.user r.env)
    else if r.state = 4 then
      if ¬ (r.role = 1 ∨ r.role = 2) then
        failWithW g { r with status := 3 } .error (h.error r.user r.env)
      else if contentLength = 0 then
        if r.env.contentLength.toNat > r.maxPostSize then failWithW g r .bigPost (h.bigPost r.user r.env)
        else return ({ r with state := 5 }, false)
      else if bodyEnd > m.data.length then .ub .oobRead
      else do
        let env ← fillW m.data body bodyEnd r.env
        return ({ r with env := env }, false)
    else if r.state = 5 then
      if contentLength = 0 then inputEndW h g r m
      else if r.env.postBuffer.length + contentLength > r.env.contentLength.toNat then
        failWithW g r .bigPost (h.bigPost r.user r.env)
      else if bodyEnd > m.data.length then .ub .oobRead
      else do
        let r := { r with env := fillPostBufferW r.env (slice m.data body bodyEnd) }
        let r ← callW g r (.inHandler contentLength) (h.inHandler r.user r.env contentLength)
        return (r, false)
    else failWithW g r .error (h.error r.user r.env)
  else respondW h g r m

/-- request.cpp 59-162 `handler`; see Model/Request. -/
def handlerW {U} (h : HandlersW U) (g : Host) : ReqW U → List Message → Res (ReqW U × List Message × Bool)
  | r, [] => .ok (r, [], false)
  | r, m :: ms => do
    let x ← handleMsgW h g r m
    if x.2 then return (x.1, ms, true) else handlerW h g x.1 ms

/-- The base class's handlers around a given `response`: the texts of Model/Request, widened (request.cpp 164-210). -/
def defaultHandlersW {U} (response : U → EnvW → Message → ActW U × Bool) : HandlersW U where
  error u e := ⟨[(false, .insert ((errorPage b!"500 Internal Server Error" b!"500 Internal Server Error").map UInt8.toUInt32))], e, u⟩
  bigPost u e := ⟨[(false, .insert ((errorPage b!"413 Request Entity Too Large" b!"413 Request Entity Too Large").map UInt8.toUInt32))], e, u⟩
  unknownContent u e :=
    ⟨[(false, .insert ((errorPage b!"415 Unsupported Media Type" b!"415 Unsupported Media Type").map UInt8.toUInt32))], e, u⟩
  inHandler u e _ := ⟨[], e, u⟩
  inProcessor u e := (⟨[], e, u⟩, false)
  response := response

end Fcgi.Model
