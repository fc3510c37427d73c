import Verif.Model.Streams
import Verif.Model.Http
/-! # Model of src/request.cpp: the life of one request (narrow characters, `Request<char>`) -/
namespace Fcgi.Model

/-- message.hpp 45-72 `Message`. -/
structure Message where
  type : Int
  data : Bytes
  deriving DecidableEq, Repr

/-- A call the library makes into the user's class: request.hpp 150-288 (`errorHandler`,
`bigPostErrorHandler`, `unknownContentErrorHandler`, `inHandler`, `inProcessor`, `response`).  The
environment is recorded where the call can look at input data. -/
inductive Call where
  | error
  | bigPost
  | unknownContent
  | inHandler (bytesReceived : Nat)
  | inProcessor (env : Env)
  | response (env : Env) (message : Message)
  deriving DecidableEq, Repr

/-- What an observer sees of a request: calls into the user's class, what the user's code writes to
`out` (`err = false`) or `err`, and the records handed to the transceiver (`m_send`). -/
inductive Ev where
  | call (c : Call)
  | write (err : Bool) (op : SOp UInt8)
  | sent (sock : Nat) (record : Bytes) (kill : Bool)
  deriving Repr

/-- What a handler does: operations on the two streams, in order, and the environment and user state it
leaves. -/
structure Act (U : Type) where
  ops : List (Bool × SOp UInt8)
  env : Env
  user : U

/-- The user's class: arbitrary code with a state of its own, seeing and changing the environment.
Exceptions are not modelled. -/
structure Handlers (U : Type) where
  error : U → Env → Act U
  bigPost : U → Env → Act U
  unknownContent : U → Env → Act U
  inHandler : U → Env → Nat → Act U
  inProcessor : U → Env → Act U × Bool
  response : U → Env → Message → Act U × Bool

/-- request.hpp 60-140, 300-370: the members of `Request<char>`.  `state` is `m_state` (a `RecordType`:
4 PARAMS, 5 IN, 6 OUT), `status` is `m_status`. -/
structure Req (U : Type) where
  sock : Nat
  id : UInt16
  role : UInt16
  kill : Bool
  maxPostSize : Nat
  state : UInt8
  status : UInt8
  env : Env
  out : WebBuf UInt8 FcgiSink
  err : WebBuf UInt8 FcgiSink
  user : U
  log : List Ev

/-- request.hpp 82-92 (constructor) and request.cpp 216-242 `configure`. -/
def freshReq {U} (sock : Nat) (id role : UInt16) (kill : Bool) (maxPostSize : Nat) (user : U) : Req U where
  sock := sock
  id := id
  role := role
  kill := kill
  maxPostSize := maxPostSize
  state := 4
  status := 0
  env := {}
  out := freshStream sock id 6
  err := freshStream sock id 7
  user := user
  log := []

/-- One operation on `out` or `err`; the records the stream buffer sends go to `m_send` with
`kill = false` (request.cpp 234-241).  `g` gives the bytes of fresh allocations. -/
def streamOp {U} (g : Nat → Nat → Nat → UInt8) (r : Req U) (err : Bool) (op : SOp UInt8) : Res (Req U) :=
  if err then do
    let st ← op.step (g 7) charTable (emptyBufferC (g 7)) r.err
    return { r with err := st, log := r.log ++
      (st.sink.sent.drop r.err.sink.sent.length).map fun p => .sent p.1 p.2 false }
  else do
    let st ← op.step (g 6) charTable (emptyBufferC (g 6)) r.out
    return { r with out := st, log := r.log ++
      (st.sink.sent.drop r.out.sink.sent.length).map fun p => .sent p.1 p.2 false }

/-- The user's code writing to the streams. -/
def userOps {U} (g : Nat → Nat → Nat → UInt8) : Req U → List (Bool × SOp UInt8) → Res (Req U)
  | r, [] => .ok r
  | r, (e, op) :: ops => do
    let r ← streamOp g { r with log := r.log ++ [.write e op] } e op
    userOps g r ops

/-- A call into the user's class. -/
def call {U} (g : Nat → Nat → Nat → UInt8) (r : Req U) (c : Call) (a : Act U) : Res (Req U) := do
  let r ← userOps g { r with log := r.log ++ [.call c] } a.ops
  return { r with env := a.env, user := a.user }

/-- request.cpp 38-54: the END_REQUEST record; it is a fresh `Block`, so `header.reserved` and
`body.reserved[3]` are whatever the heap held. -/
def endRequestRecord (g : Nat → UInt8) (id : UInt16) (status : UInt8) : Bytes :=
  headerBytes 1 3 id 8 0 (g 7) ++ to32 0 ++ [status, g 13, g 14, g 15]

/-- request.cpp 33-57 `complete`. -/
def complete {U} (g : Nat → Nat → Nat → UInt8) (r : Req U) : Res (Req U) := do
  let r ← streamOp g r false .flush
  let r ← streamOp g r true .flush
  return { r with log := r.log ++ [.sent r.sock (endRequestRecord (g 3 0) r.id r.status) r.kill] }

/-- request.cpp 152-157: pass the message to `response()`; `true` means the request is finished (the
lock returned by `handler` is not owned). -/
def respond {U} (h : Handlers U) (g : Nat → Nat → Nat → UInt8) (r : Req U) (m : Message) : Res (Req U × Bool) := do
  let a := h.response r.user r.env m
  let r ← call g r (.response r.env m) a.1
  if a.2 then return (← complete g r, true) else return (r, false)

/-- request.cpp 83-90, 139-147 and 94-104, 106-115, 131-137: call an error handler and finish. -/
def failWith {U} (g : Nat → Nat → Nat → UInt8) (r : Req U) (c : Call) (a : Act U) : Res (Req U × Bool) := do
  let r ← call g r c a
  return (← complete g r, true)

/-- request.cpp 119: `inProcessor() || parsePostBuffer()`. -/
def parsePost (processed : Bool) (env : Env) : Res (Env × Bool) :=
  if processed then .ok (env, true) else parsePostBuffer env

/-- request.cpp 117-129 and 152-157: the empty STDIN record that ends the input. -/
def inputEnd {U} (h : Handlers U) (g : Nat → Nat → Nat → UInt8) (r : Req U) (m : Message) : Res (Req U × Bool) := do
  let a := h.inProcessor r.user r.env
  let r ← call g r (.inProcessor r.env) a.1
  let p ← parsePost a.2 r.env
  if ¬ p.2 then failWith g { r with env := p.1 } .unknownContent (h.unknownContent r.user p.1)
  else respond h g { r with env := { p.1 with postBuffer := [] }, state := 6 } m

/-- request.cpp 69-158: one iteration of the loop of `handler`, for one message. -/
def handleMsg {U} (h : Handlers U) (g : Nat → Nat → Nat → UInt8) (r : Req U) (m : Message) : Res (Req U × Bool) :=
  if m.type = 0 then do
    let type ← rd m.data 1
    let len ← read16 m.data 4
    let contentLength := len.toNat
    let body := 8
    let bodyEnd := body + contentLength
    if type = 2 then return (← complete g r, true)
    else if type ≠ r.state then failWith g r .error (h.error r.user r.env)
    else if r.state = 4 then
      if ¬ (r.role = 1 ∨ r.role = 2) then
        failWith g { r with status := 3 } .error (h.error r.user r.env)
      else if contentLength = 0 then
        if r.env.contentLength.toNat > r.maxPostSize then failWith g r .bigPost (h.bigPost r.user r.env)
        else return ({ r with state := 5 }, false)
      else if bodyEnd > m.data.length then .ub .oobRead
      else do
        let env ← fill m.data body bodyEnd r.env
        return ({ r with env := env }, false)
    else if r.state = 5 then
      if contentLength = 0 then inputEnd h g r m
      else if r.env.postBuffer.length + contentLength > r.env.contentLength.toNat then
        failWith g r .bigPost (h.bigPost r.user r.env)
      else if bodyEnd > m.data.length then .ub .oobRead
      else do
        let r := { r with env := fillPostBuffer r.env (slice m.data body bodyEnd) }
        let r ← call g r (.inHandler contentLength) (h.inHandler r.user r.env contentLength)
        return (r, false)
    else failWith g r .error (h.error r.user r.env)
  else respond h g r m

/-- request.cpp 59-162 `handler`: messages are taken from the queue, in order, until the request is
finished or the queue is empty.  Returns the messages left and whether the request is finished.
(Messages pushed while it runs are at the end of the queue: processing a longer queue.) -/
def handler {U} (h : Handlers U) (g : Nat → Nat → Nat → UInt8) : Req U → List Message → Res (Req U × List Message × Bool)
  | r, [] => .ok (r, [], false)
  | r, m :: ms => do
    let x ← handleMsg h g r m
    if x.2 then return (x.1, ms, true) else handler h g x.1 ms

/-- request.cpp 164-178, 180-194, 196-210: the default handlers' texts. -/
def errorPage (status title : Bytes) : Bytes :=
  b!"Status: " ++ status ++ b!"\nContent-Type: text/html; charset=utf-8\r\n\r\n<!DOCTYPE html><html lang='en'><head><title>"
    ++ title ++ b!"</title></head><body><h1>" ++ title ++ b!"</h1></body></html>"

/-- The base class's handlers (request.cpp 164-210, request.hpp 247-248 `inHandler`, 265-268
`inProcessor`) around a given `response`. -/
def defaultHandlers {U} (response : U → Env → Message → Act U × Bool) : Handlers U where
  error u e := ⟨[(false, .insert (errorPage b!"500 Internal Server Error" b!"500 Internal Server Error"))], e, u⟩
  bigPost u e := ⟨[(false, .insert (errorPage b!"413 Request Entity Too Large" b!"413 Request Entity Too Large"))], e, u⟩
  unknownContent u e := ⟨[(false, .insert (errorPage b!"415 Unsupported Media Type" b!"415 Unsupported Media Type"))], e, u⟩
  inHandler u e _ := ⟨[], e, u⟩
  inProcessor u e := (⟨[], e, u⟩, false)
  response := response

/-- `std::equal(language.cbegin(), language.cend(), locale.cbegin())` (request.cpp 257-260): the
locale is read as far as the language goes or up to the first difference.  Its character at `size()` is
the terminating NUL every `std::string` stores (formally the iterator must not be dereferenced there);
beyond that it is another object. -/
def equalPrefix (locale : Bytes) : (i : Nat) → (language : Bytes) → Res Bool
  | _, [] => .ok true
  | i, c :: language => do
    let d ← rd (locale ++ [0]) i
    if c = d then equalPrefix locale (i + 1) language else return false

/-- request.cpp 252-264: `std::find_if` over the locales, counting from `k`. -/
def findLocale (language : Bytes) : (k : Nat) → (locales : List Bytes) → Res (Option Nat)
  | _, [] => .ok none
  | k, locale :: locales => do
    if ← equalPrefix locale 0 language then return some k else findLocale language (k + 1) locales

/-- request.cpp 244-273 `pickLocale`, over the remaining accepted languages. -/
def pickLocale (locales : List Bytes) : (languages : List Bytes) → Res Nat
  | [] => .ok 0
  | language :: languages =>
    if language.length ≤ 5 then do
      match ← findLocale language 0 locales with
      | some k => return k
      | none => pickLocale locales languages
    else pickLocale locales languages

end Fcgi.Model
