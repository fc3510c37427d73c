import Verif.Spec.Curl
import Verif.Model.Streams
import Verif.Model.Utf8
/-! # Model of the HTTP client's request objects (src/curl.cpp, include/fastcgi++/curl.hpp)

The transfer library (libcurl) is not modelled: it calls the callbacks with any arguments.  The callbacks run in the
thread of the `Curler`. -/
namespace Fcgi.Model
open Fcgi.Spec

/-- Outcome of a callback: also an exception thrown (through the transfer library, which is written in C). -/
inductive CRes (α : Type) where
  | ok (a : α)
  | ub (k : UB)
  | thrown
  deriving DecidableEq, Repr

def CRes.bind {α β} (x : CRes α) (f : α → CRes β) : CRes β :=
  match x with
  | .ok a => f a
  | .ub k => .ub k
  | .thrown => .thrown

/-! ### The request -/

/-- curl.cpp 226-246: the loop of `readCallback`; `space` is `writeSpace`.  The bytes copied, the chunks left, the counter.
Reading more of a chunk than was written is counted as reading outside. -/
def readLoop : (fuel : Nat) → (space : Nat) → List Chunk → (counter : Nat) → Res (Bytes × List Chunk × Nat)
  | 0, _, _, _ => .stuck
  | fuel + 1, space, chunks, counter =>
    if space = 0 then .ok ([], chunks, counter)
    else match chunks with
      | [] => .ok ([], [], counter)
      | c :: cs =>
        let actual := min space ((c.size + 2 ^ 32 - counter) % 2 ^ 32)
        if counter + actual > c.data.length then .ub .oobRead
        else
          let counter' := (counter + actual) % 2 ^ 32
          let (chunks', counter'') := if counter' ≥ c.size then (cs, 0) else (c :: cs, counter')
          match readLoop fuel (space - actual) chunks' counter'' with
          | .ok (out, rest) => .ok ((c.data.drop counter).take actual ++ out, rest)
          | .ub k => .ub k
          | .stuck => .stuck

/-- curl.cpp 216-249 `readCallback`: `room` is `size*items`.  `unsigned writeSpace` keeps 32 bits of it. -/
def readCallback (room : Nat) (chunks : List Chunk) (counter : Nat) : Res (Bytes × List Chunk × Nat) :=
  readLoop (chunks.length + 2) (room % 2 ^ 32) chunks counter

/-! ### The response -/

/-- curl.hpp 156-176: the response; `none` is an indeterminate value. -/
structure Resp (α : Type) where
  mem : List (Option α)      -- m_responseData
  reserve : Nat              -- m_responseDataReserve
  size : Nat                 -- m_responseDataSize
  headers : List (List α × List α)
  deriving DecidableEq

def Resp.fresh {α} : Resp α := ⟨[], 0, 0, []⟩

/-- Copying to a place in memory. -/
def putAt {α} (mem : List (Option α)) (at_ : Nat) (data : List α) : List (Option α) := mem.take at_ ++ data.map some ++ mem.drop (at_ + data.length)

/-- curl.cpp 263-288 `StreamBuf<char>::injectResponse` (with `narrowConv`) and 290-337 `StreamBuf<wchar_t>::injectResponse` (with
`utf8In`): what is returned, and the new state. -/
def injectResponse {α} (conv : Conv α) (r : Resp α) (data : Bytes) : CRes (Nat × Resp α) :=
  let newSize := r.size + data.length
  let grown : CRes (Resp α) :=
    if newSize > r.reserve then
      if r.size > r.mem.length then .ub .oobRead
      else .ok { r with reserve := newSize, mem := r.mem.take r.size ++ List.replicate data.length none }
    else .ok r
  grown.bind fun r =>
    let (chars, used, failed) := conv data
    if r.size + chars.length > r.mem.length then .ub .oobWrite
    else
      let r := { r with mem := putAt r.mem r.size chars }
      if failed then .ok (data.length, r) else .ok (used, { r with size := r.size + chars.length })

/-- `char`: no conversion. -/
def narrowConv : Conv Byte := fun data => (data, data.length, false)

/-! ### Headers -/

/-- `std::isspace` in the C locale. -/
def isspaceB (b : Byte) : Bool := b = 32 ∨ (9 ≤ b ∧ b ≤ 13)

/-- An optional sign: is it a minus, and what follows. -/
def signB : Bytes → Bool × Bytes
  | 45 :: t => (true, t)
  | 43 :: t => (false, t)
  | t => (false, t)

/-- `std::stoi`; `none`: it throws. -/
def stoiB (text : Bytes) : Option Int :=
  let st := signB (text.dropWhile isspaceB)
  let digits := st.2.takeWhile fun b => 48 ≤ b ∧ b ≤ 57
  if digits = [] then none
  else
    let n : Int := if st.1 then - (decimal digits : Int) else decimal digits
    if -2147483648 ≤ n ∧ n ≤ 2147483647 then some n else none

/-- The characters trimmed by curl.cpp 357-369. -/
def blankB (b : Byte) : Bool := b = 32 ∨ b = 10 ∨ b = 13 ∨ b = 9

/-- curl.cpp 357-362 -/
def skipBlanks (line : Bytes) : (fuel : Nat) → (colon : Nat) → Res Nat
  | 0, _ => .stuck
  | fuel + 1, colon =>
    if colon < line.length then do
      if blankB (← rd line colon) then skipBlanks line fuel (colon + 1) else .ok colon
    else .ok colon

/-- curl.cpp 363-370; `e` is `bufferEnd + 1`. -/
def trimBlanks (line : Bytes) (colon : Nat) : (e : Nat) → Res Nat
  | 0 => .ok 0
  | e + 1 => if colon ≤ e then do
      if blankB (← rd line e) then trimBlanks line colon e else .ok (e + 1)
    else .ok (e + 1)

/-- curl.cpp 339-378 `headerCallback`: the name and the value, or nothing if there is no colon. -/
def splitHeader (line : Bytes) : Res (Option (Bytes × Bytes)) :=
  let key := line.takeWhile (· ≠ c!":")
  if key.length = line.length then .ok none
  else do
    let colon ← skipBlanks line (line.length + 1) (key.length + 1)
    let e ← trimBlanks line colon line.length
    return some (key, slice line colon e)

/-- `std::map::emplace`: the first value for a key stays. -/
def emplaceHeader {α} [DecidableEq α] (h : List (List α × List α)) (k v : List α) : List (List α × List α) := if h.lookup k = none then h ++ [(k, v)] else h

/-- curl.cpp 380-398 `StreamBuf<char>::injectHeader` (`dec` keeps the bytes) and 400-426 `StreamBuf<wchar_t>::injectHeader`, with `dec`
the conversion from UTF-8 (`none`: it throws `range_error`, which is caught).  Memory for less than 2^31 characters is
supposed to be there. -/
def injectHeader {α} [DecidableEq α] (dec : Bytes → Option (List α)) (r : Resp α) (key value : Bytes) : CRes (Resp α) :=
  match dec key, dec value with
  | some k, some v =>
    let store := fun r : Resp α => CRes.ok { r with headers := emplaceHeader r.headers k v }
    if key = b!"Content-Length" ∨ key = b!"content-length" then
      match stoiB value with
      | none => .thrown
      | some n => if n < 0 then .thrown else store { r with reserve := n.toNat, mem := List.replicate n.toNat none }
    else store r
  | _, _ => .ok r

/-- curl.cpp 339-378 and 251-261: a callback; what it returns. -/
def onReceived {α} [DecidableEq α] (conv : Conv α) (dec : Bytes → Option (List α)) (r : Resp α) : Received → CRes (Nat × Resp α)
  | .body data => injectResponse conv r data
  | .header line => match splitHeader line with
    | .ok none => .ok (line.length, r)
    | .ok (some (k, v)) => (injectHeader dec r k v).bind fun r => .ok (line.length, r)
    | .ub k => .ub k
    | .stuck => .ub .badRange

/-- Successive callbacks. -/
def onAll {α} [DecidableEq α] (conv : Conv α) (dec : Bytes → Option (List α)) : Resp α → List Received → CRes (List Nat × Resp α)
  | r, [] => .ok ([], r)
  | r, x :: xs => (onReceived conv dec r x).bind fun (n, r) => (onAll conv dec r xs).bind fun (ns, r) => .ok (n :: ns, r)

/-- A narrow and a wide object. -/
def onAllC (r : Resp Byte) (l : List Received) := onAll narrowConv some r l
def onAllW (r : Resp UInt32) (l : List Received) := onAll utf8In utf8All r l

/-- curl.hpp 265-275 `data()` and `dataSize()`: the characters a user can read; `none` for each one outside the memory. -/
def Resp.data {α} (r : Resp α) : List (Option (Option α)) := (List.range r.size).map fun i => r.mem[i]?

/-! ### The object -/

/-- A `Curl<char>`: its stream is being written to, or `prepare()` has been called (then `m_body`, `pptr() - pbase()` and the
encoding). -/
inductive PostData where
  | writing (k : ChunkBuf)
  | sent (body : List Chunk) (pending : Nat) (enc : Enc)

structure CurlObj where
  post : PostData
  counter : Nat                -- m_readCounter
  requestHeaders : List Bytes  -- m_headers
  /-- What the transfer library has been told: the size of the data to POST, if any, and the headers. -/
  told : Option (Option Nat × List Bytes)
  resp : Resp Byte

def CurlObj.fresh : CurlObj := ⟨.writing freshChunks, 0, [], none, .fresh⟩

/-- chunkstreambuf.cpp 54-60 `emptyBuffer`, when the chunks may have been taken away by `readCallback`: `m_body.back()`. -/
def emptySent (body : List Chunk) (pending : Nat) : Res (List Chunk × Nat) :=
  match body.getLast? with
  | none => .ub .emptyAccess
  | some c => if pending = chunkCapacity then .ok (body.dropLast ++ [{ c with size := pending }, ⟨[], 0⟩], 0) else .ok (body.dropLast ++ [{ c with size := pending }], pending)

/-- The call in curl.cpp 164 `prepare`: `close()` (71-78). -/
def CurlObj.close (c : CurlObj) : Res (List Chunk × Nat) :=
  match c.post with
  | .writing k => do let (k, _) ← emptyBufferK k; return (k.body, k.buf.length)
  | .sent body pending _ => emptySent body pending

/-- webstreambuf.hpp 221 `m_encoding` -/
def CurlObj.enc (c : CurlObj) : Enc := match c.post with | .writing k => k.enc | .sent _ _ e => e

/-- curl.cpp 159-189 `prepare`.  Of the options given to the transfer library only the size of the data and the headers are kept. -/
def CurlObj.prepare (c : CurlObj) : Res CurlObj := do
  let (body, pending) ← c.close
  let size := (body.map Chunk.size).sum
  return { c with
    post := .sent body pending c.enc
    counter := if size > 0 then 0 else c.counter
    told := some (if size > 0 then some size else none, if c.requestHeaders = [] then (c.told.elim [] Prod.snd) else c.requestHeaders) }

/-- curl.cpp 140-144 `addHeader` -/
def CurlObj.addHeader (c : CurlObj) (h : Bytes) : CurlObj := { c with requestHeaders := c.requestHeaders ++ [h] }

/-- curl.cpp 191-196 `reset` with 61-69 and 80-86: what was told to the transfer library is forgotten. -/
def CurlObj.reset (c : CurlObj) : CurlObj :=
  { c with
    post := .writing { freshChunks with enc := c.enc }
    told := none
    resp := .fresh }

/-- chunkstreambuf.hpp 89-92 `~ChunkStreamBuf`, run when the last `Curl` that shares the buffer is destroyed. -/
def CurlObj.destroy (c : CurlObj) : Res Unit := do let _ ← c.close; return ()

/-- A call of `readCallback` on the object. -/
def CurlObj.read (c : CurlObj) (room : Nat) : Res (Bytes × CurlObj) :=
  match c.post with
  | .writing _ => .stuck   -- (not called before prepare())
  | .sent body pending e => do
    let (out, body, counter) ← readCallback room body c.counter
    return (out, { c with post := .sent body pending e, counter := counter })

/-- Successive calls on the object. -/
def CurlObj.reads : CurlObj → List Nat → Res (List Bytes × CurlObj)
  | c, [] => .ok ([], c)
  | c, room :: rooms => do
    let (out, c) ← c.read room
    let (outs, c) ← c.reads rooms
    return (out :: outs, c)

end Fcgi.Model
