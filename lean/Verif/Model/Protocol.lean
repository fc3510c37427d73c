import Verif.Model.Endian
/-! # Model of src/protocol.cpp, include/fastcgi++/protocol.hpp and the management records of
src/manager.cpp -/
namespace Fcgi.Model

/-- protocol.cpp 43-59 and 62-76 (the two identical halves of `processParamHeader`): decode one
length field at index `data`.  `buf` is the object `[.., dataEnd)`, so `dataEnd = buf.length` and any
read at or past `dataEnd` is the outcome `ub`.  Pointer arithmetic past the end without dereference
(`data += 4`, `name+nameSize`) is treated as integer arithmetic.  `none` is `return false`. -/
def paramLen (buf : Bytes) (data : Nat) : Res (Option (Nat × Nat)) :=
  if data ≥ buf.length then return none
  else do
    let b ← rd buf data
    if b &&& 0x80 ≠ 0 then
      let size := data
      let data := data + 4
      if data > buf.length then return none
      else
        let v ← read32 buf size
        return some ((v &&& 0x7fffffff).toNat, data)
    else
      return some (b.toNat, data + 1)

/-- protocol.cpp 32-80 `Protocol::processParamHeader`.  Returns `(name, value, end)` indices. -/
def processParamHeader (buf : Bytes) (data : Nat) : Res (Option (Nat × Nat × Nat)) := do
  match ← paramLen buf data with
  | none => return none
  | some (nameSize, data) =>
    match ← paramLen buf data with
    | none => return none
    | some (valueSize, data) =>
      let name := data
      let value := name + nameSize
      let end_ := value + valueSize
      if end_ > buf.length then return none
      else return some (name, value, end_)

/-- http.cpp 176-179 and 436-437: the `while(processParamHeader(data,dataEnd,...)) { ...; data=end; }`
loop of `Environment::fill`; `step` is the loop body acting on the environment.  Fuel bounds the number
of iterations. -/
def paramLoop {σ : Type} (step : σ → Bytes → Bytes → Res σ) :
    (fuel : Nat) → (buf : Bytes) → (data : Nat) → σ → Res σ
  | 0, _, _, _ => .stuck
  | fuel+1, buf, data, s => do
    match ← processParamHeader buf data with
    | none => return s
    | some (name, value, end_) =>
      let s ← step s (slice buf name value) (slice buf value end_)
      paramLoop step fuel buf end_ s

/-- protocol.cpp 93-102 `Protocol::getRecordSize` (`sizeof(Header)=8`, `chunkSize=8`). -/
def getRecordSize (contentLength : Nat) : Nat :=
  let contentLength := if contentLength > 0xffff then 0xffff else contentLength
  (contentLength + 8 + 8 - 1) / 8 * 8

/-- protocol.hpp 183-203 `Protocol::Header` laid out as 8 bytes (all members have alignment 1). -/
def headerBytes (version type : UInt8) (fcgiId contentLength : UInt16) (paddingLength reserved : UInt8) :
    Bytes :=
  [version, type] ++ to16 fcgiId ++ to16 contentLength ++ [paddingLength, reserved]

/-- protocol.hpp 340-394 `ManagementReply<NAMELENGTH,VALUELENGTH>`: the object representation of the
whole structure.  The three instances are namespace-scope objects, so the members the constructor
does not set (`header.reserved`, `padding`) are zero. -/
def managementReply (name value : Bytes) : Bytes :=
  let NAMELENGTH := name.length
  let VALUELENGTH := value.length
  let paddingLength := (8 - 1) - (8 + 2 + NAMELENGTH + VALUELENGTH - 1) % 8
  headerBytes 1 10 0 (UInt16.ofNat (NAMELENGTH + VALUELENGTH)) (UInt8.ofNat paddingLength) 0
    ++ [UInt8.ofNat NAMELENGTH, UInt8.ofNat VALUELENGTH] ++ name ++ value
    ++ List.replicate paddingLength 0

/-- protocol.cpp 82-83. -/
def maxConnsReply : Bytes := managementReply b!"FCGI_MAX_CONNS" b!"10"
/-- protocol.cpp 85-86. -/
def maxReqsReply : Bytes := managementReply b!"FCGI_MAX_REQS" b!"50"
/-- protocol.cpp 88-89. -/
def mpxsConnsReply : Bytes := managementReply b!"FCGI_MPXS_CONNS" b!"1"

/-- manager.cpp 172-219: the `switch(value-name)` body, giving the record sent, if any. -/
def managementAnswer (name : Bytes) : Option Bytes :=
  match name.length with
  | 14 => if name = b!"FCGI_MAX_CONNS" then some maxConnsReply else none
  | 13 => if name = b!"FCGI_MAX_REQS" then some maxReqsReply else none
  | 15 => if name = b!"FCGI_MPXS_CONNS" then some mpxsConnsReply else none
  | _ => none

/-- State of a run of the management handler: finished or still looping, with the records sent so far
(oldest first). -/
inductive Mgmt where
  | done (sent : List Bytes)
  | running (sent : List Bytes)
  | ub (k : UB)
  deriving DecidableEq, Repr

/-- manager.cpp 162-221: the GET_VALUES `while` loop.  `msg` is the whole record (header, content and
padding: the loop runs to `message.data.end()`).  The loop passes
`message.data.begin()+sizeof(header)` again on every iteration: that is what the code does. -/
def getValuesLoop : (fuel : Nat) → (msg : Bytes) → (sent : List Bytes) → Mgmt
  | 0, _, sent => .running sent
  | fuel+1, msg, sent =>
    match processParamHeader msg 8 with
    | .ok (some (name, value, _)) =>
      getValuesLoop fuel msg (sent ++ (managementAnswer (slice msg name value)).toList)
    | .ok none => .done sent
    | .ub k => .ub k
    | .stuck => .running sent

/-- manager.cpp 225-247: the UNKNOWN_TYPE reply.  The record is a fresh `Block`, so `header.reserved`
and `body.reserved[7]` are whatever the heap held: `g0` and `g`. -/
def unknownTypeReply (type : UInt8) (g0 : UInt8) (g : Bytes) : Bytes :=
  headerBytes 1 11 0 8 0 g0 ++ [type] ++ g.take 7

/-- manager.cpp 154-252 `Manager_base::localHandler` for one FastCGI message (`message.type == 0`)
taken from the queue. -/
def localHandler (fuel : Nat) (msg : Bytes) (g0 : UInt8) (g : Bytes) : Mgmt :=
  match msg[1]? with
  | none => .ub .oobRead
  | some type =>
    if type = 9 then getValuesLoop fuel msg []
    else .done [unknownTypeReply type g0 g]

/-- protocol.hpp 66-106 `RequestId`; a `Socket` is compared by the address of its shared data
(sockets.hpp 179-188), modelled as a number. -/
structure RequestId where
  socket : Nat
  id : UInt16
  deriving DecidableEq, Repr

/-- protocol.hpp 117-123 `RequestId::Less::operator()(RequestId, RequestId)`. -/
def RequestId.less (x y : RequestId) : Bool :=
  if x.socket = y.socket then x.id < y.id else x.socket < y.socket
/-- protocol.hpp 125-128 `Less::operator()(RequestId, Socket)`. -/
def RequestId.lessSocket (x : RequestId) (s : Nat) : Bool := x.socket < s
/-- protocol.hpp 130-133 `Less::operator()(Socket, RequestId)`. -/
def RequestId.socketLess (s : Nat) (x : RequestId) : Bool := s < x.socket

/-- protocol.hpp 55. -/
def badFcgiId : UInt16 := 0xffff

end Fcgi.Model
