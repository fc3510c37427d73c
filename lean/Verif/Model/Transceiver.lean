import Verif.Model.Protocol
/-! # Model of src/block.cpp, src/transceiver.cpp and the I/O part of src/sockets.cpp -/
namespace Fcgi.Model

/-- Contents of freshly allocated memory: unknown bytes given by `g`. -/
def garbage (g : Nat → UInt8) (n : Nat) : Bytes := (List.range n).map g

/-- block.hpp 45-56 `Block`: `mem` is the allocation (`m_reserve = mem.length`), `size` is `m_size`. -/
structure Block where
  mem : Bytes
  size : Nat
  deriving DecidableEq, Repr

/-- block.cpp 49-52, also the state a moved-from `Block` is left in (69-76, 78-86). -/
def Block.empty : Block := ⟨[], 0⟩
instance : Inhabited Block := ⟨.empty⟩

/-- block.hpp 78-81 `Block::reserve() const`. -/
def Block.reserve (b : Block) : Nat := b.mem.length

/-- block.hpp 111-120 and 99-102: the relevant part `[begin(), end())`. -/
def Block.bytes (b : Block) : Bytes := b.mem.take b.size

/-- block.cpp 32-47 `Block::reserve(size_t)`; the new memory beyond the copied part is uninitialised. -/
def Block.setReserve (g : Nat → UInt8) (b : Block) (x : Nat) : Block :=
  if x ≠ b.reserve then
    let newSize := min b.size x
    ⟨b.mem.take newSize ++ garbage g (x - newSize), newSize⟩
  else b

/-- block.cpp 88-96 `Block::size(size_t)`. -/
def Block.setSize (g : Nat → UInt8) (b : Block) (x : Nat) : Block :=
  let b := if x > b.reserve then Block.setReserve g { b with size := b.reserve } x else b
  { b with size := x }

/-- A write of `data` through `begin()+off` (what the kernel does to the buffer given to `read`). -/
def writeAt (mem : Bytes) (off : Nat) (data : Bytes) : Res Bytes :=
  if off + data.length ≤ mem.length then
    .ok (mem.take off ++ data ++ mem.drop (off + data.length))
  else .ub .oobWrite

/-- What the kernel decides to do with one `::read(fd, buf, size)` on a non-blocking socket. -/
inductive KRead where
  | give (n : Nat)   -- hand over (at most) n of the bytes waiting; zero bytes is end-of-file
  | again            -- -1/EAGAIN
  | err              -- any other error
  deriving DecidableEq, Repr

/-- What the kernel decides to do with one `::send(fd, buf, size)`. -/
inductive KWrite where
  | accept (n : Nat)  -- accept (at most) n bytes
  | again             -- -1/EAGAIN
  | err               -- any other error
  deriving DecidableEq, Repr

/-- sockets.hpp 70-104 `Socket::Data`, together with the two kernel byte streams of the connection:
`input` is what the peer has sent and we have not read yet, `output` what the kernel accepted from
us.  All `Socket` objects of one connection share this. -/
structure Conn where
  valid : Bool := true
  closing : Bool := false
  input : Bytes := []
  output : Bytes := []
  deriving DecidableEq, Repr, Inhabited

/-- sockets.cpp 112-126 `Socket::close` (epoll removal, `shutdown`, `close` and the group's map are
not represented; see Model/Sockets for the descriptor bookkeeping). -/
def Conn.close (c : Conn) : Conn := if c.valid then { c with valid := false } else c

/-- sockets.cpp 59-89 `Socket::read(buffer, size)`: `mem`/`off` is where `buffer` points.  Result:
new connection, new memory, and the return value (`none` is -1). -/
def sockRead (k : KRead) (c : Conn) (mem : Bytes) (off size : Nat) : Res (Conn × Bytes × Option Nat) :=
  if !c.valid then .ok (c, mem, none)
  else
    match k with
    | .err => .ok (c.close, mem, none)
    | .again => .ok (c, mem, some 0)
    | .give n =>
      let data := c.input.take (min n size)
      let count := data.length
      do
        let mem ← writeAt mem off data
        let c := { c with input := c.input.drop count }
        if count = 0 ∧ c.closing = true then .ok (c.close, mem, none)
        else .ok (c, mem, some count)

/-- sockets.cpp 91-110 `Socket::write(buffer, size)`; `data` is the `size` bytes at `buffer`. -/
def sockWrite (k : KWrite) (c : Conn) (data : Bytes) : Conn × Option Nat :=
  if !c.valid || c.closing then (c, none)
  else
    match k with
    | .err => (c.close, none)
    | .again => (c, some 0)
    | .accept n =>
      let count := min n data.length
      ({ c with output := c.output ++ data.take count }, some count)

/-- message.hpp 45-79 and protocol.hpp 66: a message as handed to the manager: the request
identifier and the record (empty for the default-constructed `Message()`). -/
structure Msg where
  id : RequestId
  data : Bytes
  deriving DecidableEq, Repr

/-- transceiver.hpp 184-201 `Transceiver::Record`; `read` is an offset into `data`. -/
structure SRec where
  sock : Nat
  data : Bytes
  read : Nat := 0
  kill : Bool := false
  deriving DecidableEq, Repr

/-- Where the transmitting thread is inside `transmit()`: at the loop test, holding a record popped
from the queue, or holding a partially written record it is about to push back. -/
inductive TxPc where
  | loop
  | popped (r : SRec)
  | partly (r : SRec)
  deriving DecidableEq, Repr

/-- The transceiver (transceiver.hpp 181-222) and the connections it serves.  `m_receiveBuffers` is a
total function: an absent key and a default-constructed `Block` are the same, `operator[]` creates
the latter.  `msgs` logs the calls of `m_sendMessage`, `rets` the return values of `transmit()`. -/
structure TSt where
  conns : Nat → Conn
  buffers : Nat → Block := fun _ => .empty
  queue : List SRec := []
  pc : TxPc := .loop
  msgs : List Msg := []
  rets : List Bool := []

def upd {α : Type} (f : Nat → α) (k : Nat) (v : α) : Nat → α := fun i => if i = k then v else f i

/-- transceiver.cpp 193-203 `Transceiver::cleanupSocket`. -/
def cleanupSocket (st : TSt) (s : Nat) : TSt :=
  { st with
    buffers := upd st.buffers s .empty
    msgs := st.msgs ++ [⟨⟨s, badFcgiId⟩, []⟩]
    conns := upd st.conns s (st.conns s).close }

/-- transceiver.cpp 156-161: once the header is complete make room for the whole record. -/
def reserveRecord (g : Nat → UInt8) (buffer : Block) : Res Block :=
  if buffer.size = 8 then do
    let contentLength ← read16 buffer.mem 4
    let paddingLength ← rd buffer.mem 6
    return buffer.setReserve g (8 + contentLength.toNat + paddingLength.toNat)
  else return buffer

/-- transceiver.cpp 153-190 (second half of `receive`): the body of the record. -/
def receiveBody (g : Nat → UInt8) (st : TSt) (s : Nat) (buffer : Block) (k2 : KRead) : Res TSt := do
  let buffer ← reserveRecord g buffer
  let (c, mem, read) ← sockRead k2 (st.conns s) buffer.mem buffer.size (buffer.reserve - buffer.size)
  let st := { st with conns := upd st.conns s c }
  match read with
  | none => return cleanupSocket st s
  | some read =>
    let buffer := { buffer with mem := mem }.setSize g (buffer.size + read)
    if buffer.size < buffer.reserve then
      return { st with buffers := upd st.buffers s buffer }
    else
      let fcgiId ← read16 buffer.mem 2
      return { st with
        buffers := upd st.buffers s .empty
        msgs := st.msgs ++ [⟨⟨s, fcgiId⟩, buffer.bytes⟩] }

/-- transceiver.cpp 134-191 `Transceiver::receive`.  `k1`, `k2` are the kernel's answers to the
(at most two) `::read` calls. -/
def receive (g : Nat → UInt8) (st : TSt) (s : Nat) (k1 k2 : KRead) : Res TSt :=
  if (st.conns s).valid then
    let buffer := st.buffers s
    if buffer.size < 8 then do
      let buffer := buffer.setReserve g 8
      let (c, mem, read) ← sockRead k1 (st.conns s) buffer.mem buffer.size (buffer.reserve - buffer.size)
      let st := { st with conns := upd st.conns s c }
      match read with
      | none => return cleanupSocket st s
      | some read =>
        let buffer := { buffer with mem := mem }.setSize g (buffer.size + read)
        let st := { st with buffers := upd st.buffers s buffer }
        if buffer.size < 8 then return st
        else receiveBody g st s buffer k2
    else receiveBody g st s buffer k2
  else return st

/-- transceiver.cpp 205-222 `Transceiver::send`: one critical section (the wake-up is modelled in
Model/Sockets). -/
def send (st : TSt) (s : Nat) (data : Bytes) (kill : Bool) : TSt :=
  { st with queue := st.queue ++ [⟨s, data, 0, kill⟩] }

/-- transceiver.cpp 32-73 `Transceiver::transmit`, as the atomic steps other threads can interleave
with: the loop test with the locked pop, the unlocked write, the locked push-front and return. -/
def txStep (st : TSt) (k : KWrite) : TSt :=
  match st.pc with
  | .loop =>
    match st.queue with
    | [] => { st with rets := st.rets ++ [true] }
    | r :: q => { st with queue := q, pc := .popped r }
  | .popped r =>
    let (c, sent) := sockWrite k (st.conns r.sock) (r.data.drop r.read)
    let st := { st with conns := upd st.conns r.sock c }
    match sent with
    | none => { st with pc := .loop }
    | some sent =>
      let r := { r with read := r.read + sent }
      if r.read ≠ r.data.length then { st with pc := .partly r }
      else if r.kill then
        { st with
          pc := .loop
          conns := upd st.conns r.sock (st.conns r.sock).close
          buffers := upd st.buffers r.sock .empty }
      else { st with pc := .loop }
  | .partly r => { st with queue := r :: st.queue, pc := .loop, rets := st.rets ++ [false] }

/-- Everything that can happen to the transceiver: the poll loop notices a hang-up (sockets.cpp
533-546), bytes arrive from the peer, the handler receives on a socket, any thread sends, the handler
makes one transmit step. -/
inductive TOp where
  | hangup (s : Nat)
  | arrive (s : Nat) (data : Bytes)
  | receive (s : Nat) (k1 k2 : KRead)
  | send (s : Nat) (data : Bytes) (kill : Bool)
  | tx (k : KWrite)
  deriving DecidableEq, Repr

def TOp.step (g : Nat → UInt8) (st : TSt) : TOp → Res TSt
  | .hangup s => .ok { st with conns := upd st.conns s { st.conns s with closing := true } }
  | .arrive s data => .ok { st with conns := upd st.conns s { st.conns s with input := (st.conns s).input ++ data } }
  | .receive s k1 k2 => Model.receive g st s k1 k2
  | .send s data kill => .ok (Model.send st s data kill)
  | .tx k => .ok (txStep st k)

/-- A run of the transceiver. -/
def trun (g : Nat → UInt8) : TSt → List TOp → Res TSt
  | st, [] => .ok st
  | st, op :: ops => do trun g (← op.step g st) ops

end Fcgi.Model
