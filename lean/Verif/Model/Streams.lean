import Verif.Model.Transceiver
/-! # Model of src/webstreambuf.cpp, src/fcgistreambuf.cpp and src/chunkstreambuf.cpp -/
namespace Fcgi.Model

/-- webstreambuf.hpp `enum class Encoding { NONE, HTML, URL }`. -/
inductive Enc where
  | none | html | url
  deriving DecidableEq, Repr

/-- webstreambuf.cpp 62-71 `htmlCharacters` (the wide table 73-82 has the same entries). -/
def htmlCharacters : List (UInt8 × Bytes) :=
  [(c!"\"", b!"&quot;"), (c!">", b!"&gt;"), (c!"<", b!"&lt;"), (c!"&", b!"&amp;"), (0x27, b!"&apos;")]

/-- webstreambuf.cpp 84-111 `urlCharacters` (the wide table 113-140 has the same entries). -/
def urlCharacters : List (UInt8 × Bytes) :=
  [(c!"!", b!"%21"), (c!"]", b!"%5D"), (c!"[", b!"%5B"), (c!"#", b!"%23"), (c!"?", b!"%3F"),
   (c!"/", b!"%2F"), (c!",", b!"%2C"), (c!"$", b!"%24"), (c!"+", b!"%2B"), (c!"=", b!"%3D"),
   (c!"&", b!"%26"), (c!"@", b!"%40"), (c!":", b!"%3A"), (c!";", b!"%3B"), (c!")", b!"%29"),
   (c!"(", b!"%28"), (0x27, b!"%27"), (c!"*", b!"%2A"), (c!"<", b!"%3C"), (c!">", b!"%3E"),
   (c!"\"", b!"%22"), (c!" ", b!"%20"), (c!"%", b!"%25")]

/-- webstreambuf.cpp 164-168, 173: which table, and `map->find`. -/
def charTable : Enc → UInt8 → Option Bytes
  | .html, c => htmlCharacters.lookup c
  | _, c => urlCharacters.lookup c

/-- The same for `wchar_t` (32 bits on Linux): the tables have the same entries, widened. -/
def wideTable (e : Enc) (c : UInt32) : Option (List UInt32) :=
  if c < 256 then (charTable e c.toUInt8).map (·.map UInt8.toUInt32) else none

/-- The common state of a `WebStreambuf`: `buf` is `[pbase(), pptr())`, `cap` is `epptr()-pbase()`,
`sink` is what the derived class owns. -/
structure WebBuf (α σ : Type) where
  buf : List α
  cap : Nat
  enc : Enc
  sink : σ
  deriving Repr

/-- webstreambuf.cpp 152-160: the unencoded part of `xsputn`; returns the new buffer and what is left
of the input. -/
def fillNone {α} (cap : Nat) (buf s : List α) : List α × List α :=
  let actual := min s.length (cap - buf.length)
  (buf ++ s.take actual, s.drop actual)

/-- webstreambuf.cpp 170-194: the encoding loop of `xsputn`. -/
def fillMap {α} (find : α → Option (List α)) (cap : Nat) : (buf s : List α) → List α × List α
  | buf, [] => (buf, [])
  | buf, c :: s =>
    let writeSpace := cap - buf.length
    match find c with
    | none => if writeSpace < 1 then (buf, c :: s) else fillMap find cap (buf ++ [c]) s
    | some e => if writeSpace < e.length then (buf, c :: s) else fillMap find cap (buf ++ e) s

/-- webstreambuf.cpp 143-203 `xsputn`.  `flush` is the derived class's `emptyBuffer` (`sync` calls it
and its result is ignored here); fuel bounds the iterations of the outer `while(true)`. -/
def xsputn {α σ} (table : Enc → α → Option (List α)) (flush : WebBuf α σ → Res (WebBuf α σ × Bool)) :
    (fuel : Nat) → WebBuf α σ → List α → Res (WebBuf α σ)
  | 0, _, _ => .stuck
  | fuel+1, st, s =>
    let r := if st.enc = .none then fillNone st.cap st.buf s else fillMap (table st.enc) st.cap st.buf s
    let st := { st with buf := r.1 }
    match r.2 with
    | [] => .ok st
    | c :: rest => do
      let st ← flush st
      xsputn table flush fuel st.1 (c :: rest)

/-- `std::streambuf::sputc` together with webstreambuf.cpp 205-215 `overflow`: used by `os.put(c)` and
by fill characters.  The nested `sputc` has room whenever `emptyBuffer` succeeded. -/
def sputc {α σ} (flush : WebBuf α σ → Res (WebBuf α σ × Bool)) (st : WebBuf α σ) (c : α) :
    Res (WebBuf α σ) :=
  if st.buf.length < st.cap then .ok { st with buf := st.buf ++ [c] }
  else do
    let r ← flush st
    if r.2 then
      if r.1.buf.length < r.1.cap then return { r.1 with buf := r.1.buf ++ [c] }
      else .stuck        -- would call overflow again; shown not to happen
    else return r.1      -- eof: the character is dropped

/-! ## FcgiStreambuf -/

/-- fcgistreambuf.hpp 118-131: the members set by `configure`, and a log of the calls of `send`. -/
structure FcgiSink where
  sock : Nat
  id : UInt16
  type : UInt8
  sent : List (Nat × Bytes) := []
  deriving DecidableEq, Repr

/-- fcgistreambuf.hpp 115 `s_buffSize`. -/
def buffSize : Nat := 8192

/-- fcgistreambuf.cpp 101-121, 141-160, 178-193, 57-83: fill one record of total size `total` (the
allocation holds the bytes `g`) with `content` and the header fields, and send it.  The header's
`reserved` member and the padding are never written. -/
def sendRecord (g : Nat → Nat → UInt8) (k : FcgiSink) (total : Nat) (content : Bytes) : Res FcgiSink := do
  let contentLength := UInt16.ofNat content.length
  let mem ← writeAt (garbage (g k.sent.length) total) 8 content
  let mem ← writeAt mem 0 ((headerBytes 1 k.type k.id contentLength
    (UInt8.ofNat (total - contentLength.toNat - 8)) 0).take 7)
  return { k with sent := k.sent ++ [(k.sock, mem)] }

/-- fcgistreambuf.cpp 98-122 and 139-161: send `data` as a series of records.  Fuel: each iteration
consumes at least one byte, callers pass the length. -/
def sendAll (g : Nat → Nat → UInt8) : (fuel : Nat) → FcgiSink → Bytes → Res FcgiSink
  | _, k, [] => .ok k
  | 0, _, _ => .stuck
  | fuel+1, k, data => do
    let contentLength := min data.length 0xffff
    let k ← sendRecord g k (getRecordSize data.length) (data.take contentLength)
    sendAll g fuel k (data.drop contentLength)

/-- fcgistreambuf.cpp 89-126 `FcgiStreambuf<char>::emptyBuffer`. -/
def emptyBufferC (g : Nat → Nat → UInt8) (st : WebBuf UInt8 FcgiSink) :
    Res (WebBuf UInt8 FcgiSink × Bool) := do
  let sink ← sendAll g st.buf.length st.sink st.buf
  return ({ st with buf := [], cap := buffSize, sink := sink }, true)

/-- `std::codecvt_utf8<wchar_t>::out` on characters `s`, with `utf8` the encoder of one character
(`none`: not encodable), when there is room for the whole result. -/
def convert (utf8 : UInt32 → Option Bytes) : List UInt32 → Option Bytes
  | [] => some []
  | c :: s => match utf8 c, convert utf8 s with
    | some x, some y => some (x ++ y)
    | _, _ => none

/-- fcgistreambuf.cpp 36-87 `FcgiStreambuf<wchar_t>::emptyBuffer`.  `record.reserve()` leaves the
block's size 0, so the output range given to the converter is `[begin()+8, begin()+0)`: formally not
a range at all.  libstdc++ computes the room as an unsigned difference and therefore never finds it
exhausted, which is what is modelled; the record's reserve does have room (`count*4` bytes). -/
def emptyBufferW (g : Nat → Nat → UInt8) (utf8 : UInt32 → Option Bytes) (st : WebBuf UInt32 FcgiSink) :
    Res (WebBuf UInt32 FcgiSink × Bool) :=
  match st.buf with
  | [] => .ok ({ st with buf := [], cap := buffSize }, true)
  | c :: s =>
    match convert utf8 (c :: s) with
    | none => .ok ({ st with buf := [] }, false)
    | some bytes =>
      if bytes.length ≤ getRecordSize ((c :: s).length * 4) - 8 then do
        let sink ← sendRecord g st.sink (getRecordSize (UInt16.ofNat bytes.length).toNat) bytes
        return ({ st with buf := [], cap := buffSize, sink := sink }, true)
      else .ub .oobWrite

/-- fcgistreambuf.cpp 164-194 `dump(istream&)`: `data` is what is left in the stream; each `read`
takes 0xffff bytes or what is left. -/
def dumpStream (g : Nat → Nat → UInt8) : (fuel : Nat) → FcgiSink → Bytes → Res FcgiSink
  | 0, _, _ => .stuck
  | fuel+1, k, data =>
    let content := data.take 0xffff
    if content.length = 0 then .ok k
    else do
      let k ← sendRecord g k (getRecordSize content.length) content
      dumpStream g fuel k (data.drop 0xffff)

/-- What a handler can do with an output stream. -/
inductive SOp (α : Type) where
  | insert (s : List α)        -- os << string, os.write
  | put (c : α)                -- os.put(c)
  | flush                      -- os.flush()
  | setEnc (e : Enc)           -- os << Encoding
  | dump (data : Bytes)        -- dump(data, size)
  | dumpStream (data : Bytes)  -- dump(istream)
  deriving Repr

/-- One operation; fuel for `xsputn` is the length of the data (each flush makes progress). -/
def SOp.step {α} (g : Nat → Nat → UInt8) (table : Enc → α → Option (List α))
    (flush : WebBuf α FcgiSink → Res (WebBuf α FcgiSink × Bool)) (st : WebBuf α FcgiSink) :
    SOp α → Res (WebBuf α FcgiSink)
  | .insert s => xsputn table flush (s.length + 1) st s
  | .put c => sputc flush st c
  | .flush => do return (← flush st).1
  | .setEnc e => .ok { st with enc := e }
  | .dump data => do
    let st := (← flush st).1
    return { st with sink := ← sendAll g data.length st.sink data }
  | .dumpStream data => do
    let st := (← flush st).1
    return { st with sink := ← Model.dumpStream g (data.length + 1) st.sink data }

/-- A sequence of operations. -/
def srun {α} (g : Nat → Nat → UInt8) (table : Enc → α → Option (List α))
    (flush : WebBuf α FcgiSink → Res (WebBuf α FcgiSink × Bool)) :
    WebBuf α FcgiSink → List (SOp α) → Res (WebBuf α FcgiSink)
  | st, [] => .ok st
  | st, op :: ops => do srun g table flush (← op.step g table flush st) ops

/-- fcgistreambuf.hpp 57-60 and 78-87: a fresh stream buffer configured for a request; the encoding is
NONE (webstreambuf.hpp constructor). -/
def freshStream {α} (sock : Nat) (id : UInt16) (type : UInt8) : WebBuf α FcgiSink :=
  ⟨[], buffSize, .none, ⟨sock, id, type, []⟩⟩

/-- Running a narrow and a wide output stream. -/
def srunC (g) (st : WebBuf UInt8 FcgiSink) (ops) := srun g charTable (emptyBufferC g) st ops
def srunW (g) (utf8) (st : WebBuf UInt32 FcgiSink) (ops) := srun g wideTable (emptyBufferW g utf8) st ops

/-! ## ChunkStreamBuf<char> -/

/-- chunkstreambuf.hpp 49-65 `Chunk`: the data written so far and the recorded `size`. -/
structure Chunk where
  data : Bytes
  size : Nat
  deriving DecidableEq, Repr

/-- chunkstreambuf.hpp 52. -/
def chunkCapacity : Nat := 4096

/-- The chunks of `m_body` but the last, and the recorded size of the last one, whose data is the
stream buffer itself. -/
structure ChunkSink where
  front : List Chunk
  lastSize : Nat
  deriving DecidableEq, Repr

abbrev ChunkBuf := WebBuf UInt8 ChunkSink

/-- chunkstreambuf.cpp 35-38, 46-52: a fresh chunk buffer. -/
def freshChunks : ChunkBuf := ⟨[], chunkCapacity, .none, ⟨[], 0⟩⟩

/-- chunkstreambuf.cpp 54-60 `ChunkStreamBuf<char>::emptyBuffer`, with 46-52 `setBufferPtr`. -/
def emptyBufferK (st : ChunkBuf) : Res (ChunkBuf × Bool) :=
  let size := st.buf.length
  if size = chunkCapacity then
    .ok ({ st with buf := [], cap := chunkCapacity, sink := ⟨st.sink.front ++ [⟨st.buf, size⟩], 0⟩ }, true)
  else .ok ({ st with sink := { st.sink with lastSize := size } }, true)

/-- The list `m_body` as readers see it. -/
def ChunkBuf.body (st : ChunkBuf) : List Chunk := st.sink.front ++ [⟨st.buf, st.sink.lastSize⟩]

/-- What users do with a chunk buffer (`SOp` without dumps, plus chunkstreambuf.cpp 40-44 `clear`). -/
inductive KOp where
  | insert (s : Bytes)
  | put (c : UInt8)
  | flush
  | setEnc (e : Enc)
  | clear
  deriving DecidableEq, Repr

def KOp.step (fuel : Nat) (st : ChunkBuf) : KOp → Res ChunkBuf
  | .insert s => xsputn charTable emptyBufferK fuel st s
  | .put c => sputc emptyBufferK st c
  | .flush => do return (← emptyBufferK st).1
  | .setEnc e => .ok { st with enc := e }
  | .clear => .ok { st with buf := [], cap := chunkCapacity, sink := ⟨[], 0⟩ }

def krun (fuel : Nat) : ChunkBuf → List KOp → Res ChunkBuf
  | st, [] => .ok st
  | st, op :: ops => do krun fuel (← op.step fuel st) ops

end Fcgi.Model
