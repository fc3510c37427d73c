import Verif.Lemmas.CurlWide
import Verif.Lemmas.ChunkWide
import Verif.Props.Streams
/-! # Properties C56, C57, C89–C95: the HTTP client's request objects -/
namespace Fcgi.Props
open Fcgi Fcgi.Model Fcgi.Spec

/-! ## C56 the data to POST -/

/-- An object whose stream has been used as `ops` say since it was made or reset. -/
def Written (c : CurlObj) (e : Enc) (fuel : Nat) (ops : List KOp) : Prop := ∃ k, krun fuel { freshChunks with enc := e } ops = .ok k ∧ c.post = .writing k

/-- Whatever has been written, `prepare()` tells the transfer library its size, and the read callbacks, whatever room (below 4 GiB) is
offered, hand over exactly the data: each as much as fits and is left. -/
theorem C56_post (c : CurlObj) (e : Enc) (fuel : Nat) (ops : List KOp) (h : Written c e fuel ops) (hne : kexpected e [] ops ≠ []) (rooms : List Nat) (hr : ∀ r ∈ rooms, r < 2 ^ 32) :
    ∃ c' outs c'', c.prepare = .ok c' ∧ c'.told.map Prod.fst = some (some (kexpected e [] ops).length) ∧ c'.reads rooms = .ok (outs, c'') ∧
      outs.flatten = (kexpected e [] ops).take rooms.sum ∧ outs.length = rooms.length ∧
      ∀ i (h : i < outs.length) (h' : i < rooms.length), outs[i].length = min rooms[i] ((kexpected e [] ops).length - (rooms.take i).sum) := by
  obtain ⟨k, h1, h2⟩ := h
  have hk := C16_run fuel ops [] { freshChunks with enc := e } k ⟨rfl, by simp [freshChunks], by simp [freshChunks], rfl⟩ h1
  obtain ⟨c', body, pending, e1, e2, e3, e4, e5, e6, e7, e8, e9, e10⟩ := prepare_spec hk c h2
  have hc0 := e3 hne
  obtain ⟨outs, c'', body', f1, f2, f3, f4, f5, f6, f7, f8⟩ := reads_spec k.enc pending rooms c' body (kexpected e [] ops) e2 (by rw [hc0]; exact e8) (by rw [hc0, e7]; rfl) hr
  refine ⟨c', outs, c'', e1, ?_, f1, f6, f7, f8⟩
  rw [e4]; simp [toldSize, hne]

/-- With nothing written a GET request is made. -/
theorem C56_get (c : CurlObj) (e : Enc) (fuel : Nat) (ops : List KOp) (h : Written c e fuel ops) (hne : kexpected e [] ops = []) :
    ∃ c', c.prepare = .ok c' ∧ c'.told.map Prod.fst = some none := by
  obtain ⟨k, h1, h2⟩ := h
  have hk := C16_run fuel ops [] { freshChunks with enc := e } k ⟨rfl, by simp [freshChunks], by simp [freshChunks], rfl⟩ h1
  obtain ⟨c', body, pending, e1, e2, e3, e4, _⟩ := prepare_spec hk c h2
  exact ⟨c', e1, by rw [e4]; simp [toldSize, hne]⟩

/-- The room is reduced to 32 bits: with room for 4 GiB nothing is handed over, which means the end of the data. -/
theorem C56_violated (c : CurlObj) (body : List Chunk) (pending : Nat) (e : Enc) (hc : c.post = .sent body pending e) (n : Nat) :
    ∃ c', c.read (n * 2 ^ 32) = .ok ([], c') ∧ c'.post = c.post := by
  have hz : readCallback (n * 2 ^ 32) body c.counter = .ok ([], body, c.counter) := by
    unfold readCallback; rw [Nat.mul_mod_left]; exact readLoop_zero _ _ _
  unfold CurlObj.read
  rw [hc]
  simp only [hz, Res.ok_bind, Res.pure_eq]
  exact ⟨_, rfl, rfl⟩

def postX : CurlObj := { CurlObj.fresh with post := .writing (match krun 9 freshChunks [.insert b!"a=b&c=", .setEnc .url, .insert b!"x y"] with | .ok k => k | _ => freshChunks) }
theorem postX_written : Written postX .none 9 [.insert b!"a=b&c=", .setEnc .url, .insert b!"x y"] := ⟨_, rfl, rfl⟩
example : kexpected .none [] [.insert b!"a=b&c=", .setEnc .url, .insert b!"x y"] = b!"a=b&c=x%20y" := by decide +kernel
example : (match postX.prepare with
    | .ok c => (match c.reads [4, 0, 3, 100, 7] with | .ok (o, _) => o | _ => [])
    | _ => []) = [b!"a=b&", [], b!"c=x", b!"%20y", []] := by decide +kernel

/-! ## C57, C89 the data received -/

/-- No header gives the length after a part of the body has come. -/
def LengthFirst (l : List Received) : Prop := ∀ pre line post, l = pre ++ .header line :: post → isLength line → bodyOf pre = []

/-- Every header that gives the length gives a number below 2^31. -/
def LengthsOk (l : List Received) : Prop := ∀ line, .header line ∈ l → isLength line → goodLength line

/-- However the response is cut up, the data are its body and every callback reports that it has taken all it was given. -/
theorem C57_response_partial (l : List Received) (h1 : LengthFirst l) (h2 : LengthsOk l) :
    ∃ r, onAllC .fresh l = .ok (l.map Received.size, r) ∧ r.data = (bodyOf l).map fun b => some (some b) := by
  obtain ⟨r, e1, e2, e3⟩ := onAll_spec narrowConv some id narrowConv_le (fun t _ => rfl) l [] .fresh RespInv.fresh (fun d _ => rfl) h2
    (fun pre line post he hl => ⟨rfl, h1 pre line post he hl⟩)
  refine ⟨r, e1, ?_⟩
  rw [e2.dataEq]
  congr 1

/-- A piece of the body and then a header with a length (of a trailer, or of the next response if the object is used again without
`reset()`): all data are lost, what a user reads is indeterminate or outside the buffer. -/
theorem C57_violated (body line : Bytes) (hl : isLength line) (hg : goodLength line) :
    ∃ r, onAllC .fresh [.body body, .header line] = .ok ([body.length, line.length], r) ∧ r.data.length = body.length ∧ ∀ x ∈ r.data, x = some none ∨ x = none := by
  obtain ⟨n, v, g1, g2, g3, g4⟩ := hg
  obtain ⟨r1, e1, e2, e3⟩ := injectResponse_spec narrowConv narrowConv_le (RespInv.fresh) body
  have hk := (isLength_iff g1).1 hl
  have e4 := injectHeader_length some r1 n v hk g2 g3 g4 n v rfl rfl
  have hsp := (splitHeader_iff line n v).2 g1
  simp only [onAllC, onAll, onReceived, e1, CRes.bind, hsp, e4]
  refine ⟨_, rfl, ?_, ?_⟩
  · have := e3.size
    simp [Resp.data, this, narrowConv]
  · intro x hx
    simp only [Resp.data, List.mem_map] at hx
    obtain ⟨i, _, rfl⟩ := hx
    by_cases hi : i < decimal v
    · left; simp [hi]
    · right; simp [hi]

/-- For every sequence of callbacks in which no length is given after data the memory used is inside the buffer and initialised. -/
theorem C89_memory_partial (l : List Received) (h1 : LengthFirst l) (h2 : LengthsOk l) :
    ∃ ns r, onAllC .fresh l = .ok (ns, r) ∧ ∀ x ∈ r.data, ∃ b, x = some (some b) := by
  obtain ⟨r, e1, e2⟩ := C57_response_partial l h1 h2
  refine ⟨_, r, e1, ?_⟩
  rw [e2]
  intro x hx
  obtain ⟨b, _, rfl⟩ := List.mem_map.1 hx
  exact ⟨b, rfl⟩

/-- But a server can make the client read outside its buffer: body, a smaller length in a trailer, and more body (or the next response). -/
theorem C89_violated (body line more : Bytes) (n v : Bytes) (hl : isLength line) (hv : HeaderLine line n v) (hne : v ≠ []) (hd : ∀ b ∈ v, isDigit b) (hlt : decimal v < body.length)
    (hbl : decimal v < 2 ^ 31) : onAllC .fresh [.body body, .header line, .body more] = .ub .oobRead := by
  obtain ⟨r1, e1, e2, e3⟩ := injectResponse_spec narrowConv narrowConv_le (RespInv.fresh) body
  have hk := (isLength_iff hv).1 hl
  have e4 := injectHeader_length some r1 n v hk hne hd hbl n v rfl rfl
  have hsp := (splitHeader_iff line n v).2 hv
  have hs := e3.size
  simp only [onAllC, onAll, onReceived, e1, CRes.bind, hsp, e4]
  have hs' : r1.size = body.length := by simpa [narrowConv] using hs
  unfold injectResponse
  dsimp only
  rw [if_pos (by omega), if_pos (by simp; omega)]
  rfl

def okResponse : List Received := [.header b!"HTTP/1.1 200 OK\r\n", .header b!"Content-Length: 5\r\n", .header b!"X:\t y z \r\n", .header b!"\r\n", .body b!"he", .body [], .body b!"llo"]
example : (match onAllC .fresh okResponse with | .ok (_, r) => (r.data, r.headers) | _ => ([], [])) =
    (b!"hello".map fun b => some (some b), [(b!"Content-Length", b!"5"), (b!"X", b!"y z")]) := by decide +kernel
example : goodLength b!"Content-Length: 5\r\n" := ⟨b!"Content-Length", b!"5", ⟨b!" ", b!"\r\n", by decide, by decide, by decide, by decide, by decide, by decide⟩, by decide, by decide, by decide +kernel⟩
/-- A response with more data than announced is no problem. -/
example : (match onAllC .fresh [.header b!"content-length: 1\r\n", .body b!"he", .body b!"llo"] with | .ok (_, r) => r.data | _ => []) =
    b!"hello".map (fun b => some (some b)) := by decide +kernel
example : LengthFirst okResponse ∧ LengthsOk okResponse := by
  refine ⟨?_, ?_⟩
  · intro pre line post he hl
    rcases pre with _ | ⟨a, _ | ⟨b, _ | ⟨c, _ | ⟨d, _ | ⟨e, _ | ⟨f, _ | ⟨g, pre⟩⟩⟩⟩⟩⟩⟩ <;> simp [okResponse] at he
    · rfl
    · obtain ⟨rfl, _⟩ := he; rfl
    · obtain ⟨rfl, rfl, _⟩ := he; rfl
    · obtain ⟨rfl, rfl, rfl, _⟩ := he; rfl
  · intro line hline hl
    simp [okResponse] at hline
    rcases hline with rfl | rfl | rfl | rfl
    · exact absurd hl (by decide)
    · exact ⟨b!"Content-Length", b!"5", ⟨b!" ", b!"\r\n", by decide, by decide, by decide, by decide, by decide, by decide⟩, by decide, by decide, by decide +kernel⟩
    · exact absurd hl (by decide)
    · exact absurd hl (by decide)

/-! ## C90 the headers received -/

/-- A name is found among the headers exactly if a line with it has come, with the value of the first such line. -/
theorem C90_headers_partial (l : List Received) (h1 : LengthFirst l) (h2 : LengthsOk l) : ∃ ns r, onAllC .fresh l = .ok (ns, r) ∧ ∀ name value,
    r.headers.lookup name = some value ↔ ∃ pre line post, l = pre ++ .header line :: post ∧ HeaderLine line name value ∧ ∀ ln, .header ln ∈ pre → ∀ v, ¬ HeaderLine ln name v := by
  obtain ⟨r, e1, e2, e3⟩ := onAll_spec narrowConv some id narrowConv_le (fun t _ => rfl) l [] .fresh RespInv.fresh (fun d _ => rfl) h2
    (fun pre line post he hl => ⟨rfl, h1 pre line post he hl⟩)
  refine ⟨_, r, e1, ?_⟩
  intro name value
  rw [e3, headersFrom_lookup]
  simp [Resp.fresh]

/-- A line has at most one name and value. -/
theorem C90_unique (line n v n' v' : Bytes) (h : HeaderLine line n v) (h' : HeaderLine line n' v') : n = n' ∧ v = v' := headerLine_unique h h'

/-- So of a header given more than once only the first value is kept. -/
theorem C90_violated : ∃ l, LengthFirst l ∧ LengthsOk l ∧ ∃ ns r, onAllC .fresh l = .ok (ns, r) ∧ .header b!"Set-Cookie: b=2\r\n" ∈ l ∧
    (b!"Set-Cookie", b!"b=2") ∉ r.headers := by
  refine ⟨[.header b!"Set-Cookie: a=1\r\n", .header b!"Set-Cookie: b=2\r\n"], ?_, ?_, _, _, rfl, by decide, by decide⟩
  · intro pre line post he hl
    rcases pre with _ | ⟨a, _ | ⟨b, pre⟩⟩ <;> simp at he
    · rfl
    · obtain ⟨rfl, _⟩ := he; rfl
  · intro line hline hl
    simp at hline
    rcases hline with rfl | rfl <;> exact absurd hl (by decide)

example : HeaderLine b!"Server:nginx \t\r\n" b!"Server" b!"nginx" := ⟨[], b!" \t\r\n", by decide, by decide, by decide, by decide, by decide, by decide⟩

/-! ## C91 the callbacks do not throw -/

/-- A callback with a header line accepts it, unless the line gives a length that is no number below 2^31. -/
theorem C91_header_partial (r : Resp Byte) (line : Bytes) (h : isLength line → goodLength line) : ∃ r', onReceived narrowConv some r (.header line) = .ok (line.length, r') := by
  by_cases hc : c!":" ∈ line
  · obtain ⟨k, v, e1, e2⟩ := splitHeader_some line hc
    simp only [onReceived, e1]
    by_cases hl : isLength line
    · obtain ⟨n, v', g1, g2, g3, g4⟩ := h hl
      obtain ⟨rfl, rfl⟩ := headerLine_unique e2 g1
      rw [injectHeader_length some r k v ((isLength_iff e2).1 hl) g2 g3 g4 k v rfl rfl]
      exact ⟨_, rfl⟩
    · obtain ⟨r1, f1, _⟩ := injectHeader_other some r k v (fun hk => hl ((isLength_iff e2).2 hk))
      rw [f1]
      exact ⟨r1, rfl⟩
  · simp only [onReceived, splitHeader_none line hc]
    exact ⟨r, rfl⟩

/-- A length of 2^31 or more makes the callback throw an exception through the transfer library (so a response of 2 GiB cannot be
received). -/
theorem C91_violated (r : Resp Byte) (line n v : Bytes) (hl : isLength line) (hv : HeaderLine line n v) (hne : v ≠ []) (hd : ∀ b ∈ v, isDigit b)
    (hbig : 2 ^ 31 ≤ decimal v) : onReceived narrowConv some r (.header line) = .thrown := by
  simp only [onReceived, (splitHeader_iff line n v).2 hv]
  unfold injectHeader
  simp only [if_pos ((isLength_iff hv).1 hl), stoiB_digits v hne hd, if_neg (show ¬ decimal v < 2 ^ 31 by omega)]
  rfl

/-- Exactly which headers make it throw: those that give a length that does not begin with a number, a negative one or one of 2^31 or
more. -/
theorem C91_exact (r : Resp Byte) (line n v : Bytes) (hv : HeaderLine line n v) :
    onReceived narrowConv some r (.header line) = .thrown ↔ isLength line ∧ ∀ m : Int, Number v m → m < 0 ∨ 2 ^ 31 ≤ m := by
  simp only [onReceived, (splitHeader_iff line n v).2 hv]
  unfold injectHeader
  dsimp only
  by_cases hl : isLength line
  · rw [if_pos ((isLength_iff hv).1 hl)]
    cases hs : stoiB v with
    | none =>
      simp only [CRes.bind, hl, true_and, true_iff]
      intro m hm
      rcases Int.lt_or_le m 0 with h | h
      · exact .inl h
      · refine .inr (Int.not_lt.1 fun c => ?_)
        rw [(stoiB_iff v m).2 ⟨hm, by omega⟩] at hs
        cases hs
    | some x =>
      obtain ⟨h1, h2, h3⟩ := (stoiB_iff v x).1 hs
      dsimp only
      by_cases hx : x < 0
      · rw [if_pos hx]
        simp only [CRes.bind, hl, true_and, true_iff]
        intro m hm
        rcases Int.lt_or_le m 0 with h | h
        · exact .inl h
        · refine .inr (Int.not_lt.1 fun c => ?_)
          have := (stoiB_iff v m).2 ⟨hm, by omega⟩
          rw [hs] at this
          injection this with this
          omega
      · rw [if_neg hx]
        simp only [CRes.bind, reduceCtorEq, false_iff, not_and]
        intro _ c
        have := c x h1
        omega
  · rw [if_neg (fun c => hl ((isLength_iff hv).2 c))]
    simp [CRes.bind, hl]

/-- White space other than what is trimmed, and a sign. -/
example : Number b!"\x0b+12;" 12 ∧ onReceived narrowConv some .fresh (.header b!"Content-Length: \x0b+12;\r\n") =
    .ok (23, { (Resp.fresh : Resp Byte) with reserve := 12, mem := List.replicate 12 none, headers := [(b!"Content-Length", b!"\x0b+12;")] }) :=
  ⟨⟨[11], b!"+", b!"12", b!";", rfl, by decide, by decide, by decide, by decide, .inr ⟨.inr rfl, rfl⟩⟩, by decide +kernel⟩

example : onReceived narrowConv some .fresh (.header b!"Content-Length: 2147483648\r\n") = .thrown := by decide +kernel
example : onReceived narrowConv some .fresh (.header b!"Content-Length: none\r\n") = .thrown := by decide +kernel
example : onReceived narrowConv some .fresh (.header b!"Content-Length: -1\r\n") = .thrown := by decide +kernel

/-! ## C96 the headers of a request -/

theorem addHeaders (hs : List Bytes) : ∀ c : CurlObj, hs.foldl CurlObj.addHeader c = { c with requestHeaders := c.requestHeaders ++ hs } := by
  induction hs with
  | nil => intro c; simp
  | cons h hs ih => intro c; rw [List.foldl_cons, ih]; simp [CurlObj.addHeader]

/-- The transfer library is told exactly the headers added, in this order, whatever has been written to the stream: those of a new object ... -/
theorem C96_headers (e : Enc) (fuel : Nat) (ops : List KOp) (c : CurlObj) (h : Written c e fuel ops) (hn : c.requestHeaders = [] ∧ c.told = none) (hs : List Bytes) :
    ∃ c', (hs.foldl CurlObj.addHeader c).prepare = .ok c' ∧ c'.told.map Prod.snd = some hs := by
  obtain ⟨k, h1, h2⟩ := h
  have hk := C16_run fuel ops [] { freshChunks with enc := e } k ⟨rfl, by simp [freshChunks], by simp [freshChunks], rfl⟩ h1
  obtain ⟨body, pending, e1, _⟩ := close_spec hk (hs.foldl CurlObj.addHeader c) (by rw [addHeaders]; exact h2)
  unfold CurlObj.prepare
  rw [e1]
  refine ⟨_, rfl, ?_⟩
  rw [addHeaders]
  simp [hn.1, hn.2]

/-- ... and of one used before (without `reset()`) those added before too. -/
theorem C96_again (e : Enc) (fuel : Nat) (ops : List KOp) (c : CurlObj) (h : Written c e fuel ops) (hs : List Bytes) (hn : hs ≠ []) :
    ∃ c', (hs.foldl CurlObj.addHeader c).prepare = .ok c' ∧ c'.told.map Prod.snd = some (c.requestHeaders ++ hs) ∧ c'.requestHeaders = c.requestHeaders ++ hs := by
  obtain ⟨k, h1, h2⟩ := h
  have hk := C16_run fuel ops [] { freshChunks with enc := e } k ⟨rfl, by simp [freshChunks], by simp [freshChunks], rfl⟩ h1
  obtain ⟨body, pending, e1, _⟩ := close_spec hk (hs.foldl CurlObj.addHeader c) (by rw [addHeaders]; exact h2)
  unfold CurlObj.prepare
  rw [e1]
  refine ⟨_, rfl, ?_, ?_⟩ <;> rw [addHeaders] <;> simp [hn]

example : Written CurlObj.fresh .none 0 [] ∧ CurlObj.fresh.requestHeaders = [] ∧ CurlObj.fresh.told = none := ⟨⟨_, rfl, rfl⟩, rfl, rfl⟩

/-! ## C92 reset() -/

/-- After `reset()` nothing has been written, nothing received and nothing told to the transfer library. -/
theorem C92_reset_partial (c : CurlObj) : c.reset.resp = .fresh ∧ c.reset.told = none ∧ Written c.reset c.enc 0 [] :=
  ⟨rfl, rfl, _, rfl, rfl⟩

/-- But the headers of the request stay and are sent with the next one, and so does the encoding. -/
theorem C92_violated (c : CurlObj) (header : Bytes) : ∃ c', (c.addHeader header).reset.prepare = .ok c' ∧ ∃ l, c'.told.map Prod.snd = some l ∧ header ∈ l := by
  unfold CurlObj.prepare CurlObj.close CurlObj.reset CurlObj.addHeader emptyBufferK
  simp only [freshChunks, chunkCapacity, List.length_nil]
  simp
theorem C92_encoding_violated : ∃ c : CurlObj, Written c.reset .html 0 [] ∧ c.reset ≠ CurlObj.fresh :=
  ⟨{ CurlObj.fresh with post := .writing { freshChunks with enc := .html } }, ⟨_, rfl, rfl⟩, fun h => by
    have := congrArg (fun c => c.enc) h
    simp [CurlObj.reset, CurlObj.enc, CurlObj.fresh, freshChunks] at this⟩

/-! ## C93 after a POST -/

/-- An object may be destroyed or queued again if its data have not all been read. -/
theorem C93_reuse_partial (c : CurlObj) (e : Enc) (fuel : Nat) (ops : List KOp) (h : Written c e fuel ops) (rooms : List Nat) (hr : ∀ r ∈ rooms, r < 2 ^ 32)
    (hsome : rooms.sum < (kexpected e [] ops).length ∨ rooms = []) :
    c.destroy = .ok () ∧ ∃ c' outs c'', c.prepare = .ok c' ∧ c'.reads rooms = .ok (outs, c'') ∧ c''.destroy = .ok () ∧ c''.reset.destroy = .ok () ∧ ∃ c3, c''.prepare = .ok c3 := by
  obtain ⟨k, h1, h2⟩ := h
  have hk := C16_run fuel ops [] { freshChunks with enc := e } k ⟨rfl, by simp [freshChunks], by simp [freshChunks], rfl⟩ h1
  obtain ⟨c', body, pending, e1, e2, e3, e4, e5, e6, e7, e8, e9, e10⟩ := prepare_spec hk c h2
  have hclose : ∃ x, c.close = .ok x := by
    obtain ⟨b, p, hx, _⟩ := close_spec hk c h2
    exact ⟨_, hx⟩
  have key : ∀ (c'' : CurlObj) (b : List Chunk) (p : Nat) (en : Enc), c''.post = .sent b p en → b ≠ [] → (∃ x, c''.close = .ok x) := by
    intro c'' b p en hp hb
    unfold CurlObj.close
    rw [hp]
    dsimp only [emptySent]
    rw [List.getLast?_eq_some_getLast hb]
    dsimp only
    split <;> exact ⟨_, rfl⟩
  have hreset : ∀ c : CurlObj, c.reset.destroy = .ok () := by
    intro c
    unfold CurlObj.destroy CurlObj.close CurlObj.reset emptyBufferK
    simp [freshChunks, chunkCapacity]
  refine ⟨by obtain ⟨x, hx⟩ := hclose; unfold CurlObj.destroy; rw [hx]; rfl, ?_⟩
  have hgo : ∃ outs c'', c'.reads rooms = .ok (outs, c'') ∧ ∃ b p en, c''.post = .sent b p en ∧ b ≠ [] := by
    by_cases hne : kexpected e [] ops = []
    · rcases hsome with h | h
      · rw [hne] at h; simp at h
      · subst h; exact ⟨[], c', rfl, body, pending, k.enc, e2, e9⟩
    · have hc0 := e3 hne
      obtain ⟨outs, c'', body', f1, f2, f3, f4, f5, f6, f7, f8⟩ := reads_spec k.enc pending rooms c' body (kexpected e [] ops) e2 (by rw [hc0]; exact e8) (by rw [hc0, e7]; rfl) hr
      refine ⟨outs, c'', f1, body', pending, k.enc, f2, ?_⟩
      intro hb
      rw [hb] at f4
      have := congrArg List.length f4
      simp [recorded] at this
      have hpos := List.length_pos_iff.2 hne
      rcases hsome with h | h
      · omega
      · subst h; simp at this; omega
  obtain ⟨outs, c'', f1, b, p, en, f2, f3⟩ := hgo
  obtain ⟨x, hx⟩ := key c'' b p en f2 f3
  refine ⟨c', outs, c'', e1, f1, by unfold CurlObj.destroy; rw [hx]; rfl, hreset _, ?_⟩
  unfold CurlObj.prepare
  rw [hx]
  exact ⟨_, rfl⟩

/-- But once the transfer library has read all data of a POST (a multiple of 4096 bytes excepted), destroying the object, or queueing
it again without `reset()`, uses the last chunk of an empty list. -/
theorem C93_violated (c : CurlObj) (e : Enc) (fuel : Nat) (ops : List KOp) (h : Written c e fuel ops) (rooms : List Nat) (hr : ∀ r ∈ rooms, r < 2 ^ 32)
    (hall : (kexpected e [] ops).length ≤ rooms.sum) (hodd : (kexpected e [] ops).length % 4096 ≠ 0) :
    ∃ c' outs c'', c.prepare = .ok c' ∧ c'.reads rooms = .ok (outs, c'') ∧ c''.destroy = .ub .emptyAccess ∧ c''.prepare = .ub .emptyAccess := by
  obtain ⟨k, h1, h2⟩ := h
  have hk := C16_run fuel ops [] { freshChunks with enc := e } k ⟨rfl, by simp [freshChunks], by simp [freshChunks], rfl⟩ h1
  obtain ⟨c', body, pending, e1, e2, e3, e4, e5, e6, e7, e8, e9, e10⟩ := prepare_spec hk c h2
  have hne : kexpected e [] ops ≠ [] := by intro h; rw [h] at hodd; simp at hodd
  have hc0 := e3 hne
  obtain ⟨outs, c'', body', f1, f2, f3, f4, ⟨n, f5⟩, f6, f7, f8⟩ := reads_spec k.enc pending rooms c' body (kexpected e [] ops) e2 (by rw [hc0]; exact e8) (by rw [hc0, e7]; rfl) hr
  have hempty : body' = [] := by
    cases hb : body' with
    | nil => rfl
    | cons x xs =>
      exfalso
      rw [List.drop_eq_nil_of_le hall, hb] at f4
      have hx := f3.size x (by rw [hb]; simp)
      have hcn := f3.counter x (by rw [hb]; rfl)
      have hlen := congrArg List.length f4
      simp only [recorded, List.flatMap_cons, List.length_drop, List.length_append, List.length_take, List.length_nil] at hlen
      have hx0 : x.size = 0 ∧ c''.counter = 0 := by omega
      -- so `x` is the last chunk, and all others are full
      have hxs : xs = [] := by
        by_cases hxs : xs = []
        · exact hxs
        · have hmem : x ∈ body.dropLast := by
            have : body = body.take n ++ x :: xs := by
              have := (List.take_append_drop n body).symm
              rw [← f5, hb] at this; exact this
            rw [this, List.dropLast_append_of_ne_nil (by simp)]
            cases xs with
            | nil => exact absurd rfl hxs
            | cons y ys => simp
          have := e10 x hmem; omega
      subst hxs
      have hbody : body = body.dropLast ++ [x] := by
        have : body = body.take n ++ [x] := by
          have := (List.take_append_drop n body).symm
          rw [← f5, hb] at this; exact this
        rw [this]; simp
      have hsz : (recorded body).length = (body.map Chunk.size).sum := recorded_length _ fun c hc => (e8.size c hc).2
      rw [e7, hbody] at hsz
      simp only [List.map_append, List.sum_append, List.map_cons, List.map_nil, List.sum_cons, List.sum_nil, hx0.1] at hsz
      have hfull : ∀ l : List Chunk, (∀ x ∈ l, x.size = 4096) → (l.map Chunk.size).sum % 4096 = 0 := by
        intro l
        induction l with
        | nil => intro _; rfl
        | cons y l ih =>
          intro hl
          have h1 := ih fun z hz => hl z (by simp [hz])
          have h2 := hl y (by simp)
          simp only [List.map_cons, List.sum_cons]; omega
      have := hfull _ e10
      omega
  rw [hempty] at f2
  have hclose : c''.close = .ub .emptyAccess := by unfold CurlObj.close; rw [f2]; rfl
  refine ⟨c', outs, c'', e1, f1, ?_, ?_⟩
  · unfold CurlObj.destroy; rw [hclose]; rfl
  · unfold CurlObj.prepare; rw [hclose]; rfl

example : (kexpected .none [] [.insert b!"a=b&c=", .setEnc .url, .insert b!"x y"]).length ≤ [100].sum := by decide +kernel

/-! ## C94 wide responses -/

/-- If every piece of the body is the UTF-8 of some text, the data are the text. -/
theorem C94_wide_partial (l : List Received) (text : Bytes → List UInt32) (hu : ∀ d, .body d ∈ l → utf8Text (text d) = d ∧ ∀ c ∈ text d, isScalar c) (h1 : LengthFirst l) (h2 : LengthsOk l) :
    ∃ r, onAllW .fresh l = .ok (l.map Received.size, r) ∧ r.data = (l.flatMap fun x => match x with | .body d => text d | .header _ => []).map fun c => some (some c) := by
  obtain ⟨r, e1, e2, e3⟩ := onAll_spec utf8In utf8All text utf8In_le (fun t ht => by rw [utf8All_ascii t ht]; rfl) l [] .fresh RespInv.fresh
    (fun d hd => by
      obtain ⟨h, h'⟩ := hu d hd
      have := utf8In_text (text d) h'
      rwa [h] at this) h2 (fun pre line post he hl => ⟨rfl, h1 pre line post he hl⟩)
  exact ⟨r, e1, by rw [e2.dataEq]; rfl⟩

/-- A piece that ends inside a character is not taken completely, which the transfer library treats as an error: the transfer fails. -/
theorem C94_violated (t : List UInt32) (ht : ∀ c ∈ t, isScalar c) (c : UInt32) (hc : isScalar c) (p : Bytes) (hp : p <+: utf8Encode c.toNat) (hne : p ≠ [])
    (hl : p.length < (utf8Encode c.toNat).length) :
    ∃ n r, onAllW .fresh [.body (utf8Text t ++ p)] = .ok ([n], r) ∧ n < (utf8Text t ++ p).length := by
  obtain ⟨r, e1, _⟩ := injectResponse_spec utf8In utf8In_le RespInv.fresh (utf8Text t ++ p)
  rw [utf8In_cut t ht c hc p hp hl] at e1
  simp only [onAllW, onAll, onReceived, e1, CRes.bind]
  refine ⟨_, r, rfl, ?_⟩
  have := List.length_pos_iff.2 hne
  simp; omega

/-- A piece that is not UTF-8 is reported as taken, but all of it is dropped. -/
theorem C94_drop_violated (t : List UInt32) (ht : ∀ c ∈ t, isScalar c) (bad : Bytes) (hb : utf8Decode1 bad = .invalid) :
    ∃ r, onAllW .fresh [.body (utf8Text t ++ bad)] = .ok ([(utf8Text t ++ bad).length], r) ∧ r.data = [] := by
  obtain ⟨r, e1, _, e2⟩ := injectResponse_spec utf8In utf8In_le RespInv.fresh (utf8Text t ++ bad)
  rw [utf8In_invalid t ht bad hb] at e1 e2
  simp only [onAllW, onAll, onReceived, e1, CRes.bind]
  exact ⟨r, rfl, by rw [e2.dataEq]; simp⟩

example : utf8Text [0x48, 0xe9, 0x20ac, 0x1f600] = [0x48, 0xc3, 0xa9, 0xe2, 0x82, 0xac, 0xf0, 0x9f, 0x98, 0x80] := by decide +kernel
example : (match onAllW .fresh [.header b!"Content-Length: 10\r\n", .body [0x48, 0xc3, 0xa9], .body [0xe2, 0x82, 0xac, 0xf0, 0x9f, 0x98, 0x80]] with
    | .ok (n, r) => (n, r.data)
    | _ => ([], [])) = ([20, 3, 7], [0x48, 0xe9, 0x20ac, 0x1f600].map fun c => some (some c)) := by decide +kernel
example : [0xe2, 0x82] <+: utf8Encode (0x20ac : UInt32).toNat ∧ isScalar 0x20ac := ⟨by decide +kernel, Or.inl (by decide)⟩
example : utf8Decode1 [0xff, 0x41] = .invalid := by decide +kernel

/-! ## C95 wide chunk buffers (request bodies of wide objects) -/

/-- What a wide chunk buffer should hold. -/
def kwexpected (e : Enc) (acc : Bytes) : List KWOp → Bytes
  | [] => acc
  | .insert s :: ops => kwexpected e (acc ++ utf8Text (s.flatMap (encode1 wideTable e))) ops
  | .put c :: ops => kwexpected e (acc ++ utf8Encode c.toNat) ops
  | .flush :: ops => kwexpected e acc ops
  | .setEnc e' :: ops => kwexpected e' acc ops
  | .clear :: ops => kwexpected e [] ops

def KWScalar : KWOp → Prop
  | .insert s => ∀ c ∈ s, Scalar c
  | .put c => Scalar c
  | _ => True

theorem C95_table {utf8} (hu : Utf8Converter utf8) : TableOk (convertible utf8 fun c => utf8Encode c.toNat) wideTable := by
  have hgood : ∀ c, Scalar c → convertible utf8 (fun c => utf8Encode c.toNat) c := fun c h => ⟨hu c h.1 h.2, C60_utf8_length _⟩
  have hascii : ∀ b : UInt8, b < 128 → Scalar b.toUInt32 := by
    intro b hb
    have hb' : b.toNat < 128 := by simpa [UInt8.lt_iff_toNat_lt] using hb
    constructor <;> simp <;> omega
  intro e c hc
  unfold encode1
  by_cases he : e = .none
  · rw [if_pos he]; simp; exact hc
  · rw [if_neg he]
    unfold wideTable
    split
    · cases ht : charTable e c.toUInt8 with
      | none => simp; exact hc
      | some x =>
        have := charTable_length e _ x ht
        refine ⟨by simp; omega, by simp; omega, ?_⟩
        intro y hy
        simp at hy
        obtain ⟨b, hb, rfl⟩ := hy
        exact hgood _ (hascii b (this.2.2 b hb))
    · simp; exact hc

theorem C95_run {utf8} (hu : Utf8Converter utf8) (ops : List KWOp) : ∀ (D : Bytes) (st : WideChunks), (∀ op ∈ ops, KWScalar op) →
    WideInv (convertible utf8 fun c => utf8Encode c.toNat) (fun c => utf8Encode c.toNat) D st →
    ∃ st', kwrun utf8 st ops = .ok st' ∧ WideInv (convertible utf8 fun c => utf8Encode c.toNat) (fun c => utf8Encode c.toNat) (kwexpected st.enc D ops) st' := by
  have hgood : ∀ c, Scalar c → convertible utf8 (fun c => utf8Encode c.toNat) c := fun c h => ⟨hu c h.1 h.2, C60_utf8_length _⟩
  induction ops with
  | nil => intro D st _ h; exact ⟨st, rfl, h⟩
  | cons op ops ih =>
    intro D st hs h
    have hop := hs op (by simp)
    have ih := fun D st => ih D st fun o ho => hs o (by simp [ho])
    simp only [kwrun]
    cases op with
    | insert s =>
      obtain ⟨st1, e1, e2, e3⟩ := wxsputn_spec (C95_table hu) (s.length + 1) s D st h (fun c hc => hgood c (hop c hc)) (Or.inl (by omega))
      simp only [KWOp.step, e1, Res.ok_bind]
      have := ih _ st1 e3
      rwa [e2] at this
    | put c =>
      obtain ⟨st1, e1, e2, e3⟩ := wsputc_spec c h (hgood c hop)
      simp only [KWOp.step, e1, Res.ok_bind]
      have := ih _ st1 e3
      rwa [e2] at this
    | flush =>
      obtain ⟨b, e1, e2, e3⟩ := emptyBufferKW_good h
      simp only [KWOp.step, e1, Res.ok_bind, Res.pure_eq]
      exact ih _ _ e3
    | setEnc e =>
      simp only [KWOp.step, Res.ok_bind]
      exact ih D { st with enc := e } ⟨h.cap, h.len, h.good, h.data⟩
    | clear =>
      simp only [KWOp.step, Res.ok_bind]
      exact ih [] { st with buf := [], cap := chunkCapacity, sink := [] } ⟨rfl, by simp, by simp, [], ⟨by simp, rfl⟩, rfl⟩

/-- Text of Unicode characters written to a wide chunk buffer is in its chunks after a flush, in UTF-8; no chunk exceeds its capacity, nothing
loops. -/
theorem C95_content_partial {utf8} (hu : Utf8Converter utf8) (ops : List KWOp) (hs : ∀ op ∈ ops, KWScalar op) :
    ∃ st, kwrun utf8 freshWide (ops ++ [.flush]) = .ok st ∧ st.buf = [] ∧ (st.sink.flatMap fun c => c.data.take c.size) = kwexpected .none [] ops ∧
      ∀ c ∈ st.sink, c.size ≤ 4096 ∧ c.size ≤ c.data.length := by
  obtain ⟨st1, e1, e2⟩ := C95_run hu ops [] freshWide hs ⟨rfl, by simp [freshWide], by simp [freshWide], [], ⟨by simp [freshWide], rfl⟩, rfl⟩
  obtain ⟨b, f1, f2, f3⟩ := emptyBufferKW_good e2
  have happ : ∀ (ops ops' : List KWOp) (st : WideChunks), kwrun utf8 st (ops ++ ops') = (kwrun utf8 st ops >>= fun st => kwrun utf8 st ops') := by
    intro ops ops'
    induction ops with
    | nil => intro st; rfl
    | cons op ops ih =>
      intro st
      simp only [List.cons_append, kwrun]
      cases op.step utf8 st with
      | ok a => simp only [Res.ok_bind]; exact ih a
      | ub k => rfl
      | stuck => rfl
  refine ⟨{ st1 with buf := [], cap := chunkCapacity, sink := b }, ?_, rfl, f2.data, f2.size⟩
  rw [happ, e1]
  simp only [Res.ok_bind, kwrun, KWOp.step, f1, Res.pure_eq]

/-- The read callback (the same code) hands over the data of a wide object, too. -/
theorem C95_post_partial {utf8} (hu : Utf8Converter utf8) (ops : List KWOp) (hs : ∀ op ∈ ops, KWScalar op) (rooms : List Nat) (hr : ∀ r ∈ rooms, r < 2 ^ 32) :
    ∃ st outs c, kwrun utf8 freshWide (ops ++ [.flush]) = .ok st ∧ ({ CurlObj.fresh with post := .sent st.sink 0 st.enc } : CurlObj).reads rooms = .ok (outs, c) ∧
      outs.flatten = (kwexpected .none [] ops).take rooms.sum := by
  obtain ⟨st, e1, e2, e3, e4⟩ := C95_content_partial hu ops hs
  obtain ⟨outs, c, b, f1, f2, f3, f4, f5, f6, _⟩ := reads_spec st.enc 0 rooms { CurlObj.fresh with post := .sent st.sink 0 st.enc } st.sink (kwexpected .none [] ops) rfl
    ⟨e4, fun _ _ => Or.inr rfl, fun _ => rfl⟩ e3 hr
  exact ⟨st, outs, c, e1, f1, f6⟩

/-- One character that has no encoding makes the buffer drop everything in it. -/
theorem C95_violated (utf8) (bad : UInt32) (hb : utf8 bad = none) (before after : List UInt32) (hlen : before.length + 1 + after.length ≤ 4096)
    (hfit : ∀ c ∈ before, ∃ x, utf8 c = some x ∧ x.length ≤ 4) (hshort : 4 * before.length ≤ 4096) :
    ∃ st, kwrun utf8 freshWide [.insert (before ++ [bad] ++ after), .flush] = .ok st ∧ st.buf = [] ∧ (st.sink.flatMap fun c => c.data.take c.size) = [] := by
  have hround : ∀ (before : List UInt32) (room : Nat), 4 * before.length ≤ room → (∀ c ∈ before, ∃ x, utf8 c = some x ∧ x.length ≤ 4) →
      (outRound utf8 room (before ++ bad :: after)).2.2 = true := by
    intro l
    induction l with
    | nil => intro room _ _; simp [outRound, hb]
    | cons c l ih =>
      intro room h hc
      obtain ⟨x, hx, hx4⟩ := hc c (by simp)
      simp only [List.length_cons] at h
      simp only [List.cons_append, outRound, hx]
      rw [if_neg (by omega)]
      exact ih _ (by omega) fun d hd => hc d (by simp [hd])
  have hl : (before ++ [bad] ++ after).length ≤ 4096 := by simp; omega
  have hr := hround before 4096 hshort hfit
  have hs : before ++ [bad] ++ after = before ++ bad :: after := by simp
  rw [hs] at hl ⊢
  generalize before ++ bad :: after = s at *
  have hne : s ≠ [] := by intro h; rw [h] at hr; simp [outRound] at hr
  have hx : xsputn wideTable (emptyBufferKW utf8) (s.length + 1) freshWide s = .ok { freshWide with buf := s } := by
    unfold xsputn
    have hm : min s.length 4096 = s.length := by omega
    simp [freshWide, fillNone, chunkCapacity, hm]
  have hf : emptyBufferKW utf8 { freshWide with buf := s } = .ok ({ freshWide with buf := [], sink := [⟨[], 0⟩] }, false) := by
    unfold emptyBufferKW
    rw [if_neg hne]
    simp only [freshWide, withRoom, List.getLast?_nil]
    unfold outLoop
    simp only [List.getLast?_singleton, chunkCapacity, Nat.sub_zero, hr, if_true]
    simp
  simp only [kwrun, KWOp.step, hx, Res.ok_bind, hf, Res.pure_eq]
  exact ⟨_, rfl, rfl, rfl⟩

/-- And if the characters before it fill a chunk, they are there twice after the next flush. -/
theorem C95_twice_violated {utf8} (hu : Utf8Converter utf8) (bad : UInt32) (hb : utf8 bad = none) (a : List UInt32) (ha : ∀ c ∈ a, Scalar c) (hfull : (utf8Text a).length = 4096)
    (hlen : a.length + 2 ≤ 4096) : ∃ st, kwrun utf8 freshWide [.insert (a ++ [0x41, bad]), .flush, .flush] = .ok st ∧
      (st.sink.flatMap fun c => c.data.take c.size) = utf8Text a ++ utf8Text a := by
  have hcv : ∀ c ∈ a, utf8 c = some (utf8Encode c.toNat) := fun c hc => hu c (ha c hc).1 (ha c hc).2
  have h41 : utf8 0x41 = some [0x41] := by
    have := hu 0x41 (by decide) (by decide)
    rw [this]; decide
  have hane : a ≠ [] := by intro h; rw [h] at hfull; simp [utf8Text] at hfull
  have hr1 : outRound utf8 4096 (a ++ [0x41, bad]) = (utf8Text a, [0x41, bad], false) := by
    rw [outRound_exact [0x41, bad] a 4096 hcv (by unfold utf8Text at hfull; omega)]
    rw [show (a.flatMap fun c => utf8Encode c.toNat).length = 4096 from hfull]
    simp [outRound, h41, utf8Text]
  have hr2 : (outRound utf8 4096 [0x41, bad]).2.2 = true := by simp [outRound, h41, hb]
  have hr3 : outRound utf8 4096 a = (utf8Text a, [], false) := by
    have := outRound_exact [] a 4096 hcv (by unfold utf8Text at hfull; omega)
    rw [List.append_nil] at this
    rw [this]; simp [outRound, utf8Text]
  have hx : xsputn wideTable (emptyBufferKW utf8) ((a ++ [0x41, bad]).length + 1) freshWide (a ++ [0x41, bad]) = .ok { freshWide with buf := a ++ [0x41, bad] } := by
    unfold xsputn
    have hm : min (a ++ [0x41, bad]).length 4096 = (a ++ [0x41, bad]).length := by simp; omega
    simp only [freshWide, fillNone, chunkCapacity, if_true, List.length_nil, Nat.sub_zero, hm, List.take_length, List.drop_length, List.nil_append]
  have hf1 : emptyBufferKW utf8 { freshWide with buf := a ++ [0x41, bad] } = .ok ({ freshWide with buf := a, sink := [⟨utf8Text a, 4096⟩, ⟨[], 0⟩] }, false) := by
    unfold emptyBufferKW
    rw [if_neg (by simp)]
    simp only [freshWide, withRoom, List.getLast?_nil]
    unfold outLoop
    simp only [List.getLast?_singleton, chunkCapacity, Nat.sub_zero, hr1, Bool.false_eq_true, if_false, List.take_zero, List.nil_append, Nat.zero_add, hfull]
    rw [if_neg (by simp)]
    simp only [List.dropLast_singleton, List.nil_append]
    unfold outLoop
    have hgl : ([⟨utf8Text a, 4096⟩] ++ [⟨[], 0⟩] : List Chunk).getLast? = some ⟨[], 0⟩ := by simp
    simp only [hgl, chunkCapacity, Nat.sub_zero, hr2, if_true]
    simp
  have hf2 : emptyBufferKW utf8 { freshWide with buf := a, sink := [⟨utf8Text a, 4096⟩, ⟨[], 0⟩] } =
      .ok ({ freshWide with buf := [], sink := [⟨utf8Text a, 4096⟩, ⟨utf8Text a, 4096⟩] }, true) := by
    unfold emptyBufferKW
    rw [if_neg hane]
    have hwr : withRoom [⟨utf8Text a, 4096⟩, ⟨[], 0⟩] = [⟨utf8Text a, 4096⟩, ⟨[], 0⟩] := by
      unfold withRoom
      simp only [List.getLast?_cons_cons, List.getLast?_singleton]
      rw [if_neg (by simp [chunkCapacity])]
    simp only [freshWide, hwr]
    unfold outLoop
    simp only [List.getLast?_cons_cons, List.getLast?_singleton, chunkCapacity, Nat.sub_zero, hr3, Bool.false_eq_true, if_false, if_true, List.take_zero, List.nil_append,
      Nat.zero_add, hfull]
    simp
  simp only [kwrun, KWOp.step, hx, Res.ok_bind, hf1, hf2, Res.pure_eq]
  refine ⟨_, rfl, ?_⟩
  simp only [List.flatMap_cons, List.flatMap_nil, List.append_nil]
  rw [List.take_of_length_le (by omega)]

example : (match kwrun demoUtf8 freshWide [.insert [0x41, 0xe9], .setEnc .html, .insert [0x3c], .put 0x20ac, .flush] with | .ok st => st.sink | _ => []) =
    [⟨[0x41, 0xc3, 0xa9, 0x26, 0x6c, 0x74, 0x3b, 0xe2, 0x82, 0xac], 10⟩] := by decide +kernel

example : ∃ a : List UInt32, (∀ c ∈ a, Scalar c) ∧ (utf8Text a).length = 4096 ∧ a.length + 2 ≤ 4096 := by
  refine ⟨List.replicate 2048 0xe9, ?_, ?_, by rw [List.length_replicate]; omega⟩
  · intro c hc; rw [(List.mem_replicate.1 hc).2]; exact ⟨by decide, by decide⟩
  · have : ∀ n, (utf8Text (List.replicate n 0xe9)).length = 2 * n := by
      intro n
      induction n with
      | zero => rfl
      | succ n ih =>
        simp only [utf8Text, List.replicate_succ, List.flatMap_cons, List.length_append] at *
        rw [ih, show (utf8Encode (0xe9 : UInt32).toNat).length = 2 by decide]; omega
    exact this 2048

end Fcgi.Props
