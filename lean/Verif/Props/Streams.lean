import Verif.Lemmas.Streams
import Verif.Lemmas.HttpText
/-! # Properties C12–C16, C59, C60: output streams -/
namespace Fcgi.Props
open Fcgi Fcgi.Model Fcgi.Spec

/-! ## C12 content, C13 record format -/

/-- The data written by an operation that is not a change of encoding. -/
def writtenBy {α} (toBytes : List α → Bytes) : SOp α → Bytes
  | .insert s => toBytes s
  | .put c => toBytes [c]
  | .dump d => d
  | .dumpStream d => d
  | .flush => []
  | .setEnc _ => []

def noEnc {α} (ops : List (SOp α)) : Prop := ∀ op ∈ ops, ∀ e, op ≠ .setEnc e

/-- A record is what a FastCGI output record of request `id` and type `type` must be. -/
structure GoodRecord (id : UInt16) (type : UInt8) (r : Record) : Prop where
  version : r.version = 1
  type : r.type = type
  id : r.id = id.toNat
  contentLength : 1 ≤ r.content.length ∧ r.content.length ≤ 65535
  padding : r.padding.length < 8
  aligned : r.bytes.length % 8 = 0

theorem C12_flatMap_single (s : Bytes) : s.flatMap (fun c => [c]) = s := by
  induction s with
  | nil => rfl
  | cons a l ih => rw [List.flatMap_cons, ih]; rfl

theorem C12_expected_plain {α} (table : Enc → α → Option (List α)) (cv : α → Bytes) (ops : List (SOp α)) (h : noEnc ops) :
    expected table cv .none ops = ops.flatMap (writtenBy (List.flatMap cv)) := by
  induction ops with
  | nil => rfl
  | cons op ops ih =>
    have ih := ih (fun o ho => h o (by simp [ho]))
    cases op with
    | setEnc e => exact absurd rfl (h (.setEnc e) (by simp) e)
    | insert s => simp [expected, writtenBy, ih, encode1_none]
    | put c => simp [expected, writtenBy, ih]
    | flush => simp [expected, writtenBy, ih]
    | dump d => simp [expected, writtenBy, ih]
    | dumpStream d => simp [expected, writtenBy, ih]

/-- Any sequence of operations ending in a flush, with any changes of encoding: the records sent all
have the required form and go to the request's socket (C13), and nothing is left in the buffer. -/
theorem C13_records (g) (ops : List (SOp UInt8)) (sock : Nat) (id : UInt16) (type : UInt8) :
    ∃ st, ∃ rs : List Record, srunC g (freshStream sock id type) (ops ++ [.flush]) = .ok st ∧ st.buf = [] ∧
      st.sink.sent = rs.map (fun r => (sock, r.bytes)) ∧ ∀ r ∈ rs, GoodRecord id type r := by
  obtain ⟨st, e1, e2, rs, h1, h2, h3⟩ := srun_flushed g (flushOk_char g) tableOk_char ops
    (by intro op _; cases op <;> simp [SOpGood]) sock id type
  refine ⟨st, rs, e1, e2, by rw [h2]; simp, ?_⟩
  intro r hr
  have := h1 r hr
  exact ⟨this.version, this.type, this.id, ⟨this.content_pos, this.content_max⟩, this.padding, this.aligned⟩

/-- With no encoding selected, the contents of the records sent, concatenated, are exactly what was
written, in order: strings, single characters, raw dumps and streams, with flushes anywhere. -/
theorem C12_content (g) (ops : List (SOp UInt8)) (hne : noEnc ops) (sock : Nat) (id : UInt16) (type : UInt8) :
    ∃ st, ∃ rs : List Record, srunC g (freshStream sock id type) (ops ++ [.flush]) = .ok st ∧ st.buf = [] ∧
      st.sink.sent = rs.map (fun r => (sock, r.bytes)) ∧ (∀ r ∈ rs, GoodRecord id type r) ∧
      rs.flatMap Record.content = ops.flatMap (writtenBy _root_.id) := by
  obtain ⟨st, e1, e2, rs, h1, h2, h3⟩ := srun_flushed g (flushOk_char g) tableOk_char ops
    (by intro op _; cases op <;> simp [SOpGood]) sock id type
  refine ⟨st, rs, e1, e2, by rw [h2]; simp, ?_, ?_⟩
  · intro r hr
    have := h1 r hr
    exact ⟨this.version, this.type, this.id, ⟨this.content_pos, this.content_max⟩, this.padding, this.aligned⟩
  · rw [h3, C12_expected_plain _ _ ops hne]
    congr 1
    funext op
    cases op <;> simp [writtenBy, C12_flatMap_single]

/-- Strings, characters, a flush, a dump: three records. -/
def C12_demo : List (SOp UInt8) :=
  [.insert b!"Hello ", .put 87, .flush, .flush, .dump b!"raw", .insert b!"!", .dumpStream b!"file"]
example : (match srunC (fun _ _ => 0) (freshStream 4 7 6) (C12_demo ++ [.flush]) with
    | .ok st => st.sink.sent
    | _ => []) =
    [(4, [1, 6, 0, 7, 0, 7, 1, 0] ++ b!"Hello W" ++ [0]), (4, [1, 6, 0, 7, 0, 3, 5, 0] ++ b!"raw" ++ [0, 0, 0, 0, 0]),
     (4, [1, 6, 0, 7, 0, 1, 7, 0] ++ b!"!" ++ [0, 0, 0, 0, 0, 0, 0]), (4, [1, 6, 0, 7, 0, 4, 4, 0] ++ b!"file" ++ [0, 0, 0, 0])] := by
  decide +kernel
example : noEnc C12_demo := by unfold noEnc C12_demo; simp

/-! ## C14 HTML encoding -/

theorem C14_encode_html (s : Bytes) : HtmlText (s.flatMap (encode1 charTable .html)) s := by
  induction s with
  | nil => exact .nil
  | cons c s ih =>
    rw [List.flatMap_cons]
    have key : ∀ c : UInt8, (c ∉ [34, 38, 39, 60, 62] ∧ encode1 charTable .html c = [c]) ∨
        (c = 34 ∧ encode1 charTable .html c = b!"&quot;") ∨ (c = 38 ∧ encode1 charTable .html c = b!"&amp;") ∨
        (c = 39 ∧ encode1 charTable .html c = b!"&apos;") ∨ (c = 60 ∧ encode1 charTable .html c = b!"&lt;") ∨
        (c = 62 ∧ encode1 charTable .html c = b!"&gt;") := byte_forall (by decide +kernel)
    rcases key c with ⟨h, e⟩ | ⟨rfl, e⟩ | ⟨rfl, e⟩ | ⟨rfl, e⟩ | ⟨rfl, e⟩ | ⟨rfl, e⟩ <;> rw [e]
    · exact .plain c h ih
    · exact .entity .quot ih
    · exact .entity .amp ih
    · exact .entity .apos ih
    · exact .entity .lt ih
    · exact .entity .gt ih

/-- The content produced by any writes, followed by any number of insertions with encoding `e`. -/
theorem C14_content (g) (pre : List (SOp UInt8)) (hne : noEnc pre) (e : Enc) (ss : List Bytes) (sock id type) :
    ∃ st, ∃ rs : List Record, srunC g (freshStream sock id type) (pre ++ [.setEnc e] ++ ss.map .insert ++ [.flush]) = .ok st ∧
      st.sink.sent = rs.map (fun r => (sock, r.bytes)) ∧
      rs.flatMap Record.content =
        pre.flatMap (writtenBy _root_.id) ++ ss.flatten.flatMap (encode1 charTable e) := by
  obtain ⟨st, e1, e2, rs, h1, h2, h3⟩ := srun_flushed g (flushOk_char g) tableOk_char (pre ++ [.setEnc e] ++ ss.map .insert)
    (by intro op _; cases op <;> simp [SOpGood]) sock id type
  refine ⟨st, rs, e1, by rw [h2]; simp, ?_⟩
  rw [h3, List.append_assoc, expected_append _ _ _ hne, C12_expected_plain _ _ pre hne]
  congr 1
  · congr 1; funext op; cases op <;> simp [writtenBy, C12_flatMap_single]
  · simp only [List.cons_append, List.nil_append, expected]
    clear h3 h2 h1 e2 e1
    induction ss with
    | nil => rfl
    | cons s ss ih => simp only [List.map_cons, expected, ih, C12_flatMap_single, List.flatten_cons, List.flatMap_append]

/-- After any unencoded output (so at any buffer offset), inserting the strings `ss` with encoding
HTML appends text made of ordinary characters and the five entities only, which reads as the
concatenation of `ss`, however it was split. -/
theorem C14_html (g) (pre : List (SOp UInt8)) (hne : noEnc pre) (ss : List Bytes) (sock id type) :
    ∃ st, ∃ rs : List Record, ∃ out, srunC g (freshStream sock id type) (pre ++ [.setEnc .html] ++ ss.map .insert ++ [.flush]) = .ok st ∧
      st.sink.sent = rs.map (fun r => (sock, r.bytes)) ∧
      rs.flatMap Record.content = pre.flatMap (writtenBy _root_.id) ++ out ∧ HtmlText out ss.flatten := by
  obtain ⟨st, rs, h1, h2, h3⟩ := C14_content g pre hne .html ss sock id type
  exact ⟨st, rs, _, h1, h2, h3, C14_encode_html _⟩

/-- Such text contains no markup character, and what it stands for is unique. -/
theorem C14_neutral {out s : Bytes} (h : HtmlText out s) : 34 ∉ out ∧ 39 ∉ out ∧ 60 ∉ out ∧ 62 ∉ out := by
  induction h with
  | nil => simp
  | plain c hc _ ih =>
    simp only [List.mem_cons, List.not_mem_nil, or_false, not_or] at hc ⊢
    refine ⟨⟨fun e => hc.1 e.symm, ih.1⟩, ⟨fun e => hc.2.2.1 e.symm, ih.2.1⟩, ⟨fun e => hc.2.2.2.1 e.symm, ih.2.2.1⟩,
      ⟨fun e => hc.2.2.2.2 e.symm, ih.2.2.2⟩⟩
  | entity he _ ih => cases he <;> simp [ih]

theorem C14_unique {out s s' : Bytes} (h : HtmlText out s) (h' : HtmlText out s') : s = s' := by
  induction h generalizing s' with
  | nil =>
    generalize ho : ([] : Bytes) = o at h'
    cases h' with
    | nil => rfl
    | plain _ _ _ => cases ho
    | entity he _ => cases he <;> cases ho
  | @plain c out s hc h1 ih =>
    generalize ho : c :: out = o at h'
    cases h' with
    | nil => cases ho
    | plain c' hc' h2 => cases ho; rw [ih h2]
    | entity he h2 => cases he <;> (simp at ho; exact absurd ho.1 (by intro e; subst e; simp at hc))
  | @entity c e out s he h1 ih =>
    generalize ho : e ++ out = o at h'
    cases h' with
    | nil => cases he <;> simp at ho
    | plain c' hc' h2 => cases he <;> (simp at ho; exact absurd ho.1 (by intro e; subst e; simp at hc'))
    | entity he' h2 => cases he <;> cases he' <;> (simp at ho; try (subst ho; rw [ih h2]))

example : (match srunC (fun _ _ => 0) (freshStream 4 7 6) [.setEnc .html, .insert b!"<a b='c'>", .insert b!"&\"", .flush] with
    | .ok st => st.sink.sent.map (fun p => (p.2.drop 8).take 42)
    | _ => []) = [b!"&lt;a b=&apos;c&apos;&gt;&amp;&quot;" ++ [0, 0, 0, 0]] := by decide +kernel

/-! ## C15 URL encoding -/

theorem C15_encode_url (s : Bytes) : UrlText (s.flatMap (encode1 charTable .url)) s := by
  induction s with
  | nil => exact .nil
  | cons c s ih =>
    rw [List.flatMap_cons]
    have key : ∀ c : UInt8, (c ≠ 37 ∧ c ≠ 43 ∧ encode1 charTable .url c = [c]) ∨
        ((encode1 charTable .url c).length = 3 ∧ (encode1 charTable .url c)[0]? = some 37 ∧
          ∃ h : Fin 16, ∃ l : Fin 16, ((encode1 charTable .url c)[1]?.bind hexValue) = some h.val ∧
            ((encode1 charTable .url c)[2]?.bind hexValue) = some l.val ∧
              c = UInt8.ofNat (16 * h.val + l.val)) := byte_forall (by decide +kernel)
    rcases key c with ⟨h1, h2, e⟩ | h
    · rw [e]; exact .plain c ⟨h1, h2⟩ ih
    · obtain ⟨h3, h0, a, b, hx, hy, hc⟩ := h
      generalize encode1 charTable .url c = o at *
      match o, h3 with
      | [p, x, y], _ =>
        simp at h0 hx hy
        subst h0
        conv => arg 2; rw [hc]
        exact .esc x y hx hy ih

/-- After any unencoded output, inserting `ss` with encoding URL appends text without any reserved
character, which is a correct percent-encoding of the concatenation of `ss` and which the library's
own decoder turns back into it. -/
theorem C15_url (g) (pre : List (SOp UInt8)) (hne : noEnc pre) (ss : List Bytes) (sock id type) :
    ∃ st, ∃ rs : List Record, ∃ out, srunC g (freshStream sock id type) (pre ++ [.setEnc .url] ++ ss.map .insert ++ [.flush]) = .ok st ∧
      st.sink.sent = rs.map (fun r => (sock, r.bytes)) ∧
      rs.flatMap Record.content = pre.flatMap (writtenBy _root_.id) ++ out ∧
      (∀ c ∈ out, c ∉ urlReserved) ∧ UrlText out ss.flatten ∧ percentEscapedToRealBytes out = ss.flatten := by
  obtain ⟨st, rs, h1, h2, h3⟩ := C14_content g pre hne .url ss sock id type
  refine ⟨st, rs, _, h1, h2, h3, ?_, C15_encode_url _, pctDecode_urlText (C15_encode_url _)⟩
  intro c hc
  obtain ⟨x, _, hx⟩ := List.mem_flatMap.1 hc
  have key : ∀ x : UInt8, ∀ c ∈ encode1 charTable .url x, c ∉ urlReserved := byte_forall (by decide +kernel)
  exact key x c hx

example : (match srunC (fun _ _ => 0) (freshStream 4 7 6) [.setEnc .url, .insert b!"a b/c", .insert b!"%=", .flush] with
    | .ok st => st.sink.sent.map (fun p => (p.2.drop 8).take 15)
    | _ => []) = [b!"a%20b%2Fc%25%3D"] := by decide +kernel

/-! ## C59 single characters under an encoding -/

/-- The property fails for `put`: with encoding HTML selected, `os.put('<')` outputs a bare `<`, at
any buffer offset. -/
theorem C59_violated (g) (pre : List (SOp UInt8)) (hne : noEnc pre) (c : UInt8) (e : Enc) (sock id type) :
    ∃ st, ∃ rs : List Record, srunC g (freshStream sock id type) (pre ++ [.setEnc e] ++ [.put c] ++ [.flush]) = .ok st ∧
      st.sink.sent = rs.map (fun r => (sock, r.bytes)) ∧
      rs.flatMap Record.content = pre.flatMap (writtenBy _root_.id) ++ [c] := by
  obtain ⟨st, e1, e2, rs, h1, h2, h3⟩ := srun_flushed g (flushOk_char g) tableOk_char (pre ++ [.setEnc e] ++ [.put c])
    (by intro op _; cases op <;> simp [SOpGood]) sock id type
  refine ⟨st, rs, e1, by rw [h2]; simp, ?_⟩
  rw [h3, List.append_assoc, expected_append _ _ _ hne, C12_expected_plain _ _ pre hne]
  congr 1
  congr 1; funext op; cases op <;> simp [writtenBy, C12_flatMap_single]

/-! ## C60 wide streams -/

/-- The converter encodes exactly the Unicode scalar values below `limit` as UTF-8. -/
def Utf8Converter (utf8 : UInt32 → Option Bytes) : Prop :=
  ∀ c : UInt32, c.toNat < 0x110000 → ¬(0xd800 ≤ c.toNat ∧ c.toNat < 0xe000) →
    utf8 c = some (utf8Encode c.toNat)

/-- A Unicode scalar value. -/
def Scalar (c : UInt32) : Prop := c.toNat < 0x110000 ∧ ¬(0xd800 ≤ c.toNat ∧ c.toNat < 0xe000)

def SOpScalar : SOp UInt32 → Prop
  | .insert s => ∀ c ∈ s, Scalar c
  | .put c => Scalar c
  | _ => True

theorem C60_utf8_length (n : Nat) : 1 ≤ (utf8Encode n).length ∧ (utf8Encode n).length ≤ 4 := by
  unfold utf8Encode
  split
  · simp
  · split
    · simp
    · split <;> simp

/-- A wide output stream given Unicode text sends its UTF-8 encoding (and raw dumps unchanged), in
order, in well formed records. -/
theorem C60_wide (g) (utf8) (hu : Utf8Converter utf8) (ops : List (SOp UInt32)) (hne : noEnc ops)
    (hs : ∀ op ∈ ops, SOpScalar op) (sock : Nat) (id : UInt16) (type : UInt8) :
    ∃ st, ∃ rs : List Record, srunW g utf8 (freshStream sock id type) (ops ++ [.flush]) = .ok st ∧ st.buf = [] ∧
      st.sink.sent = rs.map (fun r => (sock, r.bytes)) ∧ (∀ r ∈ rs, GoodRecord id type r) ∧
      rs.flatMap Record.content = ops.flatMap (writtenBy (List.flatMap (fun c => utf8Encode c.toNat))) := by
  have hgood : ∀ c, Scalar c → utf8 c = some (utf8Encode c.toNat) ∧ 1 ≤ (utf8Encode c.toNat).length ∧
      (utf8Encode c.toNat).length ≤ 4 := fun c h => ⟨hu c h.1 h.2, C60_utf8_length _⟩
  have hascii : ∀ b : UInt8, b < 128 → Scalar b.toUInt32 := by
    intro b hb
    have hb' : b.toNat < 128 := by simpa [UInt8.lt_iff_toNat_lt] using hb
    constructor <;> simp <;> omega
  have htab : TableOk (fun c => utf8 c = some (utf8Encode c.toNat) ∧ 1 ≤ (utf8Encode c.toNat).length ∧
      (utf8Encode c.toNat).length ≤ 4) wideTable := by
    intro e c hc
    unfold encode1
    by_cases he : e = .none
    · rw [if_pos he]; simp; exact hc
    · rw [if_neg he]
      unfold wideTable
      split
      · cases ht : charTable e c.toUInt8 with
        | none => simp; exact hc
        | some x =>
          have := charTable_length e _ x ht
          refine ⟨by simp; omega, by simp; omega, ?_⟩
          intro y hy
          simp at hy
          obtain ⟨b, hb, rfl⟩ := hy
          exact hgood _ (hascii b (this.2.2 b hb))
      · simp; exact hc
  obtain ⟨st, e1, e2, rs, h1, h2, h3⟩ := srun_flushed g (flushOk_wide g utf8 (fun c => utf8Encode c.toNat)) htab ops
    (by
      intro op hop
      have := hs op hop
      cases op with
      | insert s => exact fun c hc => hgood c (this c hc)
      | put c => exact hgood c this
      | _ => trivial) sock id type
  refine ⟨st, rs, e1, e2, by rw [h2]; simp, ?_, ?_⟩
  · intro r hr
    have := h1 r hr
    exact ⟨this.version, this.type, this.id, ⟨this.content_pos, this.content_max⟩, this.padding, this.aligned⟩
  · rw [h3, C12_expected_plain _ _ ops hne]

/-- But one character that has no encoding makes the stream silently drop everything that happens to
be in the buffer with it. -/
theorem C60_violated (g) (utf8) (bad : UInt32) (hb : utf8 bad = none) (before after : List UInt32)
    (hlen : before.length + 1 + after.length ≤ 8192) (sock id type) :
    ∃ st, srunW g utf8 (freshStream sock id type) [.insert (before ++ [bad] ++ after), .flush] = .ok st ∧
      st.buf = [] ∧ st.sink.sent = [] := by
  have hc : convert utf8 (before ++ [bad] ++ after) = none := by
    clear hlen
    rw [List.append_assoc, List.singleton_append]
    induction before with
    | nil => simp [convert, hb]
    | cons c l ih =>
      simp only [List.cons_append, convert]
      cases utf8 c with
      | none => rfl
      | some x => rw [ih]
  have hl : (before ++ [bad] ++ after).length ≤ 8192 := by simp; omega
  generalize hs : before ++ [bad] ++ after = s at *
  have hx : xsputn wideTable (emptyBufferW g utf8) (s.length + 1) (freshStream sock id type) s =
      .ok { (freshStream sock id type : WebBuf UInt32 FcgiSink) with buf := s } := by
    unfold xsputn
    have hm : min s.length 8192 = s.length := by omega
    simp [freshStream, fillNone, buffSize, hm]
  have hne : s ≠ [] := by rw [← hs]; simp
  simp only [srunW, srun, SOp.step, hx, Res.ok_bind]
  unfold emptyBufferW
  cases s with
  | nil => exact absurd rfl hne
  | cons c l =>
    simp only [hc, Res.ok_bind, Res.pure_eq]
    exact ⟨_, rfl, rfl, rfl⟩

/-- Encoder used in the demonstrations. -/
def demoUtf8 (c : UInt32) : Option Bytes := if c.toNat < 0x110000 then some (utf8Encode c.toNat) else none
example : Utf8Converter demoUtf8 := by intro c h _; simp [demoUtf8, h]
example : (match srunW (fun _ _ => 0) demoUtf8 (freshStream 4 7 6) [.insert [0x41, 0xe9, 0x20ac], .put 0x1f600, .flush] with
    | .ok st => st.sink.sent
    | _ => []) = [(4, [1, 6, 0, 7, 0, 10, 6, 0, 0x41, 0xc3, 0xa9, 0xe2, 0x82, 0xac, 0xf0, 0x9f, 0x98, 0x80,
      0, 0, 0, 0, 0, 0])] := by decide +kernel
example : demoUtf8 0x110000 = none := by decide +kernel

/-! ## C16 chunk buffers -/

/-- What a chunk buffer should hold after a sequence of operations, starting with encoding `e` and
contents `acc`: text inserted with an encoding is encoded, `clear` forgets everything. -/
def kexpected (e : Enc) (acc : Bytes) : List KOp → Bytes
  | [] => acc
  | .insert s :: ops => kexpected e (acc ++ s.flatMap (encode1 charTable e)) ops
  | .put c :: ops => kexpected e (acc ++ [c]) ops
  | .flush :: ops => kexpected e acc ops
  | .setEnc e' :: ops => kexpected e' acc ops
  | .clear :: ops => kexpected e [] ops

theorem C16_run (fuel : Nat) (ops : List KOp) : ∀ (D : Bytes) (st st' : ChunkBuf), KInv D st →
    krun fuel st ops = .ok st' → KInv (kexpected st.enc D ops) st' := by
  induction ops with
  | nil => intro D st st' h hr; simp only [krun, Res.ok.injEq] at hr; subst hr; exact h
  | cons op ops ih =>
    intro D st st' h hr
    simp only [krun, Res.bind_eq_ok] at hr
    obtain ⟨st1, h1, h2⟩ := hr
    cases op with
    | insert s =>
      obtain ⟨e1, e2⟩ := kxsputn_spec fuel s D st st1 h h1
      have := ih _ _ _ e2 h2
      rwa [e1] at this
    | put c =>
      obtain ⟨st2, e1, e2, e3⟩ := ksputc_spec c h
      simp only [KOp.step, e1, Res.ok.injEq] at h1; subst h1
      have := ih _ _ _ e3 h2
      rwa [e2] at this
    | flush =>
      obtain ⟨st2, e1, e2, e3, _⟩ := emptyBufferK_spec h
      simp only [KOp.step, e1, Res.ok_bind, Res.pure_eq, Res.ok.injEq] at h1; subst h1
      have := ih _ _ _ e2 h2
      rwa [e3] at this
    | setEnc e =>
      simp only [KOp.step, Res.ok.injEq] at h1; subst h1
      exact ih D { st with enc := e } _ ⟨h.cap, h.len, h.front, h.data⟩ h2
    | clear =>
      simp only [KOp.step, Res.ok.injEq] at h1; subst h1
      exact ih [] { st with buf := [], cap := chunkCapacity, sink := ⟨[], 0⟩ } _ ⟨rfl, by simp, by simp, rfl⟩ h2

theorem C16_append (fuel : Nat) (ops ops' : List KOp) (st : ChunkBuf) :
    krun fuel st (ops ++ ops') = (krun fuel st ops >>= fun st => krun fuel st ops') := by
  induction ops generalizing st with
  | nil => rfl
  | cons op ops ih =>
    simp only [List.cons_append, krun]
    cases op.step fuel st with
    | ok a => simp only [Res.ok_bind]; exact ih a
    | ub k => rfl
    | stuck => rfl

theorem C16_init : KInv [] freshChunks := ⟨rfl, by simp [freshChunks], by simp [freshChunks], rfl⟩

/-- If the operations terminate, then after a flush the chunks hold exactly the expected data: their
recorded parts concatenated; every chunk but the last is full and no chunk exceeds its capacity. -/
theorem C16_content (fuel : Nat) (ops : List KOp) (st : ChunkBuf)
    (hr : krun fuel freshChunks (ops ++ [.flush]) = .ok st) :
    (st.body.flatMap fun c => c.data.take c.size) = kexpected .none [] ops ∧
      (∀ c ∈ st.body, c.size ≤ 4096 ∧ c.size ≤ c.data.length) ∧ (∀ c ∈ st.body.dropLast, c.size = 4096) := by
  rw [C16_append] at hr
  obtain ⟨st1, h1, h2⟩ := Res.bind_eq_ok.1 hr
  have hk := C16_run fuel ops [] _ _ C16_init h1
  obtain ⟨st2, e1, e2, e3, e4, _⟩ := emptyBufferK_spec hk
  simp only [krun, KOp.step, e1, Res.ok_bind, Res.pure_eq, Res.ok.injEq] at h2
  subst h2
  have hfront : ∀ c ∈ st2.sink.front, c.data.take c.size = c.data := by
    intro c hc; have := e2.front c hc; rw [List.take_of_length_le (by omega)]
  refine ⟨?_, ?_, ?_⟩
  · rw [← show _ = kexpected .none [] ops from e2.data]
    simp only [ChunkBuf.body, ChunkBuf.all, List.flatMap_append, List.flatMap_cons, List.flatMap_nil, e4,
      List.take_length, List.append_nil]
    congr 1
    generalize st2.sink.front = l at hfront
    induction l with
    | nil => rfl
    | cons a l ih =>
      rw [List.flatMap_cons, List.flatMap_cons, hfront a (by simp), ih (fun c hc => hfront c (by simp [hc]))]
  · intro c hc
    rcases List.mem_append.1 hc with h | h
    · have := e2.front c h; simp only [chunkCapacity] at this; omega
    · simp at h; subst h; have := e2.len; simp only [chunkCapacity] at this; dsimp only; omega
  · intro c hc
    simp only [ChunkBuf.body, List.dropLast_concat] at hc
    exact (e2.front c hc).1

/-- Without encodings every sequence of operations terminates (`C16_content` then applies). -/
theorem C16_terminates_partial (ops : List KOp) (hne : ∀ op ∈ ops, ∀ e, op ≠ .setEnc e) :
    ∃ fuel st, krun fuel freshChunks (ops ++ [.flush]) = .ok st := by
  have : ∀ fuel, (∀ s, KOp.insert s ∈ ops → s.length < fuel) → ∀ D st, KInv D st → st.enc = .none →
      ∃ st' D', krun fuel st ops = .ok st' ∧ KInv D' st' := by
    intro fuel hf
    induction ops with
    | nil => intro D st h _; exact ⟨st, D, rfl, h⟩
    | cons op ops ih =>
      intro D st h he
      have ih := ih (fun o ho => hne o (by simp [ho])) (fun s hs => hf s (by simp [hs]))
      simp only [krun]
      cases op with
      | insert s =>
        obtain ⟨st1, e1⟩ := kxsputn_none fuel s D st h he (Or.inl (hf s (by simp)))
        obtain ⟨e2, e3⟩ := kxsputn_spec fuel s D st st1 h e1
        simp only [KOp.step, e1, Res.ok_bind]
        exact ih _ _ e3 (by rw [e2]; exact he)
      | put c =>
        obtain ⟨st2, e1, e2, e3⟩ := ksputc_spec c h
        simp only [KOp.step, e1, Res.ok_bind]
        exact ih _ _ e3 (by rw [e2]; exact he)
      | flush =>
        obtain ⟨st2, e1, e2, e3, _⟩ := emptyBufferK_spec h
        simp only [KOp.step, e1, Res.ok_bind, Res.pure_eq]
        exact ih _ _ e2 (by rw [e3]; exact he)
      | setEnc e => exact absurd rfl (hne (.setEnc e) (by simp) e)
      | clear =>
        simp only [KOp.step, Res.ok_bind]
        exact ih [] _ ⟨rfl, by simp, by simp, rfl⟩ he
  have hmax : ∀ ops : List KOp, ∃ fuel, ∀ s, KOp.insert s ∈ ops → s.length < fuel := by
    intro ops
    induction ops with
    | nil => exact ⟨0, by simp⟩
    | cons op ops ih =>
      obtain ⟨f, hf⟩ := ih
      cases op with
      | insert s =>
        refine ⟨max f (s.length + 1), ?_⟩
        intro s' hs'
        rcases List.mem_cons.1 hs' with h | h
        · cases h; omega
        · have := hf s' h; omega
      | _ => exact ⟨f, by intro s' hs'; simp at hs'; exact hf s' hs'⟩
  obtain ⟨fuel, hfuel⟩ := hmax ops
  obtain ⟨st, D, h1, h2⟩ := this fuel hfuel [] freshChunks C16_init rfl
  obtain ⟨st2, e1, _⟩ := emptyBufferK_spec h2
  refine ⟨fuel, st2, ?_⟩
  rw [C16_append, h1]
  simp [krun, KOp.step, e1]

/-- Termination fails with encodings: if an escape does not fit into what is left of the current
chunk (here the chunk holds 4095 bytes and `<` is inserted with encoding HTML), the insertion loops
for ever. -/
theorem C16_violated (fill : Bytes) (hl : fill.length = 4095) (fuel : Nat) :
    krun fuel freshChunks [.insert fill, .setEnc .html, .insert [60]] = .stuck := by
  have hloop : ∀ (n : Nat) (st : ChunkBuf), st.buf.length = 4095 → st.cap = 4096 → st.enc = .html →
      xsputn charTable emptyBufferK n st [60] = .stuck := by
    intro n
    induction n with
    | zero => intros; rfl
    | succ n ih =>
      intro st h1 h2 h3
      have ht : charTable .html 60 = some b!"&lt;" := by decide
      unfold xsputn
      simp only [h3, h2, fillMap, ht, h1]
      simp only [reduceCtorEq, if_false, Nat.reduceSub, List.length_cons, List.length_nil, Nat.zero_add, Nat.reduceAdd, Nat.reduceLT, if_true]
      simp only [emptyBufferK, h1, chunkCapacity]
      simp only [Nat.reduceEqDiff, if_false, Res.ok_bind]
      exact ih _ h1 rfl rfl
  cases fuel with
  | zero => rfl
  | succ n =>
    have hx : xsputn charTable emptyBufferK (n+1) freshChunks fill = .ok { freshChunks with buf := fill } := by
      unfold xsputn
      have hd : fill.drop 4095 = [] := List.drop_eq_nil_of_le (by omega)
      simp [freshChunks, fillNone, chunkCapacity, hl, List.take_of_length_le, hd]
    simp only [krun, KOp.step, hx, Res.ok_bind]
    rw [hloop (n+1) _ hl rfl rfl]
    rfl

example : (match krun 9 freshChunks [.insert b!"x=", .setEnc .url, .insert b!"1&2", .flush, .setEnc .none, .put 33, .flush] with
    | .ok st => st.body
    | _ => []) = [⟨b!"x=1%262!", 8⟩] := by decide +kernel

end Fcgi.Props
