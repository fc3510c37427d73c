import Verif.Lemmas.OstreamPrompt
import Verif.Lemmas.RequestPort
import Verif.Props.Streams
/-! # Properties C124 (and C59): the streams of a request, as an application uses them -/
namespace Fcgi.Props
open Fcgi Fcgi.Model Fcgi.Spec

theorem rendersAll_of {α} {toBytes : List α → Bytes} {render : Item α → Bytes} (is : List (Item α)) (h : ∀ i ∈ is, Renders toBytes i (render i)) :
    RendersAll toBytes is (is.flatMap render) := by
  induction is with
  | nil => rfl
  | cons i is ih => exact ⟨_, _, List.flatMap_cons, h i (by simp), ih fun j hj => h j (by simp [hj])⟩

theorem renders_narrow (i : Item UInt8) : Renders _root_.id i (rendItem charTable (fun c => [c]) i) := by
  cases i with
  | text e s =>
    cases e
    · simp only [Renders, rendItem, encOf_plain, C12_flatMap_single, id]
    · simp only [Renders, rendItem, encOf, C12_flatMap_single, id]
      exact C14_encode_html s
    · simp only [Renders, rendItem, encOf, C12_flatMap_single, id]
      exact C15_encode_url s
  | raw d => rfl

/-- A record of type `t` of this request. -/
abbrev RecordOf (id : UInt16) (t : UInt8) (r : Record) : Prop := GoodRecord id t r

theorem goodRecord_of {id t r} (h : isOut id t r) : GoodRecord id t r := ⟨h.1, h.2.1, h.2.2.1, h.2.2.2.1, h.2.2.2.2.1, h.2.2.2.2.2⟩

/-- What has been handed to the transceiver over the life of a request: `before` the END_REQUEST record and `after` it, all of them
records of its two output streams. -/
structure Handed {α} (r d : ReqStreams α) (g : Nat → UInt8) (sock : Nat) (id : UInt16) (status : UInt8) (kill : Bool) (before after : List Record) : Prop where
  upToEnd : r.log = before.map (fun q => (sock, q.bytes, false)) ++ [(sock, endRequestRecord g id status, kill)]
  atDeath : d.log = r.log ++ after.map (fun q => (sock, q.bytes, false))
  records : ∀ q ∈ before ++ after, GoodRecord id 6 q ∨ GoodRecord id 7 q

/-! ## C124 -/

/-- Whatever an application does with `out` and `err` - strings, characters, numbers, fields, copying of other streams, failures, raw data, in
any order, with any buffering and either version of the standard library - the records of each of the two streams carry exactly what was
said to it, rendered according to the encoding chosen, nothing more and nothing less.  If the stream is good at the end (or the library's
`flush()` does not care) all of it comes before the END_REQUEST record. -/
theorem C124_partial (sentry : Bool) (g : Nat → Nat → Nat → UInt8) (h : Nat → UInt8) (sock : Nat) (id : UInt16) (status : UInt8) (kill : Bool)
    (ops : List (Bool × OOp UInt8)) :
    ∃ r d before after, wholeLife (narrowOs sentry g) h 32 sock id status kill ops = .ok (r, d) ∧ Handed r d h sock id status kill before after ∧
      RendersAll _root_.id ((OFmt.fresh 32).said (opsOn false ops)) (contents 6 (before ++ after)) ∧
      RendersAll _root_.id ((OFmt.fresh 32).said (opsOn true ops)) (contents 7 (before ++ after)) ∧
      (sentry = false ∨ ((OFmt.fresh (32 : UInt8)).after (opsOn false ops)).good → ∀ q ∈ after, q.type ≠ 6) ∧
      (sentry = false ∨ ((OFmt.fresh (32 : UInt8)).after (opsOn true ops)).good → ∀ q ∈ after, q.type ≠ 7) := by
  obtain ⟨r, d, before, after, e1, e2, e3, e4, e5, e6, e7, e8⟩ := rs_life (E := narrowOs sentry g) (table := charTable) (good := fun _ => True)
    (fun _ => rfl) (fun _ => flushOk_char _) tableOk_char h 32 trivial sock id status kill ops
    (by intro p _; obtain ⟨_, op⟩ := p; cases op <;> simp [OOpGood])
  refine ⟨r, d, before, after, e1, ⟨e2, e3, fun q hq => (e4 q hq).imp goodRecord_of goodRecord_of⟩, ?_, ?_, e7, e8⟩
  · rw [e5]; exact rendersAll_of _ fun i _ => renders_narrow i
  · rw [e6]; exact rendersAll_of _ fun i _ => renders_narrow i

/-- The characters of an operation are Unicode scalar values. -/
def OOpScalar : OOp UInt32 → Prop
  | .insert s | .number s | .write s => ∀ c ∈ s, isScalar c
  | .char c | .put c | .fillWith c => isScalar c
  | .copy ps => ∀ p ∈ ps, ∀ c ∈ p, isScalar c
  | _ => True

/-- The characters of an item are. -/
def Item.scalar : Item UInt32 → Prop
  | .text _ s => ∀ c ∈ s, isScalar c
  | .raw _ => True

theorem renders_wide (i : Item UInt32) (hi : Item.scalar i) : Renders utf8Text i (rendItem wideTable cv8 i) := by
  cases i with
  | text e s =>
    have key : ∀ e', (s.flatMap (encode1 wideTable e')).flatMap cv8 = (utf8Text s).flatMap (encode1 charTable e') := by
      intro e'
      induction s with
      | nil => rfl
      | cons c s ih =>
        have h1 := encode1_port e' c (hi c (by simp))
        have h2 := ih fun x hx => hi x (by simp [hx])
        simp only [utf8Text, List.flatMap_cons, List.flatMap_append] at h2 ⊢
        rw [h1, h2]
    simp only [rendItem, key]
    cases e
    · simp only [Renders, encOf_plain]
    · exact C14_encode_html _
    · exact C15_encode_url _
  | raw d => rfl

theorem said_scalar (ops : List (OOp UInt32)) : ∀ (f : OFmt UInt32), isScalar f.fill → (∀ op ∈ ops, OOpScalar op) → ∀ i ∈ f.said ops, Item.scalar i := by
  induction ops with
  | nil => intro f _ _ i hi; cases hi
  | cons op ops ih =>
    intro f hfill hs i hi
    have hop := hs op (by simp)
    have hpad : ∀ (s : List UInt32), (∀ c ∈ s, isScalar c) → ∀ i ∈ f.padded s, Item.scalar i := by
      intro s h i hi
      unfold OFmt.padded at hi
      have hr : ∀ c ∈ List.replicate (f.width - s.length).toNat f.fill, isScalar c := by
        intro c hc; rw [(List.mem_replicate.1 hc).2]; exact hfill
      dsimp only at hi
      split at hi <;> (simp only [List.mem_cons, List.not_mem_nil, or_false] at hi; rcases hi with rfl | rfl) <;> first | exact h | exact hr
    rw [OFmt.said] at hi
    rcases List.mem_append.1 hi with c | c
    · cases op <;> simp only [OFmt.says] at c <;> try (split at c) <;> try (cases c; done)
      all_goals (try split at c)
      all_goals (try (first | exact hpad _ hop _ c | (simp only [List.mem_singleton] at c; subst c; exact hop)))
      all_goals (try (exact hpad _ (by intro x hx; rw [List.mem_singleton] at hx; subst hx; exact hop) _ c))
      all_goals (try (simp only [List.mem_singleton] at c; subst c; first | trivial | (intro x hx; rw [List.mem_singleton] at hx; subst hx; exact hop)))
      all_goals (try (cases c; done))
      rename_i ps _
      obtain ⟨p, hp, rfl⟩ := List.mem_map.1 c
      split <;> exact hop p hp
    · refine ih (f.next op) ?_ (fun o ho => hs o (by simp [ho])) i c
      cases op <;> simp only [OFmt.next] <;> try split
      all_goals first | exact hfill | exact hop

/-- The same for wide streams and Unicode text, in UTF-8. -/
theorem C124_wide_partial (sentry : Bool) (g : Nat → Nat → Nat → UInt8) (h : Nat → UInt8) (sock : Nat) (id : UInt16) (status : UInt8) (kill : Bool)
    (ops : List (Bool × OOp UInt32)) (hs : ∀ p ∈ ops, OOpScalar p.2) :
    ∃ r d before after, wholeLife (wideOs sentry g) h 32 sock id status kill ops = .ok (r, d) ∧ Handed r d h sock id status kill before after ∧
      RendersAll utf8Text ((OFmt.fresh 32).said (opsOn false ops)) (contents 6 (before ++ after)) ∧
      RendersAll utf8Text ((OFmt.fresh 32).said (opsOn true ops)) (contents 7 (before ++ after)) ∧
      (sentry = false ∨ ((OFmt.fresh (32 : UInt32)).after (opsOn false ops)).good → ∀ q ∈ after, q.type ≠ 6) ∧
      (sentry = false ∨ ((OFmt.fresh (32 : UInt32)).after (opsOn true ops)).good → ∀ q ∈ after, q.type ≠ 7) := by
  have hsp : isScalar 32 := by left; decide
  obtain ⟨r, d, before, after, e1, e2, e3, e4, e5, e6, e7, e8⟩ := rs_life (E := wideOs sentry g) (table := wideTable) (good := goodW) (cv := cv8)
    (fun _ => rfl) (fun _ => flushOk_wide _ utf8Put cv8) tableOk_wide h 32 ((goodW_iff 32).2 hsp) sock id status kill ops
    (by
      intro p hp
      have := hs p hp
      obtain ⟨_, op⟩ := p
      cases op <;> simp only [OOpGood, OOpScalar] at this ⊢
      all_goals first
        | exact (goodW_iff _).2 this
        | exact fun c hc => (goodW_iff c).2 (this c hc)
        | exact fun q hq c hc => (goodW_iff c).2 (this q hq c hc))
  have hon : ∀ e, ∀ op ∈ opsOn e ops, OOpScalar op := by
    intro e op ho
    obtain ⟨p, hp, rfl⟩ := List.mem_map.1 ho
    exact hs p (List.mem_filter.1 hp).1
  refine ⟨r, d, before, after, e1, ⟨e2, e3, fun q hq => (e4 q hq).imp goodRecord_of goodRecord_of⟩, ?_, ?_, e7, e8⟩
  · rw [e5]; exact rendersAll_of _ fun i hi => renders_wide i (said_scalar _ _ hsp (hon false) i hi)
  · rw [e6]; exact rendersAll_of _ fun i hi => renders_wide i (said_scalar _ _ hsp (hon true) i hi)

/-- Fields, numbers, an encoding, a file, raw data, a failure that is cleared: everything is there. -/
def C124_demo : List (Bool × OOp UInt8) :=
  [(false, .insert b!"Content-Type: text/html\r\n\r\n"), (false, .width 4), (false, .fillWith 48), (false, .insert b!"7"), (true, .insert b!"note"),
   (false, .coding .html), (false, .insert b!"<&"), (false, .copy [b!"a>", b!"b"]), (false, .copy []), (false, .insert b!"lost"), (false, .clear),
   (false, .number b!"42"), (false, .dump b!"raw")]
example : (OFmt.fresh 32).said (opsOn false C124_demo) =
    [.text .plain [], .text .plain b!"Content-Type: text/html\r\n\r\n", .text .plain b!"000", .text .plain b!"7", .text .plain [], .text .html b!"<&",
     .text .html b!"a>", .text .plain b!"b", .text .html b!"42", .raw b!"raw"] := by decide +kernel
example : ((OFmt.fresh (32 : UInt8)).after (opsOn false C124_demo)).good = true := by decide +kernel
example : (match wholeLife (narrowOs true fun _ _ _ => 0) (fun _ => 0) 32 4 7 0 true C124_demo with
    | .ok (_, d) => d.log.map fun p => (p.2.1[1]!, (p.2.1.drop 8).take (p.2.1[5]!).toNat, p.2.2)
    | _ => []) =
    [(6, b!"Content-Type: text/html\r\n\r\n0007&lt;&amp;a&gt;b42", false), (6, b!"raw", false), (7, b!"note", false), (3, [0, 0, 0, 0, 0, 0, 0, 0], true)] := by
  decide +kernel

/-- The property fails with a standard library whose `flush()` looks at the state of the stream (GCC 12 and later): an application that
copies an empty file to `out`, as in `out << file.rdbuf()`, or makes the stream fail in any other way, has everything still in the buffer sent
only when the request is destroyed, after its END_REQUEST record.  By then the web server may have given the id to another request. -/
theorem C124_violated (g : Nat → Nat → Nat → UInt8) (h : Nat → UInt8) (sock : Nat) (id : UInt16) (status : UInt8) (kill : Bool)
    (s : Bytes) (hs : 1 ≤ s.length ∧ s.length ≤ 8192) (bad : OOp UInt8) (hb : bad ∈ [OOp.copy [], .copy [[]], .null, .fail]) :
    ∃ r d after, wholeLife (narrowOs true g) h 32 sock id status kill [(false, .insert s), (false, bad)] = .ok (r, d) ∧
      r.log = [(sock, endRequestRecord h id status, kill)] ∧ d.log = r.log ++ after.map (fun q => (sock, Record.bytes q, false)) ∧
      (∀ q ∈ after, GoodRecord id 6 q ∨ GoodRecord id 7 q) ∧ contents 6 after = s := by
  have hl : s.length ≤ buffSize := hs.2
  have hx : xsputn charTable (emptyBufferC (g 6)) (s.length + 1) (freshStream sock id 6) s =
      .ok { (freshStream sock id 6 : WebBuf UInt8 FcgiSink) with buf := s } := by
    unfold xsputn
    have hm : min s.length 8192 = s.length := by omega
    simp [freshStream, fillNone, buffSize, hm]
  let o1 : Ostr UInt8 := { Ostr.fresh 32 sock id 6 with st := { (freshStream sock id 6 : WebBuf UInt8 FcgiSink) with buf := s } }
  have h1 : (Ostr.fresh 32 sock id 6).step (narrowOs true g false) (.insert s) = .ok o1 := by
    have hw : ¬ ((0 : Int) > (s.length : Int)) := by omega
    simp only [Ostr.step, Ostr.guarded, Ostr.fresh, if_true, Ostr.insertBody, hw, if_false, Ostr.sputn, narrowOs, Bool.false_eq_true, hx, Res.ok_bind,
      Res.pure_eq, Ostr.sentryEnd, o1]
  have h2 : o1.step (narrowOs true g false) bad = .ok { o1 with good := false } := by
    simp only [List.mem_cons, List.not_mem_nil, or_false] at hb
    rcases hb with rfl | rfl | rfl | rfl
    · simp [Ostr.step, o1, Ostr.fresh, copyPieces, Res.ok_bind, Ostr.sentryEnd]
    · simp [Ostr.step, o1, Ostr.fresh, copyPieces, Res.ok_bind, Ostr.sentryEnd]
    · rfl
    · rfl
  have h3 : ({ o1 with good := false } : Ostr UInt8).step (narrowOs true g false) .flush = .ok { o1 with good := false } := by
    simp [Ostr.step, Ostr.guarded, narrowOs, Res.ok_bind, Ostr.sentryEnd, o1, Ostr.fresh]
  have h4 : (Ostr.fresh 32 sock id 7).step (narrowOs true g true) .flush = .ok (Ostr.fresh (32 : UInt8) sock id 7) := by
    simp [Ostr.step, Ostr.guarded, narrowOs, Res.ok_bind, Ostr.sentryEnd, Ostr.fresh, emptyBufferC, freshStream, sendAll, Res.pure_eq]
  obtain ⟨r, d, before, after, e1, e2, e3, e4, e5, _, _, _⟩ := rs_life (E := narrowOs true g) (table := charTable) (good := fun _ => True)
    (fun _ => rfl) (fun _ => flushOk_char _) tableOk_char h 32 trivial sock id status kill [(false, .insert s), (false, bad)]
    (by intro p _; obtain ⟨_, op⟩ := p; cases op <;> simp [OOpGood])
  have hr : r.log = [(sock, endRequestRecord h id status, kill)] := by
    simp only [wholeLife, ReqStreams.run, ReqStreams.fresh, ReqStreams.on, Bool.false_eq_true, if_false, h1, Res.ok_bind, Res.pure_eq, h2, ReqStreams.complete,
      h3, if_true, h4, Ostr.newRecords] at e1
    cases hd : ReqStreams.destroy (narrowOs true g) _ with
    | ok d' =>
      rw [hd] at e1
      simp only [Res.ok_bind] at e1
      injection e1 with e1
      injection e1 with e1 _
      rw [← e1]
      simp [o1, Ostr.fresh, freshStream]
    | ub k => rw [hd] at e1; cases e1
    | stuck => rw [hd] at e1; cases e1
  have hb0 : before = [] := by
    rw [hr] at e2
    have := congrArg List.length e2
    simp at this
    exact this
  subst hb0
  refine ⟨r, d, after, e1, hr, e3, fun q hq => (e4 q (by simpa using hq)).imp goodRecord_of goodRecord_of, ?_⟩
  rw [List.nil_append] at e5
  rw [e5]
  simp only [List.mem_cons, List.not_mem_nil, or_false] at hb
  rcases hb with rfl | rfl | rfl | rfl <;>
    simp [opsOn, OFmt.said, OFmt.says, OFmt.next, OFmt.fresh, OFmt.padded, rendItem, encOf_plain, C12_flatMap_single]

example : OOp.copy [] ∈ [OOp.copy [], .copy [[]], .null, .fail (α := UInt8)] := by simp
example : (match wholeLife (narrowOs true fun _ _ _ => 0) (fun _ => 0) 32 4 7 0 false [(false, .insert b!"the page"), (false, .copy [])] with
    | .ok (_, d) => d.log.map fun p => (p.2.1[1]!, (p.2.1.drop 8).take (p.2.1[5]!).toNat)
    | _ => []) = [(3, [0, 0, 0, 0, 0, 0, 0, 0]), (6, b!"the page")] := by decide +kernel

/-! ## C59: what else is not encoded -/

/-- A character inserted with `<<`, the padding of a field and a one-character source are not encoded either. -/
theorem C59_stream_violated (sentry : Bool) (g : Nat → Nat → Nat → UInt8) (h : Nat → UInt8) (sock : Nat) (id : UInt16) (status : UInt8) (kill : Bool)
    (e : Coding) (c : UInt8) (ops : List (OOp UInt8)) (hops : ops ∈ [[.char c], [.width 1, .fillWith c, .insert []], [OOp.copy [[c]]]]) :
    ∃ r d before, wholeLife (narrowOs sentry g) h 32 sock id status kill ((OOp.coding e :: ops).map fun o => (false, o)) = .ok (r, d) ∧
      Handed r d h sock id status kill before [] ∧ contents 6 before = [c] := by
  obtain ⟨r, d, before, after, e1, e2, e3, e4, e5, e6, e7, e8⟩ := rs_life (E := narrowOs sentry g) (table := charTable) (good := fun _ => True)
    (fun _ => rfl) (fun _ => flushOk_char _) tableOk_char h 32 trivial sock id status kill ((OOp.coding e :: ops).map fun o => (false, o))
    (by intro p _; obtain ⟨_, op⟩ := p; cases op <;> simp [OOpGood])
  have ho : opsOn false ((OOp.coding e :: ops).map fun o => (false, o)) = OOp.coding e :: ops := by
    simp only [opsOn]
    rw [List.filter_eq_self.2 (by intro p hp; obtain ⟨q, _, rfl⟩ := List.mem_map.1 hp; simp), List.map_map]
    exact List.map_id _
  have ht : opsOn true ((OOp.coding e :: ops).map fun o => (false, o)) = [] := by
    simp only [opsOn]
    rw [List.filter_eq_nil_iff.2 (by intro p hp; obtain ⟨q, _, rfl⟩ := List.mem_map.1 hp; simp)]
    rfl
  rw [ho] at e5 e7
  rw [ht] at e8
  have hgood : ((OFmt.fresh (32 : UInt8)).after (OOp.coding e :: ops)).good = true := by
    simp only [List.mem_cons, List.not_mem_nil, or_false] at hops
    rcases hops with rfl | rfl | rfl <;> simp [OFmt.after, OFmt.next, OFmt.fresh]
  have ha : after = [] := by
    cases after with
    | nil => rfl
    | cons q _ =>
      rcases e4 q (by simp) with c | c
      · exact absurd c.2.1 (e7 (.inr hgood) q (by simp))
      · exact absurd c.2.1 (e8 (.inr rfl) q (by simp))
  subst ha
  refine ⟨r, d, before, e1, ⟨e2, e3, fun q hq => (e4 q hq).imp goodRecord_of goodRecord_of⟩, ?_⟩
  rw [List.append_nil] at e5
  rw [e5]
  simp only [List.mem_cons, List.not_mem_nil, or_false] at hops
  rcases hops with rfl | rfl | rfl <;> simp [OFmt.said, OFmt.says, OFmt.next, OFmt.fresh, OFmt.padded, rendItem, encOf, encode1]

example : [OOp.copy [b!"<"]] ∈ [[OOp.char (60 : UInt8)], [.width 1, .fillWith 60, .insert []], [OOp.copy [[60]]]] := by simp
/-! ## C126: what is flushed is sent at once -/

/-- The records of the two streams of request `id` on connection `sock` that have been handed to the transceiver. -/
structure HandedNow {α} (r : ReqStreams α) (sock : Nat) (id : UInt16) (rs : List Record) : Prop where
  log : r.log = rs.map (fun q => (sock, q.bytes, false))
  records : ∀ q ∈ rs, GoodRecord id 6 q ∨ GoodRecord id 7 q

theorem narrow_opsGood (ops : List (Bool × OOp UInt8)) : ∀ p ∈ ops, OOpGood (fun _ => True) p.2 := by
  intro p _; obtain ⟨_, op⟩ := p; cases op <;> simp [OOpGood]

theorem wide_opsGood {ops : List (Bool × OOp UInt32)} (hs : ∀ p ∈ ops, OOpScalar p.2) : ∀ p ∈ ops, OOpGood goodW p.2 := by
  intro p hp
  have := hs p hp
  obtain ⟨_, op⟩ := p
  cases op <;> simp only [OOpGood, OOpScalar] at this ⊢
  all_goals first
    | exact (goodW_iff _).2 this
    | exact fun c hc => (goodW_iff c).2 (this c hc)
    | exact fun q hq c hc => (goodW_iff c).2 (this q hq c hc)

theorem opsOn_scalar {ops : List (Bool × OOp UInt32)} (hs : ∀ p ∈ ops, OOpScalar p.2) (e : Bool) : ∀ op ∈ opsOn e ops, OOpScalar op := by
  intro op ho
  obtain ⟨p, hp, rfl⟩ := List.mem_map.1 ho
  exact hs p (List.mem_filter.1 hp).1

/-- Whatever has been done with the two streams of a request, after `flush()` of a good stream, after raw data, and after any output while
`std::unitbuf` is set, everything said to that stream so far has been handed to the transceiver. -/
theorem C126_prompt (sentry : Bool) (g : Nat → Nat → Nat → UInt8) (sock : Nat) (id : UInt16) (ops : List (Bool × OOp UInt8)) (e : Bool) (op : OOp UInt8)
    (hp : Prompt sentry ((OFmt.fresh (32 : UInt8)).after (opsOn e ops)).good (unitAfter (opsOn e ops)) op) :
    ∃ r rs, (ReqStreams.fresh 32 sock id).run (narrowOs sentry g) (ops ++ [(e, op)]) = .ok r ∧ HandedNow r sock id rs ∧
      RendersAll _root_.id ((OFmt.fresh 32).said (opsOn e ops ++ [op])) (contents (if e then 7 else 6) rs) := by
  obtain ⟨r, rs, e1, e2, e3, e4⟩ := rs_prompt (E := narrowOs sentry g) (table := charTable) (good := fun _ => True)
    (fun _ => rfl) (fun _ => flushOk_char _) tableOk_char 32 trivial sock id ops e op (narrow_opsGood _) hp
  exact ⟨r, rs, e1, ⟨e2, fun q hq => (e3 q hq).imp goodRecord_of goodRecord_of⟩, by rw [e4]; exact rendersAll_of _ fun i _ => renders_narrow i⟩

/-- The same for wide streams and Unicode text, in UTF-8. -/
theorem C126_wide_prompt (sentry : Bool) (g : Nat → Nat → Nat → UInt8) (sock : Nat) (id : UInt16) (ops : List (Bool × OOp UInt32)) (e : Bool) (op : OOp UInt32)
    (hs : ∀ p ∈ ops ++ [(e, op)], OOpScalar p.2)
    (hp : Prompt sentry ((OFmt.fresh (32 : UInt32)).after (opsOn e ops)).good (unitAfter (opsOn e ops)) op) :
    ∃ r rs, (ReqStreams.fresh 32 sock id).run (wideOs sentry g) (ops ++ [(e, op)]) = .ok r ∧ HandedNow r sock id rs ∧
      RendersAll utf8Text ((OFmt.fresh 32).said (opsOn e ops ++ [op])) (contents (if e then 7 else 6) rs) := by
  have hsp : isScalar 32 := by left; decide
  obtain ⟨r, rs, e1, e2, e3, e4⟩ := rs_prompt (E := wideOs sentry g) (table := wideTable) (good := goodW) (cv := cv8)
    (fun _ => rfl) (fun _ => flushOk_wide _ utf8Put cv8) tableOk_wide 32 ((goodW_iff 32).2 hsp) sock id ops e op (wide_opsGood hs) hp
  refine ⟨r, rs, e1, ⟨e2, fun q hq => (e3 q hq).imp goodRecord_of goodRecord_of⟩, ?_⟩
  rw [e4]
  refine rendersAll_of _ fun i hi => renders_wide i (said_scalar _ _ hsp ?_ i hi)
  intro o ho
  rcases List.mem_append.1 ho with c | c
  · exact opsOn_scalar (fun p hp => hs p (by simp [hp])) e o c
  · rw [List.mem_singleton] at c; subst c; exact hs (e, o) (by simp)

/-- And at any time no more than 8192 bytes of what was said to a stream are held back, always the latest. -/
theorem C126_held (sentry : Bool) (g : Nat → Nat → Nat → UInt8) (sock : Nat) (id : UInt16) (ops : List (Bool × OOp UInt8)) :
    ∃ r rs, (ReqStreams.fresh 32 sock id).run (narrowOs sentry g) ops = .ok r ∧ HandedNow r sock id rs ∧
      ∀ e, ∃ held : Bytes, held.length ≤ 8192 ∧
        RendersAll _root_.id ((OFmt.fresh 32).said (opsOn e ops)) (contents (if e then 7 else 6) rs ++ held) := by
  obtain ⟨r, rs, e1, e2, e3, e4⟩ := rs_held (E := narrowOs sentry g) (table := charTable) (good := fun _ => True)
    (fun _ => rfl) (fun _ => flushOk_char _) tableOk_char 32 trivial sock id ops (narrow_opsGood _)
  refine ⟨r, rs, e1, ⟨e2, fun q hq => (e3 q hq).imp goodRecord_of goodRecord_of⟩, fun e => ?_⟩
  obtain ⟨held, h1, _, h3⟩ := e4 e
  refine ⟨held, h1, ?_⟩
  rw [C12_flatMap_single] at h3
  rw [h3]; exact rendersAll_of _ fun i _ => renders_narrow i

/-- Of a wide stream, no more than 8192 characters. -/
theorem C126_wide_held (sentry : Bool) (g : Nat → Nat → Nat → UInt8) (sock : Nat) (id : UInt16) (ops : List (Bool × OOp UInt32))
    (hs : ∀ p ∈ ops, OOpScalar p.2) :
    ∃ r rs, (ReqStreams.fresh 32 sock id).run (wideOs sentry g) ops = .ok r ∧ HandedNow r sock id rs ∧
      ∀ e, ∃ held : List UInt32, held.length ≤ 8192 ∧ (∀ c ∈ held, isScalar c) ∧
        RendersAll utf8Text ((OFmt.fresh 32).said (opsOn e ops)) (contents (if e then 7 else 6) rs ++ utf8Text held) := by
  have hsp : isScalar 32 := by left; decide
  obtain ⟨r, rs, e1, e2, e3, e4⟩ := rs_held (E := wideOs sentry g) (table := wideTable) (good := goodW) (cv := cv8)
    (fun _ => rfl) (fun _ => flushOk_wide _ utf8Put cv8) tableOk_wide 32 ((goodW_iff 32).2 hsp) sock id ops (wide_opsGood hs)
  refine ⟨r, rs, e1, ⟨e2, fun q hq => (e3 q hq).imp goodRecord_of goodRecord_of⟩, fun e => ?_⟩
  obtain ⟨held, h1, h2, h3⟩ := e4 e
  refine ⟨held, h1, fun c hc => (goodW_iff c).1 (h2 c hc), ?_⟩
  rw [show utf8Text held = held.flatMap cv8 from rfl, h3]
  exact rendersAll_of _ fun i hi => renders_wide i (said_scalar _ _ hsp (opsOn_scalar hs e) i hi)

example : Prompt true ((OFmt.fresh (32 : UInt8)).after (opsOn false C124_demo)).good (unitAfter (opsOn false C124_demo)) (.flush : OOp UInt8) :=
  .inr (by decide +kernel)
example : Prompt true true (unitAfter [OOp.unit true, .insert b!"a"]) (OOp.insert b!"b") := show unitAfter _ = true by decide
example : (match (ReqStreams.fresh 32 4 7).run (narrowOs true fun _ _ _ => 0) [(false, .insert b!"held "), (true, .unit true), (true, .insert b!"now")] with
    | .ok d => d.log.map fun p => (p.2.1[1]!, (p.2.1.drop 8).take (p.2.1[5]!).toNat)
    | _ => []) = [(7, b!"now")] := by decide +kernel
example : (match (ReqStreams.fresh 32 4 7).run (wideOs true fun _ _ _ => 0) [(false, .insert [8364, 32]), (false, .flush)] with
    | .ok d => d.log.map fun p => (p.2.1[1]!, (p.2.1.drop 8).take (p.2.1[5]!).toNat)
    | _ => []) = [(6, [0xE2, 0x82, 0xAC, 32])] := by decide +kernel


end Fcgi.Props
