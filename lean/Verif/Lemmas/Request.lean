import Verif.Model.Request
import Verif.Lemmas.Streams
import Verif.Lemmas.HttpMore
import Verif.Spec.RequestTerms
namespace Fcgi.Model
open Fcgi Fcgi.Spec

/-! ### one stream operation -/

/-- The encoding selected after some operations. -/
def encAfter (e : Enc) : List (SOp UInt8) → Enc
  | [] => e
  | .setEnc e' :: ops => encAfter e' ops
  | _ :: ops => encAfter e ops

theorem encAfter_append (ops ops' : List (SOp UInt8)) (e : Enc) :
    encAfter e (ops ++ ops') = encAfter (encAfter e ops) ops' := by
  induction ops generalizing e with
  | nil => rfl
  | cons op ops ih => cases op <;> simp [encAfter, ih]

theorem expected_snoc (ops ops' : List (SOp UInt8)) (e : Enc) :
    expected charTable one e (ops ++ ops') =
      expected charTable one e ops ++ expected charTable one (encAfter e ops) ops' := by
  induction ops generalizing e with
  | nil => rfl
  | cons op ops ih => cases op <;> simp [encAfter, expected, ih]

structure StreamOk (sock : Nat) (id : UInt16) (type : UInt8) (st : WebBuf UInt8 FcgiSink) : Prop where
  cap : st.cap = buffSize
  len : st.buf.length ≤ buffSize
  sock : st.sink.sock = sock
  id : st.sink.id = id
  type : st.sink.type = type

theorem flatMap_one (s : Bytes) : s.flatMap one = s := by
  induction s with
  | nil => rfl
  | cons a l ih => rw [List.flatMap_cons, ih]; rfl

theorem step_spec (g) (op : SOp UInt8) {sock id type} {st : WebBuf UInt8 FcgiSink} (h : StreamOk sock id type st) :
    ∃ st', op.step g charTable (emptyBufferC g) st = .ok st' ∧ StreamOk sock id type st' ∧
      st'.enc = encAfter st.enc [op] ∧ (op = .flush → st'.buf = []) ∧
      ∃ rs : List Record, (∀ r ∈ rs, OutRec ⟨sock, id, type, []⟩ r) ∧
        st'.sink.sent = st.sink.sent ++ rs.map (fun r => (sock, r.bytes)) ∧
        rs.flatMap Record.content ++ st'.buf = st.buf ++ expected charTable one st.enc [op] := by
  have hI : SInv good8 one st.sink st.buf st :=
    ⟨h.cap, h.len, by simp, [], Emitted.refl _, by simp⟩
  have hg : SOpGood good8 op := by cases op <;> simp [SOpGood, good8]
  obtain ⟨st', e1, e2⟩ := srun_spec g (flushOk_char g) tableOk_char [op] st.buf st hI (by simpa using hg)
  simp only [srun] at e1
  obtain ⟨st1, e3, e4⟩ := Res.bind_eq_ok.1 e1
  cases e4
  obtain ⟨e, ⟨rs, r1, r2, r3⟩, e5⟩ := e2.data
  refine ⟨st', e3, ⟨e2.cap, e2.len, ?_, ?_, ?_⟩, ?_, ?_, rs, ?_, ?_, ?_⟩
  · rw [r2]; exact h.sock
  · rw [r2]; exact h.id
  · rw [r2]; exact h.type
  · cases op with
    | insert s =>
      obtain ⟨x, f1, f2, _⟩ := xsputn_spec (flushOk_char g) tableOk_char (s.length + 1) s st.buf st hI (by simp) (Or.inl (by omega))
      simp only [SOp.step] at e3
      rw [f1] at e3; cases e3; exact f2
    | put c =>
      obtain ⟨x, f1, f2, _⟩ := sputc_spec (flushOk_char g) c hI trivial
      simp only [SOp.step] at e3
      rw [f1] at e3; cases e3; exact f2
    | flush =>
      obtain ⟨k, f1, _, _⟩ := sinv_flush (flushOk_char g) hI
      simp only [SOp.step, f1] at e3
      cases e3; rfl
    | setEnc e =>
      simp only [SOp.step] at e3
      cases e3; rfl
    | dump d =>
      obtain ⟨k, f1, _, _⟩ := sinv_flush (flushOk_char g) hI
      simp only [SOp.step, f1, Res.ok_bind, Res.bind_eq_ok] at e3
      obtain ⟨a, _, e3⟩ := e3
      cases e3; rfl
    | dumpStream d =>
      obtain ⟨k, f1, _, _⟩ := sinv_flush (flushOk_char g) hI
      simp only [SOp.step, f1, Res.ok_bind, Res.bind_eq_ok] at e3
      obtain ⟨a, _, e3⟩ := e3
      cases e3; rfl
  · rintro rfl
    obtain ⟨k, f1, _, _⟩ := sinv_flush (flushOk_char g) hI
    simp only [SOp.step, f1] at e3
    cases e3; rfl
  · intro r hr
    have := r1 r hr
    exact ⟨this.version, this.type.trans h.type, by rw [this.id, h.id], this.content_pos, this.content_max, this.padding, this.aligned⟩
  · rw [r2, h.sock]
  · rw [r3]
    rw [flatMap_one] at e5
    exact e5

/-! ### the log -/

theorem writes_append (e) (a b : List Ev) : writes e (a ++ b) = writes e a ++ writes e b := by
  induction a with
  | nil => rfl
  | cons x a ih =>
    cases x <;> simp [writes, ih]
    split <;> simp
theorem sentOf_append (a b : List Ev) : sentOf (a ++ b) = sentOf a ++ sentOf b := by
  induction a with
  | nil => rfl
  | cons x a ih => cases x <;> simp [sentOf, ih]
theorem callsOf_append (a b : List Ev) : callsOf (a ++ b) = callsOf a ++ callsOf b := by
  induction a with
  | nil => rfl
  | cons x a ih => cases x <;> simp [callsOf, ih]

def sents (sock : Nat) (rs : List Record) : List Ev := rs.map fun r => .sent sock r.bytes false

@[simp] theorem writes_sents (e) (s) (rs) : writes e (sents s rs) = [] := by
  induction rs with
  | nil => rfl
  | cons r rs ih => simpa [sents, writes] using ih
@[simp] theorem callsOf_sents (s) (rs) : callsOf (sents s rs) = [] := by
  induction rs with
  | nil => rfl
  | cons r rs ih => simpa [sents, callsOf] using ih
@[simp] theorem sentOf_sents (s) (rs : List Record) : sentOf (sents s rs) = rs.map fun r => (s, r.bytes, false) := by
  induction rs with
  | nil => rfl
  | cons r rs ih => simpa [sents, sentOf] using ih

/-- The record is one of the request's own OUT or ERR records. -/
def IsOut {U} (r : Req U) (x : Record) : Prop :=
  OutRec ⟨r.sock, r.id, 6, []⟩ x ∨ OutRec ⟨r.sock, r.id, 7, []⟩ x

/-- Invariant of an unfinished request. -/
structure Alive {U} (r : Req U) : Prop where
  out : StreamOk r.sock r.id 6 r.out
  err : StreamOk r.sock r.id 7 r.err
  outEnc : r.out.enc = encAfter .none (writes false r.log)
  errEnc : r.err.enc = encAfter .none (writes true r.log)
  recs : ∃ rs : List Record, sentOf r.log = rs.map (fun x => (r.sock, x.bytes, false)) ∧ (∀ x ∈ rs, IsOut r x) ∧
    (rs.filter (fun x => x.type = 6)).flatMap Record.content ++ r.out.buf = expected charTable one .none (writes false r.log) ∧
    (rs.filter (fun x => x.type = 7)).flatMap Record.content ++ r.err.buf = expected charTable one .none (writes true r.log)

/-- Everything but the streams, environment, user state and log is the same. -/
structure Frame {U} (r r' : Req U) : Prop where
  sock : r'.sock = r.sock
  id : r'.id = r.id
  role : r'.role = r.role
  kill : r'.kill = r.kill
  maxPostSize : r'.maxPostSize = r.maxPostSize
  state : r'.state = r.state
  status : r'.status = r.status

theorem Frame.refl {U} (r : Req U) : Frame r r := ⟨rfl, rfl, rfl, rfl, rfl, rfl, rfl⟩
theorem Frame.trans {U} {a b c : Req U} (h : Frame a b) (h' : Frame b c) : Frame a c :=
  ⟨h'.1.trans h.1, h'.2.trans h.2, h'.3.trans h.3, h'.4.trans h.4, h'.5.trans h.5, h'.6.trans h.6, h'.7.trans h.7⟩

theorem filter_type {k : FcgiSink} {rs : List Record} (h : ∀ r ∈ rs, OutRec k r) (t : UInt8) :
    rs.filter (fun x => x.type = t) = if k.type = t then rs else [] := by
  induction rs with
  | nil => simp
  | cons r rs ih =>
    have h1 := (h r (by simp)).type
    have ih := ih (fun x hx => h x (by simp [hx]))
    rw [List.filter_cons, ih, h1]
    by_cases e : k.type = t <;> simp [e]

/-- Writing to a stream (`w = [.write e op]`), or the library flushing it (`w = []`). -/
theorem streamOp_spec {U} (g) (r : Req U) (h : Alive r) (e : Bool) (op : SOp UInt8) (w : List Ev)
    (hw : w = [.write e op] ∨ (w = [] ∧ op = .flush)) :
    ∃ r', streamOp g { r with log := r.log ++ w } e op = .ok r' ∧ Alive r' ∧ Frame r r' ∧ r'.env = r.env ∧ r'.user = r.user ∧
      (∃ rs : List Record, (∀ x ∈ rs, IsOut r x) ∧ r'.log = r.log ++ w ++ sents r.sock rs) ∧
      (op = .flush → (if e then r'.err.buf else r'.out.buf) = []) ∧ (if e then r'.out = r.out else r'.err = r.err) := by
  obtain ⟨rs0, s1, s2, s3, s4⟩ := h.recs
  have hwf : callsOf w = [] ∧ sentOf w = [] := by rcases hw with rfl | ⟨rfl, _⟩ <;> simp [callsOf, sentOf]
  cases e with
  | false =>
    obtain ⟨st, e1, e2, e3, e4, rs, e5, e6, e7⟩ := step_spec (g 6) op h.out
    have hd : st.sink.sent.drop r.out.sink.sent.length = rs.map (fun r' => (r.sock, r'.bytes)) := by rw [e6]; simp
    have hws : writes false w = [op] ∨ (writes false w = [] ∧ op = .flush) := by
      rcases hw with rfl | ⟨rfl, rfl⟩
      · left; simp [writes]
      · right; simp [writes]
    have hwe : writes true w = [] := by rcases hw with rfl | ⟨rfl, rfl⟩ <;> simp [writes]
    have hlog : r.log ++ w ++ (st.sink.sent.drop r.out.sink.sent.length).map (fun p => Ev.sent p.1 p.2 false) =
        r.log ++ w ++ sents r.sock rs := by rw [hd]; simp [sents]
    have hens : encAfter st.enc [] = st.enc := rfl
    refine ⟨{ r with out := st, log := r.log ++ w ++ sents r.sock rs }, ?_, ⟨e2, h.err, ?_, ?_, rs0 ++ rs, ?_, ?_, ?_, ?_⟩,
      ⟨rfl, rfl, rfl, rfl, rfl, rfl, rfl⟩, rfl, rfl, ⟨rs, fun x hx => Or.inl (e5 x hx), rfl⟩, by simpa using e4, by simp⟩
    · simp only [streamOp, e1, Res.ok_bind, Bool.false_eq_true, if_false, Res.pure_eq, hlog]
    · simp only [writes_append, writes_sents, List.append_nil, encAfter_append, ← h.outEnc]
      rcases hws with hx | ⟨hx, rfl⟩ <;> rw [hx, e3]
      rfl
    · simp only [writes_append, writes_sents, hwe, List.append_nil]; exact h.errEnc
    · simp [sentOf_append, s1, hwf.2]
    · intro x hx
      rcases List.mem_append.1 hx with hx | hx
      · exact s2 x hx
      · exact Or.inl (e5 x hx)
    · rw [List.filter_append, List.flatMap_append, filter_type e5, if_pos rfl, List.append_assoc, e7]
      simp only [writes_append, writes_sents, List.append_nil, expected_snoc, ← h.outEnc]
      rw [← List.append_assoc, s3]
      rcases hws with hx | ⟨hx, rfl⟩ <;> rw [hx]
      rfl
    · rw [List.filter_append, filter_type e5, if_neg (by simp), List.append_nil]
      simp only [writes_append, writes_sents, List.append_nil, hwe]
      exact s4
  | true =>
    obtain ⟨st, e1, e2, e3, e4, rs, e5, e6, e7⟩ := step_spec (g 7) op h.err
    have hd : st.sink.sent.drop r.err.sink.sent.length = rs.map (fun r' => (r.sock, r'.bytes)) := by rw [e6]; simp
    have hws : writes true w = [op] ∨ (writes true w = [] ∧ op = .flush) := by
      rcases hw with rfl | ⟨rfl, rfl⟩
      · left; simp [writes]
      · right; simp [writes]
    have hwe : writes false w = [] := by rcases hw with rfl | ⟨rfl, rfl⟩ <;> simp [writes]
    have hlog : r.log ++ w ++ (st.sink.sent.drop r.err.sink.sent.length).map (fun p => Ev.sent p.1 p.2 false) =
        r.log ++ w ++ sents r.sock rs := by rw [hd]; simp [sents]
    refine ⟨{ r with err := st, log := r.log ++ w ++ sents r.sock rs }, ?_, ⟨h.out, e2, ?_, ?_, rs0 ++ rs, ?_, ?_, ?_, ?_⟩,
      ⟨rfl, rfl, rfl, rfl, rfl, rfl, rfl⟩, rfl, rfl, ⟨rs, fun x hx => Or.inr (e5 x hx), rfl⟩, by simpa using e4, by simp⟩
    · simp only [streamOp, e1, Res.ok_bind, if_true, Res.pure_eq, hlog]
    · simp only [writes_append, writes_sents, hwe, List.append_nil]; exact h.outEnc
    · simp only [writes_append, writes_sents, List.append_nil, encAfter_append, ← h.errEnc]
      rcases hws with hx | ⟨hx, rfl⟩ <;> rw [hx, e3]
      rfl
    · simp [sentOf_append, s1, hwf.2]
    · intro x hx
      rcases List.mem_append.1 hx with hx | hx
      · exact s2 x hx
      · exact Or.inr (e5 x hx)
    · rw [List.filter_append, filter_type e5, if_neg (by simp), List.append_nil]
      simp only [writes_append, writes_sents, List.append_nil, hwe]
      exact s3
    · rw [List.filter_append, List.flatMap_append, filter_type e5, if_pos rfl, List.append_assoc, e7]
      simp only [writes_append, writes_sents, List.append_nil, expected_snoc, ← h.errEnc]
      rw [← List.append_assoc, s4]
      rcases hws with hx | ⟨hx, rfl⟩ <;> rw [hx]
      rfl

/-- Events that are not calls. -/
def Quiet (l : List Ev) : Prop := callsOf l = []

theorem userOps_spec {U} (g) : ∀ (ops : List (Bool × SOp UInt8)) (r : Req U), Alive r →
    ∃ r', userOps g r ops = .ok r' ∧ Alive r' ∧ Frame r r' ∧ r'.env = r.env ∧ r'.user = r.user ∧
      ∃ l, r'.log = r.log ++ l ∧ callsOf l = [] ∧ writes false l = (ops.filter (!·.1)).map Prod.snd ∧
        writes true l = (ops.filter (·.1)).map Prod.snd := by
  intro ops
  induction ops with
  | nil => intro r h; exact ⟨r, rfl, h, Frame.refl r, rfl, rfl, [], by simp, rfl, rfl, rfl⟩
  | cons p ops ih =>
    obtain ⟨e, op⟩ := p
    intro r h
    obtain ⟨r1, a1, a2, a3, a4, a5, ⟨rs, _, a6⟩, _⟩ := streamOp_spec g r h e op [.write e op] (Or.inl rfl)
    obtain ⟨r2, b1, b2, b3, b4, b5, l, b6, b7, b8, b9⟩ := ih r1 a2
    refine ⟨r2, ?_, b2, a3.trans b3, b4.trans a4, b5.trans a5, [.write e op] ++ sents r.sock rs ++ l, ?_, ?_, ?_, ?_⟩
    · simp only [userOps, a1, Res.ok_bind, b1]
    · rw [b6, a6]; simp
    · simp [callsOf_append, callsOf, b7]
    · cases e <;> simp [writes_append, writes, b8]
    · cases e <;> simp [writes_append, writes, b9]

theorem Alive.of_eq {U} {r r' : Req U} (h : Alive r) (f1 : r'.sock = r.sock) (f2 : r'.id = r.id) (ho : r'.out = r.out)
    (he : r'.err = r.err) (hl : r'.log = r.log) : Alive r' := by
  obtain ⟨a, b, c, d, e⟩ := h
  constructor
  · rw [f1, f2, ho]; exact a
  · rw [f1, f2, he]; exact b
  · rw [ho, hl]; exact c
  · rw [he, hl]; exact d
  · unfold IsOut at *; rw [f1, f2, ho, he, hl]; exact e

theorem call_spec {U} (g) (r : Req U) (h : Alive r) (c : Call) (a : Act U) :
    ∃ r', call g r c a = .ok r' ∧ Alive r' ∧ Frame r r' ∧ r'.env = a.env ∧ r'.user = a.user ∧
      ∃ l, r'.log = r.log ++ .call c :: l ∧ callsOf l = [] ∧ writes false l = (a.ops.filter (!·.1)).map Prod.snd ∧
        writes true l = (a.ops.filter (·.1)).map Prod.snd := by
  have h0 : Alive { r with log := r.log ++ [.call c] } := by
    obtain ⟨a, b, c, d, rs, e⟩ := h
    exact ⟨a, b, by simpa [writes_append, writes] using c, by simpa [writes_append, writes] using d,
      rs, by simpa [sentOf_append, sentOf, writes_append, writes, IsOut] using e⟩
  obtain ⟨r1, e1, e2, e3, e4, e5, l, e6, e7, e8, e9⟩ := userOps_spec g a.ops _ h0
  refine ⟨{ r1 with env := a.env, user := a.user }, ?_, e2.of_eq rfl rfl rfl rfl rfl, ⟨e3.1, e3.2, e3.3, e3.4, e3.5, e3.6, e3.7⟩, rfl, rfl,
    l, ?_, e7, e8, e9⟩
  · simp only [call, e1, Res.ok_bind, Res.pure_eq]
  · simp only [e6, List.append_assoc, List.singleton_append]

/-- A finished request: what has been sent. -/
structure Done {U} (r : Req U) : Prop where
  recs : ∃ pre, ∃ rs : List Record, ∃ end_ : Bytes,
    r.log = pre ++ [.sent r.sock end_ r.kill] ∧
    sentOf pre = rs.map (fun x => (r.sock, x.bytes, false)) ∧ (∀ x ∈ rs, IsOut r x) ∧
    (∃ g, end_ = endRequestRecord g r.id r.status) ∧
    (rs.filter (fun x => x.type = 6)).flatMap Record.content = expected charTable one .none (writes false r.log) ∧
    (rs.filter (fun x => x.type = 7)).flatMap Record.content = expected charTable one .none (writes true r.log)

theorem complete_spec {U} (g) (r : Req U) (h : Alive r) :
    ∃ r', complete g r = .ok r' ∧ Done r' ∧ Frame r r' ∧ r'.env = r.env ∧ r'.user = r.user ∧
      ∃ rs : List Record, (∀ x ∈ rs, IsOut r x) ∧
        r'.log = r.log ++ sents r.sock rs ++ [.sent r.sock (endRequestRecord (g 3 0) r.id r.status) r.kill] := by
  obtain ⟨r1, a1, a2, a3, a4, a5, ⟨rs1, a6, a7⟩, a8, a9⟩ := streamOp_spec g r h false .flush [] (Or.inr ⟨rfl, rfl⟩)
  obtain ⟨r2, b1, b2, b3, b4, b5, ⟨rs2, b6, b7⟩, b8, b9⟩ := streamOp_spec g r1 a2 true .flush [] (Or.inr ⟨rfl, rfl⟩)
  simp only [List.append_nil, if_true, Bool.false_eq_true, if_false, forall_const] at a1 a7 a8 a9 b1 b7 b8 b9
  have f := a3.trans b3
  refine ⟨{ r2 with log := r2.log ++ [.sent r2.sock (endRequestRecord (g 3 0) r2.id r2.status) r2.kill] }, ?_, ⟨r2.log, ?_⟩,
    ⟨f.1, f.2, f.3, f.4, f.5, f.6, f.7⟩, b4.trans a4, b5.trans a5, rs1 ++ rs2, ?_, ?_⟩
  · simp only [complete, a1, Res.ok_bind, b1, Res.pure_eq]
  · obtain ⟨rs, c1, c2, c3, c4⟩ := b2.recs
    refine ⟨rs, _, rfl, c1, c2, ⟨g 3 0, rfl⟩, ?_, ?_⟩
    · rw [b9, a8, List.append_nil] at c3
      simpa [writes_append, writes] using c3
    · rw [b8, List.append_nil] at c4
      simpa [writes_append, writes] using c4
  · intro x hx
    rcases List.mem_append.1 hx with hx | hx
    · exact a6 x hx
    · have := b6 x hx
      unfold IsOut at *
      rwa [a3.sock, a3.id] at this
  · simp only [b7, a7, f.sock, f.id, f.status, f.kill, a3.sock, sents]
    simp

theorem failWith_spec {U} (g) (r : Req U) (h : Alive r) (c : Call) (a : Act U) :
    ∃ r', failWith g r c a = .ok (r', true) ∧ Done r' ∧ Frame r r' ∧
      ∃ l, r'.log = r.log ++ .call c :: l ∧ callsOf l = [] ∧ writes false l = (a.ops.filter (!·.1)).map Prod.snd ∧
        writes true l = (a.ops.filter (·.1)).map Prod.snd := by
  obtain ⟨r1, a1, a2, a3, a4, a5, l, a6, a7, a8, a9⟩ := call_spec g r h c a
  obtain ⟨r2, b1, b2, b3, b4, b5, rs, b6, b7⟩ := complete_spec g r1 a2
  refine ⟨r2, ?_, b2, a3.trans b3, l ++ sents r1.sock rs ++ [.sent r1.sock (endRequestRecord (g 3 0) r1.id r1.status) r1.kill], ?_, ?_, ?_, ?_⟩
  · simp only [failWith, a1, Res.ok_bind, b1, Res.pure_eq]
  · rw [b7, a6]; simp
  · simp [callsOf_append, callsOf, a7]
  · simp [writes_append, writes, a8]
  · simp [writes_append, writes, a9]

/-- What `response()` leads to. -/
theorem respond_spec {U} (hd : Handlers U) (g) (r : Req U) (h : Alive r) (m : Message) :
    ∃ r', respond hd g r m = .ok (r', (hd.response r.user r.env m).2) ∧ Frame r r' ∧
      ((hd.response r.user r.env m).2 = false → Alive r' ∧ r'.env = (hd.response r.user r.env m).1.env ∧
        r'.user = (hd.response r.user r.env m).1.user) ∧
      ((hd.response r.user r.env m).2 = true → Done r') ∧
      ∃ l, r'.log = r.log ++ .call (.response r.env m) :: l ∧ callsOf l = [] ∧
        writes false l = ((hd.response r.user r.env m).1.ops.filter (!·.1)).map Prod.snd ∧
        writes true l = ((hd.response r.user r.env m).1.ops.filter (·.1)).map Prod.snd := by
  unfold respond
  generalize hd.response r.user r.env m = a
  obtain ⟨r1, a1, a2, a3, a4, a5, l, a6, a7, a8, a9⟩ := call_spec g r h (.response r.env m) a.1
  obtain ⟨a, b⟩ := a
  cases b with
  | false =>
    refine ⟨r1, ?_, a3, fun _ => ⟨a2, a4, a5⟩, by simp, l, a6, a7, a8, a9⟩
    simp only [a1, Res.ok_bind, Bool.false_eq_true, if_false, Res.pure_eq]
  | true =>
    obtain ⟨r2, b1, b2, b3, b4, b5, rs, b6, b7⟩ := complete_spec g r1 a2
    refine ⟨r2, ?_, a3.trans b3, by simp, fun _ => b2,
      l ++ sents r1.sock rs ++ [.sent r1.sock (endRequestRecord (g 3 0) r1.id r1.status) r1.kill], ?_, ?_, ?_, ?_⟩
    · simp only [a1, Res.ok_bind, if_true, b1, Res.pure_eq]
    · rw [b7, a6]; simp
    · simp [callsOf_append, callsOf, a7]
    · simp [writes_append, writes, a8]
    · simp [writes_append, writes, a9]

/-! ### messages that are records -/

theorem record_rd (x : Record) (hx : x.WF) : rd x.bytes 1 = .ok x.type ∧
    (∃ l, read16 x.bytes 4 = .ok l ∧ l.toNat = x.content.length) ∧
    8 + x.content.length ≤ x.bytes.length ∧ slice x.bytes 8 (8 + x.content.length) = x.content := by
  have h2 := hx.2.1
  refine ⟨rfl, ⟨_, by simp only [Record.bytes, beDigits2]; rfl, ?_⟩, ?_, ?_⟩
  · rw [from16_toNat]; simp; omega
  · simp [Record.bytes, beDigits2]; omega
  · have : x.bytes = ([x.version, x.type] ++ beDigits 2 x.id ++ beDigits 2 x.content.length
      ++ [UInt8.ofNat x.padding.length, x.reserved]) ++ (x.content ++ x.padding) := by simp [Record.bytes]
    rw [this]
    exact slice_mid _ _ _ _ _ (by simp [beDigits2]) (by simp [beDigits2])

theorem handleMsg_record {U} (h : Handlers U) (g) (r : Req U) (x : Record) (hx : x.WF) :
    handleMsg h g r (fcgiMsg x) =
    if x.type = 2 then complete g r >>= fun r => .ok (r, true)
    else if x.type ≠ r.state then failWith g r .error (h.error r.user r.env)
    else if r.state = 4 then
      if ¬ (r.role = 1 ∨ r.role = 2) then
        failWith g { r with status := 3 } .error (h.error r.user r.env)
      else if x.content.length = 0 then
        if r.env.contentLength.toNat > r.maxPostSize then failWith g r .bigPost (h.bigPost r.user r.env)
        else .ok ({ r with state := 5 }, false)
      else fill x.bytes 8 (8 + x.content.length) r.env >>= fun env => .ok ({ r with env := env }, false)
    else if r.state = 5 then
      if x.content.length = 0 then inputEnd h g r (fcgiMsg x)
      else if r.env.postBuffer.length + x.content.length > r.env.contentLength.toNat then
        failWith g r .bigPost (h.bigPost r.user r.env)
      else
        call g { r with env := fillPostBuffer r.env x.content } (.inHandler x.content.length)
          (h.inHandler r.user (fillPostBuffer r.env x.content) x.content.length) >>= fun r => .ok (r, false)
    else failWith g r .error (h.error r.user r.env) := by
  obtain ⟨h1, ⟨l, h2, h3⟩, h4, h5⟩ := record_rd x hx
  have e1 : ¬ (8 + x.content.length > x.bytes.length) := by omega
  unfold handleMsg fcgiMsg
  simp only [if_true, h1, h2, Res.ok_bind, h3, h5, if_neg e1, Res.pure_eq]

theorem handleMsg_callback {U} (h : Handlers U) (g) (r : Req U) (m : Message) (hm : m.type ≠ 0) :
    handleMsg h g r m = respond h g r m := by
  unfold handleMsg; rw [if_neg hm]

theorem handler_append {U} (h : Handlers U) (g) : ∀ (ms ms' : List Message) (r : Req U),
    handler h g r (ms ++ ms') = (handler h g r ms >>= fun x =>
      if x.2.2 then .ok (x.1, x.2.1 ++ ms', true) else handler h g x.1 ms') := by
  intro ms ms'
  induction ms with
  | nil => intro r; simp [handler]
  | cons m ms ih =>
    intro r
    simp only [List.cons_append, handler]
    cases handleMsg h g r m with
    | ub k => rfl
    | stuck => rfl
    | ok x =>
      simp only [Res.ok_bind]
      cases hx : x.2 with
      | true => simp
      | false =>
        simp only [Bool.false_eq_true, if_false, ih]

theorem freshReq_alive {U} (sock id role kill max) (u : U) : Alive (freshReq sock id role kill max u) :=
  ⟨⟨rfl, by simp [freshReq, freshStream], rfl, rfl, rfl⟩, ⟨rfl, by simp [freshReq, freshStream], rfl, rfl, rfl⟩, rfl, rfl,
    [], rfl, by simp, rfl, rfl⟩

end Fcgi.Model
