import Verif.Lemmas.StreamWide
import Verif.Spec.RequestWideTerms
namespace Fcgi.Model
open Fcgi Fcgi.Spec

/-! ### the log -/

theorem writes_appendW (e) (a b : List EvW) : writesW e (a ++ b) = writesW e a ++ writesW e b := by
  induction a with
  | nil => rfl
  | cons x a ih =>
    cases x <;> simp [writesW, ih]
    split <;> simp
theorem sentOf_appendW (a b : List EvW) : sentOfW (a ++ b) = sentOfW a ++ sentOfW b := by
  induction a with
  | nil => rfl
  | cons x a ih => cases x <;> simp [sentOfW, ih]
theorem callsOf_appendW (a b : List EvW) : callsOfW (a ++ b) = callsOfW a ++ callsOfW b := by
  induction a with
  | nil => rfl
  | cons x a ih => cases x <;> simp [callsOfW, ih]

def sentsW (sock : Nat) (rs : List Record) : List EvW := rs.map fun r => .sent sock r.bytes false

@[simp] theorem writes_sentsW (e) (s) (rs) : writesW e (sentsW s rs) = [] := by
  induction rs with
  | nil => rfl
  | cons r rs ih => simpa [sentsW, writesW] using ih
@[simp] theorem callsOf_sentsW (s) (rs) : callsOfW (sentsW s rs) = [] := by
  induction rs with
  | nil => rfl
  | cons r rs ih => simpa [sentsW, callsOfW] using ih
@[simp] theorem sentOf_sentsW (s) (rs : List Record) : sentOfW (sentsW s rs) = rs.map fun r => (s, r.bytes, false) := by
  induction rs with
  | nil => rfl
  | cons r rs ih => simpa [sentsW, sentOfW] using ih

/-- The record is one of the request's own OUT or ERR records. -/
def IsOutW {U} (r : ReqW U) (x : Record) : Prop :=
  OutRec ⟨r.sock, r.id, 6, []⟩ x ∨ OutRec ⟨r.sock, r.id, 7, []⟩ x

/-- A stream to which `ws` was written, `content` of which has been sent: if all of it is text, the rest is in the buffer. -/
def SideOk (s : WStream) (ws : List (SOp UInt32)) (content : Bytes) : Prop :=
  (∀ op ∈ ws, WritesText op) → TextStream s ∧ s.st.enc = encAfterW .none ws ∧
    content ++ s.st.buf.flatMap cv8 = expected wideTable cv8 .none ws

/-- Invariant of an unfinished request. -/
structure AliveW {U} (r : ReqW U) : Prop where
  out : StreamOkW r.sock r.id 6 r.out.st
  err : StreamOkW r.sock r.id 7 r.err.st
  recs : ∃ rs : List Record, sentOfW r.log = rs.map (fun x => (r.sock, x.bytes, false)) ∧ (∀ x ∈ rs, IsOutW r x) ∧
    SideOk r.out (writesW false r.log) ((rs.filter (fun x => x.type = 6)).flatMap Record.content) ∧
    SideOk r.err (writesW true r.log) ((rs.filter (fun x => x.type = 7)).flatMap Record.content)

/-- Everything but the streams, environment, user state and log is the same. -/
structure FrameW {U} (r r' : ReqW U) : Prop where
  sock : r'.sock = r.sock
  id : r'.id = r.id
  role : r'.role = r.role
  kill : r'.kill = r.kill
  maxPostSize : r'.maxPostSize = r.maxPostSize
  state : r'.state = r.state
  status : r'.status = r.status

theorem FrameW.refl {U} (r : ReqW U) : FrameW r r := ⟨rfl, rfl, rfl, rfl, rfl, rfl, rfl⟩
theorem FrameW.trans {U} {a b c : ReqW U} (h : FrameW a b) (h' : FrameW b c) : FrameW a c :=
  ⟨h'.1.trans h.1, h'.2.trans h.2, h'.3.trans h.3, h'.4.trans h.4, h'.5.trans h.5, h'.6.trans h.6, h'.7.trans h.7⟩

/-- One operation: written by the user, or the library flushing. -/
theorem side_step {s s' : WStream} {ws w : List (SOp UInt32)} {c d : Bytes} {op : SOp UInt32} (h : SideOk s ws c)
    (hw : w = [op] ∨ (w = [] ∧ op = .flush))
    (e : TextStream s → WritesText op → TextStream s' ∧ s'.st.enc = encAfterW s.st.enc [op] ∧ (op = .flush → s'.st.buf = []) ∧
          d ++ s'.st.buf.flatMap cv8 = s.st.buf.flatMap cv8 ++ expected wideTable cv8 s.st.enc [op]) :
    SideOk s' (ws ++ w) (c ++ d) ∧ (op = .flush → (∀ op ∈ ws, WritesText op) → s'.st.buf = []) := by
  have hop : (∀ x ∈ ws ++ w, WritesText x) → (∀ x ∈ ws, WritesText x) ∧ WritesText op := by
    intro hx
    refine ⟨fun x hm => hx x (by simp [hm]), ?_⟩
    rcases hw with rfl | ⟨rfl, rfl⟩
    · exact hx op (by simp)
    · trivial
  refine ⟨fun hx => ?_, fun hf hx => ?_⟩
  · obtain ⟨h1, h2⟩ := hop hx
    obtain ⟨t1, t2, t3⟩ := h h1
    obtain ⟨u1, u2, _, u4⟩ := e t1 h2
    refine ⟨u1, ?_, ?_⟩
    · rw [u2, t2]
      rcases hw with rfl | ⟨rfl, rfl⟩
      · rw [encAfterW_append]
      · simp [encAfterW]
    · rw [List.append_assoc, u4, ← List.append_assoc, t3, t2]
      rcases hw with rfl | ⟨rfl, rfl⟩
      · rw [expectedW_snoc]
      · simp [expected]
  · obtain ⟨t1, _⟩ := h hx
    subst hf
    exact (e t1 trivial).2.2.1 rfl

/-- Writing to a stream (`w = [.write e op]`), or the library flushing it (`w = []`). -/
theorem streamOp_specW {U} (g) (r : ReqW U) (h : AliveW r) (e : Bool) (op : SOp UInt32) (w : List EvW)
    (hw : w = [.write e op] ∨ (w = [] ∧ op = .flush)) :
    ∃ r', streamOpW g { r with log := r.log ++ w } e op = .ok r' ∧ AliveW r' ∧ FrameW r r' ∧ r'.env = r.env ∧ r'.user = r.user ∧
      (∃ rs : List Record, (∀ x ∈ rs, IsOutW r x) ∧ r'.log = r.log ++ w ++ sentsW r.sock rs) ∧
      (op = .flush → (∀ x ∈ writesW e r.log, WritesText x) → (if e then r'.err.st.buf else r'.out.st.buf) = []) ∧
      (if e then r'.out = r.out else r'.err = r.err) := by
  obtain ⟨rs0, s1, s2, s3, s4⟩ := h.recs
  have hwf : callsOfW w = [] ∧ sentOfW w = [] := by rcases hw with rfl | ⟨rfl, _⟩ <;> simp [callsOfW, sentOfW]
  cases e with
  | false =>
    obtain ⟨st, e1, e2, rs, e5, e6, e7⟩ := stepW_spec g.sentry (g.heap 6) op h.out
    have hd : st.st.sink.sent.drop r.out.st.sink.sent.length = rs.map (fun r' => (r.sock, r'.bytes)) := by rw [e6]; simp
    have hws : writesW false w = [op] ∨ (writesW false w = [] ∧ op = .flush) := by
      rcases hw with rfl | ⟨rfl, rfl⟩
      · left; simp [writesW]
      · right; simp [writesW]
    have hwe : writesW true w = [] := by rcases hw with rfl | ⟨rfl, rfl⟩ <;> simp [writesW]
    have hlog : r.log ++ w ++ (st.st.sink.sent.drop r.out.st.sink.sent.length).map (fun p => EvW.sent p.1 p.2 false) =
        r.log ++ w ++ sentsW r.sock rs := by rw [hd]; simp [sentsW]
    have sd := side_step s3 hws e7
    refine ⟨{ r with out := st, log := r.log ++ w ++ sentsW r.sock rs }, ?_, ⟨e2, h.err, rs0 ++ rs, ?_, ?_, ?_, ?_⟩,
      ⟨rfl, rfl, rfl, rfl, rfl, rfl, rfl⟩, rfl, rfl, ⟨rs, fun x hx => Or.inl (e5 x hx), rfl⟩, by simpa using sd.2, by simp⟩
    · simp only [streamOpW, e1, Res.ok_bind, Bool.false_eq_true, if_false, Res.pure_eq, hlog]
    · simp [sentOf_appendW, s1, hwf.2]
    · intro x hx
      rcases List.mem_append.1 hx with hx | hx
      · exact s2 x hx
      · exact Or.inl (e5 x hx)
    · rw [List.filter_append, List.flatMap_append, filter_type e5, if_pos rfl]
      simp only [writes_appendW, writes_sentsW, List.append_nil]
      exact sd.1
    · rw [List.filter_append, filter_type e5, if_neg (by simp), List.append_nil]
      simp only [writes_appendW, writes_sentsW, List.append_nil, hwe]
      exact s4
  | true =>
    obtain ⟨st, e1, e2, rs, e5, e6, e7⟩ := stepW_spec g.sentry (g.heap 7) op h.err
    have hd : st.st.sink.sent.drop r.err.st.sink.sent.length = rs.map (fun r' => (r.sock, r'.bytes)) := by rw [e6]; simp
    have hws : writesW true w = [op] ∨ (writesW true w = [] ∧ op = .flush) := by
      rcases hw with rfl | ⟨rfl, rfl⟩
      · left; simp [writesW]
      · right; simp [writesW]
    have hwe : writesW false w = [] := by rcases hw with rfl | ⟨rfl, rfl⟩ <;> simp [writesW]
    have hlog : r.log ++ w ++ (st.st.sink.sent.drop r.err.st.sink.sent.length).map (fun p => EvW.sent p.1 p.2 false) =
        r.log ++ w ++ sentsW r.sock rs := by rw [hd]; simp [sentsW]
    have sd := side_step s4 hws e7
    refine ⟨{ r with err := st, log := r.log ++ w ++ sentsW r.sock rs }, ?_, ⟨h.out, e2, rs0 ++ rs, ?_, ?_, ?_, ?_⟩,
      ⟨rfl, rfl, rfl, rfl, rfl, rfl, rfl⟩, rfl, rfl, ⟨rs, fun x hx => Or.inr (e5 x hx), rfl⟩, by simpa using sd.2, by simp⟩
    · simp only [streamOpW, e1, Res.ok_bind, if_true, Res.pure_eq, hlog]
    · simp [sentOf_appendW, s1, hwf.2]
    · intro x hx
      rcases List.mem_append.1 hx with hx | hx
      · exact s2 x hx
      · exact Or.inr (e5 x hx)
    · rw [List.filter_append, filter_type e5, if_neg (by simp), List.append_nil]
      simp only [writes_appendW, writes_sentsW, List.append_nil, hwe]
      exact s3
    · rw [List.filter_append, List.flatMap_append, filter_type e5, if_pos rfl]
      simp only [writes_appendW, writes_sentsW, List.append_nil]
      exact sd.1

/-- Events that are not calls. -/
def QuietW (l : List EvW) : Prop := callsOfW l = []

theorem userOps_specW {U} (g) : ∀ (ops : List (Bool × SOp UInt32)) (r : ReqW U), AliveW r →
    ∃ r', userOpsW g r ops = .ok r' ∧ AliveW r' ∧ FrameW r r' ∧ r'.env = r.env ∧ r'.user = r.user ∧
      ∃ l, r'.log = r.log ++ l ∧ callsOfW l = [] ∧ writesW false l = (ops.filter (!·.1)).map Prod.snd ∧
        writesW true l = (ops.filter (·.1)).map Prod.snd := by
  intro ops
  induction ops with
  | nil => intro r h; exact ⟨r, rfl, h, FrameW.refl r, rfl, rfl, [], by simp, rfl, rfl, rfl⟩
  | cons p ops ih =>
    obtain ⟨e, op⟩ := p
    intro r h
    obtain ⟨r1, a1, a2, a3, a4, a5, ⟨rs, _, a6⟩, _⟩ := streamOp_specW g r h e op [.write e op] (Or.inl rfl)
    obtain ⟨r2, b1, b2, b3, b4, b5, l, b6, b7, b8, b9⟩ := ih r1 a2
    refine ⟨r2, ?_, b2, a3.trans b3, b4.trans a4, b5.trans a5, [.write e op] ++ sentsW r.sock rs ++ l, ?_, ?_, ?_, ?_⟩
    · simp only [userOpsW, a1, Res.ok_bind, b1]
    · rw [b6, a6]; simp
    · simp [callsOf_appendW, callsOfW, b7]
    · cases e <;> simp [writes_appendW, writesW, b8]
    · cases e <;> simp [writes_appendW, writesW, b9]

theorem AliveW.of_eq {U} {r r' : ReqW U} (h : AliveW r) (f1 : r'.sock = r.sock) (f2 : r'.id = r.id) (ho : r'.out = r.out)
    (he : r'.err = r.err) (hl : r'.log = r.log) : AliveW r' := by
  obtain ⟨a, b, e⟩ := h
  constructor
  · rw [f1, f2, ho]; exact a
  · rw [f1, f2, he]; exact b
  · unfold IsOutW at *; rw [f1, f2, ho, he, hl]; exact e

theorem call_specW {U} (g) (r : ReqW U) (h : AliveW r) (c : CallW) (a : ActW U) :
    ∃ r', callW g r c a = .ok r' ∧ AliveW r' ∧ FrameW r r' ∧ r'.env = a.env ∧ r'.user = a.user ∧
      ∃ l, r'.log = r.log ++ .call c :: l ∧ callsOfW l = [] ∧ writesW false l = (a.ops.filter (!·.1)).map Prod.snd ∧
        writesW true l = (a.ops.filter (·.1)).map Prod.snd := by
  have h0 : AliveW { r with log := r.log ++ [.call c] } := by
    obtain ⟨a, b, rs, e⟩ := h
    exact ⟨a, b, rs, by simpa [sentOf_appendW, sentOfW, writes_appendW, writesW, IsOutW] using e⟩
  obtain ⟨r1, e1, e2, e3, e4, e5, l, e6, e7, e8, e9⟩ := userOps_specW g a.ops _ h0
  refine ⟨{ r1 with env := a.env, user := a.user }, ?_, e2.of_eq rfl rfl rfl rfl rfl, ⟨e3.1, e3.2, e3.3, e3.4, e3.5, e3.6, e3.7⟩, rfl, rfl,
    l, ?_, e7, e8, e9⟩
  · simp only [callW, e1, Res.ok_bind, Res.pure_eq]
  · simp only [e6, List.append_assoc, List.singleton_append]

/-- A finished request: what has been sent. -/
structure DoneW {U} (r : ReqW U) : Prop where
  recs : ∃ pre, ∃ rs : List Record, ∃ end_ : Bytes,
    r.log = pre ++ [.sent r.sock end_ r.kill] ∧
    sentOfW pre = rs.map (fun x => (r.sock, x.bytes, false)) ∧ (∀ x ∈ rs, IsOutW r x) ∧
    (∃ g, end_ = endRequestRecord g r.id r.status) ∧
    ((∀ op ∈ writesW false r.log, WritesText op) →
      (rs.filter (fun x => x.type = 6)).flatMap Record.content = expected wideTable cv8 .none (writesW false r.log)) ∧
    ((∀ op ∈ writesW true r.log, WritesText op) →
      (rs.filter (fun x => x.type = 7)).flatMap Record.content = expected wideTable cv8 .none (writesW true r.log))

theorem complete_specW {U} (g : Host) (r : ReqW U) (h : AliveW r) :
    ∃ r', completeW g r = .ok r' ∧ DoneW r' ∧ FrameW r r' ∧ r'.env = r.env ∧ r'.user = r.user ∧
      ∃ rs : List Record, (∀ x ∈ rs, IsOutW r x) ∧
        r'.log = r.log ++ sentsW r.sock rs ++ [.sent r.sock (endRequestRecord (g.heap 3 0) r.id r.status) r.kill] := by
  obtain ⟨r1, a1, a2, a3, a4, a5, ⟨rs1, a6, a7⟩, a8, a9⟩ := streamOp_specW g r h false .flush [] (Or.inr ⟨rfl, rfl⟩)
  obtain ⟨r2, b1, b2, b3, b4, b5, ⟨rs2, b6, b7⟩, b8, b9⟩ := streamOp_specW g r1 a2 true .flush [] (Or.inr ⟨rfl, rfl⟩)
  simp only [List.append_nil, if_true, Bool.false_eq_true, if_false, forall_const] at a1 a7 a8 a9 b1 b7 b8 b9
  have f := a3.trans b3
  refine ⟨{ r2 with log := r2.log ++ [.sent r2.sock (endRequestRecord (g.heap 3 0) r2.id r2.status) r2.kill] }, ?_, ⟨r2.log, ?_⟩,
    ⟨f.1, f.2, f.3, f.4, f.5, f.6, f.7⟩, b4.trans a4, b5.trans a5, rs1 ++ rs2, ?_, ?_⟩
  · simp only [completeW, a1, Res.ok_bind, b1, Res.pure_eq]
  · obtain ⟨rs, c1, c2, c3, c4⟩ := b2.recs
    refine ⟨rs, _, rfl, c1, c2, ⟨g.heap 3 0, rfl⟩, ?_, ?_⟩
    · intro hx
      simp only [writes_appendW, writesW, List.append_nil] at hx ⊢
      have hx1 : ∀ op ∈ writesW false r.log, WritesText op := by
        intro op hop; exact hx op (by rw [b7, a7]; simp [writes_appendW, hop])
      have := (c3 hx).2.2
      rwa [b9, a8 hx1, List.flatMap_nil, List.append_nil] at this
    · intro hx
      simp only [writes_appendW, writesW, List.append_nil] at hx ⊢
      have hx1 : ∀ op ∈ writesW true r1.log, WritesText op := by
        intro op hop; exact hx op (by rw [b7]; simp [writes_appendW, hop])
      have := (c4 hx).2.2
      rwa [b8 hx1, List.flatMap_nil, List.append_nil] at this
  · intro x hx
    rcases List.mem_append.1 hx with hx | hx
    · exact a6 x hx
    · have := b6 x hx
      unfold IsOutW at *
      rwa [a3.sock, a3.id] at this
  · simp only [b7, a7, f.sock, f.id, f.status, f.kill, a3.sock, sentsW]
    simp

theorem failWith_specW {U} (g) (r : ReqW U) (h : AliveW r) (c : CallW) (a : ActW U) :
    ∃ r', failWithW g r c a = .ok (r', true) ∧ DoneW r' ∧ FrameW r r' ∧
      ∃ l, r'.log = r.log ++ .call c :: l ∧ callsOfW l = [] ∧ writesW false l = (a.ops.filter (!·.1)).map Prod.snd ∧
        writesW true l = (a.ops.filter (·.1)).map Prod.snd := by
  obtain ⟨r1, a1, a2, a3, a4, a5, l, a6, a7, a8, a9⟩ := call_specW g r h c a
  obtain ⟨r2, b1, b2, b3, b4, b5, rs, b6, b7⟩ := complete_specW g r1 a2
  refine ⟨r2, ?_, b2, a3.trans b3, l ++ sentsW r1.sock rs ++ [.sent r1.sock (endRequestRecord (g.heap 3 0) r1.id r1.status) r1.kill], ?_, ?_, ?_, ?_⟩
  · simp only [failWithW, a1, Res.ok_bind, b1, Res.pure_eq]
  · rw [b7, a6]; simp
  · simp [callsOf_appendW, callsOfW, a7]
  · simp [writes_appendW, writesW, a8]
  · simp [writes_appendW, writesW, a9]

/-- What `response()` leads to. -/
theorem respond_specW {U} (hd : HandlersW U) (g) (r : ReqW U) (h : AliveW r) (m : Message) :
    ∃ r', respondW hd g r m = .ok (r', (hd.response r.user r.env m).2) ∧ FrameW r r' ∧
      ((hd.response r.user r.env m).2 = false → AliveW r' ∧ r'.env = (hd.response r.user r.env m).1.env ∧
        r'.user = (hd.response r.user r.env m).1.user) ∧
      ((hd.response r.user r.env m).2 = true → DoneW r') ∧
      ∃ l, r'.log = r.log ++ .call (.response r.env m) :: l ∧ callsOfW l = [] ∧
        writesW false l = ((hd.response r.user r.env m).1.ops.filter (!·.1)).map Prod.snd ∧
        writesW true l = ((hd.response r.user r.env m).1.ops.filter (·.1)).map Prod.snd := by
  unfold respondW
  generalize hd.response r.user r.env m = a
  obtain ⟨r1, a1, a2, a3, a4, a5, l, a6, a7, a8, a9⟩ := call_specW g r h (.response r.env m) a.1
  obtain ⟨a, b⟩ := a
  cases b with
  | false =>
    refine ⟨r1, ?_, a3, fun _ => ⟨a2, a4, a5⟩, by simp, l, a6, a7, a8, a9⟩
    simp only [a1, Res.ok_bind, Bool.false_eq_true, if_false, Res.pure_eq]
  | true =>
    obtain ⟨r2, b1, b2, b3, b4, b5, rs, b6, b7⟩ := complete_specW g r1 a2
    refine ⟨r2, ?_, a3.trans b3, by simp, fun _ => b2,
      l ++ sentsW r1.sock rs ++ [.sent r1.sock (endRequestRecord (g.heap 3 0) r1.id r1.status) r1.kill], ?_, ?_, ?_, ?_⟩
    · simp only [a1, Res.ok_bind, if_true, b1, Res.pure_eq]
    · rw [b7, a6]; simp
    · simp [callsOf_appendW, callsOfW, a7]
    · simp [writes_appendW, writesW, a8]
    · simp [writes_appendW, writesW, a9]

/-! ### messages that are records -/

theorem handleMsg_recordW {U} (h : HandlersW U) (g) (r : ReqW U) (x : Record) (hx : x.WF) :
    handleMsgW h g r (fcgiMsg x) =
    if x.type = 2 then completeW g r >>= fun r => .ok (r, true)
    else if x.type ≠ r.state then failWithW g r .error (h.error r.user r.env)
    else if r.state = 4 then
      if ¬ (r.role = 1 ∨ r.role = 2) then
        failWithW g { r with status := 3 } .error (h.error r.user r.env)
      else if x.content.length = 0 then
        if r.env.contentLength.toNat > r.maxPostSize then failWithW g r .bigPost (h.bigPost r.user r.env)
        else .ok ({ r with state := 5 }, false)
      else fillW x.bytes 8 (8 + x.content.length) r.env >>= fun env => .ok ({ r with env := env }, false)
    else if r.state = 5 then
      if x.content.length = 0 then inputEndW h g r (fcgiMsg x)
      else if r.env.postBuffer.length + x.content.length > r.env.contentLength.toNat then
        failWithW g r .bigPost (h.bigPost r.user r.env)
      else
        callW g { r with env := fillPostBufferW r.env x.content } (.inHandler x.content.length)
          (h.inHandler r.user (fillPostBufferW r.env x.content) x.content.length) >>= fun r => .ok (r, false)
    else failWithW g r .error (h.error r.user r.env) := by
  obtain ⟨h1, ⟨l, h2, h3⟩, h4, h5⟩ := record_rd x hx
  have e1 : ¬ (8 + x.content.length > x.bytes.length) := by omega
  unfold handleMsgW fcgiMsg
  simp only [if_true, h1, h2, Res.ok_bind, h3, h5, if_neg e1, Res.pure_eq]

theorem handleMsg_callbackW {U} (h : HandlersW U) (g) (r : ReqW U) (m : Message) (hm : m.type ≠ 0) :
    handleMsgW h g r m = respondW h g r m := by
  unfold handleMsgW; rw [if_neg hm]

theorem handler_appendW {U} (h : HandlersW U) (g) : ∀ (ms ms' : List Message) (r : ReqW U),
    handlerW h g r (ms ++ ms') = (handlerW h g r ms >>= fun x =>
      if x.2.2 then .ok (x.1, x.2.1 ++ ms', true) else handlerW h g x.1 ms') := by
  intro ms ms'
  induction ms with
  | nil => intro r; simp [handlerW]
  | cons m ms ih =>
    intro r
    simp only [List.cons_append, handlerW]
    cases handleMsgW h g r m with
    | ub k => rfl
    | stuck => rfl
    | ok x =>
      simp only [Res.ok_bind]
      cases hx : x.2 with
      | true => simp
      | false =>
        simp only [Bool.false_eq_true, if_false, ih]

theorem freshReq_aliveW {U} (sock id role kill max) (u : U) : AliveW (freshReqW sock id role kill max u) :=
  ⟨⟨rfl, by simp [freshReqW, freshStream], rfl, rfl, rfl⟩, ⟨rfl, by simp [freshReqW, freshStream], rfl, rfl, rfl⟩,
    [], rfl, by simp, fun _ => ⟨⟨rfl, fun _ h => nomatch h⟩, rfl, rfl⟩, fun _ => ⟨⟨rfl, fun _ h => nomatch h⟩, rfl, rfl⟩⟩

end Fcgi.Model
