import Verif.Lemmas.ManagerRequest
import Verif.Lemmas.RequestWideRun
/-! # What a request sends does not depend on fresh memory, nor on which connection it is

`saying` is what a record says to its receiver: not the byte `reserved`, not the padding, and of END_REQUEST not the reserved bytes of the body. -/
namespace Fcgi.Model
open Fcgi Fcgi.Spec

/-- The first seven bytes of the header and the part of the body that has a meaning. -/
def saying (b : Bytes) : Bytes :=
  b.take 7 ++ ((b.drop 8).take (256 * (b.getD 4 0).toNat + (b.getD 5 0).toNat)).take (if b[1]? = some 3 then 5 else 65536)

structure SinkSim (k k' : FcgiSink) : Prop where
  id : k.id = k'.id
  type : k.type = k'.type
  not3 : k.type ≠ 3
  sent : k.sent.map (fun x => saying x.2) = k'.sent.map (fun x => saying x.2)

theorem SinkSim.length {k k'} (h : SinkSim k k') : k.sent.length = k'.sent.length := by
  have := congrArg List.length h.sent; simpa using this

theorem said_made {h7 : Bytes} {x} {content tail : Bytes} {t : UInt8} (hl : h7.length = 7) (ht : h7[1]? = some t) (h3 : t ≠ 3)
    (hd : 256 * (h7.getD 4 0).toNat + (h7.getD 5 0).toNat ≤ content.length) :
    saying (h7 ++ x :: content ++ tail) = h7 ++ content.take (256 * (h7.getD 4 0).toNat + (h7.getD 5 0).toNat) := by
  have e1 : ∀ i, i < 7 → (h7 ++ x :: content ++ tail)[i]? = h7[i]? := by
    intro i hi
    rw [List.append_assoc, List.getElem?_append_left (by omega)]
  have e2 : ∀ i, i < 7 → (h7 ++ x :: content ++ tail).getD i 0 = h7.getD i 0 := by
    intro i hi; simp only [List.getD_eq_getElem?_getD]; rw [e1 i hi]
  have e3 : (h7 ++ x :: content ++ tail).drop 8 = content ++ tail := by
    rw [List.append_assoc, List.drop_append, hl]
    simp [List.drop_eq_nil_of_le (show h7.length ≤ 8 by omega)]
  have e4 : (h7 ++ x :: content ++ tail).take 7 = h7 := by
    rw [List.append_assoc, List.take_append, hl]
    simp [List.take_of_length_le (show h7.length ≤ 7 by omega)]
  unfold saying
  rw [e1 1 (by omega), ht, if_neg (by simpa using h3), e2 4 (by omega), e2 5 (by omega), e3, e4, List.take_append_of_le_length hd]
  rw [List.take_of_length_le]
  rw [List.length_take]
  have h1 := (h7.getD 4 0).toNat_lt
  have h2 := (h7.getD 5 0).toNat_lt
  omega

theorem head_len (t id n p) : ((headerBytes 1 t id n p 0).take 7).length = 7 := by simp [headerBytes, to16]

theorem head_declared (t id) (n : UInt16) (p) :
    256 * (((headerBytes 1 t id n p 0).take 7).getD 4 0).toNat + (((headerBytes 1 t id n p 0).take 7).getD 5 0).toNat = n.toNat := by
  have := n.toNat_lt
  simp only [headerBytes, to16_eq]
  simp
  omega

/-- What `sendRecord` sends. -/
theorem send_said {g k total content k1} (h3 : k.type ≠ 3) (e : sendRecord g k total content = .ok k1) :
    ∃ b, k1 = { k with sent := k.sent ++ [(k.sock, b)] } ∧ 8 + content.length ≤ total ∧
      saying b = (headerBytes 1 k.type k.id (UInt16.ofNat content.length) (UInt8.ofNat (total - (UInt16.ofNat content.length).toNat - 8)) 0).take 7 ++
        content.take (UInt16.ofNat content.length).toNat := by
  unfold sendRecord at e
  dsimp only at e
  obtain ⟨m1, e1, e⟩ := Res.bind_eq_ok.1 e
  obtain ⟨m2, e2, e⟩ := Res.bind_eq_ok.1 e
  cases e
  refine ⟨m2, rfl, ?_⟩
  unfold writeAt at e1
  split at e1
  · rename_i hle
    rw [garbage_length] at hle
    refine ⟨hle, ?_⟩
    cases e1
    unfold writeAt at e2
    split at e2
    · cases e2
      generalize hmem : garbage (g k.sent.length) total = mem at *
      have hml : mem.length = total := by rw [← hmem, garbage_length]
      obtain ⟨a0, a1, a2, a3, a4, a5, a6, a7, tl, rfl⟩ : ∃ a0 a1 a2 a3 a4 a5 a6 a7 tl,
        mem = a0 :: a1 :: a2 :: a3 :: a4 :: a5 :: a6 :: a7 :: tl := length_ge8 (by omega)
      generalize hh : (headerBytes 1 k.type k.id (UInt16.ofNat content.length) (UInt8.ofNat (total - (UInt16.ofNat content.length).toNat - 8)) 0).take 7 = h7
      have hl : h7.length = 7 := by rw [← hh, head_len]
      have ht : h7[1]? = some k.type := by rw [← hh]; simp [headerBytes]
      have hd : 256 * (h7.getD 4 0).toNat + (h7.getD 5 0).toNat = (UInt16.ofNat content.length).toNat := by rw [← hh]; exact head_declared ..
      have hn : (UInt16.ofNat content.length).toNat ≤ content.length := by rw [UInt16.toNat_ofNat']; exact Nat.mod_le _ _
      rw [← hd]
      rw [← hd] at hn
      rw [← said_made (x := a7) (tail := List.drop (8 + content.length) (a0 :: a1 :: a2 :: a3 :: a4 :: a5 :: a6 :: a7 :: tl)) hl ht h3 hn]
      simp [hl]
    · cases e2
  · cases e1

theorem send_ok {g k total content} (h : 8 + content.length ≤ total) : ∃ k1, sendRecord g k total content = .ok k1 := by
  unfold sendRecord
  dsimp only
  rw [writeAt_ok (by rw [garbage_length]; omega)]
  simp only [Res.ok_bind]
  rw [writeAt_ok]
  · exact ⟨_, rfl⟩
  · rw [head_len]
    simp [garbage_length]; omega

theorem send_sim {g g' k k' total content k1} (h : SinkSim k k') (e : sendRecord g k total content = .ok k1) :
    ∃ k1', sendRecord g' k' total content = .ok k1' ∧ SinkSim k1 k1' := by
  obtain ⟨b, rfl, hle, hb⟩ := send_said h.not3 e
  obtain ⟨k1', e'⟩ := send_ok (g := g') (k := k') hle
  obtain ⟨b', rfl, _, hb'⟩ := send_said (h.type ▸ h.not3) e'
  refine ⟨_, e', h.id, h.type, h.not3, ?_⟩
  simp [h.sent, hb, hb', h.id, h.type]

theorem sendAll_sim {g g'} : ∀ {fuel k k' data k1}, SinkSim k k' → sendAll g fuel k data = .ok k1 → ∃ k1', sendAll g' fuel k' data = .ok k1' ∧ SinkSim k1 k1' := by
  intro fuel
  induction fuel with
  | zero =>
    intro k k' data k1 h e
    cases data with
    | nil => simp only [sendAll] at e ⊢; cases e; exact ⟨_, rfl, h⟩
    | cons => simp only [sendAll] at e; cases e
  | succ n ih =>
    intro k k' data k1 h e
    cases data with
    | nil => simp only [sendAll] at e ⊢; cases e; exact ⟨_, rfl, h⟩
    | cons c data =>
      simp only [sendAll] at e ⊢
      obtain ⟨k2, e1, e⟩ := Res.bind_eq_ok.1 e
      obtain ⟨k2', e1', h'⟩ := send_sim (g' := g') h e1
      rw [e1']
      exact ih h' e

theorem dumpStream_sim {g g'} : ∀ {fuel k k' data k1}, SinkSim k k' → dumpStream g fuel k data = .ok k1 →
    ∃ k1', dumpStream g' fuel k' data = .ok k1' ∧ SinkSim k1 k1' := by
  intro fuel
  induction fuel with
  | zero => intro k k' data k1 h e; simp only [dumpStream] at e; cases e
  | succ n ih =>
    intro k k' data k1 h e
    simp only [dumpStream] at e ⊢
    split at e
    · rename_i hz; rw [if_pos hz]; cases e; exact ⟨_, rfl, h⟩
    · rename_i hz
      rw [if_neg hz]
      obtain ⟨k2, e1, e⟩ := Res.bind_eq_ok.1 e
      obtain ⟨k2', e1', h'⟩ := send_sim (g' := g') h e1
      rw [e1']
      exact ih h' e

/-- Stream buffers that differ in their connections and in fresh memory that was sent. -/
structure BufSim {α} (st st' : WebBuf α FcgiSink) : Prop where
  buf : st.buf = st'.buf
  cap : st.cap = st'.cap
  enc : st.enc = st'.enc
  sink : SinkSim st.sink st'.sink

def FlushSim {α} (f f' : WebBuf α FcgiSink → Res (WebBuf α FcgiSink × Bool)) : Prop :=
  ∀ st st' r, BufSim st st' → f st = .ok r → ∃ r', f' st' = .ok r' ∧ BufSim r.1 r'.1 ∧ r.2 = r'.2

theorem emptyC_sim (g g') : FlushSim (emptyBufferC g) (emptyBufferC g') := by
  intro st st' r h e
  unfold emptyBufferC at e ⊢
  obtain ⟨k, e1, e⟩ := Res.bind_eq_ok.1 e
  cases e
  obtain ⟨k', e1', h'⟩ := sendAll_sim (g' := g') h.sink e1
  rw [← h.buf, e1']
  exact ⟨_, rfl, ⟨rfl, rfl, h.enc, h'⟩, rfl⟩

theorem emptyW_sim (g g' u) : FlushSim (emptyBufferW g u) (emptyBufferW g' u) := by
  intro st st' r h e
  unfold emptyBufferW at e ⊢
  rw [← h.buf]
  cases hb : st.buf with
  | nil =>
    rw [hb] at e
    simp only at e ⊢
    cases e
    exact ⟨_, rfl, ⟨rfl, rfl, h.enc, h.sink⟩, rfl⟩
  | cons c s =>
    rw [hb] at e
    simp only at e ⊢
    cases hc : convert u (c :: s) with
    | none =>
      rw [hc] at e
      simp only at e ⊢
      cases e
      exact ⟨_, rfl, ⟨rfl, h.cap, h.enc, h.sink⟩, rfl⟩
    | some bytes =>
      rw [hc] at e
      simp only at e ⊢
      split at e
      · rename_i hl
        rw [if_pos hl]
        obtain ⟨k, e1, e⟩ := Res.bind_eq_ok.1 e
        cases e
        obtain ⟨k', e1', h'⟩ := send_sim (g' := g') h.sink e1
        rw [e1']
        exact ⟨_, rfl, ⟨rfl, rfl, h.enc, h'⟩, rfl⟩
      · cases e

section
variable {α : Type} {table : Enc → α → Option (List α)} {f f' : WebBuf α FcgiSink → Res (WebBuf α FcgiSink × Bool)} (hf : FlushSim f f')
include hf

theorem xsputn_sim : ∀ {fuel st st' s st1}, BufSim st st' → xsputn table f fuel st s = .ok st1 →
    ∃ st1', xsputn table f' fuel st' s = .ok st1' ∧ BufSim st1 st1' := by
  intro fuel
  induction fuel with
  | zero => intro st st' s st1 h e; simp only [xsputn] at e; cases e
  | succ n ih =>
    intro st st' s st1 h e
    simp only [xsputn] at e ⊢
    rw [← h.enc, ← h.cap, ← h.buf]
    generalize (if st.enc = .none then fillNone st.cap st.buf s else fillMap (table st.enc) st.cap st.buf s) = r at e ⊢
    have h2 : BufSim { st with buf := r.1 } { st' with buf := r.1 } := ⟨rfl, h.cap, h.enc, h.sink⟩
    cases hr : r.2 with
    | nil =>
      rw [hr] at e
      simp only at e ⊢
      cases e
      exact ⟨_, rfl, ⟨rfl, rfl, rfl, h.sink⟩⟩
    | cons c rest =>
      rw [hr] at e
      simp only at e ⊢
      obtain ⟨x, e1, e⟩ := Res.bind_eq_ok.1 e
      obtain ⟨x', e1', h', _⟩ := hf _ _ _ h2 e1
      rw [show ({ buf := r.1, cap := st.cap, enc := st.enc, sink := st'.sink } : WebBuf α FcgiSink) = { st' with buf := r.1 } by rw [h.cap, h.enc], e1']
      exact ih h' e

theorem sputc_sim {st st' c st1} (h : BufSim st st') (e : sputc f st c = .ok st1) : ∃ st1', sputc f' st' c = .ok st1' ∧ BufSim st1 st1' := by
  unfold sputc at e ⊢
  rw [← h.cap, ← h.buf]
  split at e
  · rename_i hl
    rw [if_pos hl]
    cases e
    exact ⟨_, rfl, ⟨rfl, rfl, h.enc, h.sink⟩⟩
  · rename_i hl
    rw [if_neg hl]
    obtain ⟨x, e1, e⟩ := Res.bind_eq_ok.1 e
    obtain ⟨x', e1', h', hr⟩ := hf _ _ _ h e1
    rw [e1']
    simp only [Res.ok_bind]
    rw [← hr, ← h'.buf, ← h'.cap]
    split at e
    · rename_i h1
      rw [if_pos h1]
      split at e
      · rename_i h2
        rw [if_pos h2]
        cases e
        exact ⟨_, rfl, ⟨rfl, rfl, h'.enc, h'.sink⟩⟩
      · cases e
    · rename_i h1
      rw [if_neg h1]
      cases e
      exact ⟨_, rfl, h'⟩

theorem sop_sim {g g' : Nat → Nat → UInt8} {st st'} {op : SOp α} {st1} (h : BufSim st st') (e : op.step g table f st = .ok st1) :
    ∃ st1', op.step g' table f' st' = .ok st1' ∧ BufSim st1 st1' := by
  cases op with
  | insert s => exact xsputn_sim hf h e
  | put c => exact sputc_sim hf h e
  | flush =>
    simp only [SOp.step] at e ⊢
    obtain ⟨x, e1, e⟩ := Res.bind_eq_ok.1 e
    obtain ⟨x', e1', h', _⟩ := hf _ _ _ h e1
    cases e
    rw [e1']
    exact ⟨_, rfl, h'⟩
  | setEnc x => cases e; exact ⟨_, rfl, ⟨h.buf, h.cap, rfl, h.sink⟩⟩
  | dump d =>
    simp only [SOp.step] at e ⊢
    obtain ⟨x, e1, e⟩ := Res.bind_eq_ok.1 e
    obtain ⟨x', e1', h', _⟩ := hf _ _ _ h e1
    obtain ⟨k, e2, e⟩ := Res.bind_eq_ok.1 e
    cases e
    obtain ⟨k', e2', h''⟩ := sendAll_sim (g' := g') h'.sink e2
    rw [e1']; simp only [Res.ok_bind]; rw [e2']
    exact ⟨_, rfl, ⟨h'.buf, h'.cap, h'.enc, h''⟩⟩
  | dumpStream d =>
    simp only [SOp.step] at e ⊢
    obtain ⟨x, e1, e⟩ := Res.bind_eq_ok.1 e
    obtain ⟨x', e1', h', _⟩ := hf _ _ _ h e1
    obtain ⟨k, e2, e⟩ := Res.bind_eq_ok.1 e
    cases e
    obtain ⟨k', e2', h''⟩ := dumpStream_sim (g' := g') h'.sink e2
    rw [e1']; simp only [Res.ok_bind]; rw [e2']
    exact ⟨_, rfl, ⟨h'.buf, h'.cap, h'.enc, h''⟩⟩
end

/-- What END_REQUEST says. -/
theorem said_end (g g' : Nat → UInt8) (id status) : saying (endRequestRecord g id status) = saying (endRequestRecord g' id status) := by
  simp [saying, endRequestRecord, headerBytes, to16, to32]

/-! ## Request<char> -/

/-- An event without its connection and without what does not matter. -/
def Ev.blur : Ev → Ev
  | .sent _ r k => .sent 0 (saying r) k
  | e => e

structure ReqSim {U} (q q' : Req U) : Prop where
  id : q.id = q'.id
  role : q.role = q'.role
  kill : q.kill = q'.kill
  max : q.maxPostSize = q'.maxPostSize
  state : q.state = q'.state
  status : q.status = q'.status
  env : q.env = q'.env
  user : q.user = q'.user
  out : BufSim q.out q'.out
  err : BufSim q.err q'.err
  log : q.log.map Ev.blur = q'.log.map Ev.blur

section
variable {U : Type} {h : Handlers U} {g g' : Nat → Nat → Nat → UInt8}

theorem fresh_sim (sock sock' id role kill max) (u : U) : ReqSim (freshReq sock id role kill max u) (freshReq sock' id role kill max u) :=
  ⟨rfl, rfl, rfl, rfl, rfl, rfl, rfl, rfl, ⟨rfl, rfl, rfl, ⟨rfl, rfl, by unfold freshReq; simp [freshStream], rfl⟩⟩, ⟨rfl, rfl, rfl, ⟨rfl, rfl, by unfold freshReq; simp [freshStream], rfl⟩⟩, rfl⟩

theorem sentLog_sim {a b : List (Nat × Bytes)} (hs : a.map (fun x => saying x.2) = b.map (fun x => saying x.2)) (n : Nat) :
    ((a.drop n).map fun p => Ev.sent p.1 p.2 false).map Ev.blur = ((b.drop n).map fun p => Ev.sent p.1 p.2 false).map Ev.blur := by
  have : ∀ l : List (Nat × Bytes), ((l.drop n).map fun p => Ev.sent p.1 p.2 false).map Ev.blur =
      ((l.map (fun x => saying x.2)).drop n).map fun r => Ev.sent 0 r false := by
    intro l; rw [← List.map_drop, List.map_map, List.map_map]; rfl
  rw [this, this, hs]

theorem streamOp_sim {q q' : Req U} {err op q1} (s : ReqSim q q') (e : streamOp g q err op = .ok q1) :
    ∃ q1', streamOp g' q' err op = .ok q1' ∧ ReqSim q1 q1' := by
  unfold streamOp at e ⊢
  cases err with
  | true =>
    simp only [if_true] at e ⊢
    obtain ⟨st, e1, e⟩ := Res.bind_eq_ok.1 e
    cases e
    obtain ⟨st', e1', hs2⟩ := sop_sim (emptyC_sim _ _) s.err e1
    rw [e1']
    refine ⟨_, rfl, s.id, s.role, s.kill, s.max, s.state, s.status, s.env, s.user, s.out, hs2, ?_⟩
    simp only [List.map_append]
    rw [s.log, s.err.sink.length]
    congr 1
    exact sentLog_sim hs2.sink.sent _
  | false =>
    simp only [Bool.false_eq_true, if_false] at e ⊢
    obtain ⟨st, e1, e⟩ := Res.bind_eq_ok.1 e
    cases e
    obtain ⟨st', e1', hs2⟩ := sop_sim (emptyC_sim _ _) s.out e1
    rw [e1']
    refine ⟨_, rfl, s.id, s.role, s.kill, s.max, s.state, s.status, s.env, s.user, hs2, s.err, ?_⟩
    simp only [List.map_append]
    rw [s.log, s.out.sink.length]
    congr 1
    exact sentLog_sim hs2.sink.sent _

theorem userOps_sim : ∀ {ops} {q q' : Req U} {q1}, ReqSim q q' → userOps g q ops = .ok q1 → ∃ q1', userOps g' q' ops = .ok q1' ∧ ReqSim q1 q1' := by
  intro ops
  induction ops with
  | nil => intro q q' q1 s e; cases e; exact ⟨_, rfl, s⟩
  | cons x ops ih =>
    intro q q' q1 s e
    obtain ⟨err, op⟩ := x
    simp only [userOps] at e ⊢
    obtain ⟨q2, e1, e⟩ := Res.bind_eq_ok.1 e
    have s2 : ReqSim { q with log := q.log ++ [.write err op] } { q' with log := q'.log ++ [.write err op] } :=
      ⟨s.id, s.role, s.kill, s.max, s.state, s.status, s.env, s.user, s.out, s.err, by simp [s.log]⟩
    obtain ⟨q2', e1', s3⟩ := streamOp_sim (g' := g') s2 e1
    rw [e1']
    exact ih s3 e

theorem call_sim {q q' : Req U} {c a q1} (s : ReqSim q q') (e : call g q c a = .ok q1) : ∃ q1', call g' q' c a = .ok q1' ∧ ReqSim q1 q1' := by
  unfold call at e ⊢
  obtain ⟨q2, e1, e⟩ := Res.bind_eq_ok.1 e
  have s2 : ReqSim { q with log := q.log ++ [.call c] } { q' with log := q'.log ++ [.call c] } :=
    ⟨s.id, s.role, s.kill, s.max, s.state, s.status, s.env, s.user, s.out, s.err, by simp [s.log]⟩
  obtain ⟨q2', e1', s3⟩ := userOps_sim (g' := g') s2 e1
  cases e
  rw [e1']
  exact ⟨_, rfl, s3.id, s3.role, s3.kill, s3.max, s3.state, s3.status, rfl, rfl, s3.out, s3.err, s3.log⟩

theorem complete_sim {q q' : Req U} {q1} (s : ReqSim q q') (e : complete g q = .ok q1) : ∃ q1', complete g' q' = .ok q1' ∧ ReqSim q1 q1' := by
  unfold complete at e ⊢
  obtain ⟨q2, e1, e⟩ := Res.bind_eq_ok.1 e
  obtain ⟨q2', e1', s2⟩ := streamOp_sim (g' := g') s e1
  obtain ⟨q3, e2, e⟩ := Res.bind_eq_ok.1 e
  obtain ⟨q3', e2', s3⟩ := streamOp_sim (g' := g') s2 e2
  cases e
  rw [e1']; simp only [Res.ok_bind]; rw [e2']
  refine ⟨_, rfl, s3.id, s3.role, s3.kill, s3.max, s3.state, s3.status, s3.env, s3.user, s3.out, s3.err, ?_⟩
  simp only [List.map_append, List.map_cons, List.map_nil, Ev.blur, s3.log, s3.id, s3.status, s3.kill]
  rw [said_end (g 3 0) (g' 3 0)]

theorem respond_sim {q q' : Req U} {m x} (s : ReqSim q q') (e : respond h g q m = .ok x) :
    ∃ x', respond h g' q' m = .ok x' ∧ ReqSim x.1 x'.1 ∧ x.2 = x'.2 := by
  unfold respond at e ⊢
  dsimp only at e ⊢
  rw [← s.user, ← s.env]
  obtain ⟨q2, e1, e⟩ := Res.bind_eq_ok.1 e
  obtain ⟨q2', e1', s2⟩ := call_sim (g' := g') s e1
  rw [e1']; simp only [Res.ok_bind]
  split at e
  · rename_i hc
    rw [if_pos hc]
    obtain ⟨q3, e2, e⟩ := Res.bind_eq_ok.1 e
    obtain ⟨q3', e2', s3⟩ := complete_sim (g' := g') s2 e2
    cases e
    rw [e2']
    exact ⟨_, rfl, s3, rfl⟩
  · rename_i hc
    rw [if_neg hc]
    cases e
    exact ⟨_, rfl, s2, rfl⟩

theorem failWith_sim {q q' : Req U} {c a x} (s : ReqSim q q') (e : failWith g q c a = .ok x) :
    ∃ x', failWith g' q' c a = .ok x' ∧ ReqSim x.1 x'.1 ∧ x.2 = x'.2 := by
  unfold failWith at e ⊢
  obtain ⟨q2, e1, e⟩ := Res.bind_eq_ok.1 e
  obtain ⟨q2', e1', s2⟩ := call_sim (g' := g') s e1
  obtain ⟨q3, e2, e⟩ := Res.bind_eq_ok.1 e
  obtain ⟨q3', e2', s3⟩ := complete_sim (g' := g') s2 e2
  cases e
  rw [e1']; simp only [Res.ok_bind]; rw [e2']
  exact ⟨_, rfl, s3, rfl⟩

theorem inputEnd_sim {q q' : Req U} {m x} (s : ReqSim q q') (e : inputEnd h g q m = .ok x) :
    ∃ x', inputEnd h g' q' m = .ok x' ∧ ReqSim x.1 x'.1 ∧ x.2 = x'.2 := by
  unfold inputEnd at e ⊢
  dsimp only at e ⊢
  rw [← s.user, ← s.env]
  obtain ⟨q2, e1, e⟩ := Res.bind_eq_ok.1 e
  obtain ⟨q2', e1', s2⟩ := call_sim (g' := g') s e1
  rw [e1']; simp only [Res.ok_bind]
  obtain ⟨p, e2, e⟩ := Res.bind_eq_ok.1 e
  rw [← s2.env, e2]
  simp only [Res.ok_bind]
  rw [← s2.user]
  split at e
  · rename_i hc
    rw [if_pos hc]
    exact failWith_sim (by constructor <;> first | rfl | exact s2.id | exact s2.role | exact s2.kill | exact s2.max | exact s2.state | exact s2.status | exact s2.env | exact s2.user | exact s2.out | exact s2.err | exact s2.log) e
  · rename_i hc
    rw [if_neg hc]
    exact respond_sim (by constructor <;> first | rfl | exact s2.id | exact s2.role | exact s2.kill | exact s2.max | exact s2.state | exact s2.status | exact s2.env | exact s2.user | exact s2.out | exact s2.err | exact s2.log) e

theorem handleMsg_sim {q q' : Req U} {m x} (s : ReqSim q q') (e : handleMsg h g q m = .ok x) :
    ∃ x', handleMsg h g' q' m = .ok x' ∧ ReqSim x.1 x'.1 ∧ x.2 = x'.2 := by
  unfold handleMsg at e ⊢
  split at e
  · rename_i h0
    rw [if_pos h0]
    obtain ⟨ty, e1, e⟩ := Res.bind_eq_ok.1 e
    obtain ⟨len, e2, e⟩ := Res.bind_eq_ok.1 e
    rw [e1]; simp only [Res.ok_bind]; rw [e2]; simp only [Res.ok_bind]
    dsimp only at e
    rw [← s.state, ← s.role, ← s.env, ← s.user, ← s.max]
    split at e
    · rename_i h1
      rw [if_pos h1]
      obtain ⟨q3, e3, e⟩ := Res.bind_eq_ok.1 e
      obtain ⟨q3', e3', s3⟩ := complete_sim (g' := g') s e3
      cases e
      rw [e3']
      exact ⟨_, rfl, s3, rfl⟩
    rename_i h1
    rw [if_neg h1]
    split at e
    · rename_i h2; rw [if_pos h2]; exact failWith_sim s e
    rename_i h2
    rw [if_neg h2]
    split at e
    · rename_i h3
      rw [if_pos h3]
      split at e
      · rename_i h4; rw [if_pos h4]
        exact failWith_sim (by constructor <;> first | rfl | exact s.id | exact s.role | exact s.kill | exact s.max | exact s.state | exact s.status | exact s.env | exact s.user | exact s.out | exact s.err | exact s.log) e
      rename_i h4
      rw [if_neg h4]
      split at e
      · rename_i h5
        rw [if_pos h5]
        split at e
        · rename_i h6; rw [if_pos h6]; exact failWith_sim s e
        · rename_i h6; rw [if_neg h6]
          cases e
          exact ⟨_, rfl, (by constructor <;> first | rfl | exact s.id | exact s.role | exact s.kill | exact s.max | exact s.state | exact s.status | exact s.env | exact s.user | exact s.out | exact s.err | exact s.log), rfl⟩
      rename_i h5
      rw [if_neg h5]
      split at e
      · cases e
      rename_i h6
      rw [if_neg h6]
      obtain ⟨env, e3, e⟩ := Res.bind_eq_ok.1 e
      cases e
      rw [e3]
      exact ⟨_, rfl, (by constructor <;> first | rfl | exact s.id | exact s.role | exact s.kill | exact s.max | exact s.state | exact s.status | exact s.env | exact s.user | exact s.out | exact s.err | exact s.log), rfl⟩
    rename_i h3
    rw [if_neg h3]
    split at e
    · rename_i h4
      rw [if_pos h4]
      split at e
      · rename_i h5; rw [if_pos h5]; exact inputEnd_sim s e
      rename_i h5
      rw [if_neg h5]
      split at e
      · rename_i h6; rw [if_pos h6]; exact failWith_sim s e
      rename_i h6
      rw [if_neg h6]
      split at e
      · cases e
      rename_i h7
      rw [if_neg h7]
      obtain ⟨q3, e3, e⟩ := Res.bind_eq_ok.1 e
      cases e
      have s2 : ReqSim { q with env := fillPostBuffer q.env (slice m.data 8 (8 + len.toNat)) } { q' with env := fillPostBuffer q.env (slice m.data 8 (8 + len.toNat)) } :=
        (by constructor <;> first | rfl | exact s.id | exact s.role | exact s.kill | exact s.max | exact s.state | exact s.status | exact s.env | exact s.user | exact s.out | exact s.err | exact s.log)
      obtain ⟨q3', e3', s3⟩ := call_sim (g' := g') s2 e3
      rw [s.role, s.max, s.state, s.user]
      rw [s.user] at e3'
      rw [e3']
      exact ⟨_, rfl, s3, rfl⟩
    rename_i h4
    rw [if_neg h4]
    exact failWith_sim s e
  · rename_i h0
    rw [if_neg h0]
    exact respond_sim s e

theorem handleAll_sim : ∀ {ms} {q q' : Req U} {x}, ReqSim q q' → handleAll (handleMsg h g) q ms = .ok x →
    ∃ x', handleAll (handleMsg h g') q' ms = .ok x' ∧ ReqSim x.1 x'.1 ∧ x.2 = x'.2 := by
  intro ms
  induction ms with
  | nil => intro q q' x s e; cases e; exact ⟨_, rfl, s, rfl⟩
  | cons m ms ih =>
    intro q q' x s e
    simp only [handleAll] at e ⊢
    obtain ⟨y, e1, e⟩ := Res.bind_eq_ok.1 e
    obtain ⟨y', e1', s2, hy⟩ := handleMsg_sim (g' := g') s e1
    rw [e1']; simp only [Res.ok_bind]
    rw [← hy]
    split at e
    · rename_i hc; rw [if_pos hc]; cases e; exact ⟨_, rfl, s2, rfl⟩
    · rename_i hc; rw [if_neg hc]; exact ih s2 e

theorem sent_sim {q q' : Req U} (s : ReqSim q q') : (sentOf q.log).map (fun x => (saying x.2.1, x.2.2)) = (sentOf q'.log).map (fun x => (saying x.2.1, x.2.2)) := by
  have : ∀ l : List Ev, (sentOf l).map (fun x => (saying x.2.1, x.2.2)) = (sentOf (l.map Ev.blur)).map (fun x => (x.2.1, x.2.2)) := by
    intro l
    induction l with
    | nil => rfl
    | cons e l ih => cases e <;> simp [sentOf, Ev.blur, ih]
  rw [this, this, s.log]
end

/-- Wide streams. -/
structure StreamSim (s s' : WStream) : Prop where
  st : BufSim s.st s'.st
  bad : s.bad = s'.bad

theorem wput_sim {f f'} (hf : FlushSim f f') {st st' c s1} (h : BufSim st st') (e : wput f st c = .ok s1) : ∃ s1', wput f' st' c = .ok s1' ∧ StreamSim s1 s1' := by
  unfold wput at e ⊢
  rw [← h.cap, ← h.buf]
  split at e
  · rename_i hl
    rw [if_pos hl]
    cases e
    exact ⟨_, rfl, ⟨rfl, rfl, h.enc, h.sink⟩, rfl⟩
  · rename_i hl
    rw [if_neg hl]
    obtain ⟨x, e1, e⟩ := Res.bind_eq_ok.1 e
    obtain ⟨x', e1', h', hr⟩ := hf _ _ _ h e1
    rw [e1']
    simp only [Res.ok_bind]
    rw [← hr, ← h'.buf, ← h'.cap]
    split at e
    · rename_i h1
      rw [if_pos h1]
      split at e
      · rename_i h2
        rw [if_pos h2]
        cases e
        exact ⟨_, rfl, ⟨rfl, rfl, h'.enc, h'.sink⟩, rfl⟩
      · cases e
    · rename_i h1
      rw [if_neg h1]
      cases e
      exact ⟨_, rfl, h', rfl⟩

theorem wstep_sim {b b' : Bool} (hb : b = b') {g g' : Nat → Nat → UInt8} {s s' : WStream} {op s1} (h : StreamSim s s') (e : s.step b g op = .ok s1) :
    ∃ s1', s'.step b' g' op = .ok s1' ∧ StreamSim s1 s1' := by
  subst hb
  have other : ∀ {st}, (∃ y, op.step g wideTable (emptyBufferW g utf8Put) s.st = .ok y ∧ st = ⟨y, s.bad⟩) →
      ∃ s1', (do return (⟨← op.step g' wideTable (emptyBufferW g' utf8Put) s'.st, s'.bad⟩ : WStream)) = .ok s1' ∧ StreamSim st s1' := by
    rintro st ⟨y, e1, rfl⟩
    obtain ⟨y', e1', h'⟩ := sop_sim (g' := g') (emptyW_sim g g' utf8Put) h.st e1
    rw [e1']
    exact ⟨_, rfl, h', h.bad⟩
  cases op with
  | insert t =>
    simp only [WStream.step] at e ⊢
    rw [← h.bad]
    split at e
    · rename_i hc; rw [if_pos hc]; cases e; exact ⟨_, rfl, h⟩
    · rename_i hc; rw [if_neg hc]
      obtain ⟨y, e1, e⟩ := Res.bind_eq_ok.1 e
      cases e
      obtain ⟨y', e1', h'⟩ := xsputn_sim (emptyW_sim g g' utf8Put) h.st e1
      rw [e1']
      exact ⟨_, rfl, h', rfl⟩
  | put c =>
    simp only [WStream.step] at e ⊢
    rw [← h.bad]
    split at e
    · rename_i hc; rw [if_pos hc]; cases e; exact ⟨_, rfl, h⟩
    · rename_i hc; rw [if_neg hc]
      exact wput_sim (emptyW_sim g g' utf8Put) h.st e
  | flush =>
    simp only [WStream.step] at e ⊢
    rw [← h.bad]
    split at e
    · rename_i hc; rw [if_pos hc]; cases e; exact ⟨_, rfl, h⟩
    · rename_i hc; rw [if_neg hc]
      obtain ⟨y, e1, e⟩ := Res.bind_eq_ok.1 e
      cases e
      obtain ⟨y', e1', h', hr⟩ := emptyW_sim g g' utf8Put _ _ _ h.st e1
      rw [e1']
      exact ⟨_, rfl, h', by simp [hr]⟩
  | setEnc x =>
    simp only [WStream.step] at e ⊢
    obtain ⟨y, e1, e⟩ := Res.bind_eq_ok.1 e
    cases e; exact other ⟨y, e1, rfl⟩
  | dump d =>
    simp only [WStream.step] at e ⊢
    obtain ⟨y, e1, e⟩ := Res.bind_eq_ok.1 e
    cases e; exact other ⟨y, e1, rfl⟩
  | dumpStream d =>
    simp only [WStream.step] at e ⊢
    obtain ⟨y, e1, e⟩ := Res.bind_eq_ok.1 e
    cases e; exact other ⟨y, e1, rfl⟩

/-! ## Request<wchar_t> -/

/-- An event without its connection and without what does not matter. -/
def EvW.blur : EvW → EvW
  | .sent _ r k => .sent 0 (saying r) k
  | e => e

structure ReqSimW {U} (q q' : ReqW U) : Prop where
  id : q.id = q'.id
  role : q.role = q'.role
  kill : q.kill = q'.kill
  max : q.maxPostSize = q'.maxPostSize
  state : q.state = q'.state
  status : q.status = q'.status
  env : q.env = q'.env
  user : q.user = q'.user
  out : StreamSim q.out q'.out
  err : StreamSim q.err q'.err
  log : q.log.map EvW.blur = q'.log.map EvW.blur

section
variable {U : Type} {h : HandlersW U} {g g' : Host} (hs : g.sentry = g'.sentry)

theorem fresh_simW (sock sock' id role kill max) (u : U) : ReqSimW (freshReqW sock id role kill max u) (freshReqW sock' id role kill max u) :=
  ⟨rfl, rfl, rfl, rfl, rfl, rfl, rfl, rfl, ⟨⟨rfl, rfl, rfl, ⟨rfl, rfl, by unfold freshReqW; simp [freshStream], rfl⟩⟩, rfl⟩, ⟨⟨rfl, rfl, rfl, ⟨rfl, rfl, by unfold freshReqW; simp [freshStream], rfl⟩⟩, rfl⟩, rfl⟩

theorem sentLog_simW {a b : List (Nat × Bytes)} (hs : a.map (fun x => saying x.2) = b.map (fun x => saying x.2)) (n : Nat) :
    ((a.drop n).map fun p => EvW.sent p.1 p.2 false).map EvW.blur = ((b.drop n).map fun p => EvW.sent p.1 p.2 false).map EvW.blur := by
  have : ∀ l : List (Nat × Bytes), ((l.drop n).map fun p => EvW.sent p.1 p.2 false).map EvW.blur =
      ((l.map (fun x => saying x.2)).drop n).map fun r => EvW.sent 0 r false := by
    intro l; rw [← List.map_drop, List.map_map, List.map_map]; rfl
  rw [this, this, hs]

include hs in
theorem streamOp_simW {q q' : ReqW U} {err op q1} (s : ReqSimW q q') (e : streamOpW g q err op = .ok q1) :
    ∃ q1', streamOpW g' q' err op = .ok q1' ∧ ReqSimW q1 q1' := by
  unfold streamOpW at e ⊢
  cases err with
  | true =>
    simp only [if_true] at e ⊢
    obtain ⟨st, e1, e⟩ := Res.bind_eq_ok.1 e
    cases e
    obtain ⟨st', e1', hs2⟩ := wstep_sim hs s.err e1
    rw [e1']
    refine ⟨_, rfl, s.id, s.role, s.kill, s.max, s.state, s.status, s.env, s.user, s.out, hs2, ?_⟩
    simp only [List.map_append]
    rw [s.log, s.err.st.sink.length]
    congr 1
    exact sentLog_simW hs2.st.sink.sent _
  | false =>
    simp only [Bool.false_eq_true, if_false] at e ⊢
    obtain ⟨st, e1, e⟩ := Res.bind_eq_ok.1 e
    cases e
    obtain ⟨st', e1', hs2⟩ := wstep_sim hs s.out e1
    rw [e1']
    refine ⟨_, rfl, s.id, s.role, s.kill, s.max, s.state, s.status, s.env, s.user, hs2, s.err, ?_⟩
    simp only [List.map_append]
    rw [s.log, s.out.st.sink.length]
    congr 1
    exact sentLog_simW hs2.st.sink.sent _

include hs in
theorem userOps_simW : ∀ {ops} {q q' : ReqW U} {q1}, ReqSimW q q' → userOpsW g q ops = .ok q1 → ∃ q1', userOpsW g' q' ops = .ok q1' ∧ ReqSimW q1 q1' := by
  intro ops
  induction ops with
  | nil => intro q q' q1 s e; cases e; exact ⟨_, rfl, s⟩
  | cons x ops ih =>
    intro q q' q1 s e
    obtain ⟨err, op⟩ := x
    simp only [userOpsW] at e ⊢
    obtain ⟨q2, e1, e⟩ := Res.bind_eq_ok.1 e
    have s2 : ReqSimW { q with log := q.log ++ [.write err op] } { q' with log := q'.log ++ [.write err op] } :=
      ⟨s.id, s.role, s.kill, s.max, s.state, s.status, s.env, s.user, s.out, s.err, by simp [s.log]⟩
    obtain ⟨q2', e1', s3⟩ := streamOp_simW (g' := g') hs s2 e1
    rw [e1']
    exact ih s3 e

include hs in
theorem call_simW {q q' : ReqW U} {c a q1} (s : ReqSimW q q') (e : callW g q c a = .ok q1) : ∃ q1', callW g' q' c a = .ok q1' ∧ ReqSimW q1 q1' := by
  unfold callW at e ⊢
  obtain ⟨q2, e1, e⟩ := Res.bind_eq_ok.1 e
  have s2 : ReqSimW { q with log := q.log ++ [.call c] } { q' with log := q'.log ++ [.call c] } :=
    ⟨s.id, s.role, s.kill, s.max, s.state, s.status, s.env, s.user, s.out, s.err, by simp [s.log]⟩
  obtain ⟨q2', e1', s3⟩ := userOps_simW (g' := g') hs s2 e1
  cases e
  rw [e1']
  exact ⟨_, rfl, s3.id, s3.role, s3.kill, s3.max, s3.state, s3.status, rfl, rfl, s3.out, s3.err, s3.log⟩

include hs in
theorem complete_simW {q q' : ReqW U} {q1} (s : ReqSimW q q') (e : completeW g q = .ok q1) : ∃ q1', completeW g' q' = .ok q1' ∧ ReqSimW q1 q1' := by
  unfold completeW at e ⊢
  obtain ⟨q2, e1, e⟩ := Res.bind_eq_ok.1 e
  obtain ⟨q2', e1', s2⟩ := streamOp_simW (g' := g') hs s e1
  obtain ⟨q3, e2, e⟩ := Res.bind_eq_ok.1 e
  obtain ⟨q3', e2', s3⟩ := streamOp_simW (g' := g') hs s2 e2
  cases e
  rw [e1']; simp only [Res.ok_bind]; rw [e2']
  refine ⟨_, rfl, s3.id, s3.role, s3.kill, s3.max, s3.state, s3.status, s3.env, s3.user, s3.out, s3.err, ?_⟩
  simp only [List.map_append, List.map_cons, List.map_nil, EvW.blur, s3.log, s3.id, s3.status, s3.kill]
  rw [said_end (g.heap 3 0) (g'.heap 3 0)]

include hs in
theorem respond_simW {q q' : ReqW U} {m x} (s : ReqSimW q q') (e : respondW h g q m = .ok x) :
    ∃ x', respondW h g' q' m = .ok x' ∧ ReqSimW x.1 x'.1 ∧ x.2 = x'.2 := by
  unfold respondW at e ⊢
  dsimp only at e ⊢
  rw [← s.user, ← s.env]
  obtain ⟨q2, e1, e⟩ := Res.bind_eq_ok.1 e
  obtain ⟨q2', e1', s2⟩ := call_simW (g' := g') hs s e1
  rw [e1']; simp only [Res.ok_bind]
  split at e
  · rename_i hc
    rw [if_pos hc]
    obtain ⟨q3, e2, e⟩ := Res.bind_eq_ok.1 e
    obtain ⟨q3', e2', s3⟩ := complete_simW (g' := g') hs s2 e2
    cases e
    rw [e2']
    exact ⟨_, rfl, s3, rfl⟩
  · rename_i hc
    rw [if_neg hc]
    cases e
    exact ⟨_, rfl, s2, rfl⟩

include hs in
theorem failWith_simW {q q' : ReqW U} {c a x} (s : ReqSimW q q') (e : failWithW g q c a = .ok x) :
    ∃ x', failWithW g' q' c a = .ok x' ∧ ReqSimW x.1 x'.1 ∧ x.2 = x'.2 := by
  unfold failWithW at e ⊢
  obtain ⟨q2, e1, e⟩ := Res.bind_eq_ok.1 e
  obtain ⟨q2', e1', s2⟩ := call_simW (g' := g') hs s e1
  obtain ⟨q3, e2, e⟩ := Res.bind_eq_ok.1 e
  obtain ⟨q3', e2', s3⟩ := complete_simW (g' := g') hs s2 e2
  cases e
  rw [e1']; simp only [Res.ok_bind]; rw [e2']
  exact ⟨_, rfl, s3, rfl⟩

include hs in
theorem inputEnd_simW {q q' : ReqW U} {m x} (s : ReqSimW q q') (e : inputEndW h g q m = .ok x) :
    ∃ x', inputEndW h g' q' m = .ok x' ∧ ReqSimW x.1 x'.1 ∧ x.2 = x'.2 := by
  unfold inputEndW at e ⊢
  dsimp only at e ⊢
  rw [← s.user, ← s.env]
  obtain ⟨q2, e1, e⟩ := Res.bind_eq_ok.1 e
  obtain ⟨q2', e1', s2⟩ := call_simW (g' := g') hs s e1
  rw [e1']; simp only [Res.ok_bind]
  obtain ⟨p, e2, e⟩ := Res.bind_eq_ok.1 e
  rw [← s2.env, e2]
  simp only [Res.ok_bind]
  rw [← s2.user]
  split at e
  · rename_i hc
    rw [if_pos hc]
    exact failWith_simW hs (by constructor <;> first | rfl | exact s2.id | exact s2.role | exact s2.kill | exact s2.max | exact s2.state | exact s2.status | exact s2.env | exact s2.user | exact s2.out | exact s2.err | exact s2.log) e
  · rename_i hc
    rw [if_neg hc]
    exact respond_simW hs (by constructor <;> first | rfl | exact s2.id | exact s2.role | exact s2.kill | exact s2.max | exact s2.state | exact s2.status | exact s2.env | exact s2.user | exact s2.out | exact s2.err | exact s2.log) e

include hs in
theorem handleMsg_simW {q q' : ReqW U} {m x} (s : ReqSimW q q') (e : handleMsgW h g q m = .ok x) :
    ∃ x', handleMsgW h g' q' m = .ok x' ∧ ReqSimW x.1 x'.1 ∧ x.2 = x'.2 := by
  unfold handleMsgW at e ⊢
  split at e
  · rename_i h0
    rw [if_pos h0]
    obtain ⟨ty, e1, e⟩ := Res.bind_eq_ok.1 e
    obtain ⟨len, e2, e⟩ := Res.bind_eq_ok.1 e
    rw [e1]; simp only [Res.ok_bind]; rw [e2]; simp only [Res.ok_bind]
    dsimp only at e
    rw [← s.state, ← s.role, ← s.env, ← s.user, ← s.max]
    split at e
    · rename_i h1
      rw [if_pos h1]
      obtain ⟨q3, e3, e⟩ := Res.bind_eq_ok.1 e
      obtain ⟨q3', e3', s3⟩ := complete_simW (g' := g') hs s e3
      cases e
      rw [e3']
      exact ⟨_, rfl, s3, rfl⟩
    rename_i h1
    rw [if_neg h1]
    split at e
    · rename_i h2; rw [if_pos h2]; exact failWith_simW hs s e
    rename_i h2
    rw [if_neg h2]
    split at e
    · rename_i h3
      rw [if_pos h3]
      split at e
      · rename_i h4; rw [if_pos h4]
        exact failWith_simW hs (by constructor <;> first | rfl | exact s.id | exact s.role | exact s.kill | exact s.max | exact s.state | exact s.status | exact s.env | exact s.user | exact s.out | exact s.err | exact s.log) e
      rename_i h4
      rw [if_neg h4]
      split at e
      · rename_i h5
        rw [if_pos h5]
        split at e
        · rename_i h6; rw [if_pos h6]; exact failWith_simW hs s e
        · rename_i h6; rw [if_neg h6]
          cases e
          exact ⟨_, rfl, (by constructor <;> first | rfl | exact s.id | exact s.role | exact s.kill | exact s.max | exact s.state | exact s.status | exact s.env | exact s.user | exact s.out | exact s.err | exact s.log), rfl⟩
      rename_i h5
      rw [if_neg h5]
      split at e
      · cases e
      rename_i h6
      rw [if_neg h6]
      obtain ⟨env, e3, e⟩ := Res.bind_eq_ok.1 e
      cases e
      rw [e3]
      exact ⟨_, rfl, (by constructor <;> first | rfl | exact s.id | exact s.role | exact s.kill | exact s.max | exact s.state | exact s.status | exact s.env | exact s.user | exact s.out | exact s.err | exact s.log), rfl⟩
    rename_i h3
    rw [if_neg h3]
    split at e
    · rename_i h4
      rw [if_pos h4]
      split at e
      · rename_i h5; rw [if_pos h5]; exact inputEnd_simW hs s e
      rename_i h5
      rw [if_neg h5]
      split at e
      · rename_i h6; rw [if_pos h6]; exact failWith_simW hs s e
      rename_i h6
      rw [if_neg h6]
      split at e
      · cases e
      rename_i h7
      rw [if_neg h7]
      obtain ⟨q3, e3, e⟩ := Res.bind_eq_ok.1 e
      cases e
      have s2 : ReqSimW { q with env := fillPostBufferW q.env (slice m.data 8 (8 + len.toNat)) } { q' with env := fillPostBufferW q.env (slice m.data 8 (8 + len.toNat)) } :=
        (by constructor <;> first | rfl | exact s.id | exact s.role | exact s.kill | exact s.max | exact s.state | exact s.status | exact s.env | exact s.user | exact s.out | exact s.err | exact s.log)
      obtain ⟨q3', e3', s3⟩ := call_simW (g' := g') hs s2 e3
      rw [s.role, s.max, s.state, s.user]
      rw [s.user] at e3'
      rw [e3']
      exact ⟨_, rfl, s3, rfl⟩
    rename_i h4
    rw [if_neg h4]
    exact failWith_simW hs s e
  · rename_i h0
    rw [if_neg h0]
    exact respond_simW hs s e

include hs in
theorem handleAll_simW : ∀ {ms} {q q' : ReqW U} {x}, ReqSimW q q' → handleAll (handleMsgW h g) q ms = .ok x →
    ∃ x', handleAll (handleMsgW h g') q' ms = .ok x' ∧ ReqSimW x.1 x'.1 ∧ x.2 = x'.2 := by
  intro ms
  induction ms with
  | nil => intro q q' x s e; cases e; exact ⟨_, rfl, s, rfl⟩
  | cons m ms ih =>
    intro q q' x s e
    simp only [handleAll] at e ⊢
    obtain ⟨y, e1, e⟩ := Res.bind_eq_ok.1 e
    obtain ⟨y', e1', s2, hy⟩ := handleMsg_simW (g' := g') hs s e1
    rw [e1']; simp only [Res.ok_bind]
    rw [← hy]
    split at e
    · rename_i hc; rw [if_pos hc]; cases e; exact ⟨_, rfl, s2, rfl⟩
    · rename_i hc; rw [if_neg hc]; exact ih s2 e

theorem sent_simW {q q' : ReqW U} (s : ReqSimW q q') : (sentOfW q.log).map (fun x => (saying x.2.1, x.2.2)) = (sentOfW q'.log).map (fun x => (saying x.2.1, x.2.2)) := by
  have : ∀ l : List EvW, (sentOfW l).map (fun x => (saying x.2.1, x.2.2)) = (sentOfW (l.map EvW.blur)).map (fun x => (x.2.1, x.2.2)) := by
    intro l
    induction l with
    | nil => rfl
    | cons e l ih => cases e <;> simp [sentOfW, EvW.blur, ih]
  rw [this, this, s.log]
end

end Fcgi.Model
