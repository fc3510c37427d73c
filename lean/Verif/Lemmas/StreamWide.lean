import Verif.Model.RequestWide
import Verif.Spec.RequestWide
import Verif.Props.Sql
import Verif.Lemmas.Request
/-! Operations on a wide stream -/
namespace Fcgi.Model
open Fcgi Fcgi.Spec

/-- A wide character in UTF-8. -/
abbrev cv8 (c : UInt32) : Bytes := utf8Encode c.toNat

/-- What the converter accepts, as `FlushOk` wants it. -/
abbrev goodW (c : UInt32) : Prop := utf8Put c = some (cv8 c) ∧ 1 ≤ (cv8 c).length ∧ (cv8 c).length ≤ 4

theorem cv8_length (n : Nat) : 1 ≤ (utf8Encode n).length ∧ (utf8Encode n).length ≤ 4 := by
  unfold utf8Encode
  split
  · simp
  · split
    · simp
    · split <;> simp

theorem goodW_iff (c : UInt32) : goodW c ↔ isScalar c := by
  constructor
  · intro h
    refine Classical.byContradiction fun hn => ?_
    have h1 := h.1
    rw [(Fcgi.Props.utf8Put_scalar c).2 hn] at h1
    cases h1
  · intro h
    exact ⟨(Fcgi.Props.utf8Put_scalar c).1 h, cv8_length _⟩

theorem ascii_scalar (b : UInt8) (hb : b < 128) : isScalar b.toUInt32 := by
  left
  have hb' : b.toNat < 128 := by simpa [UInt8.lt_iff_toNat_lt] using hb
  rw [UInt32.lt_iff_toNat_lt]
  simp
  omega

theorem tableOk_wide : TableOk goodW wideTable := by
  intro e c hc
  unfold encode1
  by_cases he : e = .none
  · rw [if_pos he]; simp; exact hc
  · rw [if_neg he]
    unfold wideTable
    split
    · cases ht : charTable e c.toUInt8 with
      | none => simp; exact hc
      | some x =>
        have := charTable_length e _ x ht
        refine ⟨by simp; omega, by simp; omega, ?_⟩
        intro y hy
        simp at hy
        obtain ⟨b, hb, rfl⟩ := hy
        exact (goodW_iff _).2 (ascii_scalar b (this.2.2 b hb))
    · simp; exact hc

/-- The escapes are short, whatever the character. -/
theorem tableW_short (e : Enc) (c : UInt32) : 1 ≤ (encode1 wideTable e c).length ∧ (encode1 wideTable e c).length ≤ 8 := by
  unfold encode1
  split
  · simp
  · unfold wideTable
    split
    · cases ht : charTable e c.toUInt8 with
      | none => simp
      | some x =>
        have := charTable_length e _ x ht
        simp; omega
    · simp

/-- The stream buffer, whatever it holds. -/
structure SAny (k0 : FcgiSink) (st : WebBuf UInt32 FcgiSink) : Prop where
  cap : st.cap = buffSize
  len : st.buf.length ≤ buffSize
  sent : ∃ d, Emitted k0 st.sink d

/-- Emptying any buffer: it is empty afterwards; perhaps something was sent. -/
theorem flushAny (g) (st : WebBuf UInt32 FcgiSink) (hc : st.cap = buffSize) (hl : st.buf.length ≤ buffSize) :
    ∃ k b d, emptyBufferW g utf8Put st = .ok ({ st with buf := [], sink := k }, b) ∧ Emitted st.sink k d := by
  by_cases hg : ∀ c ∈ st.buf, goodW c
  · obtain ⟨k, e, em⟩ := flushOk_wide g utf8Put cv8 st hl hg
    exact ⟨k, true, _, by rw [e]; simp [← hc], em⟩
  · have hn : convert utf8Put st.buf = none := by
      generalize st.buf = s at hg
      induction s with
      | nil => exact absurd (by simp) hg
      | cons c s ih =>
        unfold convert
        by_cases h1 : goodW c
        · have : ¬ ∀ c ∈ s, goodW c := by
            intro h; apply hg
            intro x hx
            rcases List.mem_cons.1 hx with rfl | hx
            · exact h1
            · exact h x hx
          rw [ih this]
          cases utf8Put c <;> rfl
        · rw [(Fcgi.Props.utf8Put_scalar c).2 (fun h => h1 ((goodW_iff c).2 h))]
    unfold emptyBufferW
    cases hb : st.buf with
    | nil => rw [hb] at hg; exact absurd (by simp) hg
    | cons c s =>
      dsimp only
      rw [← hb, hn]
      exact ⟨st.sink, false, [], rfl, Emitted.refl _⟩

theorem xsputnAny (g) {k0 : FcgiSink} : ∀ (fuel : Nat) (s : List UInt32) (st : WebBuf UInt32 FcgiSink), SAny k0 st →
    (s.length < fuel ∨ (st.buf = [] ∧ s.length ≤ fuel ∧ s ≠ [])) →
    ∃ st', xsputn wideTable (emptyBufferW g utf8Put) fuel st s = .ok st' ∧ SAny k0 st' := by
  intro fuel
  induction fuel with
  | zero =>
    intro s st _ h
    rcases h with h | ⟨_, h, h'⟩
    · omega
    · exact absurd (List.length_eq_zero_iff.1 (by omega)) h'
  | succ n ih =>
    intro s st hst hfuel
    unfold xsputn
    dsimp only
    obtain ⟨done, rest, e1, e2, e3, e4⟩ := fill_spec wideTable st.enc st.cap s st.buf (by rw [hst.cap]; exact hst.len)
    rw [e1]
    have hst1 : SAny k0 { st with buf := st.buf ++ done.flatMap (encode1 wideTable st.enc) } :=
      ⟨hst.cap, by have := hst.cap; dsimp only; omega, hst.sent⟩
    cases hr : rest with
    | nil => exact ⟨_, rfl, hst1⟩
    | cons c r =>
      dsimp only
      obtain ⟨k, b, d, f1, f2⟩ := flushAny g _ hst1.cap hst1.len
      rw [f1]
      simp only [Res.ok_bind]
      have hlen : s.length = done.length + rest.length := by rw [e2]; simp
      have hprog : st.buf = [] → 1 ≤ done.length := by
        intro hb
        rcases Nat.eq_zero_or_pos done.length with h0 | h0
        · have hd0 := List.length_eq_zero_iff.1 h0
          have h4 := e4 c r hr
          rw [hd0, hb, hst.cap] at h4
          have h5 := (tableW_short st.enc c).2
          simp [buffSize] at h4; omega
        · exact h0
      obtain ⟨d0, hd0⟩ := hst.sent
      refine ih (c :: r) _ ⟨hst.cap, by simp [buffSize], d0 ++ d, hd0.trans f2⟩ ?_
      rw [← hr]
      rcases hfuel with h | ⟨h, h', _⟩
      · right; exact ⟨rfl, by omega, by simp [hr]⟩
      · right; have := hprog h; exact ⟨rfl, by omega, by simp [hr]⟩

/-- The encoding selected after some operations. -/
def encAfterW (e : Enc) : List (SOp UInt32) → Enc
  | [] => e
  | .setEnc e' :: ops => encAfterW e' ops
  | _ :: ops => encAfterW e ops

theorem encAfterW_append (ops ops' : List (SOp UInt32)) (e : Enc) :
    encAfterW e (ops ++ ops') = encAfterW (encAfterW e ops) ops' := by
  induction ops generalizing e with
  | nil => rfl
  | cons op ops ih => cases op <;> simp [encAfterW, ih]

theorem expectedW_snoc (ops ops' : List (SOp UInt32)) (e : Enc) :
    expected wideTable cv8 e (ops ++ ops') =
      expected wideTable cv8 e ops ++ expected wideTable cv8 (encAfterW e ops) ops' := by
  induction ops generalizing e with
  | nil => rfl
  | cons op ops ih => cases op <;> simp [encAfterW, expected, ih]

structure StreamOkW (sock : Nat) (id : UInt16) (type : UInt8) (st : WebBuf UInt32 FcgiSink) : Prop where
  cap : st.cap = buffSize
  len : st.buf.length ≤ buffSize
  sock : st.sink.sock = sock
  id : st.sink.id = id
  type : st.sink.type = type

/-- A stream that has been given text only. -/
structure TextStream (s : WStream) : Prop where
  fine : s.bad = false
  text : IsText s.st.buf

theorem anyStep (sentry) (g) (op : SOp UInt32) (s : WStream) (h : SAny s.st.sink s.st) :
    ∃ s', s.step sentry g op = .ok s' ∧ SAny s.st.sink s'.st := by
  obtain ⟨k, b, d, e, em⟩ := flushAny g s.st h.cap h.len
  have hk : SAny s.st.sink { s.st with buf := [], sink := k } := ⟨h.cap, by simp [buffSize], d, em⟩
  have hkeep : ∀ (f : FcgiSink) (d' : Bytes), Emitted k f d' → SAny s.st.sink { s.st with buf := [], sink := f } :=
    fun f d' hf => ⟨h.cap, by simp [buffSize], d ++ d', em.trans hf⟩
  cases op with
  | insert t =>
    simp only [WStream.step]
    by_cases hb : s.bad = true
    · rw [if_pos hb]; exact ⟨s, rfl, h⟩
    · rw [if_neg hb]
      obtain ⟨st', e1, e2⟩ := xsputnAny g (t.length + 1) t s.st h (Or.inl (by omega))
      rw [e1]; exact ⟨_, rfl, e2⟩
  | put c =>
    simp only [WStream.step]
    by_cases hb : s.bad = true
    · rw [if_pos hb]; exact ⟨s, rfl, h⟩
    · rw [if_neg hb]
      unfold wput
      by_cases hl : s.st.buf.length < s.st.cap
      · rw [if_pos hl]
        refine ⟨_, rfl, h.cap, ?_, h.sent⟩
        have := h.cap
        simp; omega
      · rw [if_neg hl, e]
        simp only [Res.ok_bind]
        cases b with
        | true =>
          rw [if_pos rfl, if_pos (by rw [h.cap]; simp [buffSize])]
          exact ⟨_, rfl, h.cap, by simp [buffSize], d, em⟩
        | false =>
          rw [if_neg (by simp)]
          exact ⟨_, rfl, hk⟩
  | flush =>
    simp only [WStream.step]
    split
    · exact ⟨s, rfl, h⟩
    · rw [e]; exact ⟨_, rfl, hk⟩
  | setEnc x => exact ⟨_, rfl, h.cap, h.len, h.sent⟩
  | dump x =>
    obtain ⟨k2, d1, d2⟩ := sendAll_ok g x.length k x (Nat.le_refl _)
    simp only [WStream.step, SOp.step, e, Res.ok_bind, Res.pure_eq, d1]
    exact ⟨_, rfl, hkeep _ _ d2⟩
  | dumpStream x =>
    obtain ⟨k2, d1, d2⟩ := dumpStream_ok g (x.length + 1) k x (by omega)
    simp only [WStream.step, SOp.step, e, Res.ok_bind, Res.pure_eq, d1]
    exact ⟨_, rfl, hkeep _ _ d2⟩

/-- On a stream that is not bad, given text, the operation is that of Model/Streams. -/
theorem goodStep (sentry) (g) (op : SOp UInt32) (s : WStream) (hb : s.bad = false) (hg : ∀ c ∈ s.st.buf, goodW c)
    (hl : s.st.buf.length ≤ buffSize) {st'} (e : op.step g wideTable (emptyBufferW g utf8Put) s.st = .ok st') :
    s.step sentry g op = .ok ⟨st', false⟩ := by
  obtain ⟨k, f, _⟩ := flushOk_wide g utf8Put cv8 s.st hl hg
  cases op with
  | insert t =>
    simp only [SOp.step] at e
    simp only [WStream.step, hb, Bool.false_eq_true, if_false, e]; rfl
  | put c =>
    simp only [SOp.step, sputc] at e
    simp only [WStream.step, hb, Bool.false_eq_true, if_false, wput]
    split at e <;> rename_i hx
    · rw [if_pos hx]; cases e; rfl
    · rw [if_neg hx]
      rw [f] at e ⊢
      simp only [Res.ok_bind, if_true] at e ⊢
      split at e <;> rename_i hy
      · rw [if_pos hy]; cases e; rfl
      · cases e
  | flush =>
    simp only [SOp.step, f] at e
    simp only [WStream.step, hb, Bool.false_and, Bool.false_eq_true, if_false, f]
    cases e; rfl
  | setEnc x => cases e; simp only [WStream.step, SOp.step, hb]; rfl
  | dump x => simp only [WStream.step, e, hb]; rfl
  | dumpStream x => simp only [WStream.step, e, hb]; rfl

theorem stepW_spec (sentry) (g) (op : SOp UInt32) {sock id type} {s : WStream} (h : StreamOkW sock id type s.st) :
    ∃ s', s.step sentry g op = .ok s' ∧ StreamOkW sock id type s'.st ∧
      ∃ rs : List Record, (∀ r ∈ rs, OutRec ⟨sock, id, type, []⟩ r) ∧
        s'.st.sink.sent = s.st.sink.sent ++ rs.map (fun r => (sock, r.bytes)) ∧
        (TextStream s → WritesText op → TextStream s' ∧ s'.st.enc = encAfterW s.st.enc [op] ∧ (op = .flush → s'.st.buf = []) ∧
          rs.flatMap Record.content ++ s'.st.buf.flatMap cv8 = s.st.buf.flatMap cv8 ++ expected wideTable cv8 s.st.enc [op]) := by
  obtain ⟨s', e1, e2⟩ := anyStep sentry g op s ⟨h.cap, h.len, [], Emitted.refl _⟩
  obtain ⟨d, rs, r1, r2, r3⟩ := e2.sent
  refine ⟨s', e1, ⟨e2.cap, e2.len, by rw [r2]; exact h.sock, by rw [r2]; exact h.id, by rw [r2]; exact h.type⟩, rs, ?_, by rw [r2, h.sock], ?_⟩
  · intro r hr
    have := r1 r hr
    exact ⟨this.version, this.type.trans h.type, by rw [this.id, h.id], this.content_pos, this.content_max, this.padding, this.aligned⟩
  · intro ht hop
    have hgb : ∀ c ∈ s.st.buf, goodW c := fun c hc => (goodW_iff c).2 (ht.text c hc)
    have hI : SInv goodW cv8 s.st.sink (s.st.buf.flatMap cv8) s.st :=
      ⟨h.cap, h.len, hgb, [], Emitted.refl _, by simp⟩
    have hgo : SOpGood goodW op := by
      cases op with
      | insert t => exact fun c hc => (goodW_iff c).2 (hop c hc)
      | put c => exact (goodW_iff c).2 hop
      | _ => trivial
    obtain ⟨st1, f1, f2⟩ := srun_spec g (flushOk_wide g utf8Put cv8) tableOk_wide [op] _ s.st hI (by simpa using hgo)
    simp only [srun] at f1
    obtain ⟨st2, f3, f4⟩ := Res.bind_eq_ok.1 f1
    cases f4
    have f5 := goodStep sentry g op s ht.fine hgb h.len f3
    rw [e1] at f5
    cases f5
    obtain ⟨x, ⟨rs', q1, q2, q3⟩, hd⟩ := f2.data
    have hrs : rs.map Record.bytes = rs'.map Record.bytes := by
      have : s.st.sink.sent ++ rs.map (fun r => (s.st.sink.sock, r.bytes)) = s.st.sink.sent ++ rs'.map (fun r => (s.st.sink.sock, r.bytes)) := by
        have := congrArg FcgiSink.sent (r2.symm.trans q2)
        exact this
      have := congrArg (List.map Prod.snd) (List.append_cancel_left this)
      rw [List.map_map, List.map_map] at this
      exact this
    have hcont : rs.flatMap Record.content = x := by
      rw [q3.symm]
      clear q3 q2 r3 r2
      induction rs generalizing rs' with
      | nil => cases rs' with
        | nil => rfl
        | cons _ _ => simp at hrs
      | cons a rs ih => cases rs' with
        | nil => simp at hrs
        | cons b rs' =>
          simp only [List.map_cons, List.cons.injEq] at hrs
          rw [List.flatMap_cons, List.flatMap_cons, ih (fun r hr => r1 r (by simp [hr])) rs' (fun r hr => q1 r (by simp [hr])) hrs.2]
          congr 1
          have ha := r1 a (by simp)
          have hb := q1 b (by simp)
          have wfa : a.WF := ⟨by rw [ha.id]; exact UInt16.toNat_lt _, by have := ha.content_max; omega, by have := ha.padding; omega⟩
          have wfb : b.WF := ⟨by rw [hb.id]; exact UInt16.toNat_lt _, by have := hb.content_max; omega, by have := hb.padding; omega⟩
          have ra := record_rd a wfa
          have rb := record_rd b wfb
          obtain ⟨l1, x1, x2⟩ := ra.2.1
          obtain ⟨l2, y1, y2⟩ := rb.2.1
          rw [hrs.1, y1] at x1
          cases x1
          rw [← ra.2.2.2, ← rb.2.2.2, hrs.1, ← x2, ← y2]
    refine ⟨⟨rfl, fun c hc => (goodW_iff c).1 (f2.good c hc)⟩, ?_, ?_, by rw [hcont]; exact hd⟩
    · cases op with
      | insert t =>
        obtain ⟨x, g1, g2, _⟩ := xsputn_spec (flushOk_wide g utf8Put cv8) tableOk_wide (t.length + 1) t _ s.st hI hgo (Or.inl (by omega))
        simp only [SOp.step] at f3
        rw [g1] at f3; cases f3; exact g2
      | put c =>
        obtain ⟨x, g1, g2, _⟩ := sputc_spec (flushOk_wide g utf8Put cv8) c hI hgo
        simp only [SOp.step] at f3
        rw [g1] at f3; cases f3; exact g2
      | flush =>
        obtain ⟨k, g1, _, _⟩ := sinv_flush (flushOk_wide g utf8Put cv8) hI
        simp only [SOp.step, g1] at f3
        cases f3; rfl
      | setEnc e => cases f3; rfl
      | dump d =>
        obtain ⟨k, g1, _, _⟩ := sinv_flush (flushOk_wide g utf8Put cv8) hI
        simp only [SOp.step, g1, Res.ok_bind, Res.bind_eq_ok] at f3
        obtain ⟨a, _, f3⟩ := f3
        cases f3; rfl
      | dumpStream d =>
        obtain ⟨k, g1, _, _⟩ := sinv_flush (flushOk_wide g utf8Put cv8) hI
        simp only [SOp.step, g1, Res.ok_bind, Res.bind_eq_ok] at f3
        obtain ⟨a, _, f3⟩ := f3
        cases f3; rfl
    · rintro rfl
      obtain ⟨k, g1, _, _⟩ := sinv_flush (flushOk_wide g utf8Put cv8) hI
      simp only [SOp.step, g1] at f3
      cases f3; rfl

end Fcgi.Model
