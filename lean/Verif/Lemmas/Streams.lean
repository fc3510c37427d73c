import Verif.Model.Streams
import Verif.Spec.Text
import Verif.Lemmas.Transceiver
import Verif.Spec.StreamTerms
namespace Fcgi.Model
open Fcgi Fcgi.Spec

/-- What an output record must look like. -/
structure OutRec (k : FcgiSink) (r : Record) : Prop where
  version : r.version = 1
  type : r.type = k.type
  id : r.id = k.id.toNat
  content_pos : 1 ≤ r.content.length
  content_max : r.content.length ≤ 65535
  padding : r.padding.length < 8
  aligned : r.bytes.length % 8 = 0

/-- `k'` is `k` after sending well formed records carrying `data`. -/
def Emitted (k k' : FcgiSink) (data : Bytes) : Prop :=
  ∃ rs : List Record, (∀ r ∈ rs, OutRec k r) ∧
    k' = { k with sent := k.sent ++ rs.map (fun r => (k.sock, r.bytes)) } ∧ rs.flatMap Record.content = data

theorem Emitted.refl (k) : Emitted k k [] := ⟨[], by simp, by simp, rfl⟩

theorem Emitted.trans {k k' k'' d d'} (h : Emitted k k' d) (h' : Emitted k' k'' d') :
    Emitted k k'' (d ++ d') := by
  obtain ⟨rs, a, rfl, rfl⟩ := h
  obtain ⟨rs', a', rfl, rfl⟩ := h'
  refine ⟨rs ++ rs', ?_, by simp, by simp⟩
  intro r hr
  rcases List.mem_append.1 hr with h | h
  · exact a r h
  · have := a' r h; exact ⟨this.1, this.2, this.3, this.4, this.5, this.6, this.7⟩

theorem getRecordSize_eq (n : Nat) (h : n ≤ 0xffff) : getRecordSize n = (n + 15) / 8 * 8 := by
  unfold getRecordSize; rw [if_neg (by omega)]
  show (n + 8 + 8 - 1) / 8 * 8 = _
  omega

theorem getRecordSize_min (n : Nat) : getRecordSize n = getRecordSize (min n 0xffff) := by
  unfold getRecordSize
  by_cases h : n > 0xffff
  · rw [if_pos h, if_neg (by omega)]; simp only [show min n 0xffff = 0xffff by omega]
  · rw [if_neg h, if_neg (by omega)]; simp only [show min n 0xffff = n by omega]

theorem writeAt_ok {mem : Bytes} {off : Nat} {d : Bytes} (h : off + d.length ≤ mem.length) :
    writeAt mem off d = .ok (mem.take off ++ d ++ mem.drop (off + d.length)) := by
  simp [writeAt, h]

theorem sendRecord_ok (g) (k : FcgiSink) (content : Bytes) (h1 : 1 ≤ content.length)
    (h2 : content.length ≤ 0xffff) :
    ∃ k', sendRecord g k (getRecordSize content.length) content = .ok k' ∧ Emitted k k' content := by
  have hg := getRecordSize_eq _ h2
  generalize ht : getRecordSize content.length = total at *
  have htot : 8 + content.length ≤ total ∧ total < 8 + content.length + 8 := by omega
  unfold sendRecord
  rw [writeAt_ok (by rw [garbage_length]; omega)]
  simp only [Res.ok_bind]
  generalize hmem : garbage (g k.sent.length) total = mem
  have hml : mem.length = total := by rw [← hmem, garbage_length]
  have hcl : (UInt16.ofNat content.length).toNat = content.length := by
    rw [UInt16.toNat_ofNat']; omega
  rw [hcl]
  obtain ⟨a0, a1, a2, a3, a4, a5, a6, a7, tl, rfl⟩ : ∃ a0 a1 a2 a3 a4 a5 a6 a7 tl,
      mem = a0 :: a1 :: a2 :: a3 :: a4 :: a5 :: a6 :: a7 :: tl := length_ge8 (by omega)
  simp only [List.length_cons] at hml
  have hp : UInt8.ofNat (total - content.length - 8) = UInt8.ofNat (tl.drop content.length).length := by
    congr 1; simp only [List.length_drop]; omega
  have h16 := to16_eq k.id
  have h16' := to16_eq (UInt16.ofNat content.length)
  rw [hcl] at h16'
  let r : Record := ⟨1, k.type, k.id.toNat, content, tl.drop content.length, a7⟩
  have hbytes : r.bytes = [1, k.type] ++ to16 k.id ++ to16 (UInt16.ofNat content.length) ++
      [UInt8.ofNat (total - content.length - 8), a7] ++ content ++ tl.drop content.length := by
    simp only [r, Record.bytes, hp, beDigits2]
    rw [h16, h16']; simp
  have hw : ∃ m, writeAt (List.take 8 (a0 :: a1 :: a2 :: a3 :: a4 :: a5 :: a6 :: a7 :: tl) ++ content ++
      List.drop (8 + content.length) (a0 :: a1 :: a2 :: a3 :: a4 :: a5 :: a6 :: a7 :: tl)) 0
      ((headerBytes 1 k.type k.id (UInt16.ofNat content.length)
        (UInt8.ofNat (total - content.length - 8)) 0).take 7) = .ok m ∧ m = r.bytes := by
    refine ⟨_, writeAt_ok ?_, ?_⟩
    · simp [headerBytes, to16]
    · rw [hbytes]
      have hd : List.drop (8 + content.length) (a0 :: a1 :: a2 :: a3 :: a4 :: a5 :: a6 :: a7 :: tl) =
          tl.drop content.length := by rw [Nat.add_comm]; simp
      rw [hd, h16, h16']
      simp [headerBytes, h16, h16']
  obtain ⟨m, hm, rfl⟩ := hw
  rw [hm]
  refine ⟨_, rfl, [r], ?_, by simp, by simp [r]⟩
  intro r' hr'
  simp only [List.mem_singleton] at hr'; subst hr'
  refine ⟨rfl, rfl, rfl, h1, by simpa [r] using h2, ?_, ?_⟩
  · simp [r]; omega
  · rw [Record.bytes_length]; simp [r]; omega

theorem sendAll_ok (g) : ∀ (fuel : Nat) (k : FcgiSink) (data : Bytes), data.length ≤ fuel →
    ∃ k', sendAll g fuel k data = .ok k' ∧ Emitted k k' data := by
  intro fuel
  induction fuel with
  | zero =>
    intro k data h
    have : data = [] := List.length_eq_zero_iff.1 (by omega)
    subst this
    exact ⟨k, by unfold sendAll; rfl, Emitted.refl k⟩
  | succ n ih =>
    intro k data h
    cases data with
    | nil => exact ⟨k, by unfold sendAll; rfl, Emitted.refl k⟩
    | cons c s =>
      generalize hd : c :: s = data at *
      have hpos : 1 ≤ data.length := by rw [← hd]; simp
      unfold sendAll
      subst hd
      simp only
      generalize hd : c :: s = data at *
      have hl : (data.take (min data.length 0xffff)).length = min data.length 0xffff := by simp
      obtain ⟨k1, e1, em1⟩ := sendRecord_ok g k (data.take (min data.length 0xffff)) (by omega) (by omega)
      rw [hl, ← getRecordSize_min] at e1
      rw [e1]
      simp only [Res.ok_bind]
      obtain ⟨k2, e2, em2⟩ := ih k1 (data.drop (min data.length 0xffff)) (by simp; omega)
      refine ⟨k2, e2, ?_⟩
      have := em1.trans em2
      rwa [List.take_append_drop] at this

theorem dumpStream_ok (g) : ∀ (fuel : Nat) (k : FcgiSink) (data : Bytes), data.length < fuel →
    ∃ k', dumpStream g fuel k data = .ok k' ∧ Emitted k k' data := by
  intro fuel
  induction fuel with
  | zero => intro k data h; omega
  | succ n ih =>
    intro k data h
    unfold dumpStream
    dsimp only
    have hl : (data.take 0xffff).length = min 0xffff data.length := by simp
    split
    · rename_i hz
      have : data = [] := List.length_eq_zero_iff.1 (by omega)
      subst this
      exact ⟨k, rfl, Emitted.refl k⟩
    · rename_i hz
      obtain ⟨k1, e1, em1⟩ := sendRecord_ok g k (data.take 0xffff) (by omega) (by omega)
      rw [e1]
      simp only [Res.ok_bind]
      obtain ⟨k2, e2, em2⟩ := ih k1 (data.drop 0xffff) (by simp; omega)
      refine ⟨k2, e2, ?_⟩
      have := em1.trans em2
      rwa [List.take_append_drop] at this

/-! ### The buffer -/

theorem encode1_none {α} (table : Enc → α → Option (List α)) (s : List α) :
    s.flatMap (encode1 table .none) = s := by
  induction s with
  | nil => rfl
  | cons c s ih => rw [List.flatMap_cons, ih]; simp [encode1]

theorem fillMap_spec {α} (find : α → Option (List α)) (cap : Nat) :
    ∀ (s buf : List α), buf.length ≤ cap →
    ∃ done rest, fillMap find cap buf s = (buf ++ done.flatMap (fun c => (find c).getD [c]), rest) ∧
      s = done ++ rest ∧ (buf ++ done.flatMap (fun c => (find c).getD [c])).length ≤ cap ∧
      (∀ c r, rest = c :: r → cap < (buf ++ done.flatMap (fun c => (find c).getD [c])).length +
        ((find c).getD [c]).length) := by
  intro s
  induction s with
  | nil => intro buf h; exact ⟨[], [], by simp [fillMap], rfl, by simpa using h, by simp⟩
  | cons c s ih =>
    intro buf h
    unfold fillMap
    dsimp only
    cases hf : find c with
    | none =>
      dsimp only
      by_cases hw : cap - buf.length < 1
      · rw [if_pos hw]
        refine ⟨[], c :: s, by simp, rfl, by simpa using h, ?_⟩
        intro c' r hr; cases hr; simp [hf]; omega
      · rw [if_neg hw]
        obtain ⟨done, rest, e1, e2, e3, e4⟩ := ih (buf ++ [c]) (by simp; omega)
        refine ⟨c :: done, rest, by rw [e1]; simp [hf], by simp [e2], by simpa [hf] using e3, ?_⟩
        intro c' r hr; have := e4 c' r hr; simpa [hf] using this
    | some e =>
      dsimp only
      by_cases hw : cap - buf.length < e.length
      · rw [if_pos hw]
        refine ⟨[], c :: s, by simp, rfl, by simpa using h, ?_⟩
        intro c' r hr; cases hr; simp [hf]; omega
      · rw [if_neg hw]
        obtain ⟨done, rest, e1, e2, e3, e4⟩ := ih (buf ++ e) (by simp; omega)
        refine ⟨c :: done, rest, by rw [e1]; simp [hf], by simp [e2], by simpa [hf] using e3, ?_⟩
        intro c' r hr; have := e4 c' r hr; simpa [hf] using this

/-- Both ways of filling the buffer: a prefix of the input goes, encoded, into the buffer, and the
next character, if any, did not fit. -/
theorem fill_spec {α} (table : Enc → α → Option (List α)) (e : Enc) (cap : Nat) (s buf : List α)
    (h : buf.length ≤ cap) :
    ∃ done rest, (if e = .none then fillNone cap buf s else fillMap (table e) cap buf s) =
        (buf ++ done.flatMap (encode1 table e), rest) ∧
      s = done ++ rest ∧ (buf ++ done.flatMap (encode1 table e)).length ≤ cap ∧
      (∀ c r, rest = c :: r → cap < (buf ++ done.flatMap (encode1 table e)).length +
        (encode1 table e c).length) := by
  by_cases he : e = .none
  · subst he
    rw [if_pos rfl]
    refine ⟨s.take (min s.length (cap - buf.length)), s.drop (min s.length (cap - buf.length)), ?_, ?_, ?_, ?_⟩
    · rw [encode1_none]; rfl
    · rw [List.take_append_drop]
    · rw [encode1_none]; simp; omega
    · intro c r hr
      rw [encode1_none]
      have := congrArg List.length hr
      simp [encode1] at this ⊢; omega
  · rw [if_neg he]
    obtain ⟨done, rest, e1, e2, e3, e4⟩ := fillMap_spec (table e) cap s buf h
    have : encode1 table e = fun c => (table e c).getD [c] := by funext c; simp [encode1, he]
    rw [this]
    exact ⟨done, rest, e1, e2, e3, e4⟩

/-! ### FcgiStreambuf invariant -/

/-- What the emptying function of a stream must do; `cv` is the conversion of a good character. -/
def FlushOk {α} (good : α → Prop) (cv : α → Bytes)
    (flush : WebBuf α FcgiSink → Res (WebBuf α FcgiSink × Bool)) : Prop :=
  ∀ st : WebBuf α FcgiSink, st.buf.length ≤ buffSize → (∀ c ∈ st.buf, good c) →
    ∃ k, flush st = .ok ({ st with buf := [], cap := buffSize, sink := k }, true) ∧
      Emitted st.sink k (st.buf.flatMap cv)

theorem flushOk_char (g) : FlushOk (fun _ => True) (fun c => [c]) (emptyBufferC g) := by
  intro st hl _
  obtain ⟨k, e, em⟩ := sendAll_ok g st.buf.length st.sink st.buf (Nat.le_refl _)
  refine ⟨k, ?_, ?_⟩
  · unfold emptyBufferC; rw [e]; rfl
  · have : st.buf.flatMap (fun c => [c]) = st.buf := by
      induction st.buf with
      | nil => rfl
      | cons a l ih => rw [List.flatMap_cons, ih]; rfl
    rw [this]; exact em

theorem convert_good {utf8 : UInt32 → Option Bytes} {cv : UInt32 → Bytes} (s : List UInt32)
    (h : ∀ c ∈ s, utf8 c = some (cv c)) : convert utf8 s = some (s.flatMap cv) := by
  induction s with
  | nil => rfl
  | cons c s ih =>
    unfold convert
    rw [h c (by simp), ih (fun c hc => h c (by simp [hc]))]
    simp

theorem flatMap_length_le {α β} (f : α → List β) (n : Nat) (s : List α) (h : ∀ c ∈ s, (f c).length ≤ n) :
    (s.flatMap f).length ≤ s.length * n := by
  induction s with
  | nil => simp
  | cons c s ih =>
    simp only [List.flatMap_cons, List.length_append, List.length_cons]
    have := h c (by simp)
    have := ih (fun c hc => h c (by simp [hc]))
    rw [Nat.add_mul]; omega

theorem flushOk_wide (g) (utf8 : UInt32 → Option Bytes) (cv : UInt32 → Bytes) :
    FlushOk (fun c => utf8 c = some (cv c) ∧ 1 ≤ (cv c).length ∧ (cv c).length ≤ 4) cv (emptyBufferW g utf8) := by
  intro st hl hg
  unfold emptyBufferW
  cases hb : st.buf with
  | nil => exact ⟨st.sink, rfl, Emitted.refl _⟩
  | cons c s =>
    dsimp only
    rw [← hb]
    rw [convert_good (cv := cv) st.buf (fun c hc => (hg c hc).1)]
    dsimp only
    have hle : (st.buf.flatMap cv).length ≤ st.buf.length * 4 := flatMap_length_le cv 4 st.buf (fun c hc => (hg c hc).2.2)
    have hpos : 1 ≤ (st.buf.flatMap cv).length := by
      rw [hb, List.flatMap_cons, List.length_append]
      have := (hg c (by simp [hb])).2.1
      omega
    simp only [buffSize] at hl
    have hr : getRecordSize (st.buf.length * 4) = (st.buf.length * 4 + 15) / 8 * 8 := getRecordSize_eq _ (by omega)
    rw [if_pos (by omega)]
    have hcl : (UInt16.ofNat (st.buf.flatMap cv).length).toNat = (st.buf.flatMap cv).length := by
      rw [UInt16.toNat_ofNat']; omega
    rw [hcl]
    obtain ⟨k, e, em⟩ := sendRecord_ok g st.sink (st.buf.flatMap cv) hpos (by omega)
    rw [e]
    exact ⟨k, rfl, em⟩

/-- Everything written so far (`D`) is in the records sent or still in the buffer. -/
structure SInv {α} (good : α → Prop) (cv : α → Bytes) (k0 : FcgiSink) (D : Bytes) (st : WebBuf α FcgiSink) :
    Prop where
  cap : st.cap = buffSize
  len : st.buf.length ≤ buffSize
  good : ∀ c ∈ st.buf, good c
  data : ∃ e, Emitted k0 st.sink e ∧ e ++ st.buf.flatMap cv = D

section
variable {α : Type} {good : α → Prop} {cv : α → Bytes} {table : Enc → α → Option (List α)}
  {flush : WebBuf α FcgiSink → Res (WebBuf α FcgiSink × Bool)}

theorem sinv_flush {k0 D} (hf : FlushOk good cv flush) {st : WebBuf α FcgiSink} (h : SInv good cv k0 D st) :
    ∃ k, flush st = .ok ({ st with buf := [], cap := buffSize, sink := k }, true) ∧
      Emitted k0 k D ∧ SInv good cv k0 D { st with buf := [], cap := buffSize, sink := k } := by
  obtain ⟨k, e, em⟩ := hf st h.len h.good
  obtain ⟨d, em0, hd⟩ := h.data
  have em1 := em0.trans em
  rw [hd] at em1
  exact ⟨k, e, em1, ⟨rfl, by simp [buffSize], by simp, D, em1, by simp⟩⟩

theorem xsputn_spec (hf : FlushOk good cv flush) (ht : TableOk good table) {k0 : FcgiSink} :
    ∀ (fuel : Nat) (s : List α) (D : Bytes) (st : WebBuf α FcgiSink), SInv good cv k0 D st →
    (∀ c ∈ s, good c) → (s.length < fuel ∨ (st.buf = [] ∧ s.length ≤ fuel ∧ s ≠ [])) →
    ∃ st', xsputn table flush fuel st s = .ok st' ∧ st'.enc = st.enc ∧
      SInv good cv k0 (D ++ (s.flatMap (encode1 table st.enc)).flatMap cv) st' := by
  intro fuel
  induction fuel with
  | zero =>
    intro s D st _ _ h
    rcases h with h | ⟨_, h, h'⟩
    · omega
    · exact absurd (List.length_eq_zero_iff.1 (by omega)) h'
  | succ n ih =>
    intro s D st hst hs hfuel
    unfold xsputn
    dsimp only
    obtain ⟨done, rest, e1, e2, e3, e4⟩ := fill_spec table st.enc st.cap s st.buf (by rw [hst.cap]; exact hst.len)
    rw [e1]
    have hst1 : SInv good cv k0 (D ++ (done.flatMap (encode1 table st.enc)).flatMap cv)
        { st with buf := st.buf ++ done.flatMap (encode1 table st.enc) } := by
      obtain ⟨d, em, hd⟩ := hst.data
      refine ⟨hst.cap, by have := hst.cap; dsimp only; omega, ?_, d, em, ?_⟩
      · intro c hc
        rcases List.mem_append.1 hc with h | h
        · exact hst.good c h
        · obtain ⟨x, hx, hx'⟩ := List.mem_flatMap.1 h
          exact (ht st.enc x (hs x (by simp [e2, hx]))).2.2 c hx'
      · simp [List.flatMap_append, ← hd]
    cases hr : rest with
    | nil =>
      dsimp only
      subst hr
      rw [List.append_nil] at e2
      subst e2
      exact ⟨_, rfl, rfl, hst1⟩
    | cons c r =>
      dsimp only
      obtain ⟨k, f1, f2, f3⟩ := sinv_flush hf hst1
      rw [f1]
      simp only [Res.ok_bind]
      have hlen : s.length = done.length + rest.length := by rw [e2]; simp
      have hprog : st.buf = [] → 1 ≤ done.length := by
        intro hb
        rcases Nat.eq_zero_or_pos done.length with h0 | h0
        · have hd0 := List.length_eq_zero_iff.1 h0
          have h4 := e4 c r hr
          rw [hd0, hb, hst.cap] at h4
          have h5 := (ht st.enc c (hs c (by simp [e2, hr]))).2.1
          simp [buffSize] at h4; omega
        · exact h0
      obtain ⟨st', g1, g2, g3⟩ := ih (c :: r) _ _ f3 (fun x hx => hs x (by rw [e2, hr]; simp [List.mem_append]; right; simpa using hx)) (by
        rw [← hr]
        rcases hfuel with h | ⟨h, h', _⟩
        · right; exact ⟨rfl, by omega, by simp [hr]⟩
        · right; have := hprog h; exact ⟨rfl, by omega, by simp [hr]⟩)
      refine ⟨st', g1, g2, ?_⟩
      have : D ++ (s.flatMap (encode1 table st.enc)).flatMap cv =
          D ++ (done.flatMap (encode1 table st.enc)).flatMap cv ++
            ((c :: r).flatMap (encode1 table st.enc)).flatMap cv := by
        rw [e2, hr]; simp [List.flatMap_append]
      rw [this]; exact g3

theorem sputc_spec (hf : FlushOk good cv flush) {k0 : FcgiSink} {D : Bytes} {st : WebBuf α FcgiSink} (c : α)
    (h : SInv good cv k0 D st) (hc : good c) :
    ∃ st', sputc flush st c = .ok st' ∧ st'.enc = st.enc ∧ SInv good cv k0 (D ++ cv c) st' := by
  have key : ∀ {D : Bytes} {st : WebBuf α FcgiSink}, SInv good cv k0 D st → st.buf.length < buffSize →
      SInv good cv k0 (D ++ cv c) { st with buf := st.buf ++ [c] } := by
    intro D st h hl
    obtain ⟨d, em, hd⟩ := h.data
    refine ⟨h.cap, by simpa using Nat.succ_le_of_lt hl, ?_, d, em, by simp [List.flatMap_append, ← hd]⟩
    intro x hx
    rcases List.mem_append.1 hx with h' | h'
    · exact h.good x h'
    · simp at h'; subst h'; exact hc
  unfold sputc
  by_cases hl : st.buf.length < st.cap
  · rw [if_pos hl]
    rw [h.cap] at hl
    exact ⟨_, rfl, rfl, key h hl⟩
  · rw [if_neg hl]
    obtain ⟨k, f1, f2, f3⟩ := sinv_flush hf h
    rw [f1]
    simp only [Res.ok_bind, if_true, List.length_nil]
    rw [if_pos (by simp [buffSize])]
    exact ⟨_, rfl, rfl, key f3 (by simp [buffSize])⟩

theorem SInv.sink {k0 D d k} {st : WebBuf α FcgiSink} (hb : st.buf = []) (h : SInv good cv k0 D st)
    (he : Emitted st.sink k d) : SInv good cv k0 (D ++ d) { st with sink := k } := by
  obtain ⟨e, em, hd⟩ := h.data
  rw [hb] at hd; simp at hd
  refine ⟨h.cap, h.len, h.good, D ++ d, by rw [← hd]; exact em.trans he, by rw [hb]; simp⟩

theorem srun_spec (g) (hf : FlushOk good cv flush) (ht : TableOk good table) {k0 : FcgiSink} :
    ∀ (ops : List (SOp α)) (D : Bytes) (st : WebBuf α FcgiSink), SInv good cv k0 D st →
    (∀ op ∈ ops, SOpGood good op) →
    ∃ st', srun g table flush st ops = .ok st' ∧ SInv good cv k0 (D ++ expected table cv st.enc ops) st' := by
  intro ops
  induction ops with
  | nil => intro D st h _; exact ⟨st, rfl, by simpa [expected] using h⟩
  | cons op ops ih =>
    intro D st h hg
    have hg' := fun o ho => hg o (List.mem_cons_of_mem _ ho)
    have hgo := hg op (by simp)
    simp only [srun]
    cases op with
    | insert s =>
      obtain ⟨st', e1, e2, e3⟩ := xsputn_spec hf ht (s.length + 1) s D st h hgo (Or.inl (by omega))
      simp only [SOp.step, e1, Res.ok_bind, expected]
      obtain ⟨st2, f1, f2⟩ := ih _ st' e3 hg'
      refine ⟨st2, f1, ?_⟩
      rwa [e2, List.append_assoc] at f2
    | put c =>
      obtain ⟨st', e1, e2, e3⟩ := sputc_spec hf c h hgo
      simp only [SOp.step, e1, Res.ok_bind, expected]
      obtain ⟨st2, f1, f2⟩ := ih _ st' e3 hg'
      refine ⟨st2, f1, ?_⟩
      rwa [e2, List.append_assoc] at f2
    | flush =>
      obtain ⟨k, e1, _, e3⟩ := sinv_flush hf h
      simp only [SOp.step, e1, Res.ok_bind, Res.pure_eq, expected]
      exact ih _ _ e3 hg'
    | setEnc e =>
      simp only [SOp.step, Res.ok_bind, expected]
      exact ih D { st with enc := e } ⟨h.cap, h.len, h.good, h.data⟩ hg'
    | dump d =>
      obtain ⟨k, e1, _, e3⟩ := sinv_flush hf h
      obtain ⟨k2, d1, d2⟩ := sendAll_ok g d.length k d (Nat.le_refl _)
      simp only [SOp.step, e1, Res.ok_bind, Res.pure_eq, expected, d1]
      obtain ⟨st2, f1, f2⟩ := ih _ _ (SInv.sink rfl e3 d2) hg'
      refine ⟨st2, f1, ?_⟩
      rwa [List.append_assoc] at f2
    | dumpStream d =>
      obtain ⟨k, e1, _, e3⟩ := sinv_flush hf h
      obtain ⟨k2, d1, d2⟩ := dumpStream_ok g (d.length + 1) k d (by omega)
      simp only [SOp.step, e1, Res.ok_bind, Res.pure_eq, expected, d1]
      obtain ⟨st2, f1, f2⟩ := ih _ _ (SInv.sink rfl e3 d2) hg'
      refine ⟨st2, f1, ?_⟩
      rwa [List.append_assoc] at f2

theorem srun_append (g) (ops ops' : List (SOp α)) (st : WebBuf α FcgiSink) :
    srun g table flush st (ops ++ ops') = (srun g table flush st ops >>= fun st => srun g table flush st ops') := by
  induction ops generalizing st with
  | nil => rfl
  | cons op ops ih =>
    simp only [List.cons_append, srun]
    cases op.step g table flush st with
    | ok a => simp only [Res.ok_bind]; exact ih a
    | ub k => rfl
    | stuck => rfl

theorem expected_append (ops ops' : List (SOp α)) (e : Enc) (h : ∀ op ∈ ops, ∀ e', op ≠ .setEnc e') :
    expected table cv e (ops ++ ops') = expected table cv e ops ++ expected table cv e ops' := by
  induction ops with
  | nil => rfl
  | cons op ops ih =>
    have ih := ih (fun o ho => h o (by simp [ho]))
    cases op <;> simp_all [expected]

/-- Flushed streams: everything is in the records. -/
theorem srun_flushed (g) (hf : FlushOk good cv flush) (ht : TableOk good table)
    (ops : List (SOp α)) (hg : ∀ op ∈ ops, SOpGood good op) (sock id type) :
    ∃ st', srun g table flush (freshStream sock id type) (ops ++ [.flush]) = .ok st' ∧ st'.buf = [] ∧
      Emitted ⟨sock, id, type, []⟩ st'.sink (expected table cv .none ops) := by
  have h0 : SInv good cv ⟨sock, id, type, []⟩ [] (freshStream sock id type : WebBuf α FcgiSink) :=
    ⟨rfl, by simp [freshStream, buffSize], by simp [freshStream], [], Emitted.refl _, rfl⟩
  obtain ⟨st, e1, e2⟩ := srun_spec g hf ht ops [] _ h0 hg
  obtain ⟨k, f1, f2, f3⟩ := sinv_flush hf e2
  rw [srun_append, e1]
  simp only [Res.ok_bind, srun, SOp.step, f1, Res.pure_eq]
  exact ⟨_, rfl, rfl, by simpa [freshStream] using f2⟩
end

theorem lookup_mem {t : List (UInt8 × Bytes)} {c e} (h : t.lookup c = some e) : (c, e) ∈ t := by
  induction t with
  | nil => simp at h
  | cons p t ih =>
    rw [List.lookup_cons] at h
    split at h
    · simp at h; subst h; rename_i hc; simp at hc; subst hc; simp
    · exact List.mem_cons_of_mem _ (ih h)

theorem charTable_length (e : Enc) (c : UInt8) (x : Bytes) (h : charTable e c = some x) :
    1 ≤ x.length ∧ x.length ≤ 6 ∧ ∀ b ∈ x, b < 128 := by
  have h1 : ∀ p ∈ htmlCharacters, 1 ≤ p.2.length ∧ p.2.length ≤ 6 ∧ ∀ b ∈ p.2, b < 128 := by decide
  have h2 : ∀ p ∈ urlCharacters, 1 ≤ p.2.length ∧ p.2.length ≤ 6 ∧ ∀ b ∈ p.2, b < 128 := by decide
  cases e <;> simp only [charTable] at h
  · exact h2 _ (lookup_mem h)
  · exact h1 _ (lookup_mem h)
  · exact h2 _ (lookup_mem h)

theorem tableOk_char : TableOk (fun _ => True) charTable := by
  intro e c _
  refine ⟨?_, ?_, by simp⟩ <;>
  · unfold encode1
    split
    · simp
    · cases h : charTable e c with
      | none => simp
      | some x => have := charTable_length e c x h; simp; omega

/-! ### Chunk buffers -/

/-- All bytes held by a chunk buffer, recorded or not. -/
def ChunkBuf.all (st : ChunkBuf) : Bytes := st.sink.front.flatMap Chunk.data ++ st.buf

structure KInv (D : Bytes) (st : ChunkBuf) : Prop where
  cap : st.cap = chunkCapacity
  len : st.buf.length ≤ chunkCapacity
  front : ∀ c ∈ st.sink.front, c.size = chunkCapacity ∧ c.data.length = chunkCapacity
  data : st.all = D

theorem emptyBufferK_spec {D st} (h : KInv D st) : ∃ st', emptyBufferK st = .ok (st', true) ∧ KInv D st' ∧
    st'.enc = st.enc ∧ st'.sink.lastSize = st'.buf.length ∧
    (st.buf.length = chunkCapacity → st'.buf = []) := by
  unfold emptyBufferK
  dsimp only
  by_cases hc : st.buf.length = chunkCapacity
  · rw [if_pos hc]
    refine ⟨_, rfl, ⟨rfl, by simp, ?_, ?_⟩, rfl, rfl, fun _ => rfl⟩
    · intro c hcm
      rcases List.mem_append.1 hcm with h' | h'
      · exact h.front c h'
      · simp at h'; subst h'; exact ⟨hc, hc⟩
    · rw [← h.data]; simp [ChunkBuf.all]
  · rw [if_neg hc]
    exact ⟨_, rfl, ⟨h.cap, h.len, h.front, h.data⟩, rfl, rfl, fun e => absurd e hc⟩

/-- Whenever an insertion terminates it has the right effect. -/
theorem kxsputn_spec : ∀ (fuel : Nat) (s : Bytes) (D : Bytes) (st st' : ChunkBuf), KInv D st →
    xsputn charTable emptyBufferK fuel st s = .ok st' →
    st'.enc = st.enc ∧ KInv (D ++ s.flatMap (encode1 charTable st.enc)) st' := by
  intro fuel
  induction fuel with
  | zero => intro s D st st' _ h; simp [xsputn] at h
  | succ n ih =>
    intro s D st st' hst h
    unfold xsputn at h
    dsimp only at h
    obtain ⟨done, rest, e1, e2, e3, e4⟩ := fill_spec charTable st.enc st.cap s st.buf (by rw [hst.cap]; exact hst.len)
    rw [e1] at h
    have hst1 : KInv (D ++ done.flatMap (encode1 charTable st.enc))
        { st with buf := st.buf ++ done.flatMap (encode1 charTable st.enc) } := by
      refine ⟨hst.cap, by have := hst.cap; dsimp only; omega, hst.front, ?_⟩
      rw [← hst.data]; simp [ChunkBuf.all]
    cases hr : rest with
    | nil =>
      rw [hr] at h; dsimp only at h
      cases h
      rw [hr, List.append_nil] at e2; subst e2
      exact ⟨rfl, hst1⟩
    | cons c r =>
      rw [hr] at h; dsimp only at h
      obtain ⟨st2, f1, f2, f3, _⟩ := emptyBufferK_spec hst1
      rw [f1] at h
      simp only [Res.ok_bind] at h
      obtain ⟨g1, g2⟩ := ih _ _ _ _ f2 h
      rw [f3] at g1 g2
      refine ⟨g1, ?_⟩
      rw [e2, hr, List.flatMap_append, ← List.append_assoc]
      exact g2

/-- An unencoded insertion terminates. -/
theorem kxsputn_none : ∀ (fuel : Nat) (s : Bytes) (D : Bytes) (st : ChunkBuf), KInv D st → st.enc = .none →
    (s.length < fuel ∨ (st.buf = [] ∧ s.length ≤ fuel ∧ s ≠ [])) →
    ∃ st', xsputn charTable emptyBufferK fuel st s = .ok st' := by
  intro fuel
  induction fuel with
  | zero =>
    intro s D st _ _ h
    rcases h with h | ⟨_, h, h'⟩
    · omega
    · exact absurd (List.length_eq_zero_iff.1 (by omega)) h'
  | succ n ih =>
    intro s D st hst he hfuel
    unfold xsputn
    dsimp only
    obtain ⟨done, rest, e1, e2, e3, e4⟩ := fill_spec charTable st.enc st.cap s st.buf (by rw [hst.cap]; exact hst.len)
    rw [e1]
    have hst1 : KInv (D ++ done.flatMap (encode1 charTable st.enc))
        { st with buf := st.buf ++ done.flatMap (encode1 charTable st.enc) } := by
      refine ⟨hst.cap, by have := hst.cap; dsimp only; omega, hst.front, ?_⟩
      rw [← hst.data]; simp [ChunkBuf.all]
    cases hr : rest with
    | nil => exact ⟨_, rfl⟩
    | cons c r =>
      dsimp only
      obtain ⟨st2, f1, f2, f3, _, f5⟩ := emptyBufferK_spec hst1
      rw [f1]
      simp only [Res.ok_bind]
      have h4 := e4 c r hr
      rw [he, encode1_none] at h4 e3
      have hfull : ({ st with buf := st.buf ++ done.flatMap (encode1 charTable st.enc) } : ChunkBuf).buf.length =
          chunkCapacity := by
        rw [hst.cap] at h4 e3
        simp only [he, encode1_none]
        simp [encode1] at h4 e3 ⊢
        omega
      have hlen : s.length = done.length + rest.length := by rw [e2]; simp
      apply ih (c :: r) _ st2 f2 (by rw [f3]; exact he)
      rw [← hr]
      right
      refine ⟨f5 hfull, ?_, by simp [hr]⟩
      rcases hfuel with h | ⟨h, h', _⟩
      · omega
      · have : 1 ≤ done.length := by
          rcases Nat.eq_zero_or_pos done.length with h0 | h0
          · have hd0 := List.length_eq_zero_iff.1 h0
            rw [he, encode1_none] at hfull
            simp [hd0, h, chunkCapacity] at hfull
          · exact h0
        omega

theorem ksputc_spec {D st} (c : UInt8) (h : KInv D st) :
    ∃ st', sputc emptyBufferK st c = .ok st' ∧ st'.enc = st.enc ∧ KInv (D ++ [c]) st' := by
  have key : ∀ {D : Bytes} {st : ChunkBuf}, KInv D st → st.buf.length < chunkCapacity →
      KInv (D ++ [c]) { st with buf := st.buf ++ [c] } := by
    intro D st h hl
    exact ⟨h.cap, by simpa using Nat.succ_le_of_lt hl, h.front, by rw [← h.data]; simp [ChunkBuf.all]⟩
  unfold sputc
  by_cases hl : st.buf.length < st.cap
  · rw [if_pos hl]
    rw [h.cap] at hl
    exact ⟨_, rfl, rfl, key h hl⟩
  · rw [if_neg hl]
    have hfull : st.buf.length = chunkCapacity := by have := h.cap; have := h.len; omega
    obtain ⟨st2, f1, f2, f3, _, f5⟩ := emptyBufferK_spec h
    rw [f1]
    simp only [Res.ok_bind, if_true, f5 hfull, List.length_nil]
    rw [if_pos (by rw [f2.cap]; simp [chunkCapacity])]
    refine ⟨_, rfl, f3, ?_⟩
    have := key f2 (by rw [f5 hfull]; simp [chunkCapacity])
    rw [f5 hfull] at this
    exact this

end Fcgi.Model
