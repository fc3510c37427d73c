import Verif.Model.Ostream
import Verif.Lemmas.Streams
import Verif.Spec.OstreamTerms
/-! # Lemmas: output streams on top of the stream buffers -/
namespace Fcgi.Model
open Fcgi Fcgi.Spec

section
variable {α : Type} {good : α → Prop} {cv : α → Bytes}

/-- The bytes of an item. -/
def rendItem (table : Enc → α → Option (List α)) (cv : α → Bytes) : Item α → Bytes
  | .text e s => (s.flatMap (encode1 table (encOf e))).flatMap cv
  | .raw d => d

/-- The stream is in the state `f`. -/
structure OsMatches (f : OFmt α) (o : Ostr α) : Prop where
  good : o.good = f.good
  width : o.width = f.width
  fill : o.fill = f.fill
  left : o.left = f.left
  enc : o.st.enc = encOf f.coding

/-- The characters of an operation can be converted. -/
def OOpGood (good : α → Prop) : OOp α → Prop
  | .insert s | .number s | .write s => ∀ c ∈ s, good c
  | .char c | .put c | .fillWith c => good c
  | .copy ps => ∀ p ∈ ps, ∀ c ∈ p, good c
  | _ => True

theorem encOf_plain (table : Enc → α → Option (List α)) (s : List α) : s.flatMap (encode1 table (encOf .plain)) = s :=
  encode1_none table s

theorem sputcR_spec {flush} (hf : FlushOk good cv flush) {k0 : FcgiSink} {D : Bytes} {st : WebBuf α FcgiSink} (c : α)
    (h : SInv good cv k0 D st) (hc : good c) :
    ∃ st', sputcR flush st c = .ok (st', true) ∧ st'.enc = st.enc ∧ SInv good cv k0 (D ++ cv c) st' := by
  obtain ⟨st', e1, e2, e3⟩ := sputc_spec hf c h hc
  refine ⟨st', ?_, e2, e3⟩
  unfold sputc at e1
  unfold sputcR
  by_cases hl : st.buf.length < st.cap
  · rw [if_pos hl] at e1 ⊢
    injection e1 with e1
    rw [e1]
  · rw [if_neg hl] at e1 ⊢
    obtain ⟨k, f1, f2, f3⟩ := sinv_flush hf h
    rw [f1] at e1 ⊢
    simp only [Res.ok_bind, if_true, List.length_nil, Res.pure_eq] at e1 ⊢
    rw [if_pos (by simp [buffSize])] at e1 ⊢
    injection e1 with e1
    rw [e1]

variable {E : OEnv α}

theorem fillN_spec (hf : FlushOk good cv E.flush) {k0 : FcgiSink} : ∀ (n : Nat) (D : Bytes) (o : Ostr α), SInv good cv k0 D o.st → good o.fill →
    ∃ st', o.fillN E n = .ok { o with st := st' } ∧ st'.enc = o.st.enc ∧ SInv good cv k0 (D ++ (List.replicate n o.fill).flatMap cv) st' := by
  intro n
  induction n with
  | zero => intro D o h _; exact ⟨o.st, rfl, rfl, by simpa using h⟩
  | succ n ih =>
    intro D o h hg
    obtain ⟨st', e1, e2, e3⟩ := sputcR_spec hf o.fill h hg
    obtain ⟨st2, f1, f2, f3⟩ := ih _ { o with st := st' } e3 hg
    simp only [Ostr.fillN, e1, Res.ok_bind, if_true]
    refine ⟨st2, f1, f2.trans e2, ?_⟩
    simpa [List.replicate_succ, List.append_assoc] using f3

theorem sputn_spec (hf : FlushOk good cv E.flush) (ht : TableOk good E.table) {k0 : FcgiSink} {D : Bytes} {o : Ostr α} (s : List α)
    (h : SInv good cv k0 D o.st) (hs : ∀ c ∈ s, good c) :
    ∃ st', o.sputn E s = .ok { o with st := st' } ∧ st'.enc = o.st.enc ∧
      SInv good cv k0 (D ++ (s.flatMap (encode1 E.table o.st.enc)).flatMap cv) st' := by
  obtain ⟨st', e1, e2, e3⟩ := xsputn_spec hf ht (s.length + 1) s D o.st h hs (Or.inl (by omega))
  exact ⟨st', by simp [Ostr.sputn, e1, Res.pure_eq], e2, e3⟩

theorem sentryEnd_spec (hf : FlushOk good cv E.flush) {k0 : FcgiSink} {D : Bytes} {o : Ostr α} (h : SInv good cv k0 D o.st) :
    ∃ st', o.sentryEnd E = .ok { o with st := st' } ∧ st'.enc = o.st.enc ∧ SInv good cv k0 D st' := by
  unfold Ostr.sentryEnd
  split
  · obtain ⟨k, f1, _, f3⟩ := sinv_flush hf h
    refine ⟨_, ?_, ?_, f3⟩
    · simp [f1, Res.pure_eq]
    · rfl
  · exact ⟨o.st, rfl, rfl, h⟩

theorem insertBody_spec (hf : FlushOk good cv E.flush) (ht : TableOk good E.table) {k0 : FcgiSink} {D : Bytes} {o : Ostr α} {f : OFmt α}
    (hm : OsMatches f o) (hg : o.good = true) (s : List α) (h : SInv good cv k0 D o.st) (hs : ∀ c ∈ s, good c) (hfill : good o.fill) :
    ∃ st', Ostr.insertBody E s o = .ok { o with st := st', width := 0 } ∧ st'.enc = o.st.enc ∧
      SInv good cv k0 (D ++ (f.padded s).flatMap (rendItem E.table cv)) st' := by
  unfold Ostr.insertBody
  split
  · rename_i hw
    unfold OFmt.padded
    rw [← hm.left, ← hm.width, ← hm.fill]
    dsimp only
    cases hl : o.left
    · obtain ⟨s1, a1, a2, a3⟩ := fillN_spec hf (o.width - s.length).toNat D o h hfill
      obtain ⟨s2, b1, b2, b3⟩ := sputn_spec hf ht (o := { o with st := s1 }) s a3 hs
      simp only [hg, hl] at a1 b1
      simp only [Bool.false_eq_true, if_false, a1, Res.ok_bind, if_true, b1, Bool.false_and, Res.pure_eq, hg]
      refine ⟨s2, rfl, b2.trans a2, ?_⟩
      dsimp only at b3
      rw [a2, hm.enc] at b3
      simpa [rendItem, encOf_plain, List.append_assoc] using b3
    · obtain ⟨s1, a1, a2, a3⟩ := sputn_spec hf ht (o := o) s h hs
      obtain ⟨s2, b1, b2, b3⟩ := fillN_spec hf (o.width - s.length).toNat _ { o with st := s1 } a3 hfill
      simp only [hg, hl] at a1 b1
      simp only [hg, if_true, a1, Res.ok_bind, Bool.and_self, b1, Res.pure_eq]
      refine ⟨s2, rfl, b2.trans a2, ?_⟩
      dsimp only at b3
      rw [hm.enc] at b3
      simpa [rendItem, encOf_plain, List.append_assoc] using b3
  · rename_i hw
    obtain ⟨s1, a1, a2, a3⟩ := sputn_spec hf ht (o := o) s h hs
    simp only [a1, Res.ok_bind, Res.pure_eq]
    refine ⟨s1, rfl, a2, ?_⟩
    have hz : (f.width - s.length).toNat = 0 := by rw [← hm.width]; omega
    rw [hm.enc] at a3
    unfold OFmt.padded
    simp only [hz, List.replicate_zero]
    split <;> simpa [rendItem] using a3

/-- A guarded operation whose body is as it should be. -/
theorem guarded_spec (hf : FlushOk good cv E.flush) {k0 : FcgiSink} {D d : Bytes} {o : Ostr α} {body : Ostr α → Res (Ostr α)}
    (h : SInv good cv k0 D o.st) (w : Int)
    (hb : o.good = true → ∃ st', body o = .ok { o with st := st', width := w } ∧ st'.enc = o.st.enc ∧ SInv good cv k0 (D ++ d) st') :
    ∃ st', o.guarded E body = .ok { o with st := st', width := if o.good then w else o.width } ∧ st'.enc = o.st.enc ∧
      SInv good cv k0 (D ++ if o.good then d else []) st' := by
  unfold Ostr.guarded
  cases hg : o.good
  · simp only [Bool.false_eq_true, if_false, Res.ok_bind, List.append_nil]
    obtain ⟨s1, a1, a2, a3⟩ := sentryEnd_spec hf h
    exact ⟨s1, by simpa [hg] using a1, a2, a3⟩
  · obtain ⟨s1, a1, a2, a3⟩ := hb hg
    simp only [if_true, a1, Res.ok_bind]
    obtain ⟨s2, b1, b2, b3⟩ := sentryEnd_spec hf (o := { o with st := s1, width := w }) a3
    exact ⟨s2, by simpa [hg] using b1, b2.trans a2, b3⟩

theorem copyPieces_spec (hf : FlushOk good cv E.flush) (ht : TableOk good E.table) {k0 : FcgiSink} (e : Coding) : ∀ (ps : List (List α)) (ret : Nat)
    (D : Bytes) (st : WebBuf α FcgiSink), st.enc = encOf e → SInv good cv k0 D st → (∀ p ∈ ps, ∀ c ∈ p, good c) →
    ∃ st', copyPieces E st ret ps = .ok (st', ret + (ps.map List.length).sum) ∧ st'.enc = st.enc ∧
      SInv good cv k0 (D ++ (ps.map fun p => if p.length = 1 then Item.text .plain p else .text e p).flatMap (rendItem E.table cv)) st' := by
  intro ps
  induction ps with
  | nil => intro ret D st _ h _; exact ⟨st, rfl, rfl, by simpa using h⟩
  | cons p ps ih =>
    intro ret D st he h hg
    have hg' : ∀ q ∈ ps, ∀ c ∈ q, good c := fun q hq => hg q (by simp [hq])
    match p, hg p (by simp) with
    | [], _ =>
      obtain ⟨s1, a1, a2, a3⟩ := ih ret D st he h hg'
      refine ⟨s1, ?_, a2, ?_⟩
      · rw [copyPieces, a1]; simp
      · simpa [rendItem] using a3
    | [c], hc =>
      obtain ⟨s0, z1, z2, z3⟩ := sputcR_spec hf c h (hc c (by simp))
      obtain ⟨s1, a1, a2, a3⟩ := ih (ret + 1) _ s0 (z2.trans he) z3 hg'
      refine ⟨s1, ?_, a2.trans z2, ?_⟩
      · rw [copyPieces, z1]
        simp only [Res.ok_bind, if_true, a1]
        simp; omega
      · simpa [rendItem, encOf, encode1, List.append_assoc] using a3
    | c :: d :: s, hc =>
      obtain ⟨s0, z1, z2, z3⟩ := xsputn_spec hf ht ((c :: d :: s).length + 1) (c :: d :: s) D st h hc (Or.inl (by omega))
      obtain ⟨s1, a1, a2, a3⟩ := ih (ret + (c :: d :: s).length) _ s0 (z2.trans he) z3 hg'
      refine ⟨s1, ?_, a2.trans z2, ?_⟩
      · rw [copyPieces, z1]
        simp only [Res.ok_bind, a1]
        simp; omega
      · rw [he] at z3 a3
        simpa [rendItem, List.append_assoc] using a3

theorem sum_zero_all (ps : List (List α)) : ((ps.map List.length).sum != 0) = !(ps.all (·.isEmpty)) := by
  induction ps with
  | nil => rfl
  | cons p ps ih =>
    rw [List.map_cons, List.sum_cons, List.all_cons]
    cases p with
    | nil => simpa using ih
    | cons c p => simp

/-- One operation. -/
theorem ostep_spec (hf : FlushOk good cv E.flush) (ht : TableOk good E.table) {k0 : FcgiSink} {D : Bytes} {o : Ostr α} {f : OFmt α}
    (hm : OsMatches f o) (h : SInv good cv k0 D o.st) (hfill : good o.fill) (op : OOp α) (hop : OOpGood good op) :
    ∃ o', o.step E op = .ok o' ∧ OsMatches (f.next op) o' ∧ good o'.fill ∧ SInv good cv k0 (D ++ (f.says op).flatMap (rendItem E.table cv)) o'.st := by
  have hq : ∀ (w : Int) (st' : WebBuf α FcgiSink), st'.enc = o.st.enc →
      OsMatches (if f.good then { f with width := w } else f) { o with st := st', width := if o.good then w else o.width } := by
    intro w st' he
    cases hg : f.good
    · have ho : o.good = false := hm.good.trans hg
      exact ⟨by simp [ho, hg], by simpa [ho] using hm.width, hm.fill, hm.left, he.trans hm.enc⟩
    · have ho : o.good = true := hm.good.trans hg
      exact ⟨by simp [ho, hg], by simp [ho], hm.fill, hm.left, he.trans hm.enc⟩
  have hkeep : ∀ (w : Int), w = o.width → (if o.good then w else o.width) = o.width := by intro w hw; split <;> simp [hw]
  cases op with
  | insert s =>
    obtain ⟨s1, a1, a2, a3⟩ := guarded_spec hf h 0 (fun hg => insertBody_spec hf ht hm hg s h hop hfill)
    refine ⟨_, a1, hq 0 s1 a2, hfill, ?_⟩
    rw [hm.good] at a3
    simp only [OFmt.says]
    split <;> rename_i hg <;> simp only [hg, if_true, Bool.false_eq_true, if_false] at a3 <;> exact a3
  | char c =>
    by_cases hw : o.width = 0
    · obtain ⟨s1, a1, a2, a3⟩ := guarded_spec (body := (·.sputc1 E c)) (d := cv c) hf h 0 (fun hg => by
        obtain ⟨st', e1, e2, e3⟩ := sputcR_spec hf c h hop
        refine ⟨st', ?_, e2, e3⟩
        simp [Ostr.sputc1, e1, Res.pure_eq, ← hw])
      have hw' : f.width = 0 := hm.width ▸ hw
      simp only [Ostr.step, hw, ne_eq, not_true, if_false]
      refine ⟨_, a1, hq 0 s1 a2, hfill, ?_⟩
      rw [hm.good] at a3
      simp only [OFmt.says]
      rw [if_pos hw']
      split <;> rename_i hg <;> simp only [hg, if_true, Bool.false_eq_true, if_false] at a3
      · simpa [rendItem, encOf, encode1] using a3
      · exact a3
    · have hw' : ¬ f.width = 0 := hm.width ▸ hw
      obtain ⟨s1, a1, a2, a3⟩ := guarded_spec hf h 0 (fun hg => insertBody_spec hf ht hm hg [c] h (by intro x hx; rw [List.mem_singleton] at hx; subst hx; exact hop) hfill)
      simp only [Ostr.step, ne_eq, hw, not_false_eq_true, if_true]
      refine ⟨_, a1, hq 0 s1 a2, hfill, ?_⟩
      rw [hm.good] at a3
      simp only [OFmt.says]
      rw [if_neg hw']
      split <;> rename_i hg <;> simp only [hg, if_true, Bool.false_eq_true, if_false] at a3 <;> exact a3
  | number t =>
    obtain ⟨s1, a1, a2, a3⟩ := guarded_spec (body := fun o => do
        let o ← o.sputn E t
        return { o with width := 0 }) hf h 0 (fun hg => by
      obtain ⟨st', e1, e2, e3⟩ := sputn_spec hf ht (o := o) t h hop
      exact ⟨st', by simp [e1, Res.pure_eq], e2, e3⟩)
    refine ⟨_, a1, hq 0 s1 a2, hfill, ?_⟩
    rw [hm.good, hm.enc] at a3
    simp only [OFmt.says]
    split <;> rename_i hg <;> simp only [hg, if_true, Bool.false_eq_true, if_false] at a3
    · simpa [rendItem] using a3
    · exact a3
  | put c =>
    obtain ⟨s1, a1, a2, a3⟩ := guarded_spec (body := (·.sputc1 E c)) (d := cv c) hf h o.width (fun hg => by
      obtain ⟨st', e1, e2, e3⟩ := sputcR_spec hf c h hop
      refine ⟨st', ?_, e2, e3⟩
      simp [Ostr.sputc1, e1, Res.pure_eq])
    rw [hkeep _ rfl] at a1
    refine ⟨_, a1, ⟨hm.good, hm.width, hm.fill, hm.left, a2.trans hm.enc⟩, hfill, ?_⟩
    rw [hm.good] at a3
    simp only [OFmt.says]
    split <;> rename_i hg <;> simp only [hg, if_true, Bool.false_eq_true, if_false] at a3
    · simpa [rendItem, encOf, encode1] using a3
    · exact a3
  | write s =>
    obtain ⟨s1, a1, a2, a3⟩ := guarded_spec (body := (·.sputn E s)) hf h o.width (fun hg => by
      obtain ⟨st', e1, e2, e3⟩ := sputn_spec hf ht (o := o) s h hop
      exact ⟨st', e1, e2, e3⟩)
    rw [hkeep _ rfl] at a1
    refine ⟨_, a1, ⟨hm.good, hm.width, hm.fill, hm.left, a2.trans hm.enc⟩, hfill, ?_⟩
    rw [hm.good, hm.enc] at a3
    simp only [OFmt.says]
    split <;> rename_i hg <;> simp only [hg, if_true, Bool.false_eq_true, if_false] at a3
    · simpa [rendItem] using a3
    · exact a3
  | copy ps =>
    simp only [Ostr.step]
    cases hg : o.good
    · simp only [Bool.false_eq_true, if_false]
      obtain ⟨s1, a1, a2, a3⟩ := sentryEnd_spec hf h
      have hg' : f.good = false := hm.good ▸ hg
      refine ⟨_, a1, ?_, hfill, by simpa [OFmt.says, hg'] using a3⟩
      simp only [OFmt.next]
      split
      · exact ⟨hg, hm.width, hm.fill, hm.left, a2.trans hm.enc⟩
      · exact ⟨hm.good, hm.width, hm.fill, hm.left, a2.trans hm.enc⟩
    · simp only [if_true]
      have hg' : f.good = true := hm.good ▸ hg
      obtain ⟨s0, z1, z2, z3⟩ := copyPieces_spec hf ht f.coding ps 0 D o.st hm.enc h hop
      rw [z1]
      simp only [Res.ok_bind, Nat.zero_add, sum_zero_all]
      obtain ⟨s1, a1, a2, a3⟩ := sentryEnd_spec hf (o := { o with st := s0, good := !(ps.all (·.isEmpty)) }) z3
      refine ⟨_, a1, ?_, hfill, by simpa [OFmt.says, hg'] using a3⟩
      simp only [OFmt.next]
      split
      · rename_i hp; exact ⟨by simp [hp], hm.width, hm.fill, hm.left, a2.trans (z2.trans hm.enc)⟩
      · rename_i hp; exact ⟨by simp [hp, hg'], hm.width, hm.fill, hm.left, a2.trans (z2.trans hm.enc)⟩
  | null => exact ⟨_, rfl, ⟨rfl, hm.width, hm.fill, hm.left, hm.enc⟩, hfill, by simpa [OFmt.says] using h⟩
  | fail => exact ⟨_, rfl, ⟨rfl, hm.width, hm.fill, hm.left, hm.enc⟩, hfill, by simpa [OFmt.says] using h⟩
  | clear => exact ⟨_, rfl, ⟨rfl, hm.width, hm.fill, hm.left, hm.enc⟩, hfill, by simpa [OFmt.says] using h⟩
  | width w => exact ⟨_, rfl, ⟨hm.good, rfl, hm.fill, hm.left, hm.enc⟩, hfill, by simpa [OFmt.says] using h⟩
  | fillWith c => exact ⟨_, rfl, ⟨hm.good, hm.width, rfl, hm.left, hm.enc⟩, hop, by simpa [OFmt.says] using h⟩
  | left b => exact ⟨_, rfl, ⟨hm.good, hm.width, hm.fill, rfl, hm.enc⟩, hfill, by simpa [OFmt.says] using h⟩
  | unit b => exact ⟨_, rfl, ⟨hm.good, hm.width, hm.fill, hm.left, hm.enc⟩, hfill, by simpa [OFmt.says] using h⟩
  | coding e => exact ⟨_, rfl, ⟨hm.good, hm.width, hm.fill, hm.left, rfl⟩, hfill, by simpa [OFmt.says] using ⟨h.cap, h.len, h.good, h.data⟩⟩
  | flush =>
    have hD : D = D ++ (f.says .flush).flatMap (rendItem E.table cv) := by simp [OFmt.says]
    rw [← hD]
    simp only [Ostr.step]
    split
    · obtain ⟨s1, a1, a2, a3⟩ := guarded_spec (d := []) (body := fun o => do
          let r ← E.flush o.st
          return { o with st := r.1, good := r.2 }) hf h o.width (fun hg => by
        obtain ⟨k, f1, _, f3⟩ := sinv_flush hf h
        exact ⟨{ o.st with buf := [], cap := buffSize, sink := k }, by simp [f1, Res.pure_eq, hg], rfl, by simpa using f3⟩)
      rw [hkeep _ rfl] at a1
      refine ⟨_, a1, ⟨hm.good, hm.width, hm.fill, hm.left, a2.trans hm.enc⟩, hfill, ?_⟩
      split at a3 <;> simpa using a3
    · obtain ⟨k, f1, _, f3⟩ := sinv_flush hf h
      simp only [f1, Res.ok_bind, Res.pure_eq, Bool.and_true]
      exact ⟨_, rfl, ⟨hm.good, hm.width, hm.fill, hm.left, hm.enc⟩, hfill, f3⟩
  | dump d =>
    obtain ⟨s1, a1, a2⟩ := srun_spec E.heap hf ht [.dump d] D o.st h (by simp [SOpGood])
    simp only [srun] at a1
    obtain ⟨k, f1, _, f3⟩ := sinv_flush hf h
    obtain ⟨k2, d1, d2⟩ := sendAll_ok E.heap d.length k d (Nat.le_refl _)
    simp only [Ostr.step, SOp.step, f1, Res.ok_bind, Res.pure_eq, d1] at a1 ⊢
    injection a1 with a1
    refine ⟨_, rfl, ⟨hm.good, hm.width, hm.fill, hm.left, hm.enc⟩, hfill, ?_⟩
    rw [← a1] at a2
    simpa [expected, OFmt.says, rendItem] using a2
  | dumpStream d =>
    obtain ⟨s1, a1, a2⟩ := srun_spec E.heap hf ht [.dumpStream d] D o.st h (by simp [SOpGood])
    simp only [srun] at a1
    obtain ⟨k, f1, _, f3⟩ := sinv_flush hf h
    obtain ⟨k2, d1, d2⟩ := dumpStream_ok E.heap (d.length + 1) k d (by omega)
    simp only [Ostr.step, SOp.step, f1, Res.ok_bind, Res.pure_eq, d1] at a1 ⊢
    injection a1 with a1
    refine ⟨_, rfl, ⟨hm.good, hm.width, hm.fill, hm.left, hm.enc⟩, hfill, ?_⟩
    rw [← a1] at a2
    simpa [expected, OFmt.says, rendItem] using a2

/-- `flush()` empties the buffer unless the stream has failed and the library looks at that. -/
theorem flush_empties (hf : FlushOk good cv E.flush) {k0 : FcgiSink} {D : Bytes} {o : Ostr α} (h : SInv good cv k0 D o.st)
    (hs : E.sentry = false ∨ o.good = true) {o' : Ostr α} (he : o.step E .flush = .ok o') : o'.st.buf = [] := by
  obtain ⟨k, f1, _, f3⟩ := sinv_flush hf h
  simp only [Ostr.step] at he
  cases hS : E.sentry
  · simp only [hS, Bool.false_eq_true, if_false, f1, Res.ok_bind, Res.pure_eq] at he
    injection he with he
    rw [← he]
  · have hg : o.good = true := by
      rcases hs with c | c
      · rw [hS] at c; cases c
      · exact c
    simp only [hS, if_true, Ostr.guarded, hg, f1, Res.ok_bind, Res.pure_eq] at he
    unfold Ostr.sentryEnd at he
    split at he
    · obtain ⟨k', f1', _, _⟩ := sinv_flush hf f3
      simp only [f1', Res.ok_bind, Res.pure_eq] at he
      injection he with he
      rw [← he]
    · injection he with he
      rw [← he]

/-! ### The two streams of a request -/

theorem contents_append (t : UInt8) (rs rs' : List Record) : contents t (rs ++ rs') = contents t rs ++ contents t rs' := by
  simp [contents]

/-- A stream with its buffer as it should be. -/
structure OsOk (good : α → Prop) (sock : Nat) (id : UInt16) (type : UInt8) (f : OFmt α) (o : Ostr α) : Prop where
  fmt : OsMatches f o
  fill : good o.fill
  cap : o.st.cap = buffSize
  len : o.st.buf.length ≤ buffSize
  chars : ∀ c ∈ o.st.buf, good c
  sink : o.st.sink.sock = sock ∧ o.st.sink.id = id ∧ o.st.sink.type = type

theorem OsOk.inv {sock id type} {f : OFmt α} {o : Ostr α} (h : OsOk good sock id type f o) :
    SInv good cv o.st.sink (o.st.buf.flatMap cv) o.st :=
  ⟨h.cap, h.len, h.chars, [], Emitted.refl _, rfl⟩

theorem SInv.ok {sock id type k0 D} {f : OFmt α} {o : Ostr α} (hm : OsMatches f o) (hfill : good o.fill) (h : SInv good cv k0 D o.st)
    (hk : k0.sock = sock ∧ k0.id = id ∧ k0.type = type) : OsOk good sock id type f o := by
  obtain ⟨e, ⟨rs, _, e2, _⟩, _⟩ := h.data
  exact ⟨hm, hfill, h.cap, h.len, h.good, by rw [e2]; exact hk⟩

/-- What a request of this id may send on its streams. -/
def isOut (id : UInt16) (t : UInt8) (r : Record) : Prop :=
  r.version = 1 ∧ r.type = t ∧ r.id = id.toNat ∧ (1 ≤ r.content.length ∧ r.content.length ≤ 65535) ∧ r.padding.length < 8 ∧ r.bytes.length % 8 = 0

theorem contents_same {id : UInt16} {t : UInt8} {rs : List Record} (h : ∀ r ∈ rs, isOut id t r) : contents t rs = rs.flatMap Record.content := by
  unfold contents
  rw [List.filter_eq_self.2]
  intro r hr
  simp [(h r hr).2.1]

theorem contents_other {id : UInt16} {t t' : UInt8} {rs : List Record} (ht : t ≠ t') (h : ∀ r ∈ rs, isOut id t r) : contents t' rs = [] := by
  unfold contents
  rw [List.filter_eq_nil_iff.2]
  · rfl
  · intro r hr
    simp [(h r hr).2.1, ht]

/-- A change of a stream that sends some of what is in the buffer or is new. -/
structure Sends (good : α → Prop) (cv : α → Bytes) (sock : Nat) (id : UInt16) (type : UInt8) (f' : OFmt α) (x : Bytes) (o o' : Ostr α) (rs : List Record) : Prop where
  ok : OsOk good sock id type f' o'
  new : o.newRecords o' = rs.map fun r => (sock, r.bytes, false)
  recs : ∀ r ∈ rs, isOut id type r
  data : rs.flatMap Record.content ++ o'.st.buf.flatMap cv = o.st.buf.flatMap cv ++ x

theorem sends_of {sock id type} {f f' : OFmt α} {x : Bytes} {o o' : Ostr α} (h : OsOk good sock id type f o) (hm : OsMatches f' o') (hfill : good o'.fill)
    (hs : SInv good cv o.st.sink (o.st.buf.flatMap cv ++ x) o'.st) : ∃ rs, Sends good cv sock id type f' x o o' rs := by
  obtain ⟨e, ⟨rs, e1, e2, e3⟩, e4⟩ := hs.data
  refine ⟨rs, SInv.ok hm hfill hs h.sink, ?_, ?_, by rw [e3]; exact e4⟩
  · unfold Ostr.newRecords
    rw [e2]
    simp [h.sink.1]
  · intro r hr
    have := e1 r hr
    exact ⟨this.version, this.type.trans h.sink.2.2, this.id.trans (by rw [h.sink.2.1]), ⟨this.content_pos, this.content_max⟩, this.padding, this.aligned⟩

theorem sends_step (hf : FlushOk good cv E.flush) (ht : TableOk good E.table) {sock id type} {f : OFmt α} {o : Ostr α} (h : OsOk good sock id type f o)
    (op : OOp α) (hop : OOpGood good op) :
    ∃ o' rs, o.step E op = .ok o' ∧ Sends good cv sock id type (f.next op) ((f.says op).flatMap (rendItem E.table cv)) o o' rs := by
  obtain ⟨o', e1, e2, e3, e4⟩ := ostep_spec hf ht h.fmt h.inv h.fill op hop
  obtain ⟨rs, e5⟩ := sends_of h e2 e3 e4
  exact ⟨o', rs, e1, e5⟩

theorem sends_destroy (hf : FlushOk good cv E.flush) {sock id type} {f : OFmt α} {o : Ostr α} (h : OsOk good sock id type f o) :
    ∃ o' rs, o.destroy E = .ok o' ∧ Sends good cv sock id type f [] o o' rs ∧ o'.st.buf = [] ∧ (o.st.buf = [] → rs = []) := by
  obtain ⟨k, f1, f2, f3⟩ := sinv_flush hf (h.inv (cv := cv))
  have hm : OsMatches f { o with st := { o.st with buf := [], cap := buffSize, sink := k } } :=
    ⟨h.fmt.good, h.fmt.width, h.fmt.fill, h.fmt.left, h.fmt.enc⟩
  obtain ⟨rs, e⟩ := sends_of (o' := { o with st := { o.st with buf := [], cap := buffSize, sink := k } }) (x := []) h hm h.fill (by simpa using f3)
  refine ⟨_, rs, by simp [Ostr.destroy, f1, Res.pure_eq], e, rfl, ?_⟩
  intro hb
  have hd := e.data
  simp [hb] at hd
  cases rs with
  | nil => rfl
  | cons r rs =>
    have h1 := (e.recs r (by simp)).2.2.2.1.1
    have h2 := hd r (by simp)
    simp [h2] at h1

/-- The request's streams after saying `x` and `y`: `rs` are the records sent. -/
structure RsInv (good : α → Prop) (cv : α → Bytes) (sock : Nat) (id : UInt16) (fo fe : OFmt α) (x y : Bytes) (r : ReqStreams α) (rs : List Record) : Prop where
  out : OsOk good sock id 6 fo r.out
  err : OsOk good sock id 7 fe r.err
  log : r.log = rs.map fun r => (sock, r.bytes, false)
  recs : ∀ r ∈ rs, isOut id 6 r ∨ isOut id 7 r
  outData : contents 6 rs ++ r.out.st.buf.flatMap cv = x
  errData : contents 7 rs ++ r.err.st.buf.flatMap cv = y

theorem rs_out {sock id fo fe x y rs} {r : ReqStreams α} (h : RsInv good cv sock id fo fe x y r rs) {f' : OFmt α} {z : Bytes} {o' : Ostr α} {rs'}
    {F : Ostr α → Res (Ostr α)} (hF : F r.out = .ok o') (hs : Sends good cv sock id 6 f' z r.out o' rs') :
    ∃ r', r.on false F = .ok r' ∧ r'.out = o' ∧ r'.err = r.err ∧ RsInv good cv sock id f' fe (x ++ z) y r' (rs ++ rs') := by
  refine ⟨{ r with out := o', log := r.log ++ r.out.newRecords o' }, by simp only [ReqStreams.on, Bool.false_eq_true, if_false, hF, Res.ok_bind, Res.pure_eq], rfl, rfl, hs.ok, h.err, ?_, ?_, ?_, ?_⟩
  · simp [h.log, hs.new]
  · intro q hq
    rcases List.mem_append.1 hq with c | c
    · exact h.recs q c
    · exact .inl (hs.recs q c)
  · rw [contents_append, contents_same hs.recs, List.append_assoc]
    dsimp only
    rw [hs.data, ← List.append_assoc, h.outData]
  · rw [contents_append, contents_other (by decide) hs.recs, List.append_nil]
    exact h.errData

theorem rs_err {sock id fo fe x y rs} {r : ReqStreams α} (h : RsInv good cv sock id fo fe x y r rs) {f' : OFmt α} {z : Bytes} {o' : Ostr α} {rs'}
    {F : Ostr α → Res (Ostr α)} (hF : F r.err = .ok o') (hs : Sends good cv sock id 7 f' z r.err o' rs') :
    ∃ r', r.on true F = .ok r' ∧ r'.err = o' ∧ r'.out = r.out ∧ RsInv good cv sock id fo f' x (y ++ z) r' (rs ++ rs') := by
  refine ⟨{ r with err := o', log := r.log ++ r.err.newRecords o' }, by simp only [ReqStreams.on, if_true, hF, Res.ok_bind, Res.pure_eq], rfl, rfl, h.out, hs.ok, ?_, ?_, ?_, ?_⟩
  · simp [h.log, hs.new]
  · intro q hq
    rcases List.mem_append.1 hq with c | c
    · exact h.recs q c
    · exact .inr (hs.recs q c)
  · rw [contents_append, contents_other (by decide) hs.recs, List.append_nil]
    exact h.outData
  · rw [contents_append, contents_same hs.recs, List.append_assoc]
    dsimp only
    rw [hs.data, ← List.append_assoc, h.errData]

theorem rs_run {E : Bool → OEnv α} {table} (hE : ∀ b, (E b).table = table) (hf : ∀ b, FlushOk good cv (E b).flush) (ht : TableOk good table) {sock id} :
    ∀ (ops : List (Bool × OOp α)) {fo fe x y rs} {r : ReqStreams α}, RsInv good cv sock id fo fe x y r rs → (∀ p ∈ ops, OOpGood good p.2) →
    ∃ r' rs', r.run E ops = .ok r' ∧ RsInv good cv sock id (fo.after (opsOn false ops)) (fe.after (opsOn true ops))
      (x ++ (fo.said (opsOn false ops)).flatMap (rendItem table cv)) (y ++ (fe.said (opsOn true ops)).flatMap (rendItem table cv)) r' rs' := by
  intro ops
  induction ops with
  | nil => intro fo fe x y rs r h _; exact ⟨r, rs, rfl, by simpa [opsOn, OFmt.after, OFmt.said] using h⟩
  | cons p ops ih =>
    intro fo fe x y rs r h hg
    have hg' : ∀ q ∈ ops, OOpGood good q.2 := fun q hq => hg q (by simp [hq])
    obtain ⟨e, op⟩ := p
    have hop : OOpGood good op := hg (e, op) (by simp)
    cases e
    · obtain ⟨o', rs', a1, a2⟩ := sends_step (hf false) (by rw [hE]; exact ht) h.out op hop
      obtain ⟨r1, b1, _, _, b2⟩ := rs_out h (F := (·.step (E false) op)) a1 a2
      obtain ⟨r2, rs2, c1, c2⟩ := ih b2 hg'
      refine ⟨r2, rs2, by simp only [ReqStreams.run, b1, Res.ok_bind, c1], ?_⟩
      simpa [opsOn, OFmt.after, OFmt.said, hE, List.append_assoc] using c2
    · obtain ⟨o', rs', a1, a2⟩ := sends_step (hf true) (by rw [hE]; exact ht) h.err op hop
      obtain ⟨r1, b1, _, _, b2⟩ := rs_err h (F := (·.step (E true) op)) a1 a2
      obtain ⟨r2, rs2, c1, c2⟩ := ih b2 hg'
      refine ⟨r2, rs2, by simp only [ReqStreams.run, b1, Res.ok_bind, c1], ?_⟩
      simpa [opsOn, OFmt.after, OFmt.said, hE, List.append_assoc] using c2

theorem rs_fresh (space : α) (hsp : good space) (sock : Nat) (id : UInt16) :
    RsInv good cv sock id (.fresh space) (.fresh space) [] [] (.fresh space sock id) [] := by
  have h : ∀ t : UInt8, OsOk good sock id t (.fresh space) (Ostr.fresh space sock id t) := fun t =>
    ⟨⟨rfl, rfl, rfl, rfl, rfl⟩, hsp, rfl, by simp [Ostr.fresh, freshStream], by simp [Ostr.fresh, freshStream], ⟨rfl, rfl, rfl⟩⟩
  exact ⟨h 6, h 7, rfl, by simp, by simp [contents, ReqStreams.fresh, Ostr.fresh, freshStream], by simp [contents, ReqStreams.fresh, Ostr.fresh, freshStream]⟩

/-- A whole life. -/
theorem rs_life {E : Bool → OEnv α} {table} (hE : ∀ b, (E b).table = table) (hf : ∀ b, FlushOk good cv (E b).flush) (ht : TableOk good table)
    (g : Nat → UInt8) (space : α) (hsp : good space) (sock : Nat) (id : UInt16) (status : UInt8) (kill : Bool) (ops : List (Bool × OOp α))
    (hg : ∀ p ∈ ops, OOpGood good p.2) :
    ∃ r d, ∃ before after : List Record, wholeLife E g space sock id status kill ops = .ok (r, d) ∧
      r.log = before.map (fun q => (sock, q.bytes, false)) ++ [(sock, endRequestRecord g id status, kill)] ∧
      d.log = r.log ++ after.map (fun q => (sock, q.bytes, false)) ∧
      (∀ q ∈ before ++ after, isOut id 6 q ∨ isOut id 7 q) ∧
      contents 6 (before ++ after) = ((OFmt.fresh space).said (opsOn false ops)).flatMap (rendItem table cv) ∧
      contents 7 (before ++ after) = ((OFmt.fresh space).said (opsOn true ops)).flatMap (rendItem table cv) ∧
      ((E false).sentry = false ∨ ((OFmt.fresh space).after (opsOn false ops)).good → ∀ q ∈ after, q.type ≠ 6) ∧
      ((E true).sentry = false ∨ ((OFmt.fresh space).after (opsOn true ops)).good → ∀ q ∈ after, q.type ≠ 7) := by
  obtain ⟨r1, rs1, a1, a2⟩ := rs_run hE hf ht (good := good) (cv := cv) (sock := sock) (id := id) ops (rs_fresh space hsp sock id) hg
  obtain ⟨o2, q2, b1, b2⟩ := sends_step (hf false) (by rw [hE]; exact ht) a2.out .flush trivial
  obtain ⟨r2, b3, b4, b5, b6⟩ := rs_out a2 (F := (·.step (E false) .flush)) b1 b2
  obtain ⟨o3, q3, c1, c2⟩ := sends_step (hf true) (by rw [hE]; exact ht) b6.err .flush trivial
  obtain ⟨r3, c3, c4, c5, c6⟩ := rs_err b6 (F := (·.step (E true) .flush)) c1 c2
  obtain ⟨o4, q4, d1, d2, d3, d4⟩ := sends_destroy (hf true) c6.err
  obtain ⟨r4, d5, d6, d7, d8⟩ := rs_err c6 (F := (·.destroy (E true))) d1 d2
  obtain ⟨o5, q5, e1, e2, e3, e4⟩ := sends_destroy (hf false) d8.out
  obtain ⟨r5, e5, e6, e7, e8⟩ := rs_out d8 (F := (·.destroy (E false))) e1 e2
  have hemptyO : (E false).sentry = false ∨ ((OFmt.fresh space).after (opsOn false ops)).good → o2.st.buf = [] := by
    intro h
    exact flush_empties (hf false) (a2.out.inv (cv := cv)) (h.imp (fun c => c) (fun c => a2.out.fmt.good.trans c)) b1
  have hemptyE : (E true).sentry = false ∨ ((OFmt.fresh space).after (opsOn true ops)).good → o3.st.buf = [] := by
    intro h
    exact flush_empties (hf true) (b6.err.inv (cv := cv)) (h.imp (fun c => c) (fun c => b6.err.fmt.good.trans c)) c1
  let R : ReqStreams α := { r3 with log := r3.log ++ [(sock, endRequestRecord g id status, kill)] }
  obtain ⟨s4, s4a, s4b, s4c⟩ : ∃ s4, ReqStreams.on R true (·.destroy (E true)) = .ok s4 ∧ s4.out = r3.out ∧
      s4.log = R.log ++ q4.map (fun q => (sock, q.bytes, false)) :=
    ⟨{ R with err := o4, log := R.log ++ R.err.newRecords o4 }, by simp only [ReqStreams.on, if_true, R, d1, Res.ok_bind, Res.pure_eq], rfl, by simp only [R, d2.new]⟩
  obtain ⟨s5, s5a, s5b⟩ : ∃ s5, ReqStreams.on s4 false (·.destroy (E false)) = .ok s5 ∧ s5.log = s4.log ++ q5.map (fun q => (sock, q.bytes, false)) := by
    have hr : r4.out = r3.out := d7
    have h1 : s4.out.destroy (E false) = .ok o5 := by rw [s4b, ← hr]; exact e1
    refine ⟨{ s4 with out := o5, log := s4.log ++ s4.out.newRecords o5 }, by simp only [ReqStreams.on, Bool.false_eq_true, if_false, h1, Res.ok_bind, Res.pure_eq], ?_⟩
    have := e2.new
    rw [hr, ← s4b] at this
    simp [this]
  refine ⟨R, s5, rs1 ++ q2 ++ q3, q4 ++ q5, ?_, ?_, ?_, ?_, ?_, ?_, ?_, ?_⟩
  · simp only [wholeLife, a1, Res.ok_bind, ReqStreams.complete, b3, c3, Res.pure_eq, ReqStreams.destroy]
    rw [show ReqStreams.on { r3 with log := r3.log ++ [(sock, endRequestRecord g id status, kill)] } true (·.destroy (E true)) = .ok s4 from s4a]
    simp only [Res.ok_bind, s5a]
    rfl
  · simp only [R]; rw [c6.log]
  · rw [s5b, s4c]; simp [List.append_assoc]
  · intro q hq
    exact e8.recs q (by simpa [List.append_assoc] using hq)
  · have := e8.outData
    rw [e6, e3] at this
    simpa [List.append_assoc, OFmt.says] using this
  · have := e8.errData
    rw [e7, d6, d3] at this
    simpa [List.append_assoc, OFmt.says] using this
  · intro h q hq
    have h5 : q5 = [] := e4 (by rw [d7, c5, b4]; exact hemptyO h)
    rw [h5, List.append_nil] at hq
    have := (d2.recs q hq).2.1
    rw [this]; decide
  · intro h q hq
    have h4 : q4 = [] := d4 (by rw [c4]; exact hemptyE h)
    rw [h4, List.nil_append] at hq
    have := (e2.recs q hq).2.1
    rw [this]; decide

end
end Fcgi.Model
