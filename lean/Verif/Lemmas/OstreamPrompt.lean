import Verif.Lemmas.Ostream
/-! # Lemmas: when the streams of a request hand out what they hold -/
namespace Fcgi.Model
open Fcgi Fcgi.Spec

variable {α : Type} {E : OEnv α} {good : α → Prop} {cv : α → Bytes}

theorem sentryEnd_unit (hf : FlushOk good cv E.flush) {k0 : FcgiSink} {D : Bytes} {o : Ostr α} (h : SInv good cv k0 D o.st) {o' : Ostr α}
    (he : o.sentryEnd E = .ok o') : o'.unit = o.unit ∧ (o.unit = true → o'.st.buf = []) := by
  unfold Ostr.sentryEnd at he
  split at he
  · rename_i hu
    obtain ⟨k, f1, _, _⟩ := sinv_flush hf h
    simp only [f1, Res.ok_bind, Res.pure_eq] at he
    injection he with he
    rw [← he]; exact ⟨rfl, fun _ => rfl⟩
  · rename_i hu
    injection he with he
    rw [← he]; exact ⟨rfl, fun c => absurd c hu⟩

theorem guarded_unit (hf : FlushOk good cv E.flush) {k0 : FcgiSink} {D d : Bytes} {o : Ostr α} {body : Ostr α → Res (Ostr α)}
    (h : SInv good cv k0 D o.st) (w : Int)
    (hb : o.good = true → ∃ st', body o = .ok { o with st := st', width := w } ∧ st'.enc = o.st.enc ∧ SInv good cv k0 (D ++ d) st')
    {o' : Ostr α} (he : o.guarded E body = .ok o') : o'.unit = o.unit ∧ (o.unit = true → o'.st.buf = []) := by
  unfold Ostr.guarded at he
  cases hg : o.good
  · simp only [hg, Bool.false_eq_true, if_false, Res.ok_bind] at he
    exact sentryEnd_unit hf h he
  · obtain ⟨s1, a1, _, a3⟩ := hb hg
    simp only [hg, if_true, a1, Res.ok_bind] at he
    exact sentryEnd_unit (o := { o with st := s1, width := w }) hf a3 (by simpa only [hg] using he)

/-- Does the operation hand out what the stream holds? -/
theorem ostep_unit (hf : FlushOk good cv E.flush) (ht : TableOk good E.table) {k0 : FcgiSink} {D : Bytes} {o : Ostr α} {f : OFmt α}
    (hm : OsMatches f o) (h : SInv good cv k0 D o.st) (hfill : good o.fill) (op : OOp α) (hop : OOpGood good op) {o' : Ostr α}
    (he : o.step E op = .ok o') : o'.unit = unitNext o.unit op ∧ (Prompt E.sentry f.good o.unit op → o'.st.buf = []) := by
  cases op with
  | insert s => exact guarded_unit hf h 0 (fun hg => insertBody_spec hf ht hm hg s h hop hfill) he
  | char c =>
    simp only [Ostr.step] at he
    split at he
    · exact guarded_unit hf h 0 (fun hg => insertBody_spec hf ht hm hg [c] h (by intro x hx; rw [List.mem_singleton] at hx; subst hx; exact hop) hfill) he
    · exact guarded_unit (body := (·.sputc1 E c)) (d := cv c) hf h o.width (fun hg => by
        obtain ⟨st', e1, e2, e3⟩ := sputcR_spec hf c h hop
        exact ⟨st', by simp [Ostr.sputc1, e1, Res.pure_eq], e2, e3⟩) he
  | number t =>
    exact guarded_unit (body := fun o => do
        let o ← o.sputn E t
        return { o with width := 0 }) hf h 0 (fun hg => by
      obtain ⟨st', e1, e2, e3⟩ := sputn_spec hf ht (o := o) t h hop
      exact ⟨st', by simp [e1, Res.pure_eq], e2, e3⟩) he
  | put c =>
    exact guarded_unit (body := (·.sputc1 E c)) (d := cv c) hf h o.width (fun hg => by
        obtain ⟨st', e1, e2, e3⟩ := sputcR_spec hf c h hop
        exact ⟨st', by simp [Ostr.sputc1, e1, Res.pure_eq], e2, e3⟩) he
  | write s =>
    exact guarded_unit (body := (·.sputn E s)) hf h o.width (fun hg => by
      obtain ⟨st', e1, e2, e3⟩ := sputn_spec hf ht (o := o) s h hop
      exact ⟨st', e1, e2, e3⟩) he
  | copy ps =>
    simp only [Ostr.step] at he
    split at he
    · obtain ⟨s0, z1, z2, z3⟩ := copyPieces_spec hf ht f.coding ps 0 D o.st hm.enc h hop
      rw [z1] at he
      simp only [Res.ok_bind] at he
      have := sentryEnd_unit (o := { o with st := s0, good := _ }) hf z3 he
      exact this
    · exact sentryEnd_unit hf h he
  | null => simp only [Ostr.step] at he; injection he with he; rw [← he]; exact ⟨rfl, False.elim⟩
  | fail => simp only [Ostr.step] at he; injection he with he; rw [← he]; exact ⟨rfl, False.elim⟩
  | clear => simp only [Ostr.step] at he; injection he with he; rw [← he]; exact ⟨rfl, False.elim⟩
  | width w => simp only [Ostr.step] at he; injection he with he; rw [← he]; exact ⟨rfl, False.elim⟩
  | fillWith c => simp only [Ostr.step] at he; injection he with he; rw [← he]; exact ⟨rfl, False.elim⟩
  | left b => simp only [Ostr.step] at he; injection he with he; rw [← he]; exact ⟨rfl, False.elim⟩
  | unit b => simp only [Ostr.step] at he; injection he with he; rw [← he]; exact ⟨rfl, False.elim⟩
  | coding e => simp only [Ostr.step] at he; injection he with he; rw [← he]; exact ⟨rfl, False.elim⟩
  | flush =>
    refine ⟨?_, fun hp => flush_empties hf h (hp.imp (fun c => c) fun c => hm.good.trans c) he⟩
    obtain ⟨k, f1, _, f3⟩ := sinv_flush hf h
    simp only [Ostr.step] at he
    split at he
    · exact (guarded_unit (d := []) hf h o.width (fun hg =>
        ⟨{ o.st with buf := [], cap := buffSize, sink := k }, by simp [f1, Res.pure_eq, hg], rfl, by simpa using f3⟩) he).1
    · simp only [f1, Res.ok_bind, Res.pure_eq] at he
      injection he with he
      rw [← he]; rfl
  | dump d =>
    obtain ⟨k, f1, _, _⟩ := sinv_flush hf h
    obtain ⟨k2, d1, _⟩ := sendAll_ok E.heap d.length k d (Nat.le_refl _)
    simp only [Ostr.step, SOp.step, f1, Res.ok_bind, Res.pure_eq, d1] at he
    injection he with he
    rw [← he]; exact ⟨rfl, fun _ => rfl⟩
  | dumpStream d =>
    obtain ⟨k, f1, _, _⟩ := sinv_flush hf h
    obtain ⟨k2, d1, _⟩ := dumpStream_ok E.heap (d.length + 1) k d (by omega)
    simp only [Ostr.step, SOp.step, f1, Res.ok_bind, Res.pure_eq, d1] at he
    injection he with he
    rw [← he]; exact ⟨rfl, fun _ => rfl⟩

theorem rs_run_append (E : Bool → OEnv α) : ∀ (ops : List (Bool × OOp α)) (more : List (Bool × OOp α)) (r : ReqStreams α),
    r.run E (ops ++ more) = (r.run E ops).bind (·.run E more) := by
  intro ops
  induction ops with
  | nil => intro more r; rfl
  | cons p ops ih =>
    intro more r
    obtain ⟨e, op⟩ := p
    simp only [List.cons_append, ReqStreams.run]
    cases r.on e (·.step (E e) op) with
    | ok r' => simp only [Res.ok_bind]; exact ih more r'
    | _ => rfl

/-- Whether the streams hand out everything at once, after some operations. -/
theorem rs_units {E : Bool → OEnv α} {table} (hE : ∀ b, (E b).table = table) (hf : ∀ b, FlushOk good cv (E b).flush) (ht : TableOk good table) {sock id} :
    ∀ (ops : List (Bool × OOp α)) {fo fe x y rs} {r r' : ReqStreams α}, RsInv good cv sock id fo fe x y r rs → (∀ p ∈ ops, OOpGood good p.2) →
    r.run E ops = .ok r' → r'.out.unit = (opsOn false ops).foldl unitNext r.out.unit ∧ r'.err.unit = (opsOn true ops).foldl unitNext r.err.unit := by
  intro ops
  induction ops with
  | nil => intro fo fe x y rs r r' h _ he; simp only [ReqStreams.run] at he; injection he with he; subst he; exact ⟨rfl, rfl⟩
  | cons p ops ih =>
    intro fo fe x y rs r r' h hg he
    have hg' : ∀ q ∈ ops, OOpGood good q.2 := fun q hq => hg q (by simp [hq])
    obtain ⟨e, op⟩ := p
    have hop : OOpGood good op := hg (e, op) (by simp)
    cases e
    · obtain ⟨o', rs', a1, a2⟩ := sends_step (hf false) (by rw [hE]; exact ht) h.out op hop
      have hu := (ostep_unit (hf false) (by rw [hE]; exact ht) h.out.fmt (h.out.inv (cv := cv)) h.out.fill op hop a1).1
      obtain ⟨r1, b1, b3, b4, b2⟩ := rs_out h (F := (·.step (E false) op)) a1 a2
      simp only [ReqStreams.run, b1, Res.ok_bind] at he
      have := ih b2 hg' he
      rw [b3, b4, hu] at this
      simpa [opsOn] using this
    · obtain ⟨o', rs', a1, a2⟩ := sends_step (hf true) (by rw [hE]; exact ht) h.err op hop
      have hu := (ostep_unit (hf true) (by rw [hE]; exact ht) h.err.fmt (h.err.inv (cv := cv)) h.err.fill op hop a1).1
      obtain ⟨r1, b1, b3, b4, b2⟩ := rs_err h (F := (·.step (E true) op)) a1 a2
      simp only [ReqStreams.run, b1, Res.ok_bind] at he
      have := ih b2 hg' he
      rw [b3, b4, hu] at this
      simpa [opsOn] using this

theorem fsaid_append (f : OFmt α) : ∀ (ops : List (OOp α)) (more : List (OOp α)), f.said (ops ++ more) = f.said ops ++ (f.after ops).said more := by
  intro ops
  induction ops generalizing f with
  | nil => intro more; rfl
  | cons op ops ih => intro more; simp only [List.cons_append, OFmt.said, OFmt.after, List.foldl_cons, List.append_assoc]; rw [ih]; rfl

/-- After a prompt operation on one of the streams everything said to it has been sent. -/
theorem rs_prompt {E : Bool → OEnv α} {table} (hE : ∀ b, (E b).table = table) (hf : ∀ b, FlushOk good cv (E b).flush) (ht : TableOk good table)
    (space : α) (hsp : good space) (sock : Nat) (id : UInt16) (ops : List (Bool × OOp α)) (e : Bool) (op : OOp α)
    (hg : ∀ p ∈ ops ++ [(e, op)], OOpGood good p.2)
    (hp : Prompt (E e).sentry ((OFmt.fresh space).after (opsOn e ops)).good (unitAfter (opsOn e ops)) op) :
    ∃ r, ∃ rs : List Record, (ReqStreams.fresh space sock id).run E (ops ++ [(e, op)]) = .ok r ∧ r.log = rs.map (fun q => (sock, q.bytes, false)) ∧
      (∀ q ∈ rs, isOut id 6 q ∨ isOut id 7 q) ∧
      contents (if e then 7 else 6) rs = ((OFmt.fresh space).said (opsOn e ops ++ [op])).flatMap (rendItem table cv) := by
  have hg1 : ∀ p ∈ ops, OOpGood good p.2 := fun p hp => hg p (by simp [hp])
  have hop : OOpGood good op := hg (e, op) (by simp)
  have h0 := rs_fresh (good := good) (cv := cv) space hsp sock id
  obtain ⟨r1, rs1, a1, a2⟩ := rs_run hE hf ht ops h0 hg1
  have hu := rs_units hE hf ht ops h0 hg1 a1
  rw [rs_run_append, a1]
  cases e
  · obtain ⟨o', rs', b1, b2⟩ := sends_step (hf false) (by rw [hE]; exact ht) a2.out op hop
    have he := (ostep_unit (hf false) (by rw [hE]; exact ht) a2.out.fmt (a2.out.inv (cv := cv)) a2.out.fill op hop b1).2 (by rw [hu.1]; exact hp)
    obtain ⟨r2, c1, c3, c4, c2⟩ := rs_out a2 (F := (·.step (E false) op)) b1 b2
    refine ⟨r2, rs1 ++ rs', ?_, c2.log, c2.recs, ?_⟩
    · simp only [Res.bind, ReqStreams.run, c1, Res.ok_bind]
    · have := c2.outData
      rw [c3, he, hE] at this
      simpa [fsaid_append, OFmt.said] using this
  · obtain ⟨o', rs', b1, b2⟩ := sends_step (hf true) (by rw [hE]; exact ht) a2.err op hop
    have he := (ostep_unit (hf true) (by rw [hE]; exact ht) a2.err.fmt (a2.err.inv (cv := cv)) a2.err.fill op hop b1).2 (by rw [hu.2]; exact hp)
    obtain ⟨r2, c1, c3, c4, c2⟩ := rs_err a2 (F := (·.step (E true) op)) b1 b2
    refine ⟨r2, rs1 ++ rs', ?_, c2.log, c2.recs, ?_⟩
    · simp only [Res.bind, ReqStreams.run, c1, Res.ok_bind]
    · have := c2.errData
      rw [c3, he, hE] at this
      simpa [fsaid_append, OFmt.said] using this

/-- What has been said and not been sent is at most what fits the buffer. -/
theorem rs_held {E : Bool → OEnv α} {table} (hE : ∀ b, (E b).table = table) (hf : ∀ b, FlushOk good cv (E b).flush) (ht : TableOk good table)
    (space : α) (hsp : good space) (sock : Nat) (id : UInt16) (ops : List (Bool × OOp α)) (hg : ∀ p ∈ ops, OOpGood good p.2) :
    ∃ r, ∃ rs : List Record, (ReqStreams.fresh space sock id).run E ops = .ok r ∧ r.log = rs.map (fun q => (sock, q.bytes, false)) ∧
      (∀ q ∈ rs, isOut id 6 q ∨ isOut id 7 q) ∧
      ∀ e, ∃ held : List α, held.length ≤ buffSize ∧ (∀ c ∈ held, good c) ∧
        contents (if e then 7 else 6) rs ++ held.flatMap cv = ((OFmt.fresh space).said (opsOn e ops)).flatMap (rendItem table cv) := by
  obtain ⟨r1, rs1, a1, a2⟩ := rs_run hE hf ht ops (rs_fresh (good := good) (cv := cv) space hsp sock id) hg
  refine ⟨r1, rs1, a1, a2.log, a2.recs, ?_⟩
  intro e
  cases e
  · exact ⟨_, a2.out.len, a2.out.chars, by simpa using a2.outData⟩
  · exact ⟨_, a2.err.len, a2.err.chars, by simpa using a2.errData⟩

end Fcgi.Model
