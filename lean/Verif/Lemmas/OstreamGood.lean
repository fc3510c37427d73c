import Verif.Lemmas.OstreamPrompt
import Verif.Lemmas.RequestPort
import Verif.Spec.OstreamTerms
/-! # Lemmas: a stream that is good has lost nothing (C133) -/
namespace Fcgi.Model
open Fcgi Fcgi.Spec

theorem convert_none_of_bad (s : List UInt32) (h : ∃ c ∈ s, ¬ isScalar c) : convert utf8Put s = none := by
  induction s with
  | nil => obtain ⟨c, hc, _⟩ := h; cases hc
  | cons c s ih =>
    unfold convert
    by_cases hc : isScalar c
    · have : ∃ c ∈ s, ¬ isScalar c := by
        obtain ⟨d, hd, hd'⟩ := h
        rcases List.mem_cons.1 hd with rfl | hd
        · exact absurd hc hd'
        · exact ⟨d, hd, hd'⟩
      rw [ih this]
      split
      · rename_i h2; cases h2
      · rfl
    · rw [(Fcgi.Props.utf8Put_scalar c).2 hc]

/-- Emptying a wide buffer, whatever is in it. -/
theorem emptyW_any (g) (st : WebBuf UInt32 FcgiSink) (hl : st.buf.length ≤ buffSize) (hc : st.cap = buffSize) :
    ∃ st' b, emptyBufferW g utf8Put st = .ok (st', b) ∧ st'.buf = [] ∧ st'.enc = st.enc ∧ st'.cap = buffSize ∧
      ((∃ c ∈ st.buf, ¬ isScalar c) → b = false) := by
  by_cases hb : ∃ c ∈ st.buf, ¬ isScalar c
  · refine ⟨{ st with buf := [] }, false, ?_, rfl, rfl, hc, fun _ => rfl⟩
    unfold emptyBufferW
    cases hs : st.buf with
    | nil => rw [hs] at hb; obtain ⟨c, hc, _⟩ := hb; cases hc
    | cons c s =>
      rw [hs] at hb
      dsimp only
      rw [convert_none_of_bad _ hb]
  · obtain ⟨k, e, _⟩ := flushOk_wide g utf8Put cv8 st hl (fun c hc => (goodW_iff c).2 (Classical.byContradiction fun hn => hb ⟨c, hc, hn⟩))
    exact ⟨_, true, e, rfl, rfl, rfl, fun h => absurd h hb⟩

/-- At most `n` characters wait, and a bad one among those written (`b`) is still there, if the stream is good. -/
structure GoodInv (n : Nat) (b : Prop) (o : Ostr UInt32) : Prop where
  width : o.width = 0
  enc : o.st.enc = .none
  cap : o.st.cap = buffSize
  len : o.st.buf.length ≤ buffSize
  waits : o.good = true → o.st.buf.length ≤ n
  bad : b → o.good = true → ∃ c ∈ o.st.buf, ¬ isScalar c

section
variable {sentry : Bool} {g : Nat → Nat → Nat → UInt8} {e : Bool}

theorem gflush {n b} {o : Ostr UInt32} (h : GoodInv n b o) :
    ∃ st' f, (wideOs sentry g e).flush o.st = .ok (st', f) ∧ ∀ n, GoodInv n b { o with st := st', good := o.good && f } := by
  obtain ⟨st', f, h1, h2, h3, h4, h5⟩ := emptyW_any (g (if e then 7 else 6)) o.st h.len h.cap
  refine ⟨st', f, h1, fun n => ⟨h.width, by rw [← h.enc]; exact h3, h4, ?_, ?_, ?_⟩⟩
  · dsimp only; rw [h2]; exact Nat.zero_le _
  · intro _; dsimp only; rw [h2]; exact Nat.zero_le _
  · intro hb hg
    simp only [Bool.and_eq_true] at hg
    have := h5 (h.bad hb hg.1)
    rw [this] at hg; cases hg.2

theorem gsentry {n b} {o : Ostr UInt32} (h : GoodInv n b o) : ∃ o', o.sentryEnd (wideOs sentry g e) = .ok o' ∧ GoodInv n b o' := by
  unfold Ostr.sentryEnd
  split
  · obtain ⟨st', f, h1, h2⟩ := gflush (sentry := sentry) (g := g) (e := e) h
    exact ⟨_, by rw [h1]; rfl, h2 n⟩
  · exact ⟨o, rfl, h⟩

theorem GoodInv.not_good {n b n'} {b' : Prop} {o : Ostr UInt32} (h : GoodInv n b o) (hg : o.good ≠ true) : GoodInv n' b' o :=
  ⟨h.width, h.enc, h.cap, h.len, fun c => absurd c hg, fun _ c => absurd c hg⟩

theorem gguarded {n b n'} {b' : Prop} {o : Ostr UInt32} {body : Ostr UInt32 → Res (Ostr UInt32)} (h : GoodInv n b o)
    (hb : o.good = true → ∃ o', body o = .ok o' ∧ GoodInv n' b' o') : ∃ o', o.guarded (wideOs sentry g e) body = .ok o' ∧ GoodInv n' b' o' := by
  unfold Ostr.guarded
  by_cases hg : o.good = true
  · obtain ⟨o', h1, h2⟩ := hb hg
    rw [if_pos hg, h1]
    exact gsentry h2
  · rw [if_neg hg]
    exact gsentry (h.not_good hg)

theorem gsputn {n b} {o : Ostr UInt32} (h : GoodInv n b o) (s : List UInt32) (hs : n + s.length ≤ 8192) (hg : o.good = true) :
    ∃ o', o.sputn (wideOs sentry g e) s = .ok o' ∧ GoodInv (n + s.length) (b ∨ ∃ c ∈ s, ¬ isScalar c) o' := by
  have hn := h.waits hg
  have hc := h.cap
  have hl : s.length ≤ o.st.cap - o.st.buf.length := by rw [hc]; simp only [buffSize]; omega
  have hm : min s.length (o.st.cap - o.st.buf.length) = s.length := Nat.min_eq_left hl
  refine ⟨{ o with st := { o.st with buf := o.st.buf ++ s } }, ?_, h.width, h.enc, h.cap, ?_, ?_, ?_⟩
  · simp only [Ostr.sputn, xsputn, h.enc, if_true, fillNone, hm, List.take_length, List.drop_length]
    rfl
  · simp only [List.length_append, buffSize]; omega
  · intro _; simp only [List.length_append]; omega
  · rintro (hb | ⟨c, hc, hc'⟩) _
    · obtain ⟨c, hc, hc'⟩ := h.bad hb hg
      exact ⟨c, by simp [hc], hc'⟩
    · exact ⟨c, by simp [hc], hc'⟩

theorem gsputc {n b} {o : Ostr UInt32} (h : GoodInv n b o) (c : UInt32) (hg : o.good = true) :
    ∃ o', o.sputc1 (wideOs sentry g e) c = .ok o' ∧ GoodInv (min (n + 1) 8192) (b ∨ ¬ isScalar c) o' := by
  have hn := h.waits hg
  have hc := h.cap
  have hl := h.len
  unfold Ostr.sputc1 sputcR
  by_cases hroom : o.st.buf.length < o.st.cap
  · rw [if_pos hroom]
    refine ⟨_, rfl, h.width, h.enc, h.cap, ?_, ?_, ?_⟩
    · simp only [List.length_append, List.length_singleton]; omega
    · intro _; rw [hc] at hroom; simp only [List.length_append, List.length_singleton]; simp only [buffSize] at hroom; omega
    · rintro (hb | hb) _
      · obtain ⟨d, hd, hd'⟩ := h.bad hb hg
        exact ⟨d, by simp [hd], hd'⟩
      · exact ⟨c, by simp, hb⟩
  · rw [if_neg hroom]
    obtain ⟨st', f, h1, h2, h3, h4, h5⟩ := emptyW_any (g (if e then 7 else 6)) o.st h.len h.cap
    have h1' : (wideOs sentry g e).flush o.st = .ok (st', f) := h1
    rw [h1']
    cases f
    · refine ⟨{ o with st := st', good := o.good && false }, rfl, h.width, by rw [← h.enc]; exact h3, h4, ?_, ?_, ?_⟩
      · dsimp only; rw [h2]; exact Nat.zero_le _
      · intro hh; simp at hh
      · intro _ hh; simp at hh
    · have h6 : st'.buf.length < st'.cap := by rw [h2, h4]; decide
      refine ⟨{ o with st := { st' with buf := st'.buf ++ [c] }, good := o.good && true }, ?_, h.width, by rw [← h.enc]; exact h3, h4, ?_, ?_, ?_⟩
      · simp only [Res.ok_bind, if_true, h6, Res.pure_eq]
      · dsimp only; rw [h2]; simp [buffSize]
      · intro _; dsimp only; rw [h2]
        simp only [List.nil_append, List.length_singleton]
        omega
      · rintro (hb | hb) _
        · have := h5 (h.bad hb hg); cases this
        · exact ⟨c, by simp, hb⟩

/-- All the operations. -/
theorem gstep {n b} {o : Ostr UInt32} (h : GoodInv n b o) (op : OOp UInt32) (ops : List (OOp UInt32)) (hp : Portioned n (op :: ops)) :
    ∃ o' n', o.step (wideOs sentry g e) op = .ok o' ∧ GoodInv n' (b ∨ ∃ c ∈ op.chars, ¬ isScalar c) o' ∧ Portioned n' ops ∧ (op = .flush → n' = 0) := by
  have str : ∀ s : List UInt32, n + s.length ≤ 8192 → ∃ o', o.guarded (wideOs sentry g e) (fun o => do
      let o ← o.sputn (wideOs sentry g e) s
      return { o with width := 0 }) = .ok o' ∧ GoodInv (n + s.length) (b ∨ ∃ c ∈ s, ¬ isScalar c) o' := by
    intro s hs
    refine gguarded h fun hg => ?_
    obtain ⟨o', h1, h2⟩ := gsputn (sentry := sentry) (g := g) (e := e) h s hs hg
    exact ⟨{ o' with width := 0 }, by rw [h1]; rfl, ⟨rfl, h2.enc, h2.cap, h2.len, h2.waits, h2.bad⟩⟩
  cases op with
  | put c =>
    obtain ⟨o', h1, h2⟩ := gguarded (sentry := sentry) (g := g) (e := e) (body := (·.sputc1 (wideOs sentry g e) c)) h (fun hg => gsputc h c hg)
    exact ⟨o', _, h1, by simpa [OOp.chars] using h2, hp, by simp⟩
  | char c =>
    obtain ⟨o', h1, h2⟩ := gguarded (sentry := sentry) (g := g) (e := e) (body := (·.sputc1 (wideOs sentry g e) c)) h (fun hg => gsputc h c hg)
    refine ⟨o', _, ?_, by simpa [OOp.chars] using h2, hp, by simp⟩
    simp only [Ostr.step]
    rw [if_neg (by simp [h.width])]
    exact h1
  | insert s =>
    obtain ⟨hs, hp⟩ := hp
    obtain ⟨o', h1, h2⟩ := str s hs
    refine ⟨o', _, ?_, h2, hp, by simp⟩
    rw [← h1]
    simp only [Ostr.step, Ostr.guarded]
    split
    · rename_i hg
      unfold Ostr.insertBody
      rw [if_neg (by rw [h.width]; omega)]
    · rfl
  | number s =>
    obtain ⟨hs, hp⟩ := hp
    obtain ⟨o', h1, h2⟩ := str s hs
    exact ⟨o', _, h1, h2, hp, by simp⟩
  | write s =>
    obtain ⟨hs, hp⟩ := hp
    obtain ⟨o', h1, h2⟩ := gguarded (sentry := sentry) (g := g) (e := e) (body := (·.sputn (wideOs sentry g e) s)) h (fun hg => gsputn h s hs hg)
    exact ⟨o', _, h1, h2, hp, by simp⟩
  | flush =>
    obtain ⟨st', f, h1, h2⟩ := gflush (sentry := sentry) (g := g) (e := e) h
    have hb : (b ∨ ∃ c ∈ (OOp.flush : OOp UInt32).chars, ¬ isScalar c) ↔ b := by simp [OOp.chars]
    simp only [Ostr.step]
    split
    · obtain ⟨o', h3, h4⟩ := gguarded (sentry := sentry) (g := g) (e := e) (n' := 0) (b' := b) (body := fun o => do
        let r ← (wideOs sentry g e).flush o.st
        return { o with st := r.1, good := r.2 }) h (fun hg => ⟨_, by rw [h1]; rfl, by simpa [hg] using h2 0⟩)
      exact ⟨o', 0, h3, by simpa [OOp.chars] using h4, hp, fun _ => rfl⟩
    · exact ⟨_, 0, by rw [h1]; rfl, by simpa [OOp.chars] using h2 0, hp, fun _ => rfl⟩
  | unit u => exact ⟨_, n, rfl, ⟨h.width, h.enc, h.cap, h.len, h.waits, by simpa [OOp.chars] using h.bad⟩, hp, by simp⟩
  | copy _ => exact hp.elim
  | null => exact hp.elim
  | fail => exact hp.elim
  | clear => exact hp.elim
  | width _ => exact hp.elim
  | fillWith _ => exact hp.elim
  | left _ => exact hp.elim
  | coding _ => exact hp.elim
  | dump _ => exact hp.elim
  | dumpStream _ => exact hp.elim

theorem on_which {α} {r : ReqStreams α} {f : Ostr α → Res (Ostr α)} {o'} (err : Bool) (h : f (r.which err) = .ok o') :
    ∃ r', r.on err f = .ok r' ∧ r'.which err = o' := by
  cases err
  · have h' : f r.out = .ok o' := h
    exact ⟨{ r with out := o', log := r.log ++ r.out.newRecords o' }, by simp only [ReqStreams.on, Bool.false_eq_true, if_false, h', Res.ok_bind, Res.pure_eq], rfl⟩
  · have h' : f r.err = .ok o' := h
    exact ⟨{ r with err := o', log := r.log ++ r.err.newRecords o' }, by simp only [ReqStreams.on, if_true, h', Res.ok_bind, Res.pure_eq], rfl⟩

theorem grun (ops : List (OOp UInt32)) : ∀ {n b} {r : ReqStreams UInt32}, GoodInv n b (r.which e) → Portioned n ops →
    ∃ r' n', r.run (wideOs sentry g) (ops.map fun op => (e, op)) = .ok r' ∧ GoodInv n' (b ∨ ∃ c ∈ ops.flatMap OOp.chars, ¬ isScalar c) (r'.which e) := by
  induction ops with
  | nil => intro n b r h _; exact ⟨r, n, rfl, by simpa using h⟩
  | cons op ops ih =>
    intro n b r h hp
    obtain ⟨o', n', h1, h2, h3, _⟩ := gstep (sentry := sentry) (g := g) (e := e) h op ops hp
    obtain ⟨r', h4, h5⟩ := on_which e (r := r) (f := (·.step (wideOs sentry g e) op)) h1
    obtain ⟨r2, n2, h6, h7⟩ := ih (r := r') (by rw [h5]; exact h2) h3
    refine ⟨r2, n2, ?_, ?_⟩
    · simp only [List.map_cons, ReqStreams.run, h4, Res.ok_bind, h6]
    · refine ⟨h7.width, h7.enc, h7.cap, h7.len, h7.waits, fun hb hg => h7.bad ?_ hg⟩
      rcases hb with hb | ⟨c, hc, hc'⟩
      · exact .inl (.inl hb)
      · rw [List.flatMap_cons, List.mem_append] at hc
        rcases hc with hc | hc
        · exact .inl (.inr ⟨c, hc, hc'⟩)
        · exact .inr ⟨c, hc, hc'⟩

end
end Fcgi.Model
