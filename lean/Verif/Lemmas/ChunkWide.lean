import Verif.Model.ChunkWide
import Verif.Lemmas.Streams
import Verif.Spec.StreamTerms
/-! # Lemmas about `ChunkStreamBuf<wchar_t>` -/
namespace Fcgi.Model
open Fcgi

/-- Conversion of characters that can be converted: as many as fit. -/
theorem outRound_good {utf8 : UInt32 → Option Bytes} {cv : UInt32 → Bytes} : ∀ (s : List UInt32) (room : Nat), (∀ c ∈ s, utf8 c = some (cv c)) →
    ∃ done rest, outRound utf8 room s = (done.flatMap cv, rest, false) ∧ s = done ++ rest ∧ (done.flatMap cv).length ≤ room ∧
      (∀ c r, rest = c :: r → room < (done.flatMap cv).length + (cv c).length) := by
  intro s
  induction s with
  | nil => intro room _; exact ⟨[], [], rfl, rfl, Nat.zero_le _, by simp⟩
  | cons c s ih =>
    intro room h
    unfold outRound
    rw [h c (by simp)]
    dsimp only
    by_cases hl : (cv c).length > room
    · rw [if_pos hl]
      exact ⟨[], c :: s, rfl, rfl, Nat.zero_le _, by rintro d r hd; simp at hd; obtain ⟨rfl, _⟩ := hd; simpa using hl⟩
    · rw [if_neg hl]
      obtain ⟨done, rest, e1, e2, e3, e4⟩ := ih (room - (cv c).length) fun d hd => h d (by simp [hd])
      refine ⟨c :: done, rest, by rw [e1]; rfl, by rw [e2]; rfl, by rw [List.flatMap_cons, List.length_append]; omega, ?_⟩
      intro d r hd
      have := e4 d r hd
      rw [List.flatMap_cons, List.length_append]; omega

/-- The recorded parts. -/
def recordedW (l : List Chunk) : Bytes := l.flatMap fun c => c.data.take c.size

/-- The chunks hold `D`. -/
structure ChunkHolds (D : Bytes) (l : List Chunk) : Prop where
  size : ∀ c ∈ l, c.size ≤ chunkCapacity ∧ c.size ≤ c.data.length
  data : recordedW l = D

theorem recordedW_append (a b : List Chunk) : recordedW (a ++ b) = recordedW a ++ recordedW b := by simp [recordedW]

theorem outLoop_good {utf8 : UInt32 → Option Bytes} {cv : UInt32 → Bytes} : ∀ (fuel : Nat) (body : List Chunk) (s : List UInt32) (D : Bytes), ChunkHolds D body →
    (∀ c ∈ s, utf8 c = some (cv c) ∧ (cv c).length ≤ 4) → body ≠ [] →
    (s.length + 1 < fuel ∨ (s.length < fuel ∧ ∃ c, body.getLast? = some c ∧ c.size = 0 ∧ s ≠ [])) →
    ∃ body', outLoop utf8 fuel body s = .ok (body', [], true) ∧ ChunkHolds (D ++ s.flatMap cv) body' := by
  intro fuel
  induction fuel with
  | zero => intro body s D _ _ _ h; omega
  | succ fuel ih =>
    intro body s D hb hs hne hf
    unfold outLoop
    have hlast := List.dropLast_concat_getLast hne
    rw [List.getLast?_eq_some_getLast hne]
    generalize body.getLast hne = c at *
    dsimp only
    obtain ⟨done, rest, e1, e2, e3, e4⟩ := outRound_good s (chunkCapacity - c.size) fun x hx => (hs x hx).1
    rw [e1]
    simp only [Bool.false_eq_true, if_false]
    have hc := hb.size c (by rw [← hlast]; simp)
    have hb1 : ChunkHolds (D ++ done.flatMap cv) (body.dropLast ++ [⟨c.data.take c.size ++ done.flatMap cv, c.size + (done.flatMap cv).length⟩]) := by
      refine ⟨?_, ?_⟩
      · intro x hx
        rcases List.mem_append.1 hx with h | h
        · exact hb.size x (by rw [← hlast]; simp [h])
        · have h := List.mem_singleton.1 h; subst h
          refine ⟨?_, ?_⟩
          · dsimp only; omega
          · dsimp only; rw [List.length_append, List.length_take]; omega
      · rw [← hb.data]
        conv => rhs; rw [← hlast]
        simp only [recordedW_append, List.append_assoc]
        congr 1
        simp only [recordedW, List.flatMap_cons, List.flatMap_nil, List.append_nil]
        rw [List.take_of_length_le (by rw [List.length_append, List.length_take]; omega)]
    by_cases hr : rest = []
    · rw [if_pos hr]
      subst hr
      rw [List.append_nil] at e2; subst e2
      exact ⟨_, rfl, hb1⟩
    · rw [if_neg hr]
      have hb2 : ChunkHolds (D ++ done.flatMap cv) (body.dropLast ++ [⟨c.data.take c.size ++ done.flatMap cv, c.size + (done.flatMap cv).length⟩] ++ [⟨[], 0⟩]) := by
        refine ⟨?_, by rw [recordedW_append, hb1.data]; simp [recordedW]⟩
        intro x hx
        rcases List.mem_append.1 hx with h | h
        · exact hb1.size x h
        · simp at h; subst h; simp
      have hlen : s.length = done.length + rest.length := by rw [e2]; simp
      obtain ⟨body', f1, f2⟩ := ih _ rest _ hb2 (fun x hx => hs x (by rw [e2]; simp [hx])) (by simp) (by
        right
        refine ⟨?_, ⟨[], 0⟩, by simp, rfl, hr⟩
        rcases hf with h | ⟨h, d, hd1, hd2, _⟩
        · omega
        · rw [← hlast] at hd1; simp at hd1; subst hd1
          have : 1 ≤ done.length := by
            rcases Nat.eq_zero_or_pos done.length with h0 | h0
            · have hd0 := List.length_eq_zero_iff.1 h0
              cases hrr : rest with
              | nil => exact absurd hrr hr
              | cons x r =>
                have := e4 x r hrr
                have := (hs x (by rw [e2, hrr]; simp)).2
                simp [hd0, hd2, chunkCapacity] at *; omega
            · exact h0
          omega)
      refine ⟨body', f1, ?_⟩
      have : D ++ s.flatMap cv = D ++ done.flatMap cv ++ rest.flatMap cv := by rw [e2]; simp
      rw [this]; exact f2

/-- The invariant of a wide chunk buffer: what is in the chunks and what is in the buffer. -/
structure WideInv (good : UInt32 → Prop) (cv : UInt32 → Bytes) (D : Bytes) (st : WideChunks) : Prop where
  cap : st.cap = chunkCapacity
  len : st.buf.length ≤ chunkCapacity
  good : ∀ c ∈ st.buf, good c
  data : ∃ e, ChunkHolds e st.sink ∧ e ++ st.buf.flatMap cv = D

theorem emptyBufferKW_good {utf8 : UInt32 → Option Bytes} {cv : UInt32 → Bytes} {D : Bytes} {st : WideChunks} (h : WideInv (convertible utf8 cv) cv D st) :
    ∃ body, emptyBufferKW utf8 st = .ok ({ st with buf := [], cap := chunkCapacity, sink := body }, true) ∧ ChunkHolds D body ∧
      WideInv (convertible utf8 cv) cv D { st with buf := [], cap := chunkCapacity, sink := body } := by
  obtain ⟨e, h1, h2⟩ := h.data
  unfold emptyBufferKW
  by_cases hb : st.buf = []
  · rw [if_pos hb]
    rw [hb] at h2
    simp only [List.flatMap_nil, List.append_nil] at h2
    subst h2
    refine ⟨st.sink, ?_, h1, ⟨rfl, by simp, by simp, e, h1, by simp⟩⟩
    have := h.cap
    cases st; simp_all
  · rw [if_neg hb]
    have key : ∃ body0, withRoom st.sink = body0 ∧ ChunkHolds e body0 ∧ body0 ≠ [] := by
      unfold withRoom
      cases hl : st.sink.getLast? with
      | none =>
        have : st.sink = [] := by simpa using hl
        refine ⟨[⟨[], 0⟩], rfl, ⟨by simp, ?_⟩, by simp⟩
        rw [← h1.data, this]; rfl
      | some c =>
        dsimp only
        split
        · refine ⟨_, rfl, ⟨?_, by rw [recordedW_append, h1.data]; simp [recordedW]⟩, by simp⟩
          intro x hx
          rcases List.mem_append.1 hx with h | h
          · exact h1.size x h
          · simp at h; subst h; simp
        · exact ⟨_, rfl, h1, by intro h0; rw [h0] at hl; simp at hl⟩
    obtain ⟨body0, k1, k2, k3⟩ := key
    rw [k1]
    obtain ⟨body', f1, f2⟩ := outLoop_good (st.buf.length + 2) body0 st.buf e k2 (fun c hc => ⟨(h.good c hc).1, (h.good c hc).2.2⟩) k3 (Or.inl (by omega))
    rw [f1]
    rw [h2] at f2
    exact ⟨body', rfl, f2, ⟨rfl, by simp, by simp, D, f2, by simp⟩⟩

theorem wxsputn_spec {utf8 : UInt32 → Option Bytes} {cv : UInt32 → Bytes} (ht : TableOk (convertible utf8 cv) wideTable) :
    ∀ (fuel : Nat) (s : List UInt32) (D : Bytes) (st : WideChunks), WideInv (convertible utf8 cv) cv D st →
    (∀ c ∈ s, convertible utf8 cv c) → (s.length < fuel ∨ (st.buf = [] ∧ s.length ≤ fuel ∧ s ≠ [])) →
    ∃ st', xsputn wideTable (emptyBufferKW utf8) fuel st s = .ok st' ∧ st'.enc = st.enc ∧
      WideInv (convertible utf8 cv) cv (D ++ (s.flatMap (encode1 wideTable st.enc)).flatMap cv) st' := by
  intro fuel
  induction fuel with
  | zero =>
    intro s D st _ _ h
    rcases h with h | ⟨_, h, h'⟩
    · omega
    · exact absurd (List.length_eq_zero_iff.1 (by omega)) h'
  | succ n ih =>
    intro s D st hst hs hfuel
    unfold xsputn
    dsimp only
    obtain ⟨done, rest, e1, e2, e3, e4⟩ := fill_spec wideTable st.enc st.cap s st.buf (by rw [hst.cap]; exact hst.len)
    rw [e1]
    have hst1 : WideInv (convertible utf8 cv) cv (D ++ (done.flatMap (encode1 wideTable st.enc)).flatMap cv)
        { st with buf := st.buf ++ done.flatMap (encode1 wideTable st.enc) } := by
      obtain ⟨d, em, hd⟩ := hst.data
      refine ⟨hst.cap, by have := hst.cap; dsimp only; omega, ?_, d, em, ?_⟩
      · intro c hc
        rcases List.mem_append.1 hc with h | h
        · exact hst.good c h
        · obtain ⟨x, hx, hx'⟩ := List.mem_flatMap.1 h
          exact (ht st.enc x (hs x (by simp [e2, hx]))).2.2 c hx'
      · simp [List.flatMap_append, ← hd]
    cases hr : rest with
    | nil =>
      dsimp only
      subst hr
      rw [List.append_nil] at e2
      subst e2
      exact ⟨_, rfl, rfl, hst1⟩
    | cons c r =>
      dsimp only
      obtain ⟨k, f1, f2, f3⟩ := emptyBufferKW_good hst1
      rw [f1]
      simp only [Res.ok_bind]
      have hlen : s.length = done.length + rest.length := by rw [e2]; simp
      have hprog : st.buf = [] → 1 ≤ done.length := by
        intro hb
        rcases Nat.eq_zero_or_pos done.length with h0 | h0
        · have hd0 := List.length_eq_zero_iff.1 h0
          have h4 := e4 c r hr
          rw [hd0, hb, hst.cap] at h4
          have h5 := (ht st.enc c (hs c (by simp [e2, hr]))).2.1
          simp [chunkCapacity] at h4; omega
        · exact h0
      obtain ⟨st', g1, g2, g3⟩ := ih (c :: r) _ _ f3 (fun x hx => hs x (by rw [e2, hr]; simp [List.mem_append]; right; simpa using hx)) (by
        rw [← hr]
        rcases hfuel with h | ⟨h, h', _⟩
        · right; exact ⟨rfl, by omega, by simp [hr]⟩
        · right; have := hprog h; exact ⟨rfl, by omega, by simp [hr]⟩)
      refine ⟨st', g1, g2, ?_⟩
      have : D ++ (s.flatMap (encode1 wideTable st.enc)).flatMap cv =
          D ++ (done.flatMap (encode1 wideTable st.enc)).flatMap cv ++
            ((c :: r).flatMap (encode1 wideTable st.enc)).flatMap cv := by
        rw [e2, hr]; simp [List.flatMap_append]
      rw [this]; exact g3

theorem wsputc_spec {utf8 : UInt32 → Option Bytes} {cv : UInt32 → Bytes} {D : Bytes} {st : WideChunks} (c : UInt32)
    (h : WideInv (convertible utf8 cv) cv D st) (hc : convertible utf8 cv c) :
    ∃ st', sputc (emptyBufferKW utf8) st c = .ok st' ∧ st'.enc = st.enc ∧ WideInv (convertible utf8 cv) cv (D ++ cv c) st' := by
  have key : ∀ {D : Bytes} {st : WideChunks}, WideInv (convertible utf8 cv) cv D st → st.buf.length < chunkCapacity →
      WideInv (convertible utf8 cv) cv (D ++ cv c) { st with buf := st.buf ++ [c] } := by
    intro D st h hl
    obtain ⟨d, em, hd⟩ := h.data
    refine ⟨h.cap, by simpa using Nat.succ_le_of_lt hl, ?_, d, em, by simp [List.flatMap_append, ← hd]⟩
    intro x hx
    rcases List.mem_append.1 hx with h' | h'
    · exact h.good x h'
    · simp at h'; subst h'; exact hc
  unfold sputc
  by_cases hl : st.buf.length < st.cap
  · rw [if_pos hl]
    rw [h.cap] at hl
    exact ⟨_, rfl, rfl, key h hl⟩
  · rw [if_neg hl]
    obtain ⟨k, f1, f2, f3⟩ := emptyBufferKW_good h
    rw [f1]
    simp only [Res.ok_bind, if_true, List.length_nil]
    rw [if_pos (by simp [chunkCapacity])]
    exact ⟨_, rfl, rfl, key f3 (by simp [chunkCapacity])⟩

/-- Characters that fill the room exactly. -/
theorem outRound_exact {utf8 : UInt32 → Option Bytes} {cv : UInt32 → Bytes} (rest : List UInt32) : ∀ (a : List UInt32) (room : Nat), (∀ c ∈ a, utf8 c = some (cv c)) →
    (a.flatMap cv).length ≤ room → outRound utf8 room (a ++ rest) =
      (a.flatMap cv ++ (outRound utf8 (room - (a.flatMap cv).length) rest).1, (outRound utf8 (room - (a.flatMap cv).length) rest).2) := by
  intro a
  induction a with
  | nil => intro room _ _; simp
  | cons c a ih =>
    intro room h hl
    rw [List.flatMap_cons, List.length_append] at hl
    rw [List.cons_append, outRound, h c (by simp)]
    dsimp only
    rw [if_neg (by omega), ih (room - (cv c).length) (fun d hd => h d (by simp [hd])) (by omega), List.flatMap_cons, List.length_append,
      Nat.sub_sub]
    simp

end Fcgi.Model
