import Verif.Model.Curl
import Verif.Lemmas.Streams
/-! # Lemmas about the HTTP client's request objects -/
namespace Fcgi
open Fcgi.Model Fcgi.Spec

/-! ## The request -/

/-- The recorded data of the chunks. -/
def recorded (l : List Chunk) : Bytes := l.flatMap fun c => c.data.take c.size

/-- Chunks that can be read, the first from `n` on. -/
structure Readable (l : List Chunk) (n : Nat) : Prop where
  size : ∀ c ∈ l, c.size ≤ 4096 ∧ c.size ≤ c.data.length
  counter : ∀ c, l.head? = some c → n < c.size ∨ n = 0
  empty : l = [] → n = 0

theorem readLoop_spec : ∀ (fuel space : Nat) (l : List Chunk) (counter : Nat), Readable l counter → l.length + 1 ≤ fuel → space < 2 ^ 32 →
    ∃ l' counter', readLoop fuel space l counter = .ok (((recorded l).drop counter).take space, l', counter') ∧ Readable l' counter' ∧
      (recorded l').drop counter' = ((recorded l).drop counter).drop space ∧ ∃ k, l' = l.drop k := by
  intro fuel
  induction fuel with
  | zero => intro space l counter _ h; omega
  | succ fuel ih =>
    intro space l counter hr hf hs
    unfold readLoop
    by_cases h0 : space = 0
    · rw [if_pos h0]; subst h0
      exact ⟨l, counter, by simp, hr, by simp, ⟨0, rfl⟩⟩
    · rw [if_neg h0]
      cases l with
      | nil => have := hr.empty rfl; subst this; exact ⟨[], 0, by simp [recorded], hr, by simp [recorded], ⟨0, rfl⟩⟩
      | cons c cs =>
        obtain ⟨hc1, hc2⟩ := hr.size c (by simp)
        have hcc : counter ≤ c.size := by have := hr.counter c rfl; omega
        dsimp only
        have hsub : (c.size + 2 ^ 32 - counter) % 2 ^ 32 = c.size - counter := by omega
        rw [hsub]
        rw [if_neg (by omega)]
        have hmod : (counter + min space (c.size - counter)) % 2 ^ 32 = counter + min space (c.size - counter) := by omega
        rw [hmod]
        have hrec : recorded (c :: cs) = c.data.take c.size ++ recorded cs := rfl
        have hcs : Readable cs 0 := ⟨fun d hd => hr.size d (by simp [hd]), fun d _ => Or.inr rfl, fun _ => rfl⟩
        by_cases hfull : counter + min space (c.size - counter) ≥ c.size
        · simp only [if_pos hfull]
          have hact : min space (c.size - counter) = c.size - counter := by omega
          rw [hact]
          obtain ⟨l', k', e1, e2, e3, ⟨k, e4⟩⟩ := ih (space - (c.size - counter)) cs 0 hcs (by simp at hf; omega) (by omega)
          rw [e1]
          refine ⟨l', k', ?_, e2, ?_, ⟨k + 1, by simpa using e4⟩⟩
          · simp only [List.drop_zero, Res.ok.injEq, Prod.mk.injEq, and_true]
            rw [hrec, List.drop_append, List.take_append]
            congr 1
            · rw [List.drop_take, List.take_take, Nat.min_eq_right (by omega)]
            · rw [List.length_drop, List.length_take, Nat.min_eq_left hc2, Nat.sub_eq_zero_of_le (m := c.size) hcc, List.drop_zero]
          · rw [e3, hrec, List.drop_append, List.drop_append]
            simp only [List.drop_zero, List.length_drop, List.length_take]
            rw [Nat.min_eq_left hc2, Nat.sub_eq_zero_of_le (m := c.size) hcc, List.drop_zero,
              List.drop_eq_nil_of_le (as := List.drop counter (List.take c.size c.data)) (by simp; omega), List.nil_append]
        · simp only [if_neg hfull]
          have hact : min space (c.size - counter) = space := by omega
          rw [hact]
          cases fuel with
          | zero => simp at hf
          | succ fuel =>
            rw [Nat.sub_self]
            unfold readLoop
            simp only [if_true, List.append_nil]
            refine ⟨c :: cs, counter + space, ?_, ⟨hr.size, by intro d hd; simp at hd; subst hd; omega, by simp⟩, by simp, ⟨0, rfl⟩⟩
            simp only [Res.ok.injEq, Prod.mk.injEq, and_true]
            rw [hrec, List.drop_append, List.take_append, List.drop_take, List.take_take, Nat.min_eq_left (by omega)]
            simp only [List.length_take, List.length_drop]
            rw [show space - min (c.size - counter) (c.data.length - counter) = 0 by omega]
            simp

theorem readLoop_zero (fuel : Nat) (l : List Chunk) (k : Nat) : readLoop (fuel + 1) 0 l k = .ok ([], l, k) := by
  unfold readLoop; rw [if_pos rfl]

theorem recorded_length (l : List Chunk) (h : ∀ c ∈ l, c.size ≤ c.data.length) : (recorded l).length = (l.map Chunk.size).sum := by
  induction l with
  | nil => rfl
  | cons c l ih =>
    have := ih fun d hd => h d (by simp [hd])
    have hc := h c (by simp)
    simp only [recorded, List.flatMap_cons, List.length_append, List.length_take, List.map_cons, List.sum_cons] at *
    omega

/-- What the library has been told after `prepare()`. -/
def toldSize (D : Bytes) : Option Nat := if D = [] then none else some D.length

theorem close_spec {D : Bytes} {k : ChunkBuf} (hk : KInv D k) (c : CurlObj) (hc : c.post = .writing k) :
    ∃ body pending, c.close = .ok (body, pending) ∧ recorded body = D ∧ Readable body 0 ∧ body ≠ [] ∧ (∀ x ∈ body.dropLast, x.size = 4096) := by
  obtain ⟨k', e1, e2, e3, e4, _⟩ := emptyBufferK_spec hk
  refine ⟨k'.body, k'.buf.length, ?_, ?_, ⟨?_, fun _ _ => Or.inr rfl, fun _ => rfl⟩, by simp [ChunkBuf.body], ?_⟩
  · unfold CurlObj.close; rw [hc]; simp only [e1, Res.ok_bind, Res.pure_eq]
  · have hfront : ∀ c ∈ k'.sink.front, c.data.take c.size = c.data := by
      intro c hc; have := e2.front c hc; rw [List.take_of_length_le (by omega)]
    rw [← show _ = D from e2.data]
    simp only [recorded, ChunkBuf.body, ChunkBuf.all, List.flatMap_append, List.flatMap_cons, List.flatMap_nil, e4, List.take_length, List.append_nil]
    congr 1
    generalize k'.sink.front = l at hfront
    induction l with
    | nil => rfl
    | cons a l ih => rw [List.flatMap_cons, List.flatMap_cons, hfront a (by simp), ih (fun c hc => hfront c (by simp [hc]))]
  · intro c hc
    rcases List.mem_append.1 hc with h | h
    · have := e2.front c h; simp only [chunkCapacity] at this; omega
    · simp at h; subst h; have := e2.len; simp only [chunkCapacity] at this; dsimp only; omega
  · intro c hc
    simp only [ChunkBuf.body, List.dropLast_concat] at hc
    exact (e2.front c hc).1

theorem prepare_spec {D : Bytes} {k : ChunkBuf} (hk : KInv D k) (c : CurlObj) (hc : c.post = .writing k) :
    ∃ c' body pending, c.prepare = .ok c' ∧ c'.post = .sent body pending k.enc ∧ (D ≠ [] → c'.counter = 0) ∧
      c'.told.map Prod.fst = some (toldSize D) ∧ c'.requestHeaders = c.requestHeaders ∧ c'.resp = c.resp ∧
      recorded body = D ∧ Readable body 0 ∧ body ≠ [] ∧ (∀ x ∈ body.dropLast, x.size = 4096) := by
  obtain ⟨body, pending, e1, e2, e3, e4, e5⟩ := close_spec hk c hc
  have hsz : (body.map Chunk.size).sum = D.length := by rw [← recorded_length _ (fun c hc => (e3.size c hc).2), e2]
  unfold CurlObj.prepare
  rw [e1]
  refine ⟨_, body, pending, rfl, ?_, ?_, ?_, rfl, rfl, e2, e3, e4, e5⟩
  · dsimp only [CurlObj.enc]; rw [hc]
  · intro hD
    have := List.length_pos_iff.2 hD
    dsimp only; rw [hsz, if_pos this]
  · dsimp only [Option.map]
    rw [hsz]
    unfold toldSize
    by_cases hD : D = []
    · subst hD; simp
    · have := List.length_pos_iff.2 hD
      rw [if_neg hD, if_pos this]

theorem reads_spec (e : Enc) (pending : Nat) : ∀ (rooms : List Nat) (c : CurlObj) (body : List Chunk) (D : Bytes), c.post = .sent body pending e → Readable body c.counter →
    (recorded body).drop c.counter = D → (∀ r ∈ rooms, r < 2 ^ 32) →
    ∃ outs c' body', c.reads rooms = .ok (outs, c') ∧ c'.post = .sent body' pending e ∧ Readable body' c'.counter ∧ (recorded body').drop c'.counter = D.drop rooms.sum ∧
      (∃ n, body' = body.drop n) ∧ outs.flatten = D.take rooms.sum ∧ outs.length = rooms.length ∧
      ∀ i (h : i < outs.length) (h' : i < rooms.length), outs[i].length = min rooms[i] (D.length - (rooms.take i).sum) := by
  intro rooms
  induction rooms with
  | nil => intro c body D h1 h2 h3 _; exact ⟨[], c, body, rfl, h1, h2, by simpa using h3, ⟨0, rfl⟩, by simp, rfl, by simp⟩
  | cons r rooms ih =>
    intro c body D h1 h2 h3 h4
    have hr := h4 r (by simp)
    obtain ⟨l', k', e1, e2, e3, ⟨k, e4⟩⟩ := readLoop_spec (body.length + 2) (r % 2 ^ 32) body c.counter h2 (by omega) (Nat.mod_lt _ (by decide))
    rw [Nat.mod_eq_of_lt hr] at e1 e3
    have hread : c.read r = .ok (D.take r, { c with post := .sent l' pending e, counter := k' }) := by
      unfold CurlObj.read readCallback
      rw [h1]
      simp only [Nat.mod_eq_of_lt hr]
      rw [e1, h3]; rfl
    obtain ⟨outs, c', body', f1, f2, f3, f4, ⟨m, f5⟩, f6, f7, f8⟩ := ih { c with post := .sent l' pending e, counter := k' } l' (D.drop r) rfl e2
      (by rw [← h3]; exact e3) (fun x hx => h4 x (by simp [hx]))
    refine ⟨D.take r :: outs, c', body', ?_, f2, f3, ?_, ⟨k + m, by rw [f5, e4, List.drop_drop]⟩, ?_, by simp [f7], ?_⟩
    · simp only [CurlObj.reads, hread, Res.ok_bind, f1, Res.pure_eq]
    · rw [f4, List.drop_drop]; simp
    · rw [List.flatten_cons, f6, List.sum_cons, List.take_add]
    · intro i hi hi'
      cases i with
      | zero => simp
      | succ i =>
        simp only [List.getElem_cons_succ, List.take_succ_cons, List.sum_cons]
        rw [f8 i (by simpa using hi) (by simpa using hi')]
        simp; omega

end Fcgi
