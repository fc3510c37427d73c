import Verif.Props.Transceiver
/-! # Property C131: what is kept of a connection's input

`(st.buffers s).reserve` is the memory the transceiver holds for the input of connection `s`. -/
namespace Fcgi.Props
open Fcgi Fcgi.Model Fcgi.Spec

/-- The longest record: a header, 65535 bytes of content and 255 of padding. -/
def maxRecord : Nat := 8 + 65535 + 255

def InBounds (b : Block) : Prop := b.size ≤ b.mem.length ∧ b.mem.length ≤ maxRecord

theorem fits_empty : InBounds .empty := ⟨Nat.le_refl _, Nat.zero_le _⟩

theorem fits_reserve (g) {b : Block} {x} (h : InBounds b) (hx : x ≤ maxRecord) : InBounds (b.setReserve g x) := by
  obtain ⟨h1, h2⟩ := h
  unfold Block.setReserve Block.reserve InBounds
  split
  · simp [garbage]; omega
  · exact ⟨h1, h2⟩

theorem read_fits {k c mem off size c' mem' n} (h : sockRead k c mem off size = .ok (c', mem', some n)) :
    mem'.length = mem.length ∧ n ≤ size := by
  unfold sockRead at h
  split at h
  · cases h
  · cases k with
    | err => cases h
    | again => cases h; exact ⟨rfl, Nat.zero_le _⟩
    | give j =>
      dsimp only at h
      obtain ⟨m, hm, h⟩ := Res.bind_eq_ok.1 h
      unfold writeAt at hm
      split at hm
      · rename_i hle
        cases hm
        split at h
        · cases h
        · cases h
          simp at hle ⊢
          omega
      · cases hm

theorem read_gone {k c mem off size c' mem' n} (h : sockRead k c mem off size = .ok (c', mem', some n)) : c'.valid = c.valid := by
  unfold sockRead at h
  split at h
  · cases h
  · cases k with
    | err => cases h
    | again => cases h; rfl
    | give j =>
      dsimp only at h
      obtain ⟨m, hm, h⟩ := Res.bind_eq_ok.1 h
      split at h
      · cases h
      · cases h; rfl

/-- One read with the result put into the block. -/
theorem fits_read (g) {b : Block} {mem n} (h : InBounds b) (hm : mem.length = b.mem.length) (hn : n ≤ b.reserve - b.size) :
    InBounds ({ b with mem := mem }.setSize g (b.size + n)) := by
  obtain ⟨h1, h2⟩ := h
  unfold Block.reserve at hn
  unfold Block.setSize Block.reserve
  rw [if_neg (by simp only; omega)]
  exact ⟨by simp only; omega, by simp only; omega⟩

theorem close_valid (c : Conn) : c.close.valid = false := by unfold Conn.close; split <;> simp_all

/-- The invariant: every block fits, and those of connections that are closed are gone, except for the connections in `bad`. -/
structure MemInv (bad : Nat → Prop) (st : TSt) : Prop where
  fits : ∀ s, InBounds (st.buffers s)
  gone : ∀ s, (st.conns s).valid = false → st.buffers s = .empty ∨ bad s

theorem MemInv.set {bad st b s} {c : Conn} {ms} (h : MemInv bad st) (hb : InBounds b) (hc : c.valid = false → b = .empty ∨ bad s) :
    MemInv bad { st with conns := upd st.conns s c, buffers := upd st.buffers s b, msgs := ms } := by
  constructor
  · intro x; simp only [upd]; split
    · exact hb
    · exact h.fits x
  · intro x; simp only [upd]; split
    · rename_i e; subst e; exact hc
    · exact h.gone x

theorem MemInv.cleanup {bad st s} (h : MemInv bad st) : MemInv bad (cleanupSocket st s) := by
  constructor
  · intro x; simp only [cleanupSocket, upd]; split
    · exact fits_empty
    · exact h.fits x
  · intro x; simp only [cleanupSocket, upd]; split
    · intro _; exact Or.inl rfl
    · exact h.gone x

theorem MemInv.connsOnly {bad st s} {c : Conn} (h : MemInv bad st) (hc : c.valid = false → (st.conns s).valid = false) :
    MemInv bad { st with conns := upd st.conns s c } := by
  constructor
  · exact h.fits
  · intro x; simp only [upd]; split
    · rename_i e; subst e; exact fun hv => h.gone _ (hc hv)
    · exact h.gone x

/-- A read that fails is followed by `cleanupSocket`, so it does not matter what it left. -/
theorem cleanup_conn (st : TSt) (s : Nat) (c : Conn) : cleanupSocket { st with conns := upd st.conns s c } s =
    { st with conns := upd st.conns s c.close, buffers := upd st.buffers s .empty, msgs := st.msgs ++ [⟨⟨s, badFcgiId⟩, []⟩] } := by
  simp only [cleanupSocket, TSt.mk.injEq, and_true, true_and]
  funext x; simp only [upd]; split <;> simp_all

theorem MemInv.body {bad g st s b k2 st'} (h : MemInv bad st) (hb : InBounds b) (hv : (st.conns s).valid = true) (e : receiveBody g st s b k2 = .ok st') :
    MemInv bad st' := by
  unfold receiveBody at e
  obtain ⟨b1, e1, e⟩ := Res.bind_eq_ok.1 e
  have hb1 : InBounds b1 := by
    unfold reserveRecord at e1
    split at e1
    · obtain ⟨cl, _, e1⟩ := Res.bind_eq_ok.1 e1
      obtain ⟨pl, _, e1⟩ := Res.bind_eq_ok.1 e1
      cases e1
      apply fits_reserve g hb
      have := cl.toNat_lt; have := pl.toNat_lt
      unfold maxRecord; omega
    · cases e1; exact hb
  obtain ⟨⟨c, mem, read⟩, e2, e⟩ := Res.bind_eq_ok.1 e
  cases read with
  | none =>
    cases e
    rw [cleanup_conn]
    exact h.set fits_empty (fun _ => Or.inl rfl)
  | some n =>
    obtain ⟨f1, f2⟩ := read_fits e2
    have f3 := read_gone e2
    have hfit := fits_read g hb1 f1 f2
    dsimp only at e
    split at e
    · cases e
      exact h.set hfit (fun hc => by rw [f3, hv] at hc; cases hc)
    · obtain ⟨i, _, e⟩ := Res.bind_eq_ok.1 e
      cases e
      exact h.set fits_empty (fun _ => Or.inl rfl)

theorem MemInv.receive {bad g st s k1 k2 st'} (h : MemInv bad st) (e : Model.receive g st s k1 k2 = .ok st') : MemInv bad st' := by
  unfold Model.receive at e
  split at e
  · rename_i hv
    dsimp only at e
    split at e
    · obtain ⟨⟨c, mem, read⟩, e2, e⟩ := Res.bind_eq_ok.1 e
      have hb1 := fits_reserve g (x := 8) (h.fits s) (by unfold maxRecord; omega)
      cases read with
      | none =>
        cases e
        rw [cleanup_conn]
        exact h.set fits_empty (fun _ => Or.inl rfl)
      | some n =>
        obtain ⟨f1, f2⟩ := read_fits e2
        have f3 := read_gone e2
        have hfit := fits_read g hb1 f1 f2
        dsimp only at e
        have hset := h.set (s := s) (c := c) (ms := st.msgs) hfit (fun hc => by rw [f3, hv] at hc; cases hc)
        split at e
        · cases e; exact hset
        · exact hset.body hfit (by simp only [upd, if_pos]; rw [f3, hv]) e
    · exact h.body (h.fits s) hv e
  · cases e; exact h

theorem MemInv.tx {bad : Nat → Prop} {st k} (h : MemInv bad st) (hk : k = .err → ∀ s, bad s) : MemInv bad (txStep st k) := by
  unfold txStep
  split
  · split
    · exact ⟨h.fits, h.gone⟩
    · exact ⟨h.fits, h.gone⟩
  · rename_i r _
    have hc : (sockWrite k (st.conns r.sock) (r.data.drop r.read)).1.valid = false → (st.conns r.sock).valid = false ∨ k = .err := by
      unfold sockWrite
      split
      · exact Or.inl
      · cases k <;> simp
    have h1 : MemInv bad { st with conns := upd st.conns r.sock (sockWrite k (st.conns r.sock) (r.data.drop r.read)).1 } := by
      constructor
      · exact h.fits
      · intro x; simp only [upd]; split
        · rename_i e; subst e
          intro hv
          rcases hc hv with hv | hv
          · exact h.gone _ hv
          · exact Or.inr (hk hv _)
        · exact h.gone x
    dsimp only
    split
    · exact ⟨h1.fits, h1.gone⟩
    · split
      · exact ⟨h1.fits, h1.gone⟩
      · split
        · constructor
          · intro x; simp only [upd]; split
            · exact fits_empty
            · exact h.fits x
          · intro x
            by_cases hx : x = r.sock
            · subst hx; simp [upd]
            · simp only [upd, if_neg hx]; exact h.gone x
        · exact ⟨h1.fits, h1.gone⟩
  · exact ⟨h.fits, h.gone⟩

theorem MemInv.step {bad : Nat → Prop} {g st} {op : TOp} {st'} (h : MemInv bad st) (hk : op = .tx .err → ∀ s, bad s) (e : op.step g st = .ok st') : MemInv bad st' := by
  cases op with
  | hangup s => cases e; exact h.connsOnly (fun hv => hv)
  | arrive s d => cases e; exact h.connsOnly (fun hv => hv)
  | receive s k1 k2 => exact h.receive e
  | send s d k => cases e; exact ⟨h.fits, h.gone⟩
  | tx k => cases e; exact h.tx (fun hk' => hk (by rw [hk']))

theorem MemInv.run {bad : Nat → Prop} {g} : ∀ {ops st st'}, MemInv bad st → (.tx .err ∈ ops → ∀ s, bad s) → trun g st ops = .ok st' → MemInv bad st' := by
  intro ops
  induction ops with
  | nil => intro st st' h _ e; cases e; exact h
  | cons op ops ih =>
    intro st st' h hk e
    simp only [trun] at e
    obtain ⟨st1, e1, e⟩ := Res.bind_eq_ok.1 e
    exact ih (h.step (fun ho => hk (by simp [ho])) e1) (fun ho => hk (List.mem_cons_of_mem _ ho)) e

theorem mem_init (bad) : MemInv bad TSt.init := ⟨fun _ => fits_empty, fun _ _ => Or.inl rfl⟩

/-- At every moment of every history, whatever the peers send and however reads are cut: no more memory than the longest record needs is held for the
input of a connection. -/
theorem C131_bounded (g) (ops : List TOp) (st : TSt) (hrun : trun g TSt.init ops = .ok st) (s : Nat) :
    (st.buffers s).size ≤ (st.buffers s).reserve ∧ (st.buffers s).reserve ≤ maxRecord :=
  (MemInv.run (mem_init (fun _ => True)) (fun _ _ => trivial) hrun).fits s

/-- And nothing at all once it is closed, unless a write failed. -/
theorem C131_released_partial (g) (ops : List TOp) (st : TSt) (hrun : trun g TSt.init ops = .ok st) (hw : .tx .err ∉ ops) (s : Nat)
    (hv : (st.conns s).valid = false) : st.buffers s = .empty := by
  rcases (MemInv.run (mem_init (fun _ => False)) (fun h => absurd h hw) hrun).gone s hv with h | h
  · exact h
  · exact h.elim

/-- Between records nothing is held either. -/
theorem C131_between (g) (ops : List TOp) (st : TSt) (hrun : trun g TSt.init ops = .ok st) (s : Nat) (rs : List Record) (hw : ∀ r ∈ rs, r.WF)
    (hb : arrived s ops = stream rs) (hv : (st.conns s).valid = true) (hin : (st.conns s).input = []) : (st.buffers s).size = 0 := by
  obtain ⟨st1, h1, hR⟩ := RInv.run g ops (A := fun _ => []) (st := TSt.init) (fun s => ⟨BufInv.empty, [], [], by simp, by simp [msgsOf, TSt.init],
    by simp, Or.inl ⟨rfl, by simp [TSt.init, Block.bytes, Block.empty]⟩⟩)
  rw [hrun] at h1; cases h1
  obtain ⟨hbuf, ds, gs, d1, d2, d3, d4⟩ := hR s
  rcases d4 with ⟨_, d4⟩ | ⟨_, d4⟩
  · have e := d4 hv
    rw [hin, List.append_nil, List.nil_append, hb] at e
    obtain ⟨k, _, _, e2⟩ := decode_prefix ds rs (st.buffers s).bytes [] d1 hw (Or.inl (by simp)) (by simpa using e)
    obtain ⟨_, e3⟩ := decode_exhausted (rs.drop k) _ [] (fun r hr => hw r (List.mem_of_mem_drop hr)) hbuf.incomplete e2
    have := Block.bytes_length hbuf.1
    rw [e3] at this
    exact this.symm
  · rw [hv] at d4; cases d4

/-- Nothing happens any more to what is held for a closed connection. -/
theorem closed_keeps {g st} {op : TOp} {st' s} (hv : (st.conns s).valid = false) (e : op.step g st = .ok st') :
    (st'.conns s).valid = false ∧ st'.buffers s = st.buffers s := by
  have rb : ∀ {st x b k2 st'}, x ≠ s → (st.conns s).valid = false → receiveBody g st x b k2 = .ok st' →
      (st'.conns s).valid = false ∧ st'.buffers s = st.buffers s := by
    intro st x b k2 st' hx hv e
    have hx' : s ≠ x := fun h => hx h.symm
    unfold receiveBody at e
    obtain ⟨b1, _, e⟩ := Res.bind_eq_ok.1 e
    obtain ⟨⟨c, mem, read⟩, _, e⟩ := Res.bind_eq_ok.1 e
    cases read with
    | none => cases e; simp [cleanupSocket, upd, hx', hv]
    | some n =>
      dsimp only at e
      split at e
      · cases e; simp [upd, hx', hv]
      · obtain ⟨i, _, e⟩ := Res.bind_eq_ok.1 e
        cases e; simp [upd, hx', hv]
  cases op with
  | hangup x => cases e; simp only [upd]; split <;> simp_all
  | arrive x d => cases e; simp only [upd]; split <;> simp_all
  | receive x k1 k2 =>
    simp only [TOp.step, Model.receive] at e
    split at e
    · rename_i hvx
      have hx : x ≠ s := by intro h; subst h; rw [hv] at hvx; cases hvx
      have hx' : s ≠ x := fun h => hx h.symm
      split at e
      · obtain ⟨⟨c, mem, read⟩, _, e⟩ := Res.bind_eq_ok.1 e
        cases read with
        | none => cases e; simp [cleanupSocket, upd, hx', hv]
        | some n =>
          dsimp only at e
          split at e
          · cases e; simp [upd, hx', hv]
          · have := rb hx (by simp [upd, hx', hv]) e
            simpa [upd, hx'] using this
      · exact rb hx hv e
    · cases e; exact ⟨hv, rfl⟩
  | send x d k => cases e; exact ⟨hv, rfl⟩
  | tx k =>
    cases e
    unfold txStep
    split
    · split <;> exact ⟨hv, rfl⟩
    · rename_i r _
      by_cases hr : s = r.sock
      · have hw : sockWrite k (st.conns r.sock) (r.data.drop r.read) = (st.conns r.sock, none) := by
          unfold sockWrite; rw [← hr, hv]; rfl
        rw [hw]
        have hv' : (st.conns r.sock).valid = false := hr ▸ hv
        simp [upd, hr, hv']
      · dsimp only
        split
        · simp [upd, hr, hv]
        · split
          · simp [upd, hr, hv]
          · split <;> simp [upd, hr, hv]
    · exact ⟨hv, rfl⟩

/-- The rest of C131 is false: after a failed write the part of a record that had come remains for ever, whatever happens later. -/
theorem C131_released_violated (g) (r : UInt8) (data : Bytes) (later : List TOp) :
    ∃ st, trun g TSt.init ([.arrive 3 [r], .receive 3 (.give 1) .again, .send 3 data false, .tx .err, .tx .err] ++ later) = .ok st ∧
      (st.conns 3).valid = false ∧ (st.buffers 3).bytes = [r] := by
  have h0 : ∃ st, trun g TSt.init [.arrive 3 [r], .receive 3 (.give 1) .again, .send 3 data false, .tx .err, .tx .err] = .ok st ∧
      (st.conns 3).valid = false ∧ (st.buffers 3).bytes = [r] := by
    have hg : garbage g 8 = [g 0, g 1, g 2, g 3, g 4, g 5, g 6, g 7] := rfl
    refine ⟨_, by simp [trun, TOp.step, receive, TSt.init, upd, Block.setReserve, Block.empty, Block.reserve, hg, sockRead, writeAt, Block.setSize, send, txStep,
      sockWrite, Conn.close]; rfl, ?_, ?_⟩
    · simp [upd]
    · simp [upd, Block.bytes]
  obtain ⟨st0, e0, v0, b0⟩ := h0
  obtain ⟨st, e⟩ := C09_memory_safe g ([.arrive 3 [r], .receive 3 (.give 1) .again, .send 3 data false, .tx .err, .tx .err] ++ later)
  refine ⟨st, e, ?_⟩
  rw [trun_append, e0] at e
  simp only [Res.ok_bind] at e
  clear e0
  induction later generalizing st0 with
  | nil => cases e; exact ⟨v0, b0⟩
  | cons op ops ih =>
    simp only [trun] at e
    obtain ⟨st1, e1, e⟩ := Res.bind_eq_ok.1 e
    obtain ⟨h1, h2⟩ := closed_keeps v0 e1
    exact ih st1 h1 (by rw [h2]; exact b0) e

/-! ### Concrete cases -/

/-- The bound is reached: when the header of the longest record has come. -/
example : (match trun (fun _ => 0) TSt.init [.arrive 3 [1, 5, 0, 7, 255, 255, 255, 0], .receive 3 (.give 8) .again] with
    | .ok st => some ((st.buffers 3).size, (st.buffers 3).reserve) | _ => none) = some (8, maxRecord) := by
  simp [trun, TOp.step, receive, TSt.init, upd, Block.setReserve, Block.empty, Block.reserve, sockRead, writeAt, Block.setSize, receiveBody,
    reserveRecord, read16, rd, garbage, maxRecord, from16]
/-- A connection closed by the peer in the middle of a record. -/
example : (match trun (fun _ => 0) TSt.init [.arrive 3 [1, 5, 0], .receive 3 (.give 8) .again, .hangup 3, .receive 3 (.give 8) .again] with
    | .ok st => some ((st.conns 3).valid, st.buffers 3) | _ => none) = some (false, .empty) := by decide +kernel
/-- A whole record has been read. -/
example : (match trun (fun _ => 0) TSt.init [.arrive 3 (⟨1, 5, 7, [104], [], 0⟩ : Record).bytes, .receive 3 (.give 8) (.give 9)] with
    | .ok st => some ((st.conns 3).valid, (st.conns 3).input, (st.buffers 3).size) | _ => none) = some (true, [], 0) := by decide +kernel

end Fcgi.Props
