import Verif.Model.Transceiver
import Verif.Spec.Framing
import Verif.Lemmas.Protocol
namespace Fcgi.Model
open Fcgi.Spec

@[simp] theorem garbage_length (g n) : (garbage g n).length = n := by simp [garbage]

/-- Blocks between two calls of `receive`. -/
def BlockOK (b : Block) : Prop := b.size ≤ b.mem.length
def BufInv (b : Block) : Prop :=
  b.size ≤ b.mem.length ∧ (b.size < 8 ∨ (b.mem.length = framedLength b.bytes ∧ b.size < b.mem.length))

theorem Block.bytes_length {b : Block} (h : b.size ≤ b.mem.length) : b.bytes.length = b.size := by
  simp [Block.bytes]; omega

theorem setReserve_bytes (g) (b : Block) (x : Nat) (h : b.size ≤ b.mem.length) (hx : b.size ≤ x) :
    (b.setReserve g x).bytes = b.bytes ∧ (b.setReserve g x).size = b.size ∧
    (b.setReserve g x).mem.length = x := by
  unfold Block.setReserve Block.reserve
  split
  · simp only [Nat.min_eq_left hx]
    refine ⟨?_, trivial, ?_⟩
    · simp only [Block.bytes]
      rw [List.take_append_of_le_length (by simp; omega), List.take_take, Nat.min_self]
    · simp; omega
  · rename_i h2
    refine ⟨rfl, rfl, ?_⟩
    simp only [ne_eq, Decidable.not_not] at h2
    exact h2.symm

/-- Reading into a block whose free space is the size asked for. -/
theorem sockRead_spec (g) (k : KRead) (c : Conn) (b : Block) (hv : c.valid = true) (hb : b.size ≤ b.mem.length) :
    ∃ c' mem r, sockRead k c b.mem b.size (b.reserve - b.size) = .ok (c', mem, r) ∧
      c'.output = c.output ∧ c'.closing = c.closing ∧
      ((r = none ∧ c'.valid = false ∧ (∃ d, c.input = d ++ c'.input) ∧ (k = .err ∨ c.closing = true)) ∨
       (∃ n data, r = some n ∧ c'.valid = true ∧ c.input = data ++ c'.input ∧ n = data.length ∧
          b.size + n ≤ b.mem.length ∧
          ({ b with mem := mem }.setSize g (b.size + n)).bytes = b.bytes ++ data ∧
          ({ b with mem := mem }.setSize g (b.size + n)).size = b.size + n ∧
          ({ b with mem := mem }.setSize g (b.size + n)).mem = mem ∧
          mem.length = b.mem.length)) := by
  have hv' : (!c.valid) = false := by simp [hv]
  unfold sockRead
  simp only [hv', Bool.false_eq_true, if_false]
  cases k with
  | err =>
    refine ⟨_, _, _, rfl, ?_, ?_, Or.inl ⟨rfl, ?_, ⟨[], ?_⟩, Or.inl rfl⟩⟩ <;> simp [Conn.close, hv]
  | again =>
    refine ⟨_, _, _, rfl, rfl, rfl, Or.inr ⟨0, [], rfl, hv, rfl, rfl, by omega, ?_, ?_, ?_, rfl⟩⟩ <;>
      simp [Block.setSize, Block.reserve, Block.bytes, Nat.not_lt.2 hb]
  | give n =>
    dsimp only
    generalize hd : c.input.take (min n (b.reserve - b.size)) = data
    have hlen : data.length ≤ b.mem.length - b.size := by
      rw [← hd]; simp [Block.reserve]; omega
    have hin : c.input = data ++ c.input.drop data.length := by
      have : data = c.input.take data.length := by
        rw [← hd]; simp [List.take_eq_take_iff]
      conv => lhs; rw [← List.take_append_drop data.length c.input]
      rw [← this]
    have hw : writeAt b.mem b.size data =
        .ok (b.mem.take b.size ++ data ++ b.mem.drop (b.size + data.length)) := by
      simp [writeAt]; omega
    simp only [hw, Res.ok_bind]
    split
    · rename_i hz
      refine ⟨_, _, _, rfl, ?_, ?_, Or.inl ⟨rfl, ?_, ⟨data, ?_⟩, Or.inr hz.2⟩⟩
      · simp [Conn.close, hv]
      · simp [Conn.close, hv]
      · simp [Conn.close, hv]
      · simpa [Conn.close, hv] using hin
    · have hml : (b.mem.take b.size ++ data ++ b.mem.drop (b.size + data.length)).length = b.mem.length := by
        simp; omega
      have hs : ({ b with mem := b.mem.take b.size ++ data ++ b.mem.drop (b.size + data.length) } : Block).setSize
          g (b.size + data.length) = ⟨b.mem.take b.size ++ data ++ b.mem.drop (b.size + data.length), b.size + data.length⟩ := by
        unfold Block.setSize Block.reserve
        simp only [hml]
        rw [if_neg (by omega)]
      refine ⟨_, _, _, rfl, rfl, rfl, Or.inr ⟨_, data, rfl, hv, hin, rfl, by omega, ?_, ?_, ?_, hml⟩⟩
      · rw [hs]
        simp only [Block.bytes]
        rw [List.take_append_of_le_length (by simp; omega), List.take_of_length_le (by simp; omega)]
      · rw [hs]
      · rw [hs]

theorem framedLength_append (a b : Bytes) (h : 8 ≤ a.length) : framedLength (a ++ b) = framedLength a := by
  unfold framedLength
  have h1 : ((a ++ b).drop 4).take 2 = (a.drop 4).take 2 := by
    rw [List.drop_append_of_le_length (by omega), List.take_append_of_le_length (by simp; omega)]
  have h2 : ((a ++ b).drop 6).take 1 = (a.drop 6).take 1 := by
    rw [List.drop_append_of_le_length (by omega), List.take_append_of_le_length (by simp; omega)]
  rw [h1, h2]

theorem length_ge8 {l : Bytes} (h : 8 ≤ l.length) :
    ∃ a b c d e f g i r, l = a :: b :: c :: d :: e :: f :: g :: i :: r := by
  match l, h with
  | a :: b :: c :: d :: e :: f :: g :: i :: r, _ => exact ⟨a, b, c, d, e, f, g, i, r, rfl⟩

theorem header_reads {l : Bytes} (h : 8 ≤ l.length) :
    ∃ (cl id : UInt16) (pl : UInt8), read16 l 4 = .ok cl ∧ rd l 6 = .ok pl ∧ read16 l 2 = .ok id ∧
      8 + cl.toNat + pl.toNat = framedLength l ∧ id.toNat = frameId l := by
  obtain ⟨a, b, c, d, e, f, g, i, r, rfl⟩ := length_ge8 h
  refine ⟨from16 e f, from16 c d, g, ?_, ?_, ?_, ?_, ?_⟩
  · simp [read16, rd]
  · simp [rd]
  · simp [read16, rd]
  · simp [framedLength, from16_toNat, beValue]
  · simp [frameId, from16_toNat, beValue]

theorem frameId_append (a b : Bytes) (h : 8 ≤ a.length) : frameId (a ++ b) = frameId a := by
  unfold frameId
  rw [List.drop_append_of_le_length (by omega), List.take_append_of_le_length (by simp; omega)]

/-- What one `receive` may do to its own connection. -/
structure RecvOut (st : TSt) (s : Nat) (st' : TSt) (bad : Prop) : Prop where
  frame : ∀ t, t ≠ s → st'.conns t = st.conns t ∧ st'.buffers t = st.buffers t
  queue : st'.queue = st.queue ∧ st'.pc = st.pc ∧ st'.rets = st.rets
  output : (st'.conns s).output = (st.conns s).output ∧ (st'.conns s).closing = (st.conns s).closing
  main : ∃ data, (st.conns s).input = data ++ (st'.conns s).input ∧
    (((st'.conns s).valid = true ∧ st'.msgs = st.msgs ∧
        (st'.buffers s).bytes = (st.buffers s).bytes ++ data ∧ BufInv (st'.buffers s)) ∨
     ((st'.conns s).valid = true ∧ (st'.buffers s) = .empty ∧
        Complete ((st.buffers s).bytes ++ data) ∧
        st'.msgs = st.msgs ++ [⟨⟨s, UInt16.ofNat (frameId ((st.buffers s).bytes ++ data))⟩,
          (st.buffers s).bytes ++ data⟩]) ∨
     (bad ∧ (st'.conns s).valid = false ∧ (st'.buffers s) = .empty ∧
        st'.msgs = st.msgs ++ [⟨⟨s, badFcgiId⟩, []⟩]))

@[simp] theorem upd_self {α} (f : Nat → α) (k v) : upd f k v k = v := by simp [upd]
theorem upd_ne {α} (f : Nat → α) (k v) {t} (h : t ≠ k) : upd f k v t = f t := by simp [upd, h]
@[simp] theorem upd_upd {α} (f : Nat → α) (k v w) : upd (upd f k v) k w = upd f k w := by
  funext t; simp only [upd]; split <;> rfl

theorem receiveBody_spec (g) (st : TSt) (s : Nat) (b : Block) (k2 : KRead)
    (hv : (st.conns s).valid = true) (hb : b.size ≤ b.mem.length) (h8 : 8 ≤ b.size)
    (hr : b.size = 8 ∨ (b.mem.length = framedLength b.bytes ∧ b.size < b.mem.length))
    (hst : (st.buffers s).bytes = b.bytes) :
    ∃ st', receiveBody g st s b k2 = .ok st' ∧
      RecvOut st s st' (k2 = .err ∨ (st.conns s).closing = true) := by
  -- after the reserve step the block has exactly the framed length
  have hbl : b.bytes.length = b.size := Block.bytes_length hb
  obtain ⟨b', hb', hs', hby', hm'⟩ : ∃ b' : Block,
      reserveRecord g b = .ok b' ∧ b'.size = b.size ∧ b'.bytes = b.bytes ∧
        b'.mem.length = framedLength b.bytes := by
    unfold reserveRecord
    by_cases hs : b.size = 8
    · obtain ⟨cl, id, pl, h1, h2, h3, h4, h5⟩ := header_reads (l := b.mem) (by omega)
      rw [if_pos hs, h1, h2]
      have hfl : framedLength b.mem = framedLength b.bytes := by
        conv => lhs; rw [← List.take_append_drop b.size b.mem]
        exact framedLength_append _ _ (by simp; omega)
      have := setReserve_bytes g b (8 + cl.toNat + pl.toNat) hb (by omega)
      exact ⟨_, rfl, this.2.1, this.1, by rw [this.2.2, h4, hfl]⟩
    · rw [if_neg hs]
      rcases hr with hr | hr
      · exact absurd hr hs
      · exact ⟨b, rfl, rfl, rfl, hr.1⟩
  have hfl8 : 8 ≤ framedLength b.bytes := by unfold framedLength; omega
  have hb2 : b'.size ≤ b'.mem.length := by
    rw [hm', hs']
    rcases hr with hr | hr
    · omega
    · rw [← hr.1]; omega
  obtain ⟨c', mem, r, hread, hout, hclo, hcase⟩ := sockRead_spec g k2 (st.conns s) b' hv hb2
  unfold receiveBody
  rw [hb']
  simp only [Res.ok_bind, hread]
  rcases hcase with ⟨rfl, hval, ⟨d, hd⟩, hbad⟩ | ⟨n, data, rfl, hval, hin, hn, hfit, hbytes, hsz, hmem, hml⟩
  · refine ⟨_, rfl, ?_, ?_, ?_, ?_⟩
    · intro t ht
      simp [cleanupSocket, upd_ne _ _ _ ht]
    · simp [cleanupSocket]
    · simp [cleanupSocket, Conn.close, hval, hout, hclo]
    · refine ⟨d, by simpa [cleanupSocket, Conn.close, hval] using hd, Or.inr (Or.inr ⟨hbad, ?_, ?_, ?_⟩)⟩
      · simp [cleanupSocket, Conn.close, hval]
      · simp [cleanupSocket]
      · simp [cleanupSocket]
  · simp only []
    have hall : ({ b' with mem := mem }.setSize g (b'.size + n)).bytes = b.bytes ++ data := by
      rw [hbytes, hby']
    generalize hB : ({ b' with mem := mem } : Block).setSize g (b'.size + n) = B at *
    have hBl : B.mem.length = framedLength (b.bytes ++ data) := by
      rw [hmem, hml, hm', framedLength_append _ _ (by omega)]
    have hal : (b.bytes ++ data).length = B.size := by
      rw [hsz, List.length_append, hbl, hs', hn]
    by_cases hlt : B.size < B.reserve
    · rw [if_pos hlt]
      refine ⟨_, rfl, ?_, ?_, ?_, data, by simpa using hin, Or.inl ⟨by simpa using hval, rfl, ?_, ?_⟩⟩
      · intro t ht
        simp [upd_ne _ _ _ ht]
      · simp
      · simp [hout, hclo]
      · simp [hall, hst]
      · simp only [upd_self]
        refine ⟨Nat.le_of_lt hlt, Or.inr ⟨?_, hlt⟩⟩
        rw [hall, hBl]
    · rw [if_neg hlt]
      have hfull : B.mem.take B.size = B.mem := List.take_of_length_le (by unfold Block.reserve at hlt; omega)
      have hbm : B.bytes = B.mem := hfull
      have hmemeq : B.mem = b.bytes ++ data := by rw [← hbm, hall]
      obtain ⟨cl, id, pl, h1, h2, h3, h4, h5⟩ := header_reads (l := B.mem) (by rw [hBl]; unfold framedLength; omega)
      rw [h3]
      simp only [Res.ok_bind]
      refine ⟨_, rfl, ?_, ?_, ?_, data, by simpa using hin, Or.inr (Or.inl ⟨by simpa using hval, by simp, ?_, ?_⟩)⟩
      · intro t ht
        simp [upd_ne _ _ _ ht]
      · simp
      · simp [hout, hclo]
      · rw [hst, ← hmemeq]
        exact ⟨by rw [hBl]; unfold framedLength; omega, by conv => lhs; rw [hBl, ← hmemeq]⟩
      · simp only [hst]
        rw [hall]
        congr 4
        rw [← UInt16.toNat_inj, ← hmemeq, ← h5]
        simp

theorem receive_spec (g) (st : TSt) (s : Nat) (k1 k2 : KRead) (hv : (st.conns s).valid = true)
    (hb : BufInv (st.buffers s)) :
    ∃ st', receive g st s k1 k2 = .ok st' ∧
      RecvOut st s st' (k1 = .err ∨ k2 = .err ∨ (st.conns s).closing = true) := by
  obtain ⟨hb1, hb2⟩ := hb
  unfold receive
  rw [if_pos hv]
  by_cases h8 : (st.buffers s).size < 8
  · simp only [if_pos h8]
    obtain ⟨e1, e2, e3⟩ := setReserve_bytes g (st.buffers s) 8 hb1 (by omega)
    generalize hB : (st.buffers s).setReserve g 8 = b at *
    obtain ⟨c', mem, r, hread, hout, hclo, hcase⟩ := sockRead_spec g k1 (st.conns s) b hv (by omega)
    simp only [hread, Res.ok_bind]
    rcases hcase with ⟨rfl, hval, ⟨d, hd⟩, hbad⟩ | ⟨n, data, rfl, hval, hin, hn, hfit, hbytes, hsz, hmem, hml⟩
    · refine ⟨_, rfl, ?_, ?_, ?_, ?_⟩
      · intro t ht
        simp [cleanupSocket, upd_ne _ _ _ ht]
      · simp [cleanupSocket]
      · simp [cleanupSocket, Conn.close, hval, hout, hclo]
      · refine ⟨d, by simpa [cleanupSocket, Conn.close, hval] using hd, Or.inr (Or.inr ⟨?_, ?_, ?_, ?_⟩)⟩
        · rcases hbad with h | h
          · exact Or.inl h
          · exact Or.inr (Or.inr h)
        · simp [cleanupSocket, Conn.close, hval]
        · simp [cleanupSocket]
        · simp [cleanupSocket]
    · simp only []
      generalize hB2 : ({ b with mem := mem } : Block).setSize g (b.size + n) = B at *
      have hBm : B.size ≤ B.mem.length := by rw [hsz, hmem, hml]; omega
      by_cases hlt : B.size < 8
      · rw [if_pos hlt]
        refine ⟨_, rfl, ?_, ?_, ?_, data, by simpa using hin, Or.inl ⟨by simpa using hval, rfl, ?_, ?_⟩⟩
        · intro t ht
          simp [upd_ne _ _ _ ht]
        · simp
        · simp [hout, hclo]
        · simp only [upd_self]; rw [hbytes, e1]
        · simp only [upd_self]
          exact ⟨hBm, Or.inl hlt⟩
      · rw [if_neg hlt]
        obtain ⟨st', hst', hout'⟩ := receiveBody_spec g
          { st with conns := upd st.conns s c', buffers := upd st.buffers s B } s B k2
          (by simpa using hval) hBm (by omega) (Or.inl (by rw [hmem, hml, e3] at hBm; omega)) (by simp)
        refine ⟨st', hst', ?_, ?_, ?_, ?_⟩
        · intro t ht
          have := hout'.frame t ht
          simpa [upd_ne _ _ _ ht] using this
        · simpa using hout'.queue
        · have := hout'.output
          simpa [hout, hclo] using this
        · obtain ⟨data2, hd2, hmain⟩ := hout'.main
          simp only [upd_self] at hd2 hmain
          refine ⟨data ++ data2, by rw [hin, hd2]; simp, ?_⟩
          rw [hbytes, e1] at hmain
          rcases hmain with ⟨h1, h2, h3, h4⟩ | ⟨h1, h2, h3, h4⟩ | ⟨h0, h1, h2, h3⟩
          · exact Or.inl ⟨h1, h2, by rw [h3]; simp, h4⟩
          · exact Or.inr (Or.inl ⟨h1, h2, by simpa using h3, by simpa using h4⟩)
          · refine Or.inr (Or.inr ⟨?_, h1, h2, h3⟩)
            rcases h0 with h0 | h0
            · exact Or.inr (Or.inl h0)
            · right; right; rw [← hclo]; exact h0
  · simp only [if_neg h8]
    obtain ⟨st', hst', hout'⟩ := receiveBody_spec g st s (st.buffers s) k2 hv hb1 (by omega)
      (by rcases hb2 with h | h
          · omega
          · exact Or.inr h) rfl
    refine ⟨st', hst', hout'.frame, hout'.queue, hout'.output, ?_⟩
    obtain ⟨data2, hd2, hmain⟩ := hout'.main
    refine ⟨data2, hd2, ?_⟩
    rcases hmain with h | h | ⟨h0, h⟩
    · exact Or.inl h
    · exact Or.inr (Or.inl h)
    · exact Or.inr (Or.inr ⟨Or.inr h0, h⟩)

end Fcgi.Model
