import Verif.Lemmas.Transceiver
/-! # Properties C09–C11 and C17–C19: receiving and transmitting

`trun g TSt.init ops` runs the transceiver through an arbitrary history `ops`: bytes arriving from
peers, hang-ups, `receive` calls in which the kernel hands over any number of bytes, `send` calls by
other threads, and steps of the transmit loop in which the kernel accepts any number of bytes; `g` is
the contents of uninitialised memory.  `arrived s ops` is everything the peer of `s` sent,
`sentTo s ops` everything queued for `s`, `msgsOf s st` the messages delivered for `s`. -/
namespace Fcgi.Props
open Fcgi Fcgi.Model Fcgi.Spec

/-- The message the manager receives for record `r` on socket `s`. -/
def messageFor (s : Nat) (r : Record) : Msg := ⟨⟨s, UInt16.ofNat r.id⟩, r.bytes⟩

/-! ## C09 fragmentation independence -/

/-- No history makes the receiver read or write outside its buffers. -/
theorem C09_memory_safe (g) (ops : List TOp) : ∃ st, trun g TSt.init ops = .ok st := by
  obtain ⟨st, h, _⟩ := init_run g ops
  exact ⟨st, h⟩

theorem C09_msgs_eq (s : Nat) (rs : List Record) (h : ∀ r ∈ rs, r.WF) :
    (rs.map Record.bytes).map (recMsg s) = rs.map (messageFor s) := by
  rw [List.map_map]
  apply List.map_congr_left
  intro r hr
  simp [recMsg, messageFor, Model.Record.frameId r (h r hr)]

/-- Whatever the fragmentation, and whatever else happens: if the peer of `s` sent the records `rs`
followed by an incomplete record, then the messages delivered for `s` are the messages of the first
`k` records, in order, possibly followed by one "connection gone" message; and as long as the
connection is open and everything that was sent has been read, `k` is all of them and there is no such
message. -/
theorem C09_fragmentation (g) (ops : List TOp) (st : TSt) (hrun : trun g TSt.init ops = .ok st)
    (s : Nat) (rs : List Record) (tail : Bytes) (hwf : ∀ r ∈ rs, r.WF) (htail : Incomplete tail)
    (hsent : arrived s ops = stream rs ++ tail) :
    (∃ k ≤ rs.length, msgsOf s st = (rs.take k).map (messageFor s) ∨
      ((st.conns s).valid = false ∧ msgsOf s st = (rs.take k).map (messageFor s) ++ [goneMsg s])) ∧
    ((st.conns s).valid = true → (st.conns s).input = [] → msgsOf s st = rs.map (messageFor s)) := by
  obtain ⟨st1, h1, h2, _, _⟩ := init_run g ops
  rw [hrun] at h1; cases h1
  obtain ⟨hb, ds, gs, c1, c2, ⟨rest, c3⟩, c4⟩ := h2 s
  rw [hsent] at c3
  obtain ⟨k, hk, e1, e2⟩ := decode_prefix ds rs rest tail c1 hwf htail c3
  have hwk : ∀ r ∈ rs.take k, r.WF := fun r hr => hwf r (List.mem_of_mem_take hr)
  refine ⟨⟨k, hk, ?_⟩, ?_⟩
  · rw [c2, e1, C09_msgs_eq s _ hwk]
    rcases c4 with ⟨rfl, _⟩ | ⟨rfl, hv⟩
    · left; simp
    · right; exact ⟨hv, rfl⟩
  · intro hv hin
    rcases c4 with ⟨rfl, c4⟩ | ⟨_, hv'⟩
    · have c4 := c4 hv
      rw [hin, hsent, List.append_nil] at c4
      obtain ⟨k', hk', e1', e2'⟩ := decode_prefix ds rs _ tail c1 hwf htail c4
      obtain ⟨h3, _⟩ := decode_exhausted (rs.drop k') _ tail
        (fun r hr => hwf r (List.mem_of_mem_drop hr)) (BufInv.incomplete hb) e2'
      have hall : rs.take k' = rs := by
        conv => rhs; rw [← List.take_append_drop k' rs, h3, List.append_nil]
      rw [c2, e1', hall, C09_msgs_eq s _ hwf, List.append_nil]
    · rw [hv] at hv'; cases hv'

/-- A record with content, one without, and a partial third, read in awkward pieces. -/
def C09_demo : List TOp :=
  [.arrive 3 [1, 5, 0, 7, 0, 2], .receive 3 (.give 5) (.give 9), .arrive 3 [1, 0, 65, 66],
   .receive 3 (.give 9) (.give 1), .receive 3 .again .again, .arrive 3 [9, 1, 5, 0, 7, 0, 0, 0, 0, 1, 5],
   .receive 3 (.give 99) (.give 99), .receive 3 (.give 99) (.give 99), .receive 3 (.give 99) (.give 99),
   .receive 3 (.give 0) .again]
example : (match trun (fun _ => 0xcc) TSt.init C09_demo with
    | .ok st => ((st.conns 3).input, msgsOf 3 st)
    | _ => ([], [])) =
    ([], [⟨⟨3, 7⟩, [1, 5, 0, 7, 0, 2, 1, 0, 65, 66, 9]⟩, ⟨⟨3, 7⟩, [1, 5, 0, 7, 0, 0, 0, 0]⟩]) := by
  decide +kernel
example : arrived 3 C09_demo = stream [⟨1, 5, 7, [65, 66], [9], 0⟩, ⟨1, 5, 7, [], [], 0⟩] ++ [1, 5] := by
  decide +kernel

/-! ## C10 connections are independent -/

/-- In any interleaving of reads, arrivals and hang-ups over any set of sockets, what is delivered for
`s` is what is delivered when everything concerning the other sockets is left out. -/
theorem C10_isolation (g) (ops : List TOp) (hr : ∀ op ∈ ops, recvSide op = true) (s : Nat) (st : TSt)
    (hrun : trun g TSt.init ops = .ok st) :
    ∃ st', trun g TSt.init (ops.filter (concerns s)) = .ok st' ∧
      msgsOf s st = msgsOf s st' ∧ st.conns s = st'.conns s := by
  obtain ⟨st', h1, h2⟩ := run_view g s ops hr (fun _ => []) (fun _ => []) TSt.init TSt.init st RInv.init RInv.init rfl hrun
  simp only [recvView, Prod.mk.injEq] at h2
  exact ⟨st', h1, h2.2.2, h2.1⟩

/-- Two connections interleaved in the middle of records. -/
def C10_demo : List TOp :=
  [.arrive 1 [1, 4, 0, 1, 0, 1], .arrive 2 [1, 4, 0, 2, 0, 1, 0], .receive 1 (.give 9) (.give 9),
   .receive 2 (.give 3) (.give 9), .arrive 1 [0, 0, 65], .receive 2 (.give 9) (.give 9),
   .receive 1 (.give 9) (.give 9), .arrive 2 [0, 66], .receive 2 (.give 9) (.give 9)]
example : (∀ op ∈ C10_demo, recvSide op = true) ∧ (match trun (fun _ => 7) TSt.init C10_demo with
    | .ok st => (msgsOf 1 st, msgsOf 2 st)
    | _ => ([], [])) =
    ([⟨⟨1, 1⟩, [1, 4, 0, 1, 0, 1, 0, 0, 65]⟩], [⟨⟨2, 2⟩, [1, 4, 0, 2, 0, 1, 0, 0, 66]⟩]) := by
  decide +kernel

/-! ## C11 closing connections -/

/-- At most one "connection gone" message is ever delivered for a socket, nothing is delivered after
it, and it is only delivered once the connection is closed. -/
theorem C11_gone_once (g) (ops : List TOp) (st : TSt) (hrun : trun g TSt.init ops = .ok st) (s : Nat) :
    (goneMsg s ∉ msgsOf s st) ∨
    ((st.conns s).valid = false ∧ ∃ before, msgsOf s st = before ++ [goneMsg s] ∧ goneMsg s ∉ before) := by
  obtain ⟨st1, h1, h2, _, _⟩ := init_run g ops
  rw [hrun] at h1; cases h1
  obtain ⟨hb, ds, gs, c1, c2, c3, c4⟩ := h2 s
  have hno : goneMsg s ∉ ds.map (recMsg s) := by
    intro hm
    obtain ⟨d, hd, he⟩ := List.mem_map.1 hm
    simp only [recMsg, goneMsg, Msg.mk.injEq] at he
    have := (c1 d hd).1
    rw [he.2] at this
    simp at this
  rcases c4 with ⟨rfl, _⟩ | ⟨rfl, hv⟩
  · left; rw [c2, List.append_nil]; exact hno
  · right; exact ⟨hv, _, c2, hno⟩

/-- When the kernel reports a read error on an open connection, the connection is closed, its partial
input is thrown away and exactly one "connection gone" message is delivered (in any reachable state). -/
theorem C11_read_error (g) (ops : List TOp) (st : TSt) (hrun : trun g TSt.init ops = .ok st) (s : Nat)
    (hv : (st.conns s).valid = true) :
    ∃ st', trun g TSt.init (ops ++ [.receive s .err .err]) = .ok st' ∧ (st'.conns s).valid = false ∧
      (st'.buffers s).bytes = [] ∧ msgsOf s st' = msgsOf s st ++ [goneMsg s] := by
  rw [trun_append, hrun]
  simp only [Res.ok_bind, trun, TOp.step]
  obtain ⟨st1, h1, h2, _, _⟩ := init_run g ops
  rw [hrun] at h1; cases h1
  have hb := (h2 s).buf
  unfold receive
  rw [if_pos hv]
  dsimp only
  have hclose : (st.conns s).close.valid = false := by simp [Conn.close, hv]
  by_cases h8 : (st.buffers s).size < 8
  · rw [if_pos h8]
    simp only [sockRead, hv, Bool.not_true, Bool.false_eq_true, if_false, Res.ok_bind, Res.pure_eq]
    refine ⟨_, rfl, ?_, ?_, ?_⟩
    · simp [cleanupSocket, Conn.close, hv]
    · simp [cleanupSocket, Block.empty, Block.bytes]
    · simp [cleanupSocket, msgsOf, goneMsg]
  · rw [if_neg h8]
    unfold receiveBody
    obtain ⟨b', hb'⟩ : ∃ b', reserveRecord g (st.buffers s) = .ok b' := by
      unfold reserveRecord
      split
      · rename_i he
        obtain ⟨cl, id, pl, q1, q2, _⟩ := header_reads (l := (st.buffers s).mem) (by have := hb.1; omega)
        exact ⟨_, by rw [q1, q2]; rfl⟩
      · exact ⟨_, rfl⟩
    rw [hb']
    simp only [Res.ok_bind, sockRead, hv, Bool.not_true, Bool.false_eq_true, if_false, Res.pure_eq]
    refine ⟨_, rfl, ?_, ?_, ?_⟩
    · simp [cleanupSocket, Conn.close, hv]
    · simp [cleanupSocket, Block.empty, Block.bytes]
    · simp [cleanupSocket, msgsOf, goneMsg]

/-- What holds of orderly hang-ups: once the poll loop has seen the hang-up and all input has been
read, the next receive (at end of file) closes the connection and delivers the message.
(`_partial`: see the two violations below.) -/
theorem C11_hangup_partial (g) (ops : List TOp) (st : TSt) (hrun : trun g TSt.init ops = .ok st) (s : Nat)
    (hv : (st.conns s).valid = true) (hc : (st.conns s).closing = true) (hin : (st.conns s).input = [])
    (n m : Nat) :
    ∃ st', trun g TSt.init (ops ++ [.receive s (.give n) (.give m)]) = .ok st' ∧
      (st'.conns s).valid = false ∧ (st'.buffers s).bytes = [] ∧
      msgsOf s st' = msgsOf s st ++ [goneMsg s] := by
  obtain ⟨st1, h1, h2, _, _⟩ := init_run g ops
  rw [hrun] at h1; cases h1
  have hb := (h2 s).buf
  obtain ⟨st', hst', out⟩ := receive_spec g st s (.give n) (.give m) hv hb
  refine ⟨st', ?_, ?_⟩
  · rw [trun_append, hrun]; simp [trun, TOp.step, hst']
  unfold receive at hst'
  rw [if_pos hv] at hst'
  dsimp only at hst'
  have hw : ∀ mem off, off ≤ mem.length → writeAt mem off [] = .ok mem := by
    intro mem off h; simp [writeAt, h]
  have key : ∀ (b : Block) (k : Nat), b.size ≤ b.mem.length →
      sockRead (.give k) (st.conns s) b.mem b.size (b.reserve - b.size) =
        .ok ((st.conns s).close, b.mem, none) := by
    intro b k hbs
    simp [sockRead, hv, hin, hw _ _ hbs, hc]
    simp [Conn.close, hin, hv, hc]
  by_cases h8 : (st.buffers s).size < 8
  · rw [if_pos h8] at hst'
    obtain ⟨e1, e2, e3⟩ := setReserve_bytes g (st.buffers s) 8 hb.1 (by omega)
    rw [key _ n (by omega)] at hst'
    simp only [Res.ok_bind, Res.pure_eq, Res.ok.injEq] at hst'
    subst hst'
    refine ⟨by simp [cleanupSocket, Conn.close, hv], by simp [cleanupSocket, Block.empty, Block.bytes],
      by simp [cleanupSocket, msgsOf, goneMsg]⟩
  · rw [if_neg h8] at hst'
    unfold receiveBody at hst'
    obtain ⟨b', hb', hbs'⟩ : ∃ b', reserveRecord g (st.buffers s) = .ok b' ∧ b'.size ≤ b'.mem.length := by
      unfold reserveRecord
      split
      · rename_i he
        obtain ⟨cl, id, pl, q1, q2, _⟩ := header_reads (l := (st.buffers s).mem) (by have := hb.1; omega)
        refine ⟨_, by rw [q1, q2]; rfl, ?_⟩
        have := setReserve_bytes g (st.buffers s) (8 + cl.toNat + pl.toNat) hb.1 (by omega)
        omega
      · exact ⟨_, rfl, hb.1⟩
    rw [hb'] at hst'
    simp only [Res.ok_bind] at hst'
    rw [key _ m hbs'] at hst'
    simp only [Res.ok_bind, Res.pure_eq, Res.ok.injEq] at hst'
    subst hst'
    refine ⟨by simp [cleanupSocket, Conn.close, hv], by simp [cleanupSocket, Block.empty, Block.bytes],
      by simp [cleanupSocket, msgsOf, goneMsg]⟩

/-- Violation 1: the peer sends one complete record with an empty body (as FastCGI requires to end
PARAMS and STDIN) and then shuts down its writing side.  Although the whole record was read, it is
never delivered: the zero-length read for the empty body is taken for end of file. -/
theorem C11_violated_empty_record (g) :
    (match trun g TSt.init [.arrive 3 (⟨1, 5, 7, [], [], 0⟩ : Record).bytes, .hangup 3,
        .receive 3 (.give 8) (.give 8)] with
      | .ok st => some ((st.conns 3).input, msgsOf 3 st, (st.conns 3).valid)
      | _ => none) = some ([], [goneMsg 3], false) := by
  have hb : (⟨1, 5, 7, [], [], 0⟩ : Record).bytes = [1, 5, 0, 7, 0, 0, 0, 0] := by decide
  have hg : garbage g 8 = [g 0, g 1, g 2, g 3, g 4, g 5, g 6, g 7] := rfl
  have hz : (from16 0 0).toNat = 0 := by decide
  simp [hb, hz, trun, TOp.step, receive, TSt.init, upd, Block.setReserve, Block.empty, Block.reserve, hg,
    sockRead, writeAt, Block.setSize, receiveBody, reserveRecord, read16, rd, cleanupSocket, Conn.close,
    msgsOf, goneMsg]

/-- Violation 2: when a *write* fails the connection is closed too, but no "connection gone" message
is ever delivered for it, whatever happens afterwards: its requests are never told. -/
theorem C11_violated_write_error (g) (data : Bytes) (later : List TOp) :
    ∃ st, trun g TSt.init ([.send 3 data false, .tx .err, .tx .err] ++ later) = .ok st ∧
      (st.conns 3).valid = false ∧ goneMsg 3 ∉ msgsOf 3 st := by
  let P : TSt → Prop := fun st => (st.conns 3).valid = false ∧ msgsOf 3 st = []
  have hfirst : ∃ st, trun g TSt.init [.send 3 data false, .tx .err, .tx .err] = .ok st ∧ P st := by
    refine Exists.intro _ (And.intro rfl (And.intro ?_ ?_))
    · simp [txStep, send, TSt.init, sockWrite, Conn.close]
    · simp [txStep, send, TSt.init, sockWrite, Conn.close, msgsOf]
  obtain ⟨st0, e0, p0⟩ := hfirst
  obtain ⟨stF, hF⟩ := C09_memory_safe g ([.send 3 data false, .tx .err, .tx .err] ++ later)
  refine ⟨stF, hF, ?_⟩
  have hR' : ∃ A : Nat → Bytes, ∀ s, RInv (A s) s st0 := by
    obtain ⟨st1, h1, hR, _, _⟩ := init_run g [.send 3 data false, .tx .err, .tx .err]
    rw [e0] at h1; cases h1
    exact ⟨_, hR⟩
  rw [trun_append, e0] at hF
  simp only [Res.ok_bind] at hF
  have : P stF := by
    clear e0
    induction later generalizing st0 with
    | nil => simp only [trun, Res.ok.injEq] at hF; subst hF; exact p0
    | cons op ops ih =>
      obtain ⟨A, hA⟩ := hR'
      obtain ⟨st1, h1, h2⟩ := RInv.step g op hA
      simp only [trun, h1, Res.ok_bind] at hF
      refine ih st1 ?_ hF ⟨_, h2⟩
      have hcl : ∀ c : Conn, c.close.valid = false := by
        intro c; unfold Conn.close; split <;> simp_all
      cases op with
      | hangup t =>
        simp only [TOp.step, Res.ok.injEq] at h1; subst h1
        by_cases ht : 3 = t
        · subst ht; exact And.intro (by simpa using p0.1) p0.2
        · exact ⟨by simpa [upd_ne _ _ _ ht] using p0.1, p0.2⟩
      | arrive t d =>
        simp only [TOp.step, Res.ok.injEq] at h1; subst h1
        by_cases ht : 3 = t
        · subst ht; exact And.intro (by simpa using p0.1) p0.2
        · exact ⟨by simpa [upd_ne _ _ _ ht] using p0.1, p0.2⟩
      | send t d k => simp only [TOp.step, Res.ok.injEq] at h1; subst h1; exact p0
      | receive t k1 k2 =>
        by_cases ht : 3 = t
        · subst ht
          simp only [TOp.step, receive, p0.1] at h1
          simp at h1; subst h1; exact p0
        · have hv := step_other_view g 3 st0 st1 (.receive t k1 k2) rfl
            (by simp [concerns]; exact fun e => ht e.symm) (fun s => (hA s).buf) h1
          simp only [recvView, Prod.mk.injEq] at hv
          exact ⟨by rw [hv.1]; exact p0.1, by rw [hv.2.2]; exact p0.2⟩
      | tx k =>
        simp only [TOp.step, Res.ok.injEq] at h1; subst h1
        unfold txStep
        split
        · split <;> exact p0
        · rename_i r _
          have hw : ∀ d, r.sock = 3 → sockWrite k (st0.conns r.sock) d = (st0.conns r.sock, none) := by
            intro d hr; simp [sockWrite, hr, p0.1]
          by_cases hr : r.sock = 3
          · simp only [hw _ hr]
            refine ⟨?_, p0.2⟩
            simp only [upd, hr, if_true]; exact p0.1
          · have hr' : (3:Nat) ≠ r.sock := fun e => hr e.symm
            generalize sockWrite k (st0.conns r.sock) (r.data.drop r.read) = cs
            obtain ⟨c, sent⟩ := cs
            cases sent with
            | none => exact ⟨by simpa [upd_ne _ _ _ hr'] using p0.1, p0.2⟩
            | some n =>
              dsimp only
              split
              · exact ⟨by simpa [upd_ne _ _ _ hr'] using p0.1, p0.2⟩
              · split
                · exact ⟨by simpa [upd_ne _ _ _ hr'] using p0.1, p0.2⟩
                · exact ⟨by simpa [upd_ne _ _ _ hr'] using p0.1, p0.2⟩
        · exact p0
  exact ⟨this.1, by rw [this.2]; simp⟩

example : (match trun (fun _ => 1) TSt.init [.arrive 3 [1, 5, 0], .receive 3 (.give 9) .again, .hangup 3,
      .receive 3 (.give 9) .again] with
    | .ok st => (msgsOf 3 st, (st.conns 3).valid)
    | _ => ([], true)) = ([goneMsg 3], false) := by decide +kernel

/-! ## C17 completeness and order of output -/

/-- For every history: what a socket has accepted is a prefix of everything queued for it, in queue
order; and whenever the transmit loop finds its queue empty (that is, reports success), every
connection that is still open and not hung up has accepted all of it. -/
theorem C17_output_prefix (g) (ops : List TOp) (st : TSt) (hrun : trun g TSt.init ops = .ok st) (s : Nat) :
    (st.conns s).output <+: (sentTo s ops).flatMap (·.1) := by
  obtain ⟨st1, h1, _, _, h2⟩ := init_run g ops
  rw [hrun] at h1; cases h1
  exact (h2 s).pre

theorem C17_flushed (g) (ops : List TOp) (st : TSt) (hrun : trun g TSt.init ops = .ok st) (k : KWrite)
    (hret : (txStep st k).rets = st.rets ++ [true]) (s : Nat)
    (hopen : (st.conns s).valid = true) (hnc : (st.conns s).closing = false) :
    (st.conns s).output = (sentTo s ops).flatMap (·.1) := by
  obtain ⟨st1, h1, _, _, h2⟩ := init_run g ops
  rw [hrun] at h1; cases h1
  obtain ⟨done, e1, e2, e3⟩ := (h2 s).healthy ⟨hopen, hnc⟩
  have hp : pendingOf s st = [] := by
    unfold txStep at hret
    split at hret
    · rename_i hpc
      split at hret
      · rename_i hq; simp [pendingOf, pending, hpc, hq]
      · simp at hret
    · rename_i r hpc
      exfalso
      revert hret
      generalize sockWrite k (st.conns r.sock) (r.data.drop r.read) = cs
      obtain ⟨c, sent⟩ := cs
      cases sent with
      | none => simp
      | some n =>
        dsimp only
        split
        · simp
        · split <;> simp
    · simp at hret
  rw [hp] at e1 e3
  simp at e1 e3
  rw [e1, e3]

/-- In every reachable state an open connection has accepted exactly the queued bytes minus those
still pending, so nothing is lost or duplicated while it is open. -/
theorem C17_nothing_lost (g) (ops : List TOp) (st : TSt) (hrun : trun g TSt.init ops = .ok st) (s : Nat)
    (hopen : (st.conns s).valid = true) (hnc : (st.conns s).closing = false) :
    (st.conns s).output ++ (pendingOf s st).flatMap (fun r => r.data.drop r.read) =
      (sentTo s ops).flatMap (·.1) := by
  obtain ⟨st1, h1, _, hq, h2⟩ := init_run g ops
  rw [hrun] at h1; cases h1
  obtain ⟨done, e1, e2, e3⟩ := (h2 s).healthy ⟨hopen, hnc⟩
  rw [e1, e3]
  simp only [List.flatMap_append, List.append_assoc, List.flatMap_map]
  congr 1
  -- only the first pending record has been partly written
  have ht : ∀ r ∈ (pendingOf s st).tail, r.read = 0 := by
    intro r hr
    unfold pendingOf at hr
    cases hp : pending st with
    | nil => simp [hp] at hr
    | cons a l =>
      have hl : ∀ x ∈ l, x.read = 0 := fun x hx => hq.2 x (by rw [hp]; exact hx)
      rw [hp, List.filter_cons] at hr
      split at hr
      · exact hl r (List.mem_filter.1 hr).1
      · exact hl r (List.mem_filter.1 (List.mem_of_mem_tail hr)).1
  cases hpo : pendingOf s st with
  | nil => rfl
  | cons a l =>
    rw [hpo] at ht
    simp only [List.tail_cons] at ht
    simp only [List.flatMap_cons, flatMap_take_zero l ht, List.append_nil]
    rw [← List.append_assoc, List.take_append_drop]
    congr 1
    clear hpo
    induction l with
    | nil => rfl
    | cons b l ih =>
      simp only [List.flatMap_cons]
      rw [ht b (by simp), ih (fun r hr => ht r (by simp [hr]))]
      simp

/-- Two sockets, short writes, one would-block. -/
def C17_demo : List TOp :=
  [.send 1 [10, 11, 12] false, .send 2 [20, 21] false, .send 1 [13] false, .tx .again, .tx (.accept 2),
   .tx .again, .send 1 [14] false, .tx .again, .tx .again, .tx .again, .tx .again, .tx (.accept 9),
   .tx .again, .tx (.accept 9), .tx .again, .tx (.accept 1), .tx .again, .tx (.accept 5)]
example : (match trun (fun _ => 0) TSt.init C17_demo with
    | .ok st => ((st.conns 1).output, (st.conns 2).output, st.rets, st.queue.length)
    | _ => ([], [], [], 9)) = ([10, 11, 12, 13, 14], [20, 21], [false, false], 0) := by decide +kernel

/-! ## C18 concurrent senders -/

/-- For every interleaving of `send` calls with the transmit loop: if `a` was queued for `s` before
`b`, then in what `s` accepts `a` comes completely before `b`, each contiguous: the output is a prefix
of (what was queued before `a`), `a`, (what was queued in between), `b`, (the rest). -/
theorem C18_no_tearing (g) (pre mid post : List TOp) (s : Nat) (a b : Bytes) (ka kb : Bool) (st : TSt)
    (hrun : trun g TSt.init (pre ++ [.send s a ka] ++ mid ++ [.send s b kb] ++ post) = .ok st) :
    (st.conns s).output <+: (sentTo s pre).flatMap (·.1) ++ a ++ (sentTo s mid).flatMap (·.1) ++ b ++
      (sentTo s post).flatMap (·.1) := by
  have h := C17_output_prefix g _ st hrun s
  simp only [sentTo_append, List.flatMap_append] at h
  simpa [sentTo] using h

/-! ## C19 closing after the last record -/

/-- If a transmit step without kernel error closes connection `s`, then a record queued with the kill
flag caused it, the first such record, and the connection had accepted every byte queued for it up to and
including that record. -/
theorem C19_close_after_last_byte (g) (ops : List TOp) (st : TSt) (hrun : trun g TSt.init ops = .ok st)
    (k : KWrite) (hk : k ≠ .err) (s : Nat) (hv : (st.conns s).valid = true)
    (hclosed : ((txStep st k).conns s).valid = false) :
    ∃ before data after, sentTo s ops = before ++ [(data, true)] ++ after ∧ (∀ x ∈ before, x.2 = false) ∧
      ((txStep st k).conns s).output = before.flatMap (·.1) ++ data := by
  obtain ⟨st1, h1, _, hq, h2⟩ := init_run g ops
  rw [hrun] at h1; cases h1
  cases hpc : st.pc with
  | loop =>
    unfold txStep at hclosed
    rw [hpc] at hclosed
    cases hqq : st.queue <;> simp [hqq, hv] at hclosed
  | partly r => simp [txStep, hpc, hv] at hclosed
  | popped r =>
    have hpend : pending st = r :: st.queue := by simp [pending, hpc]
    have hrd : r.read ≤ r.data.length := hq.1 r (by simp [hpend])
    have hq0 : ∀ x ∈ st.queue, x.read = 0 := by
      intro x hx; exact hq.2 x (by simp [hpend, hx])
    by_cases hs : s = r.sock
    · subst hs
      by_cases hc : (st.conns r.sock).closing = true
      · simp [txStep, hpc, sockWrite, hc, hv] at hclosed
      · have hc' : (st.conns r.sock).closing = false := by simpa using hc
        obtain ⟨done, e1, e2, e3⟩ := (h2 r.sock).healthy ⟨hv, hc'⟩
        have hps : pendingOf r.sock st = r :: st.queue.filter (fun x => x.sock = r.sock) := by
          simp [pendingOf, hpend]
        rw [hps] at e1 e3
        simp only [List.flatMap_cons] at e3
        rw [flatMap_take_zero _ (fun x hx => hq0 x (List.mem_filter.1 hx).1), List.append_nil] at e3
        have hcond : (!(st.conns r.sock).valid || (st.conns r.sock).closing) = false := by simp [hv, hc']
        have hclo : ∀ c : Conn, c.close.output = c.output := by
          intro c; unfold Conn.close; split <;> rfl
        cases k with
        | err => exact absurd rfl hk
        | again =>
          unfold txStep at hclosed ⊢
          rw [hpc] at hclosed ⊢
          simp only [sockWrite, hcond, Bool.false_eq_true, if_false] at hclosed ⊢
          by_cases hne : r.read + 0 ≠ r.data.length
          · rw [if_pos hne] at hclosed; simp [hv] at hclosed
          · rw [if_neg hne] at hclosed ⊢
            by_cases hkill : r.kill = true
            · rw [if_pos hkill]
              refine ⟨done, r.data, (st.queue.filter (fun x => x.sock = r.sock)).map (fun r => (r.data, r.kill)), ?_, e2, ?_⟩
              · rw [e1]; simp [hkill]
              · simp only [upd_self, hclo, e3]
                rw [List.take_of_length_le (by omega)]
            · rw [if_neg hkill] at hclosed; simp [hv] at hclosed
        | accept n =>
          unfold txStep at hclosed ⊢
          rw [hpc] at hclosed ⊢
          simp only [sockWrite, hcond, Bool.false_eq_true, if_false] at hclosed ⊢
          generalize hcnt : min n (r.data.drop r.read).length = cnt at hclosed ⊢
          by_cases hne : r.read + cnt ≠ r.data.length
          · rw [if_pos hne] at hclosed; simp [hv] at hclosed
          · rw [if_neg hne] at hclosed ⊢
            by_cases hkill : r.kill = true
            · rw [if_pos hkill]
              refine ⟨done, r.data, (st.queue.filter (fun x => x.sock = r.sock)).map (fun r => (r.data, r.kill)), ?_, e2, ?_⟩
              · rw [e1]; simp [hkill]
              · simp only [upd_self, hclo, e3, List.append_assoc, ← List.take_add]
                rw [List.take_of_length_le (by omega)]
            · rw [if_neg hkill] at hclosed; simp [hv] at hclosed
    · exfalso
      unfold txStep at hclosed
      rw [hpc] at hclosed
      dsimp only at hclosed
      revert hclosed
      generalize sockWrite k (st.conns r.sock) (r.data.drop r.read) = cs
      obtain ⟨c, sent⟩ := cs
      intro hclosed
      cases sent with
      | none => simp [upd_ne _ _ _ hs, hv] at hclosed
      | some n =>
        dsimp only at hclosed
        split at hclosed
        · simp [upd_ne _ _ _ hs, hv] at hclosed
        · split at hclosed <;> simp [upd_ne _ _ _ hs, hv] at hclosed

/-- And the kill flag is honoured: once everything queued has been transmitted, no connection for
which a kill record was queued is still open (unless its peer hung up first, in which case the receive
side closes it). -/
theorem C19_kill_honoured (g) (ops : List TOp) (st : TSt) (hrun : trun g TSt.init ops = .ok st) (s : Nat)
    (data : Bytes) (hkill : (data, true) ∈ sentTo s ops) (hempty : st.queue = []) (hpc : st.pc = .loop) :
    (st.conns s).valid = false ∨ (st.conns s).closing = true := by
  obtain ⟨st1, h1, _, _, h2⟩ := init_run g ops
  rw [hrun] at h1; cases h1
  cases hv : (st.conns s).valid with
  | false => left; rfl
  | true =>
    cases hc : (st.conns s).closing with
    | true => right; rfl
    | false =>
      obtain ⟨done, e1, e2, e3⟩ := (h2 s).healthy ⟨hv, hc⟩
      simp [pendingOf, pending, hpc, hempty] at e1
      rw [e1] at hkill
      exact absurd (e2 _ hkill) (by simp)

theorem close_closing (c : Conn) : c.close.closing = c.closing := by unfold Conn.close; split <;> rfl

theorem tx_closing (st : TSt) (k : KWrite) (s : Nat) : ((txStep st k).conns s).closing = (st.conns s).closing := by
  have hw : ∀ (c : Conn) d, (sockWrite k c d).1.closing = c.closing := by
    intro c d; unfold sockWrite; split
    · rfl
    · cases k <;> simp [close_closing]
  have hu : ∀ (f : Nat → Conn) (x : Nat) (v : Conn), v.closing = (f x).closing → (upd f x v s).closing = (f s).closing := by
    intro f x v h
    by_cases hs : s = x
    · subst hs; rw [upd_self]; exact h
    · rw [upd_ne _ _ _ hs]
  unfold txStep
  cases st.pc with
  | loop => dsimp only; split <;> rfl
  | partly r => rfl
  | popped r =>
    dsimp only
    have h1 := hw (st.conns r.sock) (r.data.drop r.read)
    revert h1
    generalize sockWrite k (st.conns r.sock) (r.data.drop r.read) = cs
    obtain ⟨c, sent⟩ := cs
    intro h1
    dsimp only at h1 ⊢
    cases sent with
    | none => exact hu _ _ _ h1
    | some n =>
      dsimp only
      split
      · exact hu _ _ _ h1
      · split
        · refine (hu _ _ _ ?_).trans (hu _ _ _ h1)
          rw [close_closing]
        · exact hu _ _ _ h1

theorem tx_closed (st : TSt) (k : KWrite) (s : Nat) (h : (st.conns s).valid = false) : (txStep st k).conns s = st.conns s := by
  unfold txStep
  cases st.pc with
  | loop => dsimp only; split <;> rfl
  | partly r => rfl
  | popped r =>
    dsimp only
    by_cases hs : s = r.sock
    · subst hs
      simp [sockWrite, h]
    · generalize sockWrite k (st.conns r.sock) (r.data.drop r.read) = cs
      obtain ⟨c, sent⟩ := cs
      cases sent with
      | none => simp [upd_ne _ _ _ hs]
      | some n =>
        dsimp only
        split
        · simp [upd_ne _ _ _ hs]
        · split <;> simp [upd_ne _ _ _ hs]

/-- Nothing goes wrong with connection `s`: its peer does not hang up and the kernel reports no errors. -/
def Calm (s : Nat) (ops : List TOp) : Prop :=
  .hangup s ∉ ops ∧ (∀ k1 k2, .receive s k1 k2 ∈ ops → k1 ≠ .err ∧ k2 ≠ .err) ∧ .tx .err ∉ ops

/-- If nothing goes wrong, a connection is closed only for the first record queued for it with the kill flag, and then its
peer gets everything up to and including that record, and nothing else, however the rest of the run goes. -/
theorem C19_orderly (g) (ops : List TOp) (st : TSt) (hrun : trun g TSt.init ops = .ok st) (s : Nat) (hc : Calm s ops) :
    (st.conns s).closing = false ∧
    ((st.conns s).valid = false → ∃ before data after, sentTo s ops = before ++ [(data, true)] ++ after ∧ (∀ x ∈ before, x.2 = false) ∧
      (st.conns s).output = before.flatMap (·.1) ++ data) := by
  induction ops using list_snoc_ind generalizing st with
  | h0 => cases hrun; exact ⟨rfl, fun h => by cases h⟩
  | h1 ops op ih =>
    rw [trun_append] at hrun
    obtain ⟨st1, h1, hr, hq, _⟩ := init_run g ops
    rw [h1] at hrun
    obtain ⟨ih1, ih2⟩ := ih st1 h1 ⟨fun h => hc.1 (by simp [h]), fun k1 k2 h => hc.2.1 k1 k2 (by simp [h]), fun h => hc.2.2 (by simp [h])⟩
    have hst : op.step g st1 = .ok st := by
      simp only [Res.ok_bind, trun] at hrun
      cases hh : op.step g st1 with
      | ok y => rw [hh] at hrun; exact hrun
      | _ => rw [hh] at hrun; cases hrun
    clear hrun
    -- the rest of the run does not matter
    have grow : ∀ (x : List (Bytes × Bool)), (∃ before data after, sentTo s ops = before ++ [(data, true)] ++ after ∧ (∀ x ∈ before, x.2 = false) ∧
        (st1.conns s).output = before.flatMap (·.1) ++ data) → (st.conns s).output = (st1.conns s).output → sentTo s [op] = x →
        ∃ before data after, sentTo s (ops ++ [op]) = before ++ [(data, true)] ++ after ∧ (∀ x ∈ before, x.2 = false) ∧
          (st.conns s).output = before.flatMap (·.1) ++ data := by
      rintro x ⟨be, d, af, e1, e2, e3⟩ e4 e5
      exact ⟨be, d, af ++ x, by rw [sentTo_append, e1, e5]; simp, e2, by rw [e4, e3]⟩
    have same : st.conns s = st1.conns s → _ := fun h => (⟨by rw [h]; exact ih1, fun hv => grow _ (ih2 (by rw [← h]; exact hv)) (by rw [h]) rfl⟩ :
      (st.conns s).closing = false ∧ ((st.conns s).valid = false → ∃ before data after, sentTo s (ops ++ [op]) = before ++ [(data, true)] ++ after ∧
        (∀ x ∈ before, x.2 = false) ∧ (st.conns s).output = before.flatMap (·.1) ++ data))
    cases op with
    | hangup s' =>
      have hne : s ≠ s' := fun h => hc.1 (by simp [h])
      simp only [TOp.step, Res.ok.injEq] at hst; subst hst
      exact same (upd_ne _ _ _ hne)
    | arrive s' d =>
      simp only [TOp.step, Res.ok.injEq] at hst; subst hst
      by_cases hs : s = s'
      · subst hs
        refine ⟨by simp only [upd_self]; exact ih1, fun hv => ?_⟩
        simp only [upd_self] at hv
        exact grow _ (ih2 hv) (by simp only [upd_self]) rfl
      · exact same (upd_ne _ _ _ hs)
    | send s' d k =>
      simp only [TOp.step, Res.ok.injEq] at hst; subst hst
      exact same rfl
    | receive s' k1 k2 =>
      simp only [TOp.step] at hst
      by_cases hv : (st1.conns s').valid = true
      · obtain ⟨st2, h2, out⟩ := receive_spec g st1 s' k1 k2 hv (hr s').1
        rw [hst] at h2; cases h2
        by_cases hs : s = s'
        · subst hs
          have hno : ¬ (k1 = .err ∨ k2 = .err ∨ (st1.conns s).closing = true) := by
            have := hc.2.1 k1 k2 (by simp)
            rw [ih1]; simp [this]
          obtain ⟨data, _, hm⟩ := out.main
          refine ⟨by rw [out.output.2]; exact ih1, fun hv' => ?_⟩
          rcases hm with ⟨hm, _⟩ | ⟨hm, _⟩ | ⟨hm, _⟩
          · rw [hm] at hv'; cases hv'
          · rw [hm] at hv'; cases hv'
          · exact absurd hm hno
        · exact same (out.frame s hs).1
      · unfold Model.receive at hst
        rw [if_neg hv] at hst
        cases hst
        exact same rfl
    | tx k =>
      have hk : k ≠ .err := fun h => hc.2.2 (by simp [h])
      simp only [TOp.step, Res.ok.injEq] at hst; subst hst
      by_cases hv : (st1.conns s).valid = true
      · refine ⟨by rw [tx_closing]; exact ih1, fun hv' => ?_⟩
        obtain ⟨be, d, af, e1, e2, e3⟩ := C19_close_after_last_byte g ops st1 h1 k hk s hv hv'
        exact ⟨be, d, af, by rw [sentTo_append, e1]; simp [sentTo], e2, e3⟩
      · exact same (tx_closed st1 k s (by simpa using hv))

/-- While nobody hangs up and no read or write fails, the connection is never reported as gone. -/
theorem calm_never_gone (g) (ops : List TOp) (st : TSt) (hrun : trun g TSt.init ops = .ok st) (s : Nat) (hc : Calm s ops) :
    goneMsg s ∉ msgsOf s st := by
  induction ops using list_snoc_ind generalizing st with
  | h0 => cases hrun; simp [msgsOf, TSt.init]
  | h1 ops op ih =>
    rw [trun_append] at hrun
    obtain ⟨st1, h1, hr, hq, _⟩ := init_run g ops
    rw [h1] at hrun
    have hc' : Calm s ops := ⟨fun h => hc.1 (by simp [h]), fun k1 k2 h => hc.2.1 k1 k2 (by simp [h]), fun h => hc.2.2 (by simp [h])⟩
    have ih := ih st1 h1 hc'
    have ih1 := (C19_orderly g ops st1 h1 s hc').1
    have hst : op.step g st1 = .ok st := by
      simp only [Res.ok_bind, trun] at hrun
      cases hh : op.step g st1 with
      | ok y => rw [hh] at hrun; exact hrun
      | _ => rw [hh] at hrun; cases hrun
    clear hrun
    have same : st.msgs = st1.msgs → goneMsg s ∉ msgsOf s st := fun h => by simpa only [msgsOf, h] using ih
    cases op with
    | hangup s' => simp only [TOp.step, Res.ok.injEq] at hst; subst hst; exact same rfl
    | arrive s' d => simp only [TOp.step, Res.ok.injEq] at hst; subst hst; exact same rfl
    | send s' d k => simp only [TOp.step, Res.ok.injEq] at hst; subst hst; exact same rfl
    | tx k =>
      simp only [TOp.step, Res.ok.injEq] at hst; subst hst
      refine same ?_
      unfold txStep
      repeat' split
      all_goals first | rfl | (dsimp only; repeat' split) <;> rfl
    | receive s' k1 k2 =>
      simp only [TOp.step] at hst
      by_cases hv : (st1.conns s').valid = true
      · obtain ⟨st2, h2, out⟩ := receive_spec g st1 s' k1 k2 hv (hr s').1
        rw [hst] at h2; cases h2
        obtain ⟨data, _, hm⟩ := out.main
        rcases hm with ⟨_, hm, _⟩ | ⟨_, _, c3, c4⟩ | ⟨c0, _, _, c3⟩
        · exact same hm
        · rw [msgsOf_append s st1 st _ c4]
          intro hh
          rcases List.mem_append.1 hh with hh | hh
          · exact ih hh
          · split at hh
            · simp only [List.mem_singleton] at hh
              have := congrArg Msg.data hh
              simp only [goneMsg, recMsg] at this
              rw [← this] at c3
              have := c3.1
              simp at this
            · cases hh
        · rw [msgsOf_append s st1 st _ c3]
          intro hh
          rcases List.mem_append.1 hh with hh | hh
          · exact ih hh
          · split at hh
            · rename_i he
              simp only [goneMsg] at he
              subst he
              have := hc.2.1 k1 k2 (by simp)
              rw [ih1] at c0
              simp [this] at c0
            · cases hh
      · unfold Model.receive at hst
        rw [if_neg hv] at hst
        cases hst
        exact ih

example : Calm 1 [.send 1 [10, 11] false, .send 1 [12, 13] true, .tx .again, .tx (.accept 9), .tx .again, .tx (.accept 1), .tx .again,
    .tx .again, .tx (.accept 1)] := ⟨by simp, by simp, by simp⟩
example : (match trun (fun _ => 0) TSt.init [.send 1 [10, 11] false, .send 1 [12, 13] true, .tx .again,
      .tx (.accept 9), .tx .again, .tx (.accept 1), .tx .again, .tx .again] with
    | .ok st => ((st.conns 1).valid, (st.conns 1).output, (txStep st (.accept 1)).conns 1)
    | _ => (false, [], {})) = (true, [10, 11, 12], ⟨false, false, [], [10, 11, 12, 13]⟩) := by decide +kernel

/-! ## C104 one peer that does not read -/

def TOp.stalledStep (a : Nat) : TOp → Bool
  | .hangup s => s != a
  | .receive s _ _ => s != a
  | .tx k => k == .again
  | _ => true

theorem run_snoc (g) (ops : List TOp) (op : TOp) (st st' : TSt) (h : trun g st (ops ++ [op]) = .ok st') :
    ∃ st1, trun g st ops = .ok st1 ∧ op.step g st1 = .ok st' := by
  rw [trun_append] at h
  cases h1 : trun g st ops with
  | ok st1 =>
    rw [h1] at h
    simp only [Res.ok_bind, trun] at h
    cases h2 : op.step g st1 with
    | ok y => rw [h2] at h; exact ⟨st1, rfl, h2.trans h⟩
    | _ => rw [h2] at h; cases h
  | _ => rw [h1] at h; cases h

/-- False of the code: once a record for connection `a` is the next to be written and the kernel takes none of it, because the
peer of `a` does not read, nothing is written to any connection any more, whatever else arrives and is sent, as long
as this is so. -/
theorem C104_violated (g) (pre post : List TOp) (a : Nat) (data : Bytes) (kill : Bool) (st0 st : TSt)
    (hpre : trun g TSt.init pre = .ok st0) (hq : st0.queue = []) (hpc : st0.pc = .loop)
    (hv : (st0.conns a).valid = true) (hcl : (st0.conns a).closing = false) (hd : data ≠ [])
    (hpost : post.all (TOp.stalledStep a) = true)
    (hrun : trun g TSt.init (pre ++ .send a data kill :: post) = .ok st) :
    ∀ c, (st.conns c).output = (st0.conns c).output := by
  suffices H : (∃ rest, pending st = ⟨a, data, 0, kill⟩ :: rest) ∧ (st.conns a).healthy ∧ ∀ c, (st.conns c).output = (st0.conns c).output from H.2.2
  induction post using list_snoc_ind generalizing st with
  | h0 =>
    rw [trun_append, hpre] at hrun
    simp only [Res.ok_bind, trun, TOp.step, Res.ok.injEq] at hrun
    subst hrun
    exact ⟨⟨[], by simp [pending, Model.send, hq, hpc]⟩, ⟨hv, hcl⟩, fun c => rfl⟩
  | h1 post op ih =>
    have e : pre ++ TOp.send a data kill :: (post ++ [op]) = (pre ++ .send a data kill :: post) ++ [op] := by simp
    rw [e] at hrun
    obtain ⟨st1, h1, h2⟩ := run_snoc g _ op _ st hrun
    simp only [List.all_append, List.all_cons, List.all_nil, Bool.and_true, Bool.and_eq_true] at hpost
    obtain ⟨⟨rest, i1⟩, i2, i3⟩ := ih st1 hpost.1 h1
    obtain ⟨st2, hi, hr, _, _⟩ := init_run g (pre ++ .send a data kill :: post)
    rw [h1] at hi; cases hi
    have hop := hpost.2
    cases op with
    | hangup s =>
      have hne : a ≠ s := by
        intro hh; subst hh; simp [TOp.stalledStep] at hop
      simp only [TOp.step, Res.ok.injEq] at h2; subst h2
      refine ⟨⟨rest, i1⟩, ?_, fun c => ?_⟩
      · simp only [upd_ne _ _ _ hne]; exact i2
      · rw [← i3 c]; by_cases hc : c = s
        · subst hc; simp
        · simp [upd_ne _ _ _ hc]
    | arrive s d =>
      simp only [TOp.step, Res.ok.injEq] at h2; subst h2
      refine ⟨⟨rest, i1⟩, ?_, fun c => ?_⟩
      · by_cases hc : a = s
        · subst hc; simp only [upd_self]; exact i2
        · simp only [upd_ne _ _ _ hc]; exact i2
      · rw [← i3 c]; by_cases hc : c = s
        · subst hc; simp
        · simp [upd_ne _ _ _ hc]
    | send s d k =>
      simp only [TOp.step, Res.ok.injEq] at h2; subst h2
      refine ⟨⟨rest ++ [⟨s, d, 0, k⟩], ?_⟩, i2, i3⟩
      unfold pending at i1 ⊢
      cases hp : st1.pc <;> rw [hp] at i1 <;> simp_all [Model.send]
    | receive s k1 k2 =>
      have hne : a ≠ s := by
        intro hh; subst hh; simp [TOp.stalledStep] at hop
      simp only [TOp.step] at h2
      by_cases hvs : (st1.conns s).valid = true
      · obtain ⟨st3, h3, out⟩ := receive_spec g st1 s k1 k2 hvs (hr s).1
        rw [h2] at h3; cases h3
        refine ⟨⟨rest, ?_⟩, ?_, fun c => ?_⟩
        · rw [← i1]; unfold pending; rw [out.queue.1, out.queue.2.1]
        · rw [(out.frame a hne).1]; exact i2
        · rw [← i3 c]; by_cases hc : c = s
          · subst hc; exact out.output.1
          · rw [(out.frame c hc).1]
      · unfold Model.receive at h2
        rw [if_neg hvs] at h2
        cases h2
        exact ⟨⟨rest, i1⟩, i2, i3⟩
    | tx k =>
      have hk : k = .again := by simpa [TOp.stalledStep] using hop
      subst hk
      simp only [TOp.step, Res.ok.injEq] at h2; subst h2
      have hlen : (0 : Nat) + 0 ≠ data.length := by
        intro h; exact hd (List.length_eq_zero_iff.1 (by omega))
      cases hp : st1.pc with
      | loop =>
        have i1' : st1.queue = ⟨a, data, 0, kill⟩ :: rest := by simpa [pending, hp] using i1
        refine ⟨⟨rest, ?_⟩, ?_, fun c => ?_⟩
        · simp [txStep, hp, i1', pending]
        · simp only [txStep, hp, i1']; exact i2
        · simp only [txStep, hp, i1']; exact i3 c
      | partly r =>
        have i1' : r = ⟨a, data, 0, kill⟩ ∧ st1.queue = rest := by simpa [pending, hp] using i1
        refine ⟨⟨rest, ?_⟩, ?_, fun c => ?_⟩
        · simp [txStep, hp, i1', pending]
        · simp only [txStep, hp]; exact i2
        · simp only [txStep, hp]; exact i3 c
      | popped r =>
        have i1' : r = ⟨a, data, 0, kill⟩ ∧ st1.queue = rest := by simpa [pending, hp] using i1
        obtain ⟨rfl, rfl⟩ := i1'
        have hcond : (!(st1.conns a).valid || (st1.conns a).closing) = false := by simp [i2.1, i2.2]
        have e1 : txStep st1 .again = { st1 with conns := upd st1.conns a (st1.conns a), pc := .partly ⟨a, data, 0, kill⟩ } := by
          simp only [txStep, hp, sockWrite, hcond, Bool.false_eq_true, if_false]
          rw [if_pos hlen]
        have e2 : upd st1.conns a (st1.conns a) = st1.conns := by
          funext x; unfold upd; split
          · rename_i hx; rw [hx]
          · rfl
        rw [e1, e2]
        exact ⟨⟨st1.queue, by simp [pending]⟩, i2, i3⟩

/-- For example, connection 1 would take everything, but gets nothing. -/
example : (match trun (fun _ => 0) TSt.init ([.send 2 [9] false] ++ .send 1 [10, 11] false ::
      (List.replicate 20 (TOp.tx .again))) with
    | .ok st => (st.rets.length, (st.conns 1).output, (st.conns 1).valid)
    | _ => (0, [], false)) = (6, [], true) := by decide +kernel
example : [TOp.send 1 [10, 11] false, .tx .again, .tx .again, .arrive 1 [1], .receive 1 (.give 1) .again].all (TOp.stalledStep 2) = true := by decide

/-- How much is left to be done by `transmit()`. -/
def txWork (st : TSt) : Nat :=
  3 * ((pending st).map fun r => r.data.length - r.read + 1).sum + match st.pc with | .loop => 2 | .popped _ => 1 | .partly _ => 3

theorem tx_progress (st : TSt) (k : KWrite) (hq : QInv st) (hk : ∃ n, k = .accept (n + 1)) (hn : ¬ (st.queue = [] ∧ st.pc = .loop)) :
    txWork (txStep st k) < txWork st := by
  obtain ⟨n, rfl⟩ := hk
  cases hp : st.pc with
  | loop =>
    cases hq : st.queue with
    | nil => exact absurd ⟨hq, hp⟩ hn
    | cons r q => simp [txWork, txStep, hp, hq, pending]
  | partly r => simp [txWork, txStep, hp, pending]
  | popped r =>
    simp only [txStep, hp]
    cases hc : (!(st.conns r.sock).valid || (st.conns r.sock).closing) with
    | true =>
      simp only [sockWrite, hc, if_true]
      simp only [txWork, hp, pending, List.map_cons, List.sum_cons]; omega
    | false =>
      simp only [sockWrite, hc, Bool.false_eq_true, if_false]
      split
      · rename_i hne
        simp only [txWork, hp, pending, List.map_cons, List.sum_cons]
        simp only [List.length_drop] at hne ⊢
        have := hq.reads r (by simp [pending, hp])
        omega
      · split
        · simp only [txWork, hp, pending, List.map_cons, List.sum_cons]; omega
        · simp only [txWork, hp, pending, List.map_cons, List.sum_cons]; omega

theorem tx_rest (st : TSt) (k : KWrite) (h : st.queue = [] ∧ st.pc = .loop) : (txStep st k).queue = [] ∧ (txStep st k).pc = .loop := by
  unfold txStep
  rw [h.2]
  dsimp only
  rw [h.1]
  exact ⟨rfl, rfl⟩

/-- True if all peers read: if the kernel takes at least one byte at each attempt, then after finitely many steps of `transmit()` everything
queued has been dealt with (by C17 written completely to every open connection). -/
theorem C104_partial (g) (ops : List TOp) (ks : Nat → KWrite) (hk : ∀ i, ∃ n, ks i = .accept (n + 1)) :
    ∃ N, ∀ n, N ≤ n → ∃ st, trun g TSt.init (ops ++ (List.range n).map fun i => TOp.tx (ks i)) = .ok st ∧ st.queue = [] ∧ st.pc = .loop := by
  obtain ⟨st0, h0, _, _, _⟩ := init_run g ops
  have key : ∀ n, ∃ st, trun g TSt.init (ops ++ (List.range n).map fun i => TOp.tx (ks i)) = .ok st ∧
      ((st.queue = [] ∧ st.pc = .loop) ∨ txWork st + n ≤ txWork st0) := by
    intro n
    induction n with
    | zero => exact ⟨st0, by simpa using h0, Or.inr (by simp)⟩
    | succ n ih =>
      obtain ⟨st, h1, h2⟩ := ih
      obtain ⟨st', h1', _, hq, _⟩ := init_run g (ops ++ (List.range n).map fun i => TOp.tx (ks i))
      rw [h1] at h1'; cases h1'
      refine ⟨txStep st (ks n), ?_, ?_⟩
      · rw [List.range_succ, List.map_append, ← List.append_assoc, trun_append, h1]
        rfl
      · by_cases hh : st.queue = [] ∧ st.pc = .loop
        · exact Or.inl (tx_rest st _ hh)
        · rcases h2 with h2 | h2
          · exact absurd h2 hh
          · right
            have := tx_progress st (ks n) hq (hk n) hh
            omega
  refine ⟨txWork st0, fun n hn => ?_⟩
  obtain ⟨st, h1, h2⟩ := key n
  refine ⟨st, h1, ?_⟩
  rcases h2 with h2 | h2
  · exact h2
  · exfalso
    have : 0 < txWork st := by unfold txWork; split <;> omega
    omega

/-! Concrete runs that meet the hypotheses above (`C11_read_error`, `C11_hangup_partial`, `C17_flushed`, `C19_*`). -/
example : (match trun (fun _ => 1) TSt.init [.arrive 3 [1, 5, 0], .receive 3 (.give 9) .again, .hangup 3] with
    | .ok st => ((st.conns 3).valid, (st.conns 3).closing, (st.conns 3).input)
    | _ => (false, false, [])) = (true, true, []) := by decide +kernel
/-- A record sent in two pieces, then an empty queue: `transmit` returns `true`. -/
example : ∃ st, trun (fun _ => 1) TSt.init [.send 3 [1, 2] false, .tx (.accept 9), .tx (.accept 1), .tx (.accept 1), .tx (.accept 1), .tx (.accept 9)] = .ok st ∧
    (txStep st (.accept 9)).rets = st.rets ++ [true] ∧ (st.conns 3).valid = true ∧ (st.conns 3).closing = false ∧ (st.conns 3).output = [1, 2] := by
  refine ⟨_, rfl, ?_⟩; decide +kernel
/-- Two records, the second with the kill flag: the last byte closes the connection. -/
example : ∃ st, trun (fun _ => 1) TSt.init [.send 3 [1, 2] false, .send 3 [4, 5] true, .tx (.accept 9), .tx (.accept 9), .tx (.accept 9)] = .ok st ∧
    (st.conns 3).valid = true ∧ ((txStep st (.accept 9)).conns 3).valid = false ∧ ((txStep st (.accept 9)).conns 3).output = [1, 2, 4, 5] ∧ (txStep st (.accept 9)).queue = [] := by
  refine ⟨_, rfl, ?_⟩; decide +kernel
example : Calm 3 [.send 3 [1, 2] false, .send 3 [4, 5] true, .tx (.accept 9), .tx (.accept 9), .tx (.accept 9), .tx (.accept 9)] := by
  refine ⟨by decide +kernel, fun k1 k2 h => ?_, by decide +kernel⟩
  simp at h

end Fcgi.Props
