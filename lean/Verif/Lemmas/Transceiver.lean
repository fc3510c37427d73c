import Verif.Lemmas.Receive
import Verif.Spec.TransceiverTerms
namespace Fcgi.Model
open Fcgi.Spec

/-! ### Decoding of streams is unique -/

theorem Record.bytes_length (r : Record) : r.bytes.length = 8 + r.content.length + r.padding.length := by
  simp [Record.bytes, beDigits]; omega

theorem Record.framed (r : Record) (h : r.WF) : framedLength r.bytes = r.bytes.length := by
  obtain ⟨h1, h2, h3⟩ := h
  rw [Record.bytes_length]
  simp [Record.bytes, framedLength, beDigits, beValue]
  omega

theorem Record.frameId (r : Record) (h : r.WF) : frameId r.bytes = r.id := by
  obtain ⟨h1, h2, h3⟩ := h
  simp [Record.bytes, Spec.frameId, beDigits, beValue]
  omega

theorem Record.complete (r : Record) (h : r.WF) : Complete r.bytes :=
  ⟨by rw [Record.bytes_length]; omega, (Record.framed r h).symm⟩

theorem Complete.unique {a b x y : Bytes} (ha : Complete a) (hb : Complete b) (h : a ++ x = b ++ y) :
    a = b ∧ x = y := by
  have h1 := framedLength_append a x ha.1
  have h2 := framedLength_append b y hb.1
  rw [h] at h1
  exact List.append_inj h (by rw [ha.2, hb.2]; omega)

theorem Complete.not_prefix {a x t : Bytes} (ha : Complete a) (ht : Incomplete t) (h : a ++ x = t) : False := by
  have h1 := framedLength_append a x ha.1
  have h2 := congrArg List.length h
  have := ha.1; have := ha.2
  simp at h2
  rw [h] at h1
  rcases ht with ht | ht <;> omega

theorem decode_prefix (ds : List Bytes) (rs : List Record) (rest tail : Bytes)
    (hd : ∀ d ∈ ds, Complete d) (hr : ∀ r ∈ rs, r.WF) (ht : Incomplete tail)
    (h : ds.flatten ++ rest = stream rs ++ tail) :
    ∃ k ≤ rs.length, ds = (rs.take k).map Record.bytes ∧ rest = stream (rs.drop k) ++ tail := by
  induction ds generalizing rs with
  | nil => exact ⟨0, by omega, by simp, by simpa using h⟩
  | cons d ds ih =>
    cases rs with
    | nil =>
      simp only [List.flatten_cons, stream, List.flatMap_nil, List.nil_append, List.append_assoc] at h
      exact absurd h (fun h => Complete.not_prefix (hd d (by simp)) ht h)
    | cons r rs =>
      simp only [List.flatten_cons, stream, List.flatMap_cons, List.append_assoc] at h
      obtain ⟨hdr, h'⟩ := Complete.unique (hd d (by simp)) (Record.complete r (hr r (by simp))) h
      subst hdr
      obtain ⟨k, hk, h1, h2⟩ := ih rs (fun d hd' => hd d (by simp [hd'])) (fun r hr' => hr r (by simp [hr'])) h'
      exact ⟨k+1, by simpa using hk, by simp [h1], by simpa using h2⟩

theorem decode_exhausted (rs : List Record) (b tail : Bytes) (hr : ∀ r ∈ rs, r.WF) (hb : Incomplete b)
    (h : b = stream rs ++ tail) : rs = [] ∧ b = tail := by
  cases rs with
  | nil => simpa [stream] using h
  | cons r rs =>
    simp only [stream, List.flatMap_cons, List.append_assoc] at h
    exact absurd h.symm (fun h => Complete.not_prefix (Record.complete r (hr r (by simp))) hb h)

/-! ### Histories -/

structure RInv (A : Bytes) (s : Nat) (st : TSt) : Prop where
  buf : BufInv (st.buffers s)
  main : ∃ (ds : List Bytes) (gs : List Msg), (∀ d ∈ ds, Complete d) ∧ msgsOf s st = ds.map (recMsg s) ++ gs ∧
    ds.flatten <+: A ∧
    ((gs = [] ∧ ((st.conns s).valid = true → ds.flatten ++ ((st.buffers s).bytes ++ (st.conns s).input) = A)) ∨
     (gs = [goneMsg s] ∧ (st.conns s).valid = false))

theorem BufInv.empty : BufInv .empty := ⟨by simp [Block.empty], Or.inl (by simp [Block.empty])⟩

theorem BufInv.incomplete {b : Block} (h : BufInv b) : Incomplete b.bytes := by
  obtain ⟨h1, h2⟩ := h
  rcases h2 with h2 | h2
  · left; rw [Block.bytes_length h1]; exact h2
  · right; rw [Block.bytes_length h1, ← h2.1]; exact h2.2

theorem RInv.congr {A s st st'} (h : RInv A s st) (hb : st'.buffers s = st.buffers s)
    (hc : st'.conns s = st.conns s) (hm : msgsOf s st' = msgsOf s st) : RInv A s st' := by
  obtain ⟨h1, h2⟩ := h
  refine ⟨by rw [hb]; exact h1, ?_⟩
  rw [hb, hc, hm]
  exact h2

theorem msgsOf_append (s : Nat) (st st' : TSt) (m : Msg) (h : st'.msgs = st.msgs ++ [m]) :
    msgsOf s st' = msgsOf s st ++ (if m.id.socket = s then [m] else []) := by
  simp only [msgsOf, h, List.filter_append]
  congr 1
  simp [List.filter_cons]

/-- The receiving side of every step. -/
theorem RInv.step (g) {A : Nat → Bytes} {st : TSt} (op : TOp) (h : ∀ s, RInv (A s) s st) :
    ∃ st', op.step g st = .ok st' ∧ ∀ s, RInv (A s ++ arrived s [op]) s st' := by
  cases op with
  | hangup t =>
    refine ⟨_, rfl, fun s => ?_⟩
    obtain ⟨hb, ds, gs, h1, h2, h3, h4⟩ := h s
    simp only [arrived, List.flatMap_cons, List.flatMap_nil, List.append_nil]
    refine ⟨hb, ds, gs, h1, h2, h3, ?_⟩
    by_cases hs : s = t
    · subst hs; simpa using h4
    · simpa [upd_ne _ _ _ hs] using h4
  | arrive t d =>
    refine ⟨_, rfl, fun s => ?_⟩
    obtain ⟨hb, ds, gs, h1, h2, h3, h4⟩ := h s
    simp only [arrived, List.flatMap_cons, List.flatMap_nil, List.append_nil]
    by_cases hs : t = s
    · subst hs
      simp only [if_true]
      refine ⟨hb, ds, gs, h1, h2, h3.trans (List.prefix_append _ _), ?_⟩
      rcases h4 with ⟨hg, h4⟩ | h4
      · refine Or.inl ⟨hg, fun hv => ?_⟩
        simp only [upd_self] at hv ⊢
        rw [← h4 hv]
        simp
      · exact Or.inr (by simpa using h4)
    · simp only [if_neg hs, List.append_nil]
      refine ⟨hb, ds, gs, h1, h2, h3, ?_⟩
      have hs' : s ≠ t := fun e => hs e.symm
      simpa [upd_ne _ _ _ hs'] using h4
  | send t d k =>
    refine ⟨_, rfl, fun s => ?_⟩
    simp only [arrived, List.flatMap_cons, List.flatMap_nil, List.append_nil]
    exact (h s).congr rfl rfl rfl
  | receive t k1 k2 =>
    by_cases hv : (st.conns t).valid = true
    · obtain ⟨st', hst', out⟩ := receive_spec g st t k1 k2 hv (h t).buf
      refine ⟨st', hst', fun s => ?_⟩
      simp only [arrived, List.flatMap_cons, List.flatMap_nil, List.append_nil]
      by_cases hs : s = t
      · subst hs
        obtain ⟨hb, ds, gs, h1, h2, h3, h4⟩ := h s
        rcases h4 with ⟨rfl, h4⟩ | h4
        · have h4 := h4 hv
          obtain ⟨data, hin, hcase⟩ := out.main
          rw [hin] at h4
          rcases hcase with ⟨c1, c2, c3, c4⟩ | ⟨c1, c2, c3, c4⟩ | ⟨c0, c1, c2, c3⟩
          · refine ⟨c4, ds, [], h1, ?_, h3, Or.inl ⟨rfl, fun _ => ?_⟩⟩
            · simpa [msgsOf, c2] using h2
            · rw [c3, ← h4]; simp
          · refine ⟨by rw [c2]; exact BufInv.empty, ds ++ [(st.buffers s).bytes ++ data], [], ?_, ?_, ?_,
              Or.inl ⟨rfl, fun _ => ?_⟩⟩
            · intro d hd
              simp only [List.mem_append, List.mem_singleton] at hd
              rcases hd with hd | rfl
              · exact h1 d hd
              · exact c3
            · rw [msgsOf_append s st st' _ c4, h2]
              simp [recMsg]
            · rw [← h4]
              refine ⟨(st'.conns s).input, ?_⟩
              simp
            · rw [c2, ← h4]; simp [Block.empty, Block.bytes]
          · refine ⟨by rw [c2]; exact BufInv.empty, ds, [goneMsg s], h1, ?_, h3, Or.inr ⟨rfl, c1⟩⟩
            rw [msgsOf_append s st st' _ c3, h2]
            simp [goneMsg]
        · exact absurd hv (by simp [h4.2])
      · obtain ⟨f1, f2⟩ := out.frame s hs
        refine (h s).congr f2 f1 ?_
        obtain ⟨data, hin, hcase⟩ := out.main
        have hs' : ¬ t = s := fun e => hs e.symm
        rcases hcase with ⟨c1, c2, c3, c4⟩ | ⟨c1, c2, c3, c4⟩ | ⟨c0, c1, c2, c3⟩
        · simp [msgsOf, c2]
        · rw [msgsOf_append s st st' _ c4]; simp [hs']
        · rw [msgsOf_append s st st' _ c3]; simp [hs']
    · refine ⟨st, ?_, fun s => ?_⟩
      · simp [TOp.step, receive, hv]
      · simpa [arrived] using h s
  | tx k =>
    refine ⟨_, rfl, fun s => ?_⟩
    simp only [arrived, List.flatMap_cons, List.flatMap_nil, List.append_nil]
    have hcl : ∀ c : Conn, c.close.input = c.input ∧ c.close.valid = false := by
      intro c; unfold Conn.close; split <;> simp_all
    have hw : ∀ (c : Conn) (d : Bytes), (sockWrite k c d).1.input = c.input ∧
        ((sockWrite k c d).1.valid = true → c.valid = true) := by
      intro c d
      unfold sockWrite
      split
      · simp
      · cases k <;> simp [hcl]
    have weaken : ∀ st' : TSt, msgsOf s st' = msgsOf s st → st'.buffers s = st.buffers s →
        (st'.conns s).input = (st.conns s).input →
        ((st'.conns s).valid = true → (st.conns s).valid = true) → RInv (A s) s st' := by
      intro st' e1 e2 e3 e4
      obtain ⟨hb, ds, gs, h1, h2, h3, h4⟩ := h s
      refine ⟨by rw [e2]; exact hb, ds, gs, h1, by rw [e1, h2], h3, ?_⟩
      rcases h4 with ⟨hg, h4⟩ | ⟨hg, h4⟩
      · exact Or.inl ⟨hg, fun hv => by rw [e2, e3]; exact h4 (e4 hv)⟩
      · refine Or.inr ⟨hg, ?_⟩
        cases hv : (st'.conns s).valid with
        | false => rfl
        | true => exact absurd (e4 hv) (by simp [h4])
    unfold txStep
    split
    · split
      · exact weaken _ rfl rfl rfl id
      · exact weaken _ rfl rfl rfl id
    · rename_i r hpc
      have hwr := hw (st.conns r.sock) (r.data.drop r.read)
      generalize hs : sockWrite k (st.conns r.sock) (r.data.drop r.read) = cs at *
      obtain ⟨c, sent⟩ := cs
      dsimp only at hwr ⊢
      have hone : ∀ (q pc), RInv (A s) s { st with conns := upd st.conns r.sock c, queue := q, pc := pc } := by
        intro q pc
        by_cases hrs : s = r.sock
        · subst hrs
          exact weaken _ rfl rfl (by simpa using hwr.1) (by simpa using hwr.2)
        · exact weaken _ rfl rfl (by simp [upd_ne _ _ _ hrs]) (by simp [upd_ne _ _ _ hrs])
      cases sent with
      | none => exact hone _ _
      | some n =>
        dsimp only
        split
        · exact hone _ _
        · split
          · simp only [upd_self, upd_upd]
            by_cases hrs : s = r.sock
            · subst hrs
              obtain ⟨hb, ds, gs, h1, h2, h3, h4⟩ := h r.sock
              refine ⟨by simp only [upd_self]; exact BufInv.empty, ds, gs, h1, h2, h3, ?_⟩
              simp only [upd_self, (hcl c).2]
              rcases h4 with h4 | h4
              · exact Or.inl ⟨h4.1, by simp⟩
              · exact Or.inr ⟨h4.1, trivial⟩
            · exact weaken _ rfl (by simp [upd_ne _ _ _ hrs]) (by simp [upd_ne _ _ _ hrs])
                (by simp [upd_ne _ _ _ hrs])
          · exact hone _ _
    · exact weaken _ rfl rfl rfl id

theorem arrived_cons (s op ops) : arrived s (op :: ops) = arrived s [op] ++ arrived s ops := by
  simp [arrived]

theorem RInv.run (g) (ops : List TOp) : ∀ {A : Nat → Bytes} {st : TSt}, (∀ s, RInv (A s) s st) →
    ∃ st', trun g st ops = .ok st' ∧ ∀ s, RInv (A s ++ arrived s ops) s st' := by
  induction ops with
  | nil => intro A st h; exact ⟨st, rfl, by simpa [arrived] using h⟩
  | cons op ops ih =>
    intro A st h
    obtain ⟨st1, h1, h2⟩ := RInv.step g op h
    obtain ⟨st', h3, h4⟩ := ih h2
    refine ⟨st', by simp [trun, h1, h3], fun s => ?_⟩
    rw [arrived_cons, ← List.append_assoc]
    exact h4 s

/-! ### The transmitting side -/

/-- The connection still accepts our output. -/
def Conn.healthy (c : Conn) : Prop := c.valid = true ∧ c.closing = false

structure XInv (S : List (Bytes × Bool)) (s : Nat) (st : TSt) : Prop where
  pre : (st.conns s).output <+: S.flatMap (·.1)
  healthy : (st.conns s).healthy → ∃ done, S = done ++ (pendingOf s st).map (fun r => (r.data, r.kill)) ∧
    (∀ d ∈ done, d.2 = false) ∧
    (st.conns s).output = done.flatMap (·.1) ++ (pendingOf s st).flatMap (fun r => r.data.take r.read)

structure QInv (st : TSt) : Prop where
  reads : ∀ r ∈ pending st, r.read ≤ r.data.length
  tail : ∀ r ∈ (pending st).tail, r.read = 0

theorem flatMap_take_zero (l : List SRec) (h : ∀ r ∈ l, r.read = 0) :
    l.flatMap (fun r => r.data.take r.read) = [] := by
  induction l with
  | nil => rfl
  | cons r l ih =>
    simp only [List.flatMap_cons]
    rw [h r (by simp), ih (fun r hr => h r (by simp [hr]))]
    simp

theorem sentTo_single (s : Nat) (op : TOp) : (∀ t d k, op ≠ .send t d k) → sentTo s [op] = [] := by
  intro h
  cases op <;> simp [sentTo]
  exact absurd rfl (h _ _ _)

theorem XInv.congr {S s st st'} (h : XInv S s st) (hp : pendingOf s st' = pendingOf s st)
    (ho : (st'.conns s).output = (st.conns s).output)
    (hh : (st'.conns s).healthy → (st.conns s).healthy) : XInv S s st' := by
  obtain ⟨h1, h2⟩ := h
  refine ⟨by rw [ho]; exact h1, fun hv => ?_⟩
  rw [hp, ho]
  exact h2 (hh hv)

theorem XInv.step (g) {S : Nat → List (Bytes × Bool)} {st st' : TSt} (op : TOp)
    (hb : ∀ s, BufInv (st.buffers s))
    (hq : QInv st) (h : ∀ s, XInv (S s) s st) (hst : op.step g st = .ok st') :
    QInv st' ∧ ∀ s, XInv (S s ++ sentTo s [op]) s st' := by
  cases op with
  | hangup t =>
    simp only [TOp.step, Res.ok.injEq] at hst
    subst hst
    refine ⟨⟨hq.1, hq.2⟩, fun s => ?_⟩
    simp only [sentTo, List.flatMap_cons, List.flatMap_nil, List.append_nil]
    by_cases hs : s = t
    · subst hs
      exact (h s).congr rfl (by simp) (by simp [Conn.healthy])
    · exact (h s).congr rfl (by simp [upd_ne _ _ _ hs]) (by simp [upd_ne _ _ _ hs])
  | arrive t d =>
    simp only [TOp.step, Res.ok.injEq] at hst
    subst hst
    refine ⟨⟨hq.1, hq.2⟩, fun s => ?_⟩
    simp only [sentTo, List.flatMap_cons, List.flatMap_nil, List.append_nil]
    by_cases hs : s = t
    · subst hs
      exact (h s).congr rfl (by simp) (by simp [Conn.healthy])
    · exact (h s).congr rfl (by simp [upd_ne _ _ _ hs]) (by simp [upd_ne _ _ _ hs])
  | receive t k1 k2 =>
    by_cases hv : (st.conns t).valid = true
    · obtain ⟨st2, hst2, out⟩ := receive_spec g st t k1 k2 hv (hb t)
      simp only [TOp.step, hst2, Res.ok.injEq] at hst
      subst hst
      obtain ⟨q1, q2, q3⟩ := out.queue
      have hp : pending st2 = pending st := by simp [pending, q1, q2]
      refine ⟨⟨by rw [hp]; exact hq.1, by rw [hp]; exact hq.2⟩, fun s => ?_⟩
      simp only [sentTo, List.flatMap_cons, List.flatMap_nil, List.append_nil]
      by_cases hs : s = t
      · subst hs
        exact (h s).congr (by simp [pendingOf, hp]) out.output.1
          (fun hh => ⟨hv, by rw [← out.output.2]; exact hh.2⟩)
      · have := (out.frame s hs).1
        exact (h s).congr (by simp [pendingOf, hp]) (by rw [this]) (by rw [this]; exact id)
    · simp only [TOp.step, receive, hv] at hst
      simp at hst
      subst hst
      exact ⟨hq, fun s => by simpa [sentTo] using h s⟩
  | send t d k =>
    simp only [TOp.step, Res.ok.injEq, send] at hst
    subst hst
    have hp : ∀ pc, pc = st.pc → pending { st with queue := st.queue ++ [⟨t, d, 0, k⟩] } =
        pending st ++ [⟨t, d, 0, k⟩] := by
      intro pc hpc; unfold pending; split <;> simp_all
    have hp := hp _ rfl
    refine ⟨⟨?_, ?_⟩, fun s => ?_⟩
    · rw [hp]; intro r hr
      simp only [List.mem_append, List.mem_singleton] at hr
      rcases hr with hr | rfl
      · exact hq.1 r hr
      · simp
    · rw [hp]; intro r hr
      cases hpe : pending st with
      | nil => simp [hpe] at hr
      | cons a l =>
        rw [hpe] at hr
        simp only [List.cons_append, List.tail_cons, List.mem_append, List.mem_singleton] at hr
        rcases hr with hr | rfl
        · exact hq.2 r (by rw [hpe]; exact hr)
        · rfl
    · obtain ⟨h1, h2⟩ := h s
      refine ⟨?_, fun hv => ?_⟩
      · simp only [List.flatMap_append]
        exact h1.trans (List.prefix_append _ _)
      · obtain ⟨done, e1, e2, e3⟩ := h2 hv
        refine ⟨done, ?_, e2, ?_⟩
        · simp only [pendingOf, hp, List.filter_append, List.map_append]
          rw [e1]
          simp only [List.append_assoc, pendingOf]
          congr 2
          simp only [sentTo, List.flatMap_cons, List.flatMap_nil, List.append_nil]
          by_cases hts : t = s <;> simp [hts]
        · simp only [pendingOf, hp, List.filter_append, List.flatMap_append]
          rw [e3]
          have : List.flatMap (fun r : SRec => r.data.take r.read)
              (List.filter (fun r => decide (r.sock = s)) [(⟨t, d, 0, k⟩ : SRec)]) = [] := by
            by_cases hts : t = s <;> simp [hts]
          rw [this]
          simp [pendingOf]
  | tx k =>
    simp only [TOp.step, Res.ok.injEq] at hst
    subst hst
    have hsent : ∀ s, sentTo s [TOp.tx k] = [] := fun s => rfl
    simp only [hsent, List.append_nil]
    unfold txStep
    cases hpc : st.pc with
    | loop =>
      cases hqq : st.queue with
      | nil =>
        have hp : pending { st with rets := st.rets ++ [true] } = pending st := by simp [pending]
        dsimp only
        rw [← hpc, ← hqq]
        exact ⟨⟨by rw [hp]; exact hq.1, by rw [hp]; exact hq.2⟩,
          fun s => (h s).congr (by simp [pendingOf, hp]) rfl id⟩
      | cons r q =>
        have hp : pending { st with queue := q, pc := .popped r } = pending st := by
          simp [pending, hpc, hqq]
        dsimp only
        exact ⟨⟨by rw [hp]; exact hq.1, by rw [hp]; exact hq.2⟩,
          fun s => (h s).congr (by simp [pendingOf, hp]) rfl id⟩
    | partly r =>
      have hp : pending { st with queue := r :: st.queue, pc := .loop, rets := st.rets ++ [false] } =
          pending st := by simp [pending, hpc]
      dsimp only
      exact ⟨⟨by rw [hp]; exact hq.1, by rw [hp]; exact hq.2⟩,
        fun s => (h s).congr (by simp [pendingOf, hp]) rfl id⟩
    | popped r =>
      have hpend : pending st = r :: st.queue := by simp [pending, hpc]
      have hrd : r.read ≤ r.data.length := hq.1 r (by simp [hpend])
      have hq0 : ∀ x ∈ st.queue, x.read = 0 := by
        intro x hx; exact hq.2 x (by simp [hpend, hx])
      have hqr : ∀ x ∈ st.queue, x.read ≤ x.data.length := by
        intro x hx; exact hq.1 x (by simp [hpend, hx])
      have hq0t : ∀ x ∈ st.queue.tail, x.read = 0 := fun x hx => hq0 x (List.mem_of_mem_tail hx)
      have hps : ∀ s, pendingOf s st = (if r.sock = s then [r] else []) ++
          st.queue.filter (fun r => r.sock = s) := by
        intro s; simp only [pendingOf, hpend, List.filter_cons]
        by_cases hrs : r.sock = s <;> simp [hrs]
      have hfz : ∀ s, (st.queue.filter (fun r => r.sock = s)).flatMap (fun r => r.data.take r.read) = [] := by
        intro s; apply flatMap_take_zero; intro x hx; exact hq0 x (List.mem_filter.1 hx).1
      -- the write
      dsimp only
      by_cases hheal : (st.conns r.sock).healthy
      · have hcond : (!(st.conns r.sock).valid || (st.conns r.sock).closing) = false := by
          simp [hheal.1, hheal.2]
        simp only [sockWrite, hcond, Bool.false_eq_true, if_false]
        obtain ⟨hpre, hH⟩ := h r.sock
        obtain ⟨done, e1, e2, e3⟩ := hH hheal
        rw [hps, if_pos rfl] at e1 e3
        simp only [List.flatMap_append, hfz, List.append_nil, List.flatMap_cons, List.flatMap_nil] at e3
        -- other sockets
        have other : ∀ s, s ≠ r.sock → ∀ (c : Conn) (b : Nat → Block) pc q,
            (∀ s, s ≠ r.sock → pendingOf s { st with conns := upd st.conns r.sock c, buffers := b, queue := q, pc := pc } =
              st.queue.filter (fun r => r.sock = s)) →
            XInv (S s) s { st with conns := upd st.conns r.sock c, buffers := b, queue := q, pc := pc } := by
          intro s hs c b pc q hp
          refine (h s).congr ?_ (by simp [upd_ne _ _ _ hs]) (by simp [upd_ne _ _ _ hs])
          rw [hp s hs, hps s, if_neg (fun e => hs e.symm)]; rfl
        cases k with
        | err =>
          dsimp only
          refine ⟨⟨by simpa [pending] using hqr, by simpa [pending] using hq0t⟩, fun s => ?_⟩
          by_cases hs : s = r.sock
          · subst hs
            refine ⟨?_, ?_⟩
            · simp only [upd_self]
              have : (st.conns r.sock).close.output = (st.conns r.sock).output := by
                unfold Conn.close; split <;> rfl
              rw [this]; exact hpre
            · simp [Conn.healthy, Conn.close, hheal.1]
          · exact other s hs _ _ _ _ (by intro s hs; simp [pendingOf, pending])
        | again =>
          dsimp only
          have e : ({ r with read := r.read + 0 } : SRec) = r := by simp
          have hup : upd st.conns r.sock (st.conns r.sock) = st.conns := by
            funext i; simp only [upd]; split <;> simp_all
          by_cases hne : r.read + 0 ≠ r.data.length
          · rw [if_pos hne]
            have hp : pending { st with conns := st.conns, pc := .partly r } = pending st := by
              simp [pending, hpc]
            rw [hup, e]
            exact ⟨⟨by rw [hp]; exact hq.1, by rw [hp]; exact hq.2⟩,
              fun s => (h s).congr (by simp [pendingOf, hp]) rfl id⟩
          · rw [if_neg hne]
            have hfull : r.data.take r.read = r.data := List.take_of_length_le (by omega)
            split
            · rename_i hk
              simp only [upd_self, upd_upd]
              refine ⟨⟨by simpa [pending] using hqr, by simpa [pending] using hq0t⟩, fun s => ?_⟩
              by_cases hs : s = r.sock
              · subst hs
                refine ⟨?_, ?_⟩
                · simp only [upd_self]
                  have : (st.conns r.sock).close.output = (st.conns r.sock).output := by
                    unfold Conn.close; split <;> rfl
                  rw [this]; exact hpre
                · simp [Conn.healthy, Conn.close, hheal.1]
              · exact other s hs _ _ _ _ (by intro s hs; simp [pendingOf, pending])
            · rename_i hk
              refine ⟨⟨by simpa [pending] using hqr, by simpa [pending] using hq0t⟩, fun s => ?_⟩
              by_cases hs : s = r.sock
              · subst hs
                refine ⟨by simpa using hpre, fun _ => ⟨done ++ [(r.data, r.kill)], ?_, ?_, ?_⟩⟩
                · rw [e1]; simp [pendingOf, pending]
                · intro d hd
                  simp only [List.mem_append, List.mem_singleton] at hd
                  rcases hd with hd | rfl
                  · exact e2 d hd
                  · simpa using hk
                · simp only [upd_self, pendingOf, pending, hfz, List.append_nil]
                  rw [e3]; simp [hfull]
              · exact other s hs _ _ _ _ (by intro s hs; simp [pendingOf, pending])
        | accept n =>
          dsimp only
          generalize hcnt : min n (r.data.drop r.read).length = cnt
          have hcl : cnt ≤ r.data.length - r.read := by rw [← hcnt]; simp; omega
          have htk : r.data.take r.read ++ (r.data.drop r.read).take cnt = r.data.take (r.read + cnt) := by
            rw [List.take_add]
          have hout : (st.conns r.sock).output ++ (r.data.drop r.read).take cnt =
              done.flatMap (·.1) ++ r.data.take (r.read + cnt) := by
            rw [e3, List.append_assoc, htk]
          have hpre' : (st.conns r.sock).output ++ (r.data.drop r.read).take cnt <+:
              (S r.sock).flatMap (·.1) := by
            rw [hout, e1]
            simp only [List.flatMap_append, List.map_cons, List.map_append, List.map_nil,
              List.flatMap_cons, List.flatMap_nil, List.append_nil]
            exact (List.prefix_append_right_inj _).2
              ((List.take_prefix _ _).trans (List.prefix_append _ _))
          by_cases hne : r.read + cnt ≠ r.data.length
          · rw [if_pos hne]
            refine ⟨⟨?_, ?_⟩, fun s => ?_⟩
            · intro x hx
              simp only [pending, List.mem_cons] at hx
              rcases hx with rfl | hx
              · dsimp only; omega
              · exact hqr x hx
            · simpa [pending] using hq0
            · by_cases hs : s = r.sock
              · subst hs
                refine ⟨by simpa using hpre', fun _ => ⟨done, ?_, e2, ?_⟩⟩
                · rw [e1]; simp [pendingOf, pending]
                · simp only [upd_self, pendingOf, pending, List.filter_cons, decide_true, if_true,
                    List.flatMap_cons, hfz, List.append_nil]
                  exact hout
              · refine other s hs _ _ _ _ ?_
                intro s hs
                have : ¬ r.sock = s := fun e => hs e.symm
                simp [pendingOf, pending, this]
          · rw [if_neg hne]
            have hfull : r.data.take (r.read + cnt) = r.data := List.take_of_length_le (by omega)
            split
            · rename_i hk
              simp only [upd_self, upd_upd]
              refine ⟨⟨by simpa [pending] using hqr, by simpa [pending] using hq0t⟩, fun s => ?_⟩
              by_cases hs : s = r.sock
              · subst hs
                refine ⟨?_, ?_⟩
                · simp only [upd_self]
                  have : ∀ c : Conn, c.close.output = c.output := by
                    intro c; unfold Conn.close; split <;> rfl
                  rw [this]; exact hpre'
                · simp [Conn.healthy, Conn.close, hheal.1]
              · exact other s hs _ _ _ _ (by intro s hs; simp [pendingOf, pending])
            · rename_i hk
              refine ⟨⟨by simpa [pending] using hqr, by simpa [pending] using hq0t⟩, fun s => ?_⟩
              by_cases hs : s = r.sock
              · subst hs
                refine ⟨by simpa using hpre', fun _ => ⟨done ++ [(r.data, r.kill)], ?_, ?_, ?_⟩⟩
                · rw [e1]; simp [pendingOf, pending]
                · intro d hd
                  simp only [List.mem_append, List.mem_singleton] at hd
                  rcases hd with hd | rfl
                  · exact e2 d hd
                  · simpa using hk
                · simp only [upd_self, pendingOf, pending, hfz, List.append_nil]
                  rw [hout]; simp [hfull]
              · exact other s hs _ _ _ _ (by intro s hs; simp [pendingOf, pending])
      · have hcond : (!(st.conns r.sock).valid || (st.conns r.sock).closing) = true := by
          unfold Conn.healthy at hheal
          cases hv : (st.conns r.sock).valid <;> cases hc : (st.conns r.sock).closing <;> simp_all
        simp only [sockWrite, hcond, if_true]
        have hup : upd st.conns r.sock (st.conns r.sock) = st.conns := by
          funext i; simp only [upd]; split <;> simp_all
        rw [hup]
        refine ⟨⟨by simpa [pending] using hqr, by simpa [pending] using hq0t⟩, fun s => ?_⟩
        by_cases hs : s = r.sock
        · subst hs
          exact ⟨(h r.sock).1, fun hh => absurd hh hheal⟩
        · refine (h s).congr ?_ rfl id
          rw [hps s, if_neg (fun e => hs e.symm)]
          simp [pendingOf, pending]

theorem sentTo_cons (s op ops) : sentTo s (op :: ops) = sentTo s [op] ++ sentTo s ops := by
  simp [sentTo]

theorem sentTo_append (s ops ops') : sentTo s (ops ++ ops') = sentTo s ops ++ sentTo s ops' := by
  simp [sentTo]

theorem XInv.run (g) (ops : List TOp) : ∀ {A : Nat → Bytes} {S : Nat → List (Bytes × Bool)} {st st' : TSt},
    (∀ s, RInv (A s) s st) → QInv st → (∀ s, XInv (S s) s st) → trun g st ops = .ok st' →
    QInv st' ∧ ∀ s, XInv (S s ++ sentTo s ops) s st' := by
  induction ops with
  | nil =>
    intro A S st st' hr hq h hst
    simp only [trun, Res.ok.injEq] at hst
    subst hst
    exact ⟨hq, by simpa [sentTo] using h⟩
  | cons op ops ih =>
    intro A S st st' hr hq h hst
    obtain ⟨st1, h1, h2⟩ := RInv.step g op hr
    simp only [trun, h1, Res.ok_bind] at hst
    obtain ⟨q1, x1⟩ := XInv.step g op (fun s => (hr s).buf) hq h h1
    obtain ⟨q2, x2⟩ := ih h2 q1 x1 hst
    refine ⟨q2, fun s => ?_⟩
    rw [sentTo_cons, ← List.append_assoc]
    exact x2 s

theorem RInv.init (s) : RInv [] s TSt.init :=
  ⟨BufInv.empty, [], [], by simp, by simp [msgsOf, TSt.init], by simp, Or.inl ⟨rfl, fun _ => rfl⟩⟩
theorem QInv.init : QInv TSt.init := ⟨by simp [pending, TSt.init], by simp [pending, TSt.init]⟩
theorem XInv.init (s) : XInv [] s TSt.init :=
  ⟨by simp [TSt.init], fun _ => ⟨[], by simp [pendingOf, pending, TSt.init], by simp,
    by simp [pendingOf, pending, TSt.init]⟩⟩

theorem init_run (g) (ops : List TOp) : ∃ st, trun g TSt.init ops = .ok st ∧
    (∀ s, RInv (arrived s ops) s st) ∧ QInv st ∧ ∀ s, XInv (sentTo s ops) s st := by
  obtain ⟨st, h1, h2⟩ := RInv.run g ops (A := fun _ => []) (st := TSt.init) RInv.init
  obtain ⟨h3, h4⟩ := XInv.run g ops (A := fun _ => []) (S := fun _ => []) RInv.init QInv.init XInv.init h1
  exact ⟨st, h1, by simpa using h2, h3, by simpa using h4⟩

theorem trun_append (g) (ops ops' : List TOp) (st : TSt) :
    trun g st (ops ++ ops') = (trun g st ops >>= fun st => trun g st ops') := by
  induction ops generalizing st with
  | nil => rfl
  | cons op ops ih =>
    simp only [List.cons_append, trun]
    cases op.step g st with
    | ok st1 => simp [ih]
    | ub k => rfl
    | stuck => rfl

/-- What `receive` does to its own socket depends only on that socket. -/
def recvView (s : Nat) (st : TSt) : Conn × Block × List Msg := (st.conns s, st.buffers s, msgsOf s st)

theorem receiveBody_view (g) (s : Nat) (st1 st2 : TSt) (b : Block) (k : KRead) (h : recvView s st1 = recvView s st2) :
    (receiveBody g st1 s b k >>= fun st => Res.ok (recvView s st)) =
    (receiveBody g st2 s b k >>= fun st => Res.ok (recvView s st)) := by
  simp only [recvView, Prod.mk.injEq] at h
  obtain ⟨hc, hb, hm⟩ := h
  unfold receiveBody
  cases reserveRecord g b with
  | ub k => rfl
  | stuck => rfl
  | ok b =>
    simp only [Res.ok_bind, hc]
    cases sockRead k (st2.conns s) b.mem b.size (b.reserve - b.size) with
    | ub k => rfl
    | stuck => rfl
    | ok r =>
      obtain ⟨c, mem, r⟩ := r
      simp only [Res.ok_bind]
      cases r with
      | none =>
        simp only [Res.pure_eq, Res.ok_bind, recvView, cleanupSocket, upd_self, msgsOf, List.filter_append,
          Res.ok.injEq, Prod.mk.injEq, true_and]
        simp only [msgsOf] at hm
        rw [hm]
      | some n =>
        dsimp only
        split
        · simpa only [Res.pure_eq, Res.ok_bind, recvView, upd_self, msgsOf, Res.ok.injEq, Prod.mk.injEq, true_and] using hm
        · cases read16 (Block.setSize g { mem := mem, size := b.size } (b.size + n)).mem 2 with
          | ub k => rfl
          | stuck => rfl
          | ok id =>
            simp only [Res.pure_eq, Res.ok_bind, recvView, upd_self, msgsOf, List.filter_append, Res.ok.injEq, Prod.mk.injEq, true_and]
            simp only [msgsOf] at hm
            rw [hm]

theorem receive_view (g) (s : Nat) (st1 st2 : TSt) (k1 k2 : KRead) (h : recvView s st1 = recvView s st2) :
    (receive g st1 s k1 k2 >>= fun st => Res.ok (recvView s st)) =
    (receive g st2 s k1 k2 >>= fun st => Res.ok (recvView s st)) := by
  have h' := h
  simp only [recvView, Prod.mk.injEq] at h
  obtain ⟨hc, hb, hm⟩ := h
  unfold receive
  rw [hc, hb]
  dsimp only
  split
  · split
    · generalize (st2.buffers s).setReserve g 8 = b
      cases sockRead k1 (st2.conns s) b.mem b.size (b.reserve - b.size) with
      | ub k => rfl
      | stuck => rfl
      | ok r =>
        obtain ⟨c, mem, r⟩ := r
        simp only [Res.ok_bind]
        cases r with
        | none =>
          simp only [Res.pure_eq, Res.ok_bind, recvView, cleanupSocket, upd_self, msgsOf, List.filter_append,
            Res.ok.injEq, Prod.mk.injEq, true_and]
          simp only [msgsOf] at hm
          rw [hm]
        | some n =>
          dsimp only
          split
          · simpa only [Res.pure_eq, Res.ok_bind, recvView, upd_self, msgsOf, Res.ok.injEq, Prod.mk.injEq, true_and] using hm
          · apply receiveBody_view
            simpa only [recvView, upd_self, msgsOf, Prod.mk.injEq, true_and] using hm
    · exact receiveBody_view g s st1 st2 _ _ h'
  · simpa using h'

/-- Operations on other sockets do not touch the view of `s`. -/
theorem step_other_view (g) (s : Nat) (st st' : TSt) (op : TOp) (hr : recvSide op = true)
    (hno : concerns s op = false) (hb : ∀ s, BufInv (st.buffers s)) (h : op.step g st = .ok st') :
    recvView s st' = recvView s st := by
  cases op with
  | hangup t =>
    have ht : s ≠ t := by intro e; simp [concerns, e] at hno
    simp only [TOp.step, Res.ok.injEq] at h; subst h
    simp [recvView, upd_ne _ _ _ ht, msgsOf]
  | arrive t d =>
    have ht : s ≠ t := by intro e; simp [concerns, e] at hno
    simp only [TOp.step, Res.ok.injEq] at h; subst h
    simp [recvView, upd_ne _ _ _ ht, msgsOf]
  | receive t k1 k2 =>
    have ht : s ≠ t := by intro e; simp [concerns, e] at hno
    have ht' : ¬ t = s := fun e => ht e.symm
    by_cases hv : (st.conns t).valid = true
    · obtain ⟨st2, h2, out⟩ := receive_spec g st t k1 k2 hv (hb t)
      simp only [TOp.step, h2, Res.ok.injEq] at h; subst h
      obtain ⟨f1, f2⟩ := out.frame s ht
      obtain ⟨data, _, hcase⟩ := out.main
      simp only [recvView, f1, f2, Prod.mk.injEq, true_and]
      rcases hcase with ⟨c1, c2, c3, c4⟩ | ⟨c1, c2, c3, c4⟩ | ⟨c0, c1, c2, c3⟩
      · simp [msgsOf, c2]
      · rw [msgsOf_append s st _ _ c4]; simp [ht']
      · rw [msgsOf_append s st _ _ c3]; simp [ht']
    · simp only [TOp.step, receive, hv] at h
      simp at h
      subst h; rfl
  | send t d k => simp [recvSide] at hr
  | tx k => simp [recvSide] at hr

theorem step_own_view (g) (s : Nat) (st1 st2 : TSt) (op : TOp) (hown : concerns s op = true)
    (h : recvView s st1 = recvView s st2) :
    (op.step g st1 >>= fun st => Res.ok (recvView s st)) =
    (op.step g st2 >>= fun st => Res.ok (recvView s st)) := by
  cases op with
  | hangup t =>
    have ht : t = s := by simpa [concerns] using hown
    subst ht
    simp only [recvView, Prod.mk.injEq] at h
    simp only [TOp.step, Res.ok_bind, recvView, upd_self, h.1, h.2.1, Res.ok.injEq, Prod.mk.injEq, true_and]
    exact h.2.2
  | arrive t d =>
    have ht : t = s := by simpa [concerns] using hown
    subst ht
    simp only [recvView, Prod.mk.injEq] at h
    simp only [TOp.step, Res.ok_bind, recvView, upd_self, h.1, h.2.1, Res.ok.injEq, Prod.mk.injEq, true_and]
    exact h.2.2
  | receive t k1 k2 =>
    have ht : t = s := by simpa [concerns] using hown
    subst ht
    exact receive_view g t st1 st2 k1 k2 h
  | send t d k => simp [concerns] at hown
  | tx k => simp [concerns] at hown

theorem run_view (g) (s : Nat) (ops : List TOp) (hr : ∀ op ∈ ops, recvSide op = true) :
    ∀ (A1 A2 : Nat → Bytes) (st1 st2 st1' : TSt), (∀ s, RInv (A1 s) s st1) → (∀ s, RInv (A2 s) s st2) →
      recvView s st1 = recvView s st2 → trun g st1 ops = .ok st1' →
      ∃ st2', trun g st2 (ops.filter (concerns s)) = .ok st2' ∧ recvView s st1' = recvView s st2' := by
  induction ops with
  | nil =>
    intro A1 A2 st1 st2 st1' _ _ h h1
    simp only [trun, Res.ok.injEq] at h1; subst h1
    exact ⟨st2, rfl, h⟩
  | cons op ops ih =>
    intro A1 A2 st1 st2 st1' i1 i2 h h1
    obtain ⟨st1a, e1, i1a⟩ := RInv.step g op i1
    simp only [trun, e1, Res.ok_bind] at h1
    have ih := ih (fun op hop => hr op (by simp [hop]))
    by_cases hown : concerns s op = true
    · obtain ⟨st2a, e2, i2a⟩ := RInv.step g op i2
      have hv := step_own_view g s st1 st2 op hown h
      rw [e1, e2] at hv
      simp only [Res.ok_bind, Res.ok.injEq] at hv
      obtain ⟨st2', h2, h3⟩ := ih _ _ st1a st2a st1' i1a i2a hv h1
      refine ⟨st2', ?_, h3⟩
      rw [List.filter_cons, if_pos hown]
      simp [trun, e2, h2]
    · have hno : concerns s op = false := by simpa using hown
      have hv := step_other_view g s st1 st1a op (hr op (by simp)) hno (fun s => (i1 s).buf) e1
      obtain ⟨st2', h2, h3⟩ := ih _ _ st1a st2 st1' i1a i2 (hv.trans h) h1
      refine ⟨st2', ?_, h3⟩
      rw [List.filter_cons, if_neg hown]
      exact h2

end Fcgi.Model
