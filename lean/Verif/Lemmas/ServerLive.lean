import Verif.Model.ServerOwn
import Verif.Lemmas.ServerMgmt
import Verif.Props.Transceiver
/-! # The server's own steps come to an end -/
namespace Fcgi.Model
open Fcgi.Spec Fcgi.Props

theorem sockRead_moves {k : KRead} {c : Conn} {mem : Bytes} {off size : Nat} {x} (hk : k.moves) (hv : c.valid = true) (hs : 0 < size)
    (hr : c.input ≠ [] ∨ c.closing = true) (h : sockRead k c mem off size = .ok x) :
    (x.2.2 = none ∧ x.1.valid = false) ∨ (x.1.input.length < c.input.length) := by
  unfold sockRead at h
  simp only [hv, Bool.not_true, Bool.false_eq_true, if_false] at h
  cases k with
  | again => exact hk.elim
  | err => cases h; left; simp [Conn.close, hv]
  | give n =>
    dsimp only at h
    have hn : n ≠ 0 := hk
    cases hw : writeAt mem off (List.take (min n size) c.input) with
    | ub _ => rw [hw] at h; cases h
    | stuck => rw [hw] at h; cases h
    | ok m =>
      rw [hw] at h
      simp only [Res.ok_bind] at h
      split at h
      · cases h; left; simp [Conn.close, hv]
      · rename_i hc
        cases h
        right
        simp only [List.length_take, List.length_drop]
        have : c.input.length ≠ 0 := by
          intro hz
          have : c.input = [] := List.eq_nil_of_length_eq_zero hz
          rcases hr with hr | hr
          · exact hr this
          · exact hc ⟨by rw [this]; simp, hr⟩
        omega

theorem receive_moves (g) (st : TSt) (s : Nat) (k1 k2 : KRead) (hv : (st.conns s).valid = true) (hb : BufInv (st.buffers s))
    (h1 : k1.moves) (h2 : k2.moves) (hr : (st.conns s).input ≠ [] ∨ (st.conns s).closing = true) {st'} (h : receive g st s k1 k2 = .ok st') :
    (st'.conns s).valid = false ∨ (st'.conns s).input.length < (st.conns s).input.length := by
  obtain ⟨hb1, hb2⟩ := hb
  unfold receive at h
  rw [if_pos hv] at h
  by_cases h8 : (st.buffers s).size < 8
  · simp only [if_pos h8] at h
    obtain ⟨e1, e2, e3⟩ := setReserve_bytes g (st.buffers s) 8 hb1 (by omega)
    generalize hB : (st.buffers s).setReserve g 8 = b at *
    obtain ⟨c', mem, r, hread, hout, hclo, hcase⟩ := sockRead_spec g k1 (st.conns s) b hv (by omega)
    have hm := sockRead_moves h1 hv (by unfold Block.reserve; omega) hr hread
    simp only [hread, Res.ok_bind] at h
    rcases hcase with ⟨rfl, hval, ⟨d, hd⟩, hbad⟩ | ⟨n, data, rfl, hval, hin, hn, hfit, hbytes, hsz, hmem, hml⟩
    · cases h
      left
      simp [cleanupSocket, Conn.close, hval]
    · simp only [] at h
      have hlt1 : c'.input.length < (st.conns s).input.length := by
        rcases hm with ⟨x, _⟩ | x
        · cases x
        · exact x
      generalize hB2 : ({ b with mem := mem } : Block).setSize g (b.size + n) = B at *
      have hBm : B.size ≤ B.mem.length := by rw [hsz, hmem, hml]; omega
      by_cases hlt : B.size < 8
      · rw [if_pos hlt] at h
        cases h
        right
        simpa using hlt1
      · rw [if_neg hlt] at h
        obtain ⟨st2, hst', hout'⟩ := receiveBody_spec g
          { st with conns := upd st.conns s c', buffers := upd st.buffers s B } s B k2
          (by simpa using hval) hBm (by omega) (Or.inl (by rw [hmem, hml, e3] at hBm; omega)) (by simp)
        rw [hst'] at h; cases h
        obtain ⟨data2, hd2, _⟩ := hout'.main
        simp only [upd_self] at hd2
        right
        rw [hd2] at hlt1
        simp only [List.length_append] at hlt1
        omega
  · simp only [if_neg h8] at h
    have hsz : (st.buffers s).mem.length = framedLength (st.buffers s).bytes ∧ (st.buffers s).size < (st.buffers s).mem.length := by
      rcases hb2 with h | h
      · omega
      · exact h
    obtain ⟨b', hb', hres⟩ : ∃ b', reserveRecord g (st.buffers s) = .ok b' ∧ b'.size < b'.mem.length := by
      unfold reserveRecord
      by_cases hs : (st.buffers s).size = 8
      · obtain ⟨cl, id, pl, x1, x2, x3, x4, x5⟩ := header_reads (l := (st.buffers s).mem) (by omega)
        rw [if_pos hs, x1, x2]
        refine ⟨_, rfl, ?_⟩
        have hfl : framedLength (st.buffers s).mem = framedLength (st.buffers s).bytes := by
          conv => lhs; rw [← List.take_append_drop (st.buffers s).size (st.buffers s).mem]
          exact framedLength_append _ _ (by simp; omega)
        have := setReserve_bytes g (st.buffers s) (8 + cl.toNat + pl.toNat) hb1 (by omega)
        rw [this.2.1, this.2.2]
        omega
      · rw [if_neg hs]
        exact ⟨_, rfl, hsz.2⟩
    unfold receiveBody at h
    rw [hb'] at h
    simp only [Res.ok_bind] at h
    obtain ⟨c', mem, r, hread, hout, hclo, hcase⟩ := sockRead_spec g k2 (st.conns s) b' hv (by omega)
    have hm := sockRead_moves h2 hv (by unfold Block.reserve; omega) hr hread
    rw [hread] at h
    simp only [Res.ok_bind] at h
    cases r with
    | none =>
      have hval : c'.valid = false := by
        rcases hcase with ⟨_, hval, _⟩ | ⟨n, data, hx, _⟩
        · exact hval
        · cases hx
      cases h
      left
      simp [cleanupSocket, Conn.close, hval]
    | some n =>
      have hlt1 : c'.input.length < (st.conns s).input.length := by
        rcases hm with ⟨x, _⟩ | x
        · cases x
        · exact x
      dsimp only at h
      split at h
      · cases h; right; simpa using hlt1
      · cases hrd : read16 (({ b' with mem := mem } : Block).setSize g (b'.size + n)).mem 2 with
        | ok v => rw [hrd] at h; cases h; right; simpa using hlt1
        | ub _ => rw [hrd] at h; cases h
        | stuck => rw [hrd] at h; cases h

variable {U : Type} [Transmits U]

theorem own_step {P : SrvProg U} {s es os s'} (h : OwnStep P s es os s') : SrvStep P s es os s' := by
  cases h with
  | read c k1 k2 hi hg hv hr h1 h2 h => exact .net (.receive c k1 k2) rfl hi hg h
  | write k hi hg hq hk => exact .net (.tx k) rfl hi hg rfl
  | give x hx h => exact .give x hx h
  | work t ho hl h => exact .work t ho hl h
  | send t x rest ho => exact .send t x rest ho
  | pusher p w h => exact .pusher p w h

theorem own_run {P : SrvProg U} {s0 tr0 ops0 s tr ops s'} (h0 : SrvRun P s0 tr0 ops0 s) (h : OwnRun P s tr ops s') :
    SrvRun P s0 (tr0 ++ tr) (ops0 ++ ops) s' := by
  induction h with
  | refl => simpa using h0
  | step run h ih => rw [← List.append_assoc, ← List.append_assoc]; exact .step ih (own_step h)

/-- Connections from `N` on have not been used by their peers. -/
def Away (N : Nat) (t : TSt) : Prop := ∀ c, N ≤ c → (t.conns c).input = [] ∧ (t.conns c).closing = false

theorem tx_conns (st : TSt) (k : KWrite) (c : Nat) : ((txStep st k).conns c).input = (st.conns c).input ∧
    ((txStep st k).conns c).closing = (st.conns c).closing ∧ (((txStep st k).conns c).valid = true → (st.conns c).valid = true) := by
  have hcl : ∀ c : Conn, c.close.input = c.input ∧ c.close.closing = c.closing ∧ c.close.valid = false := by
    intro c; unfold Conn.close; split <;> simp_all
  have hw : ∀ (c : Conn) (d : Bytes), (sockWrite k c d).1.input = c.input ∧ (sockWrite k c d).1.closing = c.closing ∧
      ((sockWrite k c d).1.valid = true → c.valid = true) := by
    intro c d
    unfold sockWrite
    split
    · simp
    · cases k <;> simp [hcl]
  unfold txStep
  split
  · split <;> exact ⟨rfl, rfl, id⟩
  · rename_i r hpc
    have hwr := hw (st.conns r.sock) (r.data.drop r.read)
    generalize sockWrite k (st.conns r.sock) (r.data.drop r.read) = cs at *
    obtain ⟨c', sent⟩ := cs
    dsimp only at hwr ⊢
    by_cases hc : c = r.sock
    · subst hc
      cases sent with
      | none => simpa using hwr
      | some n =>
        dsimp only
        split
        · simpa using hwr
        · split
          · simp [hcl, hwr]
          · simpa using hwr
    · cases sent with
      | none => simp [upd_ne _ _ _ hc]
      | some n =>
        dsimp only
        split
        · simp [upd_ne _ _ _ hc]
        · split <;> simp [upd_ne _ _ _ hc]
  · exact ⟨rfl, rfl, id⟩

theorem tx_msgs (st : TSt) (k : KWrite) : (txStep st k).msgs = st.msgs := by
  unfold txStep
  split
  · split <;> rfl
  · dsimp only
    split
    · rfl
    · split
      · rfl
      · split <;> rfl
  · rfl

/-- How much peers have to tell. -/
def Srv.told (N : Nat) (s : Srv U) : Nat := total (fun c => if (s.t.conns c).valid then 1 + (s.t.conns c).input.length else 0) N

theorem total_mono {f g : Nat → Nat} {n : Nat} (h : ∀ i, i < n → f i ≤ g i) : total f n ≤ total g n := by
  have := total_le (f := f) (g := g) (n := n) (c := 0) (fun i hi => by have := h i hi; omega)
  omega
theorem total_lt {f g : Nat → Nat} {n i : Nat} (hi : i < n) (h : ∀ j, j < n → f j ≤ g j) (hl : f i < g i) : total f n < total g n := by
  induction n with
  | zero => omega
  | succ n ih =>
    rw [total, total]
    by_cases e : i = n
    · subst e
      have := total_mono (f := f) (g := g) (n := i) (fun j hj => h j (by omega))
      omega
    · have := ih (by omega) (fun j hj => h j (by omega))
      have := h n (by omega)
      omega

/-- What is left for the server to do, by rank. -/
def Srv.rank (P : SrvProg U) (N M : Nat) (s : Srv U) : Nat × Nat × Nat × Nat × Nat × Nat :=
  (s.told N, s.t.msgs.length - s.given, total (fun p => (s.m.pu p).asksSweep) M, s.m.left P.prog M,
    total (fun t => (s.out t).length) P.threads, txWork s.t)

def RankLt : Nat × Nat × Nat × Nat × Nat × Nat → Nat × Nat × Nat × Nat × Nat × Nat → Prop :=
  Prod.Lex Nat.lt (Prod.Lex Nat.lt (Prod.Lex Nat.lt (Prod.Lex Nat.lt (Prod.Lex Nat.lt Nat.lt))))

theorem rankLt_wf : WellFounded RankLt :=
  (Prod.lex ⟨_, Nat.lt_wfRel.wf⟩ (Prod.lex ⟨_, Nat.lt_wfRel.wf⟩ (Prod.lex ⟨_, Nat.lt_wfRel.wf⟩ (Prod.lex ⟨_, Nat.lt_wfRel.wf⟩
    (Prod.lex ⟨_, Nat.lt_wfRel.wf⟩ ⟨_, Nat.lt_wfRel.wf⟩))))).wf

theorem left_invalid (P : Prog (Option U)) (M : Nat) (m : MSt (Option U)) (f : Nat → Bool) : MSt.left P M { m with invalid := f } = m.left P M := rfl

theorem tx_moves (st : TSt) (k : KWrite) (hq : QInv st) (hk : k.moves) (hn : st.queue ≠ [] ∨ st.pc ≠ .loop) :
    txWork (txStep st k) < txWork st := by
  have hn' : ¬ (st.queue = [] ∧ st.pc = .loop) := by
    rintro ⟨a, b⟩; rcases hn with h | h <;> contradiction
  cases k with
  | accept n =>
    cases n with
    | zero => exact absurd rfl hk
    | succ n => exact tx_progress st _ hq ⟨n, rfl⟩ hn'
  | again => exact hk.elim
  | err =>
    cases hp : st.pc with
    | popped r =>
      simp only [txStep, hp]
      cases hc : (!(st.conns r.sock).valid || (st.conns r.sock).closing) <;>
        (simp only [sockWrite, hc, if_true, Bool.false_eq_true, if_false]
         simp only [txWork, hp, pending, List.map_cons, List.sum_cons]; omega)
    | loop =>
      cases hq : st.queue with
      | nil => exact absurd ⟨hq, hp⟩ hn'
      | cons r q => simp [txWork, txStep, hp, hq, pending]
    | partly r => simp [txWork, txStep, hp, pending]

theorem own_rank {P : SrvProg U} {tr ops s es os s'} (hr : SrvRun P srvInit tr ops s) (h : OwnStep P s es os s') (N M : Nat) (hN : Away N s.t)
    (hM : ∀ q, M ≤ q → s.m.pu q = .idle) (hM0 : 0 < M) :
    RankLt (s'.rank P N M) (s.rank P N M) ∧ Away N s'.t ∧ ∀ q, M ≤ q → s'.m.pu q = .idle := by
  have A := srv_parts hr
  have I := run_kq A.m
  obtain ⟨st0, h0, hR, hQ, _⟩ := init_run P.recvHeap ops
  rw [A.t] at h0; cases h0
  cases h with
  | read c k1 k2 hi hg hv hr' h1 h2 h =>
    rename_i t'
    have hc : c < N := by
      apply Nat.lt_of_not_le
      intro hh
      obtain ⟨e1, e2⟩ := hN c hh
      rcases hr' with x | x
      · exact x e1
      · rw [e2] at x; cases x
    obtain ⟨st', hst', out⟩ := receive_spec P.recvHeap s.t c k1 k2 hv (hR c).buf
    rw [hst'] at h; cases h
    have hm := receive_moves P.recvHeap s.t c k1 k2 hv (hR c).buf h1 h2 hr' hst'
    obtain ⟨data, hd, _⟩ := out.main
    refine ⟨.left _ _ ?_, ?_, hM⟩
    · refine total_lt hc ?_ ?_
      · intro j hj
        by_cases hjc : j = c
        · subst hjc
          simp only [Srv.withT, hv, if_true]
          have := congrArg List.length hd
          simp only [List.length_append] at this
          by_cases hx : (t'.conns j).valid = true
          · simp only [hx, if_true]; omega
          · simp only [hx, Bool.false_eq_true, if_false]; omega
        · simp only [Srv.withT, (out.frame j hjc).1]; omega
      · simp only [Srv.withT, hv, if_true]
        rcases hm with hm | hm
        · simp only [hm, Bool.false_eq_true, if_false]; omega
        · by_cases hx : (t'.conns c).valid = true
          · simp only [hx, if_true]; omega
          · simp only [hx, Bool.false_eq_true, if_false]; omega
    · intro x hx
      have : x ≠ c := by omega
      simp only [Srv.withT]
      rw [(out.frame x this).1]; exact hN x hx
  | write k hi hg hq hk =>
    refine ⟨?_, ?_, hM⟩
    · refine Prod.Lex.right' _ ?_ ?_
      · refine total_mono (fun j _ => ?_)
        obtain ⟨e1, e2, e3⟩ := tx_conns s.t k j
        simp only [Srv.withT, e1]
        split
        · rename_i hv; rw [if_pos (e3 hv)]; omega
        · omega
      · have em : (s.withT (txStep s.t k)).t.msgs.length - (s.withT (txStep s.t k)).given = s.t.msgs.length - s.given := by
          simp only [Srv.withT, tx_msgs]
        rw [em]
        refine .right _ ?_
        refine .right _ ?_
        show Prod.Lex _ _ (MSt.left P.prog M { s.m with invalid := _ }, _) _
        rw [left_invalid]
        refine .right _ ?_
        refine .right _ ?_
        exact tx_moves s.t k hQ hk hq
    · intro x hx
      obtain ⟨e1, e2, _⟩ := tx_conns s.t k x
      simp only [Srv.withT]
      rw [e1, e2]; exact hN x hx
  | give x hx h =>
    refine ⟨?_, hN, ?_⟩
    · refine .right _ ?_
      refine .left _ _ ?_
      have : s.given < s.t.msgs.length := (List.getElem?_eq_some_iff.1 hx).1
      show s.t.msgs.length - (s.given + 1) < s.t.msgs.length - s.given
      omega
    · intro q hq
      simp only [estep] at h
      split at h
      · cases h
        simp only [MSt.pgoto]
        rw [put_other _ _ _ (by omega)]
        exact hM q hq
      · cases h
  | work t ho hl h =>
    obtain ⟨l1, l2⟩ := hstep_left P.prog M t s.m _ _ I.1 h
    refine ⟨?_, hN, by intro q hq; dsimp only; rw [l2]; exact hM q hq⟩
    refine .right _ ?_
    refine .right _ ?_
    show Prod.Lex _ _ (total (fun p => (_ : PPC).asksSweep) M, _) _
    rw [l2]
    refine .right _ ?_
    exact .left _ _ l1
  | send t x rest ho =>
    refine ⟨?_, hN, hM⟩
    refine .right _ ?_
    refine .right _ ?_
    refine .right _ ?_
    refine .right _ ?_
    refine .left _ _ ?_
    have ht : t < P.threads := by
      apply Nat.lt_of_not_le
      intro hh
      have := (srv_off hr t hh).1
      rw [ho] at this; cases this
    refine total_lt ht ?_ ?_
    · intro j _
      by_cases hj : j = t
      · subst hj; dsimp only; rw [put_same, ho]; simp
      · dsimp only; rw [put_other _ _ _ hj]; exact Nat.le_refl _
    · dsimp only; rw [put_same, ho]; simp
  | pusher p w h =>
    have hp : p < M := by
      apply Nat.lt_of_not_le
      intro hh
      unfold pstep at h
      rw [hM p hh] at h; cases h
    obtain ⟨h1, h2⟩ := pstep_left P.prog M p w s.m _ _ I.1 I.2.1 hp h
    refine ⟨?_, hN, fun q hq => by dsimp only; rw [h1 q hq]; exact hM q hq⟩
    refine .right _ ?_
    refine .right _ ?_
    rcases h2 with h2 | ⟨h2, h3⟩
    · exact .left _ _ h2
    · show Prod.Lex _ _ (total (fun p => (_ : PPC).asksSweep) M, _) _
      rw [h2]
      refine .right _ ?_
      exact .left _ _ h3

theorem run_away {P : SrvProg U} {tr ops s} (h : SrvRun P srvInit tr ops s) : ∃ N, Away N s.t := by
  have A := srv_parts h
  have key : ∀ (l : List TOp) (t t' : TSt), (∃ N, Away N t) → (∀ c, ∃ A, RInv A c t) → trun P.recvHeap t l = .ok t' → ∃ N, Away N t' := by
    intro l
    induction l with
    | nil => intro t t' h _ e; cases e; exact h
    | cons op l ih =>
      intro t t' ⟨N, hN⟩ hR e
      have hR' : ∃ A : Nat → Bytes, ∀ c, RInv (A c) c t := ⟨fun c => (hR c).choose, fun c => (hR c).choose_spec⟩
      obtain ⟨A, hA⟩ := hR'
      obtain ⟨t1, e1, hA1⟩ := RInv.step P.recvHeap op hA
      rw [trun, e1] at e
      refine ih t1 t' ?_ (fun c => ⟨_, hA1 c⟩) e
      cases op with
      | hangup c =>
        cases e1
        refine ⟨max N (c + 1), fun x hx => ?_⟩
        have : x ≠ c := by omega
        dsimp only; rw [upd_ne _ _ _ this]; exact hN x (by omega)
      | arrive c d =>
        cases e1
        refine ⟨max N (c + 1), fun x hx => ?_⟩
        have : x ≠ c := by omega
        dsimp only; rw [upd_ne _ _ _ this]; exact hN x (by omega)
      | send c d k => cases e1; exact ⟨N, hN⟩
      | tx k =>
        cases e1
        refine ⟨N, fun x hx => ?_⟩
        obtain ⟨a, b, _⟩ := tx_conns t k x
        rw [a, b]; exact hN x hx
      | receive c k1 k2 =>
        refine ⟨max N (c + 1), fun x hx => ?_⟩
        have hxc : x ≠ c := by omega
        by_cases hv : (t.conns c).valid = true
        · obtain ⟨st', hst', out⟩ := receive_spec P.recvHeap t c k1 k2 hv (hA c).buf
          have e1' : receive P.recvHeap t c k1 k2 = .ok t1 := e1
          rw [hst'] at e1'; cases e1'
          rw [(out.frame x hxc).1]; exact hN x (by omega)
        · have e1' : receive P.recvHeap t c k1 k2 = .ok t1 := e1
          unfold receive at e1'
          rw [if_neg hv] at e1'
          cases e1'
          exact hN x (by omega)
  exact key ops TSt.init s.t ⟨0, fun c _ => ⟨rfl, rfl⟩⟩ (fun c => ⟨[], RInv.init c⟩) A.t

/-- All sequences of the server's own steps are finite. -/
theorem own_acc {P : SrvProg U} {tr ops s} (h : SrvRun P srvInit tr ops s) : Acc (fun s' s => ∃ es os, OwnStep P s es os s') s := by
  obtain ⟨N, hN⟩ := run_away h
  obtain ⟨M, hM⟩ := run_idle (srv_parts h).m
  have key : ∀ r, ∀ (s : Srv U) tr ops, s.rank P N (M + 1) = r → SrvRun P srvInit tr ops s → Away N s.t → (∀ q, M + 1 ≤ q → s.m.pu q = .idle) →
      Acc (fun s' s => ∃ es os, OwnStep P s es os s') s := by
    intro r
    induction r using rankLt_wf.induction with
    | _ r ih =>
      intro s tr ops hr h hN hM
      refine Acc.intro _ ?_
      rintro s' ⟨es, os, hs⟩
      obtain ⟨h1, h2, h3⟩ := own_rank h hs N (M + 1) hN hM (by omega)
      exact ih _ (hr ▸ h1) s' _ _ rfl (.step h (own_step hs)) h2 h3
  exact key _ s tr ops rfl h hN (fun q hq => hM q (by omega))

end Fcgi.Model
