import Verif.Model.Server
/-! # The server as a run of its parts -/
namespace Fcgi.Model
open Fcgi.Spec

/-- One operation of the transceiver closes at most one connection and opens none. -/
theorem tstep_valid (g) (op : TOp) (t t' : TSt) (hb : ∀ s, BufInv (t.buffers s)) (h : op.step g t = .ok t') :
    ∃ c, ∀ x, (t'.conns x).valid = (t.conns x).valid ∨ (x = c ∧ (t'.conns x).valid = false) := by
  have hupd : ∀ (f : Nat → Conn) (c : Nat) (v : Conn), (v.valid = (f c).valid ∨ v.valid = false) →
      ∀ x, ((upd f c v) x).valid = (f x).valid ∨ (x = c ∧ ((upd f c v) x).valid = false) := by
    intro f c v hv x
    by_cases hx : x = c
    · subst hx; simp only [upd_self]; rcases hv with hv | hv <;> simp [hv]
    · exact Or.inl (by rw [upd_ne _ _ _ hx])
  have hclose : ∀ c : Conn, c.close.valid = false := by
    intro c; unfold Conn.close; split <;> simp_all
  cases op with
  | hangup s =>
    simp only [TOp.step, Res.ok.injEq] at h; subst h
    exact ⟨s, hupd _ _ _ (Or.inl rfl)⟩
  | arrive s d =>
    simp only [TOp.step, Res.ok.injEq] at h; subst h
    exact ⟨s, hupd _ _ _ (Or.inl rfl)⟩
  | receive s k1 k2 =>
    refine ⟨s, fun x => ?_⟩
    by_cases hv : (t.conns s).valid = true
    · obtain ⟨st2, h2, out⟩ := receive_spec g t s k1 k2 hv (hb s)
      simp only [TOp.step, h2, Res.ok.injEq] at h; subst h
      by_cases hx : x = s
      · subst hx
        cases hh : (st2.conns x).valid with
        | true => left; exact hv.symm
        | false => right; exact ⟨rfl, rfl⟩
      · rw [(out.frame x hx).1]; exact Or.inl rfl
    · simp only [TOp.step, receive, hv] at h
      simp at h
      subst h; exact Or.inl rfl
  | send s d k =>
    simp only [TOp.step, Res.ok.injEq] at h; subst h
    exact ⟨s, fun x => Or.inl rfl⟩
  | tx k =>
    simp only [TOp.step, Res.ok.injEq] at h; subst h
    unfold txStep
    split
    · split <;> exact ⟨0, fun x => Or.inl rfl⟩
    · rename_i r _
      have hw : (sockWrite k (t.conns r.sock) (r.data.drop r.read)).1.valid = (t.conns r.sock).valid ∨
          (sockWrite k (t.conns r.sock) (r.data.drop r.read)).1.valid = false := by
        unfold sockWrite
        split
        · exact Or.inl rfl
        · split
          · exact Or.inr (hclose _)
          · exact Or.inl rfl
          · exact Or.inl rfl
      generalize sockWrite k (t.conns r.sock) (r.data.drop r.read) = cs at hw
      obtain ⟨c, sent⟩ := cs
      refine ⟨r.sock, ?_⟩
      cases sent with
      | none => exact hupd _ _ _ hw
      | some n =>
        dsimp only
        split
        · exact hupd _ _ _ hw
        · split
          · intro x
            simp only [upd_upd]
            exact hupd _ _ _ (Or.inr (hclose _)) x
          · exact hupd _ _ _ hw
    · exact ⟨0, fun x => Or.inl rfl⟩

theorem mrun_trans_step {σ} {P : Prog σ} {a tr b es c} (h : MRun P a tr b) (h' : MStep P b es c) : MRun P a (tr ++ es) c := .step h h'

variable {U : Type} [Transmits U]

/-- hstep does not change what is valid. -/
theorem hstep_invalid {σ} (P : Prog σ) (t : Nat) (s : MSt σ) (es) (s') (h : hstep P t s = some (es, s')) : s'.invalid = s.invalid := by
  unfold hstep at h
  cases hp : s.th t <;> rw [hp] at h <;> dsimp only at h
  all_goals repeat' split at h
  all_goals first | (cases h; done) | (simp only [Option.some.injEq, Prod.mk.injEq] at h; obtain ⟨-, rfl⟩ := h; rfl)

theorem pstep_invalid {σ} (P : Prog σ) (p w : Nat) (s : MSt σ) (es) (s') (h : pstep P p w s = some (es, s')) : s'.invalid = s.invalid := by
  unfold pstep at h
  cases hp : s.pu p <;> rw [hp] at h <;> dsimp only at h
  all_goals repeat' split at h
  all_goals first | (cases h; done) | (simp only [Option.some.injEq, Prod.mk.injEq] at h; obtain ⟨-, rfl⟩ := h; rfl)

theorem estep_invalid {σ} (P : Prog σ) (e : Outer) (he : ∀ x, e ≠ .close x) (s : MSt σ) (es) (s') (h : estep P e s = some (es, s')) : s'.invalid = s.invalid := by
  unfold estep at h
  cases e <;> dsimp only at h
  all_goals repeat' split at h
  all_goals first | (cases h; done) | exact absurd rfl (he _) | (simp only [Option.some.injEq, Prod.mk.injEq] at h; obtain ⟨-, rfl⟩ := h; rfl)

/-- What a run of the server is for its parts. -/
structure Parts (P : SrvProg U) (tr : List MEvent) (ops : List TOp) (s : Srv U) : Prop where
  m : MRun P.prog (mInit none) tr s.m
  t : trun P.recvHeap TSt.init ops = .ok s.t
  v : s.m.invalid = fun x => !(s.t.conns x).valid

theorem around_close {e : Outer} (h : e.around = true) : ∀ x, e ≠ .close x := by
  intro x hx; subst hx; simp [Outer.around] at h

theorem parts_withT {P : SrvProg U} {tr ops s} (A : Parts P tr ops s) (op : TOp) {t'} (h : op.step P.recvHeap s.t = .ok t') :
    Parts P (tr ++ []) (ops ++ [op]) (s.withT t') := by
  obtain ⟨st1, h1, h2, _, _⟩ := init_run P.recvHeap ops
  rw [A.t] at h1; cases h1
  refine ⟨?_, ?_, rfl⟩
  · obtain ⟨c, hc⟩ := tstep_valid P.recvHeap op s.t t' (fun x => (h2 x).1) h
    by_cases hcv : (t'.conns c).valid = (s.t.conns c).valid
    · have : (s.withT t').m = s.m := by
        have : (fun x => !(t'.conns x).valid) = s.m.invalid := by
          rw [A.v]; funext x
          rcases hc x with hx | ⟨rfl, hx⟩
          · rw [hx]
          · rw [hcv]
        simp only [Srv.withT, this]
      rw [this, List.append_nil]; exact A.m
    · have hf : (t'.conns c).valid = false := by
        rcases hc c with hx | ⟨_, hx⟩
        · exact absurd hx hcv
        · exact hx
      refine .step A.m (.env (.close c) ?_)
      have : (fun x => !(t'.conns x).valid) = fun x => if x = c then true else s.m.invalid x := by
        rw [A.v]; funext x
        by_cases hx : x = c
        · subst hx; simp [hf]
        · rcases hc x with h' | ⟨h', _⟩
          · simp [h', hx]
          · exact absurd h' hx
      simp only [estep, Srv.withT, this]
  · rw [trun_append, A.t]
    simp [trun, h, Srv.withT]

theorem srv_parts {P : SrvProg U} {tr ops s} (h : SrvRun P srvInit tr ops s) : Parts P tr ops s := by
  induction h with
  | refl =>
    exact ⟨.refl _, rfl, by funext x; rfl⟩
  | step run hs ih =>
    have A := ih
    cases hs with
    | peer op ho h => exact parts_withT A op h
    | net op ho hi hg h => exact parts_withT A op h
    | give x hx h =>
      refine ⟨.step A.m (.env _ h), by rw [List.append_nil]; exact A.t, ?_⟩
      rw [← A.v]; exact estep_invalid _ _ (by simp) _ _ _ h
    | work t ho hl h =>
      exact ⟨.step A.m (.handler t h), by rw [List.append_nil]; exact A.t, by rw [← A.v]; exact hstep_invalid _ _ _ _ _ h⟩
    | send t x rest ho =>
      refine ⟨by rw [List.append_nil]; exact A.m, ?_, A.v⟩
      rw [trun_append, A.t]; rfl
    | again t l ho hl => exact ⟨by rw [List.append_nil]; exact A.m, by rw [List.append_nil]; exact A.t, A.v⟩
    | pusher p w h =>
      exact ⟨.step A.m (.pusher p w h), by rw [List.append_nil]; exact A.t, by rw [← A.v]; exact pstep_invalid _ _ _ _ _ _ h⟩
    | outer e he h =>
      exact ⟨.step A.m (.env e h), by rw [List.append_nil]; exact A.t, by rw [← A.v]; exact estep_invalid _ _ (around_close he) _ _ _ h⟩

/-! ### Messages on their way from the connection to the request -/

/-- The messages the manager has dealt with, by event. -/
def routedOf (tr : List MEvent) : List (RequestId × Message) :=
  tr.filterMap fun e => match e with
    | .created _ k m => some (k, m)
    | .accepted _ k m => some (k, m)
    | .dropped k m => some (k, m)
    | _ => none

theorem routedOf_append (a b) : routedOf (a ++ b) = routedOf a ++ routedOf b := by simp [routedOf]

/-- The message a call of `push` is dealing with. -/
def PPC.inHand : PPC → List (RequestId × Message)
  | .call k m | .route k m => [(k, m)]
  | _ => []

theorem hstep_routed {σ} (P : Prog σ) (t : Nat) (s : MSt σ) (es) (s') (h : hstep P t s = some (es, s')) :
    routedOf es = [] ∧ s'.pu = s.pu ∧ ∀ x, .lost x ∉ es := by
  unfold hstep at h
  cases hp : s.th t <;> rw [hp] at h <;> dsimp only at h
  all_goals repeat' split at h
  all_goals first | (cases h; done) | (simp only [Option.some.injEq, Prod.mk.injEq] at h; obtain ⟨rfl, rfl⟩ := h; exact ⟨rfl, rfl, by simp⟩)

theorem hstep_noted {σ} (P : Prog σ) (t : Nat) (s : MSt σ) (es) (s') (h : hstep P t s = some (es, s')) :
    (∀ m x, .noted m x ∉ es) ∧ (s'.messages = s.messages ∨ ∃ k m x, s.th t = .popped k ∧ k.id = 0 ∧ s.messages = (m, x) :: s'.messages) := by
  unfold hstep at h
  cases hp : s.th t <;> rw [hp] at h <;> dsimp only at h
  case popped k =>
    split at h
    · rename_i hk
      split at h
      · rename_i m x rest hm
        simp only [Option.some.injEq, Prod.mk.injEq] at h
        obtain ⟨rfl, rfl⟩ := h
        exact ⟨by simp, Or.inr ⟨k, m, x, rfl, hk, hm⟩⟩
      · simp only [Option.some.injEq, Prod.mk.injEq] at h
        obtain ⟨rfl, rfl⟩ := h
        exact ⟨by simp, Or.inl rfl⟩
    · split at h
      · simp only [Option.some.injEq, Prod.mk.injEq] at h
        obtain ⟨rfl, rfl⟩ := h
        exact ⟨by simp, Or.inl rfl⟩
      · cases h
  all_goals repeat' split at h
  all_goals first | (cases h; done) | (simp only [Option.some.injEq, Prod.mk.injEq] at h; obtain ⟨rfl, rfl⟩ := h; exact ⟨by simp, Or.inl rfl⟩)

theorem pstep_routed {σ} (P : Prog σ) (p w : Nat) (s : MSt σ) (es) (s') (h : pstep P p w s = some (es, s'))
    (hd : ∀ x ∈ (s.pu p).inHand, x.2.type = 0 → 2 ≤ x.2.data.length) :
    (s.pu p).inHand = routedOf es ++ (s'.pu p).inHand ∧ (∀ q, q ≠ p → s'.pu q = s.pu q) ∧ ∀ x, .lost x ∉ es := by
  have hpu : ∀ (s : MSt σ) (p : Nat) (pc : PPC), (∀ q, q ≠ p → (s.pgoto p pc).pu q = s.pu q) := by
    intro s p pc q hq; simp [MSt.pgoto, put, hq]
  have hps : ∀ (s : MSt σ) (p : Nat) (pc : PPC), (s.pgoto p pc).pu p = pc := by
    intro s p pc; simp [MSt.pgoto, put]
  unfold pstep at h
  cases hp : s.pu p <;> rw [hp] at h <;> dsimp only at h
  all_goals repeat' split at h
  all_goals first
    | (cases h; done)
    | (simp only [Option.some.injEq, Prod.mk.injEq] at h; obtain ⟨rfl, rfl⟩ := h
       refine ⟨?_, hpu _ _ _, by simp⟩
       rw [hps]; first | rfl | (exfalso; simp_all [PPC.inHand]; done) | (exfalso; simp_all [PPC.inHand]; omega))


theorem estep_push {σ} (P : Prog σ) (p : Nat) (k : RequestId) (m : Message) (s : MSt σ) (es) (s') (h : estep P (.push p k m) s = some (es, s')) :
    s.pu p = .idle ∧ es = (if k.id = 0xffff then [.lost k.socket] else []) ∧
      s' = s.pgoto p (if k.id = 0 then .note k m else if k.id = 0xffff then .lost k.socket else .call k m) := by
  simp only [estep] at h
  split at h
  · rename_i hi
    simp only [Option.some.injEq, Prod.mk.injEq] at h
    exact ⟨hi, h.1.symm, h.2.symm⟩
  · cases h

theorem estep_other {σ} (P : Prog σ) (e : Outer) (he : ∀ p k m, e ≠ .push p k m) (s : MSt σ) (es) (s') (h : estep P e s = some (es, s')) :
    es = [] ∧ s'.pu = s.pu ∧ s'.messages = s.messages := by
  unfold estep at h
  cases e <;> dsimp only at h
  all_goals repeat' split at h
  all_goals first | (cases h; done) | exact absurd rfl (he _ _ _) | (simp only [Option.some.injEq, Prod.mk.injEq] at h; obtain ⟨rfl, rfl⟩ := h; exact ⟨rfl, rfl, rfl⟩)

theorem pstep_noted {σ} (P : Prog σ) (p w : Nat) (s : MSt σ) (es) (s') (h : pstep P p w s = some (es, s')) :
    (∀ k m, s'.pu p ≠ .note k m) ∧
    ((∀ m x, .noted m x ∉ es) ∧ s'.messages = s.messages ∨ ∃ k m, s.pu p = .note k m ∧ es = [.noted m k.socket] ∧ s'.messages = s.messages ++ [(m, k.socket)]) := by
  have hps : ∀ (s : MSt σ) (p : Nat) (pc : PPC), (s.pgoto p pc).pu p = pc := by
    intro s p pc; simp [MSt.pgoto, put]
  unfold pstep at h
  cases hp : s.pu p <;> rw [hp] at h <;> dsimp only at h
  case note k m =>
    simp only [Option.some.injEq, Prod.mk.injEq] at h; obtain ⟨rfl, rfl⟩ := h
    exact ⟨by simp [hps], Or.inr ⟨k, m, rfl, rfl, rfl⟩⟩
  all_goals repeat' split at h
  all_goals first
    | (cases h; done)
    | (simp only [Option.some.injEq, Prod.mk.injEq] at h; obtain ⟨rfl, rfl⟩ := h
       first | exact ⟨by simp [hps], Or.inl ⟨by simp, rfl⟩⟩ | (exfalso; simp_all; done))

/-- A message of the transceiver as the message for a request it is, if any. -/
def toRoute (x : Msg) : Option (RequestId × Message) :=
  if x.id.id = 0 ∨ x.id.id = 0xffff then none else some (x.id, ⟨0, x.data⟩)

theorem tstep_msgs (g) (op : TOp) (t t' : TSt) (hb : ∀ s, BufInv (t.buffers s)) (h : op.step g t = .ok t') : t.msgs <+: t'.msgs := by
  cases op with
  | hangup s => simp only [TOp.step, Res.ok.injEq] at h; subst h; exact List.prefix_refl _
  | arrive s d => simp only [TOp.step, Res.ok.injEq] at h; subst h; exact List.prefix_refl _
  | receive s k1 k2 =>
    by_cases hv : (t.conns s).valid = true
    · obtain ⟨st2, h2, out⟩ := receive_spec g t s k1 k2 hv (hb s)
      simp only [TOp.step, h2, Res.ok.injEq] at h; subst h
      obtain ⟨data, _, hcase⟩ := out.main
      rcases hcase with ⟨c1, c2, c3, c4⟩ | ⟨c1, c2, c3, c4⟩ | ⟨c0, c1, c2, c3⟩
      · rw [c2]; exact List.prefix_refl _
      · rw [c4]; exact List.prefix_append _ _
      · rw [c3]; exact List.prefix_append _ _
    · simp only [TOp.step, receive, hv] at h
      simp at h
      subst h; exact List.prefix_refl _
  | send s d k => simp only [TOp.step, Res.ok.injEq] at h; subst h; exact List.prefix_refl _
  | tx k =>
    simp only [TOp.step, Res.ok.injEq] at h; subst h
    unfold txStep
    split
    · split <;> exact List.prefix_refl _
    · rename_i r _
      generalize sockWrite k (t.conns r.sock) (r.data.drop r.read) = cs
      obtain ⟨c, sent⟩ := cs
      cases sent with
      | none => exact List.prefix_refl _
      | some n =>
        dsimp only
        split
        · exact List.prefix_refl _
        · split <;> exact List.prefix_refl _
    · exact List.prefix_refl _

theorem msg_complete (g) (ops : List TOp) (t : TSt) (h : trun g TSt.init ops = .ok t) (x : Msg) (hx : x ∈ t.msgs) :
    (x = goneMsg x.id.socket) ∨ (Complete x.data ∧ x.id.id = UInt16.ofNat (frameId x.data)) := by
  obtain ⟨st1, h1, h2, _, _⟩ := init_run g ops
  rw [h] at h1; cases h1
  obtain ⟨hb, ds, gs, c1, c2, _, c4⟩ := h2 x.id.socket
  have : x ∈ msgsOf x.id.socket t := by simp [msgsOf, hx]
  rw [c2] at this
  rcases List.mem_append.1 this with h' | h'
  · obtain ⟨d, hd, hxd⟩ := List.mem_map.1 h'
    rw [← hxd]
    exact Or.inr ⟨c1 d hd, rfl⟩
  · left
    rcases c4 with ⟨rfl, _⟩ | ⟨rfl, _⟩
    · cases h'
    · simpa using h'

structure SRInv (tr : List MEvent) (s : Srv U) : Prop where
  le : s.given ≤ s.t.msgs.length
  rt : (s.t.msgs.take s.given).filterMap toRoute = (routedOf tr).filter (fun x => x.2.type = 0) ++ (s.m.pu 0).inHand
  c0 : ∀ x ∈ (s.m.pu 0).inHand, x.2.type = 0 ∧ 8 ≤ x.2.data.length
  ct : ∀ p, p ≠ 0 → ∀ x ∈ (s.m.pu p).inHand, x.2.type ≠ 0
  ls : ∀ x, .lost x ∈ tr → ∃ y ∈ s.t.msgs, y.id = ⟨x, 0xffff⟩
  pn : ∀ p k m, s.m.pu p = .note k m → ∃ y ∈ s.t.msgs, y.id = ⟨k.socket, 0⟩
  nt : ∀ m x, .noted m x ∈ tr → ∃ y ∈ s.t.msgs, y.id = ⟨x, 0⟩
  mm : ∀ m x, (m, x) ∈ s.m.messages → ∃ y ∈ s.t.msgs, y.id = ⟨x, 0⟩

theorem srinv_withT {P : SrvProg U} {tr ops s} (A : Parts P tr ops s) (R : SRInv tr s) (op : TOp) {t'} (h : op.step P.recvHeap s.t = .ok t') :
    SRInv (tr ++ []) (s.withT t') := by
  obtain ⟨st1, h1, h2, _, _⟩ := init_run P.recvHeap ops
  rw [A.t] at h1; cases h1
  obtain ⟨new, hn⟩ := tstep_msgs P.recvHeap op s.t t' (fun x => (h2 x).1) h
  have hm : ∀ {Q : Msg → Prop}, (∃ y ∈ s.t.msgs, Q y) → ∃ y ∈ t'.msgs, Q y := by
    rintro Q ⟨y, hy, hq⟩; exact ⟨y, by rw [← hn]; simp [hy], hq⟩
  have le := R.le
  rw [List.append_nil]
  refine ⟨?_, ?_, R.c0, R.ct, fun x hx => hm (R.ls x hx), fun p k m hp => hm (R.pn p k m hp), fun m x hx => hm (R.nt m x hx), fun m x hx => hm (R.mm m x hx)⟩
  · simp only [Srv.withT]; rw [← hn]; simp; omega
  · simp only [Srv.withT]; rw [← hn, List.take_append_of_le_length le]; exact R.rt

theorem srv_routed {P : SrvProg U} {tr ops s} (h : SrvRun P srvInit tr ops s) : SRInv tr s := by
  induction h with
  | refl => exact ⟨by simp [srvInit], by simp [srvInit, routedOf, mInit, PPC.inHand], by simp [srvInit, mInit, PPC.inHand], by simp [srvInit, mInit, PPC.inHand], by simp, by simp [srvInit, mInit], by simp, by simp [srvInit, mInit]⟩
  | step run hs R =>
    rename_i tr ops s' es os s''
    have A := srv_parts run
    cases hs with
    | peer op ho h => exact srinv_withT A R op h
    | net op ho hi hg h => exact srinv_withT A R op h
    | send t x rest ho =>
      rw [List.append_nil]
      exact ⟨R.le, R.rt, R.c0, R.ct, R.ls, R.pn, R.nt, R.mm⟩
    | again t l ho hl =>
      rw [List.append_nil]
      exact ⟨R.le, R.rt, R.c0, R.ct, R.ls, R.pn, R.nt, R.mm⟩
    | work t ho hl h =>
      obtain ⟨h1, h2, h3⟩ := hstep_routed _ _ _ _ _ h
      obtain ⟨h4, h5⟩ := hstep_noted _ _ _ _ _ h
      refine ⟨R.le, ?_, ?_, ?_, ?_, ?_, ?_, ?_⟩ <;> dsimp only <;> (try rw [h2])
      · rw [routedOf_append, h1, List.append_nil]; exact R.rt
      · exact R.c0
      · exact R.ct
      · intro x hx
        rcases List.mem_append.1 hx with hx | hx
        · exact R.ls x hx
        · exact absurd hx (h3 x)
      · exact R.pn
      · intro m x hx
        rcases List.mem_append.1 hx with hx | hx
        · exact R.nt m x hx
        · exact absurd hx (h4 m x)
      · intro m x hx
        rcases h5 with h5 | ⟨_, m0, x0, _, _, h5⟩
        · rw [h5] at hx; exact R.mm m x hx
        · exact R.mm m x (by rw [h5]; simp [hx])
    | pusher p w h =>
      have hd : ∀ x ∈ (s'.m.pu p).inHand, x.2.type = 0 → 2 ≤ x.2.data.length := by
        intro x hx h0
        by_cases hp : p = 0
        · subst hp; have := (R.c0 x hx).2; omega
        · exact absurd h0 (R.ct p hp x hx)
      obtain ⟨h1, h2, h3⟩ := pstep_routed _ _ _ _ _ _ h hd
      obtain ⟨h4, h5⟩ := pstep_noted _ _ _ _ _ _ h
      refine ⟨R.le, ?_, ?_, ?_, ?_, ?_, ?_, ?_⟩ <;> dsimp only
      · rw [R.rt, routedOf_append, List.filter_append, List.append_assoc]
        congr 1
        by_cases hp : p = 0
        · subst hp
          rw [h1]
          congr 1
          symm
          rw [List.filter_eq_self]
          intro x hx
          simp [(R.c0 x (by rw [h1]; simp [hx])).1]
        · rw [h2 0 (Ne.symm hp)]
          have : (routedOf es).filter (fun x => x.2.type = 0) = [] := by
            rw [List.filter_eq_nil_iff]
            intro x hx
            simp [R.ct p hp x (by rw [h1]; simp [hx])]
          rw [this]; rfl
      · intro x hx
        by_cases hp : p = 0
        · subst hp; exact R.c0 x (by rw [h1]; simp [hx])
        · rw [h2 0 (Ne.symm hp)] at hx; exact R.c0 x hx
      · intro q hq x hx
        by_cases hqp : q = p
        · subst hqp; exact R.ct q hq x (by rw [h1]; simp [hx])
        · rw [h2 q hqp] at hx; exact R.ct q hq x hx
      · intro x hx
        rcases List.mem_append.1 hx with hx | hx
        · exact R.ls x hx
        · exact absurd hx (h3 x)
      · intro q k m hq
        by_cases hqp : q = p
        · subst hqp; exact absurd hq (h4 k m)
        · rw [h2 q hqp] at hq; exact R.pn q k m hq
      · intro m x hx
        rcases List.mem_append.1 hx with hx | hx
        · exact R.nt m x hx
        · rcases h5 with ⟨h5, _⟩ | ⟨k, m', h5, h6, _⟩
          · exact absurd hx (h5 m x)
          · rw [h6] at hx
            simp only [List.mem_singleton, MEvent.noted.injEq] at hx
            rw [hx.2]; exact R.pn p k m' h5
      · intro m x hx
        rcases h5 with ⟨_, h5⟩ | ⟨k, m', h5, _, h6⟩
        · rw [h5] at hx; exact R.mm m x hx
        · rw [h6] at hx
          rcases List.mem_append.1 hx with hx | hx
          · exact R.mm m x hx
          · simp only [List.mem_singleton, Prod.mk.injEq] at hx
            rw [hx.2]; exact R.pn p k m' h5
    | outer e he h =>
      by_cases hpush : ∃ p k m, e = .push p k m
      · obtain ⟨p, k, m, rfl⟩ := hpush
        simp only [Outer.around, Bool.and_eq_true, decide_eq_true_eq, ne_eq] at he
        obtain ⟨⟨⟨he1, he2⟩, he3⟩, he4⟩ := he
        obtain ⟨hi, rfl, rfl⟩ := estep_push _ _ _ _ _ _ _ h
        simp only [if_neg he3, if_neg he4, List.append_nil]
        have hpu : ∀ q, q ≠ p → (s'.m.pgoto p (.call k m)).pu q = s'.m.pu q := fun q hq => by simp [MSt.pgoto, put, hq]
        have hpp : (s'.m.pgoto p (.call k m)).pu p = .call k m := by simp [MSt.pgoto, put]
        refine ⟨R.le, ?_, ?_, ?_, R.ls, ?_, R.nt, R.mm⟩ <;> dsimp only
        · rw [hpu 0 (Ne.symm he1)]; exact R.rt
        · rw [hpu 0 (Ne.symm he1)]; exact R.c0
        · intro q hq x hx
          by_cases hqp : q = p
          · subst hqp
            rw [hpp] at hx
            simp only [PPC.inHand, List.mem_singleton] at hx
            subst hx; exact he2
          · rw [hpu q hqp] at hx; exact R.ct q hq x hx
        · intro q k' m' hq
          by_cases hqp : q = p
          · subst hqp; rw [hpp] at hq; cases hq
          · rw [hpu q hqp] at hq; exact R.pn q k' m' hq
      · obtain ⟨rfl, h1, h2⟩ := estep_other _ _ (fun p k m hh => hpush ⟨p, k, m, hh⟩) _ _ _ h
        rw [List.append_nil]
        refine ⟨R.le, ?_, ?_, ?_, R.ls, ?_, R.nt, ?_⟩ <;> dsimp only <;> (try rw [h1]) <;> (try rw [h2])
        · exact R.rt
        · exact R.c0
        · exact R.ct
        · exact R.pn
        · exact R.mm
    | give x hx h =>
      obtain ⟨hi, rfl, rfl⟩ := estep_push _ _ _ _ _ _ _ h
      have hxm : x ∈ s'.t.msgs := List.mem_of_getElem? hx
      have hlt : s'.given < s'.t.msgs.length := (List.getElem?_eq_some_iff.1 hx).1
      have hr := R.rt
      rw [hi] at hr
      simp only [PPC.inHand, List.append_nil] at hr
      have htake : (s'.t.msgs.take (s'.given + 1)).filterMap toRoute = (s'.t.msgs.take s'.given).filterMap toRoute ++ (toRoute x).toList := by
        rw [List.take_add_one, hx, List.filterMap_append]
        cases hh : toRoute x <;> simp [hh]
      have hpu : ∀ pc, ∀ q, q ≠ 0 → (s'.m.pgoto 0 pc).pu q = s'.m.pu q := fun pc q hq => by simp [MSt.pgoto, put, hq]
      have hpp : ∀ pc, (s'.m.pgoto 0 pc).pu 0 = pc := fun pc => by simp [MSt.pgoto, put]
      have hin : (if x.id.id = 0 then PPC.note x.id ⟨0, x.data⟩ else if x.id.id = 0xffff then .lost x.id.socket else .call x.id ⟨0, x.data⟩).inHand =
          (toRoute x).toList := by
        unfold toRoute
        by_cases h0 : x.id.id = 0
        · simp [h0, PPC.inHand]
        · by_cases h1 : x.id.id = 0xffff
          · simp [h1, PPC.inHand]
          · simp [h0, h1, PPC.inHand]
      refine ⟨hlt, ?_, ?_, ?_, ?_, ?_, ?_, R.mm⟩ <;> dsimp only
      · rw [htake, hpp, hin, hr, routedOf_append, List.filter_append]
        have : routedOf (if x.id.id = 0xffff then [MEvent.lost x.id.socket] else []) = [] := by split <;> rfl
        rw [this]; simp
      · rw [hpp, hin]
        intro y hy
        unfold toRoute at hy
        split at hy
        · simp at hy
        · rename_i h0
          simp only [Option.toList, List.mem_singleton] at hy
          subst hy
          refine ⟨rfl, ?_⟩
          rcases msg_complete _ _ _ A.t x hxm with hc | hc
          · exfalso; apply h0; right; rw [hc]; rfl
          · exact hc.1.1
      · intro p hp y hy
        rw [hpu _ p hp] at hy; exact R.ct p hp y hy
      · intro y hy
        rcases List.mem_append.1 hy with hy | hy
        · exact R.ls y hy
        · split at hy
          · rename_i hk
            simp only [List.mem_singleton, MEvent.lost.injEq] at hy
            exact ⟨x, hxm, by rw [hy, ← hk]⟩
          · cases hy
      · intro p k m hp
        by_cases hp0 : p = 0
        · subst hp0
          rw [hpp] at hp
          split at hp
          · rename_i hk
            injection hp with e1 e2
            exact ⟨x, hxm, by rw [← e1, ← hk]⟩
          · split at hp <;> cases hp
        · rw [hpu _ p hp0] at hp; exact R.pn p k m hp
      · intro m y hy
        rcases List.mem_append.1 hy with hy | hy
        · exact R.nt m y hy
        · split at hy <;> simp at hy

end Fcgi.Model
