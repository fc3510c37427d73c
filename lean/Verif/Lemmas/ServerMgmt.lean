import Verif.Lemmas.ManagerOwn
import Verif.Lemmas.ServerAll
/-! # What is sent in answer to management records -/
namespace Fcgi.Model
open Fcgi.Spec
variable {U : Type} [Transmits U]

/-- A message of the transceiver as the management message it is, if any. -/
def toNote (x : Msg) : Option (Message × Nat) := if x.id.id = 0 then some (⟨0, x.data⟩, x.id.socket) else none

def PPC.inNote : PPC → List (Message × Nat)
  | .note k m => [(m, k.socket)]
  | _ => []

/-- Everything passed to `Transceiver::send`. -/
def sentAll (ops : List TOp) : List (Nat × Bytes × Bool) :=
  ops.filterMap fun | .send c d k => some (c, d, k) | _ => none

theorem sentAll_append (a b) : sentAll (a ++ b) = sentAll a ++ sentAll b := by simp [sentAll]

theorem sentTo_all (c : Nat) (ops : List TOp) : sentTo c ops = ((sentAll ops).filter (fun x => x.1 = c)).map Prod.snd := by
  induction ops with
  | nil => rfl
  | cons op ops ih =>
    have h1 : sentTo c (op :: ops) = sentTo c [op] ++ sentTo c ops := by simp [sentTo]
    have h2 : sentAll (op :: ops) = sentAll [op] ++ sentAll ops := sentAll_append [op] ops
    rw [h1, h2, List.filter_append, List.map_append, ih]
    congr 1
    cases op with
    | send t d k =>
      by_cases h : t = c <;> simp [sentTo, sentAll, h]
    | _ => rfl

/-- The answers to management messages. -/
def answersTo (g : Nat → UInt8) (l : List (Message × Nat)) : List (Nat × Bytes × Bool) := l.flatMap fun y => (mgmtSends g y.1 y.2).1

theorem pstep_inNote {σ} {P : Prog σ} {p w : Nat} {s : MSt σ} {es} {s'} (h : pstep P p w s = some (es, s')) :
    (s.pu p).inNote = notedOf es ++ (s'.pu p).inNote ∧ (∀ q, q ≠ p → s'.pu q = s.pu q) := by
  refine ⟨?_, (pstep_others P p w s es s' h).2.1⟩
  have hps : ∀ (s : MSt σ) (p : Nat) (pc : PPC), (s.pgoto p pc).pu p = pc := by
    intro s p pc; simp [MSt.pgoto, put]
  unfold pstep at h
  cases hp : s.pu p <;> rw [hp] at h <;> dsimp only at h
  all_goals repeat' split at h
  all_goals first
    | (cases h; done)
    | (simp only [Option.some.injEq, Prod.mk.injEq] at h; obtain ⟨rfl, rfl⟩ := h
       rw [hps]; first | rfl | (exfalso; simp_all [PPC.inNote]; done))

theorem hstep_sends {U : Type} [Transmits U] {P : Prog (Option U)} {g : Nat → UInt8} {t : Nat} {s : MSt (Option U)} {es} {s'} (h : hstep P t s = some (es, s')) :
    (managedOf es = [] ∧ ((∃ k r m, s.th t = .work k r m) ∧ (sendsOf g t s s').2 = false ∨ sendsOf g t s s' = ([], false))) ∨
    ∃ m x, managedOf es = [(m, x)] ∧ sendsOf g t s s' = mgmtSends g m x ∧ s'.th t = .relock := by
  unfold hstep at h
  cases hp : s.th t <;> rw [hp] at h <;> dsimp only at h
  case work k r m =>
    left
    simp only [Option.some.injEq, Prod.mk.injEq] at h; obtain ⟨rfl, rfl⟩ := h
    refine ⟨rfl, Or.inl ⟨⟨k, r, m, rfl⟩, ?_⟩⟩
    simp only [sendsOf, hp]; split <;> rfl
  case popped k =>
    split at h
    · rename_i hk
      split at h
      · rename_i m x rest hm
        simp only [Option.some.injEq, Prod.mk.injEq] at h; obtain ⟨rfl, rfl⟩ := h
        right
        exact ⟨m, x, rfl, by simp only [sendsOf, hp, hk, if_true, hm], by simp [MSt.goto, put]⟩
      · rename_i hm
        simp only [Option.some.injEq, Prod.mk.injEq] at h; obtain ⟨rfl, rfl⟩ := h
        left
        exact ⟨rfl, Or.inr (by simp only [sendsOf, hp, hk, if_true, hm])⟩
    · rename_i hk
      split at h
      · simp only [Option.some.injEq, Prod.mk.injEq] at h; obtain ⟨rfl, rfl⟩ := h
        left
        exact ⟨rfl, Or.inr (by simp only [sendsOf, hp, if_neg hk])⟩
      · cases h
  all_goals repeat' split at h
  all_goals first
    | (cases h; done)
    | (simp only [Option.some.injEq, Prod.mk.injEq] at h; obtain ⟨rfl, rfl⟩ := h
       exact Or.inl ⟨rfl, Or.inr (by simp only [sendsOf, hp])⟩)

/-- Threads that do not exist have nothing to send. -/
theorem srv_off {P : SrvProg U} {tr ops s} (h : SrvRun P srvInit tr ops s) : ∀ t, P.threads ≤ t → s.out t = [] ∧ s.loops t = none := by
  induction h with
  | refl => intro t _; exact ⟨rfl, rfl⟩
  | step run hs ih =>
    intro t ht
    have I := (run_kq (srv_parts run).m).1
    have ih := ih t ht
    cases hs with
    | work t' ho hl h =>
      have hne : t ≠ t' := by
        intro hh; subst hh
        unfold hstep at h
        rw [I.off t ht] at h
        cases h
      dsimp only
      rw [put_other _ _ _ hne, put_other _ _ _ hne]; exact ih
    | send t' x rest ho =>
      have hne : t ≠ t' := by
        intro hh; subst hh; rw [ih.1] at ho; cases ho
      dsimp only
      rw [put_other _ _ _ hne]; exact ih
    | again t' l ho hl =>
      have hne : t ≠ t' := by
        intro hh; subst hh; rw [ih.2] at hl; cases hl
      dsimp only
      rw [put_other _ _ _ hne]; exact ih
    | _ => exact ih

structure SMInv (P : SrvProg U) (tr : List MEvent) (ops : List TOp) (s : Srv U) : Prop where
  np : ∀ p, p ≠ 0 → (s.m.pu p).inNote = []
  nt : (s.t.msgs.take s.given).filterMap toNote = notedOf tr ++ (s.m.pu 0).inNote
  lr : ∀ t, s.loops t ≠ none → s.m.th t = .relock
  lm : ∀ y ∈ managedOf tr, (mgmtSends P.replyHeap y.1 y.2).2 = true → ∃ t, s.loops t ≠ none
  os : ∀ t, ∀ x ∈ s.out t, frameId x.2.1 = 0 → x ∈ answersTo P.replyHeap (managedOf tr)
  ls : ∀ t l, s.loops t = some l → ∀ x ∈ l, x ∈ answersTo P.replyHeap (managedOf tr)
  ss : ∀ x ∈ sentAll ops, frameId x.2.1 = 0 → x ∈ answersTo P.replyHeap (managedOf tr)
  ct : (∃ t, s.loops t ≠ none) ∨ ∀ v : Nat × Bytes × Bool, frameId v.2.1 = 0 →
    (sentAll ops).count v + total (fun t => (s.out t).count v) P.threads = (answersTo P.replyHeap (managedOf tr)).count v

theorem sm_keep {P : SrvProg U} {tr ops es os} {s s' : Srv U} (J : SMInv P tr ops s)
    (h1 : ∀ p, p ≠ 0 → (s'.m.pu p).inNote = []) (h2 : (s'.t.msgs.take s'.given).filterMap toNote = notedOf (tr ++ es) ++ (s'.m.pu 0).inNote)
    (h3 : ∀ t, s.m.th t = .relock → s'.m.th t = .relock) (h4 : managedOf es = []) (h5 : s'.out = s.out) (h6 : s'.loops = s.loops) (h7 : sentAll os = []) :
    SMInv P (tr ++ es) (ops ++ os) s' := by
  have e1 : managedOf (tr ++ es) = managedOf tr := by rw [managedOf_append, h4, List.append_nil]
  have e2 : sentAll (ops ++ os) = sentAll ops := by rw [sentAll_append, h7, List.append_nil]
  refine ⟨h1, h2, ?_, ?_, ?_, ?_, ?_, ?_⟩ <;> (try rw [e1]) <;> (try rw [e2]) <;> (try rw [h5]) <;> (try rw [h6])
  · intro t ht; exact h3 t (J.lr t ht)
  · exact J.lm
  · exact J.os
  · exact J.ls
  · exact J.ss
  · exact J.ct

theorem srv_mgmt {P : SrvProg U} [OfLibrary P] {tr ops s} (h : SrvRun P srvInit tr ops s) : SMInv P tr ops s := by
  induction h with
  | refl =>
    refine ⟨by simp [srvInit, mInit, PPC.inNote], by simp [srvInit, mInit, PPC.inNote, notedOf], by simp [srvInit], by simp [managedOf], by simp [srvInit],
      by simp [srvInit], by simp [sentAll], Or.inr ?_⟩
    intro v _
    have : ∀ n, total (fun _ => 0) n = 0 := by
      intro n; induction n with
      | zero => rfl
      | succ n ih => simp [total, ih]
    simp [sentAll, srvInit, answersTo, managedOf, this]
  | step run hs J =>
    rename_i tr ops s' es os s''
    have A := srv_parts run
    have R := srv_routed run
    obtain ⟨I, S, K, Q⟩ := run_kq A.m
    have JJ := srv_sends (SrvRun.step run hs)
    have byT : ∀ (op : TOp) {t'}, (op.byPeer = true ∨ op.byThread = true) → op.step P.recvHeap s'.t = .ok t' → SMInv P (tr ++ []) (ops ++ [op]) (s'.withT t') := by
      intro op t' ho h
      obtain ⟨st1, h1, h2, _, _⟩ := init_run P.recvHeap ops
      rw [A.t] at h1; cases h1
      obtain ⟨new, hn⟩ := tstep_msgs P.recvHeap op s'.t t' (fun x => (h2 x).1) h
      refine sm_keep J J.np ?_ (fun t h => h) rfl rfl rfl ?_
      · simp only [Srv.withT]; rw [← hn, List.take_append_of_le_length R.le, List.append_nil]; exact J.nt
      · cases op <;> simp [TOp.byPeer, TOp.byThread] at ho <;> rfl
    cases hs with
    | peer op ho h => exact byT op (Or.inl ho) h
    | net op ho hi hg h => exact byT op (Or.inr ho) h
    | pusher p w h =>
      obtain ⟨h1, h2⟩ := pstep_inNote h
      obtain ⟨h3, h4⟩ := pstep_own h
      refine sm_keep J ?_ ?_ ?_ h3 rfl rfl rfl
      · intro q hq
        dsimp only
        by_cases hqp : q = p
        · subst hqp
          have := J.np q hq
          rw [h1] at this
          exact (List.append_eq_nil_iff.1 this).2
        · rw [h2 q hqp]; exact J.np q hq
      · dsimp only
        rw [notedOf_append, J.nt, List.append_assoc]
        congr 1
        by_cases hp : p = 0
        · subst hp; exact h1
        · rw [h2 0 (Ne.symm hp)]
          have := J.np p hp
          rw [h1] at this
          rw [(List.append_eq_nil_iff.1 this).1]; rfl
      · intro t ht
        rcases (pstep_others _ _ _ _ _ _ h).1 t with e | ⟨e, _⟩
        · dsimp only; rw [e]; exact ht
        · rw [e] at ht; cases ht
    | outer e he h =>
      by_cases hpush : ∃ p k m, e = .push p k m
      · obtain ⟨p, k, m, rfl⟩ := hpush
        simp only [Outer.around, Bool.and_eq_true, decide_eq_true_eq, ne_eq] at he
        obtain ⟨⟨⟨he1, he2⟩, he3⟩, he4⟩ := he
        obtain ⟨hi, rfl, rfl⟩ := estep_push _ _ _ _ _ _ _ h
        simp only [if_neg he3, if_neg he4]
        refine sm_keep J ?_ ?_ (fun t h => h) rfl rfl rfl rfl
        · intro q hq
          simp only [MSt.pgoto, put]
          split
          · rfl
          · exact J.np q hq
        · simp only [MSt.pgoto]
          rw [put_other _ _ _ (Ne.symm he1), List.append_nil]; exact J.nt
      · obtain ⟨rfl, h1, h2⟩ := estep_other _ _ (fun p k m hh => hpush ⟨p, k, m, hh⟩) _ _ _ h
        refine sm_keep J ?_ ?_ ?_ rfl rfl rfl rfl
        · dsimp only; rw [h1]; exact J.np
        · dsimp only; rw [h1, List.append_nil]; exact J.nt
        · intro t ht
          dsimp only
          unfold estep at h
          cases e <;> dsimp only at h
          case push p k m => exact absurd ⟨p, k, m, rfl⟩ hpush
          case join =>
            split at h
            · rename_i hj
              exfalso
              by_cases hlt : t < P.prog.threads
              · rcases hj t (List.mem_range.2 hlt) with e | e <;> rw [e] at ht <;> cases ht
              · rw [I.off t (by omega)] at ht; cases ht
            · cases h
          case spurious x =>
            split at h
            · rename_i hx
              cases h
              simp only [MSt.goto]
              rw [put_other _ _ _ (by rintro rfl; rw [hx] at ht; cases ht)]; exact ht
            · cases h
          all_goals repeat' split at h
          all_goals first
            | (cases h; done)
            | (cases h; simp [MSt.notifyAll, ht]; done)
            | (cases h; exact ht)
    | give x hx h =>
      obtain ⟨hi, rfl, rfl⟩ := estep_push _ _ _ _ _ _ _ h
      have hr := J.nt
      rw [hi] at hr
      simp only [PPC.inNote, List.append_nil] at hr
      have htake : (s'.t.msgs.take (s'.given + 1)).filterMap toNote = (s'.t.msgs.take s'.given).filterMap toNote ++ (toNote x).toList := by
        rw [List.take_add_one, hx, List.filterMap_append]
        cases hh : toNote x <;> simp [hh]
      refine sm_keep J ?_ ?_ (fun t h => h) ?_ rfl rfl rfl
      · intro q hq
        simp only [MSt.pgoto]
        rw [put_other _ _ _ hq]; exact J.np q hq
      · dsimp only
        rw [htake, hr, notedOf_append]
        simp only [MSt.pgoto, put_same]
        unfold toNote
        by_cases h0 : x.id.id = 0
        · simp [h0, notedOf, PPC.inNote]
        · by_cases h1 : x.id.id = 0xffff
          · simp [h1, notedOf, PPC.inNote]
          · simp [h0, h1, notedOf, PPC.inNote]
      · split <;> rfl
    | again t l ho hl =>
      rw [List.append_nil, List.append_nil]
      refine ⟨J.np, J.nt, J.lr, J.lm, ?_, J.ls, J.ss, Or.inl ⟨t, by rw [hl]; simp⟩⟩
      intro u x hx h0
      simp only [put] at hx
      split at hx
      · exact J.ls t l hl x hx
      · exact J.os u x hx h0
    | send t x rest ho =>
      rw [List.append_nil]
      have hlt : t < P.threads := by
        by_cases hlt : t < P.threads
        · exact hlt
        · have := (srv_off run t (by omega)).1
          rw [ho] at this; cases this
      have hsa : sentAll (ops ++ [.send x.1 x.2.1 x.2.2]) = sentAll ops ++ [x] := by rw [sentAll_append]; rfl
      refine ⟨J.np, J.nt, J.lr, J.lm, ?_, J.ls, ?_, ?_⟩
      · intro u y hy h0
        simp only [put] at hy
        split at hy
        · exact J.os t y (by rw [ho]; simp [hy]) h0
        · exact J.os u y hy h0
      · intro y hy h0
        rw [hsa] at hy
        rcases List.mem_append.1 hy with hy | hy
        · exact J.ss y hy h0
        · simp only [List.mem_singleton] at hy
          subst hy
          exact J.os t y (by rw [ho]; simp) h0
      · rcases J.ct with h | h
        · exact Or.inl h
        · refine Or.inr fun v hv => ?_
          rw [← h v hv, hsa, List.count_append]
          have := total_put (fun l : List (Nat × Bytes × Bool) => l.count v) s'.out hlt rest
          rw [ho] at this
          simp only [List.count_cons, List.count_nil] at this ⊢
          omega
    | work t ho hl h =>
      rename_i m'
      have hlt : t < P.threads := by
        by_cases hlt : t < P.threads
        · exact hlt
        · exfalso
          unfold hstep at h
          rw [I.off t (Nat.le_of_not_lt hlt)] at h
          cases h
      rw [List.append_nil]
      obtain ⟨q1, q2, _, _⟩ := hstep_others _ _ _ _ _ h
      have hno : notedOf es = [] := (hstep_own h).1
      have hrel : ∀ u, u ≠ t → s'.m.th u = .relock → m'.th u = .relock := by
        intro u hu hr
        rcases q1 u hu with e | ⟨e, _⟩
        · rw [e]; exact hr
        · rw [hr] at e; cases e
      have hmono : ∀ x, x ∈ answersTo P.replyHeap (managedOf tr) → x ∈ answersTo P.replyHeap (managedOf (tr ++ es)) := by
        intro x hx
        rw [managedOf_append]; unfold answersTo; rw [List.flatMap_append]; exact List.mem_append_left _ hx
      have hnp : ∀ p, p ≠ 0 → (m'.pu p).inNote = [] := by rw [q2]; exact J.np
      have hnt : (s'.t.msgs.take s'.given).filterMap toNote = notedOf (tr ++ es) ++ (m'.pu 0).inNote := by
        rw [q2, notedOf_append, hno, List.append_nil]; exact J.nt
      have htot : ∀ (v) (l : List (Nat × Bytes × Bool)), total (fun u => (put s'.out t l u).count v) P.threads = total (fun u => (s'.out u).count v) P.threads + l.count v := by
        intro v l
        have := total_put (fun l : List (Nat × Bytes × Bool) => l.count v) s'.out hlt l
        rw [ho] at this
        simpa using this
      rcases hstep_sends (g := P.replyHeap) h with ⟨h1, h2⟩ | ⟨m, x, h1, h2, h3⟩
      · have h2' : (sendsOf P.replyHeap t s'.m m').2 = false ∧ ∀ x ∈ (sendsOf P.replyHeap t s'.m m').1, frameId x.2.1 ≠ 0 := by
          rcases h2 with ⟨⟨k, r, m, hw⟩, h2⟩ | h2
          · refine ⟨h2, fun x hx => ?_⟩
            have hmo : (m'.th t).mutexOf = some (k, r) := by
              have h' := h
              unfold hstep at h'
              rw [hw] at h'
              dsimp only at h'
              simp only [Option.some.injEq, Prod.mk.injEq] at h'; obtain ⟨-, rfl⟩ := h'
              simp only [MSt.goto, put_eq]; split <;> rfl
            have := JJ.ow1 t k r hmo x (by dsimp only; rw [put_eq]; exact hx)
            rw [this.2.2]
            have hk := (K.tk (k, r) (I.mt t _ (by rw [hw]; rfl))).1
            intro h0
            exact hk (UInt16.toNat_inj.1 h0)
          · rw [h2]; exact ⟨rfl, by simp⟩
        have e1 : managedOf (tr ++ es) = managedOf tr := by rw [managedOf_append, h1, List.append_nil]
        have hlp : put s'.loops t (if (sendsOf P.replyHeap t s'.m m').2 then some (sendsOf P.replyHeap t s'.m m').1 else none) = s'.loops := by
          rw [h2'.1]; exact put_id _ _ _ hl
        refine ⟨hnp, hnt, ?_, ?_, ?_, ?_, ?_, ?_⟩ <;> (try rw [e1]) <;> (try dsimp only) <;> (try rw [hlp])
        · intro u hu
          exact hrel u (by rintro rfl; exact hu hl) (J.lr u hu)
        · exact J.lm
        · intro u y hy h0
          simp only [put] at hy
          split at hy
          · exact absurd h0 (h2'.2 y hy)
          · exact J.os u y hy h0
        · exact J.ls
        · exact J.ss
        · rcases J.ct with h | h
          · exact Or.inl h
          · refine Or.inr fun v hv => ?_
            rw [← h v hv, htot]
            have : (sendsOf P.replyHeap t s'.m m').1.count v = 0 := by
              rw [List.count_eq_zero]
              intro hm; exact h2'.2 v hm hv
            rw [this, Nat.add_zero]
      · have e1 : managedOf (tr ++ es) = managedOf tr ++ [(m, x)] := by rw [managedOf_append, h1]
        have e2 : answersTo P.replyHeap (managedOf (tr ++ es)) = answersTo P.replyHeap (managedOf tr) ++ (mgmtSends P.replyHeap m x).1 := by
          rw [e1]; unfold answersTo; rw [List.flatMap_append]; simp
        rw [h2]
        have hkeep : ∀ u, u ≠ t → ∀ v, put s'.loops t v u = s'.loops u := fun u hu v => put_other _ _ _ hu
        refine ⟨hnp, hnt, ?_, ?_, ?_, ?_, ?_, ?_⟩ <;> (try dsimp only)
        · intro u hu
          by_cases hut : u = t
          · subst hut; exact h3
          · rw [hkeep u hut] at hu
            exact hrel u hut (J.lr u hu)
        · intro y hy hyl
          rw [e1] at hy
          rcases List.mem_append.1 hy with hy | hy
          · obtain ⟨u, hu⟩ := J.lm y hy hyl
            have hut : u ≠ t := by rintro rfl; exact hu hl
            exact ⟨u, by rw [hkeep u hut]; exact hu⟩
          · simp only [List.mem_singleton] at hy
            subst hy
            exact ⟨t, by rw [put_eq, hyl]; simp⟩
        · intro u y hy h0
          simp only [put] at hy
          split at hy
          · rw [e2]; exact List.mem_append_right _ hy
          · exact hmono y (J.os u y hy h0)
        · intro u l hul y hy
          simp only [put] at hul
          split at hul
          · split at hul
            · cases hul; rw [e2]; exact List.mem_append_right _ hy
            · cases hul
          · exact hmono y (J.ls u l hul y hy)
        · intro y hy h0; exact hmono y (J.ss y hy h0)
        · rcases J.ct with ⟨u, hu⟩ | h
          · have hut : u ≠ t := by rintro rfl; exact hu hl
            exact Or.inl ⟨u, by rw [hkeep u hut]; exact hu⟩
          · refine Or.inr fun v hv => ?_
            rw [htot, e2, List.count_append, ← h v hv]
            omega

end Fcgi.Model
