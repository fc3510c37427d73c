import Verif.Lemmas.ServerLive
import Verif.Props.Server
/-! # C111: every request is answered in the end -/
namespace Fcgi.Props
open Fcgi.Spec Fcgi.Model

section
variable {U : Type} [Transmits U] {P : SrvProg U} [OfLibrary P] {tr tr' : List MEvent} {ops ops' : List TOp} {s s' : Srv U} {c : Nat} {id : UInt16} {rs : List Record}
  {tail : Bytes} {b : Record} {ins : List Record}

/-- The server has been started and neither stop() nor terminate() has been called since (as far as threads have taken note of it), and a
handler thread is there. -/
structure SrvUp (s : Srv U) : Prop where
  live : ∃ t, s.m.th t ≠ .off ∧ s.m.th t ≠ .finished
  term : s.m.terminate = false
  stop : s.m.stop = false

theorem hstep_running {σ : Type} (P : Prog σ) (t : Nat) (s : MSt σ) (es s') (ht : s.terminate = false) (hs : s.stop = false)
    (h : hstep P t s = some (es, s')) : s'.terminate = false ∧ s'.stop = false ∧
      ∀ x, s.th x ≠ .off ∧ s.th x ≠ .finished → s'.th x ≠ .off ∧ s'.th x ≠ .finished := by
  have key : ∀ (m : MSt σ) (pc : HPC), m.terminate = false → m.stop = false → m.th = s.th → pc ≠ .off → pc ≠ .finished →
      (m.goto t pc).terminate = false ∧ (m.goto t pc).stop = false ∧
        ∀ x, s.th x ≠ .off ∧ s.th x ≠ .finished → (m.goto t pc).th x ≠ .off ∧ (m.goto t pc).th x ≠ .finished := by
    intro m pc h1 h2 h3 h4 h5
    refine ⟨h1, h2, fun x hx => ?_⟩
    simp only [MSt.goto]
    by_cases e : x = t
    · subst e; rw [put_same]; exact ⟨h4, h5⟩
    · rw [put_other _ _ _ e, h3]; exact hx
  unfold hstep at h
  cases hp : s.th t <;> rw [hp] at h <;> dsimp only at h
  all_goals repeat' split at h
  all_goals first
    | (cases h; done)
    | (exfalso; simp_all [MSt.leave]; done)
    | (cases h; apply key <;> first | exact ht | exact hs | rfl | (intro e; cases e; done) | (split <;> (intro e; cases e; done)))

theorem pstep_running {σ : Type} (P : Prog σ) (p w : Nat) (s : MSt σ) (es s') (h : pstep P p w s = some (es, s')) :
    s'.terminate = s.terminate ∧ s'.stop = s.stop ∧ ∀ x, s.th x ≠ .off ∧ s.th x ≠ .finished → s'.th x ≠ .off ∧ s'.th x ≠ .finished := by
  unfold pstep at h
  cases hp : s.pu p <;> rw [hp] at h <;> dsimp only at h
  all_goals repeat' split at h
  all_goals first
    | (cases h; done)
    | (cases h; exact ⟨rfl, rfl, fun x hx => hx⟩)
    | (cases h
       refine ⟨rfl, rfl, fun x hx => ?_⟩
       simp only [MSt.pgoto, MSt.goto]
       by_cases e : x = w
       · subst e; rw [put_same]; exact ⟨by simp, by simp⟩
       · rw [put_other _ _ _ e]; exact hx)

theorem own_running (h : OwnRun P s tr ops s') (R : SrvUp s) : SrvUp s' := by
  induction h with
  | refl => exact R
  | step run h ih =>
    obtain ⟨⟨t, ht⟩, h1, h2⟩ := ih
    cases h with
    | read c k1 k2 hi hg hv hr q1 q2 h => exact ⟨⟨t, ht⟩, h1, h2⟩
    | write k hi hg hq hk => exact ⟨⟨t, ht⟩, h1, h2⟩
    | give x hx h =>
      simp only [estep] at h
      split at h
      · cases h; exact ⟨⟨t, ht⟩, h1, h2⟩
      · cases h
    | work u ho hl h =>
      obtain ⟨a, b, c⟩ := hstep_running P.prog u _ _ _ h1 h2 h
      exact ⟨⟨t, c t ht⟩, a, b⟩
    | send u x rest ho => exact ⟨⟨t, ht⟩, h1, h2⟩
    | pusher p w h =>
      obtain ⟨a, b, c⟩ := pstep_running P.prog p w _ _ _ h
      exact ⟨⟨t, c t ht⟩, a.trans h1, b.trans h2⟩

/-- Nothing left to do means just that: every thread rests, all that peers have sent has been read, all that was queued has been dealt with. -/
theorem rest_idle (h : SrvRun P srvInit tr ops s) (R : SrvUp s) (hr : SrvRest P s) :
    Idle P s ∧ ∀ c, (s.t.conns c).valid = true → (s.t.conns c).input = [] ∧ (s.t.conns c).closing = false := by
  obtain ⟨hr, hl⟩ := hr
  have out : ∀ t, s.out t = [] := by
    intro t
    cases ho : s.out t with
    | nil => rfl
    | cons x l => exact absurd (.send t x l ho) (hr _ _ _)
  have still : Still P.prog s.m := by
    refine ⟨fun t => ?_, fun p w => ?_⟩
    · cases hh : hstep P.prog t s.m with
      | none => rfl
      | some x => exact absurd (.work t (out t) (hl t) hh) (hr _ _ _)
    · cases hh : pstep P.prog p w s.m with
      | none => rfl
      | some x => exact absurd (.pusher p w hh) (hr _ _ _)
  have idle := (still_rest (run_kq (srv_parts h).m).1 still).2
  have given : s.given = s.t.msgs.length := by
    have := (srv_routed h).le
    apply Nat.le_antisymm this
    apply Nat.le_of_not_lt
    intro hlt
    obtain ⟨x, hx⟩ : ∃ x, s.t.msgs[s.given]? = some x := ⟨_, List.getElem?_eq_getElem hlt⟩
    refine absurd (.give x hx (es := ?_) (m' := ?_) ?_) (hr _ _ _)
    rotate_left 2
    · simp only [estep, idle 0, if_true]; rfl
  have queue : s.t.queue = [] ∧ s.t.pc = .loop := by
    apply Decidable.byContradiction
    intro hn
    have : s.t.queue ≠ [] ∨ s.t.pc ≠ .loop := by
      by_cases e : s.t.queue = []
      · exact .inr fun e2 => hn ⟨e, e2⟩
      · exact .inl e
    exact hr _ _ _ (.write (.accept 1) (idle 0) given this (by simp [KWrite.moves]))
  refine ⟨⟨still, R.live, R.term, out, given, queue⟩, ?_⟩
  intro c hv
  have : ¬ ((s.t.conns c).input ≠ [] ∨ (s.t.conns c).closing = true) := by
    intro hx
    obtain ⟨st0, h0, hR, _, _⟩ := init_run P.recvHeap ops
    rw [(srv_parts h).t] at h0; cases h0
    obtain ⟨st', hst', _⟩ := receive_spec P.recvHeap s.t c (.give 1) (.give 1) hv (hR c).buf
    exact hr _ _ _ (.read c (.give 1) (.give 1) (idle 0) given hv hx (by simp [KRead.moves]) (by simp [KRead.moves]) hst')
  rw [not_or] at this
  exact ⟨Decidable.not_not.1 this.1, by simpa using this.2⟩

theorem arrived_append (c : Nat) (a b : List TOp) : arrived c (a ++ b) = arrived c a ++ arrived c b := by simp [arrived]

theorem own_arrived (h : OwnRun P s tr ops s') (c : Nat) : arrived c ops = [] := by
  induction h with
  | refl => rfl
  | step run h ih =>
    rw [arrived_append, ih]
    cases h <;> rfl

/-- Every sequence of the server's own steps is finite: whatever has happened before, if nothing happens any more from outside (and whatever the
kernel decides, as long as it does something), then after finitely many steps no further one is possible. -/
theorem C111_ends (h : SrvRun P srvInit tr ops s) : ¬ ∃ f : Nat → Srv U, f 0 = s ∧ ∀ n, ∃ es os, OwnStep P (f n) es os (f (n + 1)) := by
  rintro ⟨f, h0, hf⟩
  have key : ∀ s, Acc (fun s' s => ∃ es os, OwnStep P s es os s') s → ∀ n, f n = s → False := by
    intro s ha
    induction ha with
    | intro s _ ih =>
      intro n hn
      exact ih (f (n + 1)) (hn ▸ hf n) (n + 1) rfl
  exact key s (own_acc h) 0 h0

/-- So the server gets to a state in which it can do no further step by itself. -/
theorem C111_reaches (h : SrvRun P srvInit tr ops s) : ∃ tr' ops' s', OwnRun P s tr' ops' s' ∧ ∀ es os s'', ¬ OwnStep P s' es os s'' := by
  have key : ∀ s1, Acc (fun s' s => ∃ es os, OwnStep P s es os s') s1 → ∀ tr1 ops1, OwnRun P s tr1 ops1 s1 →
      ∃ tr' ops' s', OwnRun P s tr' ops' s' ∧ ∀ es os s'', ¬ OwnStep P s' es os s'' := by
    intro s1 ha
    induction ha with
    | intro s1 _ ih =>
      intro tr1 ops1 hr
      by_cases hx : ∃ es os s'', OwnStep P s1 es os s''
      · obtain ⟨es, os, s'', hs⟩ := hx
        exact ih s'' ⟨es, os, hs⟩ _ _ (.step hr hs)
      · exact ⟨tr1, ops1, s1, hr, fun es os s'' hs => hx ⟨es, os, s'', hs⟩⟩
  exact key s (own_acc h) [] [] (.refl s)

/-- And it can get there without any read or write failing. -/
theorem C111_reaches_calm (h : SrvRun P srvInit tr ops s) :
    ∃ tr' ops' s', OwnRun P s tr' ops' s' ∧ (∀ c, Calm c ops') ∧ ∀ es os s'', ¬ OwnStep P s' es os s'' := by
  have better : ∀ s1 tr1 ops1, SrvRun P srvInit tr1 ops1 s1 → (∃ es os s'', OwnStep P s1 es os s'') →
      ∃ es os s'', OwnStep P s1 es os s'' ∧ ∀ c, Calm c os := by
    rintro s1 tr1 ops1 hr ⟨es, os, s'', hs⟩
    cases hs with
    | read c k1 k2 hi hg hv hx h1 h2 hh =>
      obtain ⟨st0, h0, hR, _, _⟩ := init_run P.recvHeap ops1
      rw [(srv_parts hr).t] at h0; cases h0
      obtain ⟨st', hst', _⟩ := receive_spec P.recvHeap s1.t c (.give 1) (.give 1) hv (hR c).buf
      exact ⟨_, _, _, .read c (.give 1) (.give 1) hi hg hv hx (by simp [KRead.moves]) (by simp [KRead.moves]) hst', fun c => ⟨by simp, by rintro k1 k2 hm; simp only [List.mem_singleton, TOp.receive.injEq] at hm; rw [hm.2.1, hm.2.2]; exact ⟨nofun, nofun⟩, by simp⟩⟩
    | write k hi hg hq hk => exact ⟨_, _, _, .write (.accept 1) hi hg hq (by simp [KWrite.moves]), fun c => by simp [Calm]⟩
    | give x hx hh => exact ⟨_, _, _, .give x hx hh, fun c => by simp [Calm]⟩
    | work t ho hl hh => exact ⟨_, _, _, .work t ho hl hh, fun c => by simp [Calm]⟩
    | send t x rest ho => exact ⟨_, _, _, .send t x rest ho, fun c => by simp [Calm]⟩
    | pusher p w hh => exact ⟨_, _, _, .pusher p w hh, fun c => by simp [Calm]⟩
  have key : ∀ s1, Acc (fun s' s => ∃ es os, OwnStep P s es os s') s1 → ∀ tr1 ops1, OwnRun P s tr1 ops1 s1 → (∀ c, Calm c ops1) →
      ∃ tr' ops' s', OwnRun P s tr' ops' s' ∧ (∀ c, Calm c ops') ∧ ∀ es os s'', ¬ OwnStep P s' es os s'' := by
    intro s1 ha
    induction ha with
    | intro s1 _ ih =>
      intro tr1 ops1 hr hc
      by_cases hx : ∃ es os s'', OwnStep P s1 es os s''
      · obtain ⟨es, os, s'', hs, hco⟩ := better s1 _ _ (own_run h hr) hx
        refine ih s'' ⟨es, os, hs⟩ _ _ (.step hr hs) fun c => ?_
        obtain ⟨a1, a2, a3⟩ := hc c
        obtain ⟨b1, b2, b3⟩ := hco c
        refine ⟨fun hm => ?_, fun k1 k2 hm => ?_, fun hm => ?_⟩
        · exact (List.mem_append.1 hm).elim a1 b1
        · exact (List.mem_append.1 hm).elim (a2 k1 k2) (b2 k1 k2)
        · exact (List.mem_append.1 hm).elim a3 b3
      · exact ⟨tr1, ops1, s1, hr, hc, fun es os s'' hs => hx ⟨es, os, s'', hs⟩⟩
  exact key s (own_acc h) [] [] (.refl s) (fun c => by simp [Calm])

/-- And there, if the server is running and no thread is in the loop of C07: the peer of every open connection has got, for every request,
exactly what the request on its own sends, having been given everything the peer sent for it. -/
theorem C111_answered (h : SrvRun P srvInit tr ops s) (R : SrvUp s) (C : Conversation ops c id rs tail b ins) (hlost : ∀ r ∈ rs, r.id ≠ 0xffff)
    (h' : OwnRun P s tr' ops' s') (hr : SrvRest P s') (hv : (s'.t.conns c).valid = true) :
    ∃ is kill q rest fin, Alone P c id b is kill q rest fin ∧ records is = ins ∧
      callbacks is <+: called ⟨c, id⟩ (tr ++ tr') ∧ (fin = false → callbacks is = called ⟨c, id⟩ (tr ++ tr')) ∧
      ∀ outs otail, (∀ r ∈ outs, r.WF) → Incomplete otail → (s'.t.conns c).output = stream outs ++ otail →
        otail = [] ∧ (outs.filter (fun r => r.id = id.toNat)).map Record.bytes = (Transmits.sent q).map (·.2.1) := by
  have hrun := own_run h h'
  obtain ⟨I, hin⟩ := rest_idle hrun (own_running h' R) hr
  have C' : Conversation (ops ++ ops') c id rs tail b ins :=
    { C with bytes := by rw [arrived_append, own_arrived h', List.append_nil]; exact C.bytes }
  exact C102_complete hrun C' I hlost hv (hin c hv).2 (hin c hv).1

/-- The same for a connection with one request and nothing going wrong: the bytes are exactly those, and the connection is closed exactly if
the request is complete and its BEGIN_REQUEST record did not have the flag FCGI_KEEP_CONN. -/
theorem C111_closed (h : SrvRun P srvInit tr ops s) (R : SrvUp s) (C : Conversation ops c id rs tail b ins) (hone : ∀ r ∈ rs, r.id = id.toNat)
    (h' : OwnRun P s tr' ops' s') (hr : SrvRest P s') (hcalm : Calm c (ops ++ ops')) :
    ∃ is kill q rest fin, Alone P c id b is kill q rest fin ∧ records is = ins ∧
      callbacks is <+: called ⟨c, id⟩ (tr ++ tr') ∧ (fin = false → callbacks is = called ⟨c, id⟩ (tr ++ tr')) ∧
      (s'.t.conns c).output = (Transmits.sent q).flatMap (·.2.1) ∧
      ((s'.t.conns c).valid = false ↔ fin = true ∧ kill = true) := by
  have hrun := own_run h h'
  obtain ⟨I, hin⟩ := rest_idle hrun (own_running h' R) hr
  have C' : Conversation (ops ++ ops') c id rs tail b ins :=
    { C with bytes := by rw [arrived_append, own_arrived h', List.append_nil]; exact C.bytes }
  exact C102_closed hrun C' I hone hcalm (fun hv => (hin c hv).1)

/-- A thread is in the endless loop only because of a management message. -/
theorem loop_cause (h : SrvRun P srvInit tr ops s) : ∀ t, s.loops t ≠ none → ∃ y ∈ managedOf tr, (mgmtSends P.replyHeap y.1 y.2).2 = true := by
  induction h with
  | refl => intro t ht; exact absurd rfl ht
  | step run hs ih =>
    intro t ht
    have keep : ∀ tr es, (∃ y ∈ managedOf tr, (mgmtSends P.replyHeap y.1 y.2).2 = true) →
        ∃ y ∈ managedOf (tr ++ es), (mgmtSends P.replyHeap y.1 y.2).2 = true := by
      rintro tr es ⟨y, hy, h⟩
      exact ⟨y, by rw [managedOf_append]; exact List.mem_append_left _ hy, h⟩
    cases hs with
    | work u ho hl h =>
      by_cases hu : t = u
      · subst hu
        dsimp only at ht
        rw [put_same] at ht
        rw [ne_eq, ite_eq_right_iff, Classical.not_imp] at ht
        have h2 := ht.1
        rcases hstep_sends (g := P.replyHeap) h with ⟨_, h1⟩ | ⟨m, x, h1, h3, _⟩
        · rcases h1 with ⟨_, h1⟩ | h1
          · rw [h1] at h2; cases h2
          · rw [h1] at h2; cases h2
        · exact ⟨(m, x), by rw [managedOf_append, h1]; simp, by rw [← h3]; exact h2⟩
      · dsimp only at ht
        rw [put_other _ _ _ hu] at ht
        exact keep _ _ (ih t ht)
    | _ => exact keep _ _ (ih t ht)

/-- No peer has sent a GET_VALUES record with a pair in it. -/
def NoValues (ops : List TOp) : Prop :=
  ∀ c, ∃ rs tail, (∀ r ∈ rs, r.WF) ∧ Incomplete tail ∧ arrived c ops = stream rs ++ tail ∧
    ∀ r ∈ rs, r.id = 0 → r.type = 9 → ¬ ∃ nv enc more, EncPair nv enc ∧ r.bytes.drop 8 = enc ++ more

/-- Then no thread is ever in the loop of C07. -/
theorem C111_no_loop (h : SrvRun P srvInit tr ops s) (hn : NoValues ops) : ∀ t, s.loops t = none := by
  intro t
  apply Decidable.byContradiction
  intro hl
  obtain ⟨⟨m, c⟩, hy, hm⟩ := loop_cause h t hl
  obtain ⟨rs, tail, wf, rest, bytes, hp⟩ := hn c
  obtain ⟨r, hr, hid, rfl⟩ := managed_record h wf rest bytes m hy
  dsimp only at hm
  by_cases h9 : r.type = 9
  · rw [mgmt_values_none _ r c h9 (hp r hr hid h9)] at hm; cases hm
  · rw [mgmt_unknown _ r c h9] at hm; cases hm

/-- So, if no peer has sent such a record, the server gets to rest, however its threads are scheduled. -/
theorem C111_rests (h : SrvRun P srvInit tr ops s) (hn : NoValues ops) :
    (∃ tr' ops' s', OwnRun P s tr' ops' s' ∧ SrvRest P s') ∧
    ∀ tr' ops' s', OwnRun P s tr' ops' s' → (∀ es os s'', ¬ OwnStep P s' es os s'') → SrvRest P s' := by
  have key : ∀ tr' ops' s', OwnRun P s tr' ops' s' → (∀ es os s'', ¬ OwnStep P s' es os s'') → SrvRest P s' := by
    intro tr' ops' s' h' hr
    refine ⟨hr, C111_no_loop (own_run h h') fun c => ?_⟩
    obtain ⟨rs, tail, h1, h2, h3, h4⟩ := hn c
    exact ⟨rs, tail, h1, h2, by rw [arrived_append, own_arrived h', List.append_nil, h3], h4⟩
  obtain ⟨tr', ops', s', h1, h2⟩ := C111_reaches h
  exact ⟨⟨tr', ops', s', h1, key _ _ _ h1 h2⟩, key⟩

end

/-! ### A concrete run

As in Props/Server, but stopped when the second part of the request has arrived and nothing of it has been read. -/

def liveDemoRun : List SrvChoice :=
  [.outer .start, .go 50, .op (.arrive 3 ((srvDemoBytes 1).take 33))] ++
  (List.replicate 4 [SrvChoice.op (.receive 3 (.give 1000) (.give 9)), .go 100]).flatten ++
  [.op (.arrive 3 ((srvDemoBytes 1).drop 33))]

def liveDemoEnd (x : List MEvent × List TOp × Srv (Req Nat)) : Bool :=
  x.2.2.m.terminate == false && x.2.2.m.stop == false && (match x.2.2.m.th 0 with | .off | .finished => false | _ => true) &&
  (x.2.1.filterMap fun | .arrive c d => some (c, d) | _ => none) == [(3, (srvDemoBytes 1).take 33), (3, (srvDemoBytes 1).drop 33)] &&
  (x.2.2.t.conns 3 == ⟨true, false, (srvDemoBytes 1).drop 33, []⟩)

theorem liveDemo_end : (srvPlay srvDemo liveDemoRun ([], [], srvInit)).any liveDemoEnd = true := by decide +kernel

theorem arrived_pairs (c : Nat) (ops : List TOp) :
    arrived c ops = ((ops.filterMap fun | .arrive c d => some (c, d) | _ => none).filter (fun x => x.1 = c)).flatMap (·.2) := by
  induction ops with
  | nil => rfl
  | cons o l ih =>
    rw [show o :: l = [o] ++ l from rfl, arrived_append, List.filterMap_append, List.filter_append, List.flatMap_append, ← ih]
    congr 1
    cases o with
    | arrive t d => by_cases h : t = c <;> simp [arrived, h]
    | _ => rfl

/-- The hypotheses of C111 are met: half of the request has not been read yet, nothing has been sent, and the server comes to rest from there. -/
example : ∃ tr ops s, SrvRun srvDemo srvInit tr ops s ∧ SrvUp s ∧ NoValues ops ∧ s.t.conns 3 = ⟨true, false, (srvDemoBytes 1).drop 33, []⟩ ∧
    Conversation ops 3 7 (srvDemoBegin 1 :: srvDemoIns) [] (srvDemoBegin 1) srvDemoIns ∧
    (∃ tr' ops' s', OwnRun srvDemo s tr' ops' s' ∧ SrvRest srvDemo s') := by
  obtain ⟨tr, ops, s, h1, h2, h3⟩ := srvPlay_any liveDemo_end
  obtain ⟨_, _, _, _, C, _⟩ := srvDemo_meets 1 (Or.inr rfl)
  simp only [liveDemoEnd, Bool.and_eq_true, beq_iff_eq] at h2
  obtain ⟨⟨⟨⟨a1, a2⟩, a3⟩, a4⟩, a5⟩ := h2
  have ha : ∀ c, arrived c ops = if c = 3 then srvDemoBytes 1 else [] := by
    intro c
    rw [arrived_pairs, a4]
    by_cases hc : c = 3
    · subst hc; simp
    · have : ¬ 3 = c := fun e => hc e.symm
      simp [hc, this]
  have C' : Conversation ops 3 7 (srvDemoBegin 1 :: srvDemoIns) [] (srvDemoBegin 1) srvDemoIns :=
    { C with bytes := by rw [ha, if_pos rfl, List.append_nil]; rfl }
  have R : SrvUp s := ⟨⟨0, by revert a3; cases s.m.th 0 <;> simp⟩, a1, a2⟩
  have hn : NoValues ops := by
    intro c
    by_cases hc : c = 3
    · subst hc
      exact ⟨_, _, C'.wf, C'.rest, C'.bytes, fun r hr h0 h9 => absurd h9 (C'.app r hr h0)⟩
    · exact ⟨[], [], by simp, Or.inl (by simp), by rw [ha, if_neg hc]; rfl, by simp⟩
  obtain ⟨tr', ops', s', q1, q2⟩ := (C111_rests h1 hn).1
  refine ⟨tr, ops, s, h1, R, hn, a5, C', tr', ops', s', q1, q2⟩

end Fcgi.Props
