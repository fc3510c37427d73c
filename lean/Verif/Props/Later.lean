import Verif.Props.EndToEnd
/-! # C149: an answer given later -/
namespace Fcgi.Props
open Fcgi.Spec Fcgi.Model

section
variable {U : Type} [Transmits U] {P : SrvProg U} {s0 s s' : Srv U} {tr tr' : List MEvent} {ops ops' : List TOp}

/-- What happens after a run that has happened. -/
theorem run_later (h : SrvRun P s0 tr ops s) (h' : SrvRun P s tr' ops' s') : SrvRun P s0 (tr ++ tr') (ops ++ ops') s' := by
  induction h' with
  | refl => simpa using h
  | step run hs ih => rw [← List.append_assoc, ← List.append_assoc]; exact .step ih hs

/-- A closed connection is not opened again. -/
theorem trun_valid {g : Nat → UInt8} {c : Nat} : ∀ (ops' ops : List TOp) (t t' : TSt), trun g TSt.init ops = .ok t → trun g TSt.init (ops ++ ops') = .ok t' →
    (t'.conns c).valid = true → (t.conns c).valid = true
  | [], ops, t, t', h, h', hv => by
      rw [List.append_nil, h] at h'
      cases h'; exact hv
  | o :: l, ops, t, t', h, h', hv => by
      obtain ⟨t1, h1, _⟩ := init_run g (ops ++ [o])
      rw [show ops ++ o :: l = (ops ++ [o]) ++ l by simp] at h'
      have hv1 := trun_valid l (ops ++ [o]) t1 t' h1 h' hv
      obtain ⟨t0, g0, hR, _⟩ := init_run g ops
      rw [h] at g0; cases g0
      rw [trun_append, h] at h1
      simp only [Res.ok_bind, trun] at h1
      obtain ⟨t2, h2, h3⟩ := Res.bind_eq_ok.1 h1
      cases h3
      obtain ⟨x, hx⟩ := tstep_valid g o t t1 (fun s => (hR s).buf) h2
      rcases hx c with e | ⟨_, e⟩
      · rw [← e]; exact hv1
      · rw [hv1] at e; cases e

end

section
variable {U : Type} [Transmits U] {P : SrvProg U} [OfLibrary P] {tr tr1 tr2 tr3 : List MEvent} {ops ops1 ops2 ops3 : List TOp} {s s1 s2 s3 : Srv U}
  {c : Nat} {id : UInt16} {rs : List Record} {tail : Bytes} {b : Record} {ins : List Record}

theorem only_type {p : Message → Bool} {ms : List Message} (h : ms.filter (fun m => !p m) = []) : ms.filter p = ms := by
  rw [List.filter_eq_self]
  intro m hm
  rw [List.filter_eq_nil_iff] at h
  have := h m hm
  simpa using this

/-- The object of a request, when nothing is left to be done. -/
structure ObjectAt (P : SrvProg U) (c : Nat) (id : UInt16) (b : Record) (ins : List Record) (tr : List MEvent) (s : Srv U) (r : Nat) (kill : Bool) (q : U) (fin : Bool) : Prop where
  one : objsOf ⟨c, id⟩ tr = [r]
  alone : ∃ role, role.toNat = 256 * (b.content.getD 0 0).toNat + (b.content.getD 1 0).toNat ∧
        (kill = true ↔ (b.content.getD 2 0).toNat % 2 = 0) ∧
        handleAll P.handle (P.fresh c id role kill) (endedBy r tr) = .ok (q, [], fin)
  records : (endedBy r tr).filter (fun m => m.type = 0) <+: ins.map recordMsg
  calls : (endedBy r tr).filter (fun m => m.type ≠ 0) <+: called ⟨c, id⟩ tr
  made : madeFor ⟨c, id⟩ tr s.m = (Transmits.sent q).map Prod.snd
  all : fin = true ∨ (endedBy r tr).filter (fun m => m.type = 0) = ins.map recordMsg ∧ (endedBy r tr).filter (fun m => m.type ≠ 0) = called ⟨c, id⟩ tr

theorem idle_object (h : SrvRun P srvInit tr ops s) (C : Conversation ops c id rs tail b ins) (I : Idle P s)
    (hlost : ∀ r ∈ rs, r.id ≠ 0xffff) (hv : (s.t.conns c).valid = true) (hin : (s.t.conns c).input = []) :
    ∃ r kill q fin, ObjectAt P c id b ins tr s r kill q fin := by
  obtain ⟨ms, kill, q, fin, h1, h2, h3, h6, h7⟩ := alone_made h C
  have hf := idle_finished h C I hlost hv hin h7
  have hall := (key_prefix h c id C.ids.1 C.ids.2 rs tail C.wf C.rest C.bytes).2 hv hin I.given ((still_rest (run_kq (srv_parts h).m).1 I.still).2 0)
  rw [C.mine] at hall
  have hc := made_called h h1
  rcases h7 with ⟨r, e1, e2, _⟩ | ⟨e1, _⟩
  · subst e2
    exact ⟨r, kill, q, fin, e1, h3, h2, hc, h6, hf⟩
  · rw [e1] at hall; simp at hall

theorem idle_object_calm (h : SrvRun P srvInit tr ops s) (C : Conversation ops c id rs tail b ins) (I : Idle P s)
    (hone : ∀ r ∈ rs, r.id = id.toNat) (hcalm : Calm c ops) (hin : (s.t.conns c).valid = true → (s.t.conns c).input = []) :
    ∃ r kill q fin, ObjectAt P c id b ins tr s r kill q fin ∧ (s.t.conns c).output = (Transmits.sent q).flatMap (·.2.1) ∧
      ((s.t.conns c).valid = false ↔ fin = true ∧ kill = true) := by
  obtain ⟨ms, kill, q, fin, h1, h2, h3, h6, h7⟩ := alone_made h C
  obtain ⟨k1, k2, k3⟩ := idle_closed h C I hone hcalm hin h3.choose_spec.2.2 h6 h7
  have hc := made_called h h1
  rcases h7 with ⟨r, e1, e2, _⟩ | ⟨e1, e2⟩
  · subst e2
    exact ⟨r, kill, q, fin, ⟨e1, h3, h2, hc, h6, k1⟩, k2, k3⟩
  · exfalso
    cases hv : (s.t.conns c).valid with
    | false => rw [e2] at k3; simp [hv] at k3
    | true =>
      have hall := (key_prefix h c id C.ids.1 C.ids.2 rs tail C.wf C.rest C.bytes).2 hv (hin hv) I.given ((still_rest (run_kq (srv_parts h).m).1 I.still).2 0)
      rw [C.mine, e1] at hall
      simp at hall

/-- The messages of the callbacks, as inputs of a request. -/
abbrev asInputs (ms : List Message) : List Input := ms.map fun m => .callback m.type m.data

theorem asInputs_message (ms : List Message) : (asInputs ms).map Input.message = ms := by
  induction ms with
  | nil => rfl
  | cons m l ih => rw [show asInputs (m :: l) = .callback m.type m.data :: asInputs l from rfl, List.map_cons, ih]; rfl

/-- What an object has been given between two moments at which nothing was left to be done. -/
theorem later_alone {tr tr' : List MEvent} {s1 s3 : Srv U} {x1 x3 kill1 kill3 q1 q3 fin1 fin3} (O1 : ObjectAt P c id b ins tr s1 x1 kill1 q1 fin1)
    (O3 : ObjectAt P c id b ins (tr ++ tr') s3 x3 kill3 q3 fin3) (hnone : called ⟨c, id⟩ tr = []) :
    ∃ rest, Alone P c id b (ins.map .record ++ asInputs (called ⟨c, id⟩ tr')) kill3 q3 rest fin3 := by
  obtain ⟨a1, ⟨role1, a2, a3, a4⟩, a5, a6, a7, a8⟩ := O1
  obtain ⟨b1, ⟨role3, b2, b3, b4⟩, b5, b6, b7, b8⟩ := O3
  rw [hnone, List.prefix_nil] at a6
  have hx : x3 = x1 := by
    rw [objsOf_append, a1] at b1
    exact ((List.cons.inj b1).1).symm
  subst hx
  have hrole : role3 = role1 := UInt16.toNat_inj.1 (b2.trans a2.symm)
  have hkill : kill3 = kill1 := by rw [Bool.eq_iff_iff, a3, b3]
  subst hrole hkill
  have hcalled : called ⟨c, id⟩ (tr ++ tr') = called ⟨c, id⟩ tr' := by
    rw [called_append, hnone, List.nil_append]
  rw [hcalled] at b6 b8
  have hms : endedBy x3 (tr ++ tr') = endedBy x3 tr ++ endedBy x3 tr' := by
    rw [endedBy_append]
  have hm1 : (endedBy x3 tr).filter (fun m => m.type = 0) = endedBy x3 tr := by
    refine only_type ?_
    rw [← a6]; congr 1; funext m; by_cases e : m.type = 0 <;> simp [e]
  rw [hms] at b4 b5 b6 b8
  generalize hE : endedBy x3 tr' = ex at *
  generalize hM : endedBy x3 tr = m1 at *
  rw [hm1] at a5
  obtain ⟨more, hmore⟩ := a5
  have hins : (ins.map Input.record).map Input.message = ins.map recordMsg := by rw [List.map_map]; rfl
  have key : ∃ rest, handleAll P.handle (P.fresh c id role3 kill3)
      ((ins.map Input.record ++ asInputs (called ⟨c, id⟩ tr')).map Input.message) = .ok (q3, rest, fin3) := by
    rw [List.map_append, hins, asInputs_message]
    rw [handleAll_append, a4, Res.ok_bind] at b4
    dsimp only at b4
    cases fin1 with
    | true =>
      rw [if_pos rfl] at b4
      cases b4
      refine ⟨more ++ called ⟨c, id⟩ tr', ?_⟩
      rw [← hmore, List.append_assoc, handleAll_append, a4, Res.ok_bind]
      rfl
    | false =>
      rw [if_neg (by simp)] at b4
      rcases a8 with a8 | ⟨a8, _⟩
      · cases a8
      rw [hm1] at a8
      subst a8
      rw [List.filter_append, hm1] at b5
      have hex0 : ex.filter (fun m => m.type = 0) = [] := by
        have := b5.length_le
        rw [List.length_append] at this
        exact List.length_eq_zero_iff.1 (by omega)
      have hex : ex.filter (fun m => m.type ≠ 0) = ex := by
        refine only_type ?_
        rw [← hex0]; congr 1; funext m; by_cases e : m.type = 0 <;> simp [e]
      rw [List.filter_append, a6, List.nil_append, hex] at b6
      obtain ⟨w, hw⟩ := b6
      rw [handleAll_append, a4, Res.ok_bind]
      dsimp only
      rw [if_neg (by simp), ← hw, handleAll_append, b4, Res.ok_bind]
      dsimp only
      cases fin3 with
      | true => exact ⟨w, rfl⟩
      | false =>
        rcases b8 with b8 | ⟨_, b8⟩
        · cases b8
        rw [List.filter_append, a6, List.nil_append, hex] at b8
        rw [← hw] at b8
        have : w = [] := by
          have := congrArg List.length b8
          rw [List.length_append] at this
          exact List.length_eq_zero_iff.1 (by omega)
        subst this
        exact ⟨[], rfl⟩
  obtain ⟨rest, hk⟩ := key
  exact ⟨rest, role3, b2, b3, hk⟩

/-- A peer sends a request. When the server has nothing left to do, no callback of the request has been called. Then callbacks are called while nothing more
arrives on the connection. When the server again has nothing left to do and the connection is still open, the peer has got
exactly the records that a request on its own sends that has been given first all the records the peer sent for it and then the
messages of the callbacks, in the order in which they were taken in. -/
theorem C149_in_order (h : SrvRun P srvInit tr ops s) (R : SrvUp s) (C : Conversation ops c id rs tail b ins) (hlost : ∀ r ∈ rs, r.id ≠ 0xffff)
    (h1 : OwnRun P s tr1 ops1 s1) (r1 : SrvRest P s1) (hnone : called ⟨c, id⟩ (tr ++ tr1) = [])
    (h2 : SrvRun P s1 tr2 ops2 s2) (R2 : SrvUp s2) (hquiet : arrived c ops2 = [])
    (h3 : OwnRun P s2 tr3 ops3 s3) (r3 : SrvRest P s3) (hv : (s3.t.conns c).valid = true) :
    ∃ kill q rest fin, Alone P c id b (ins.map .record ++ asInputs (called ⟨c, id⟩ (tr2 ++ tr3))) kill q rest fin ∧
      ∀ outs otail, (∀ r ∈ outs, r.WF) → Incomplete otail → (s3.t.conns c).output = stream outs ++ otail →
        otail = [] ∧ (outs.filter (fun r => r.id = id.toNat)).map Record.bytes = (Transmits.sent q).map (·.2.1) := by
  have H1 := own_run h h1
  have H3 := own_run (run_later H1 h2) h3
  have C1 : Conversation (ops ++ ops1) c id rs tail b ins :=
    { C with bytes := by rw [arrived_append, own_arrived h1, List.append_nil]; exact C.bytes }
  have C3 : Conversation (ops ++ ops1 ++ ops2 ++ ops3) c id rs tail b ins :=
    { C with bytes := by rw [arrived_append, own_arrived h3, List.append_nil, arrived_append, hquiet, List.append_nil]; exact C1.bytes }
  obtain ⟨I1, hin1⟩ := rest_idle H1 (own_running h1 R) r1
  obtain ⟨I3, hin3⟩ := rest_idle H3 (own_running h3 R2) r3
  have hv1 : (s1.t.conns c).valid = true := by
    refine trun_valid (g := P.recvHeap) (ops2 ++ ops3) _ _ _ (srv_parts H1).t ?_ hv
    rw [← List.append_assoc]; exact (srv_parts H3).t
  obtain ⟨x1, kill1, q1, fin1, O1⟩ := idle_object H1 C1 I1 hlost hv1 (hin1 c hv1).1
  obtain ⟨x3, kill3, q3, fin3, O3⟩ := idle_object H3 C3 I3 hlost hv (hin3 c hv).1
  have b7 := O3.made
  rw [show tr ++ tr1 ++ tr2 ++ tr3 = (tr ++ tr1) ++ (tr2 ++ tr3) by simp] at O3
  obtain ⟨rest, hk⟩ := later_alone O1 O3 hnone
  refine ⟨kill3, q3, rest, fin3, hk, ?_⟩
  intro outs otail hw hot ho
  have hp := C17_nothing_lost _ _ _ (srv_parts H3).t c hv (hin3 c hv).2
  have hpe : pendingOf c s3.t = [] := by simp [pendingOf, pending, I3.queue.1, I3.queue.2]
  rw [hpe, List.flatMap_nil, List.append_nil, ho, List.flatMap_def] at hp
  obtain ⟨h8, h9⟩ := parse_all _ (C3.whole H3) outs otail hw hot hp
  refine ⟨h9, ?_⟩
  rw [outs_for id outs hw _ h8]
  have h9 : ((sentTo c (ops ++ ops1 ++ ops2 ++ ops3)).map (·.1)).filter (fun d => frameId d = id.toNat) = (sentFor ⟨c, id⟩ (ops ++ ops1 ++ ops2 ++ ops3)).map (·.1) := by
    unfold sentFor; rw [List.filter_map]; rfl
  rw [h9, idle_sent H3 C3 I3, b7, List.map_map]
  rfl

/-- The same for a connection with one request and nothing going wrong: the bytes are exactly those, and the connection is closed exactly if
the request is complete and its BEGIN_REQUEST record did not have the flag FCGI_KEEP_CONN. -/
theorem C149_closed (h : SrvRun P srvInit tr ops s) (R : SrvUp s) (C : Conversation ops c id rs tail b ins) (hone : ∀ r ∈ rs, r.id = id.toNat)
    (h1 : OwnRun P s tr1 ops1 s1) (r1 : SrvRest P s1) (hnone : called ⟨c, id⟩ (tr ++ tr1) = [])
    (h2 : SrvRun P s1 tr2 ops2 s2) (R2 : SrvUp s2) (hquiet : arrived c ops2 = [])
    (h3 : OwnRun P s2 tr3 ops3 s3) (r3 : SrvRest P s3) (hcalm : Calm c (ops ++ ops1 ++ ops2 ++ ops3)) :
    ∃ kill q rest fin, Alone P c id b (ins.map .record ++ asInputs (called ⟨c, id⟩ (tr2 ++ tr3))) kill q rest fin ∧
      (s3.t.conns c).output = (Transmits.sent q).flatMap (·.2.1) ∧ ((s3.t.conns c).valid = false ↔ fin = true ∧ kill = true) := by
  have H1 := own_run h h1
  have H3 := own_run (run_later H1 h2) h3
  have C1 : Conversation (ops ++ ops1) c id rs tail b ins :=
    { C with bytes := by rw [arrived_append, own_arrived h1, List.append_nil]; exact C.bytes }
  have C3 : Conversation (ops ++ ops1 ++ ops2 ++ ops3) c id rs tail b ins :=
    { C with bytes := by rw [arrived_append, own_arrived h3, List.append_nil, arrived_append, hquiet, List.append_nil]; exact C1.bytes }
  obtain ⟨I1, hin1⟩ := rest_idle H1 (own_running h1 R) r1
  obtain ⟨I3, hin3⟩ := rest_idle H3 (own_running h3 R2) r3
  have hcalm1 : Calm c (ops ++ ops1) := by
    obtain ⟨b1, b2, b3⟩ := hcalm
    exact ⟨fun hm => b1 (by simp only [List.append_assoc, List.mem_append] at hm ⊢; rcases hm with hm | hm <;> simp [hm]),
      fun k1 k2 hm => b2 k1 k2 (by simp only [List.append_assoc, List.mem_append] at hm ⊢; rcases hm with hm | hm <;> simp [hm]),
      fun hm => b3 (by simp only [List.append_assoc, List.mem_append] at hm ⊢; rcases hm with hm | hm <;> simp [hm])⟩
  obtain ⟨x1, kill1, q1, fin1, O1, _⟩ := idle_object_calm H1 C1 I1 hone hcalm1 (fun hv => (hin1 c hv).1)
  obtain ⟨x3, kill3, q3, fin3, O3, k1, k2⟩ := idle_object_calm H3 C3 I3 hone hcalm (fun hv => (hin3 c hv).1)
  rw [show tr ++ tr1 ++ tr2 ++ tr3 = (tr ++ tr1) ++ (tr2 ++ tr3) by simp] at O3
  obtain ⟨rest, hk⟩ := later_alone O1 O3 hnone
  exact ⟨kill3, q3, rest, fin3, hk, k1, k2⟩

/-- An id that is not served and then is: the request has been made in between. -/
theorem serving_gained {k : RequestId} {r : Nat} (a : List MEvent) (ha : serving a k = none) : ∀ x : List MEvent, serving (a ++ x) k = some r → ∃ m, .created r k m ∈ x := by
  intro x
  induction x using list_snoc_ind generalizing r with
  | h0 => intro h; rw [List.append_nil, ha] at h; cases h
  | h1 x e ih =>
    intro h
    rw [← List.append_assoc, serving_snoc] at h
    cases e with
    | created r' k' m =>
      simp only [Serving.see] at h
      split at h
      · rename_i hk; subst hk; cases h; exact ⟨m, by simp⟩
      · obtain ⟨m, hm⟩ := ih h; exact ⟨m, by simp [hm]⟩
    | removed r' =>
      simp only [Serving.see] at h
      split at h
      · cases h
      · obtain ⟨m, hm⟩ := ih h; exact ⟨m, by simp [hm]⟩
    | _ => obtain ⟨m, hm⟩ := ih h; exact ⟨m, by simp [hm]⟩

/-- The call with message `m` for `k`, that `p` makes, while no other callback is called: what has become of it. -/
def CallOf (p : Nat) (k : RequestId) (m : Message) (tr : List MEvent) (s : MSt U) : Prop :=
  (∀ q k' x, q ≠ p → s.pu q = .call k' x ∨ s.pu q = .route k' x → x.type = 0) ∧
  ((s.pu p = .call k m ∨ s.pu p = .route k m) ∧ called k tr = [] ∨
    (∀ k' x, s.pu p = .call k' x ∨ s.pu p = .route k' x → x.type = 0) ∧ (called k tr = [m] ∨ called k tr = [] ∧ .dropped k m ∈ tr))

theorem pstep_mine {σ : Type} {Q : Prog σ} {p w : Nat} {m : MSt σ} {es m'} (h : pstep Q p w m = some (es, m'))
    (hn : ∀ k x, m.pu p = .call k x ∨ m.pu p = .route k x → x.type = 0) (k : RequestId) :
    (∀ k x, m'.pu p = .call k x ∨ m'.pu p = .route k x → x.type = 0) ∧ called k es = [] := by
  have key : ∀ pc, m'.pu = put m.pu p pc → (∀ k x, pc = .call k x ∨ pc = .route k x → x.type = 0) →
      ∀ k x, m'.pu p = .call k x ∨ m'.pu p = .route k x → x.type = 0 := by
    intro pc h1 h2 k x hx
    rw [h1] at hx
    simp only [put_same] at hx; exact h2 k x hx
  unfold pstep at h
  split at h
  case h_1 => cases h
  all_goals rename_i hpc
  case h_7 k' x =>
    have ht := hn k' x (Or.inr hpc)
    split at h
    · rw [if_pos ht] at h
      split at h
      · cases h; exact ⟨key .idle rfl (by simp), rfl⟩
      · split at h <;> cases h <;> exact ⟨key .idle rfl (by simp), rfl⟩
    · split at h
      · cases h; exact ⟨key (.task k') rfl (by simp), by simp [called, ht]⟩
      · cases h
  case h_6 k' x =>
    have ht := hn k' x (Or.inl hpc)
    split at h
    · cases h; exact ⟨key (.route k' x) rfl (by rintro _ _ (h | h) <;> cases h; exact ht), rfl⟩
    · cases h
  all_goals repeat' split at h
  all_goals first
    | (cases h; done)
    | (cases h; exact ⟨key _ rfl (by simp), rfl⟩)

theorem pstep_untouched {σ : Type} {Q : Prog σ} {p w : Nat} {m : MSt σ} {es m'} (h : pstep Q p w m = some (es, m')) (q : Nat) (hq : q ≠ p) : m'.pu q = m.pu q := by
  have key : ∀ pc, m'.pu = put m.pu p pc → m'.pu q = m.pu q := by intro pc h1; rw [h1, put_other _ _ _ hq]
  unfold pstep at h
  split at h
  all_goals repeat' split at h
  all_goals first
    | (cases h; done)
    | (cases h; exact key _ rfl)

theorem own_call {P : SrvProg U} {s s' : Srv U} {tr ops} {p : Nat} {k : RequestId} {m : Message} (hp : p ≠ 0) (hm : m.type ≠ 0) (h : OwnRun P s tr ops s')
    (hc : CallOf p k m [] s.m) : CallOf p k m tr s'.m := by
  induction h with
  | refl => exact hc
  | step run h ih =>
    rename_i tr1 ops1 s1 es os s2
    have quiet : called k es = [] → s2.m.pu = s1.m.pu → CallOf p k m (tr1 ++ es) s2.m := by
      intro a b
      obtain ⟨c1, c2⟩ := ih
      unfold CallOf
      rw [b, called_append, a, List.append_nil]
      exact ⟨c1, c2.imp _root_.id (And.imp_right (Or.imp_right (And.imp_right (List.mem_append_left _))))⟩
    cases h with
    | read => exact quiet rfl rfl
    | write => exact quiet rfl rfl
    | send => exact quiet rfl rfl
    | work t ho hl h =>
      obtain ⟨c, d⟩ := hstep_called _ _ _ _ h k
      exact quiet d c
    | pusher p' w h =>
      rename_i m2
      obtain ⟨c1, c2⟩ := ih
      by_cases e : p' = p
      · subst e
        have oth : ∀ q k' x, q ≠ p' → m2.pu q = .call k' x ∨ m2.pu q = .route k' x → x.type = 0 := by
          intro q k' x hq hx
          rw [pstep_untouched h q hq] at hx
          exact c1 q k' x hq hx
        rcases c2 with ⟨c2, c3⟩ | ⟨c2, c3⟩
        · rcases c2 with c2 | c2
          · unfold pstep at h
            rw [c2] at h
            dsimp only at h
            split at h
            · cases h
              exact ⟨oth, Or.inl ⟨Or.inr (by dsimp only [MSt.pgoto]; rw [put_same]), by rw [called_append, c3]; rfl⟩⟩
            · cases h
          · unfold pstep at h
            rw [c2] at h
            dsimp only at h
            split at h
            · rw [if_neg hm] at h
              cases h
              refine ⟨oth, Or.inr ⟨?_, Or.inr ⟨by rw [called_append, c3]; rfl, by simp⟩⟩⟩
              intro k' x hx
              dsimp only [MSt.pgoto] at hx
              rw [put_same] at hx
              rcases hx with hx | hx <;> cases hx
            · split at h
              · cases h
                refine ⟨oth, Or.inr ⟨?_, Or.inl (by rw [called_append, c3]; simp [called, hm])⟩⟩
                intro k' x hx
                dsimp only [MSt.pgoto] at hx
                rw [put_same] at hx
                rcases hx with hx | hx <;> cases hx
              · cases h
        · obtain ⟨d1, d2⟩ := pstep_mine h c2 k
          refine ⟨oth, Or.inr ⟨d1, ?_⟩⟩
          rw [called_append, d2, List.append_nil]
          exact c3.imp_right (And.imp_right (List.mem_append_left _))
      · obtain ⟨d1, d2⟩ := pstep_mine h (c1 p' · · e) k
        have hpp : m2.pu p = s1.m.pu p := pstep_untouched h p (fun x => e x.symm)
        refine ⟨?_, ?_⟩
        · intro q k' x hq hx
          by_cases e' : q = p'
          · subst e'; exact d1 k' x hx
          · rw [pstep_untouched h q e'] at hx; exact c1 q k' x hq hx
        · rw [called_append, d2, List.append_nil, hpp]
          exact c2.imp _root_.id (And.imp_right (Or.imp_right (And.imp_right (List.mem_append_left _))))
    | give x hx h =>
      obtain ⟨c1, c2⟩ := ih
      unfold estep at h
      dsimp only at h
      split at h
      · cases h
        have hpp : ∀ pc, (s1.m.pgoto 0 pc).pu p = s1.m.pu p := by intro pc; dsimp only [MSt.pgoto]; rw [put_other _ _ _ hp]
        have hce : ∀ l : List MEvent, l = (if x.id.id = 0xffff then [MEvent.lost x.id.socket] else []) → called k l = [] := by
          rintro l rfl; split <;> rfl
        refine ⟨?_, ?_⟩
        · intro q k' y hq hy
          dsimp only [MSt.pgoto] at hy
          by_cases hq0 : q = 0
          · subst hq0
            rw [put_same] at hy
            split at hy
            · rcases hy with hy | hy <;> cases hy
            · split at hy
              · rcases hy with hy | hy <;> cases hy
              · rcases hy with hy | hy <;> cases hy; rfl
          · rw [put_other _ _ _ hq0] at hy; exact c1 q k' y hq hy
        · dsimp only
          rw [called_append, hce _ rfl, List.append_nil, hpp]
          exact c2.imp _root_.id (And.imp_right (Or.imp_right (And.imp_right (List.mem_append_left _))))
      · cases h

/-- When the server has nothing left to do, a callback of a request is called that is not complete, whatever the order in which
it was given the records sent for it and the messages of earlier calls. When the server again has nothing left to do and the connection is open, the message has
been taken in, and no other. -/
theorem C149_taken (h : SrvRun P srvInit tr ops s) (R : SrvUp s) (hr : SrvRest P s) (C : Conversation ops c id rs tail b ins) (hlost : ∀ r ∈ rs, r.id ≠ 0xffff)
    (hwait : ∀ is kill q rest fin, Alone P c id b is kill q rest fin → records is = ins → callbacks is <+: called ⟨c, id⟩ tr → fin = false)
    {p : Nat} {m : Message} {es m2} (ha : (Outer.push p ⟨c, id⟩ m).around = true) (h2 : estep P.prog (.push p ⟨c, id⟩ m) s.m = some (es, m2))
    (h3 : OwnRun P { s with m := m2 } tr3 ops3 s3) (r3 : SrvRest P s3) (hv : (s3.t.conns c).valid = true) :
    called ⟨c, id⟩ tr3 = [m] := by
  simp only [Outer.around, Bool.and_eq_true, decide_eq_true_eq] at ha
  obtain ⟨⟨⟨hp, hm⟩, hid0⟩, hidf⟩ := ha
  obtain ⟨I, hin⟩ := rest_idle h R hr
  have hidle := (still_rest (run_kq (srv_parts h).m).1 I.still).2
  have hstep : SrvStep P s es [] { s with m := m2 } := .outer _ (by simp [Outer.around, hp, hm, hid0, hidf]) h2
  have H2 := SrvRun.step h hstep
  have R2 : SrvUp ({ s with m := m2 } : Srv U) := by
    unfold estep at h2
    dsimp only at h2
    rw [if_pos (hidle p)] at h2
    cases h2
    exact ⟨R.live, R.term, R.stop⟩
  have hes : es = [] := by
    unfold estep at h2
    dsimp only at h2
    rw [if_pos (hidle p), if_neg hidf] at h2
    cases h2; rfl
  subst hes
  have hcall : CallOf p ⟨c, id⟩ m [] m2 := by
    unfold estep at h2
    dsimp only at h2
    rw [if_pos (hidle p), if_neg hidf, if_neg hid0] at h2
    cases h2
    refine ⟨?_, Or.inl ⟨Or.inl (by dsimp only [MSt.pgoto]; rw [put_same]; rw [if_neg hidf]), rfl⟩⟩
    intro q k' x hq hx
    dsimp only [MSt.pgoto] at hx
    rw [put_other _ _ _ hq, hidle q] at hx
    rcases hx with hx | hx <;> cases hx
  have H3 := own_run H2 h3
  rw [List.append_nil, List.append_nil] at H3
  obtain ⟨I3, hin3⟩ := rest_idle H3 (own_running h3 R2) r3
  have hidle3 := (still_rest (run_kq (srv_parts H3).m).1 I3.still).2
  obtain ⟨_, hx⟩ := own_call hp hm h3 hcall
  rw [hidle3 p] at hx
  rcases hx with ⟨hx | hx, _⟩ | ⟨_, hx | ⟨hx, hd⟩⟩
  · cases hx
  · cases hx
  · exact hx
  exfalso
  have C3 : Conversation (ops ++ ops3) c id rs tail b ins :=
    { C with bytes := by rw [arrived_append, own_arrived h3, List.append_nil]; exact C.bytes }
  have hv1 : (s.t.conns c).valid = true := trun_valid (g := P.recvHeap) ops3 _ _ _ (srv_parts h).t (srv_parts H3).t hv
  obtain ⟨x1, _, _, _, O1⟩ := idle_object h C I hlost hv1 (hin c hv1).1
  obtain ⟨ms, kill, q, fin, e1, e2, ⟨role, f1, f2, f3⟩, _, e7⟩ := alone_made H3 C3
  have hf := idle_finished H3 C3 I3 hlost hv (hin3 c hv).1 e7
  have hcalled : called ⟨c, id⟩ (tr ++ tr3) = called ⟨c, id⟩ tr := by rw [called_append, hx, List.append_nil]
  have hfin : fin = false := by
    obtain ⟨is, rest, g1, g2, g3⟩ := finish_inputs e2 f3 (hf.imp_right And.left)
    refine hwait is kill q rest fin ⟨role, f1, f2, g1⟩ g2 ?_
    rw [g3, ← hcalled]
    exact made_called H3 e1
  subst hfin
  have A := srv_parts H3
  rcases e7 with ⟨r, o1, _, o3, _⟩ | ⟨e7, _⟩
  · have hr1 : r = x1 := by
      rw [objsOf_append, O1.one] at o1
      exact (List.cons.inj o1).1.symm
    obtain ⟨m0, hm0⟩ := mem_objsOf.1 (show r ∈ objsOf ⟨c, id⟩ (tr ++ tr3) by rw [o1]; simp)
    have htab : (⟨c, id⟩, r) ∈ s3.m.table := by
      rcases (run_cause A.m).cr r ⟨c, id⟩ m0 hm0 with ht | ht | ht | ht
      · exact ht
      · have := o3.2 ht; cases this
      · rw [A.v] at ht
        simp only [hv] at ht
        cases ht
      · exfalso
        obtain ⟨y, hy, hid⟩ := (srv_routed H3).ls c ht
        have hy' : y ∈ msgsOf c s3.t := by
          unfold msgsOf; rw [List.mem_filter]; exact ⟨hy, by simp [hid]⟩
        obtain ⟨_, hmsgs⟩ := C09_fragmentation P.recvHeap _ s3.t A.t c rs tail C3.wf C3.rest C3.bytes
        rw [hmsgs hv (hin3 c hv).1] at hy'
        obtain ⟨x, hx, rfl⟩ := List.mem_map.1 hy'
        simp only [messageFor, RequestId.mk.injEq, true_and] at hid
        have := congrArg UInt16.toNat hid
        have hlt := (C.wf x hx).1
        simp at this
        exact hlost x hx (by omega)
    have hlk : s3.m.table.lookup ⟨c, id⟩ = some r := by
      cases hl : s3.m.table.lookup ⟨c, id⟩ with
      | none => exact absurd htab (lookup_none hl r)
      | some r' => rw [(run_kq A.m).1.nd _ r' r (mlookup_mem hl) htab]
    have hsv : serving (tr ++ tr3) ⟨c, id⟩ = some r := by rw [(run_rinv A.m).sv]; exact hlk
    obtain ⟨u, w, huw⟩ := List.append_of_mem hd
    have hall : tr ++ tr3 = (tr ++ u) ++ (MEvent.dropped ⟨c, id⟩ m :: w) := by rw [huw]; simp
    have hno := (C44_routed A.m (tr ++ u) _ w hall).2
    rw [hall] at hsv
    obtain ⟨m9, hm9⟩ := serving_gained (tr ++ u) hno _ hsv
    have : r ∈ objsOf ⟨c, id⟩ tr3 := by
      refine mem_objsOf.2 ⟨m9, ?_⟩
      rw [huw]; exact List.mem_append_right _ hm9
    rw [objsOf_append, O1.one] at o1
    have h0 := (List.cons.inj o1).2
    replace h0 : objsOf ⟨c, id⟩ tr3 = [] := h0
    rw [h0] at this
    cases this
  · have hall := (key_prefix H3 c id C.ids.1 C.ids.2 rs tail C3.wf C3.rest C3.bytes).2 hv (hin3 c hv).1 I3.given (hidle3 0)
    rw [C.mine, e7] at hall
    simp at hall

end

theorem writtenOn_append (e : Bool) (a b : List (Bool × SOp UInt8)) : writtenOn e (a ++ b) = writtenOn e a ++ writtenOn e b := by
  simp [writtenOn]

/-- Messages of callbacks given to a request that waits. -/
theorem callbacks_run {U : Type} (resp : U → Env → Message → Act U × Bool) (g) : ∀ (ms : List Message) (r : Req U), Alive r → (∀ m ∈ ms, m.type ≠ 0) →
    ∃ r' rest, handler (defaultHandlers resp) g r ms = .ok (r', rest, (played resp r.user r.env ms).2) ∧ r'.status = r.status ∧
      ∀ e, writes e r'.log = writes e r.log ++ writtenOn e (played resp r.user r.env ms).1
  | [], r, _, _ => ⟨r, [], rfl, rfl, fun e => by simp [played, writtenOn]⟩
  | m :: ms, r, al, ht => by
      obtain ⟨r1, b1, b2, b3, _, l, b5, b6, b7, b8⟩ := respond_spec (defaultHandlers resp) g r al m
      have hm : handleMsg (defaultHandlers resp) g r m = respond (defaultHandlers resp) g r m := by
        unfold handleMsg; rw [if_neg (ht m (by simp))]
      have hr : (defaultHandlers resp).response = resp := rfl
      rw [hr] at b1 b3 b7 b8
      have hw : ∀ e, writes e r1.log = writes e r.log ++ writtenOn e (resp r.user r.env m).1.ops := by
        intro e
        rw [b5]
        cases e
        · simp only [writes_append, writes, b7, writtenOn_false]
        · simp only [writes_append, writes, b8, writtenOn_true]
      simp only [handler, hm, b1, Res.ok_bind, played]
      cases hf : (resp r.user r.env m).2 with
      | true => exact ⟨r1, ms, rfl, b2.status, hw⟩
      | false =>
        obtain ⟨c1, c2, c3⟩ := b3 hf
        obtain ⟨r2, rest, d1, d2, d3⟩ := callbacks_run resp g ms r1 c1 (fun x hx => ht x (by simp [hx]))
        rw [c2, c3] at d1 d3
        refine ⟨r2, rest, by simpa using d1, d2.trans b2.status, fun e => ?_⟩
        rw [d3 e, hw e]
        simp [writtenOn_append]

/-- A request on its own with a whole form and then messages of callbacks. -/
theorem form_later {U : Type} {n : Nat} {resp : U → Env → Message → Act U × Bool} {max : Nat} {u : U}
    {heap rh ph} {c : Nat} {id : UInt16} {b : Record} {ins : List Record} {nvs : List (Bytes × Bytes)} {body : Bytes} {fields files} {ms : List Message}
    {kill : Bool} {q : Req U} {rest : List Message} {fin : Bool} (hms : ∀ m ∈ ms, m.type ≠ 0)
    (hwf : ∀ r ∈ ins, r.WF) (hrole : b.role = 1 ∨ b.role = 2) (hreq : WholeRequest ins nvs body) (hbody : FormBody nvs body fields files)
    (hlen : LengthTold nvs body.length) (hmax : body.length ≤ max) (hint : body.length ≤ 2147483647)
    (ha : Alone (narrowServer n (defaultHandlers resp) max u heap rh ph) c id b (ins.map .record ++ asInputs ms) kill q rest fin) :
    ∃ env m0, Tells nvs fields files env ∧ m0.type = 0 ∧ fin = (played resp u env (m0 :: ms)).2 ∧ q.status = 0 ∧
      ∀ e, writes e q.log = writtenOn e (played resp u env (m0 :: ms)).1 := by
  obtain ⟨role, r1, _, h⟩ := alone_narrow.1 ha
  obtain ⟨ps, p0, bs, i0, rfl, s2, rfl, s4, s5, rfl, s7⟩ := hreq.split
  have hrole' : role = 1 ∨ role = 2 := by
    unfold Record.role at hrole
    rw [← r1] at hrole
    exact hrole.imp (fun h => UInt16.toNat.inj h) (fun h => UInt16.toNat.inj h)
  have he : ∀ i ∈ ps.flatMap Prod.snd, EncPair i.1 i.2 := by
    intro i hi
    obtain ⟨p, hp, hi⟩ := List.mem_flatMap.1 hi
    exact (s2 p hp).enc i hi
  obtain ⟨env, henv, _⟩ := handler_params (defaultHandlers resp) heap ps (freshReq c id role kill max u) (freshReq_alive ..) rfl hrole' s2
  have henv' : fillPairs [0] (ps.flatMap Prod.snd) {} = .ok env := henv
  have hcl : env.contentLength.toNat = (bs.flatMap Record.content).length := by
    have e := encPairs_of _ he
    have hf : fill ([] ++ (ps.flatMap Prod.snd).flatMap Prod.snd ++ [0]) ([] : Bytes).length ([] ++ (ps.flatMap Prod.snd).flatMap Prod.snd).length {} = .ok env := by
      rw [fill_items _ [] [0] {} he]; exact henv'
    obtain ⟨n1, _, _, _, _, n6, _⟩ := C24_numbers (he := e) (hf := hf)
    rcases hlen with ⟨h0, h1⟩ | ⟨v, h1, h2⟩
    · rw [n6 h1, h0]; rfl
    · exact n1 v _ h1 h2 hint
  have hparse := parse_body he henv' hbody
  have wf : ∀ r, r ∈ ps.map Prod.fst ++ [p0] ++ bs ++ [i0] → r.WF := hwf
  obtain ⟨r, b1, b2, b4, b3⟩ := body_run resp heap c id role kill max u hrole' ps s2 p0 i0 ⟨wf _ (by simp), s4⟩ ⟨wf _ (by simp), s7⟩ bs
    (fun b hb => ⟨wf _ (by simp [hb]), s5 b hb⟩) henv' (by rw [hcl]; exact hmax) (by rw [hcl]; exact Nat.le_refl _) hparse
  have hm : ((ps.map Prod.fst ++ [p0] ++ bs ++ [i0]).map Input.record).map Input.message = (ps.map Prod.fst ++ [p0] ++ bs ++ [i0]).map fcgiMsg := by
    rw [List.map_map]; rfl
  rw [List.map_append, hm, asInputs_message, handler_append, b1, Res.ok_bind] at h
  have T := tells_fill he henv' fields files
  refine ⟨_, fcgiMsg i0, T, rfl, ?_⟩
  simp only [played]
  dsimp only at h b1 b3 b4 ⊢
  generalize (resp u _ (fcgiMsg i0)) = a at b1 b3 b4 h ⊢
  cases hf : a.2 with
  | true =>
    rw [hf] at h
    cases h
    exact ⟨rfl, b2, b3⟩
  | false =>
    rw [hf] at h
    obtain ⟨c1, c2, c3⟩ := b4 hf
    obtain ⟨r2, rest2, d1, d2, d3⟩ := callbacks_run resp heap ms r c1 hms
    rw [if_neg (by simp), d1] at h
    cases h
    rw [c2, c3] at d3 ⊢
    refine ⟨rfl, d2.trans b2, fun e => ?_⟩
    rw [d3 e, b3 e]
    simp [writtenOn_append]

theorem noEnc_append {a b : List (SOp UInt8)} (ha : noEnc a) (hb : noEnc b) : noEnc (a ++ b) := by
  intro op ho
  rcases List.mem_append.1 ho with ho | ho
  · exact ha op ho
  · exact hb op ho

theorem played_plain {U : Type} {resp : U → Env → Message → Act U × Bool} (h : ∀ u env m e, noEnc (writtenOn e (resp u env m).1.ops)) (e : Bool) :
    ∀ (ms : List Message) (u : U) (env : Env), noEnc (writtenOn e (played resp u env ms).1)
  | [], u, env => by intro op ho; cases ho
  | m :: ms, u, env => by
      simp only [played]
      split
      · exact h u env m e
      · dsimp only
        rw [writtenOn_append]
        exact noEnc_append (h u env m e) (played_plain h e ms _ _)

theorem called_types (k : RequestId) (tr : List MEvent) : ∀ m ∈ called k tr, m.type ≠ 0 := by
  intro m hm
  simp only [called, List.mem_filterMap] at hm
  obtain ⟨e, _, h⟩ := hm
  split at h
  · split at h
    · next hh => cases h; exact hh.2
    · cases h
  · cases h

/-- The records of a request that is not complete. -/
theorem unfinished_sent {U : Type} {hd : Handlers U} {g} {sock id role kill max} {u : U} {ms : List Message} {r : Req U} {rest}
    (e : handler hd g (freshReq sock id role kill max u) ms = .ok (r, rest, false)) (h0 : noEnc (writes false r.log)) (h1 : noEnc (writes true r.log)) :
    ∃ rs : List Record, sentOf r.log = rs.map (fun x => (sock, x.bytes, false)) ∧ (∀ x ∈ rs, GoodRecord id 6 x ∨ GoodRecord id 7 x) ∧
      (rs.filter (fun x => x.type = 6)).flatMap Record.content <+: (writes false r.log).flatMap (writtenBy _root_.id) ∧
      (rs.filter (fun x => x.type = 7)).flatMap Record.content <+: (writes true r.log).flatMap (writtenBy _root_.id) := by
  obtain ⟨_, h2, hc, _⟩ := handler_spec hd g ms _ r rest false (freshReq_alive ..) e
  obtain ⟨c1, c2, c3, _⟩ : r.sock = sock ∧ r.id = id ∧ r.kill = kill ∧ _ := hc
  have plain : ∀ ops : List (SOp UInt8), noEnc ops → expected charTable one .none ops = ops.flatMap (writtenBy _root_.id) := by
    intro ops hne
    rw [C12_expected_plain _ _ ops hne]
    congr 1
    funext op
    cases op <;> simp [writtenBy]
  obtain ⟨rs, e1, e2, e3, e4⟩ := (h2 rfl).1.recs
  refine ⟨rs, by rw [e1, c1], ?_, ⟨_, by rw [e3, plain _ h0]⟩, ⟨_, by rw [e4, plain _ h1]⟩⟩
  intro x hx
  rcases e2 x hx with k | k
  · exact Or.inl ⟨k.version, k.type, c2 ▸ k.id, ⟨k.content_pos, k.content_max⟩, k.padding, k.aligned⟩
  · exact Or.inr ⟨k.version, k.type, c2 ▸ k.id, ⟨k.content_pos, k.content_max⟩, k.padding, k.aligned⟩

/-- A web server sends a form. The application's class keeps the library's handlers; its `response()` may do anything, say that it is not finished, and keep
a copy of the callback. When the server has come to rest, no callback of the request has been called; then callbacks are called, from
anywhere, and the server comes to rest again. If the connection is open then: the application was first given an environment that says what was sent
and then, one after the other, the messages of the callbacks in the order in which they were taken in, until it said that it was finished. If it did, the
records for the request on the connection are records of STDOUT and STDERR with exactly what it wrote over all these calls, and after them END_REQUEST with
status 0; if not, there is no END_REQUEST and what there is on STDOUT and STDERR is the beginning of what it wrote. -/
theorem C149_form_answered {U : Type} {n : Nat} {resp : U → Env → Message → Act U × Bool} {max : Nat} {u : U}
    {heap rh ph} {tr tr1 tr2 tr3 : List MEvent} {ops ops1 ops2 ops3 : List TOp} {s s1 s2 s3 : Srv (Req U)} {c : Nat} {id : UInt16} {rs : List Record} {tail : Bytes}
    {b : Record} {ins : List Record} {nvs : List (Bytes × Bytes)} {body : Bytes} {fields files}
    (hplain : ∀ u env m e, noEnc (writtenOn e (resp u env m).1.ops))
    (h : SrvRun (narrowServer n (defaultHandlers resp) max u heap rh ph) srvInit tr ops s) (R : SrvUp s)
    (C : Conversation ops c id rs tail b ins) (hlost : ∀ r ∈ rs, r.id ≠ 0xffff)
    (hrole : b.role = 1 ∨ b.role = 2) (hreq : WholeRequest ins nvs body) (hbody : FormBody nvs body fields files)
    (hlen : LengthTold nvs body.length) (hmax : body.length ≤ max) (hint : body.length ≤ 2147483647)
    (h1 : OwnRun (narrowServer n (defaultHandlers resp) max u heap rh ph) s tr1 ops1 s1) (r1 : SrvRest (narrowServer n (defaultHandlers resp) max u heap rh ph) s1)
    (hnone : called ⟨c, id⟩ (tr ++ tr1) = [])
    (h2 : SrvRun (narrowServer n (defaultHandlers resp) max u heap rh ph) s1 tr2 ops2 s2) (R2 : SrvUp s2) (hquiet : arrived c ops2 = [])
    (h3 : OwnRun (narrowServer n (defaultHandlers resp) max u heap rh ph) s2 tr3 ops3 s3) (r3 : SrvRest (narrowServer n (defaultHandlers resp) max u heap rh ph) s3)
    (hv : (s3.t.conns c).valid = true) :
    ∃ env m0, Tells nvs fields files env ∧ m0.type = 0 ∧
      ∀ outs otail, (∀ r ∈ outs, r.WF) → Incomplete otail → (s3.t.conns c).output = stream outs ++ otail →
        otail = [] ∧
        ((played resp u env (m0 :: called ⟨c, id⟩ (tr2 ++ tr3))).2 = true → ∃ answer end_, outs.filter (fun r => r.id = id.toNat) = answer ++ [end_] ∧
          (∀ x ∈ answer, x.type = 6 ∨ x.type = 7) ∧
          (answer.filter (fun x => x.type = 6)).flatMap Record.content =
            (writtenOn false (played resp u env (m0 :: called ⟨c, id⟩ (tr2 ++ tr3))).1).flatMap (writtenBy _root_.id) ∧
          (answer.filter (fun x => x.type = 7)).flatMap Record.content =
            (writtenOn true (played resp u env (m0 :: called ⟨c, id⟩ (tr2 ++ tr3))).1).flatMap (writtenBy _root_.id) ∧
          end_.type = 3 ∧ end_.content.take 5 = [0, 0, 0, 0, 0]) ∧
        ((played resp u env (m0 :: called ⟨c, id⟩ (tr2 ++ tr3))).2 = false → ∀ answer, answer = outs.filter (fun r => r.id = id.toNat) →
          (∀ x ∈ answer, x.type = 6 ∨ x.type = 7) ∧
          (answer.filter (fun x => x.type = 6)).flatMap Record.content <+:
            (writtenOn false (played resp u env (m0 :: called ⟨c, id⟩ (tr2 ++ tr3))).1).flatMap (writtenBy _root_.id) ∧
          (answer.filter (fun x => x.type = 7)).flatMap Record.content <+:
            (writtenOn true (played resp u env (m0 :: called ⟨c, id⟩ (tr2 ++ tr3))).1).flatMap (writtenBy _root_.id)) := by
  haveI : OfLibrary (narrowServer n (defaultHandlers resp) max u heap rh ph) := .narrow ..
  obtain ⟨kill, q, rest, fin, A, a4⟩ := C149_in_order h R C hlost h1 r1 hnone h2 R2 hquiet h3 r3 hv
  have hwf : ∀ r ∈ ins, r.WF := by
    intro r hr
    have : r ∈ rs.filter (fun r => r.id = id.toNat) := by rw [C.mine]; simp [hr]
    exact C.wf r (List.mem_filter.1 this).1
  obtain ⟨env, m0, T, hm0, hfin, hst, hw⟩ := form_later (called_types _ _) hwf hrole hreq hbody hlen hmax hint A
  refine ⟨env, m0, T, hm0, fun outs otail ho hi hs => ?_⟩
  obtain ⟨o1, o2⟩ := a4 outs otail ho hi hs
  have hid : id.toNat < 2 ^ 16 := id.toNat_lt
  have pl : ∀ e, noEnc (writes e q.log) := by intro e; rw [hw e]; exact played_plain hplain e _ _ _
  have p0 := pl false
  have p1 := pl true
  obtain ⟨role, _, _, A⟩ := alone_narrow.1 A
  rw [← hw false, ← hw true]
  have out : (∀ x ∈ outs.filter (fun r => r.id = id.toNat), x.WF) := fun x hx => ho x (List.mem_filter.1 hx).1
  have good : ∀ x, GoodRecord id 6 x ∨ GoodRecord id 7 x → x.WF := by
    rintro x (g | g) <;> exact ⟨by rw [g.id]; exact hid, by have := g.contentLength; omega, by have := g.padding; omega⟩
  refine ⟨o1, fun hf => ?_, fun hf => ?_⟩
  · rw [← hfin] at hf
    subst hf
    obtain ⟨before, ans, en, c1, c2, c3, c4, c5, c6⟩ := C39_complete _ heap c id role kill max u _ A
    rw [hst] at c2
    obtain ⟨er, e1, e2, e3, e4, e5, e6, rfl⟩ := c2
    have hsent : (Transmits.sent q).map (·.2.1) = (ans ++ [er]).map Record.bytes := by
      show (sentOf q.log).map (·.2.1) = _
      rw [c1, sentOf_append, c3]
      simp [sentOf]
    rw [hsent] at o2
    have hwa : ∀ y ∈ ans ++ [er], y.WF := by
      intro y hy
      rcases List.mem_append.1 hy with hy | hy
      · exact good y (c4 y hy)
      · simp only [List.mem_singleton] at hy
        subst hy
        exact ⟨by rw [e3]; exact hid, by rw [e4]; decide, by rw [e6]; decide⟩
    exact ⟨ans, er, records_bytes_inj out hwa o2, fun x hx => (c4 x hx).imp (fun g => g.type) (fun g => g.type), c5 p0, c6 p1, e2, e5⟩
  · rintro answer rfl
    rw [← hfin] at hf
    subst hf
    obtain ⟨ans, c3, c4, c5, c6⟩ := unfinished_sent A p0 p1
    have hsent : (Transmits.sent q).map (·.2.1) = ans.map Record.bytes := by
      show (sentOf q.log).map (·.2.1) = _
      rw [c3]
      simp
    rw [hsent] at o2
    rw [records_bytes_inj out (fun y hy => good y (c4 y hy)) o2]
    exact ⟨fun x hx => (c4 x hx).imp (fun g => g.type) (fun g => g.type), c5, c6⟩

/-- For a connection with this one request on which nothing goes wrong: when the application has said that it is finished the bytes are exactly those,
and the connection has been closed exactly if the web server did not ask to keep it; before, the connection is open and what it has got is the beginning of
what the application wrote. -/
theorem C149_form_closed {U : Type} {n : Nat} {resp : U → Env → Message → Act U × Bool} {max : Nat} {u : U}
    {heap rh ph} {tr tr1 tr2 tr3 : List MEvent} {ops ops1 ops2 ops3 : List TOp} {s s1 s2 s3 : Srv (Req U)} {c : Nat} {id : UInt16} {rs : List Record} {tail : Bytes}
    {b : Record} {ins : List Record} {nvs : List (Bytes × Bytes)} {body : Bytes} {fields files}
    (hplain : ∀ u env m e, noEnc (writtenOn e (resp u env m).1.ops))
    (h : SrvRun (narrowServer n (defaultHandlers resp) max u heap rh ph) srvInit tr ops s) (R : SrvUp s)
    (C : Conversation ops c id rs tail b ins) (hone : ∀ r ∈ rs, r.id = id.toNat)
    (hrole : b.role = 1 ∨ b.role = 2) (hreq : WholeRequest ins nvs body) (hbody : FormBody nvs body fields files)
    (hlen : LengthTold nvs body.length) (hmax : body.length ≤ max) (hint : body.length ≤ 2147483647)
    (h1 : OwnRun (narrowServer n (defaultHandlers resp) max u heap rh ph) s tr1 ops1 s1) (r1 : SrvRest (narrowServer n (defaultHandlers resp) max u heap rh ph) s1)
    (hnone : called ⟨c, id⟩ (tr ++ tr1) = [])
    (h2 : SrvRun (narrowServer n (defaultHandlers resp) max u heap rh ph) s1 tr2 ops2 s2) (R2 : SrvUp s2) (hquiet : arrived c ops2 = [])
    (h3 : OwnRun (narrowServer n (defaultHandlers resp) max u heap rh ph) s2 tr3 ops3 s3) (r3 : SrvRest (narrowServer n (defaultHandlers resp) max u heap rh ph) s3)
    (hcalm : Calm c (ops ++ ops1 ++ ops2 ++ ops3)) :
    ∃ env m0 answer, Tells nvs fields files env ∧ m0.type = 0 ∧ (∀ x ∈ answer, x.WF ∧ x.version = 1 ∧ x.id = id.toNat ∧ (x.type = 6 ∨ x.type = 7)) ∧
      ((played resp u env (m0 :: called ⟨c, id⟩ (tr2 ++ tr3))).2 = true → ∃ end_, (s3.t.conns c).output = stream (answer ++ [end_]) ∧
        (end_.WF ∧ end_.version = 1 ∧ end_.id = id.toNat ∧ end_.type = 3 ∧ end_.content.take 5 = [0, 0, 0, 0, 0]) ∧
        (answer.filter (fun x => x.type = 6)).flatMap Record.content =
          (writtenOn false (played resp u env (m0 :: called ⟨c, id⟩ (tr2 ++ tr3))).1).flatMap (writtenBy _root_.id) ∧
        (answer.filter (fun x => x.type = 7)).flatMap Record.content =
          (writtenOn true (played resp u env (m0 :: called ⟨c, id⟩ (tr2 ++ tr3))).1).flatMap (writtenBy _root_.id) ∧
        ((s3.t.conns c).valid = false ↔ (b.content.getD 2 0).toNat % 2 = 0)) ∧
      ((played resp u env (m0 :: called ⟨c, id⟩ (tr2 ++ tr3))).2 = false → (s3.t.conns c).output = stream answer ∧
        (answer.filter (fun x => x.type = 6)).flatMap Record.content <+:
          (writtenOn false (played resp u env (m0 :: called ⟨c, id⟩ (tr2 ++ tr3))).1).flatMap (writtenBy _root_.id) ∧
        (answer.filter (fun x => x.type = 7)).flatMap Record.content <+:
          (writtenOn true (played resp u env (m0 :: called ⟨c, id⟩ (tr2 ++ tr3))).1).flatMap (writtenBy _root_.id) ∧
        (s3.t.conns c).valid = true) := by
  haveI : OfLibrary (narrowServer n (defaultHandlers resp) max u heap rh ph) := .narrow ..
  obtain ⟨kill, q, rest, fin, A, a4, a5⟩ := C149_closed h R C hone h1 r1 hnone h2 R2 hquiet h3 r3 hcalm
  have hwf : ∀ r ∈ ins, r.WF := by
    intro r hr
    have : r ∈ rs.filter (fun r => r.id = id.toNat) := by rw [C.mine]; simp [hr]
    exact C.wf r (List.mem_filter.1 this).1
  obtain ⟨env, m0, T, hm0, hfin, hst, hw⟩ := form_later (called_types _ _) hwf hrole hreq hbody hlen hmax hint A
  have hid : id.toNat < 2 ^ 16 := id.toNat_lt
  have pl : ∀ e, noEnc (writes e q.log) := by intro e; rw [hw e]; exact played_plain hplain e _ _ _
  have p0 := pl false
  have p1 := pl true
  obtain ⟨role, _, hk, A⟩ := alone_narrow.1 A
  have good : ∀ x, GoodRecord id 6 x ∨ GoodRecord id 7 x → x.WF ∧ x.version = 1 ∧ x.id = id.toNat ∧ (x.type = 6 ∨ x.type = 7) := by
    rintro x hx
    refine ⟨?_, ?_, ?_, hx.imp (fun g => g.type) (fun g => g.type)⟩ <;> rcases hx with g | g
    · exact ⟨by rw [g.id]; exact hid, by have := g.contentLength; omega, by have := g.padding; omega⟩
    · exact ⟨by rw [g.id]; exact hid, by have := g.contentLength; omega, by have := g.padding; omega⟩
    · exact g.version
    · exact g.version
    · exact g.id
    · exact g.id
  cases fin with
  | true =>
    obtain ⟨before, ans, en, c1, c2, c3, c4, c5, c6⟩ := C39_complete _ heap c id role kill max u _ A
    rw [hst] at c2
    obtain ⟨er, e1, e2, e3, e4, e5, e6, rfl⟩ := c2
    have hsent : (Transmits.sent q).flatMap (·.2.1) = stream (ans ++ [er]) := by
      show (sentOf q.log).flatMap (·.2.1) = _
      rw [c1, sentOf_append, c3]
      simp [sentOf, stream, List.flatMap_map]
    rw [hsent] at a4
    refine ⟨env, m0, ans, T, hm0, fun x hx => good x (c4 x hx), fun _ => ⟨er, a4, ⟨⟨by rw [e3]; exact hid, by rw [e4]; decide, by rw [e6]; decide⟩, e1, e3, e2, e5⟩, ?_, ?_, ?_⟩, fun hf => ?_⟩
    · rw [← hw false]; exact c5 p0
    · rw [← hw true]; exact c6 p1
    · rw [a5, ← hk]; exact ⟨fun x => x.2, fun x => ⟨rfl, x⟩⟩
    · rw [← hfin] at hf; cases hf
  | false =>
    obtain ⟨ans, c3, c4, c5, c6⟩ := unfinished_sent A p0 p1
    have hsent : (Transmits.sent q).flatMap (·.2.1) = stream ans := by
      show (sentOf q.log).flatMap (·.2.1) = _
      rw [c3]
      simp [stream, List.flatMap_map]
    rw [hsent] at a4
    refine ⟨env, m0, ans, T, hm0, fun x hx => good x (c4 x hx), fun hf => ?_, fun _ => ⟨a4, ?_, ?_, ?_⟩⟩
    · rw [← hfin] at hf; cases hf
    · rw [← hw false]; exact c5
    · rw [← hw true]; exact c6
    · cases hv : (s3.t.conns c).valid with
      | true => rfl
      | false => have := (a5.1 hv).1; cases this

/-! ### A concrete run

An application that says `wait ` when it has got its form and asks somebody else; when the answer comes, it writes the values of the
fields and the answer. -/

def laterResp : Unit → Env → Message → Act Unit × Bool := fun u env m =>
  if m.type = 0 then (⟨[(false, .insert b!"wait ")], env, u⟩, false)
  else (⟨[(false, .insert (env.posts.flatMap fun p => p.2 ++ [32])), (false, .insert m.data)], env, u⟩, true)
def laterServer : SrvProg (Req Unit) := narrowServer 1 (defaultHandlers laterResp) 100 () (fun _ _ _ => 0) (fun _ => 0) (fun _ => 0)
instance : OfLibrary laterServer := .narrow ..
def laterBegin : Record := demoRec 1 [0, 1, 1, 0, 0, 0, 0, 0]
def laterBytes : Bytes := stream (laterBegin :: formIns)

def laterEnd (x : List MEvent × List TOp × Srv (Req Unit)) : Bool :=
  x.2.2.m.terminate == false && x.2.2.m.stop == false && (match x.2.2.m.th 0 with | .off | .finished => false | _ => true) &&
  (x.2.1.filterMap fun | .arrive c d => some (c, d) | _ => none) == [(3, laterBytes)] && (called ⟨3, 7⟩ x.1).isEmpty && (match x.2.2.m.pu 0 with | .idle => true | _ => false) &&
  x.2.1.all (fun o => match o with | .receive _ _ _ => false | .tx _ => false | .hangup _ => false | _ => true)

theorem laterRun_end : (srvPlay laterServer [.outer .start, .go 50, .op (.arrive 3 laterBytes)] ([], [], srvInit)).any laterEnd = true := by decide +kernel

theorem laterResp_plain : ∀ u env m e, noEnc (writtenOn e (laterResp u env m).1.ops) := by
  intro u env m e op ho
  unfold laterResp at ho
  split at ho <;>
    simp only [writtenOn, List.mem_map, List.mem_filter, List.mem_cons, List.not_mem_nil, or_false] at ho
  · obtain ⟨x, ⟨rfl, _⟩, rfl⟩ := ho; simp
  · obtain ⟨x, ⟨rfl | rfl, _⟩, rfl⟩ := ho <;> simp

theorem Calm.append {c : Nat} {a b : List TOp} (ha : Calm c a) (hb : Calm c b) : Calm c (a ++ b) := by
  obtain ⟨a1, a2, a3⟩ := ha
  obtain ⟨b1, b2, b3⟩ := hb
  exact ⟨fun hm => (List.mem_append.1 hm).elim a1 b1, fun k1 k2 hm => (List.mem_append.1 hm).elim (a2 k1 k2) (b2 k1 k2),
    fun hm => (List.mem_append.1 hm).elim a3 b3⟩

/-- The form arrives, the server comes to rest; the callback is called with `done`; the server comes to rest again, and its peer has
got `wait 1  x done` and END_REQUEST. -/
example : ∃ tr ops s tr1 ops1 s1 m2 tr3 ops3 s3, SrvRun laterServer srvInit tr ops s ∧ SrvUp s ∧ arrived 3 ops = laterBytes ∧
    OwnRun laterServer s tr1 ops1 s1 ∧ SrvRest laterServer s1 ∧ called ⟨3, 7⟩ (tr ++ tr1) = [] ∧
    estep laterServer.prog (.push 1 ⟨3, 7⟩ ⟨5, b!"done"⟩) s1.m = some ([], m2) ∧
    OwnRun laterServer { s1 with m := m2 } tr3 ops3 s3 ∧ SrvRest laterServer s3 ∧ called ⟨3, 7⟩ tr3 = [⟨5, b!"done"⟩] ∧
    ∃ answer end_, (s3.t.conns 3).output = stream (answer ++ [end_]) ∧
      (answer.filter (fun x => x.type = 6)).flatMap Record.content = b!"wait 1  x done" ∧ end_.type = 3 ∧ (s3.t.conns 3).valid = true := by
  cases hp : srvPlay laterServer [.outer .start, .go 50, .op (.arrive 3 laterBytes)] ([], [], srvInit) with
  | none => have := laterRun_end; rw [hp] at this; cases this
  | some y =>
  have he : laterEnd y = true := by have := laterRun_end; rw [hp] at this; exact this
  have g := srvPlay_good _ (P := laterServer) (x := ([], [], srvInit)) ⟨.refl _, fun _ _ => rfl⟩ hp
  obtain ⟨tr, ops, s⟩ := y
  have h1 : SrvRun laterServer srvInit tr ops s := g.1
  simp only [laterEnd, Bool.and_eq_true, beq_iff_eq, List.isEmpty_iff, List.all_eq_true] at he
  obtain ⟨⟨⟨⟨⟨⟨a1, a2⟩, a3⟩, a4⟩, a5⟩, a6⟩, a7⟩ := he
  have ha : ∀ c, arrived c ops = if c = 3 then laterBytes else [] := by
    intro c
    rw [(arrived_pairs c ops).trans (congrArg (fun l : List (Nat × Bytes) => (l.filter (fun x => x.1 = c)).flatMap (·.2)) a4)]
    by_cases hc : c = 3
    · subst hc; simp
    · have : ¬ 3 = c := fun e => hc e.symm
      simp [hc, this]
  have R : SrvUp s := ⟨⟨0, by revert a3; cases s.m.th 0 <;> simp⟩, a1, a2⟩
  have hwf : ∀ r ∈ laterBegin :: formIns, r.WF ∧ r.id = 7 := by
    intro r hr
    simp only [formIns, laterBegin, List.mem_cons, List.not_mem_nil, or_false] at hr
    rcases hr with rfl | rfl | rfl | rfl | rfl | rfl <;> exact ⟨by unfold Record.WF; decide, rfl⟩
  have C : Conversation ops 3 7 (laterBegin :: formIns) [] laterBegin formIns := by
    refine ⟨fun r hr => (hwf r hr).1, Or.inl (by simp), by rw [ha, if_pos rfl, List.append_nil]; rfl, by decide, fun r hr => ?_, ?_, rfl, ?_, ?_, ?_⟩
    · intro h0; rw [(hwf r hr).2] at h0; cases h0
    · apply List.filter_eq_self.2
      intro r hr; rw [(hwf r hr).2]; rfl
    · intro r hr
      simp only [formIns, List.mem_cons, List.not_mem_nil, or_false] at hr
      rcases hr with rfl | rfl | rfl | rfl | rfl <;> decide
    · simp [laterBegin, demoRec]
    · intro r hr h4 h0
      simp only [formIns, List.mem_cons, List.not_mem_nil, or_false] at hr
      rcases hr with rfl | rfl | rfl | rfl | rfl
      · exact ⟨_, formWhole⟩
      · exact absurd rfl h0
      all_goals exact absurd h4 (by decide)
  have hnv : ∀ ops', (∀ c, arrived c ops' = arrived c ops) → NoValues ops' := by
    intro ops' hops c
    rw [hops]
    by_cases hc : c = 3
    · subst hc
      exact ⟨_, _, C.wf, C.rest, C.bytes, fun r hr h0 h9 => absurd h9 (C.app r hr h0)⟩
    · exact ⟨[], [], by simp, Or.inl (by simp), by rw [ha, if_neg hc]; rfl, by simp⟩
  obtain ⟨tr1, ops1, s1, q1, q2, q3⟩ := C111_reaches_calm h1
  have hrest := (C111_rests h1 (hnv ops fun _ => rfl)).2 tr1 ops1 s1 q1 q3
  have H1 := own_run h1 q1
  have R1 := own_running q1 R
  have C1 : Conversation (ops ++ ops1) 3 7 (laterBegin :: formIns) [] laterBegin formIns :=
    { C with bytes := by rw [arrived_append, own_arrived q1, List.append_nil]; exact C.bytes }
  have hidle : NoCaller s.m := by
    intro p k x hx
    have : s.m.pu p = .idle := by
      by_cases hp0 : p = 0
      · subst hp0; revert a6; cases s.m.pu 0 <;> simp
      · exact g.2 p hp0
    rw [this] at hx
    rcases hx with hx | hx <;> cases hx
  have hnone : called ⟨3, 7⟩ (tr ++ tr1) = [] := by
    rw [called_append, a5, (own_called q1 hidle _).2]; rfl
  obtain ⟨I1, _⟩ := rest_idle H1 R1 hrest
  have hidle1 := (still_rest (run_kq (srv_parts H1).m).1 I1.still).2
  have hpush : estep laterServer.prog (.push 1 ⟨3, 7⟩ ⟨5, b!"done"⟩) s1.m = some ([], s1.m.pgoto 1 (.call ⟨3, 7⟩ ⟨5, b!"done"⟩)) := by
    unfold estep
    dsimp only
    rw [if_pos (hidle1 1)]
    rfl
  have h2 : SrvRun laterServer s1 ([] ++ []) ([] ++ []) { s1 with m := s1.m.pgoto 1 (.call ⟨3, 7⟩ ⟨5, b!"done"⟩) } :=
    .step (.refl s1) (.outer _ (by decide) hpush)
  have R2 : SrvUp ({ s1 with m := s1.m.pgoto 1 (.call ⟨3, 7⟩ ⟨5, b!"done"⟩) } : Srv (Req Unit)) := ⟨R1.live, R1.term, R1.stop⟩
  have H2 := run_later H1 h2
  simp only [List.append_nil] at H2 h2
  obtain ⟨tr3, ops3, s3, t1, t2, t3⟩ := C111_reaches_calm H2
  have hrest3 := (C111_rests H2 (hnv _ fun c => by rw [arrived_append, own_arrived q1, List.append_nil])).2 tr3 ops3 s3 t1 t3
  have hcalm : Calm 3 (ops ++ ops1 ++ [] ++ ops3) := by
    refine Calm.append (Calm.append (Calm.append ?_ (q2 3)) (by simp [Calm])) (t2 3)
    refine ⟨fun hm => ?_, fun k1 k2 hm => ?_, fun hm => ?_⟩ <;> (have := a7 _ hm; cases this)
  have hreq : WholeRequest formIns (formPairs.map Prod.fst) b!"a=1&b=%20x" :=
    ⟨[(demoRec 4 (formPairs.flatMap Prod.snd), formPairs)], demoRec 4 [], [demoRec 5 b!"a=1&b", demoRec 5 b!"=%20x"], demoRec 5 [], rfl,
      by intro p hp; simp only [List.mem_singleton] at hp; subst hp; exact formWhole, by simp, ⟨rfl, rfl⟩,
      by intro b hb; simp only [List.mem_cons, List.not_mem_nil, or_false] at hb; rcases hb with rfl | rfl <;> exact ⟨rfl, by decide⟩, by decide, ⟨rfl, rfl⟩⟩
  have hbody : FormBody (formPairs.map Prod.fst) b!"a=1&b=%20x" [(b!"a", b!"1"), (b!"b", b!" x")] [] :=
    .urlencoded (t := b!"application/x-www-form-urlencoded") (by decide) (by decide) formText_demo
  have hlen : LengthTold (formPairs.map Prod.fst) (b!"a=1&b=%20x" : Bytes).length := Or.inr ⟨b!"10", by decide, by decide, by unfold IsDigit; decide, by decide⟩
  obtain ⟨env, m0, answer, T, hm0, _, o1, o2⟩ := C149_form_closed laterResp_plain h1 R C (fun r hr => (hwf r hr).2) (Or.inl (by decide)) hreq hbody hlen
    (by decide) (by decide) q1 hrest hnone h2 R2 rfl t1 hrest3 hcalm
  have hv : (s3.t.conns 3).valid = true := by
    cases hf : (played laterResp () env (m0 :: called ⟨3, 7⟩ ([] ++ tr3))).2 with
    | false => exact (o2 hf).2.2.2
    | true =>
      obtain ⟨_, _, _, _, _, o3⟩ := o1 hf
      cases hv : (s3.t.conns 3).valid with
      | true => rfl
      | false => exact absurd (o3.1 hv) (by decide)
  have hcalled : called ⟨3, 7⟩ tr3 = [⟨5, b!"done"⟩] := by
    refine C149_taken H1 R1 hrest C1 (fun r hr => by rw [(hwf r hr).2]; decide) ?_ (by decide) hpush t1 hrest3 hv
    intro is kill q rest fin A hr hc
    rw [hnone] at hc
    have his := inputs_records (List.prefix_nil.1 hc)
    rw [hr] at his
    subst his
    have A' : Alone laterServer 3 7 laterBegin (formIns.map .record ++ asInputs []) kill q rest fin := by simpa using A
    obtain ⟨env, m0, _, k1, k2, _⟩ := form_later (n := 1) (resp := laterResp) (max := 100) (u := ()) (b := laterBegin) (ms := []) (by simp) (fun r hr => (hwf r (by simp [hr])).1) (Or.inl (by decide)) hreq hbody hlen (by decide) (by decide) A'
    rw [k2]
    simp [played, laterResp, k1]
  have hpl : played laterResp () env (m0 :: called ⟨3, 7⟩ ([] ++ tr3)) =
      ([(false, .insert b!"wait "), (false, .insert (env.posts.flatMap fun p => p.2 ++ [32])), (false, .insert b!"done")], true) := by
    rw [List.nil_append, hcalled]
    simp [played, laterResp, hm0]
  obtain ⟨en, e1, ⟨_, _, _, e2, _⟩, e3, _⟩ := o1 (by rw [hpl])
  refine ⟨tr, ops, s, tr1, ops1, s1, _, tr3, ops3, s3, h1, R, by rw [ha, if_pos rfl], q1, hrest, hnone, hpush, t1, hrest3, hcalled, answer, en, e1, ?_, e2, hv⟩
  rw [e3, hpl]
  simp only [writtenOn, T.posts]
  decide

end Fcgi.Props
