import Verif.Lemmas.ServerAgain
import Verif.Props.Server
/-! # Properties: connections that are kept open and request ids that are used again (C129) -/
namespace Fcgi.Props
open Fcgi Fcgi.Model Fcgi.Spec
variable {U : Type} [Transmits U]

/-- As `Conversation`, but for any number of requests with the same id on the connection, one after the other: what the peer has sent for the id is, for
each request, a BEGIN_REQUEST record and other records. -/
structure Dialogue (ops : List TOp) (c : Nat) (id : UInt16) (rs : List Record) (tail : Bytes) (convs : List (Record × List Record)) : Prop where
  wf : ∀ r ∈ rs, r.WF
  rest : Incomplete tail
  bytes : arrived c ops = stream rs ++ tail
  ids : id ≠ 0 ∧ id ≠ 0xffff
  app : ∀ r ∈ rs, r.id = 0 → r.type ≠ 9
  mine : rs.filter (fun r => r.id = id.toNat) = convs.flatMap (fun x => x.1 :: x.2)
  begin_ : ∀ x ∈ convs, x.1.type = 1
  more : ∀ x ∈ convs, ∀ r ∈ x.2, r.type ≠ 1
  body : ∀ x ∈ convs, 3 ≤ x.1.content.length
  params : ∀ x ∈ convs, ∀ r ∈ x.2, r.type = 4 → r.content ≠ [] → ∃ items, WholePairs r items

/-- The records the requests on their own (`Alone`) send, one request after the other: each is given the records of its conversation and
some of the messages that callbacks sent, and all but the last are complete. -/
inductive Answered (P : SrvProg U) (c : Nat) (id : UInt16) (tr : List MEvent) : List (Record × List Record) → List Bytes → Prop where
  | nil : Answered P c id tr [] []
  | cons {b ins is kill q rest fin convs out} (ha : Alone P c id b is kill q rest fin) (hi : records is = ins)
      (hc : List.Sublist (callbacks is) (called ⟨c, id⟩ tr)) (hf : convs ≠ [] → fin = true) (h : Answered P c id tr convs out) :
      Answered P c id tr ((b, ins) :: convs) ((Transmits.sent q).map (·.2.1) ++ out)

/-- The same before all has been received and handled: each request has been given the first records of its conversation. -/
inductive SoFar (P : SrvProg U) (c : Nat) (id : UInt16) (tr : List MEvent) : List (Record × List Record) → List Bytes → Prop where
  | nil (convs) : SoFar P c id tr convs []
  | cons {b ins is kill q fin convs out} (ha : Alone P c id b is kill q [] fin) (hi : records is <+: ins)
      (hc : List.Sublist (callbacks is) (called ⟨c, id⟩ tr)) (h : SoFar P c id tr convs out) :
      SoFar P c id tr ((b, ins) :: convs) ((Transmits.sent q).map (·.2.1) ++ out)

/-- A conversation is the case of one request. -/
theorem Conversation.dialogue {ops c id rs tail b ins} (C : Conversation ops c id rs tail b ins) : Dialogue ops c id rs tail [(b, ins)] :=
  ⟨C.wf, C.rest, C.bytes, C.ids, C.app, by rw [C.mine]; simp, by simpa using C.begin_, by simpa using C.more, by simpa using C.body, by simpa using C.params⟩

def msgsOfConvs (convs : List (Record × List Record)) : List (Message × List Message) := convs.map fun x => (recordMsg x.1, x.2.map recordMsg)

theorem msgs_flat (convs : List (Record × List Record)) :
    (convs.flatMap (fun x => x.1 :: x.2)).map recordMsg = (msgsOfConvs convs).flatMap (fun x => x.1 :: x.2) := by
  induction convs with
  | nil => rfl
  | cons x convs ih =>
    rw [List.flatMap_cons, List.map_append, ih]
    simp [msgsOfConvs, List.flatMap_cons]

section
variable {P : SrvProg U} [OfLibrary P] {tr : List MEvent} {ops : List TOp} {s : Srv U} {c : Nat} {id : UInt16} {rs : List Record} {tail : Bytes}
  {convs : List (Record × List Record)}

theorem Dialogue.begins (D : Dialogue ops c id rs tail convs) : ∀ x ∈ msgsOfConvs convs, isBegin x.1 = true := by
  intro x hx
  obtain ⟨y, hy, rfl⟩ := List.mem_map.1 hx
  exact begin_msg _ (D.begin_ y hy)

theorem Dialogue.mores (D : Dialogue ops c id rs tail convs) : ∀ x ∈ msgsOfConvs convs, ∀ m ∈ x.2, isBegin m = false := by
  intro x hx m hm
  obtain ⟨y, hy, rfl⟩ := List.mem_map.1 hx
  obtain ⟨r, hr, rfl⟩ := List.mem_map.1 hm
  exact more_msg _ (D.more y hy r hr)

theorem Dialogue.mem (D : Dialogue ops c id rs tail convs) : ∀ x ∈ convs, ∀ r ∈ x.2, r.WF := by
  intro x hx r hr
  have : r ∈ rs.filter (fun r => r.id = id.toNat) := by
    rw [D.mine, List.mem_flatMap]; exact ⟨x, hx, by simp [hr]⟩
  exact D.wf r (List.mem_filter.1 this).1

omit [OfLibrary P] in
theorem Dialogue.routed (D : Dialogue ops c id rs tail convs) (h : SrvRun P srvInit tr ops s) :
    routedFor ⟨c, id⟩ tr <+: (msgsOfConvs convs).flatMap (fun x => x.1 :: x.2) := by
  have := (key_prefix h c id D.ids.1 D.ids.2 rs tail D.wf D.rest D.bytes).1
  rw [D.mine, msgs_flat] at this
  exact this

theorem Dialogue.sound (D : Dialogue ops c id rs tail convs) (h : SrvRun P srvInit tr ops s) (ha : Apart ⟨c, id⟩ tr) : SoundFor ⟨c, id⟩ tr s.m := by
  refine sound_segs (srv_parts h).m ⟨c, id⟩ ha _ D.begins D.mores (D.routed h) ?_
  intro x hx role kill ms hms
  obtain ⟨y, hy, rfl⟩ := List.mem_map.1 hx
  obtain ⟨is, h1, h2, h3, h4, h5⟩ := to_inputs ms y.2 hms
  rw [← h1]
  apply lib_total
  · intro i hi
    cases i with
    | callback t d => exact h4 t d hi
    | record r => exact D.mem y hy r (h5 r hi)
  · intro i hi r hr ht hc
    subst hr
    exact D.params y hy r (h5 r hi) ht hc

theorem Dialogue.whole (D : Dialogue ops c id rs tail convs) (h : SrvRun P srvInit tr ops s) : ∀ d ∈ (sentTo c ops).map (·.1), Complete d := by
  intro d hd
  obtain ⟨x, hx, rfl⟩ := List.mem_map.1 hd
  rcases (srv_sends h).st c x hx with h1 | ⟨h0, h1⟩
  · exact h1.1
  · obtain ⟨r, hr, hid, hm⟩ := sent_answer h D.wf D.rest D.bytes x hx h0
    rw [mgmt_unknown _ _ _ (D.app r hr hid), List.mem_singleton] at hm
    have := congrArg (fun y : Nat × Bytes × Bool => y.2.1) hm
    dsimp only at this
    rw [this]
    exact Record.complete _ (unknownTypeRecord_wf _ _ (replyRest_length _) _)

/-- A request object of the dialogue is the request on its own. -/
theorem obj_alone (h : SrvRun P srvInit tr ops s) (hS : SoundFor ⟨c, id⟩ tr s.m) {r : Nat} {b : Record} (hbody : 3 ≤ b.content.length)
    (hc : .created r ⟨c, id⟩ (recordMsg b) ∈ tr) :
    ∃ kill q fin, (∃ role, role.toNat = 256 * (b.content.getD 0 0).toNat + (b.content.getD 1 0).toNat ∧
        (kill = true ↔ (b.content.getD 2 0).toNat % 2 = 0) ∧
        handleAll P.handle (P.fresh c id role kill) (endedBy r tr) = .ok (q, [], fin)) ∧
      (s.m.objs r).state = some q ∧ (fin = true ↔ ∃ t m, .ended r t m true ∈ tr) := by
  have A := srv_parts h
  have e8 : (recordMsg b).data.getD 8 0 = b.content.getD 0 0 := body_at b 0 (by omega)
  have e9 : (recordMsg b).data.getD 9 0 = b.content.getD 1 0 := body_at b 1 (by omega)
  have e10 : (recordMsg b).data.getD 10 0 = b.content.getD 2 0 := body_at b 2 (by omega)
  have hrole : ∀ a b : UInt8, (a.toUInt16 * 256 + b.toUInt16).toNat = 256 * a.toNat + b.toNat := by
    intro a b
    have ha := a.toNat_lt
    have hb := b.toNat_lt
    simp only [UInt16.toNat_add, UInt16.toNat_mul, UInt8.toNat_toUInt16]
    simp
    omega
  have hkill : ∀ c : UInt8, ((c &&& 1 == 0) = true ↔ c.toNat % 2 = 0) := by
    intro c
    rw [beq_iff_eq, ← UInt8.toNat_inj, UInt8.toNat_and]
    simp [Nat.and_one_is_mod]
  obtain ⟨q, hq⟩ := Option.ne_none_iff_exists'.1 (hS r (recordMsg b) hc)
  obtain ⟨q0, g1, fin, g2, g3⟩ := request_alone A.m r ⟨c, id⟩ (recordMsg b) hc q hq
  simp only [kindProg, Option.some.injEq, e8, e9, e10] at g1
  exact ⟨_, q, fin, ⟨_, hrole _ _, hkill _, by rw [g1]; exact g2⟩, hq, g3⟩

omit [Transmits U] [OfLibrary P] in
theorem obj_callbacks (h : MRun P.prog (mInit none) tr s.m) {r : Nat} {m0 : Message} (hc : .created r ⟨c, id⟩ m0 ∈ tr) :
    List.Sublist ((endedBy r tr).filter (fun m => m.type ≠ 0)) (called ⟨c, id⟩ tr) :=
  List.Sublist.trans ((C41_order h r).2.filter _).sublist (called_sub fun k' m hm => accepted_key h hc hm)

theorem so_far (h : SrvRun P srvInit tr ops s) (hS : SoundFor ⟨c, id⟩ tr s.m) :
    ∀ (convs : List (Record × List Record)) (segs : List Seg), (∀ x ∈ convs, 3 ≤ x.1.content.length) → Aligned segs (msgsOfConvs convs) →
      (∀ x ∈ segs, .created x.r ⟨c, id⟩ x.b ∈ tr) → (∀ x ∈ segs, recordsTo x.r tr <+: x.ms) →
      SoFar P c id tr convs (((segs.map (·.r)).flatMap fun r => recsOf (s.m.objs r).state).map (·.1))
  | convs, [], _, _, _, _ => .nil convs
  | [], x :: xs, _, hA, _, _ => by cases hA
  | (b, ins) :: convs, x :: xs, hb, hA, h1, h2 => by
    have key : x.b = recordMsg b ∧ x.ms <+: ins.map recordMsg ∧ Aligned xs (msgsOfConvs convs) := by
      cases hA with
      | last _ hb hm => exact ⟨hb, hm, .nil _⟩
      | cons hb hm hA => exact ⟨hb, by rw [hm]; exact List.prefix_refl _, hA⟩
    obtain ⟨k1, k2, k3⟩ := key
    have hcr := h1 x (by simp)
    rw [k1] at hcr
    obtain ⟨kill, q, fin, ⟨role, g1, g2, g3⟩, g4, g5⟩ := obj_alone h hS (hb _ List.mem_cons_self) hcr
    have hpre : (endedBy x.r tr).filter (fun m => m.type = 0) <+: ins.map recordMsg :=
      List.IsPrefix.trans (List.IsPrefix.trans (List.IsPrefix.filter _ (C41_order (srv_parts h).m x.r).2) (h2 x (by simp))) k2
    obtain ⟨is, i1, i2, i3, i4, i5⟩ := to_inputs _ ins hpre
    have ih := so_far h hS convs xs (fun y hy => hb y (by simp [hy])) k3 (fun y hy => h1 y (by simp [hy])) (fun y hy => h2 y (by simp [hy]))
    have := SoFar.cons (P := P) (c := c) (id := id) (tr := tr) (b := b) (ins := ins) (is := is) (kill := kill) (q := q) (fin := fin)
      ⟨role, g1, g2, by rw [i1]; exact g3⟩ i2 ?_ ih
    · simp only [List.map_cons, List.flatMap_cons, g4, List.map_append]
      simpa [recsOf, Function.comp_def] using this
    · rw [callbacks_filter i4, i1]
      exact obj_callbacks (s := s) (srv_parts h).m hcr

theorem answered (h : SrvRun P srvInit tr ops s) (hS : SoundFor ⟨c, id⟩ tr s.m) :
    ∀ (convs : List (Record × List Record)) (segs : List Seg), (∀ x ∈ convs, 3 ≤ x.1.content.length) →
      segs.map (fun x => (x.b, x.ms)) = msgsOfConvs convs →
      (∀ x ∈ segs, .created x.r ⟨c, id⟩ x.b ∈ tr) → (∀ x ∈ segs, recordsTo x.r tr <+: x.ms) →
      (∀ x ∈ segs, (∃ t m, .ended x.r t m true ∈ tr) ∨ (endedBy x.r tr).filter (fun m => m.type = 0) = x.ms) →
      (∀ init x xs, segs = init ++ x :: xs → xs ≠ [] → ∃ t m, .ended x.r t m true ∈ tr) →
      Answered P c id tr convs (((segs.map (·.r)).flatMap fun r => recsOf (s.m.objs r).state).map (·.1))
  | [], [], _, _, _, _, _, _ => .nil
  | [], x :: xs, _, hA, _, _, _, _ => by simp [msgsOfConvs] at hA
  | _ :: _, [], _, hA, _, _, _, _ => by simp [msgsOfConvs] at hA
  | (b, ins) :: convs, x :: xs, hb, hA, h1, h2, h3, h4 => by
    simp only [msgsOfConvs, List.map_cons, List.cons.injEq, Prod.mk.injEq] at hA
    obtain ⟨⟨k1, k2⟩, k3⟩ := hA
    have hcr := h1 x (by simp)
    rw [k1] at hcr
    obtain ⟨kill, q, fin, ⟨role, g1, g2, g3⟩, g4, g5⟩ := obj_alone h hS (hb _ List.mem_cons_self) hcr
    have hpre : (endedBy x.r tr).filter (fun m => m.type = 0) <+: ins.map recordMsg := by
      rw [← k2]
      exact List.IsPrefix.trans (List.IsPrefix.filter _ (C41_order (srv_parts h).m x.r).2) (h2 x (by simp))
    have hf : fin = true ∨ (endedBy x.r tr).filter (fun m => m.type = 0) = ins.map recordMsg := by
      rcases h3 x (by simp) with hh | hh
      · exact Or.inl (g5.2 hh)
      · exact Or.inr (hh.trans k2)
    obtain ⟨is, rest, i1, i2, i3⟩ := finish_inputs hpre g3 hf
    have ih := answered h hS convs xs (fun y hy => hb y (by simp [hy])) k3 (fun y hy => h1 y (by simp [hy])) (fun y hy => h2 y (by simp [hy]))
      (fun y hy => h3 y (by simp [hy])) (fun init y ys hy hne => h4 (x :: init) y ys (by rw [hy]; rfl) hne)
    have := Answered.cons (P := P) (c := c) (id := id) (tr := tr) (b := b) (ins := ins) (is := is) (kill := kill) (q := q) (rest := rest) (fin := fin)
      ⟨role, g1, g2, i1⟩ i2 ?_ ?_ ih
    · simp only [List.map_cons, List.flatMap_cons, g4, List.map_append]
      simpa [recsOf, Function.comp_def] using this
    · rw [i3]
      exact obj_callbacks (s := s) (srv_parts h).m hcr
    · intro hne
      refine g5.2 (h4 [] x xs rfl ?_)
      intro hx; subst hx
      cases convs with
      | nil => exact hne rfl
      | cons _ _ => simp at k3

theorem dialogue_outs (h : SrvRun P srvInit tr ops s) (D : Dialogue ops c id rs tail convs) {outs : List Record} {otail : Bytes} (hw : ∀ r ∈ outs, r.WF)
    (ho : (s.t.conns c).output = stream outs ++ otail) :
    (outs.filter (fun r => r.id = id.toNat)).map Record.bytes <+: (sentFor ⟨c, id⟩ ops).map (·.1) := by
  have hp := C17_output_prefix _ _ _ (srv_parts h).t c
  rw [ho, List.flatMap_def] at hp
  have h7 := parse_prefix _ (D.whole h) outs otail hw hp
  rw [outs_for id outs hw _ rfl]
  have h8 := List.IsPrefix.filter (fun d => frameId d = id.toNat) h7
  have h9 : ((sentTo c ops).map (·.1)).filter (fun d => frameId d = id.toNat) = (sentFor ⟨c, id⟩ ops).map (·.1) := by
    unfold sentFor; rw [List.filter_map]; rfl
  rw [h9] at h8
  exact h8

/-- At every moment of every run: if no BEGIN_REQUEST record for the id came while there was a request with the id, then the records the peer has got
with that id are the first of those that requests on their own send, one after the other. -/
theorem C129_answer (h : SrvRun P srvInit tr ops s) (D : Dialogue ops c id rs tail convs) (ha : Apart ⟨c, id⟩ tr) :
    ∃ out, SoFar P c id tr convs out ∧ ∀ outs otail, (∀ r ∈ outs, r.WF) → (s.t.conns c).output = stream outs ++ otail →
      (outs.filter (fun r => r.id = id.toNat)).map Record.bytes <+: out := by
  have hS := D.sound h ha
  obtain ⟨segs, J, hA⟩ := routed_segs (srv_parts h).m ⟨c, id⟩ ha _ D.begins D.mores (D.routed h)
  refine ⟨_, so_far h hS convs segs D.body hA J.cr J.px, fun outs otail hw ho => List.IsPrefix.trans (dialogue_outs h D hw ho) ?_⟩
  rw [← J.obj]
  apply List.IsPrefix.map
  show _ <+: madeFor ⟨c, id⟩ tr s.m
  have Q := srv_sends h
  by_cases hh : ∃ t r, (s.m.th t).mutexOf = some (⟨c, id⟩, r)
  · obtain ⟨t, r, hh⟩ := hh
    exact ⟨_, Q.eh ⟨c, id⟩ D.ids.1 hS t r hh⟩
  · rw [Q.en ⟨c, id⟩ D.ids.1 hS (fun t r hx => hh ⟨t, r, hx⟩)]
    exact List.prefix_refl _

omit [OfLibrary P] in
/-- Nobody said that an open connection is lost. -/
theorem not_lost (h : SrvRun P srvInit tr ops s) (hwf : ∀ r ∈ rs, r.WF) (hrest : Incomplete tail) (hbytes : arrived c ops = stream rs ++ tail)
    (hlost : ∀ r ∈ rs, r.id ≠ 0xffff) (hv : (s.t.conns c).valid = true) (hin : (s.t.conns c).input = []) : .lost c ∉ tr := by
  intro ht
  obtain ⟨y, hy, hid⟩ := (srv_routed h).ls c ht
  have hy' : y ∈ msgsOf c s.t := by
    unfold msgsOf; rw [List.mem_filter]; exact ⟨hy, by simp [hid]⟩
  obtain ⟨_, hmsgs⟩ := C09_fragmentation P.recvHeap ops s.t (srv_parts h).t c rs tail hwf hrest hbytes
  rw [hmsgs hv hin] at hy'
  obtain ⟨x, hx, rfl⟩ := List.mem_map.1 hy'
  simp only [messageFor, RequestId.mk.injEq, true_and] at hid
  have := congrArg UInt16.toNat hid
  have hlt := (hwf x hx).1
  simp at this
  exact hlost x hx (by omega)

/-- As soon as nothing is left to be done and the connection is still open, the peer has got exactly the records that the requests on their own send,
having been given all the records the peer sent: every request is answered, in order, and all but the last are complete. -/
theorem C129_complete (h : SrvRun P srvInit tr ops s) (D : Dialogue ops c id rs tail convs) (ha : Apart ⟨c, id⟩ tr) (I : Idle P s)
    (hlost : ∀ r ∈ rs, r.id ≠ 0xffff) (hv : (s.t.conns c).valid = true) (hcl : (s.t.conns c).closing = false) (hin : (s.t.conns c).input = []) :
    ∃ out, Answered P c id tr convs out ∧ ∀ outs otail, (∀ r ∈ outs, r.WF) → Incomplete otail → (s.t.conns c).output = stream outs ++ otail →
      otail = [] ∧ (outs.filter (fun r => r.id = id.toNat)).map Record.bytes = out := by
  have A := srv_parts h
  have hS := D.sound h ha
  obtain ⟨MI, MS, MK, MQ⟩ := run_kq A.m
  obtain ⟨r1, r2⟩ := still_rest MI I.still
  have hall := (key_prefix h c id D.ids.1 D.ids.2 rs tail D.wf D.rest D.bytes).2 hv hin I.given (r2 0)
  rw [D.mine, msgs_flat] at hall
  obtain ⟨segs, J, hA⟩ := routed_segs A.m ⟨c, id⟩ ha _ D.begins D.mores (D.routed h)
  have hseg := aligned_all hA (by rw [← hall, J.rt]; rfl)
  have cause : ∀ x ∈ segs, (∃ t m, .ended x.r t m true ∈ tr) ∨ s.m.table.lookup ⟨c, id⟩ = some x.r := by
    intro x hx
    rcases (run_cause A.m).cr x.r ⟨c, id⟩ x.b (J.cr x hx) with ht | hh | ht | ht
    · right
      cases hl : s.m.table.lookup ⟨c, id⟩ with
      | none => exact absurd ht (lookup_none hl x.r)
      | some r' => rw [MI.nd _ r' x.r (mlookup_mem hl) ht]
    · exact Or.inl hh
    · exfalso
      rw [A.v] at ht
      simp only [hv] at ht
      cases ht
    · exact absurd ht (not_lost h D.wf D.rest D.bytes hlost hv hin)
  refine ⟨_, answered h hS convs segs D.body hseg J.cr J.px ?_ ?_, ?_⟩
  · intro x hx
    rcases cause x hx with hh | hh
    · exact Or.inl hh
    · right
      obtain ⟨init, y, e1, e2, e3, e4⟩ := J.cu x.r hh
      have hxy : x = y := by
        rw [e1] at hx
        rcases List.mem_append.1 hx with hx | hx
        · exact absurd rfl (e4 x hx)
        · simpa using hx
      rw [C40_handled A.m I.still I.term I.live ⟨c, id⟩ x.r (by rw [(run_rinv A.m).sv]; exact hh)]
      rw [← hxy] at e3; exact e3
  · intro init x xs hx hne
    rcases cause x (by rw [hx]; simp) with hh | hh
    · exact hh
    · exfalso
      obtain ⟨init', y, e1, e2, e3, e4⟩ := J.cu x.r hh
      refine e4 x ?_ rfl
      obtain ⟨xs', z, rfl⟩ : ∃ xs' z, xs = xs' ++ [z] := ⟨xs.dropLast, xs.getLast hne, (List.dropLast_concat_getLast hne).symm⟩
      have : init' ++ [y] = (init ++ x :: xs') ++ [z] := by rw [← e1, hx]; simp
      rw [(List.append_inj' this rfl).1]; simp
  · intro outs otail hw hot ho
    have hp := C17_nothing_lost _ _ _ A.t c hv hcl
    have hpe : pendingOf c s.t = [] := by simp [pendingOf, pending, I.queue.1, I.queue.2]
    rw [hpe, List.flatMap_nil, List.append_nil, ho, List.flatMap_def] at hp
    obtain ⟨h8, h9⟩ := parse_all _ (D.whole h) outs otail hw hot hp
    refine ⟨h9, ?_⟩
    rw [outs_for id outs hw _ h8]
    have h9 : ((sentTo c ops).map (·.1)).filter (fun d => frameId d = id.toNat) = (sentFor ⟨c, id⟩ ops).map (·.1) := by
      unfold sentFor; rw [List.filter_map]; rfl
    have hsent : sentFor ⟨c, id⟩ ops = madeFor ⟨c, id⟩ tr s.m := by
      refine (srv_sends h).en ⟨c, id⟩ D.ids.1 hS ?_
      intro t r hm
      have := r1 t
      cases hp : s.m.th t <;> rw [hp] at hm this <;> simp_all [HPC.mutexOf, HPC.resting]
    rw [h9, hsent, madeFor, J.obj]

/-- And the connection is kept open: if it is used for this id only, all the BEGIN_REQUEST records have the flag FCGI_KEEP_CONN and nothing goes wrong (no
hang-up by the peer, no errors of the kernel), then the server never closes it. -/
theorem C129_kept (h : SrvRun P srvInit tr ops s) (D : Dialogue ops c id rs tail convs) (ha : Apart ⟨c, id⟩ tr)
    (hone : ∀ r ∈ rs, r.id = id.toNat) (hkeep : ∀ x ∈ convs, (x.1.content.getD 2 0).toNat % 2 = 1) (hcalm : Calm c ops) :
    (s.t.conns c).valid = true ∧ (s.t.conns c).closing = false := by
  have A := srv_parts h
  have hS := D.sound h ha
  obtain ⟨o1, o2⟩ := C19_orderly _ _ _ A.t c hcalm
  refine ⟨?_, o1⟩
  cases hv : (s.t.conns c).valid with
  | true => rfl
  | false =>
    exfalso
    obtain ⟨be, d, af, e1, _, _⟩ := o2 hv
    have hd : (d, true) ∈ sentTo c ops := by rw [e1]; simp
    -- it is for the id
    have hid : (d, true) ∈ sentFor ⟨c, id⟩ ops := by
      unfold sentFor
      rw [List.mem_filter, decide_eq_true_eq]
      refine ⟨hd, ?_⟩
      rcases sent_owner h c _ hd with ⟨h1, y, hy, hh⟩ | ⟨r, id', m, h1, h2⟩
      · exfalso
        have hy' : y ∈ msgsOf c s.t := by
          unfold msgsOf; rw [List.mem_filter]; exact ⟨hy, by simp [hh]⟩
        obtain ⟨⟨k, _, hfr⟩, _⟩ := C09_fragmentation P.recvHeap ops s.t A.t c rs tail D.wf D.rest D.bytes
        have key : y ∈ (rs.take k).map (messageFor c) → False := by
          intro hm
          obtain ⟨r, hr, rfl⟩ := List.mem_map.1 hm
          have hr' := List.mem_of_mem_take hr
          simp only [messageFor, RequestId.mk.injEq, true_and] at hh
          rw [hone r hr'] at hh
          exact D.ids.1 (by simpa using hh)
        rcases hfr with hfr | ⟨_, hfr⟩
        · rw [hfr] at hy'; exact key hy'
        · rw [hfr] at hy'
          rcases List.mem_append.1 hy' with hy' | hy'
          · exact key hy'
          · simp only [List.mem_singleton] at hy'
            subst hy'
            simp [goneMsg, badFcgiId] at hh
      · rw [h2]
        obtain ⟨h0, hf⟩ := created_ids A.m _ _ _ h1
        have hm := created_routed A.m h1
        obtain ⟨w, hw⟩ := (key_prefix h c id' h0 hf rs tail D.wf D.rest D.bytes).1
        have : m ∈ (rs.filter (fun r => r.id = id'.toNat)).map recordMsg := by rw [← hw]; simp [hm]
        obtain ⟨y, hy, _⟩ := List.mem_map.1 this
        obtain ⟨y1, y2⟩ := List.mem_filter.1 hy
        rw [decide_eq_true_eq] at y2
        show id'.toNat = id.toNat
        rw [← y2]; exact hone y y1
    have hmade : (d, true) ∈ madeFor ⟨c, id⟩ tr s.m := by
      have Q := srv_sends h
      by_cases hh : ∃ t r, (s.m.th t).mutexOf = some (⟨c, id⟩, r)
      · obtain ⟨t, r, hh⟩ := hh
        rw [← Q.eh ⟨c, id⟩ D.ids.1 hS t r hh]; simp [hid]
      · rw [← Q.en ⟨c, id⟩ D.ids.1 hS (fun t r hx => hh ⟨t, r, hx⟩)]; exact hid
    obtain ⟨segs, J, hA⟩ := routed_segs A.m ⟨c, id⟩ ha _ D.begins D.mores (D.routed h)
    unfold madeFor at hmade
    rw [J.obj] at hmade
    obtain ⟨r, hr, hmem⟩ := List.mem_flatMap.1 hmade
    obtain ⟨x, hx, rfl⟩ := List.mem_map.1 hr
    obtain ⟨cv, hcv, hb, _⟩ := aligned_mem hA x hx
    obtain ⟨y, hy, rfl⟩ := List.mem_map.1 hcv
    have hcr := J.cr x hx
    rw [hb] at hcr
    obtain ⟨kill, q, fin, ⟨role, g1, g2, g3⟩, g4, g5⟩ := obj_alone h hS (D.body y hy) hcr
    rw [g4] at hmem
    obtain ⟨z, hz, hz2⟩ := List.mem_map.1 hmem
    obtain ⟨f1, f2⟩ := lib_once g3
    have hk := hkeep y hy
    have hkill : kill = false := by
      cases kill with
      | false => rfl
      | true => have := g2.1 rfl; omega
    have hflag : z.2.2 = true := by rw [hz2]
    cases fin with
    | false => rw [f2 rfl z hz] at hflag; cases hflag
    | true =>
      obtain ⟨be', en, i1, i2⟩ := f1 rfl
      rw [i1] at hz
      rcases List.mem_append.1 hz with hz | hz
      · rw [i2 z hz] at hflag; cases hflag
      · rw [List.mem_singleton] at hz; subst hz; rw [hkill] at hflag; cases hflag

/-! ### Taking turns -/

/-- The number of END_REQUEST records (type 3) among the records of the id. -/
def endRecords (id : UInt16) (outs : List Record) : Nat := (outs.filter (fun r => r.id = id.toNat)).countP (fun r => r.type = 3)

/-- Requests with the same id one after the other, the next one sent when the peer has got an END_REQUEST record for each of those before and the server
has nothing left to do. -/
inductive Turns (P : SrvProg U) (c : Nat) (id : UInt16) : List (Record × List Record) → List MEvent → List TOp → Srv U → Prop where
  | first {tr ops s rs tail b ins} (h : SrvRun P srvInit tr ops s) (D : Dialogue ops c id rs tail [(b, ins)]) : Turns P c id [(b, ins)] tr ops s
  | next {convs tr0 ops0 s0 outs tr ops s rs tail b ins} (T : Turns P c id convs tr0 ops0 s0) (I : Idle P s0) (hv : (s0.t.conns c).valid = true)
      (hcl : (s0.t.conns c).closing = false) (hin : (s0.t.conns c).input = []) (hw : ∀ r ∈ outs, r.WF) (ho : (s0.t.conns c).output = stream outs)
      (he : endRecords id outs = convs.length) (h : SrvRun P s0 tr ops s) (D : Dialogue (ops0 ++ ops) c id rs tail (convs ++ [(b, ins)])) :
      Turns P c id (convs ++ [(b, ins)]) (tr0 ++ tr) (ops0 ++ ops) s

theorem byte_type (r : Record) : r.bytes[1]? = some r.type := by simp [Record.bytes]

/-- A request sends one END_REQUEST record, when it is complete. -/
theorem lib_ends [hP : OfLibrary P] {sock role kill ms q rest fin}
    (e : handleAll P.handle (P.fresh sock id role kill) ms = .ok (q, rest, fin)) :
    (Transmits.sent q).countP (fun x => x.2.1[1]? = some 3) = if fin then 1 else 0 := by
  have out : ∀ b, IsOutput id b → b[1]? ≠ some 3 := by
    rintro b ⟨r, hr, rfl⟩ h
    rw [byte_type] at h
    cases h' : r.type with | _ x => rcases hr with hr | hr <;> rw [hr.type] at h <;> cases h
  have en : ∀ n st b, IsEndRequest n st b → b[1]? = some 3 := by
    rintro n st b ⟨r, _, hr, _, _, _, _, rfl⟩
    rw [byte_type, hr]
  have none : ∀ l : List (Nat × Bytes × Bool), (∀ x ∈ l, IsOutput id x.2.1) → l.countP (fun x => x.2.1[1]? = some 3) = 0 := by
    intro l hl
    rw [List.countP_eq_zero]
    intro x hx
    simpa using out _ (hl x hx)
  cases hP with
  | narrow =>
    obtain ⟨f1, f2⟩ := C36_once _ _ _ _ _ _ _ _ _ ((handler_all ..).trans e)
    show (sentOf q.log).countP _ = _
    cases fin with
    | false => exact none _ fun x hx => ((f2 rfl).2 _ _ _ (sentOf_event hx)).2.2
    | true =>
      obtain ⟨lb, e', g1, g2, g3⟩ := f1 rfl
      rw [g1, sentOf_append, List.countP_append, none _ fun x hx => (g3 _ _ _ (sentOf_event hx)).2.2]
      simp [sentOf, en _ _ _ g2]
  | wide =>
    obtain ⟨f1, f2⟩ := C120_once _ _ _ _ _ _ _ _ _ ((handler_allW ..).trans e)
    show (sentOfW q.log).countP _ = _
    cases fin with
    | false => exact none _ fun x hx => ((f2 rfl).2 _ _ _ (sentOf_eventW hx)).2.2
    | true =>
      obtain ⟨lb, e', g1, g2, g3⟩ := f1 rfl
      rw [g1, sentOf_appendW, List.countP_append, none _ fun x hx => (g3 _ _ _ (sentOf_eventW hx)).2.2]
      simp [sentOfW, en _ _ _ g2]

/-- If the peer has got an END_REQUEST record for each request, then there is no request with the id when nothing is left to be done. -/
theorem turn_free (h : SrvRun P srvInit tr ops s) (D : Dialogue ops c id rs tail convs) (ha : Apart ⟨c, id⟩ tr) (I : Idle P s) {outs : List Record}
    (hw : ∀ r ∈ outs, r.WF) (ho : (s.t.conns c).output = stream outs) (he : endRecords id outs = convs.length) :
    s.m.table.lookup ⟨c, id⟩ = none := by
  have A := srv_parts h
  have hS := D.sound h ha
  obtain ⟨segs, J, hA⟩ := routed_segs A.m ⟨c, id⟩ ha _ D.begins D.mores (D.routed h)
  have hlen : segs.length ≤ convs.length := by
    have : ∀ {segs : List Seg} {cs : List (Message × List Message)}, Aligned segs cs → segs.length ≤ cs.length := by
      intro segs cs h
      induction h with
      | nil => simp
      | last => simp
      | cons _ _ _ ih => simp only [List.length_cons] at ih ⊢; omega
    have := this hA
    simpa [msgsOfConvs] using this
  have h1 := dialogue_outs h D hw (otail := []) (by rw [ho, List.append_nil])
  have hsent : sentFor ⟨c, id⟩ ops = madeFor ⟨c, id⟩ tr s.m := by
    refine (srv_sends h).en ⟨c, id⟩ D.ids.1 hS ?_
    intro t r hm
    have := (still_rest (run_kq A.m).1 I.still).1 t
    cases hp : s.m.th t <;> rw [hp] at hm this <;> simp_all [HPC.mutexOf, HPC.resting]
  rw [hsent, madeFor, J.obj] at h1
  have h2 : endRecords id outs = ((outs.filter (fun r => r.id = id.toNat)).map Record.bytes).countP (fun d => d[1]? = some 3) := by
    rw [List.countP_map]
    unfold endRecords
    congr 1
    funext r
    simp [byte_type]
  have h3 : endRecords id outs ≤ (((segs.map (·.r)).flatMap fun r => recsOf (s.m.objs r).state).map (·.1)).countP (fun d => d[1]? = some 3) := by
    rw [h2]; exact h1.sublist.countP_le
  -- each object accounts for at most one
  have h4 : ∀ (l : List Seg), (∀ x ∈ l, x ∈ segs) →
      (((l.map (·.r)).flatMap fun r => recsOf (s.m.objs r).state).map (·.1)).countP (fun d => d[1]? = some 3) ≤ l.length ∧
      (l.length ≤ (((l.map (·.r)).flatMap fun r => recsOf (s.m.objs r).state).map (·.1)).countP (fun d => d[1]? = some 3) →
        ∀ x ∈ l, ∃ t m, .ended x.r t m true ∈ tr) := by
    intro l
    induction l with
    | nil => intro _; simp
    | cons x l ih =>
      intro hl
      obtain ⟨i1, i2⟩ := ih (fun y hy => hl y (by simp [hy]))
      have hx := hl x (by simp)
      obtain ⟨d, hd, hb, _⟩ := aligned_mem hA x hx
      obtain ⟨y, hy, rfl⟩ := List.mem_map.1 hd
      have hcr := J.cr x hx
      rw [hb] at hcr
      obtain ⟨kill, q, fin, ⟨role, g1, g2, g3⟩, g4, g5⟩ := obj_alone h hS (D.body y hy) hcr
      have hcnt := lib_ends g3
      have hq : ((recsOf (s.m.objs x.r).state).map (·.1)).countP (fun d => d[1]? = some 3) = if fin then 1 else 0 := by
        rw [g4, ← hcnt]
        simp only [recsOf, List.map_map, List.countP_map]
        rfl
      simp only [List.map_cons, List.flatMap_cons, List.map_append, List.countP_append, List.length_cons, hq]
      refine ⟨by split <;> omega, fun hle z hz => ?_⟩
      have hfin : fin = true := by
        cases fin with
        | true => rfl
        | false => exfalso; simp only [Bool.false_eq_true, if_false] at hle; omega
      rcases List.mem_cons.1 hz with rfl | hz
      · exact g5.1 hfin
      · exact i2 (by rw [hfin] at hle; simp only [if_true] at hle; omega) z hz
  have h5 := (h4 segs (fun _ h => h)).2 (by omega)
  cases hl : s.m.table.lookup ⟨c, id⟩ with
  | none => rfl
  | some r =>
    exfalso
    obtain ⟨init, x, e1, e2, _, _⟩ := J.cu r hl
    obtain ⟨t, m, hm⟩ := h5 x (by rw [e1]; simp)
    refine still_gone A.m I.still hm ⟨c, id⟩ ?_
    rw [e2]; exact mlookup_mem hl

theorem serving_stays {tr0 : List MEvent} {k : RequestId} (h : serving tr0 k = none) : ∀ a : List MEvent, (∀ r m, .created r k m ∉ a) →
    serving (tr0 ++ a) k = none := by
  intro a
  induction a using list_snoc_ind with
  | h0 => intro _; simpa using h
  | h1 a e ih =>
    intro hn
    have ih := ih (fun r m hm => hn r m (by simp [hm]))
    have : serving (tr0 ++ (a ++ [e])) k = Serving.see (serving (tr0 ++ a)) e k := by simp [serving]
    rw [this]
    cases e with
    | created r k' m =>
      simp only [Serving.see]
      split
      · rename_i hk; subst hk; exact absurd (by simp) (hn r m)
      · exact ih
    | removed r =>
      simp only [Serving.see]
      split
      · rfl
      · exact ih
    | _ => exact ih

/-- A peer that takes turns: no BEGIN_REQUEST record comes while there is a request with its id. -/
theorem C129_turns (T : Turns P c id convs tr ops s) : SrvRun P srvInit tr ops s ∧ (∃ rs tail, Dialogue ops c id rs tail convs) ∧ Apart ⟨c, id⟩ tr := by
  induction T with
  | first h D =>
    rename_i tr ops s rs tail b ins
    refine ⟨h, ⟨_, _, D⟩, fun r m hm => ?_⟩
    cases hb : isBegin m with
    | false => rfl
    | true =>
      exfalso
      have h0 : m.type = 0 := by simp only [isBegin, Bool.and_eq_true, decide_eq_true_eq] at hb; exact hb.1
      obtain ⟨a, w, rfl⟩ := List.append_of_mem hm
      have hrt := D.routed h
      have hsv : serving a ⟨c, id⟩ = some r := (run_rinv (srv_parts h).m).ok a _ w rfl
      obtain ⟨m2, hm2⟩ := serving_created hsv
      rw [routedFor_append, show MEvent.accepted r ⟨c, id⟩ m :: w = [MEvent.accepted r ⟨c, id⟩ m] ++ w from rfl, routedFor_append] at hrt
      have hr1 : routedFor ⟨c, id⟩ [MEvent.accepted r ⟨c, id⟩ m] = [m] := by simp [routedFor, routedOf, h0]
      rw [hr1] at hrt
      have hne : routedFor ⟨c, id⟩ a ≠ [] := by
        obtain ⟨a1, a2, rfl⟩ := List.append_of_mem hm2
        have hok : Routed a1 (MEvent.created r ⟨c, id⟩ m2) := (run_rinv (srv_parts h).m).ok a1 _ (a2 ++ MEvent.accepted r ⟨c, id⟩ m :: w) (by simp)
        have hm0 : m2.type = 0 := by have := hok.1; simp only [isBegin, Bool.and_eq_true, decide_eq_true_eq] at this; exact this.1
        rw [routedFor_append, show MEvent.created r ⟨c, id⟩ m2 :: a2 = [MEvent.created r ⟨c, id⟩ m2] ++ a2 from rfl, routedFor_append]
        simp [routedFor, routedOf, hm0]
      cases ha : routedFor ⟨c, id⟩ a with
      | nil => exact hne ha
      | cons z zs =>
        rw [ha] at hrt
        simp only [msgsOfConvs, List.map_cons, List.map_nil, List.flatMap_cons, List.flatMap_nil, List.append_nil, List.cons_append,
          List.cons_prefix_cons] at hrt
        obtain ⟨v, hv⟩ := hrt.2
        have : m ∈ ins.map recordMsg := by rw [← hv]; simp
        have := D.mores (recordMsg b, ins.map recordMsg) (by simp [msgsOfConvs]) m this
        rw [hb] at this; cases this
  | next T I hv hcl hin hw ho he h D ih =>
    rename_i convs tr0 ops0 s0 outs tr ops s rs tail b ins
    obtain ⟨h0, ⟨rs0, tail0, D0⟩, a0⟩ := ih
    have hh := srv_joins h0 h
    refine ⟨hh, ⟨_, _, D⟩, fun r m hm => ?_⟩
    rcases List.mem_append.1 hm with hm | hm
    · exact a0 r m hm
    cases hb : isBegin m with
    | false => rfl
    | true =>
      exfalso
      have hm0 : m.type = 0 := by simp only [isBegin, Bool.and_eq_true, decide_eq_true_eq] at hb; exact hb.1
      obtain ⟨a, w, rfl⟩ := List.append_of_mem hm
      have hfree := turn_free h0 D0 a0 I hw ho he
      have hok := (run_rinv (srv_parts hh).m).ok
      have hsv : serving (tr0 ++ a) ⟨c, id⟩ = some r := hok (tr0 ++ a) (MEvent.accepted r ⟨c, id⟩ m) w (by simp)
      have hcr : ¬ ∀ r m, .created r ⟨c, id⟩ m ∉ a := by
        intro hn
        rw [serving_stays (by rw [(run_rinv (srv_parts h0).m).sv]; exact hfree) a hn] at hsv
        cases hsv
      have hne : routedFor ⟨c, id⟩ a ≠ [] := by
        intro hz
        refine hcr fun r2 m2 hm2 => ?_
        obtain ⟨a1, a2, rfl⟩ := List.append_of_mem hm2
        have hok2 : Routed (tr0 ++ a1) (MEvent.created r2 ⟨c, id⟩ m2) := hok (tr0 ++ a1) _ (a2 ++ MEvent.accepted r ⟨c, id⟩ m :: w) (by simp)
        have hm0 : m2.type = 0 := by have := hok2.1; simp only [isBegin, Bool.and_eq_true, decide_eq_true_eq] at this; exact this.1
        rw [routedFor_append, show MEvent.created r2 ⟨c, id⟩ m2 :: a2 = [MEvent.created r2 ⟨c, id⟩ m2] ++ a2 from rfl, routedFor_append] at hz
        simp [routedFor, routedOf, hm0] at hz
      have hall := (key_prefix h0 c id D0.ids.1 D0.ids.2 rs0 tail0 D0.wf D0.rest D0.bytes).2 hv hin I.given ((still_rest (run_kq (srv_parts h0).m).1 I.still).2 0)
      rw [D0.mine, msgs_flat] at hall
      have hrt := D.routed hh
      have hsplit : (msgsOfConvs (convs ++ [(b, ins)])).flatMap (fun x => x.1 :: x.2) =
          (msgsOfConvs convs).flatMap (fun x => x.1 :: x.2) ++ recordMsg b :: ins.map recordMsg := by
        simp [msgsOfConvs]
      rw [hsplit, routedFor_append, hall, List.prefix_append_right_inj, routedFor_append,
        show MEvent.accepted r ⟨c, id⟩ m :: w = [MEvent.accepted r ⟨c, id⟩ m] ++ w from rfl, routedFor_append] at hrt
      have hr1 : routedFor ⟨c, id⟩ [MEvent.accepted r ⟨c, id⟩ m] = [m] := by simp [routedFor, routedOf, hm0]
      rw [hr1] at hrt
      cases ha : routedFor ⟨c, id⟩ a with
      | nil => exact hne ha
      | cons z zs =>
        rw [ha] at hrt
        simp only [List.cons_append, List.cons_prefix_cons] at hrt
        obtain ⟨v, hv⟩ := hrt.2
        have : m ∈ ins.map recordMsg := by rw [← hv]; simp
        have := D.mores (recordMsg b, ins.map recordMsg) (by simp [msgsOfConvs]) m this
        rw [hb] at this; cases this

end

/-! ### A concrete run

The peer sends the request of `srvDemo` with FCGI_KEEP_CONN, waits for its END_REQUEST and sends it again with the same id. -/

def againRun : List SrvChoice :=
  .op (.arrive 3 (srvDemoBytes 1)) :: (List.replicate 8 [SrvChoice.op (.receive 3 (.give 1000) (.give 9)), .go 100]).flatten

def againAnswer : List Record :=
  [⟨1, 6, 7, b!"hello", [0, 0, 0], 0⟩, ⟨1, 7, 7, b!"log", [0, 0, 0, 0, 0], 0⟩, ⟨1, 3, 7, [0, 0, 0, 0, 0, 0, 0, 0], [], 0⟩]

def againEnd (arr : Bytes) (answer : Bytes) (x : List MEvent × List TOp × Srv (Req Nat)) : Bool :=
  x.2.2.m.terminate == false && (x.2.2.out 0).isEmpty && x.2.2.given == x.2.2.t.msgs.length && x.2.2.t.queue.isEmpty && x.2.2.t.pc == .loop &&
  (x.2.2.m.th 0).resting && (match x.2.2.m.pu 0 with | .idle => true | _ => false) && (match x.2.2.m.th 0 with | .off | .finished => false | _ => true) &&
  (arrived 3 x.2.1 == arr) && (x.2.2.t.conns 3 == ⟨true, false, [], answer⟩) && !x.2.1.contains (.hangup 3) && !x.2.1.contains (.tx .err) &&
  x.2.1.all fun o => match o with | .receive _ (.give _) (.give _) => true | .receive _ _ _ => false | _ => true

theorem again_idle {x : List MEvent × List TOp × Srv (Req Nat)} {arr answer} (g : GoodRun srvDemo x) (h : againEnd arr answer x = true) :
    Idle srvDemo x.2.2 ∧ Calm 3 x.2.1 ∧ arrived 3 x.2.1 = arr ∧ x.2.2.t.conns 3 = ⟨true, false, [], answer⟩ := by
  simp only [againEnd, Bool.and_eq_true, beq_iff_eq, List.isEmpty_iff, Bool.not_eq_true', List.all_eq_true, List.contains_eq_mem,
    decide_eq_false_iff_not] at h
  obtain ⟨⟨⟨⟨⟨⟨⟨⟨⟨⟨⟨⟨a1, a2⟩, a3⟩, a4⟩, a5⟩, a6⟩, a7⟩, a8⟩, a9⟩, a10⟩, a11⟩, a12⟩, a13⟩ := h
  refine ⟨⟨still_of_rest (fun t => ?_) (fun q => ?_), ⟨0, ?_⟩, a1, fun t => ?_, a3, a4, a5⟩, ⟨a11, ?_, a12⟩, a9, a10⟩
  · by_cases ht : t = 0
    · rw [ht]; exact a6
    · rw [(run_kq (srv_parts g.1).m).1.off t (by show 1 ≤ t; omega)]; rfl
  · by_cases hq : q = 0
    · subst hq; revert a7; cases x.2.2.m.pu 0 <;> simp
    · exact g.2 q hq
  · revert a8; cases x.2.2.m.th 0 <;> simp
  · by_cases ht : t = 0
    · rw [ht]; exact a2
    · exact (srv_off g.1 t (by show 1 ≤ t; omega)).1
  · intro k1 k2 hk
    have := a13 _ hk
    cases k1 <;> cases k2 <;> simp_all

theorem again_dialogue {ops n} (h : arrived 3 ops = (List.replicate n (srvDemoBytes 1)).flatten) :
    Dialogue ops 3 7 (List.replicate n (srvDemoBegin 1 :: srvDemoIns)).flatten [] (List.replicate n (srvDemoBegin 1, srvDemoIns)) := by
  have hwf : ∀ r ∈ (List.replicate n (srvDemoBegin 1 :: srvDemoIns)).flatten, r.WF ∧ r.id = 7 := by
    intro r hr
    obtain ⟨l, hl, hr⟩ := List.mem_flatten.1 hr
    obtain ⟨_, rfl⟩ := List.mem_replicate.1 hl
    simp only [srvDemoIns, srvDemoBegin, List.mem_cons, List.not_mem_nil, or_false] at hr
    rcases hr with rfl | rfl | rfl | rfl <;> exact ⟨by unfold Record.WF; simp [demoRec, demoPair2], rfl⟩
  refine ⟨fun r hr => (hwf r hr).1, Or.inl (by simp), ?_, by decide, fun r hr h0 => ?_, ?_, ?_, ?_, ?_, ?_⟩
  · rw [h, List.append_nil]
    clear h hwf
    induction n with
    | zero => rfl
    | succ n ih => rw [List.replicate_succ, List.replicate_succ, List.flatten_cons, List.flatten_cons, show ∀ a b, stream (a ++ b) = stream a ++ stream b from fun a b => by simp [stream], ← ih]; rfl
  · rw [(hwf r hr).2] at h0; cases h0
  · rw [List.filter_eq_self.2 (fun r hr => by rw [(hwf r hr).2]; rfl)]
    clear h hwf
    induction n with
    | zero => rfl
    | succ n ih => rw [List.replicate_succ, List.replicate_succ, List.flatten_cons, ih]; rfl
  · intro x hx; obtain ⟨_, rfl⟩ := List.mem_replicate.1 hx; rfl
  · intro x hx r hr; obtain ⟨_, rfl⟩ := List.mem_replicate.1 hx
    simp only [srvDemoIns, List.mem_cons, List.not_mem_nil, or_false] at hr
    rcases hr with rfl | rfl | rfl <;> decide
  · intro x hx; obtain ⟨_, rfl⟩ := List.mem_replicate.1 hx; simp [srvDemoBegin, demoRec]
  · intro x hx r hr h4 h0
    obtain ⟨_, rfl⟩ := List.mem_replicate.1 hx
    simp only [srvDemoIns, List.mem_cons, List.not_mem_nil, or_false] at hr
    rcases hr with rfl | rfl | rfl
    · exact ⟨[demoPair2], ⟨by unfold Record.WF; decide, rfl, by decide, by decide, by simp [demoPair_enc], by simp [demoPair_ok], ⟨0, by decide, by decide⟩⟩⟩
    · exact absurd rfl h0
    · exact absurd h4 (by decide)

/-- The hypotheses of the theorems are met by a dialogue of two requests. -/
example : ∃ tr ops s, Turns srvDemo 3 7 [(srvDemoBegin 1, srvDemoIns), (srvDemoBegin 1, srvDemoIns)] tr ops s ∧ Idle srvDemo s ∧ Calm 3 ops ∧
    arrived 3 ops = srvDemoBytes 1 ++ srvDemoBytes 1 ∧ s.t.conns 3 = ⟨true, false, [], stream (againAnswer ++ againAnswer)⟩ := by
  have e : (srvPlay srvDemo (srvDemoRun 1) ([], [], srvInit)).any (fun x => againEnd (srvDemoBytes 1) (stream againAnswer) x &&
      (srvPlay srvDemo againRun x).any (againEnd (srvDemoBytes 1 ++ srvDemoBytes 1) (stream (againAnswer ++ againAnswer)))) = true := by decide +kernel
  cases h1 : srvPlay srvDemo (srvDemoRun 1) ([], [], srvInit) with
  | none => rw [h1] at e; cases e
  | some x =>
    rw [h1] at e
    simp only [Option.any_some, Bool.and_eq_true] at e
    obtain ⟨e1, e2⟩ := e
    cases h2 : srvPlay srvDemo againRun x with
    | none => rw [h2] at e2; cases e2
    | some y =>
      rw [h2] at e2
      simp only [Option.any_some] at e2
      have g1 := srvPlay_good (srvDemoRun 1) (P := srvDemo) (x := ([], [], srvInit)) ⟨.refl _, fun _ _ => rfl⟩ h1
      have g2 := srvPlay_good againRun (P := srvDemo) g1 h2
      obtain ⟨i1, _, a1, o1⟩ := again_idle g1 e1
      obtain ⟨i2, c2, a2, o2⟩ := again_idle g2 e2
      obtain ⟨tr, ops, h, ht, ho⟩ := srvPlay_from againRun (P := srvDemo) h2
      have d1 := again_dialogue (ops := x.2.1) (n := 1) (by simp [a1])
      have d2 := again_dialogue (ops := x.2.1 ++ ops) (n := 2) (by rw [← ho, a2]; simp)
      refine ⟨x.1 ++ tr, x.2.1 ++ ops, y.2.2, ?_, i2, ho ▸ c2, ho ▸ a2, o2⟩
      exact .next (convs := [(srvDemoBegin 1, srvDemoIns)]) (outs := againAnswer) (.first g1.1 d1) i1 (by rw [o1]) (by rw [o1]) (by rw [o1]) (by intro r hr; simp only [againAnswer, List.mem_cons, List.not_mem_nil, or_false] at hr; rcases hr with rfl | rfl | rfl <;> unfold Record.WF <;> decide) (by rw [o1])
        (by decide) h d2

end Fcgi.Props
