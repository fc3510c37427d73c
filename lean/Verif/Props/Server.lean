import Verif.Lemmas.ServerPlay
import Verif.Lemmas.ServerReply
import Verif.Props.RequestWide
/-! # C102 end to end -/
namespace Fcgi.Props
open Fcgi.Model Fcgi.Spec
variable {U : Type} [Transmits U]

/-- What the peer of connection `c` has sent in the run is the records `rs` and the beginning `tail` of another one, none of
them a management record (id 0) that asks for values (FCGI_GET_VALUES, for which see C07); those for the request id are a BEGIN_REQUEST record `b` and the records `ins`, of
which none is a BEGIN_REQUEST record, and all parameters are encoded as the FastCGI specification says. -/
structure Conversation (ops : List TOp) (c : Nat) (id : UInt16) (rs : List Record) (tail : Bytes) (b : Record) (ins : List Record) : Prop where
  wf : ∀ r ∈ rs, r.WF
  rest : Incomplete tail
  bytes : arrived c ops = stream rs ++ tail
  ids : id ≠ 0 ∧ id ≠ 0xffff
  app : ∀ r ∈ rs, r.id = 0 → r.type ≠ 9
  mine : rs.filter (fun r => r.id = id.toNat) = b :: ins
  begin_ : b.type = 1
  more : ∀ r ∈ ins, r.type ≠ 1
  body : 3 ≤ b.content.length
  params : ∀ r ∈ ins, r.type = 4 → r.content ≠ [] → ∃ items, WholePairs r items

/-- What a request on its own does: constructed for connection `c` and `id` with the role and flags of `b`, given the inputs
`is`, it becomes `q` and leaves the messages `rest`; it is complete if `fin`. -/
def Alone (P : SrvProg U) (c : Nat) (id : UInt16) (b : Record) (is : List Input) (kill : Bool) (q : U) (rest : List Message) (fin : Bool) : Prop :=
  ∃ role, role.toNat = 256 * (b.content.getD 0 0).toNat + (b.content.getD 1 0).toNat ∧
    (kill = true ↔ (b.content.getD 2 0).toNat % 2 = 0) ∧
    handleAll P.handle (P.fresh c id role kill) (is.map Input.message) = .ok (q, rest, fin)

/-- For `Request<char>` that is the request of C36–C39, for `Request<wchar_t>` that of C120. -/
theorem alone_narrow {V : Type} {n : Nat} {h : Handlers V} {max u heap rh ph c id b is kill q rest fin} :
    Alone (narrowServer n h max u heap rh ph) c id b is kill q rest fin ↔
    ∃ role, role.toNat = 256 * (b.content.getD 0 0).toNat + (b.content.getD 1 0).toNat ∧ (kill = true ↔ (b.content.getD 2 0).toNat % 2 = 0) ∧
      handler h heap (freshReq c id role kill max u) (is.map Input.message) = .ok (q, rest, fin) := by
  simp only [handler_all]; exact Iff.rfl
theorem alone_wide {V : Type} {n : Nat} {h : HandlersW V} {max u host rh ph c id b is kill q rest fin} :
    Alone (wideServer n h max u host rh ph) c id b is kill q rest fin ↔
    ∃ role, role.toNat = 256 * (b.content.getD 0 0).toNat + (b.content.getD 1 0).toNat ∧ (kill = true ↔ (b.content.getD 2 0).toNat % 2 = 0) ∧
      handlerW h host (freshReqW c id role kill max u) (is.map Input.message) = .ok (q, rest, fin) := by
  simp only [handler_allW]; exact Iff.rfl

theorem begin_msg (b : Record) (hb : b.type = 1) : isBegin (recordMsg b) = true := by
  simp [isBegin, recordMsg, Record.bytes, hb]
theorem more_msg (r : Record) (hb : r.type ≠ 1) : isBegin (recordMsg r) = false := by
  simp [isBegin, recordMsg, Record.bytes, hb]

theorem body_at (b : Record) (i : Nat) (h : i < b.content.length) : b.bytes.getD (8 + i) 0 = b.content.getD i 0 := by
  have : b.bytes = ([b.version, b.type] ++ beDigits 2 b.id ++ beDigits 2 b.content.length ++ [UInt8.ofNat b.padding.length, b.reserved]) ++ (b.content ++ b.padding) := by
    simp [Record.bytes]
  have hl : ([b.version, b.type] ++ beDigits 2 b.id ++ beDigits 2 b.content.length ++ [UInt8.ofNat b.padding.length, b.reserved]).length = 8 := by
    simp [beDigits]
  rw [this, List.getD_eq_getElem?_getD, List.getElem?_append_right (by omega), hl, List.getElem?_append_left (by omega), List.getD_eq_getElem?_getD]
  congr 2
  omega

theorem accepted_event {r : Nat} {tr : List MEvent} {m : Message} (h : m ∈ acceptedBy r tr) : ∃ k, .accepted r k m ∈ tr := by
  unfold acceptedBy at h
  obtain ⟨e, he, hm⟩ := List.mem_filterMap.1 h
  cases e with
  | accepted r' k m' =>
    simp only at hm
    split at hm
    · rename_i hr; subst hr; cases hm; exact ⟨k, he⟩
    · cases hm
  | _ => cases hm

theorem serving_created {tr : List MEvent} {k : RequestId} {r : Nat} (h : serving tr k = some r) : ∃ m, .created r k m ∈ tr := by
  induction tr using list_snoc_ind generalizing k r with
  | h0 => cases h
  | h1 tr e ih =>
    have hs : serving (tr ++ [e]) k = Serving.see (serving tr) e k := by simp [serving]
    rw [hs] at h
    cases e with
    | created r' k' m =>
      simp only [Serving.see] at h
      split at h
      · rename_i hk; subst hk; cases h; exact ⟨m, by simp⟩
      · obtain ⟨m, hm⟩ := ih h; exact ⟨m, by simp [hm]⟩
    | removed r' =>
      simp only [Serving.see] at h
      split at h
      · cases h
      · obtain ⟨m, hm⟩ := ih h; exact ⟨m, by simp [hm]⟩
    | _ => obtain ⟨m, hm⟩ := ih h; exact ⟨m, by simp [hm]⟩

theorem lib_total {P : SrvProg U} [hP : OfLibrary P] (sock id role kill) (is : List Input) (hw : ∀ i ∈ is, i.WF) (hp : ∀ i ∈ is, ParamsOk i) :
    ∃ x, handleAll P.handle (P.fresh sock id role kill) (is.map Input.message) = .ok x := by
  cases hP with
  | narrow =>
    obtain ⟨x, hx⟩ := C36_total_partial _ _ _ _ _ _ _ _ is hw hp
    exact ⟨x, (handler_all ..).symm.trans hx⟩
  | wide =>
    obtain ⟨x, hx⟩ := C120_total_partial _ _ _ _ _ _ _ _ is hw hp
    exact ⟨x, (handler_allW ..).symm.trans hx⟩

theorem sentOf_event {l : List Ev} {x : Nat × Bytes × Bool} (h : x ∈ sentOf l) : Ev.sent x.1 x.2.1 x.2.2 ∈ l := by
  induction l with
  | nil => cases h
  | cons e l ih =>
    cases e with
    | sent a b c =>
      rcases List.mem_cons.1 h with h | h
      · subst h; simp
      · simp [ih h]
    | _ => simp [ih h]

theorem sentOf_eventW {l : List EvW} {x} (h : x ∈ sentOfW l) : EvW.sent x.1 x.2.1 x.2.2 ∈ l := by
  induction l with
  | nil => cases h
  | cons e l ih =>
    cases e with
    | sent s b k =>
      simp only [sentOfW] at h
      rcases List.mem_cons.1 h with rfl | h
      · simp
      · exact List.mem_cons_of_mem _ (ih h)
    | _ => exact List.mem_cons_of_mem _ (ih h)

/-- A request sends one record that may close the connection, when it is complete, and nothing after it. -/
theorem lib_once {P : SrvProg U} [hP : OfLibrary P] {sock id role kill ms q rest fin}
    (e : handleAll P.handle (P.fresh sock id role kill) ms = .ok (q, rest, fin)) :
    (fin = true → ∃ be en, Transmits.sent q = be ++ [(sock, en, kill)] ∧ ∀ x ∈ be, x.2.2 = false) ∧
    (fin = false → ∀ x ∈ Transmits.sent q, x.2.2 = false) := by
  cases hP with
  | narrow =>
    obtain ⟨f1, f2⟩ := C36_once _ _ _ _ _ _ _ _ _ ((handler_all ..).trans e)
    refine ⟨fun h => ?_, fun h x hx => ((f2 h).2 _ _ _ (sentOf_event hx)).2.1⟩
    obtain ⟨lb, en, g1, _, g2⟩ := f1 h
    exact ⟨sentOf lb, en, by show sentOf _ = _; rw [g1, sentOf_append]; rfl, fun x hx => (g2 _ _ _ (sentOf_event hx)).2.1⟩
  | wide =>
    obtain ⟨f1, f2⟩ := C120_once _ _ _ _ _ _ _ _ _ ((handler_allW ..).trans e)
    refine ⟨fun h => ?_, fun h x hx => ((f2 h).2 _ _ _ (sentOf_eventW hx)).2.1⟩
    obtain ⟨lb, en, g1, _, g2⟩ := f1 h
    exact ⟨sentOfW lb, en, by show sentOfW _ = _; rw [g1, sentOf_appendW]; rfl, fun x hx => (g2 _ _ _ (sentOf_eventW hx)).2.1⟩

omit [Transmits U] in
theorem accepted_key {P : SrvProg U} {tr s} (h : MRun P.prog (mInit none) tr s) {r k k' m m'} (hc : .created r k m ∈ tr)
    (ha : .accepted r k' m' ∈ tr) : k' = k := by
  obtain ⟨a, b, hab⟩ := List.append_of_mem ha
  have : serving a k' = some r := (run_rinv h).ok a _ b hab
  obtain ⟨m2, hm2⟩ := serving_created this
  exact ((run_objs h).un r k' m2 k m (by rw [hab]; simp [hm2]) hc).1

section
variable {P : SrvProg U} [OfLibrary P] {tr : List MEvent} {ops : List TOp} {s : Srv U} {c : Nat} {id : UInt16} {rs : List Record} {tail : Bytes}
  {b : Record} {ins : List Record}

theorem Conversation.mem (C : Conversation ops c id rs tail b ins) : ∀ r ∈ ins, r ∈ rs ∧ r.WF := by
  intro r hr
  have : r ∈ rs.filter (fun r => r.id = id.toNat) := by rw [C.mine]; simp [hr]
  have := (List.mem_filter.1 this).1
  exact ⟨this, C.wf r this⟩

theorem Conversation.safe (C : Conversation ops c id rs tail b ins) (role kill) (ms : List Message)
    (h : ms.filter (fun m => m.type = 0) <+: ins.map recordMsg) :
    ∃ x, handleAll P.handle (P.fresh c id role kill) ms = .ok x := by
  obtain ⟨is, h1, h2, h3, h4, h5⟩ := to_inputs ms ins h
  rw [← h1]
  apply lib_total
  · intro i hi
    cases i with
    | callback t d => exact h4 t d hi
    | record x => exact (C.mem x (h5 x hi)).2
  · intro i hi x hx ht hc
    subst hx
    exact C.params x (h5 x hi) ht hc

theorem Conversation.routed (C : Conversation ops c id rs tail b ins) (h : SrvRun P srvInit tr ops s) :
    routedFor ⟨c, id⟩ tr <+: recordMsg b :: ins.map recordMsg := by
  have := (key_prefix h c id C.ids.1 C.ids.2 rs tail C.wf C.rest C.bytes).1
  rw [C.mine] at this
  exact this

theorem Conversation.sound (C : Conversation ops c id rs tail b ins) (h : SrvRun P srvInit tr ops s) : SoundFor ⟨c, id⟩ tr s.m := by
  refine sound_key (srv_parts h).m ⟨c, id⟩ (recordMsg b) (ins.map recordMsg) (begin_msg b C.begin_) ?_ (C.routed h) ?_
  · intro m hm
    obtain ⟨r, hr, rfl⟩ := List.mem_map.1 hm
    exact more_msg r (C.more r hr)
  · intro role kill ms hms; exact C.safe role kill ms hms

/-- Without management records there is no management message for the connection. -/
theorem Conversation.noMgmt (C : Conversation ops c id rs tail b ins) (happ : ∀ r ∈ rs, r.id ≠ 0) (h : SrvRun P srvInit tr ops s) : ¬ ∃ y ∈ s.t.msgs, y.id = ⟨c, 0⟩ := by
  rintro ⟨y, hy, hid⟩
  have hy' : y ∈ msgsOf c s.t := by
    unfold msgsOf; rw [List.mem_filter]; exact ⟨hy, by simp [hid]⟩
  obtain ⟨⟨k, _, hfr⟩, _⟩ := C09_fragmentation P.recvHeap ops s.t (srv_parts h).t c rs tail C.wf C.rest C.bytes
  have key : y ∈ (rs.take k).map (messageFor c) → False := by
    intro hh
    obtain ⟨r, hr, rfl⟩ := List.mem_map.1 hh
    have hr' := List.mem_of_mem_take hr
    simp only [messageFor, RequestId.mk.injEq, true_and] at hid
    have := congrArg UInt16.toNat hid
    have hlt := (C.wf r hr').1
    simp at this
    exact happ r hr' (by omega)
  rcases hfr with hfr | ⟨_, hfr⟩
  · rw [hfr] at hy'; exact key hy'
  · rw [hfr] at hy'
    rcases List.mem_append.1 hy' with hy' | hy'
    · exact key hy'
    · simp only [List.mem_singleton] at hy'
      subst hy'
      simp [goneMsg, badFcgiId] at hid

theorem Conversation.whole (C : Conversation ops c id rs tail b ins) (h : SrvRun P srvInit tr ops s) : ∀ d ∈ (sentTo c ops).map (·.1), Complete d := by
  intro d hd
  obtain ⟨x, hx, rfl⟩ := List.mem_map.1 hd
  rcases (srv_sends h).st c x hx with h1 | ⟨h0, h1⟩
  · exact h1.1
  · obtain ⟨r, hr, hid, hm⟩ := sent_answer h C.wf C.rest C.bytes x hx h0
    rw [mgmt_unknown _ _ _ (C.app r hr hid), List.mem_singleton] at hm
    have := congrArg (fun y : Nat × Bytes × Bool => y.2.1) hm
    dsimp only at this
    rw [this]
    exact Record.complete _ (unknownTypeRecord_wf _ _ (replyRest_length _) _)

/-- Everything the peer gets is whole records and possibly the beginning of one more. -/
theorem C102_framed (h : SrvRun P srvInit tr ops s) (C : Conversation ops c id rs tail b ins) :
    ∃ outs otail, (∀ r ∈ outs, r.WF) ∧ Incomplete otail ∧ (s.t.conns c).output = stream outs ++ otail := by
  refine parse_exists ((sentTo c ops).map (·.1)) (C.whole h) _ ?_
  rw [← List.flatMap_def]
  exact C17_output_prefix _ _ _ (srv_parts h).t c

theorem alone_made (h : SrvRun P srvInit tr ops s) (C : Conversation ops c id rs tail b ins) :
    ∃ ms kill q fin, (ms = [] ∨ ∃ r, objsOf ⟨c, id⟩ tr = [r] ∧ ms <+: acceptedBy r tr) ∧
      ms.filter (fun m => m.type = 0) <+: ins.map recordMsg ∧
      (∃ role, role.toNat = 256 * (b.content.getD 0 0).toNat + (b.content.getD 1 0).toNat ∧
        (kill = true ↔ (b.content.getD 2 0).toNat % 2 = 0) ∧
        handleAll P.handle (P.fresh c id role kill) ms = .ok (q, [], fin)) ∧
      madeFor ⟨c, id⟩ tr s.m = (Transmits.sent q).map Prod.snd ∧
      ((∃ r, objsOf ⟨c, id⟩ tr = [r] ∧ ms = endedBy r tr ∧ (fin = true ↔ ∃ t m, .ended r t m true ∈ tr) ∧
        (s.m.table.lookup ⟨c, id⟩ = some r → recordMsg b :: recordsTo r tr = routedFor ⟨c, id⟩ tr)) ∨ routedFor ⟨c, id⟩ tr = [] ∧ fin = false) := by
  have A := srv_parts h
  have hin : ∀ m ∈ ins.map recordMsg, isBegin m = false := by
    intro m hm
    obtain ⟨r, hr, rfl⟩ := List.mem_map.1 hm
    exact more_msg r (C.more r hr)
  have e8 : (recordMsg b).data.getD 8 0 = b.content.getD 0 0 := body_at b 0 (by have := C.body; omega)
  have e9 : (recordMsg b).data.getD 9 0 = b.content.getD 1 0 := body_at b 1 (by have := C.body; omega)
  have e10 : (recordMsg b).data.getD 10 0 = b.content.getD 2 0 := body_at b 2 (by have := C.body; omega)
  have hrole : ∀ a b : UInt8, (a.toUInt16 * 256 + b.toUInt16).toNat = 256 * a.toNat + b.toNat := by
    intro a b
    have ha := a.toNat_lt
    have hb := b.toNat_lt
    simp only [UInt16.toNat_add, UInt16.toNat_mul, UInt8.toNat_toUInt16]
    simp
    omega
  have hkill : ∀ c : UInt8, ((c &&& 1 == 0) = true ↔ c.toNat % 2 = 0) := by
    intro c
    rw [beq_iff_eq, ← UInt8.toNat_inj, UInt8.toNat_and]
    simp [Nat.and_one_is_mod]
  rcases (run_once A.m ⟨c, id⟩ (recordMsg b) (ins.map recordMsg) (begin_msg b C.begin_) hin (C.routed h)).main with ⟨h1, h2⟩ | ⟨r, e1, e2, e3, e4⟩
  · refine ⟨[], _, P.fresh c id ((b.content.getD 0 0).toUInt16 * 256 + (b.content.getD 1 0).toUInt16) ((b.content.getD 2 0) &&& 1 == 0), false,
      Or.inl rfl, by simp, ⟨_, hrole _ _, hkill _, rfl⟩, ?_, Or.inr ⟨h2, rfl⟩⟩
    unfold madeFor; rw [h1, lib_none]; rfl
  · obtain ⟨q, hq⟩ := Option.ne_none_iff_exists'.1 (C.sound h r (recordMsg b) e2)
    obtain ⟨q0, g1, fin, g2, g3⟩ := request_alone A.m r ⟨c, id⟩ (recordMsg b) e2 q hq
    simp only [kindProg, Option.some.injEq, e8, e9, e10] at g1
    refine ⟨endedBy r tr, _, q, fin, Or.inr ⟨r, e1, (C41_order A.m r).2⟩, ?_, ⟨_, hrole _ _, hkill _, by rw [g1]; exact g2⟩, ?_, Or.inl ⟨r, e1, rfl, g3, e4⟩⟩
    · exact ended_prefix A.m ⟨c, id⟩ (recordMsg b) (ins.map recordMsg) (begin_msg b C.begin_) hin (C.routed h) r (by rw [e1]; simp)
    · unfold madeFor; rw [e1]; simp only [List.flatMap_cons, List.flatMap_nil, List.append_nil, hq, recsOf]

theorem sent_made (h : SrvRun P srvInit tr ops s) (C : Conversation ops c id rs tail b ins) : sentFor ⟨c, id⟩ ops <+: madeFor ⟨c, id⟩ tr s.m := by
  have J := srv_sends h
  have S := C.sound h
  by_cases hh : ∃ t r, (s.m.th t).mutexOf = some (⟨c, id⟩, r)
  · obtain ⟨t, r, hh⟩ := hh
    exact ⟨_, J.eh ⟨c, id⟩ C.ids.1 S t r hh⟩
  · rw [J.en ⟨c, id⟩ C.ids.1 S (fun t r hx => hh ⟨t, r, hx⟩)]
    exact List.prefix_refl _

theorem outs_for (id : UInt16) (outs : List Record) (hw : ∀ r ∈ outs, r.WF) (l : List Bytes) (h : outs.map Record.bytes = l) :
    (outs.filter (fun r => r.id = id.toNat)).map Record.bytes = l.filter (fun d => frameId d = id.toNat) := by
  subst h
  induction outs with
  | nil => rfl
  | cons r outs ih =>
    have ih := ih (fun r hr => hw r (by simp [hr]))
    have hf : frameId r.bytes = r.id := Record.frameId r (hw r (by simp))
    by_cases hr : r.id = id.toNat
    · simp only [List.filter_cons, List.map_cons, hf, hr, decide_true, if_true, ih]
    · simp only [List.filter_cons, List.map_cons, hf, hr, decide_false, Bool.false_eq_true, if_false, ih]

theorem only_called (h : SrvRun P srvInit tr ops s) {r : Nat} (h1 : objsOf ⟨c, id⟩ tr = [r]) :
    (acceptedBy r tr).filter (fun m => m.type ≠ 0) = called ⟨c, id⟩ tr := by
  obtain ⟨m0, hm0⟩ := mem_objsOf.1 (show r ∈ objsOf ⟨c, id⟩ tr by rw [h1]; simp)
  refine called_one (fun k' m hm => accepted_key (srv_parts h).m hm0 hm) fun r' m hm => ?_
  obtain ⟨a, w, hab⟩ := List.append_of_mem hm
  obtain ⟨m2, hm2⟩ := serving_created (show serving a ⟨c, id⟩ = some r' from (run_rinv (srv_parts h).m).ok a _ w hab)
  have := mem_objsOf.2 ⟨m2, show MEvent.created r' ⟨c, id⟩ m2 ∈ tr by rw [hab]; simp [hm2]⟩
  rw [h1] at this
  simpa using this

theorem made_called (h : SrvRun P srvInit tr ops s) {ms : List Message}
    (h1 : ms = [] ∨ ∃ r, objsOf ⟨c, id⟩ tr = [r] ∧ ms <+: acceptedBy r tr) :
    ms.filter (fun m => m.type ≠ 0) <+: called ⟨c, id⟩ tr := by
  rcases h1 with h1 | ⟨r, hc, hp⟩
  · rw [h1]; exact List.nil_prefix
  · rw [← only_called h hc]; exact hp.filter _

/-- At every moment of every run, whatever all the threads and peers do: the records the peer of `c` has got with the request's
id are the first of the records that a request on its own sends (`Alone`; C36–C39 and C120 say which), having been given the first
records the peer sent for the id and the first messages that callbacks sent. -/
theorem C102_answer (h : SrvRun P srvInit tr ops s) (C : Conversation ops c id rs tail b ins) :
    ∃ is kill q fin, Alone P c id b is kill q [] fin ∧ records is <+: ins ∧
      callbacks is <+: called ⟨c, id⟩ tr ∧
      ∀ outs otail, (∀ r ∈ outs, r.WF) → (s.t.conns c).output = stream outs ++ otail →
        (outs.filter (fun r => r.id = id.toNat)).map Record.bytes <+: (Transmits.sent q).map (·.2.1) := by
  obtain ⟨ms, kill, q, fin, h1, h2, ⟨role, h3, h4, h5⟩, h6, _⟩ := alone_made h C
  obtain ⟨is, g1, g2, g3, g4, g5⟩ := to_inputs ms ins h2
  refine ⟨is, kill, q, fin, ⟨role, h3, h4, by rw [g1]; exact h5⟩, g2, ?_, ?_⟩
  · rw [callbacks_filter g4, g1]; exact made_called h h1
  · intro outs otail hw ho
    have hp := C17_output_prefix _ _ _ (srv_parts h).t c
    rw [ho, List.flatMap_def] at hp
    have h7 := parse_prefix _ (C.whole h) outs otail hw hp
    rw [outs_for id outs hw _ rfl]
    have h8 := List.IsPrefix.filter (fun d => frameId d = id.toNat) h7
    have h9 : ((sentTo c ops).map (·.1)).filter (fun d => frameId d = id.toNat) = (sentFor ⟨c, id⟩ ops).map (·.1) := by
      unfold sentFor; rw [List.filter_map]; rfl
    rw [h9] at h8
    refine List.IsPrefix.trans h8 ?_
    have h10 := List.IsPrefix.map (·.1) (sent_made h C)
    rw [h6, List.map_map] at h10
    exact h10

/-- Nothing is left to be done: no thread of the manager and no call of `push` can take a step, nothing is left to be passed
on, nothing is queued, and there is a handler thread that has not been told to terminate. -/
structure Idle (P : SrvProg U) (s : Srv U) : Prop where
  still : Still P.prog s.m
  live : ∃ t, s.m.th t ≠ .off ∧ s.m.th t ≠ .finished
  term : s.m.terminate = false
  out : ∀ t, s.out t = []
  given : s.given = s.t.msgs.length
  queue : s.t.queue = [] ∧ s.t.pc = .loop

theorem finish_inputs {ms : List Message} {q0 q : U} {fin : Bool} (hp : ms.filter (fun m => m.type = 0) <+: ins.map recordMsg)
    (he : handleAll P.handle q0 ms = .ok (q, [], fin)) (hf : fin = true ∨ ms.filter (fun m => m.type = 0) = ins.map recordMsg) :
    ∃ (is : List Input) (rest : List Message), handleAll P.handle q0 (is.map Input.message) = .ok (q, rest, fin) ∧ records is = ins ∧
      callbacks is = ms.filter (fun m => m.type ≠ 0) := by
  obtain ⟨is, g1, g2, g3, g4, g5⟩ := to_inputs ms ins hp
  have hcb : callbacks is = ms.filter (fun m => m.type ≠ 0) := by rw [callbacks_filter g4, g1]
  obtain ⟨more, hmore⟩ := g2
  by_cases hm : more = []
  · refine ⟨is, [], by rw [g1]; exact he, ?_, hcb⟩
    rw [← hmore, hm, List.append_nil]
  · rcases hf with hf | hf
    · subst hf
      refine ⟨is ++ more.map .record, (more.map Input.record).map Input.message, ?_, ?_, ?_⟩
      · rw [List.map_append, g1, handleAll_append, he]; rfl
      · rw [records_append', records_map, hmore]
      · rw [callbacks_append, callbacks_records, List.append_nil, hcb]
    · exfalso
      rw [← g3, ← hmore] at hf
      have := congrArg List.length hf
      simp only [List.length_map, List.length_append] at this
      exact hm (List.length_eq_zero_iff.1 (by omega))

theorem idle_sent (h : SrvRun P srvInit tr ops s) (C : Conversation ops c id rs tail b ins) (I : Idle P s) :
    sentFor ⟨c, id⟩ ops = madeFor ⟨c, id⟩ tr s.m := by
  refine (srv_sends h).en ⟨c, id⟩ C.ids.1 (C.sound h) ?_
  intro t r hm
  have := (still_rest (run_kq (srv_parts h).m).1 I.still).1 t
  cases hp : s.m.th t <;> rw [hp] at hm this <;> simp_all [HPC.mutexOf, HPC.resting]

theorem idle_finished (h : SrvRun P srvInit tr ops s) (C : Conversation ops c id rs tail b ins) (I : Idle P s)
    (hlost : ∀ r ∈ rs, r.id ≠ 0xffff) (hv : (s.t.conns c).valid = true) (hin : (s.t.conns c).input = []) {ms : List Message} {fin : Bool}
    (h7 : (∃ r, objsOf ⟨c, id⟩ tr = [r] ∧ ms = endedBy r tr ∧ (fin = true ↔ ∃ t m, .ended r t m true ∈ tr) ∧
        (s.m.table.lookup ⟨c, id⟩ = some r → recordMsg b :: recordsTo r tr = routedFor ⟨c, id⟩ tr)) ∨ routedFor ⟨c, id⟩ tr = [] ∧ fin = false) :
    fin = true ∨ ms.filter (fun m => m.type = 0) = ins.map recordMsg ∧ ms.filter (fun m => m.type ≠ 0) = called ⟨c, id⟩ tr := by
  have A := srv_parts h
  obtain ⟨MI, MS, MK, MQ⟩ := run_kq A.m
  obtain ⟨r1, r2⟩ := still_rest MI I.still
  have hall := (key_prefix h c id C.ids.1 C.ids.2 rs tail C.wf C.rest C.bytes).2 hv hin I.given (r2 0)
  rw [C.mine] at hall
  rcases h7 with ⟨r, e1, e2, e3, e4⟩ | ⟨e1, _⟩
  · obtain ⟨m0, hm0⟩ := mem_objsOf.1 (show r ∈ objsOf ⟨c, id⟩ tr by rw [e1]; simp)
    rcases (run_cause A.m).cr r ⟨c, id⟩ m0 hm0 with ht | ⟨t, m, ht⟩ | ht | ht
    · right
      have hlk : s.m.table.lookup ⟨c, id⟩ = some r := by
        cases hl : s.m.table.lookup ⟨c, id⟩ with
        | none => exact absurd ht (lookup_none hl r)
        | some r' => rw [MI.nd _ r' r (mlookup_mem hl) ht]
      have := e4 hlk
      rw [hall, List.map_cons] at this
      rw [e2, C40_handled A.m I.still I.term I.live ⟨c, id⟩ r (by rw [(run_rinv A.m).sv]; exact hlk)]
      exact ⟨(List.cons.inj this).2, only_called h e1⟩
    · exact Or.inl (e3.2 ⟨t, m, ht⟩)
    · exfalso
      rw [A.v] at ht
      simp only [hv] at ht
      cases ht
    · exfalso
      obtain ⟨y, hy, hid⟩ := (srv_routed h).ls c ht
      have hy' : y ∈ msgsOf c s.t := by
        unfold msgsOf; rw [List.mem_filter]; exact ⟨hy, by simp [hid]⟩
      obtain ⟨_, hmsgs⟩ := C09_fragmentation P.recvHeap ops s.t A.t c rs tail C.wf C.rest C.bytes
      rw [hmsgs hv hin] at hy'
      obtain ⟨x, hx, rfl⟩ := List.mem_map.1 hy'
      simp only [messageFor, RequestId.mk.injEq, true_and] at hid
      have := congrArg UInt16.toNat hid
      have hlt := (C.wf x hx).1
      simp at this
      exact hlost x hx (by omega)
  · rw [e1] at hall; simp at hall

/-- As soon as nothing is left to be done and the connection is still open, the peer has got exactly the records that a
request on its own sends, having been given all the records the peer sent for the id and the first messages that
callbacks sent, all of them if it is not complete: nothing is lost, added, repeated or reordered. -/
theorem C102_complete (h : SrvRun P srvInit tr ops s) (C : Conversation ops c id rs tail b ins) (I : Idle P s)
    (hlost : ∀ r ∈ rs, r.id ≠ 0xffff) (hv : (s.t.conns c).valid = true) (hcl : (s.t.conns c).closing = false) (hin : (s.t.conns c).input = []) :
    ∃ is kill q rest fin, Alone P c id b is kill q rest fin ∧ records is = ins ∧
      callbacks is <+: called ⟨c, id⟩ tr ∧ (fin = false → callbacks is = called ⟨c, id⟩ tr) ∧
      ∀ outs otail, (∀ r ∈ outs, r.WF) → Incomplete otail → (s.t.conns c).output = stream outs ++ otail →
        otail = [] ∧ (outs.filter (fun r => r.id = id.toNat)).map Record.bytes = (Transmits.sent q).map (·.2.1) := by
  have A := srv_parts h
  obtain ⟨ms, kill, q, fin, h1, h2, ⟨role, h3, h4, h5⟩, h6, h7⟩ := alone_made h C
  have hf := idle_finished h C I hlost hv hin h7
  obtain ⟨is, rest, g1, g2, g3⟩ := finish_inputs h2 h5 (hf.imp_right And.left)
  refine ⟨is, kill, q, rest, fin, ⟨role, h3, h4, g1⟩, g2, ?_, ?_, ?_⟩
  · rw [g3]; exact made_called h h1
  · intro h0
    rcases hf with hf | hf
    · rw [h0] at hf; cases hf
    · rw [g3]; exact hf.2
  · intro outs otail hw hot ho
    have hp := C17_nothing_lost _ _ _ A.t c hv hcl
    have hpe : pendingOf c s.t = [] := by simp [pendingOf, pending, I.queue.1, I.queue.2]
    rw [hpe, List.flatMap_nil, List.append_nil, ho, List.flatMap_def] at hp
    obtain ⟨h8, h9⟩ := parse_all _ (C.whole h) outs otail hw hot hp
    refine ⟨h9, ?_⟩
    rw [outs_for id outs hw _ h8]
    have h9 : ((sentTo c ops).map (·.1)).filter (fun d => frameId d = id.toNat) = (sentFor ⟨c, id⟩ ops).map (·.1) := by
      unfold sentFor; rw [List.filter_map]; rfl
    rw [h9, idle_sent h C I, h6, List.map_map]
    rfl

theorem created_ids {tr s} (h : MRun P.prog (mInit none) tr s) : ∀ r k m, .created r k m ∈ tr → k.id ≠ 0 ∧ k.id ≠ 0xffff := by
  induction h with
  | refl => simp
  | step hr hs ih =>
    intro r k m hm
    obtain ⟨I, S, _, _⟩ := run_kq hr
    obtain ⟨_, _, K, _⟩ := run_kq (MRun.step hr hs)
    have hE := step_effect I S hs
    clear hs
    rcases List.mem_append.1 hm with hm | hm
    · exact ih r k m hm
    · cases hE with
      | created k' m' hl hb ht hn hq hst =>
        simp only [List.mem_singleton, MEvent.created.injEq] at hm
        obtain ⟨_, rfl, _⟩ := hm
        exact K.tk (k, _) (by rw [ht]; exact List.mem_cons_self)
      | quiet e he h => rw [List.mem_singleton] at hm; subst hm; simp [Spec.MEvent.quiet] at he
      | _ => simp at hm

/-- On a connection used for one request only, all that is sent is for it. -/
theorem sent_one (h : SrvRun P srvInit tr ops s) (C : Conversation ops c id rs tail b ins) (hone : ∀ r ∈ rs, r.id = id.toNat) :
    sentTo c ops = sentFor ⟨c, id⟩ ops := by
  symm
  unfold sentFor
  rw [List.filter_eq_self]
  intro x hx
  rw [decide_eq_true_eq]
  rcases sent_owner h c x hx with ⟨_, hh⟩ | ⟨r, id', m, h1, h2⟩
  · refine absurd hh (C.noMgmt (fun r hr h0 => C.ids.1 ?_) h)
    have := hone r hr
    exact UInt16.toNat_inj.1 (by rw [← this, h0]; rfl)
  · rw [h2]
    obtain ⟨h0, hf⟩ := created_ids (srv_parts h).m _ _ _ h1
    have hm := created_routed (srv_parts h).m h1
    obtain ⟨w, hw⟩ := (key_prefix h c id' h0 hf rs tail C.wf C.rest C.bytes).1
    have : m ∈ (rs.filter (fun r => r.id = id'.toNat)).map recordMsg := by rw [← hw]; simp [hm]
    obtain ⟨y, hy, _⟩ := List.mem_map.1 this
    obtain ⟨y1, y2⟩ := List.mem_filter.1 hy
    rw [decide_eq_true_eq] at y2
    show id'.toNat = id.toNat
    rw [← y2]; exact hone y y1

/-- The same, for the object of the request. -/
theorem idle_closed (h : SrvRun P srvInit tr ops s) (C : Conversation ops c id rs tail b ins) (I : Idle P s)
    (hone : ∀ r ∈ rs, r.id = id.toNat) (hcalm : Calm c ops) (hin : (s.t.conns c).valid = true → (s.t.conns c).input = [])
    {ms : List Message} {kill : Bool} {q : U} {fin : Bool} {role : UInt16} (h5 : handleAll P.handle (P.fresh c id role kill) ms = .ok (q, [], fin))
    (h6 : madeFor ⟨c, id⟩ tr s.m = (Transmits.sent q).map Prod.snd)
    (h7 : (∃ r, objsOf ⟨c, id⟩ tr = [r] ∧ ms = endedBy r tr ∧ (fin = true ↔ ∃ t m, .ended r t m true ∈ tr) ∧
        (s.m.table.lookup ⟨c, id⟩ = some r → recordMsg b :: recordsTo r tr = routedFor ⟨c, id⟩ tr)) ∨ routedFor ⟨c, id⟩ tr = [] ∧ fin = false) :
    (fin = true ∨ ms.filter (fun m => m.type = 0) = ins.map recordMsg ∧ ms.filter (fun m => m.type ≠ 0) = called ⟨c, id⟩ tr) ∧
      (s.t.conns c).output = (Transmits.sent q).flatMap (·.2.1) ∧ ((s.t.conns c).valid = false ↔ fin = true ∧ kill = true) := by
  have A := srv_parts h
  have hsent : sentTo c ops = (Transmits.sent q).map Prod.snd := by
    rw [sent_one h C hone, idle_sent h C I, h6]
  obtain ⟨o1, o2⟩ := C19_orderly _ _ _ A.t c hcalm
  obtain ⟨f1, f2⟩ := lib_once h5
  have hbytes : (sentTo c ops).flatMap (·.1) = (Transmits.sent q).flatMap (·.2.1) := by
    rw [hsent, List.flatMap_map]
  cases hv : (s.t.conns c).valid with
  | true =>
    refine ⟨?_, ?_, ?_⟩
    · exact idle_finished h C I (fun r hr => by
        rw [hone r hr]; intro hh; exact C.ids.2 (UInt16.toNat_inj.1 hh)) hv (hin hv) h7
    · have hp := C17_nothing_lost _ _ _ A.t c hv o1
      have hpe : pendingOf c s.t = [] := by simp [pendingOf, pending, I.queue.1, I.queue.2]
      rw [hpe, List.flatMap_nil, List.append_nil] at hp
      rw [hp, hbytes]
    · constructor
      · intro hh; cases hh
      · rintro ⟨rfl, rfl⟩
        exfalso
        obtain ⟨be, en, e1, _⟩ := f1 rfl
        have := C19_kill_honoured _ _ _ A.t c en (by rw [hsent, e1]; simp) I.queue.1 I.queue.2
        rw [hv, o1] at this
        rcases this with this | this <;> cases this
  | false =>
    obtain ⟨be, d, af, e1, e2, e3⟩ := o2 hv
    rw [hsent] at e1
    cases fin with
    | false =>
      exfalso
      have := f2 rfl
      obtain ⟨y, hy, hy2⟩ := List.mem_map.1 (show (d, true) ∈ (Transmits.sent q).map Prod.snd by rw [e1]; simp)
      have := this y hy
      rw [hy2] at this; cases this
    | true =>
      obtain ⟨lb, en, g1, g2⟩ := f1 rfl
      have hl : ∀ x ∈ lb.map Prod.snd, x.2 = false := by
        intro x hx
        obtain ⟨y, hy, rfl⟩ := List.mem_map.1 hx
        exact g2 y hy
      have e4 : (Transmits.sent q).map Prod.snd = lb.map Prod.snd ++ [(en, kill)] := by
        rw [g1]; simp
      have e5 := e1.symm.trans e4
      have haf : af = [] := by
        apply Classical.byContradiction
        intro hne
        obtain ⟨af', z, rfl⟩ : ∃ af' z, af = af' ++ [z] := ⟨af.dropLast, af.getLast hne, (List.dropLast_concat_getLast hne).symm⟩
        have e6 : (be ++ [(d, true)] ++ af') ++ [z] = lb.map Prod.snd ++ [(en, kill)] := by rw [← e5]; simp
        have e7 := (List.append_inj' e6 rfl).1
        have := hl (d, true) (by rw [← e7]; simp)
        cases this
      subst haf
      rw [List.append_nil] at e5
      have e8 := (List.append_inj' e5 rfl).2
      simp only [List.cons.injEq, Prod.mk.injEq, and_true] at e8
      refine ⟨Or.inl rfl, ?_, ?_⟩
      · rw [e3, ← hbytes, hsent, e1]; simp
      · simp [← e8.2]

/-- On a connection used for one request only, with nothing going wrong (no hang-up by the peer, no errors of the kernel): as soon as nothing
is left to be done, the bytes the peer has got are exactly those that a request on its own sends, having been given
all the records the peer sent (and callback messages as before); and the connection is closed exactly if the request is complete and its BEGIN_REQUEST
record did not have the flag FCGI_KEEP_CONN. -/
theorem C102_closed (h : SrvRun P srvInit tr ops s) (C : Conversation ops c id rs tail b ins) (I : Idle P s)
    (hone : ∀ r ∈ rs, r.id = id.toNat) (hcalm : Calm c ops) (hin : (s.t.conns c).valid = true → (s.t.conns c).input = []) :
    ∃ is kill q rest fin, Alone P c id b is kill q rest fin ∧ records is = ins ∧
      callbacks is <+: called ⟨c, id⟩ tr ∧ (fin = false → callbacks is = called ⟨c, id⟩ tr) ∧
      (s.t.conns c).output = (Transmits.sent q).flatMap (·.2.1) ∧
      ((s.t.conns c).valid = false ↔ fin = true ∧ kill = true) := by
  obtain ⟨ms, kill, q, fin, h1, h2, ⟨role, h3, h4, h5⟩, h6, h7⟩ := alone_made h C
  have key := idle_closed h C I hone hcalm hin h5 h6 h7
  obtain ⟨is, rest, g1, g2, g3⟩ := finish_inputs h2 h5 (key.1.imp_right And.left)
  refine ⟨is, kill, q, rest, fin, ⟨role, h3, h4, g1⟩, g2, ?_, ?_, key.2⟩
  · rw [g3]; exact made_called h h1
  · intro h0
    rcases key.1 with hf | hf
    · rw [h0] at hf; cases hf
    · rw [g3]; exact hf.2

end

/-! ### A concrete run

One handler thread; the peer sends a small GET request in two parts, which are read in pieces. -/

def srvDemo : SrvProg (Req Nat) := narrowServer 1 demoHandlers 100 0 (fun _ _ _ => 0) (fun _ => 0) (fun _ => 0)
instance : OfLibrary srvDemo := .narrow ..
def srvDemoIns : List Record := [demoRec 4 demoPair2.2, demoRec 4 [], demoRec 5 []]
def srvDemoBegin (flags : UInt8) : Record := demoRec 1 [0, 1, flags, 0, 0, 0, 0, 0]
def srvDemoBytes (flags : UInt8) : Bytes := stream (srvDemoBegin flags :: srvDemoIns)
def srvDemoRun (flags : UInt8) : List SrvChoice :=
  [.outer .start, .go 50, .op (.arrive 3 ((srvDemoBytes flags).take 33))] ++
  (List.replicate 4 [SrvChoice.op (.receive 3 (.give 1000) (.give 9)), .go 100]).flatten ++
  [.op (.arrive 3 ((srvDemoBytes flags).drop 33))] ++
  (List.replicate 4 [SrvChoice.op (.receive 3 (.give 1000) (.give 9)), .go 100]).flatten

/-- What its peer gets: a record of STDOUT, one of STDERR and END_REQUEST. -/
def srvDemoAnswer : Bytes :=
  stream [⟨1, 6, 7, b!"hello", [0, 0, 0], 0⟩, ⟨1, 7, 7, b!"log", [0, 0, 0, 0, 0], 0⟩, ⟨1, 3, 7, [0, 0, 0, 0, 0, 0, 0, 0], [], 0⟩]

/-- What is checked at its end. -/
def srvDemoEnd {Q : Type} (answer : Bytes) (flags : UInt8) (x : List MEvent × List TOp × Srv Q) : Bool :=
  x.2.2.m.terminate == false && (x.2.2.out 0).isEmpty && x.2.2.given == x.2.2.t.msgs.length && x.2.2.t.queue.isEmpty && x.2.2.t.pc == .loop &&
  (x.2.2.m.th 0).resting && (match x.2.2.m.pu 0 with | .idle => true | _ => false) && (match x.2.2.m.th 0 with | .off | .finished => false | _ => true) &&
  (arrived 3 x.2.1 == srvDemoBytes flags) && (x.2.2.t.conns 3 == ⟨flags == 1, false, [], answer⟩) &&
  !x.2.1.contains (.hangup 3) && !x.2.1.contains (.tx .err) && (called ⟨3, 7⟩ x.1).isEmpty &&
  x.2.1.all fun o => match o with | .receive _ (.give _) (.give _) => true | .receive _ _ _ => false | _ => true

/-- A server with one thread that comes to that end meets the hypotheses of the theorems. -/
theorem demo_meets_called {P : SrvProg U} [OfLibrary P] (h1t : P.threads = 1) (answer : Bytes) (flags : UInt8)
    (he : (srvPlay P (srvDemoRun flags) ([], [], srvInit)).any (srvDemoEnd answer flags) = true) : ∃ tr ops s, SrvRun P srvInit tr ops s ∧
    Conversation ops 3 7 (srvDemoBegin flags :: srvDemoIns) [] (srvDemoBegin flags) srvDemoIns ∧ Idle P s ∧ Calm 3 ops ∧
    s.t.conns 3 = ⟨flags == 1, false, [], answer⟩ ∧ called ⟨3, 7⟩ tr = [] := by
  obtain ⟨tr, ops, s, h1, h2, h3⟩ := srvPlay_any he
  simp only [srvDemoEnd, Bool.and_eq_true, beq_iff_eq, List.isEmpty_iff, Bool.not_eq_true', List.all_eq_true, List.contains_eq_mem,
    decide_eq_false_iff_not] at h2
  obtain ⟨⟨⟨⟨⟨⟨⟨⟨⟨⟨⟨⟨⟨a1, a2⟩, a3⟩, a4⟩, a5⟩, a6⟩, a7⟩, a8⟩, a9⟩, a10⟩, a11⟩, a12⟩, a14⟩, a13⟩ := h2
  have hwf : ∀ r ∈ srvDemoBegin flags :: srvDemoIns, r.WF ∧ r.id = 7 := by
    intro r hr
    simp only [srvDemoIns, srvDemoBegin, List.mem_cons, List.not_mem_nil, or_false] at hr
    rcases hr with rfl | rfl | rfl | rfl <;> exact ⟨by unfold Record.WF; simp [demoRec, demoPair2], rfl⟩
  refine ⟨tr, ops, s, h1, ⟨fun r hr => (hwf r hr).1, Or.inl (by simp), by rw [a9, List.append_nil]; rfl, by decide, fun r hr => ?_, ?_, rfl, ?_, ?_, ?_⟩,
    ⟨h3 ?_ ?_, ⟨0, ?_⟩, a1, fun t => ?_, a3, a4, a5⟩, ⟨a11, ?_, a12⟩, a10, a14⟩
  · intro h0; rw [(hwf r hr).2] at h0; cases h0
  · apply List.filter_eq_self.2
    intro r hr; rw [(hwf r hr).2]; rfl
  · intro r hr
    simp only [srvDemoIns, List.mem_cons, List.not_mem_nil, or_false] at hr
    rcases hr with rfl | rfl | rfl <;> decide
  · simp [srvDemoBegin, demoRec]
  · intro r hr h4 h0
    simp only [srvDemoIns, List.mem_cons, List.not_mem_nil, or_false] at hr
    rcases hr with rfl | rfl | rfl
    · exact ⟨[demoPair2], ⟨by unfold Record.WF; decide, rfl, by decide, by decide, by simp [demoPair_enc], by simp [demoPair_ok], ⟨0, by decide, by decide⟩⟩⟩
    · exact absurd rfl h0
    · exact absurd h4 (by decide)
  · revert a7; cases s.m.pu 0 <;> simp
  · intro t ht
    have : t = 0 := by omega
    rw [this]; exact a6
  · revert a8; cases s.m.th 0 <;> simp
  · by_cases ht : t = 0
    · rw [ht]; exact a2
    · exact (srv_off h1 t (by omega)).1
  · intro k1 k2 hk
    have := a13 _ hk
    cases k1 <;> cases k2 <;> simp_all

theorem demo_meets {P : SrvProg U} [OfLibrary P] (h1t : P.threads = 1) (answer : Bytes) (flags : UInt8)
    (he : (srvPlay P (srvDemoRun flags) ([], [], srvInit)).any (srvDemoEnd answer flags) = true) : ∃ tr ops s, SrvRun P srvInit tr ops s ∧
    Conversation ops 3 7 (srvDemoBegin flags :: srvDemoIns) [] (srvDemoBegin flags) srvDemoIns ∧ Idle P s ∧ Calm 3 ops ∧
    s.t.conns 3 = ⟨flags == 1, false, [], answer⟩ := by
  obtain ⟨tr, ops, s, h1, h2, h3, h4, h5, _⟩ := demo_meets_called h1t answer flags he
  exact ⟨tr, ops, s, h1, h2, h3, h4, h5⟩

theorem srvDemo_meets (flags : UInt8) (h : flags = 0 ∨ flags = 1) : ∃ tr ops s, SrvRun srvDemo srvInit tr ops s ∧
    Conversation ops 3 7 (srvDemoBegin flags :: srvDemoIns) [] (srvDemoBegin flags) srvDemoIns ∧ Idle srvDemo s ∧ Calm 3 ops ∧
    s.t.conns 3 = ⟨flags == 1, false, [], srvDemoAnswer⟩ :=
  demo_meets rfl _ _ (by rcases h with rfl | rfl <;> decide +kernel)

/-- The same server with requests of wide characters, which answer "é", the host "h" and "€". -/
def srvDemoW : SrvProg (ReqW Nat) := wideServer 1 demoHandlersW 100 0 ⟨fun _ _ _ => 0, true⟩ (fun _ => 0) (fun _ => 0)
instance : OfLibrary srvDemoW := .wide ..

example (flags : UInt8) (h : flags = 0 ∨ flags = 1) : ∃ tr ops s, SrvRun srvDemoW srvInit tr ops s ∧
    Conversation ops 3 7 (srvDemoBegin flags :: srvDemoIns) [] (srvDemoBegin flags) srvDemoIns ∧ Idle srvDemoW s ∧ Calm 3 ops ∧
    s.t.conns 3 = ⟨flags == 1, false, [], stream [⟨1, 6, 7, [0xc3, 0xa9, 0x68, 0xe2, 0x82, 0xac], [0, 0], 0⟩, ⟨1, 7, 7, b!"log", [0, 0, 0, 0, 0], 0⟩,
      ⟨1, 3, 7, [0, 0, 0, 0, 0, 0, 0, 0], [], 0⟩]⟩ :=
  demo_meets rfl _ _ (by rcases h with rfl | rfl <;> decide +kernel)

/-- The hypotheses of `C102_complete` are met, and those of `C102_closed` with and without FCGI_KEEP_CONN. -/
example : ∃ tr ops s, SrvRun srvDemo srvInit tr ops s ∧ Conversation ops 3 7 (srvDemoBegin 1 :: srvDemoIns) [] (srvDemoBegin 1) srvDemoIns ∧
    Idle srvDemo s ∧ (∀ r ∈ srvDemoBegin 1 :: srvDemoIns, r.id ≠ 0xffff) ∧ (s.t.conns 3).valid = true ∧ (s.t.conns 3).closing = false ∧
    (s.t.conns 3).input = [] ∧ (s.t.conns 3).output = srvDemoAnswer := by
  obtain ⟨tr, ops, s, h1, h2, h3, _, h5⟩ := srvDemo_meets 1 (Or.inr rfl)
  exact ⟨tr, ops, s, h1, h2, h3, by decide, by rw [h5]; rfl, by rw [h5], by rw [h5], by rw [h5]⟩
example : ∃ tr ops s, SrvRun srvDemo srvInit tr ops s ∧ Conversation ops 3 7 (srvDemoBegin 0 :: srvDemoIns) [] (srvDemoBegin 0) srvDemoIns ∧
    Idle srvDemo s ∧ Calm 3 ops ∧ (∀ r ∈ srvDemoBegin 0 :: srvDemoIns, r.id = (7 : UInt16).toNat) ∧ (s.t.conns 3).valid = false ∧
    (s.t.conns 3).output = srvDemoAnswer := by
  obtain ⟨tr, ops, s, h1, h2, h3, h4, h5⟩ := srvDemo_meets 0 (Or.inl rfl)
  exact ⟨tr, ops, s, h1, h2, h3, h4, by decide, by rw [h5]; rfl, by rw [h5]⟩

/-! ## C107 management records -/

section
variable {P : SrvProg U} [OfLibrary P] {tr : List MEvent} {ops : List TOp} {s : Srv U} {c : Nat} {rs : List Record} {tail : Bytes}

/-- At every moment of every run: whatever is sent to the peer of `c` with the id 0 answers a management record the peer has sent: it is an
UNKNOWN_TYPE record naming the type of that record or, if that was GET_VALUES, the answer to the name in the first pair of that; and it does not close the
connection. -/
theorem C107_sound (h : SrvRun P srvInit tr ops s) (wf : ∀ r ∈ rs, r.WF) (rest : Incomplete tail) (bytes : arrived c ops = stream rs ++ tail)
    (x : Bytes × Bool) (hx : x ∈ sentTo c ops) (h0 : frameId x.1 = 0) :
    x.2 = false ∧ ∃ r ∈ rs, r.id = 0 ∧
      ((r.type ≠ 9 ∧ ∃ g0 g, g.length = 7 ∧ x.1 = (⟨1, 11, 0, r.type :: g, [], g0⟩ : Record).bytes) ∨
       (r.type = 9 ∧ ∃ name value enc more, EncPair (name, value) enc ∧ r.bytes.drop 8 = enc ++ more ∧ managementAnswer name = some x.1)) := by
  obtain ⟨r, hr, hid, hm⟩ := sent_answer h wf rest bytes x hx h0
  by_cases ht : r.type = 9
  · by_cases hp : ∃ nv enc rest, EncPair nv enc ∧ r.bytes.drop 8 = enc ++ rest
    · obtain ⟨⟨name, value⟩, enc, more, h1, h2⟩ := hp
      rw [mgmt_values_some _ r c ht h1 h2] at hm
      obtain ⟨d, hd, he⟩ := List.mem_map.1 hm
      simp only [Option.mem_toList, Option.mem_def] at hd
      cases he
      exact ⟨rfl, r, hr, hid, Or.inr ⟨ht, name, value, enc, more, h1, h2, hd⟩⟩
    · rw [mgmt_values_none _ r c ht hp] at hm; cases hm
  · rw [mgmt_unknown _ r c ht, List.mem_singleton] at hm
    cases hm
    exact ⟨rfl, r, hr, hid, Or.inl ⟨ht, P.replyHeap 7, replyRest P.replyHeap, replyRest_length _, rfl⟩⟩

theorem idle_loops (h : SrvRun P srvInit tr ops s) (I : Idle P s) : ∀ t, s.loops t = none := by
  intro t
  cases hl : s.loops t with
  | none => rfl
  | some l =>
    have h1 := (srv_mgmt h).lr t (by rw [hl]; simp)
    have h2 := (still_rest (run_kq (srv_parts h).m).1 I.still).1 t
    rw [h1] at h2; cases h2

/-- The management messages dealt with when nothing is left to be done. -/
theorem idle_managed (h : SrvRun P srvInit tr ops s) (I : Idle P s) (hf : ∀ t, s.m.th t ≠ .finished) (wf : ∀ r ∈ rs, r.WF) (rest : Incomplete tail)
    (bytes : arrived c ops = stream rs ++ tail) (hv : (s.t.conns c).valid = true) (hin : (s.t.conns c).input = []) :
    (managedOf tr).filter (fun y => y.2 = c) = (rs.filter (fun r => r.id = 0)).map (fun r => (recordMsg r, c)) := by
  have A := srv_parts h
  obtain ⟨r1, r2⟩ := still_rest (run_kq A.m).1 I.still
  obtain ⟨t, hl, _⟩ := I.live
  have hn := (srv_mgmt h).nt
  rw [r2 0, I.given, List.take_length] at hn
  simp only [PPC.inNote, List.append_nil] at hn
  rw [still_own A.m I.still I.term ⟨t, hl⟩ hf, ← hn]
  have hmsgs := (C09_fragmentation P.recvHeap ops s.t A.t c rs tail wf rest bytes).2 hv hin
  have e1 : ∀ l : List Msg, (l.filterMap toNote).filter (fun y => y.2 = c) = (l.filter (fun m => m.id.socket = c)).filterMap toNote := by
    intro l
    induction l with
    | nil => rfl
    | cons a l ih =>
      unfold toNote at ih ⊢
      by_cases ha : a.id.id = 0 <;> by_cases hc : a.id.socket = c <;> simp [ha, hc, ih]
  rw [e1]
  unfold msgsOf at hmsgs
  rw [hmsgs]
  clear e1 hmsgs bytes hn
  induction rs with
  | nil => rfl
  | cons a l ih =>
    have ih := ih (fun r hr => wf r (by simp [hr]))
    have hlt := (wf a (by simp)).1
    by_cases ha : a.id = 0
    · have : UInt16.ofNat a.id = 0 := by rw [ha]; rfl
      rw [List.filter_cons_of_pos (by simp [ha]), List.map_cons, List.map_cons, List.filterMap_cons, ih]
      simp only [toNote, messageFor, this, if_true]
      rfl
    · have : UInt16.ofNat a.id ≠ 0 := by
        intro hh
        have := congrArg UInt16.toNat hh
        simp at this
        omega
      rw [List.filter_cons_of_neg (by simp [ha]), List.map_cons, List.filterMap_cons, ih]
      rw [show toNote (messageFor c a) = none from if_neg this]

theorem count_filter_map (c : Nat) (l : List (Nat × Bytes × Bool)) (d : Bytes) (hk : ∀ x ∈ l, frameId x.2.1 = 0 → x.2.2 = false) (hd : frameId d = 0) :
    (((l.filter (fun x => x.1 = c)).map (fun x => x.2.1)).filter (fun d => frameId d = 0)).count d = l.count (c, d, false) := by
  induction l with
  | nil => rfl
  | cons a l ih =>
    have ih := ih (fun x hx => hk x (by simp [hx]))
    obtain ⟨a1, a2, a3⟩ := a
    have hka := hk (a1, a2, a3) (by simp)
    simp only at hka
    by_cases hc : a1 = c
    · by_cases hf : frameId a2 = 0
      · simp only [List.filter_cons, hc, decide_true, if_true, List.map_cons, hf, List.count_cons, ih, hka hf]
        congr 1
        by_cases hda : a2 = d <;> simp [hda]
      · have hda : a2 ≠ d := by rintro rfl; exact hf hd
        simp only [List.filter_cons, hc, decide_true, if_true, List.map_cons, hf, decide_false, Bool.false_eq_true, if_false, List.count_cons, ih]
        simp [hda]
    · simp only [List.filter_cons, hc, decide_false, Bool.false_eq_true, if_false, List.count_cons, ih]
      simp [hc]

/-- As soon as nothing is left to be done (no thread has been stopped) and the connection is open, all its management records have been dealt
with: none of them was a GET_VALUES record with a pair in it (such a record keeps a thread busy forever, C07), and the peer has got exactly one
UNKNOWN_TYPE record for every management record of another type and nothing else with the id 0. -/
theorem C107_served (h : SrvRun P srvInit tr ops s) (I : Idle P s) (hf : ∀ t, s.m.th t ≠ .finished) (wf : ∀ r ∈ rs, r.WF) (rest : Incomplete tail)
    (bytes : arrived c ops = stream rs ++ tail) (hv : (s.t.conns c).valid = true) (hcl : (s.t.conns c).closing = false) (hin : (s.t.conns c).input = []) :
    (∀ r ∈ rs, r.id = 0 → r.type = 9 → ¬ ∃ nv enc more, EncPair nv enc ∧ r.bytes.drop 8 = enc ++ more) ∧
    ∃ outs : List Record, (∀ r ∈ outs, r.WF) ∧ (s.t.conns c).output = stream outs ∧
      ∃ g0 g, g.length = 7 ∧ ((outs.filter (fun r => r.id = 0)).map Record.bytes).Perm
        ((rs.filter (fun r => r.id = 0 ∧ r.type ≠ 9)).map fun r => (⟨1, 11, 0, r.type :: g, [], g0⟩ : Record).bytes) := by
  have A := srv_parts h
  have M := srv_mgmt h
  have hloops := idle_loops h I
  have hman := idle_managed h I hf wf rest bytes hv hin
  have hpairs : ∀ r ∈ rs, r.id = 0 → r.type = 9 → ¬ ∃ nv enc more, EncPair nv enc ∧ r.bytes.drop 8 = enc ++ more := by
    rintro r hr h0 h9 ⟨⟨name, value⟩, enc, more, h1, h2⟩
    have hm : (recordMsg r, c) ∈ (managedOf tr).filter (fun y => y.2 = c) := by
      rw [hman]; exact List.mem_map.2 ⟨r, List.mem_filter.2 ⟨hr, by simp [h0]⟩, rfl⟩
    obtain ⟨t, ht⟩ := M.lm _ (List.mem_filter.1 hm).1 (by dsimp only; rw [mgmt_values_some _ r c h9 h1 h2])
    exact ht (hloops t)
  refine ⟨hpairs, ?_⟩
  have hwhole : ∀ d ∈ (sentTo c ops).map (·.1), Complete d := by
    intro d hd
    obtain ⟨x, hx, rfl⟩ := List.mem_map.1 hd
    rcases (srv_sends h).st c x hx with h1 | ⟨h0, _⟩
    · exact h1.1
    · obtain ⟨_, r, hr, hid, h1⟩ := C107_sound h wf rest bytes x hx h0
      rcases h1 with ⟨_, g0, g, hg, h1⟩ | ⟨h9, name, value, enc, more, h1, h2, _⟩
      · rw [h1]; exact Record.complete _ (unknownTypeRecord_wf g0 g hg r.type)
      · exact absurd ⟨(name, value), enc, more, h1, h2⟩ (hpairs r hr hid h9)
  have hp := C17_nothing_lost _ _ _ A.t c hv hcl
  have hpe : pendingOf c s.t = [] := by simp [pendingOf, pending, I.queue.1, I.queue.2]
  rw [hpe, List.flatMap_nil, List.append_nil, List.flatMap_def] at hp
  obtain ⟨outs, o1, o2⟩ := complete_records _ hwhole
  refine ⟨outs, o1, ?_, P.replyHeap 7, replyRest P.replyHeap, replyRest_length _, ?_⟩
  · rw [hp, ← o2]; simp [stream, List.flatMap_def]
  · have e1 := outs_for 0 outs o1 _ o2
    rw [show (0 : UInt16).toNat = 0 from rfl] at e1
    rw [e1, List.perm_iff_count]
    intro d
    have hreq : ((rs.filter (fun r => r.id = 0 ∧ r.type ≠ 9)).map fun r => (⟨1, 11, 0, r.type :: replyRest P.replyHeap, [], P.replyHeap 7⟩ : Record).bytes) =
        (((rs.filter (fun r => r.id = 0)).map (fun r => (recordMsg r, c))).flatMap fun y => (mgmtSends P.replyHeap y.1 y.2).1).map (fun x => x.2.1) := by
      clear hman bytes
      induction rs with
      | nil => rfl
      | cons a l ih =>
        have ih := ih (fun r hr => wf r (by simp [hr])) (fun r hr => hpairs r (by simp [hr]))
        by_cases ha : a.id = 0
        · rw [List.filter_cons_of_pos (p := fun r : Record => decide (r.id = 0)) (by simp [ha]), List.map_cons, List.flatMap_cons, List.map_append, ← ih]
          by_cases h9 : a.type = 9
          · rw [mgmt_values_none _ a c h9 (hpairs a (by simp) ha h9), List.filter_cons_of_neg (by simp [h9])]; rfl
          · rw [mgmt_unknown _ a c h9, List.filter_cons_of_pos (by simp [ha, h9])]; rfl
        · rw [List.filter_cons_of_neg (by simp [ha]), List.filter_cons_of_neg (by simp [ha]), ih]
    have hfm : ∀ l : List (Message × Nat), ((answersTo P.replyHeap l).filter (fun x => x.1 = c)) =
        (l.filter (fun y => y.2 = c)).flatMap fun y => (mgmtSends P.replyHeap y.1 y.2).1 := by
      intro l
      induction l with
      | nil => rfl
      | cons a l ih =>
        unfold answersTo at ih ⊢
        rw [List.flatMap_cons, List.filter_append, ih]
        by_cases hc : a.2 = c
        · rw [List.filter_cons_of_pos (by simp [hc]), List.flatMap_cons]
          congr 1
          rw [List.filter_eq_self]
          intro x hx
          rw [(mgmt_sent _ _ _ x hx).1]; simp [hc]
        · rw [List.filter_cons_of_neg (by simp [hc])]
          have : (mgmtSends P.replyHeap a.1 a.2).1.filter (fun x => decide (x.1 = c)) = [] := by
            rw [List.filter_eq_nil_iff]
            intro x hx
            rw [(mgmt_sent _ _ _ x hx).1]; simp [hc]
          rw [this, List.nil_append]
    rw [hreq, ← hman, ← hfm]
    have hnone : ∀ (x : Nat × Bytes × Bool), x ∈ answersTo P.replyHeap (managedOf tr) → frameId x.2.1 = 0 := by
      intro x hx
      obtain ⟨y, _, hx⟩ := List.mem_flatMap.1 hx
      exact (mgmt_sent _ _ _ x hx).2
    have hkill : ∀ (x : Nat × Bytes × Bool), x ∈ answersTo P.replyHeap (managedOf tr) → x.2.2 = false := by
      intro x hx
      obtain ⟨y, _, hx⟩ := List.mem_flatMap.1 hx
      exact mgmt_kill _ _ _ x hx
    by_cases hd : frameId d = 0
    · have hst : (sentTo c ops).map (fun x => x.1) = ((sentAll ops).filter (fun x => x.1 = c)).map (fun x => x.2.1) := by
        rw [sentTo_all, List.map_map]; rfl
      rw [hst, count_filter_map c (sentAll ops) d (fun x hx h0 => hkill x (M.ss x hx h0)) hd]
      have e2 : (((answersTo P.replyHeap (managedOf tr)).filter (fun x => x.1 = c)).map (fun x => x.2.1)).filter (fun d => frameId d = 0) =
          ((answersTo P.replyHeap (managedOf tr)).filter (fun x => x.1 = c)).map (fun x => x.2.1) := by
        rw [List.filter_eq_self]
        intro y hy
        obtain ⟨x, hx, rfl⟩ := List.mem_map.1 hy
        simp [hnone x (List.mem_filter.1 hx).1]
      rw [← e2, count_filter_map c _ d (fun x hx _ => hkill x hx) hd]
      rcases M.ct with ⟨t, ht⟩ | ht
      · exact absurd (hloops t) ht
      · rw [← ht (c, d, false) hd]
        have : ∀ n, total (fun t => (s.out t).count (c, d, false)) n = 0 := by
          intro n
          induction n with
          | zero => rfl
          | succ n ih => unfold total; rw [ih, I.out]; rfl
        rw [this, Nat.add_zero]
    · rw [List.count_eq_zero.2, List.count_eq_zero.2]
      · intro hy
        obtain ⟨x, hx, rfl⟩ := List.mem_map.1 hy
        exact hd (hnone x (List.mem_filter.1 hx).1)
      · intro hy
        have := (List.mem_filter.1 hy).2
        simp [hd] at this

end

/-! A concrete run: in the midst of a request come an unknown management record, a GET_VALUES record without a pair, and another unknown one. -/

def mgmtRec (type : UInt8) (content : Bytes) : Record := ⟨1, type, 0, content, [], 0⟩
def mgmtIns : List Record := [srvDemoBegin 1, mgmtRec 42 [1, 2], demoRec 4 demoPair2.2, mgmtRec 9 [], demoRec 4 [], mgmtRec 77 [], demoRec 5 []]
def mgmtRun : List SrvChoice :=
  [.outer .start, .go 50, .op (.arrive 3 (stream mgmtIns))] ++
  (List.replicate 7 [SrvChoice.op (.receive 3 (.give 1000) (.give 1000)), .go 100]).flatten
def mgmtAnswer : Bytes :=
  (⟨1, 11, 0, [42, 0, 0, 0, 0, 0, 0, 0], [], 0⟩ : Record).bytes ++ (⟨1, 11, 0, [77, 0, 0, 0, 0, 0, 0, 0], [], 0⟩ : Record).bytes ++ srvDemoAnswer

example : ∃ tr ops s, SrvRun srvDemo srvInit tr ops s ∧ Idle srvDemo s ∧ (∀ t, s.m.th t ≠ .finished) ∧ (∀ r ∈ mgmtIns, r.WF) ∧ Incomplete [] ∧
    arrived 3 ops = stream mgmtIns ++ [] ∧ s.t.conns 3 = ⟨true, false, [], mgmtAnswer⟩ ∧
    ∃ x ∈ sentTo 3 ops, frameId x.1 = 0 := by
  obtain ⟨tr, ops, s, h1, h2, h3⟩ := srvPlay_any (P := srvDemo) (cs := mgmtRun) (f := fun x =>
    x.2.2.m.terminate == false && (x.2.2.out 0).isEmpty && x.2.2.given == x.2.2.t.msgs.length && x.2.2.t.queue.isEmpty && x.2.2.t.pc == .loop &&
    (match x.2.2.m.th 0 with | .waiting => true | _ => false) && (match x.2.2.m.pu 0 with | .idle => true | _ => false) &&
    (arrived 3 x.2.1 == stream mgmtIns) && (x.2.2.t.conns 3 == ⟨true, false, [], mgmtAnswer⟩) && (sentTo 3 x.2.1).any (fun x => frameId x.1 == 0)) (by decide +kernel)
  simp only [Bool.and_eq_true, beq_iff_eq, List.isEmpty_iff] at h2
  obtain ⟨⟨⟨⟨⟨⟨⟨⟨⟨a1, a2⟩, a3⟩, a4⟩, a5⟩, a6⟩, a7⟩, a8⟩, a9⟩, a10⟩ := h2
  have ht0 : s.m.th 0 = .waiting := by revert a6; cases s.m.th 0 <;> simp
  have hoff : ∀ t, t ≠ 0 → s.m.th t = .off := fun t ht => (run_kq (srv_parts h1).m).1.off t (by show 1 ≤ t; omega)
  refine ⟨tr, ops, s, h1, ⟨h3 ?_ ?_, ⟨0, by rw [ht0]; simp⟩, a1, fun t => ?_, a3, a4, a5⟩, fun t => ?_, ?_, Or.inl (by simp), by rw [a8, List.append_nil], a9, ?_⟩
  · revert a7; cases s.m.pu 0 <;> simp
  · intro t ht
    have : t = 0 := by simp only [srvDemo, narrowServer] at ht; omega
    rw [this, ht0]; rfl
  · by_cases ht : t = 0
    · rw [ht]; exact a2
    · exact (srv_off h1 t (by show 1 ≤ t; omega)).1
  · by_cases ht : t = 0
    · rw [ht, ht0]; simp
    · rw [hoff t ht]; simp
  · intro r hr
    simp only [mgmtIns, List.mem_cons, List.not_mem_nil, or_false] at hr
    rcases hr with rfl | rfl | rfl | rfl | rfl | rfl | rfl <;> unfold Record.WF <;> simp [demoRec, mgmtRec, srvDemoBegin, demoPair2]
  · obtain ⟨x, hx, h0⟩ := List.any_eq_true.1 a10
    exact ⟨x, hx, by simpa using h0⟩

/-! ## C103 every id is served -/

/-- False of the code: no request with the id 65535, which the FastCGI specification allows, is ever served: whatever is sent to the
server, no record with that id is ever sent by it. -/
theorem C103_violated {P : SrvProg U} [OfLibrary P] {tr ops s} (h : SrvRun P srvInit tr ops s) :
    (∀ r c m, .created r ⟨c, 0xffff⟩ m ∉ tr) ∧ ∀ c, ∀ x ∈ sentTo c ops, frameId x.1 ≠ 0xffff := by
  have h0 : ∀ r c m, .created r ⟨c, 0xffff⟩ m ∉ tr := fun r c m hm => (created_ids (srv_parts h).m _ _ _ hm).2 rfl
  refine ⟨h0, fun c x hx hid => ?_⟩
  rcases sent_owner h c x hx with ⟨h1, _⟩ | ⟨r, id, m, h1, h2⟩
  · rw [h1] at hid; cases hid
  · rw [hid] at h2
    have : id = 0xffff := UInt16.toNat_inj.1 h2.symm
    subst this
    exact h0 r c m h1

def wrongRec (type : UInt8) (content : Bytes) : Record := ⟨1, type, 0xffff, content, [], 0⟩
def wrongRun : List SrvChoice :=
  [.outer .start, .go 50, .op (.arrive 3 (stream [srvDemoBegin 1, demoRec 4 demoPair2.2]))] ++
  (List.replicate 4 [SrvChoice.op (.receive 3 (.give 1000) (.give 1000)), .go 100]).flatten ++
  [.op (.arrive 3 (stream [wrongRec 1 [0, 1, 1, 0, 0, 0, 0, 0], wrongRec 4 [], wrongRec 5 [], demoRec 4 [], demoRec 5 []]))] ++
  (List.replicate 6 [SrvChoice.op (.receive 3 (.give 1000) (.give 1000)), .go 100]).flatten

/-- Worse: a record with that id is taken for the end of the connection, so that all requests in progress on it are destroyed
without an answer: here request 7, whose input is complete, on a connection that is open and stays open. -/
theorem C103_destroys_violated : ∃ tr ops s, SrvRun srvDemo srvInit tr ops s ∧ Still srvDemo.prog s.m ∧ s.m.ub = false ∧
    arrived 3 ops = stream ([srvDemoBegin 1, demoRec 4 demoPair2.2] ++
      [wrongRec 1 [0, 1, 1, 0, 0, 0, 0, 0], wrongRec 4 [], wrongRec 5 [], demoRec 4 [], demoRec 5 []]) ∧
    s.t.conns 3 = ⟨true, false, [], []⟩ ∧ s.given = s.t.msgs.length ∧ s.t.queue = [] ∧ s.m.table = [] ∧ .lost 3 ∈ tr ∧ .removed 0 ∈ tr := by
  obtain ⟨tr, ops, s, h1, h2, h3⟩ := srvPlay_any (P := srvDemo) (cs := wrongRun) (f := fun x =>
    (x.2.2.m.th 0).resting && (match x.2.2.m.pu 0 with | .idle => true | _ => false) && (x.2.2.m.ub == false) &&
    (arrived 3 x.2.1 == stream ([srvDemoBegin 1, demoRec 4 demoPair2.2] ++
      [wrongRec 1 [0, 1, 1, 0, 0, 0, 0, 0], wrongRec 4 [], wrongRec 5 [], demoRec 4 [], demoRec 5 []])) &&
    (x.2.2.t.conns 3 == ⟨true, false, [], []⟩) && (x.2.2.given == x.2.2.t.msgs.length) && x.2.2.t.queue.isEmpty && x.2.2.m.table.isEmpty &&
    x.1.contains (.lost 3) && x.1.contains (.removed 0)) (by decide +kernel)
  simp only [Bool.and_eq_true, beq_iff_eq, List.isEmpty_iff, List.contains_eq_mem, decide_eq_true_eq] at h2
  obtain ⟨⟨⟨⟨⟨⟨⟨⟨⟨a1, a2⟩, a3⟩, a4⟩, a5⟩, a6⟩, a7⟩, a8⟩, a9⟩, a10⟩ := h2
  refine ⟨tr, ops, s, h1, h3 ?_ ?_, a3, a4, a5, a6, a7, a8, a9, a10⟩
  · revert a2; cases s.m.pu 0 <;> simp
  · intro t ht
    have : t = 0 := by simp only [srvDemo, narrowServer] at ht; omega
    rw [this]; exact a1

/-! ## C105 why requests go -/

/-- In every run of the manager, whatever its requests do: a request that has been created is being served, or has said that it is complete,
or its connection is closed or has been reported as lost. -/
theorem C105_cause {σ} {P : Prog σ} {x tr s} (h : MRun P (mInit x) tr s) (r : Nat) (k : RequestId) (m : Message) (hc : .created r k m ∈ tr) :
    serving tr k = some r ∨ (∃ t m, .ended r t m true ∈ tr) ∨ s.invalid k.socket = true ∨ .lost k.socket ∈ tr := by
  rcases (run_cause h).cr r k m hc with ht | hh
  · left
    rw [(run_rinv h).sv]
    cases hl : s.table.lookup k with
    | none => exact absurd ht (lookup_none hl r)
    | some r' => rw [(run_kq h).1.nd _ r' r (mlookup_mem hl) ht]
  · exact Or.inr hh

/-- And a connection is reported as lost to the manager only if its peer hung up, or reading or writing failed, or a record with the
id 65535 arrived (C103). -/
theorem C105_lost {P : SrvProg U} {tr ops s} (h : SrvRun P srvInit tr ops s) (c : Nat) (hc : .lost c ∈ tr) (rs : List Record) (tail : Bytes)
    (hwf : ∀ r ∈ rs, r.WF) (ht : Incomplete tail) (ha : arrived c ops = stream rs ++ tail) : ¬ Calm c ops ∨ ∃ r ∈ rs, r.id = 0xffff := by
  by_cases hcalm : Calm c ops
  · right
    obtain ⟨y, hy, hid⟩ := (srv_routed h).ls c hc
    have hy' : y ∈ msgsOf c s.t := by
      unfold msgsOf; rw [List.mem_filter]; exact ⟨hy, by simp [hid]⟩
    obtain ⟨⟨k, _, hfr⟩, _⟩ := C09_fragmentation P.recvHeap ops s.t (srv_parts h).t c rs tail hwf ht ha
    have key : y ∈ (rs.take k).map (messageFor c) → ∃ r ∈ rs, r.id = 0xffff := by
      intro hh
      obtain ⟨r, hr, rfl⟩ := List.mem_map.1 hh
      have hr' := List.mem_of_mem_take hr
      simp only [messageFor, RequestId.mk.injEq, true_and] at hid
      have := congrArg UInt16.toNat hid
      have hlt := (hwf r hr').1
      simp at this
      exact ⟨r, hr', by omega⟩
    rcases hfr with hfr | ⟨hv, hfr⟩
    · rw [hfr] at hy'; exact key hy'
    · rw [hfr] at hy'
      rcases List.mem_append.1 hy' with hy' | hy'
      · exact key hy'
      · exact absurd (show goneMsg c ∈ msgsOf c s.t by rw [hfr]; simp) (calm_never_gone P.recvHeap ops s.t (srv_parts h).t c hcalm)
  · exact Or.inl hcalm

end Fcgi.Props
