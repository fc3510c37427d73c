import Verif.Props.Later
import Verif.Props.Aborted
import Verif.Props.Turns
/-! # C155: what is done in turn reaches a request in that order -/
namespace Fcgi.Props
open Fcgi.Spec Fcgi.Model

/-- What a peer sends for a request, and what callbacks send it, `is`, in phases: in each phase there come only records or only callbacks for it (anything
may happen to other requests), and each but the first begins when the server has come to rest. -/
inductive Phased {U : Type} [Transmits U] (P : SrvProg U) (c : Nat) (id : UInt16) (b : Record) : List Input → List MEvent → List TOp → Srv U → Prop where
  | first {ins tr ops s rs tail} (h : SrvRun P srvInit tr ops s) (C : Conversation ops c id rs tail b ins) (hlost : ∀ r ∈ rs, r.id ≠ 0xffff)
      (hnone : called ⟨c, id⟩ tr = []) : Phased P c id b (ins.map .record) tr ops s
  | sends {is new tr0 ops0 s0 tr ops s rs tail} (T : Phased P c id b is tr0 ops0 s0) (R : SrvUp s0) (hr : SrvRest P s0) (h : SrvRun P s0 tr ops s)
      (C : Conversation (ops0 ++ ops) c id rs tail b (records is ++ new)) (hlost : ∀ r ∈ rs, r.id ≠ 0xffff) (hnone : called ⟨c, id⟩ tr = []) :
      Phased P c id b (is ++ new.map .record) (tr0 ++ tr) (ops0 ++ ops) s
  | calls {is tr0 ops0 s0 tr ops s rs tail} (T : Phased P c id b is tr0 ops0 s0) (R : SrvUp s0) (hr : SrvRest P s0) (h : SrvRun P s0 tr ops s)
      (C : Conversation (ops0 ++ ops) c id rs tail b (records is)) (hlost : ∀ r ∈ rs, r.id ≠ 0xffff) :
      Phased P c id b (is ++ asInputs (called ⟨c, id⟩ tr)) (tr0 ++ tr) (ops0 ++ ops) s

section
variable {U : Type} [Transmits U] {P : SrvProg U} [OfLibrary P] {tr tr0 : List MEvent} {ops ops0 : List TOp} {s s0 : Srv U}
  {c : Nat} {id : UInt16} {b : Record} {is : List Input}

omit [OfLibrary P] in
theorem Phased.run (T : Phased P c id b is tr ops s) : SrvRun P srvInit tr ops s := by
  induction T with
  | first h _ _ _ => exact h
  | sends _ _ _ h _ _ _ ih => exact run_later ih h
  | calls _ _ _ h _ _ ih => exact run_later ih h

theorem inputs_append (a b : List Input) : records (a ++ b) = records a ++ records b := by
  induction a with
  | nil => rfl
  | cons x a ih => cases x <;> simp [records, ih]

theorem records_asInputs (ms : List Message) : records (asInputs ms) = [] := by
  induction ms with
  | nil => rfl
  | cons m ms ih => simpa [asInputs, records] using ih

theorem records_record (l : List Record) : records (l.map .record) = l := by
  induction l with
  | nil => rfl
  | cons m ms ih => simpa [records] using ih

omit [OfLibrary P] in
theorem Phased.conversation (T : Phased P c id b is tr ops s) :
    ∃ rs tail, Conversation ops c id rs tail b (records is) ∧ (∀ r ∈ rs, r.id ≠ 0xffff) ∧
      called ⟨c, id⟩ tr = (is.map Input.message).filter (fun m => m.type ≠ 0) := by
  induction T with
  | @first ins tr ops s rs tail h C hlost hnone =>
    refine ⟨_, _, by rw [records_record]; exact C, hlost, ?_⟩
    rw [hnone, eq_comm, List.filter_eq_nil_iff]
    intro m hm
    obtain ⟨i, hi, rfl⟩ := List.mem_map.1 hm
    obtain ⟨r, _, rfl⟩ := List.mem_map.1 hi
    simp [Input.message, fcgiMsg]
  | @sends is new tr0 ops0 s0 tr ops s rs tail T R hr h C hlost hnone ih =>
    obtain ⟨_, _, _, _, h4⟩ := ih
    refine ⟨_, _, by rw [inputs_append, records_record]; exact C, hlost, ?_⟩
    rw [called_append, hnone, List.append_nil, h4, List.map_append, List.filter_append]
    have : ((new.map Input.record).map Input.message).filter (fun m => decide (m.type ≠ 0)) = [] := by
      rw [List.filter_eq_nil_iff]
      intro m hm
      obtain ⟨i, hi, rfl⟩ := List.mem_map.1 hm
      obtain ⟨r, _, rfl⟩ := List.mem_map.1 hi
      simp [Input.message, fcgiMsg]
    rw [this, List.append_nil]
  | @calls is tr0 ops0 s0 tr ops s rs tail T R hr h C hlost ih =>
    obtain ⟨_, _, _, _, h4⟩ := ih
    refine ⟨_, _, by rw [inputs_append, records_asInputs, List.append_nil]; exact C, hlost, ?_⟩
    rw [called_append, h4, List.map_append, List.filter_append, asInputs_message]
    congr 1
    rw [eq_comm, List.filter_eq_self]
    intro m hm
    simpa using called_types _ _ m hm

/-- What has been given to the object: a part of the inputs from the beginning, all of them if it is not complete. -/
def Given (P : SrvProg U) (c : Nat) (id : UInt16) (b : Record) (is : List Input) (tr : List MEvent) (s : Srv U) (kill : Bool) (q : U) (fin : Bool) : Prop :=
  ∃ x, ObjectAt P c id b (records is) tr s x kill q fin ∧ ∃ w, is.map Input.message = endedBy x tr ++ w ∧ (fin = true ∨ w = [])

theorem messages_records (is : List Input) (h : ∀ m d, Input.callback m d ∈ is → m ≠ 0) :
    (is.map Input.message).filter (fun m => m.type = 0) = (records is).map recordMsg := by
  induction is with
  | nil => rfl
  | cons i is ih =>
    have ih := ih fun m d hm => h m d (by simp [hm])
    cases i with
    | record r => simp only [List.map_cons, records, ← ih]; rfl
    | callback t d =>
      have : t ≠ 0 := h t d (by simp)
      simp only [List.map_cons, records, ← ih]
      rw [List.filter_cons_of_neg (by simp [Input.message, this])]

omit [OfLibrary P] in
theorem Phased.types (T : Phased P c id b is tr ops s) : ∀ m d, Input.callback m d ∈ is → m ≠ 0 := by
  have calls : ∀ (l : List Message), (∀ m ∈ l, m.type ≠ 0) → ∀ m d, Input.callback m d ∈ asInputs l → m ≠ 0 := by
    intro l hl m d hm
    obtain ⟨x, hx, e⟩ := List.mem_map.1 hm
    cases e
    exact hl x hx
  have recs : ∀ (l : List Record) m d, Input.callback m d ∉ l.map Input.record := by
    intro l m d hm
    obtain ⟨x, _, e⟩ := List.mem_map.1 hm
    cases e
  induction T with
  | first _ _ _ _ => exact fun m d hm => absurd hm (recs _ m d)
  | sends _ _ _ _ _ _ _ ih =>
    intro m d hm
    rcases List.mem_append.1 hm with hm | hm
    · exact ih m d hm
    · exact absurd hm (recs _ m d)
  | calls _ _ _ _ _ _ ih =>
    intro m d hm
    rcases List.mem_append.1 hm with hm | hm
    · exact ih m d hm
    · exact calls _ (called_types _ _) m d hm

omit [OfLibrary P] in
/-- One phase more. -/
theorem given_more {new : List Input} {x1 x3 kill1 kill3 q1 q3 fin1 fin3} {w : List Message}
    (O1 : ObjectAt P c id b (records is) tr0 s0 x1 kill1 q1 fin1) (hw : is.map Input.message = endedBy x1 tr0 ++ w) (hf : fin1 = true ∨ w = [])
    (O3 : ObjectAt P c id b (records (is ++ new)) (tr0 ++ tr) s x3 kill3 q3 fin3)
    (hcalled : called ⟨c, id⟩ tr0 = (is.map Input.message).filter (fun m => m.type ≠ 0))
    (hrec : (is.map Input.message).filter (fun m => m.type = 0) = (records is).map recordMsg)
    (hphase : called ⟨c, id⟩ tr = [] ∧ (∃ l : List Record, new = l.map .record) ∨ new = asInputs (called ⟨c, id⟩ tr)) :
    ∃ w', (is ++ new).map Input.message = endedBy x3 (tr0 ++ tr) ++ w' ∧ (fin3 = true ∨ w' = []) := by
  obtain ⟨a1, ⟨role1, a2, a3, a4⟩, a5, a6, a7, a8⟩ := O1
  obtain ⟨b1, ⟨role3, b2, b3, b4⟩, b5, b6, b7, b8⟩ := O3
  have hx : x3 = x1 := by
    rw [objsOf_append, a1] at b1
    exact ((List.cons.inj b1).1).symm
  subst hx
  have hrole : role3 = role1 := UInt16.toNat_inj.1 (b2.trans a2.symm)
  have hkill : kill3 = kill1 := by rw [Bool.eq_iff_iff, a3, b3]
  subst hrole hkill
  rw [endedBy_append] at b4 b5 b6 b8 ⊢
  generalize hE : endedBy x3 tr = ex at *
  generalize hM : endedBy x3 tr0 = m1 at *
  rw [handleAll_append, a4, Res.ok_bind] at b4
  dsimp only at b4
  rw [List.map_append, hw]
  cases fin1 with
  | true =>
    rw [if_pos rfl] at b4
    cases b4
    exact ⟨w ++ new.map Input.message, by simp, Or.inl rfl⟩
  | false =>
    rw [if_neg (by simp)] at b4
    have hw0 : w = [] := by rcases hf with hf | hf; · cases hf
                            · exact hf
    subst hw0
    rw [List.append_nil] at hw
    rw [hw] at hcalled hrec
    rw [List.filter_append, inputs_append, List.map_append, hrec, List.prefix_append_right_inj] at b5
    rw [List.filter_append, called_append, ← hcalled, List.prefix_append_right_inj] at b6
    rw [List.filter_append, inputs_append, List.map_append, hrec, List.append_cancel_left_eq, List.filter_append, called_append, ← hcalled,
      List.append_cancel_left_eq] at b8
    rcases hphase with ⟨h1, l, rfl⟩ | rfl
    · rw [h1, List.prefix_nil] at b6
      have hex : ex.filter (fun m => m.type = 0) = ex := by
        refine only_type ?_
        rw [← b6]; congr 1; funext m; by_cases e : m.type = 0 <;> simp [e]
      have hmsg : (l.map Input.record).map Input.message = l.map recordMsg := by rw [List.map_map]; rfl
      rw [records_record, hex] at b5 b8
      rw [hmsg]
      obtain ⟨w', e⟩ := b5
      refine ⟨w', by rw [List.append_nil, List.append_assoc, e], ?_⟩
      rcases b8 with b8 | ⟨b8, _⟩
      · exact Or.inl b8
      · right
        rw [← e] at b8
        have := congrArg List.length b8
        rw [List.length_append] at this
        exact List.length_eq_zero_iff.1 (by omega)
    · rw [records_asInputs, List.map_nil, List.prefix_nil] at b5
      have hex : ex.filter (fun m => m.type ≠ 0) = ex := by
        refine only_type ?_
        rw [← b5]; congr 1; funext m; by_cases e : m.type = 0 <;> simp [e]
      rw [hex] at b6 b8
      rw [asInputs_message]
      obtain ⟨w', e⟩ := b6
      refine ⟨w', by rw [List.append_nil, List.append_assoc, e], ?_⟩
      rcases b8 with b8 | ⟨_, b8⟩
      · exact Or.inl b8
      · right
        rw [← e] at b8
        have := congrArg List.length b8
        rw [List.length_append] at this
        exact List.length_eq_zero_iff.1 (by omega)

omit [OfLibrary P] in
/-- The request on its own, given all the inputs. -/
theorem given_alone {x kill q fin} {w : List Message} (O : ObjectAt P c id b (records is) tr s x kill q fin) (hw : is.map Input.message = endedBy x tr ++ w)
    (hf : fin = true ∨ w = []) : ∃ rest, Alone P c id b is kill q rest fin := by
  obtain ⟨role, r1, r2, r3⟩ := O.alone
  refine ⟨w, role, r1, r2, ?_⟩
  rw [hw, handleAll_append, r3, Res.ok_bind]
  rcases hf with rfl | rfl
  · rw [if_pos rfl]; rfl
  · cases fin <;> rfl

/-- At rest, with the connection open. -/
theorem phased_given (T : Phased P c id b is tr ops s) (R : SrvUp s) (hr : SrvRest P s) (hv : (s.t.conns c).valid = true) :
    ∃ kill q fin, Given P c id b is tr s kill q fin := by
  have obj : ∀ {is tr ops s}, Phased P c id b is tr ops s → SrvUp s → SrvRest P s → (s.t.conns c).valid = true →
      ∃ x kill q fin, ObjectAt P c id b (records is) tr s x kill q fin := by
    intro is tr ops s T R hr hv
    obtain ⟨rs, tail, C, hl, _⟩ := T.conversation
    obtain ⟨I, hin⟩ := rest_idle T.run R hr
    exact idle_object T.run C I hl hv (hin c hv).1
  have valid : ∀ {tr0 ops0 s0 tr ops s}, SrvRun P srvInit tr0 ops0 s0 → SrvRun P s0 tr ops s → (s.t.conns c).valid = true → (s0.t.conns c).valid = true :=
    fun H h hv => trun_valid (g := P.recvHeap) _ _ _ _ (srv_parts H).t (srv_parts (run_later H h)).t hv
  have O := obj T R hr hv
  induction T with
  | @first ins tr ops s rs tail h C hlost hnone =>
    obtain ⟨x, kill, q, fin, O⟩ := O
    refine ⟨kill, q, fin, x, O, ?_⟩
    obtain ⟨_, _, a5, a6, _, a8⟩ := O
    rw [hnone, List.prefix_nil] at a6
    rw [records_record] at a5 a8
    have hm : (endedBy x tr).filter (fun m => m.type = 0) = endedBy x tr := by
      refine only_type ?_
      rw [← a6]; congr 1; funext m; by_cases e : m.type = 0 <;> simp [e]
    rw [hm] at a5 a8
    obtain ⟨w, e⟩ := a5
    refine ⟨w, by rw [List.map_map, ← e.symm]; rfl, ?_⟩
    rcases a8 with a8 | ⟨a8, _⟩
    · exact Or.inl a8
    · right
      rw [← e] at a8
      have := congrArg List.length a8
      rw [List.length_append] at this
      exact List.length_eq_zero_iff.1 (by omega)
  | sends T R0 hr0 h C hlost hnone ih =>
    obtain ⟨x3, kill3, q3, fin3, O3⟩ := O
    have hv0 := valid T.run h hv
    obtain ⟨kill1, q1, fin1, x1, O1, w, hw, hf⟩ := ih R0 hr0 hv0 (obj T R0 hr0 hv0)
    obtain ⟨_, _, _, _, hcalled⟩ := T.conversation
    obtain ⟨w', h1, h2⟩ := given_more O1 hw hf O3 hcalled (messages_records _ T.types) (Or.inl ⟨hnone, _, rfl⟩)
    exact ⟨kill3, q3, fin3, x3, O3, w', h1, h2⟩
  | calls T R0 hr0 h C hlost ih =>
    obtain ⟨x3, kill3, q3, fin3, O3⟩ := O
    have hv0 := valid T.run h hv
    obtain ⟨kill1, q1, fin1, x1, O1, w, hw, hf⟩ := ih R0 hr0 hv0 (obj T R0 hr0 hv0)
    obtain ⟨_, _, _, _, hcalled⟩ := T.conversation
    obtain ⟨w', h1, h2⟩ := given_more O1 hw hf O3 hcalled (messages_records _ T.types) (Or.inr rfl)
    exact ⟨kill3, q3, fin3, x3, O3, w', h1, h2⟩

/-- At rest, on a connection with this request alone on which nothing goes wrong. -/
theorem phased_given_calm (T : Phased P c id b is tr ops s) (R : SrvUp s) (hr : SrvRest P s) (hcalm : Calm c ops)
    (hone : ∀ ops0 opsx rs0 tail0 ins0, ops = ops0 ++ opsx → Conversation ops0 c id rs0 tail0 b ins0 → ∀ r ∈ rs0, r.id = id.toNat) :
    ∃ kill q fin, Given P c id b is tr s kill q fin := by
  have obj : ∀ {is tr ops s}, Phased P c id b is tr ops s → SrvUp s → SrvRest P s → Calm c ops →
      (∀ ops0 opsx rs0 tail0 ins0, ops = ops0 ++ opsx → Conversation ops0 c id rs0 tail0 b ins0 → ∀ r ∈ rs0, r.id = id.toNat) →
      ∃ x kill q fin, ObjectAt P c id b (records is) tr s x kill q fin := by
    intro is tr ops s T R hr hc ho
    obtain ⟨rs, tail, C, hl, _⟩ := T.conversation
    obtain ⟨I, hin⟩ := rest_idle T.run R hr
    obtain ⟨x, kill, q, fin, O, _⟩ := idle_object_calm T.run C I (ho _ [] _ _ _ (by simp) C) hc (fun hv => (hin c hv).1)
    exact ⟨x, kill, q, fin, O⟩
  have O := obj T R hr hcalm hone
  induction T with
  | @first ins tr ops s rs tail h C hlost hnone =>
    obtain ⟨x, kill, q, fin, O⟩ := O
    refine ⟨kill, q, fin, x, O, ?_⟩
    obtain ⟨_, _, a5, a6, _, a8⟩ := O
    rw [hnone, List.prefix_nil] at a6
    rw [records_record] at a5 a8
    have hm : (endedBy x tr).filter (fun m => m.type = 0) = endedBy x tr := by
      refine only_type ?_
      rw [← a6]; congr 1; funext m; by_cases e : m.type = 0 <;> simp [e]
    rw [hm] at a5 a8
    obtain ⟨w, e⟩ := a5
    refine ⟨w, by rw [List.map_map, ← e.symm]; rfl, ?_⟩
    rcases a8 with a8 | ⟨a8, _⟩
    · exact Or.inl a8
    · right
      rw [← e] at a8
      have := congrArg List.length a8
      rw [List.length_append] at this
      exact List.length_eq_zero_iff.1 (by omega)
  | @sends is new tr0 ops0 s0 tr ops s rs tail T R0 hr0 h C hlost hnone ih =>
    obtain ⟨x3, kill3, q3, fin3, O3⟩ := O
    have hone0 : ∀ a opsx rs0 tail0 ins0, ops0 = a ++ opsx → Conversation a c id rs0 tail0 b ins0 → ∀ r ∈ rs0, r.id = id.toNat :=
      fun a x rs0 tail0 i e D => hone a (x ++ ops) rs0 tail0 i (by rw [e, List.append_assoc]) D
    obtain ⟨kill1, q1, fin1, x1, O1, w, hw, hf⟩ := ih R0 hr0 (calm_left hcalm) hone0 (obj T R0 hr0 (calm_left hcalm) hone0)
    obtain ⟨_, _, _, _, hcalled⟩ := T.conversation
    obtain ⟨w', h1, h2⟩ := given_more O1 hw hf O3 hcalled (messages_records _ T.types) (Or.inl ⟨hnone, _, rfl⟩)
    exact ⟨kill3, q3, fin3, x3, O3, w', h1, h2⟩
  | @calls is tr0 ops0 s0 tr ops s rs tail T R0 hr0 h C hlost ih =>
    obtain ⟨x3, kill3, q3, fin3, O3⟩ := O
    have hone0 : ∀ a opsx rs0 tail0 ins0, ops0 = a ++ opsx → Conversation a c id rs0 tail0 b ins0 → ∀ r ∈ rs0, r.id = id.toNat :=
      fun a x rs0 tail0 i e D => hone a (x ++ ops) rs0 tail0 i (by rw [e, List.append_assoc]) D
    obtain ⟨kill1, q1, fin1, x1, O1, w, hw, hf⟩ := ih R0 hr0 (calm_left hcalm) hone0 (obj T R0 hr0 (calm_left hcalm) hone0)
    obtain ⟨_, _, _, _, hcalled⟩ := T.conversation
    obtain ⟨w', h1, h2⟩ := given_more O1 hw hf O3 hcalled (messages_records _ T.types) (Or.inr rfl)
    exact ⟨kill3, q3, fin3, x3, O3, w', h1, h2⟩

/-- A peer sends records for a request, and callbacks send it messages, in phases. When the server has come to rest and the connection is open, the peer
has got exactly the records that a request on its own sends that has been given all these records and messages, in the order of the phases. -/
theorem C155_in_order (T : Phased P c id b is tr ops s) (R : SrvUp s) (hr : SrvRest P s) (hv : (s.t.conns c).valid = true) :
    ∃ kill q rest fin, Alone P c id b is kill q rest fin ∧
      ∀ outs otail, (∀ r ∈ outs, r.WF) → Incomplete otail → (s.t.conns c).output = stream outs ++ otail →
        otail = [] ∧ (outs.filter (fun r => r.id = id.toNat)).map Record.bytes = (Transmits.sent q).map (·.2.1) := by
  obtain ⟨kill, q, fin, x, O, w, hw, hf⟩ := phased_given T R hr hv
  obtain ⟨rs, tail, C, _, _⟩ := T.conversation
  obtain ⟨I, hin⟩ := rest_idle T.run R hr
  obtain ⟨rest, hk⟩ := given_alone O hw hf
  refine ⟨kill, q, rest, fin, hk, ?_⟩
  intro outs otail hw hot ho
  have hp := C17_nothing_lost _ _ _ (srv_parts T.run).t c hv (hin c hv).2
  have hpe : pendingOf c s.t = [] := by simp [pendingOf, pending, I.queue.1, I.queue.2]
  rw [hpe, List.flatMap_nil, List.append_nil, ho, List.flatMap_def] at hp
  obtain ⟨h8, h9⟩ := parse_all _ (C.whole T.run) outs otail hw hot hp
  refine ⟨h9, ?_⟩
  rw [outs_for id outs hw _ h8]
  have h9 : ((sentTo c ops).map (·.1)).filter (fun d => frameId d = id.toNat) = (sentFor ⟨c, id⟩ ops).map (·.1) := by
    unfold sentFor; rw [List.filter_map]; rfl
  rw [h9, idle_sent T.run C I, O.made, List.map_map]
  rfl

/-- On a connection with this request alone on which nothing goes wrong, these are all the bytes, and the connection is closed exactly if the request is complete
and its BEGIN_REQUEST record did not have the flag FCGI_KEEP_CONN. -/
theorem C155_closed (T : Phased P c id b is tr ops s) (R : SrvUp s) (hr : SrvRest P s) (hcalm : Calm c ops) (hall : arrived c ops = stream (b :: records is)) :
    ∃ kill q rest fin, Alone P c id b is kill q rest fin ∧
      (s.t.conns c).output = (Transmits.sent q).flatMap (·.2.1) ∧ ((s.t.conns c).valid = false ↔ fin = true ∧ kill = true) := by
  obtain ⟨rs, tail, C, _, _⟩ := T.conversation
  have hone : ∀ ops0 opsx rs0 tail0 ins0, ops = ops0 ++ opsx → Conversation ops0 c id rs0 tail0 b ins0 → ∀ r ∈ rs0, r.id = id.toNat := by
    intro ops0 opsx rs0 tail0 ins0 e C0
    have D : Dialogue ops c id rs tail (convsOf [⟨b, records is, [], [], [], []⟩]) := C.dialogue
    have D0 : Dialogue ops0 c id rs0 tail0 (convsOf [⟨b, ins0, [], [], [], []⟩]) := C0.dialogue
    exact only_forms D D0 e (by rw [hall]; simp)
  obtain ⟨kill, q, fin, x, O, w, hw, hf⟩ := phased_given_calm T R hr hcalm hone
  obtain ⟨I, hin⟩ := rest_idle T.run R hr
  obtain ⟨rest, hk⟩ := given_alone O hw hf
  obtain ⟨x', kill', q', fin', O', k1, k2⟩ := idle_object_calm T.run C I (hone _ [] _ _ _ (by simp) C) hcalm (fun hv => (hin c hv).1)
  have hx : x' = x := by
    have := O'.one
    rw [O.one] at this
    exact ((List.cons.inj this).1).symm
  subst hx
  obtain ⟨role, r1, r2, r3⟩ := O.alone
  obtain ⟨role', s1, s2, s3⟩ := O'.alone
  have hrole : role' = role := UInt16.toNat_inj.1 (s1.trans r1.symm)
  have hkill : kill' = kill := by rw [Bool.eq_iff_iff, s2, r2]
  subst hrole hkill
  rw [r3] at s3
  cases s3
  exact ⟨kill', q, rest, fin, hk, k1, k2⟩

end

/-! ### A request that is given up after callbacks -/

/-- A request on its own with a whole form, then messages of callbacks, then ABORT_REQUEST, then anything. -/
theorem given_up_alone {U : Type} {n : Nat} {resp : U → Env → Message → Act U × Bool} {max : Nat} {u : U}
    {heap rh ph} {c : Nat} {id : UInt16} {b : Record} {ins : List Record} {nvs : List (Bytes × Bytes)} {body : Bytes} {fields files} {ms : List Message}
    {a : Record} {post : List Input} {kill : Bool} {q : Req U} {rest : List Message} {fin : Bool} (hms : ∀ m ∈ ms, m.type ≠ 0)
    (hwf : ∀ r ∈ ins, r.WF) (hrole : b.role = 1 ∨ b.role = 2) (hreq : WholeRequest ins nvs body) (hbody : FormBody nvs body fields files)
    (hlen : LengthTold nvs body.length) (hmax : body.length ≤ max) (hint : body.length ≤ 2147483647) (hab : a.WF ∧ a.type = 2)
    (ha : Alone (narrowServer n (defaultHandlers resp) max u heap rh ph) c id b (ins.map .record ++ asInputs ms ++ .record a :: post) kill q rest fin) :
    ∃ env m0, Tells nvs fields files env ∧ m0.type = 0 ∧ fin = true ∧ Ended c id kill (played resp u env (m0 :: ms)).1 q.log := by
  obtain ⟨role, r1, hk, h⟩ := alone_narrow.1 ha
  rw [List.map_append, handler_append] at h
  obtain ⟨⟨q1, rest1, fin1⟩, h1, h2⟩ := Res.bind_eq_ok.1 h
  have A1 : Alone (narrowServer n (defaultHandlers resp) max u heap rh ph) c id b (ins.map .record ++ asInputs ms) kill q1 rest1 fin1 :=
    alone_narrow.2 ⟨role, r1, hk, h1⟩
  obtain ⟨env, m0, T, hm0, hf, hs, hw⟩ := form_later hms hwf hrole hreq hbody hlen hmax hint A1
  refine ⟨env, m0, T, hm0, ?_⟩
  dsimp only at h2
  cases fin1 with
  | true =>
    rw [if_pos rfl] at h2
    cases h2
    exact ⟨rfl, ended_of _ h1 hs hw⟩
  | false =>
    rw [if_neg (by simp)] at h2
    obtain ⟨_, halive, _⟩ := handler_spec _ heap _ _ _ _ _ (freshReq_alive ..) h1
    have al := (halive rfl).1
    obtain ⟨r', a1, _, a3, _, _, rs, _, a7⟩ := complete_spec heap q1 al
    have h3 : handler (defaultHandlers resp) heap q1 ((Input.record a :: post).map Input.message) = .ok (r', post.map Input.message, true) := by
      show (handleMsg (defaultHandlers resp) heap q1 (fcgiMsg a) >>= _) = _
      rw [handleMsg_record (defaultHandlers resp) heap _ a hab.1, if_pos hab.2, a1]
      rfl
    rw [h3] at h2
    cases h2
    have hall : handler (defaultHandlers resp) heap (freshReq c id role kill max u) ((ins.map Input.record ++ asInputs ms ++ Input.record a :: post).map Input.message) = .ok (q, post.map Input.message, true) := by
      rw [List.map_append, handler_append, h1]
      exact h3
    refine ⟨rfl, ended_of _ hall (a3.status.trans hs) fun e => ?_⟩
    rw [← hw e, a7]
    simp [writes_append, writes]

/-- What has ended with these records. -/
theorem ended_records {U : Type} {c : Nat} {id : UInt16} {kill : Bool} {w : List (Bool × SOp UInt8)} {q : Req U} (h : Ended c id kill w q.log)
    (hplain : ∀ e, noEnc (writtenOn e w)) :
    ∃ l : List Record, (Transmits.sent q).map (·.2.1) = l.map Record.bytes ∧ (∀ x ∈ l, x.WF ∧ x.version = 1 ∧ x.id = id.toNat) ∧ AnsweredBy id w l := by
  obtain ⟨before, ans, en, c1, ⟨er, e1, e2, e3, e4, e5, e6, rfl⟩, c3, c4, c5, c6⟩ := h
  have hid : id.toNat < 2 ^ 16 := id.toNat_lt
  have all : ∀ x ∈ ans ++ [er], x.WF ∧ x.version = 1 ∧ x.id = id.toNat := by
    intro y hy
    rcases List.mem_append.1 hy with hy | hy
    · obtain ⟨g1, g2, g3, _⟩ := good_wf (c4 y hy)
      exact ⟨g1, g2, g3⟩
    · simp only [List.mem_singleton] at hy
      subst hy
      exact ⟨⟨by rw [e3]; exact hid, by rw [e4]; decide, by rw [e6]; decide⟩, e1, e3⟩
  refine ⟨ans ++ [er], ?_, all, ans, er, ?_, fun x hx => (good_wf (c4 x hx)).2.2.2, c5 (hplain _), c6 (hplain _), e2, e5⟩
  · show (sentOf q.log).map (·.2.1) = _
    rw [c1, sentOf_append, c3]
    simp [sentOf]
  · exact List.filter_eq_self.2 fun x hx => by simp [(all x hx).2.2]

section
variable {U : Type} {n : Nat} {resp : U → Env → Message → Act U × Bool} {max : Nat} {u : U} {heap : Nat → Nat → Nat → UInt8} {rh ph : Nat → UInt8}
  {tr : List MEvent} {ops : List TOp} {s : Srv (Req U)} {c : Nat} {id : UInt16} {b : Record} {ins : List Record} {ms : List Message} {a : Record} {post : List Input}
  {nvs : List (Bytes × Bytes)} {body : Bytes} {fields : List (Bytes × Bytes)} {files : List (Bytes × Bytes × Bytes × Bytes)}

theorem mem_records {r : Record} : ∀ {is : List Input}, Input.record r ∈ is → r ∈ records is
  | .record x :: is, h => by
    rcases List.mem_cons.1 h with h | h
    · cases h; simp [records]
    · exact List.mem_cons_of_mem _ (mem_records h)
  | .callback t d :: is, h => by
    rcases List.mem_cons.1 h with h | h
    · cases h
    · exact mem_records (is := is) h

theorem phased_wf {P : SrvProg (Req U)} {is : List Input} (T : Phased P c id b is tr ops s) : ∀ r, Input.record r ∈ is → r.WF := by
  intro r hr
  obtain ⟨rs, tail, C, _, _⟩ := T.conversation
  have hm : r ∈ records is := mem_records hr
  have : r ∈ rs.filter (fun r => r.id = id.toNat) := by rw [C.mine]; simp [hm]
  exact C.wf r (List.mem_filter.1 this).1

/-- A web server sends a form, in as many pieces as it likes; then callbacks of the request are called, any number of times; then the web server gives the request up.
When the server has come to rest and the connection is open, the records for the request on it are exactly what the application has written
by then - for the form, and for each of the messages, until it said that it is finished - and END_REQUEST with status 0. -/
theorem C155_given_up (hplain : ∀ u env m e, noEnc (writtenOn e (resp u env m).1.ops))
    (T : Phased (narrowServer n (defaultHandlers resp) max u heap rh ph) c id b (ins.map .record ++ asInputs ms ++ .record a :: post) tr ops s)
    (R : SrvUp s) (hr : SrvRest (narrowServer n (defaultHandlers resp) max u heap rh ph) s) (hv : (s.t.conns c).valid = true)
    (hrole : b.role = 1 ∨ b.role = 2) (hreq : WholeRequest ins nvs body) (hbody : FormBody nvs body fields files)
    (hlen : LengthTold nvs body.length) (hmax : body.length ≤ max) (hint : body.length ≤ 2147483647) (hab : a.type = 2) :
    ∃ env m0, Tells nvs fields files env ∧ m0.type = 0 ∧
      ∀ outs otail, (∀ r ∈ outs, r.WF) → Incomplete otail → (s.t.conns c).output = stream outs ++ otail →
        otail = [] ∧ AnsweredBy id (played resp u env (m0 :: ms)).1 outs := by
  haveI : OfLibrary (narrowServer n (defaultHandlers resp) max u heap rh ph) := .narrow ..
  obtain ⟨kill, q, rest, fin, A, ho⟩ := C155_in_order T R hr hv
  obtain ⟨env, m0, Te, hm0, _, E⟩ := given_up_alone (fun m hm => T.types m.type m.data (List.mem_append_left _ (List.mem_append_right _ (List.mem_map.2 ⟨m, hm, rfl⟩))))
    (fun r hr => phased_wf T r (List.mem_append_left _ (List.mem_append_left _ (List.mem_map.2 ⟨r, hr, rfl⟩)))) hrole hreq hbody hlen hmax hint
    ⟨phased_wf T a (by simp), hab⟩ A
  obtain ⟨l, l1, l2, ans, en, l3⟩ := ended_records E fun e => played_plain hplain e _ _ _
  refine ⟨env, m0, Te, hm0, fun outs otail h1 h2 h3 => ?_⟩
  obtain ⟨o1, o2⟩ := ho outs otail h1 h2 h3
  have heq := records_bytes_inj (fun x hx => h1 x (List.mem_filter.1 hx).1) (fun y hy => (l2 y hy).1) (o2.trans l1)
  refine ⟨o1, ans, en, ?_, l3.2⟩
  rw [heq, ← l3.1]
  exact (List.filter_eq_self.2 fun x hx => by simp [(l2 x hx).2.2]).symm

/-- On a connection with this request alone on which nothing goes wrong, these are all the bytes, and the connection has been closed exactly if the web server did not ask
to keep it. -/
theorem C155_given_up_closed (hplain : ∀ u env m e, noEnc (writtenOn e (resp u env m).1.ops))
    (T : Phased (narrowServer n (defaultHandlers resp) max u heap rh ph) c id b (ins.map .record ++ asInputs ms ++ .record a :: post) tr ops s)
    (R : SrvUp s) (hr : SrvRest (narrowServer n (defaultHandlers resp) max u heap rh ph) s) (hcalm : Calm c ops)
    (hall : arrived c ops = stream (b :: ins ++ a :: records post))
    (hrole : b.role = 1 ∨ b.role = 2) (hreq : WholeRequest ins nvs body) (hbody : FormBody nvs body fields files)
    (hlen : LengthTold nvs body.length) (hmax : body.length ≤ max) (hint : body.length ≤ 2147483647) (hab : a.type = 2) :
    ∃ env m0 outs, Tells nvs fields files env ∧ m0.type = 0 ∧ (s.t.conns c).output = stream outs ∧ (∀ x ∈ outs, x.WF ∧ x.version = 1 ∧ x.id = id.toNat) ∧
      AnsweredBy id (played resp u env (m0 :: ms)).1 outs ∧ ((s.t.conns c).valid = false ↔ (b.content.getD 2 0).toNat % 2 = 0) := by
  haveI : OfLibrary (narrowServer n (defaultHandlers resp) max u heap rh ph) := .narrow ..
  obtain ⟨kill, q, rest, fin, A, o1, o2⟩ := C155_closed T R hr hcalm (by rw [hall]; simp [inputs_append, records_record, records_asInputs, records])
  obtain ⟨env, m0, Te, hm0, f1, E⟩ := given_up_alone (fun m hm => T.types m.type m.data (List.mem_append_left _ (List.mem_append_right _ (List.mem_map.2 ⟨m, hm, rfl⟩))))
    (fun r hr => phased_wf T r (List.mem_append_left _ (List.mem_append_left _ (List.mem_map.2 ⟨r, hr, rfl⟩)))) hrole hreq hbody hlen hmax hint
    ⟨phased_wf T a (by simp), hab⟩ A
  obtain ⟨l, l1, l2, l3⟩ := ended_records E fun e => played_plain hplain e _ _ _
  obtain ⟨_, _, hk, _⟩ := A
  refine ⟨env, m0, l, Te, hm0, ?_, l2, l3, ?_⟩
  · rw [o1, List.flatMap_def, l1]; rfl
  · rw [o2, ← hk]
    exact ⟨fun x => x.2, fun x => ⟨f1, x⟩⟩

end

/-! ### A concrete run -/

/-- Writes `wait `, then what the callbacks send, and is never finished. -/
def stayResp : Unit → Env → Message → Act Unit × Bool := fun u env m =>
  (⟨[(false, .insert (if m.type = 0 then b!"wait " else m.data))], env, u⟩, false)
def stayServer : SrvProg (Req Unit) := narrowServer 1 (defaultHandlers stayResp) 100 () (fun _ _ _ => 0) (fun _ => 0) (fun _ => 0)
instance : OfLibrary stayServer := .narrow ..
def stayAbort : Record := demoRec 2 []

theorem stayResp_plain : ∀ u env m e, noEnc (writtenOn e (stayResp u env m).1.ops) := by
  intro u env m e op ho
  simp only [stayResp, writtenOn, List.mem_map, List.mem_filter, List.mem_cons, List.not_mem_nil, or_false] at ho
  obtain ⟨x, ⟨rfl, _⟩, rfl⟩ := ho
  simp

theorem stay_conversation {ops : List TOp} {ins : List Record} (hins : ins = formIns ∨ ins = formIns ++ [stayAbort])
    (ha : arrived 3 ops = stream (laterBegin :: ins)) : Conversation ops 3 7 (laterBegin :: ins) [] laterBegin ins ∧ ∀ r ∈ laterBegin :: ins, r.WF ∧ r.id = 7 := by
  have sub : ∀ r ∈ ins, r ∈ formIns ∨ r = stayAbort := by
    intro r hr
    rcases hins with rfl | rfl
    · exact Or.inl hr
    · simpa using hr
  have hwf : ∀ r ∈ laterBegin :: ins, r.WF ∧ r.id = 7 := by
    intro r hr
    rcases List.mem_cons.1 hr with rfl | hr
    · exact turn_records _ (by simp)
    · rcases sub r hr with h | rfl
      · exact turn_records r (by simp [h])
      · exact ⟨by unfold Record.WF; decide, rfl⟩
  refine ⟨⟨fun r hr => (hwf r hr).1, Or.inl (by simp), by rw [ha, List.append_nil], by decide, fun r hr => ?_, ?_, rfl, ?_, ?_, ?_⟩, hwf⟩
  · intro h0; rw [(hwf r hr).2] at h0; cases h0
  · apply List.filter_eq_self.2
    intro r hr; rw [(hwf r hr).2]; rfl
  · intro r hr
    rcases sub r hr with hr | rfl
    · simp only [formIns, List.mem_cons, List.not_mem_nil, or_false] at hr
      rcases hr with rfl | rfl | rfl | rfl | rfl <;> decide
    · decide
  · simp [laterBegin, demoRec]
  · intro r hr h4 h0
    rcases sub r hr with hr | rfl
    · simp only [formIns, List.mem_cons, List.not_mem_nil, or_false] at hr
      rcases hr with rfl | rfl | rfl | rfl | rfl
      · exact ⟨_, formWhole⟩
      · exact absurd rfl h0
      all_goals exact absurd h4 (by decide)
    · exact absurd h4 (by decide)

/-- The form arrives, a callback is called with `x`, the web server gives up: the answer is `wait x`, END_REQUEST, and the connection is kept. -/
example : ∃ tr ops s, Phased stayServer 3 7 laterBegin (formIns.map .record ++ asInputs [⟨5, b!"x"⟩] ++ .record stayAbort :: []) tr ops s ∧ SrvRest stayServer s ∧
    ∃ outs, (s.t.conns 3).output = stream outs ∧ AnsweredBy 7 [(false, .insert b!"wait "), (false, .insert b!"x")] outs ∧ (s.t.conns 3).valid = true := by
  have nv : ∀ {ops : List TOp} {ins : List Record}, ins = formIns ∨ ins = formIns ++ [stayAbort] →
      (∀ c, arrived c ops = if c = 3 then stream (laterBegin :: ins) else []) → NoValues ops := by
    intro ops ins hi ha c
    by_cases hc : c = 3
    · subst hc
      obtain ⟨C, _⟩ := stay_conversation hi (by rw [ha, if_pos rfl])
      exact ⟨_, _, C.wf, C.rest, C.bytes, fun r hr h0 h9 => absurd h9 (C.app r hr h0)⟩
    · exact ⟨[], [], by simp, Or.inl (by simp), by rw [ha, if_neg hc]; rfl, by simp⟩
  have hreq : WholeRequest formIns (formPairs.map Prod.fst) b!"a=1&b=%20x" := turnForm_good.whole
  have hbody := turnForm_good.form
  have hlen := turnForm_good.told
  -- the server starts, and the form arrives; the server comes to rest
  obtain ⟨tr, ops, s, H, R, hn, hcl, hcalm, ha⟩ : ∃ tr ops s, SrvRun stayServer srvInit tr ops s ∧ SrvUp s ∧ NoCaller s.m ∧ called ⟨3, 7⟩ tr = [] ∧ Calm 3 ops ∧
      ∀ c, arrived c ops = if c = 3 then stream (laterBegin :: formIns) else [] := by
    refine ⟨_, _, _, .step (.step (.refl _) (.outer .start rfl rfl)) (.peer (.arrive 3 (stream (laterBegin :: formIns))) rfl rfl), ⟨⟨0, ?_⟩, rfl, rfl⟩, ?_, rfl, ?_, ?_⟩
    · show _ ≠ _ ∧ _ ≠ _
      exact ⟨nofun, nofun⟩
    · intro p k x hx
      rcases hx with hx | hx <;> cases hx
    · simp [Calm]
    · intro c
      by_cases hc : c = 3
      · subst hc; simp [arrived]
      · have : ¬ 3 = c := fun e => hc e.symm
        simp [arrived, hc, this]
  obtain ⟨tr1, ops1, s1, q1, q2, q3⟩ := C111_reaches_calm H
  have r1 := (C111_rests H (nv (Or.inl rfl) ha)).2 tr1 ops1 s1 q1 q3
  have H1 := own_run H q1
  have R1 := own_running q1 R
  obtain ⟨n1, c1⟩ := own_called q1 hn ⟨3, 7⟩
  have hn1 : called ⟨3, 7⟩ (tr ++ tr1) = [] := by rw [called_append, hcl, c1]; rfl
  have ha1 : ∀ c, arrived c (ops ++ ops1) = if c = 3 then stream (laterBegin :: formIns) else [] := fun c => by
    rw [arrived_append, own_arrived q1, List.append_nil, ha c]
  obtain ⟨C1, w1⟩ := stay_conversation (Or.inl rfl) (by rw [ha1, if_pos rfl])
  have T1 : Phased stayServer 3 7 laterBegin (formIns.map .record) (tr ++ tr1) (ops ++ ops1) s1 := .first H1 C1 (fun r hr => by rw [(w1 r hr).2]; decide) hn1
  -- a callback is called; the server comes to rest
  obtain ⟨I1, _⟩ := rest_idle H1 R1 r1
  have hidle1 := (still_rest (run_kq (srv_parts H1).m).1 I1.still).2
  have hpush : estep stayServer.prog (.push 1 ⟨3, 7⟩ ⟨5, b!"x"⟩) s1.m = some ([], s1.m.pgoto 1 (.call ⟨3, 7⟩ ⟨5, b!"x"⟩)) := by
    unfold estep
    dsimp only
    rw [if_pos (hidle1 1)]
    rfl
  have h2 : SrvRun stayServer s1 ([] ++ []) ([] ++ []) { s1 with m := s1.m.pgoto 1 (.call ⟨3, 7⟩ ⟨5, b!"x"⟩) } :=
    .step (.refl s1) (.outer _ (by decide) hpush)
  have R2' : SrvUp ({ s1 with m := s1.m.pgoto 1 (.call ⟨3, 7⟩ ⟨5, b!"x"⟩) } : Srv (Req Unit)) := ⟨R1.live, R1.term, R1.stop⟩
  have H2' := run_later H1 h2
  simp only [List.append_nil] at H2' h2
  obtain ⟨tr2, ops2, s2, t1, t2, t3⟩ := C111_reaches_calm H2'
  have r2 := (C111_rests H2' (nv (Or.inl rfl) ha1)).2 tr2 ops2 s2 t1 t3
  have g2 := own_run h2 t1
  simp only [List.nil_append] at g2
  have R2 := own_running t1 R2'
  have ha2 : ∀ c, arrived c (ops ++ ops1 ++ ops2) = if c = 3 then stream (laterBegin :: formIns) else [] := fun c => by
    rw [arrived_append, own_arrived t1, List.append_nil, ha1 c]
  obtain ⟨C2, w2⟩ := stay_conversation (Or.inl rfl) (by rw [ha2, if_pos rfl])
  have hcalm2 : Calm 3 (ops ++ ops1 ++ ops2) := (hcalm.append (q2 3)).append (t2 3)
  have T2 : Phased stayServer 3 7 laterBegin (formIns.map .record ++ asInputs (called ⟨3, 7⟩ tr2)) (tr ++ tr1 ++ tr2) (ops ++ ops1 ++ ops2) s2 :=
    .calls T1 R1 r1 g2 (by rw [records_record]; exact C2) (fun r hr => by rw [(w2 r hr).2]; decide)
  have open_ : ∀ {is tr ops s}, Phased stayServer 3 7 laterBegin is tr ops s → SrvUp s → SrvRest stayServer s → Calm 3 ops →
      arrived 3 ops = stream (laterBegin :: records is) → (s.t.conns 3).valid = true := by
    intro is tr ops s T R hr hc ha
    obtain ⟨kill, q, rest, fin, ⟨_, _, hk, _⟩, _, hv⟩ := C155_closed T R hr hc ha
    cases h : (s.t.conns 3).valid with
    | true => rfl
    | false => exact absurd (hk.1 (hv.1 h).2) (by decide)
  have hv2 := open_ T2 R2 r2 hcalm2 (by rw [ha2, if_pos rfl, inputs_append, records_record, records_asInputs, List.append_nil])
  have hcalled : called ⟨3, 7⟩ tr2 = [⟨5, b!"x"⟩] := by
    refine C149_taken H1 R1 r1 C1 (fun r hr => by rw [(w1 r hr).2]; decide) ?_ (by decide) hpush t1 r2 hv2
    intro is kill q rest fin A hr hc
    rw [hn1] at hc
    have his := inputs_records (List.prefix_nil.1 hc)
    rw [hr] at his
    subst his
    have A' : Alone stayServer 3 7 laterBegin (formIns.map .record ++ asInputs []) kill q rest fin := by simpa using A
    obtain ⟨env, m0, _, k1, k2, _⟩ := form_later (n := 1) (resp := stayResp) (max := 100) (u := ()) (b := laterBegin) (ms := []) (by simp) (fun r hr => (w1 r (by simp [hr])).1)
      (Or.inl (by decide)) hreq hbody hlen (by decide) (by decide) A'
    rw [k2]
    simp [played, stayResp]
  rw [hcalled] at T2
  -- the web server gives up; the server comes to rest
  have g3 : SrvRun stayServer s2 ([] ++ []) ([] ++ [.arrive 3 (stream [stayAbort])]) _ := .step (.refl s2) (.peer (.arrive 3 (stream [stayAbort])) rfl rfl)
  have H3' := run_later (run_later H1 g2) g3
  have R3' := SrvUp.mk (s := _) R2.live R2.term R2.stop
  obtain ⟨tr3, ops3, s3, u1, u2, u3⟩ := C111_reaches_calm H3'
  have ha3' : ∀ c, arrived c (ops ++ ops1 ++ ops2 ++ ([] ++ [.arrive 3 (stream [stayAbort])])) = if c = 3 then stream (laterBegin :: (formIns ++ [stayAbort])) else [] := by
    intro c
    rw [arrived_append, ha2 c]
    by_cases hc : c = 3
    · subst hc; simp [arrived, stream]
    · have : ¬ 3 = c := fun e => hc e.symm
      simp [arrived, hc, this]
  have r3 := (C111_rests H3' (nv (Or.inr rfl) ha3')).2 tr3 ops3 s3 u1 u3
  have g3' := own_run g3 u1
  simp only [List.nil_append] at g3' ha3'
  have ha3 : ∀ c, arrived c (ops ++ ops1 ++ ops2 ++ ([.arrive 3 (stream [stayAbort])] ++ ops3)) = if c = 3 then stream (laterBegin :: (formIns ++ [stayAbort])) else [] := by
    intro c
    rw [← List.append_assoc, arrived_append, own_arrived u1, List.append_nil, ha3' c]
  obtain ⟨C3, w3⟩ := stay_conversation (Or.inr rfl) (by rw [ha3, if_pos rfl])
  have hcalm3 : Calm 3 (ops ++ ops1 ++ ops2 ++ ([.arrive 3 (stream [stayAbort])] ++ ops3)) := hcalm2.append (Calm.append (by simp [Calm]) (u2 3))
  have R3 : SrvUp s3 := own_running u1 ⟨R2.live, R2.term, R2.stop⟩
  have hrec : records (formIns.map .record ++ asInputs [⟨5, b!"x"⟩]) = formIns := by rw [inputs_append, records_record, records_asInputs, List.append_nil]
  have n3 : called ⟨3, 7⟩ tr3 = [] := (own_called u1 (fun p k x hx => by
    have := (still_rest (run_kq (srv_parts (run_later H1 g2)).m).1 (rest_idle (run_later H1 g2) R2 r2).1.still).2 p
    rcases hx with hx | hx <;> exact absurd (this.symm.trans hx) (by simp)) ⟨3, 7⟩).2
  have T3 := Phased.sends (new := [stayAbort]) T2 R2 r2 g3' (by rw [hrec]; exact C3) (fun r hr => by rw [(w3 r hr).2]; decide) n3
  have hall : arrived 3 (ops ++ ops1 ++ ops2 ++ ([.arrive 3 (stream [stayAbort])] ++ ops3)) = stream (laterBegin :: formIns ++ stayAbort :: records []) := by
    rw [ha3, if_pos rfl]; rfl
  obtain ⟨env, m0, outs, T, hm0, o1, _, o2, o3⟩ := C155_given_up_closed stayResp_plain T3 R3 r3 hcalm3 hall (Or.inl (by decide)) hreq hbody hlen (by decide) (by decide) rfl
  refine ⟨_, _, s3, T3, r3, outs, o1, ?_, ?_⟩
  · have : (played stayResp () env [m0, ⟨5, b!"x"⟩]).1 = [(false, .insert b!"wait "), (false, .insert b!"x")] := by simp [played, stayResp, hm0]
    rw [this] at o2
    exact o2
  · cases h : (s3.t.conns 3).valid with
    | true => rfl
    | false => exact absurd (o3.1 h) (by decide)

end Fcgi.Props
