import Verif.Lemmas.BlurWire
import Verif.Props.ServerAgain
/-! # Properties: what is answered depends on the requests only (C130) -/
namespace Fcgi.Props
open Fcgi Fcgi.Model Fcgi.Spec
variable {U : Type} [Transmits U]

/-- Two servers for the same class of requests: the user's methods, the greatest POST size and the members when constructed are the same; the number of
threads and what is found in fresh memory may differ. (`sentry` is a property of the C++ library, Model/Ostream.) -/
inductive SameClass : {Q : Type} → [Transmits Q] → SrvProg Q → SrvProg Q → Prop where
  | narrow {V} (n n' : Nat) (h : Handlers V) (max user heap heap' rh rh' ph ph') :
      SameClass (narrowServer n h max user heap rh ph) (narrowServer n' h max user heap' rh' ph')
  | wide {V} (n n' : Nat) (h : HandlersW V) (max user host host' rh rh' ph ph') (hs : host.sentry = host'.sentry) :
      SameClass (wideServer n h max user host rh ph) (wideServer n' h max user host' rh' ph')

/-- What a record of a request says, and whether the connection is closed after it. -/
abbrev toldOf (q : U) : List (Bytes × Bool) := (Transmits.sent q).map (fun x => (saying x.2.1, x.2.2))

theorem lib_same {P P' : SrvProg U} (S : SameClass P P') {c c' id role kill ms q rest fin}
    (e : handleAll P.handle (P.fresh c id role kill) ms = .ok (q, rest, fin)) :
    ∃ q', handleAll P'.handle (P'.fresh c' id role kill) ms = .ok (q', rest, fin) ∧ toldOf q = toldOf q' := by
  cases S with
  | narrow =>
    obtain ⟨x', e', s, hx⟩ := handleAll_sim (fresh_sim ..) e
    obtain ⟨q', rest', fin'⟩ := x'
    simp only [Prod.mk.injEq] at hx
    obtain ⟨rfl, rfl⟩ := hx
    exact ⟨q', e', sent_sim s⟩
  | wide n n' h max user host host' rh rh' ph ph' hs =>
    obtain ⟨x', e', s, hx⟩ := handleAll_simW hs (fresh_simW ..) e
    obtain ⟨q', rest', fin'⟩ := x'
    simp only [Prod.mk.injEq] at hx
    obtain ⟨rfl, rfl⟩ := hx
    exact ⟨q', e', sent_simW s⟩

/-! ## What has been answered at any moment (C129) -/

/-- The records the peer may have got at some moment: those of complete requests on their own (`Alone`), each given all the records of its conversation,
and then those of one request that has been given the first records of its conversation. -/
inductive Partway (P : SrvProg U) (c : Nat) (id : UInt16) (tr : List MEvent) : List (Record × List Record) → List Bytes → Prop where
  | nil (convs) : Partway P c id tr convs []
  | last {b ins is kill q fin} (convs) (ha : Alone P c id b is kill q [] fin) (hi : records is <+: ins)
      (hc : List.Sublist (callbacks is) (called ⟨c, id⟩ tr)) : Partway P c id tr ((b, ins) :: convs) ((Transmits.sent q).map (·.2.1))
  | cons {b ins is kill q rest convs out} (ha : Alone P c id b is kill q rest true) (hi : records is = ins)
      (hc : List.Sublist (callbacks is) (called ⟨c, id⟩ tr)) (h : Partway P c id tr convs out) :
      Partway P c id tr ((b, ins) :: convs) ((Transmits.sent q).map (·.2.1) ++ out)

section
variable {P : SrvProg U} [OfLibrary P] {tr : List MEvent} {ops : List TOp} {s : Srv U} {c : Nat} {id : UInt16} {rs : List Record} {tail : Bytes}
  {convs : List (Record × List Record)}

theorem partway (h : SrvRun P srvInit tr ops s) (hS : SoundFor ⟨c, id⟩ tr s.m) :
    ∀ (convs : List (Record × List Record)) (segs : List Seg), (∀ x ∈ convs, 3 ≤ x.1.content.length) → Aligned segs (msgsOfConvs convs) →
      (∀ x ∈ segs, .created x.r ⟨c, id⟩ x.b ∈ tr) → (∀ x ∈ segs, recordsTo x.r tr <+: x.ms) →
      (∀ init x xs, segs = init ++ x :: xs → xs ≠ [] → ∃ t m, .ended x.r t m true ∈ tr) →
      Partway P c id tr convs (((segs.map (·.r)).flatMap fun r => recsOf (s.m.objs r).state).map (·.1))
  | convs, [], _, _, _, _, _ => .nil convs
  | [], x :: xs, _, hA, _, _, _ => by cases hA
  | (b, ins) :: convs, x :: xs, hb, hA, h1, h2, h4 => by
    have k1 : x.b = recordMsg b := by cases hA <;> assumption
    have hcr := h1 x (by simp)
    rw [k1] at hcr
    obtain ⟨kill, q, fin, ⟨role, g1, g2, g3⟩, g4, g5⟩ := obj_alone h hS (hb _ List.mem_cons_self) hcr
    have hpre' := List.IsPrefix.trans (List.IsPrefix.filter (fun m : Message => decide (m.type = 0)) (C41_order (srv_parts h).m x.r).2) (h2 x (by simp))
    cases hA with
    | last _ _ k2 =>
      obtain ⟨is, i1, i2, i3, i4, i5⟩ := to_inputs _ ins (List.IsPrefix.trans hpre' k2)
      have := Partway.last (P := P) (c := c) (id := id) (tr := tr) (b := b) (ins := ins) (is := is) (kill := kill) (q := q) (fin := fin) convs
        ⟨role, g1, g2, by rw [i1]; exact g3⟩ i2 (by rw [callbacks_filter i4, i1]; exact obj_callbacks (s := s) (srv_parts h).m hcr)
      simpa [g4, recsOf, Function.comp_def] using this
    | @cons _ y xs _ _ _ _ k2 k3 =>
      have hfin : fin = true := g5.2 (h4 [] x (y :: xs) rfl (by simp))
      obtain ⟨is, rest, i1, i2, i3⟩ := finish_inputs (ins := ins) (by rw [← k2]; exact hpre') g3 (Or.inl hfin)
      have ih := partway h hS convs (y :: xs) (fun z hz => hb z (by simp [hz])) k3 (fun z hz => h1 z (by simp only [List.mem_cons] at hz ⊢; exact Or.inr hz))
        (fun z hz => h2 z (by simp only [List.mem_cons] at hz ⊢; exact Or.inr hz)) (fun init z zs hz hne => h4 (x :: init) z zs (by rw [hz]; rfl) hne)
      have := Partway.cons (P := P) (c := c) (id := id) (tr := tr) (b := b) (ins := ins) (is := is) (kill := kill) (q := q) (rest := rest)
        ⟨role, g1, g2, by rw [← hfin]; exact i1⟩ i2 (by rw [i3]; exact obj_callbacks (s := s) (srv_parts h).m hcr) ih
      rw [List.map_cons, List.flatMap_cons, List.map_append, g4]
      simpa [recsOf, Function.comp_def] using this

omit [OfLibrary P] in
theorem none_lost (h : SrvRun P srvInit tr ops s) (hwf : ∀ r ∈ rs, r.WF) (hrest : Incomplete tail) (hbytes : arrived c ops = stream rs ++ tail)
    (hlost : ∀ r ∈ rs, r.id ≠ 0xffff) (hv : (s.t.conns c).valid = true) : .lost c ∉ tr := by
  intro ht
  obtain ⟨y, hy, hid⟩ := (srv_routed h).ls c ht
  have hy' : y ∈ msgsOf c s.t := by
    unfold msgsOf; rw [List.mem_filter]; exact ⟨hy, by simp [hid]⟩
  obtain ⟨⟨k, _, hk⟩, _⟩ := C09_fragmentation P.recvHeap ops s.t (srv_parts h).t c rs tail hwf hrest hbytes
  rcases hk with hk | ⟨hk, _⟩
  · rw [hk] at hy'
    obtain ⟨x, hx, rfl⟩ := List.mem_map.1 hy'
    have hx := List.mem_of_mem_take hx
    simp only [messageFor, RequestId.mk.injEq, true_and] at hid
    have := congrArg UInt16.toNat hid
    have hlt := (hwf x hx).1
    simp at this
    exact hlost x hx (by omega)
  · rw [hk] at hv; cases hv

/-- At every moment of every run while the connection is open: a request's records come only after all the records of the requests before it. -/
theorem C129_ongoing (h : SrvRun P srvInit tr ops s) (D : Dialogue ops c id rs tail convs) (ha : Apart ⟨c, id⟩ tr)
    (hlost : ∀ r ∈ rs, r.id ≠ 0xffff) (hv : (s.t.conns c).valid = true) :
    ∃ out, Partway P c id tr convs out ∧ ∀ outs otail, (∀ r ∈ outs, r.WF) → (s.t.conns c).output = stream outs ++ otail →
      (outs.filter (fun r => r.id = id.toNat)).map Record.bytes <+: out := by
  have A := srv_parts h
  have hS := D.sound h ha
  obtain ⟨MI, MS, MK, MQ⟩ := run_kq A.m
  obtain ⟨segs, J, hA⟩ := routed_segs A.m ⟨c, id⟩ ha _ D.begins D.mores (D.routed h)
  have cause : ∀ x ∈ segs, (∃ t m, .ended x.r t m true ∈ tr) ∨ s.m.table.lookup ⟨c, id⟩ = some x.r := by
    intro x hx
    rcases (run_cause A.m).cr x.r ⟨c, id⟩ x.b (J.cr x hx) with ht | hh | ht | ht
    · right
      cases hl : s.m.table.lookup ⟨c, id⟩ with
      | none => exact absurd ht (lookup_none hl x.r)
      | some r' => rw [MI.nd _ r' x.r (mlookup_mem hl) ht]
    · exact Or.inl hh
    · exfalso
      rw [A.v] at ht
      simp only [hv] at ht
      cases ht
    · exact absurd ht (none_lost h D.wf D.rest D.bytes hlost hv)
  refine ⟨_, partway h hS convs segs D.body hA J.cr J.px ?_, fun outs otail hw ho => List.IsPrefix.trans (dialogue_outs h D hw ho) ?_⟩
  · intro init x xs hx hne
    rcases cause x (by rw [hx]; simp) with hh | hh
    · exact hh
    · exfalso
      obtain ⟨init', y, e1, e2, e3, e4⟩ := J.cu x.r hh
      refine e4 x ?_ rfl
      obtain ⟨xs', z, rfl⟩ : ∃ xs' z, xs = xs' ++ [z] := ⟨xs.dropLast, xs.getLast hne, (List.dropLast_concat_getLast hne).symm⟩
      have : init' ++ [y] = (init ++ x :: xs') ++ [z] := by rw [← e1, hx]; simp
      rw [(List.append_inj' this rfl).1]; simp
  · rw [← J.obj]
    apply List.IsPrefix.map
    show _ <+: madeFor ⟨c, id⟩ tr s.m
    have Q := srv_sends h
    by_cases hh : ∃ t r, (s.m.th t).mutexOf = some (⟨c, id⟩, r)
    · obtain ⟨t, r, hh⟩ := hh
      exact ⟨_, Q.eh ⟨c, id⟩ D.ids.1 hS t r hh⟩
    · rw [Q.en ⟨c, id⟩ D.ids.1 hS (fun t r hx => hh ⟨t, r, hx⟩)]
      exact List.prefix_refl _

end

/-! ## C130 -/

section
variable {P P' : SrvProg U}

omit [Transmits U] in
theorem only_records {is : List Input} (h : List.Sublist (callbacks is) []) : is = (records is).map .record := by
  induction is with
  | nil => rfl
  | cons i is ih =>
    cases i with
    | record r => simp only [records, List.map_cons]; rw [← ih h]
    | callback t d => simp [callbacks] at h

theorem alone_same (S : SameClass P P') {c c' id b is kill q rest fin kill' q' rest' fin'} (ha : Alone P c id b is kill q rest fin)
    (ha' : Alone P' c' id b is kill' q' rest' fin') : toldOf q = toldOf q' ∧ fin = fin' := by
  obtain ⟨role, r1, r2, r3⟩ := ha
  obtain ⟨role', r1', r2', r3'⟩ := ha'
  have hr : role = role' := UInt16.toNat_inj.1 (r1.trans r1'.symm)
  have hk : kill = kill' := by
    have := r2.trans r2'.symm
    cases kill <;> cases kill' <;> simp_all
  subst hr hk
  obtain ⟨q2, e2, e3⟩ := lib_same S (c' := c') r3
  rw [r3'] at e2
  cases e2
  exact ⟨e3, rfl⟩

theorem told_said {q q' : U} (h : toldOf q = toldOf q') : ((Transmits.sent q).map (·.2.1)).map saying = ((Transmits.sent q').map (·.2.1)).map saying := by
  have := congrArg (List.map (·.1)) h
  simpa [toldOf, Function.comp_def] using this

theorem answered_same (S : SameClass P P') {c c' id tr tr' convs out out'} (h : Answered P c id tr convs out) (hc : called ⟨c, id⟩ tr = [])
    (h' : Answered P' c' id tr' convs out') (hc' : called ⟨c', id⟩ tr' = []) : out.map saying = out'.map saying := by
  induction h generalizing out' with
  | nil => cases h'; rfl
  | cons ha hi hs hf h ih =>
    cases h' with
    | cons ha' hi' hs' hf' h' =>
      rw [hc] at hs; rw [hc'] at hs'
      rw [only_records hs, hi] at ha
      rw [only_records hs', hi'] at ha'
      rw [List.map_append, List.map_append, told_said (alone_same S ha ha').1, ih h']

theorem alone_more [OfLibrary P] {c id b is is' kill q fin kill' q' rest' fin'} (ha : Alone P c id b is kill q [] fin)
    (ha' : Alone P c id b (is ++ is') kill' q' rest' fin') : Transmits.sent q <+: Transmits.sent q' := by
  obtain ⟨role, r1, r2, r3⟩ := ha
  obtain ⟨role', r1', r2', r3'⟩ := ha'
  have hr : role = role' := UInt16.toNat_inj.1 (r1.trans r1'.symm)
  have hk : kill = kill' := by
    have := r2.trans r2'.symm
    cases kill <;> cases kill' <;> simp_all
  subst hr hk
  have key : ∀ (ms : List Message) (ms0 : List Message) (q : U) (q' : U) rest' fin', handleAll P.handle (P.fresh c id role kill) ms0 = .ok (q, [], false) →
      handleAll P.handle q ms = .ok (q', rest', fin') → Transmits.sent q <+: Transmits.sent q' := by
    intro ms
    induction ms with
    | nil => intro ms0 q q' _ _ _ h2; cases h2; exact List.prefix_refl _
    | cons m ms ih =>
      intro ms0 q q' _ _ h1 h2
      simp only [handleAll] at h2
      obtain ⟨x, e1, e2⟩ := Res.bind_eq_ok.1 h2
      obtain ⟨l, hl⟩ := lib_grows h1 (q' := x.1) (c := x.2) e1
      have hp : Transmits.sent q <+: Transmits.sent x.1 := ⟨l, hl.symm⟩
      split at e2
      · cases e2; exact hp
      · rename_i hx
        refine List.IsPrefix.trans hp (ih (ms0 ++ [m]) x.1 q' _ _ ?_ e2)
        rw [handleAll_snoc _ _ _ _ _ h1, e1]
        simp only [Res.ok_bind]
        cases hx2 : x.2 with
        | true => exact absurd hx2 hx
        | false => rfl
  rw [List.map_append, handleAll_append, r3] at r3'
  simp only [Res.ok_bind] at r3'
  split at r3'
  · cases r3'; exact List.prefix_refl _
  · rename_i hf
    cases fin with
    | true => exact absurd rfl hf
    | false => exact key _ _ q q' _ _ r3 r3'

theorem partway_same [OfLibrary P'] (S : SameClass P P') {c c' id tr tr' convs out out'} (h : Partway P c id tr convs out) (hc : called ⟨c, id⟩ tr = [])
    (h' : Answered P' c' id tr' convs out') (hc' : called ⟨c', id⟩ tr' = []) : out.map saying <+: out'.map saying := by
  induction h generalizing out' with
  | nil => exact List.nil_prefix
  | last convs ha hi hs =>
    cases h' with
    | cons ha' hi' hs' hf' h' =>
      rw [hc] at hs; rw [hc'] at hs'
      rw [only_records hs] at ha
      rw [only_records hs', hi'] at ha'
      obtain ⟨more, hm⟩ := hi
      rw [← hm, List.map_append] at ha'
      obtain ⟨role, r1, r2, r3⟩ := ha
      obtain ⟨q2, e2, e3⟩ := lib_same S (c' := c') r3
      have hp := alone_more (P := P') ⟨role, r1, r2, e2⟩ ha'
      rw [List.map_append, told_said e3]
      exact List.IsPrefix.trans ((hp.map _).map _) (List.prefix_append _ _)
  | cons ha hi hs h ih =>
    cases h' with
    | cons ha' hi' hs' hf' h' =>
      rw [hc] at hs; rw [hc'] at hs'
      rw [only_records hs, hi] at ha
      rw [only_records hs', hi'] at ha'
      rw [List.map_append, List.map_append, told_said (alone_same S ha ha').1]
      exact (List.prefix_append_right_inj _).2 (ih h')

/-- `outs` is what the peer of connection `c` has got at some moment of some run of the server, the connection being open: the peer has sent the conversations
`convs` with the id one after the other (and anything else with other ids), and no callback has sent messages to its requests. -/
def BeingServed (P : SrvProg U) (c : Nat) (id : UInt16) (convs : List (Record × List Record)) (outs : List Record) : Prop :=
  ∃ tr ops s rs tail otail, SrvRun P srvInit tr ops s ∧ Dialogue ops c id rs tail convs ∧ Apart ⟨c, id⟩ tr ∧ called ⟨c, id⟩ tr = [] ∧
    (∀ r ∈ rs, r.id ≠ 0xffff) ∧ (s.t.conns c).valid = true ∧ (∀ r ∈ outs, r.WF) ∧ (s.t.conns c).output = stream outs ++ otail

/-- The same when nothing is left to be done. -/
def Served (P : SrvProg U) (c : Nat) (id : UInt16) (convs : List (Record × List Record)) (outs : List Record) : Prop :=
  ∃ tr ops s rs tail, SrvRun P srvInit tr ops s ∧ Dialogue ops c id rs tail convs ∧ Apart ⟨c, id⟩ tr ∧ called ⟨c, id⟩ tr = [] ∧
    (∀ r ∈ rs, r.id ≠ 0xffff) ∧ (s.t.conns c).valid = true ∧ (∀ r ∈ outs, r.WF) ∧ (s.t.conns c).output = stream outs ∧
    Idle P s ∧ (s.t.conns c).closing = false ∧ (s.t.conns c).input = []

variable [OfLibrary P] [OfLibrary P'] {c c' : Nat} {id : UInt16} {convs : List (Record × List Record)} {outs outs' : List Record}

omit [Transmits U] in
theorem said_meanings : ∀ {a b : List Record}, (∀ r ∈ a, r.WF) → (∀ r ∈ b, r.WF) → (a.map Record.bytes).map saying = (b.map Record.bytes).map saying →
    a.map Record.meaning = b.map Record.meaning
  | [], [], _, _, _ => rfl
  | [], _ :: _, _, _, h => by simp at h
  | _ :: _, [], _, _, h => by simp at h
  | x :: a, y :: b, ha, hb, h => by
    simp only [List.map_cons, List.cons.injEq] at h ⊢
    exact ⟨said_meaning (ha x (by simp)) (hb y (by simp)) h.1, said_meanings (fun r hr => ha r (by simp [hr])) (fun r hr => hb r (by simp [hr])) h.2⟩

theorem served_out (h : Served P c id convs outs) : ∃ tr out, Answered P c id tr convs out ∧ called ⟨c, id⟩ tr = [] ∧
    (outs.filter (fun r => r.id = id.toNat)).map Record.bytes = out ∧ ∀ r ∈ outs, r.WF := by
  obtain ⟨tr, ops, s, rs, tail, h1, h2, h3, h4, h5, h6, h7, h8, h9, h10, h11⟩ := h
  obtain ⟨out, g1, g2⟩ := C129_complete h1 h2 h3 h9 h5 h6 h10 h11
  exact ⟨tr, out, g1, h4, (g2 outs [] h7 (Or.inl (by simp)) (by rw [List.append_nil]; exact h8)).2, h7⟩

/-- What a peer is answered depends on what it sends only: whatever the threads, the other peers, the memory and the number of the connection are, the
same conversations are answered with records that say the same. -/
theorem C130_same (S : SameClass P P') (h : Served P c id convs outs) (h' : Served P' c' id convs outs') :
    (outs.filter (fun r => r.id = id.toNat)).map Record.meaning = (outs'.filter (fun r => r.id = id.toNat)).map Record.meaning := by
  obtain ⟨tr, out, a1, a2, a3, a4⟩ := served_out h
  obtain ⟨tr', out', b1, b2, b3, b4⟩ := served_out h'
  apply said_meanings (fun r hr => a4 r (List.mem_filter.1 hr).1) (fun r hr => b4 r (List.mem_filter.1 hr).1)
  rw [a3, b3]
  exact answered_same S a1 a2 b1 b2

/-- And at every moment it has got the first of these records. -/
theorem C130_ongoing (S : SameClass P P') (h : BeingServed P c id convs outs) (h' : Served P' c' id convs outs') :
    (outs.filter (fun r => r.id = id.toNat)).map Record.meaning <+: (outs'.filter (fun r => r.id = id.toNat)).map Record.meaning := by
  obtain ⟨tr, ops, s, rs, tail, otail, h1, h2, h3, h4, h5, h6, h7, h8⟩ := h
  obtain ⟨tr', out', b1, b2, b3, b4⟩ := served_out h'
  obtain ⟨out, g1, g2⟩ := C129_ongoing h1 h2 h3 h5 h6
  have hp := List.IsPrefix.trans ((g2 outs otail h7 h8).map saying) (partway_same S g1 h4 b1 b2)
  rw [← b3] at hp
  obtain ⟨n, hn⟩ : ∃ n, (((outs.filter (fun r => r.id = id.toNat)).map Record.bytes).map saying) =
      (((outs'.filter (fun r => r.id = id.toNat)).take n).map Record.bytes).map saying :=
    ⟨_, by rw [List.map_take, List.map_take]; exact List.prefix_iff_eq_take.1 hp⟩
  rw [said_meanings (fun r hr => h7 r (List.mem_filter.1 hr).1) (fun r hr => b4 r (List.mem_filter.1 (List.mem_of_mem_take hr)).1) hn, List.map_take]
  exact List.take_prefix _ _

end

/-! ### Two servers

One finds zeros in fresh memory, the other has other memory. -/

def srvDemo255 : SrvProg (Req Nat) := narrowServer 1 demoHandlers 100 0 (fun _ _ _ => 255) (fun _ => 1) (fun _ => 2)
instance : OfLibrary srvDemo255 := .narrow ..

def demoOuts (x : UInt8) : List Record :=
  [⟨1, 6, 7, b!"hello", [x, x, x], x⟩, ⟨1, 7, 7, b!"log", [x, x, x, x, x], x⟩, ⟨1, 3, 7, [0, 0, 0, 0, 0, x, x, x], [], x⟩]

theorem demo_served {P : SrvProg (Req Nat)} [OfLibrary P] (h1t : P.threads = 1) (x : UInt8)
    (he : (srvPlay P (srvDemoRun 1) ([], [], srvInit)).any (srvDemoEnd (stream (demoOuts x)) 1) = true) :
    Served P 3 7 [(srvDemoBegin 1, srvDemoIns)] (demoOuts x) := by
  obtain ⟨tr, ops, s, h1, h2, h3, _, h5, h6⟩ := demo_meets_called h1t _ _ he
  refine ⟨tr, ops, s, _, _, h1, h2.dialogue, (C129_turns (.first h1 h2.dialogue)).2.2, h6, by decide, by rw [h5]; rfl, ?_, by rw [h5], h3, by rw [h5], by rw [h5]⟩
  intro r hr
  simp only [demoOuts, List.mem_cons, List.not_mem_nil, or_false] at hr
  rcases hr with rfl | rfl | rfl <;> simp [Record.WF]

theorem demo_served0 : Served srvDemo 3 7 [(srvDemoBegin 1, srvDemoIns)] (demoOuts 0) := demo_served rfl 0 (by decide +kernel)
theorem demo_served255 : Served srvDemo255 3 7 [(srvDemoBegin 1, srvDemoIns)] (demoOuts 255) := demo_served rfl 255 (by decide +kernel)

/-- The hypotheses of the theorems are met. -/
example : SameClass srvDemo srvDemo255 ∧ Served srvDemo 3 7 [(srvDemoBegin 1, srvDemoIns)] (demoOuts 0) ∧
    Served srvDemo255 3 7 [(srvDemoBegin 1, srvDemoIns)] (demoOuts 255) ∧ BeingServed srvDemo 3 7 [(srvDemoBegin 1, srvDemoIns)] (demoOuts 0) := by
  refine ⟨.narrow .., demo_served0, demo_served255, ?_⟩
  obtain ⟨tr, ops, s, rs, tail, h1, h2, h3, h4, h5, h6, h7, h8, _⟩ := demo_served0
  exact ⟨tr, ops, s, rs, tail, [], h1, h2, h3, h4, h5, h6, h7, by rw [List.append_nil]; exact h8⟩

/-- The bytes do depend on the memory: the byte `reserved` of each record, the padding and the reserved bytes of END_REQUEST are not initialised, so that the peer gets
whatever was in the memory before. -/
theorem C130_bytes_violated : ∃ (P P' : SrvProg (Req Nat)) (c : Nat) (id : UInt16) (convs : List (Record × List Record)) (outs outs' : List Record),
    SameClass P P' ∧ Served P c id convs outs ∧ Served P' c id convs outs' ∧ stream outs ≠ stream outs' :=
  ⟨srvDemo, srvDemo255, 3, 7, _, _, _, .narrow .., demo_served0, demo_served255, by decide⟩

end Fcgi.Props
