import Verif.Lemmas.ServerRoute
import Verif.Props.Transceiver
import Verif.Props.Manager
/-! # Bytes in, bytes out -/
namespace Fcgi.Model
open Fcgi.Spec Fcgi.Props
variable {U : Type} [Transmits U]

theorem be2 (a b : UInt8) : beDigits 2 (beValue [a, b]) = [a, b] := by
  have ha := a.toNat_lt
  have hb := b.toNat_lt
  simp only [beDigits, beValue, List.foldl]
  simp
  apply UInt8.toNat_inj.1; simp; omega

/-- Every byte string that is one record by its own header is the bytes of a record. -/
theorem complete_record (d : Bytes) (h : Complete d) : ∃ r : Record, r.WF ∧ r.bytes = d := by
  obtain ⟨h8, hl⟩ := h
  match d, h8 with
  | a0 :: a1 :: a2 :: a3 :: a4 :: a5 :: a6 :: a7 :: body, _ =>
    have hlen : body.length = beValue [a4, a5] + a6.toNat := by
      simp only [framedLength] at hl
      simp only [List.length_cons, List.drop_succ_cons, List.drop_zero, List.take_succ_cons, List.take_zero] at hl
      have : beValue [a6] = a6.toNat := by simp [beValue]
      omega
    refine ⟨⟨a0, a1, beValue [a2, a3], body.take (beValue [a4, a5]), body.drop (beValue [a4, a5]), a7⟩, ⟨?_, ?_, ?_⟩, ?_⟩
    · have := a2.toNat_lt; have := a3.toNat_lt; simp [beValue]; omega
    · have := a4.toNat_lt; have := a5.toNat_lt
      have : beValue [a4, a5] < 2^16 := by simp [beValue]; omega
      simp only [List.length_take]; omega
    · have := a6.toNat_lt
      simp only [List.length_drop]; omega
    · have e1 : (body.take (beValue [a4, a5])).length = beValue [a4, a5] := by simp only [List.length_take]; omega
      have e2 : (body.drop (beValue [a4, a5])).length = a6.toNat := by simp only [List.length_drop]; omega
      simp only [Record.bytes, e1, e2, be2]
      simp

theorem complete_records (ds : List Bytes) (h : ∀ d ∈ ds, Complete d) : ∃ rs : List Record, (∀ r ∈ rs, r.WF) ∧ rs.map Record.bytes = ds := by
  induction ds with
  | nil => exact ⟨[], by simp, rfl⟩
  | cons d ds ih =>
    obtain ⟨r, h1, h2⟩ := complete_record d (h d (by simp))
    obtain ⟨rs, h3, h4⟩ := ih (fun d hd => h d (by simp [hd]))
    exact ⟨r :: rs, by simpa [h1] using h3, by simp [h2, h4]⟩

/-- The records found in the beginning of a sequence of whole records are the first of them. -/
theorem parse_prefix (ds : List Bytes) (h : ∀ d ∈ ds, Complete d) (outs : List Record) (otail : Bytes) (hw : ∀ r ∈ outs, r.WF)
    (hp : stream outs ++ otail <+: ds.flatten) : outs.map Record.bytes <+: ds := by
  obtain ⟨rs, h1, h2⟩ := complete_records ds h
  obtain ⟨w, hw'⟩ := hp
  obtain ⟨k, hk, e1, e2⟩ := decode_prefix (outs.map Record.bytes) rs (otail ++ w) [] (by
    intro d hd
    obtain ⟨r, hr, rfl⟩ := List.mem_map.1 hd
    exact Record.complete r (hw r hr)) h1 (Or.inl (by simp)) (by
      rw [← h2] at hw'
      rw [List.append_nil]
      simp only [stream, List.flatMap_def] at hw' ⊢
      rw [← hw', List.append_assoc])
  rw [e1, ← h2, List.map_take]
  exact List.take_prefix _ _

theorem parse_all (ds : List Bytes) (h : ∀ d ∈ ds, Complete d) (outs : List Record) (otail : Bytes) (hw : ∀ r ∈ outs, r.WF) (ht : Incomplete otail)
    (hp : stream outs ++ otail = ds.flatten) : outs.map Record.bytes = ds ∧ otail = [] := by
  obtain ⟨rs, h1, h2⟩ := complete_records ds h
  obtain ⟨k, hk, e1, e2⟩ := decode_prefix (outs.map Record.bytes) rs otail [] (by
    intro d hd
    obtain ⟨r, hr, rfl⟩ := List.mem_map.1 hd
    exact Record.complete r (hw r hr)) h1 (Or.inl (by simp)) (by
      rw [← h2] at hp
      rw [List.append_nil]
      simp only [stream, List.flatMap_def] at hp ⊢
      exact hp)
  obtain ⟨e3, e4⟩ := decode_exhausted (rs.drop k) otail [] (fun r hr => h1 r (List.mem_of_mem_drop hr)) ht e2
  refine ⟨?_, e4⟩
  rw [e1, ← h2]
  have : rs.take k = rs := by
    have := List.take_append_drop k rs
    rw [e3, List.append_nil] at this; exact this
  rw [this]

/-- The beginning of a sequence of whole records is whole records and the beginning of one. -/
theorem parse_exists (ds : List Bytes) (h : ∀ d ∈ ds, Complete d) : ∀ (out : Bytes), out <+: ds.flatten →
    ∃ (outs : List Record) (otail : Bytes), (∀ r ∈ outs, r.WF) ∧ Incomplete otail ∧ out = stream outs ++ otail := by
  induction ds with
  | nil =>
    intro out ho
    have : out = [] := by simpa using ho
    exact ⟨[], [], by simp, Or.inl (by simp), by simp [this, stream]⟩
  | cons d ds ih =>
    intro out ho
    obtain ⟨r, h1, h2⟩ := complete_record d (h d (by simp))
    obtain ⟨w, hw⟩ := ho
    rw [List.flatten_cons] at hw
    by_cases hl : out.length < d.length
    · refine ⟨[], out, by simp, ?_, by simp [stream]⟩
      by_cases h8 : out.length < 8
      · exact Or.inl h8
      · right
        have hd : d = out ++ d.drop out.length := by
          have h3 := congrArg (List.take out.length) hw
          rw [List.take_left] at h3
          rw [List.take_append_of_le_length (by omega)] at h3
          have := List.take_append_drop out.length d
          rw [← h3] at this
          exact this.symm
        have h5 := (h d (by simp)).2
        rw [hd, framedLength_append _ _ (by omega)] at h5
        rw [← h5, ← hd]; exact hl
    · have hd : out = d ++ out.drop d.length := by
        have h3 := congrArg (List.take d.length) hw
        rw [List.take_left, List.take_append_of_le_length (by omega)] at h3
        have := List.take_append_drop d.length out
        rw [h3] at this
        exact this.symm
      obtain ⟨outs, otail, g1, g2, g3⟩ := ih (fun d hd => h d (by simp [hd])) (out.drop d.length) ⟨w, by
        rw [hd, List.append_assoc] at hw
        exact List.append_cancel_left hw⟩
      refine ⟨r :: outs, otail, by simpa [h1] using g1, g2, ?_⟩
      rw [hd, g3, ← h2]; simp [stream]

/-! ### The records of one request -/

/-- The messages of the transceiver for `k`. -/
def keyMsgs (k : RequestId) (l : List Msg) : List Message :=
  l.filterMap fun x => if x.id = k then some ⟨0, x.data⟩ else none

/-- The message a record is for a request. -/
def recordMsg (r : Record) : Message := ⟨0, r.bytes⟩

theorem routed_key {tr} {s : Srv U} (R : SRInv tr s) (k : RequestId) (h0 : k.id ≠ 0) (h1 : k.id ≠ 0xffff) :
    keyMsgs k (s.t.msgs.take s.given) = routedFor k tr ++ ((s.m.pu 0).inHand.filterMap fun x => if x.1 = k then some x.2 else none) := by
  have h := congrArg (List.filterMap fun x : RequestId × Message => if x.1 = k then some x.2 else none) R.rt
  rw [List.filterMap_append] at h
  have e1 : ∀ l : List Msg, (l.filterMap toRoute).filterMap (fun x : RequestId × Message => if x.1 = k then some x.2 else none) = keyMsgs k l := by
    intro l
    rw [List.filterMap_filterMap]
    unfold keyMsgs
    congr 1
    funext x
    unfold toRoute
    by_cases hx : x.id.id = 0 ∨ x.id.id = 0xffff
    · rw [if_pos hx]
      have : x.id ≠ k := by
        intro hh; rw [hh] at hx; rcases hx with hx | hx
        · exact h0 hx
        · exact h1 hx
      simp [this]
    · rw [if_neg hx]; simp
  have e2 : ∀ l : List (RequestId × Message), (l.filter (fun x => x.2.type = 0)).filterMap (fun x => if x.1 = k then some x.2 else none) =
      l.filterMap fun x => if x.1 = k ∧ x.2.type = 0 then some x.2 else none := by
    intro l
    induction l with
    | nil => rfl
    | cons a l ih =>
      by_cases ha : a.2.type = 0
      · by_cases hk : a.1 = k
        · simp [ha, hk]; exact ih
        · simp [ha, hk]; exact ih
      · simp [ha]; exact ih
  rw [e1, e2] at h
  exact h

theorem keyMsgs_filter (k : RequestId) (l : List Msg) : keyMsgs k l = keyMsgs k (l.filter (fun m => m.id.socket = k.socket)) := by
  induction l with
  | nil => rfl
  | cons a l ih =>
    unfold keyMsgs at ih ⊢
    by_cases ha : a.id.socket = k.socket
    · simp only [List.filter_cons, ha, decide_true, if_true, List.filterMap_cons]
      split <;> simp [ih]
    · have : a.id ≠ k := fun h => ha (by rw [h])
      simp [ha, this, ih]

theorem keyMsgs_records (c : Nat) (id : UInt16) (rs : List Record) (hwf : ∀ r ∈ rs, r.WF) :
    keyMsgs ⟨c, id⟩ (rs.map (messageFor c)) = (rs.filter (fun r => r.id = id.toNat)).map recordMsg := by
  induction rs with
  | nil => rfl
  | cons r rs ih =>
    have ih := ih (fun x hx => hwf x (by simp [hx]))
    have hr := (hwf r (by simp)).1
    have hid : (messageFor c r).id = ⟨c, id⟩ ↔ r.id = id.toNat := by
      simp only [messageFor, RequestId.mk.injEq, true_and]
      constructor
      · intro h; rw [← h]; simp; omega
      · intro h; rw [h]; simp
    unfold keyMsgs at ih ⊢
    by_cases h : r.id = id.toNat
    · simp only [List.map_cons, List.filterMap_cons, if_pos (hid.2 h), List.filter_cons, h, decide_true, if_true]
      rw [ih]; rfl
    · simp only [List.map_cons, List.filterMap_cons, if_neg (fun hh => h (hid.1 hh)), List.filter_cons, h, decide_false]
      rw [ih]; rfl

theorem keyMsgs_append (k a b) : keyMsgs k (a ++ b) = keyMsgs k a ++ keyMsgs k b := by simp [keyMsgs]

/-- What the manager has dealt with for a request is the first of the records the peer has sent for it. -/
theorem key_prefix {P : SrvProg U} {tr ops s} (h : SrvRun P srvInit tr ops s) (c : Nat) (id : UInt16) (h0 : id ≠ 0) (h1 : id ≠ 0xffff)
    (rs : List Record) (tail : Bytes) (hwf : ∀ r ∈ rs, r.WF) (htail : Incomplete tail) (hin : arrived c ops = stream rs ++ tail) :
    routedFor ⟨c, id⟩ tr <+: (rs.filter (fun r => r.id = id.toNat)).map recordMsg ∧
    ((s.t.conns c).valid = true → (s.t.conns c).input = [] → s.given = s.t.msgs.length → s.m.pu 0 = .idle →
      routedFor ⟨c, id⟩ tr = (rs.filter (fun r => r.id = id.toNat)).map recordMsg) := by
  have A := srv_parts h
  have R := srv_routed h
  have hk := routed_key R ⟨c, id⟩ h0 h1
  obtain ⟨⟨k, hk1, hfr⟩, hall⟩ := C09_fragmentation P.recvHeap ops s.t A.t c rs tail hwf htail hin
  have hmsgs : keyMsgs ⟨c, id⟩ s.t.msgs = keyMsgs ⟨c, id⟩ (msgsOf c s.t) := keyMsgs_filter ⟨c, id⟩ s.t.msgs
  constructor
  · have p1 : routedFor ⟨c, id⟩ tr <+: keyMsgs ⟨c, id⟩ (s.t.msgs.take s.given) := by rw [hk]; exact List.prefix_append _ _
    have p2 : keyMsgs ⟨c, id⟩ (s.t.msgs.take s.given) <+: keyMsgs ⟨c, id⟩ s.t.msgs := by
      have := keyMsgs_append ⟨c, id⟩ (s.t.msgs.take s.given) (s.t.msgs.drop s.given)
      rw [List.take_append_drop] at this
      rw [this]; exact List.prefix_append _ _
    have p3 : keyMsgs ⟨c, id⟩ s.t.msgs = ((rs.take k).filter (fun r => r.id = id.toNat)).map recordMsg := by
      rw [hmsgs]
      have hwk : ∀ r ∈ rs.take k, r.WF := fun r hr => hwf r (List.mem_of_mem_take hr)
      rcases hfr with hfr | ⟨_, hfr⟩
      · rw [hfr, keyMsgs_records _ _ _ hwk]
      · rw [hfr, keyMsgs_append, keyMsgs_records _ _ _ hwk]
        have : keyMsgs ⟨c, id⟩ [goneMsg c] = [] := by
          simp only [keyMsgs, List.filterMap_cons, List.filterMap_nil]
          rw [if_neg]
          simp only [goneMsg, RequestId.mk.injEq, true_and]
          exact fun hh => h1 hh.symm
        rw [this, List.append_nil]
    refine List.IsPrefix.trans (List.IsPrefix.trans p1 p2) ?_
    rw [p3]
    have : rs.filter (fun r => r.id = id.toNat) = (rs.take k).filter (fun r => r.id = id.toNat) ++ (rs.drop k).filter (fun r => r.id = id.toNat) := by
      rw [← List.filter_append, List.take_append_drop]
    rw [this, List.map_append]; exact List.prefix_append _ _
  · intro hv hi hg hp
    rw [hp, hg, List.take_length] at hk
    simp only [PPC.inHand, List.filterMap_nil, List.append_nil] at hk
    rw [← hk, hmsgs, hall hv hi, keyMsgs_records _ _ _ hwf]

/-! ### The request, alone -/

/-- The records handled are the first of those that were sent for it. -/
theorem ended_prefix {P : SrvProg U} {tr s} (hr : MRun P.prog (mInit none) tr s) (k : RequestId) (b : Message) (ins : List Message)
    (hb : isBegin b = true) (hin : ∀ m ∈ ins, isBegin m = false) (hp : routedFor k tr <+: b :: ins) (r : Nat) (hrk : r ∈ objsOf k tr) :
    (endedBy r tr).filter (fun m => m.type = 0) <+: ins := by
  rcases (run_once hr k b ins hb hin hp).main with ⟨h1, _⟩ | ⟨r', e1, e2, e3, e4⟩
  · rw [h1] at hrk; cases hrk
  · rw [e1] at hrk
    simp only [List.mem_singleton] at hrk
    subst hrk
    have h1 : (endedBy r tr).filter (fun m => m.type = 0) <+: recordsTo r tr := List.IsPrefix.filter _ (C41_order hr r).2
    have h2 := List.IsPrefix.trans e3 hp
    rw [List.cons_prefix_cons] at h2
    exact List.IsPrefix.trans h1 h2.2

theorem sound_key {P : SrvProg U} {tr s} (hr : MRun P.prog (mInit none) tr s) (k : RequestId) (b : Message) (ins : List Message)
    (hb : isBegin b = true) (hin : ∀ m ∈ ins, isBegin m = false) (hp : routedFor k tr <+: b :: ins)
    (hsafe : ∀ role kill ms, ms.filter (fun m => m.type = 0) <+: ins →
      ∃ x, handleAll P.handle (P.fresh k.socket k.id role kill) ms = .ok x) : SoundFor k tr s := by
  induction hr with
  | refl => intro r m0 hm; cases hm
  | step hr hs ih =>
    rename_i tr s' es s''
    have ih := ih (by rw [routedFor_append] at hp; exact List.IsPrefix.trans (List.prefix_append _ _) hp)
    have hr'' := MRun.step hr hs
    obtain ⟨I, S, _, _⟩ := run_kq hr
    have O := run_objs hr
    have hE := step_effect I S hs
    have quiet : (∀ r m, .created r k m ∈ tr ++ es → .created r k m ∈ tr) → (∀ r, (s''.objs r).state = (s'.objs r).state) → SoundFor k (tr ++ es) s'' := by
      intro h1 h2 r m0 hm
      rw [h2]; exact ih r m0 (h1 r m0 hm)
    clear hs
    cases hE with
    | none h => exact quiet (by simp) h.state
    | quiet e he h =>
      refine quiet ?_ h.state
      intro r m hm
      rcases List.mem_append.1 hm with hm | hm
      · exact hm
      · rw [List.mem_singleton] at hm; subst hm; simp [Spec.MEvent.quiet] at he
    | dropped k' m hl hb h => exact quiet (by simp) h.state
    | accepted k' m r hl ht hn hq hs => exact quiet (by simp) hs
    | began k' r t m hpc ht hn hq hq' hs => exact quiet (by simp) hs
    | removed k' r hm ht hn hq hs => exact quiet (by simp) hs
    | created k' m hl hb ht hn hq hs =>
      intro r m0 hm
      rw [hs]
      split
      · simp [SrvProg.prog, kindProg]
      · rename_i hne
        rcases List.mem_append.1 hm with hm | hm
        · exact ih r m0 hm
        · simp only [List.mem_singleton, MEvent.created.injEq] at hm
          exact absurd hm.1 hne
    | ended k' r' t m hpc ht hn hq hs =>
      intro r m0 hm
      have hm' : .created r k m0 ∈ tr := by simpa using hm
      rw [hs]
      by_cases hrr : r = r'
      · subst hrr
        rw [if_pos rfl]
        obtain ⟨q, hq⟩ := Option.ne_none_iff_exists'.1 (ih r m0 hm')
        have hk : k' = k := by
          obtain ⟨m1, hm1⟩ := (run_ainv hr).cr k' r (I.mt t _ (by rw [hpc]; rfl))
          exact (O.un _ _ _ _ _ hm1 hm').1
        subst hk
        obtain ⟨role, kill, e2⟩ := work_alone hr hpc hq
        have e4 := handleAll_snoc P.handle _ _ _ m e2
        have hpre := ended_prefix hr'' k' b ins hb hin hp r (mem_objsOf.2 ⟨m0, hm⟩)
        have h7 : ∀ c, endedBy r (tr ++ [.ended r t m c]) = endedBy r tr ++ [m] := by
          intro c; rw [endedBy_append]; simp [endedBy]
        rw [h7] at hpre
        obtain ⟨x, hx⟩ := hsafe role kill _ hpre
        rw [hx] at e4
        rw [hq]
        simp only [SrvProg.prog, kindProg]
        cases hh : P.handle q m with
        | ok y => simp
        | _ => rw [hh] at e4; cases e4
      · rw [if_neg hrr]; exact ih r m0 hm'

end Fcgi.Model
