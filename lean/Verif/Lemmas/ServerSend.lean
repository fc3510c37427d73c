import Verif.Lemmas.Server
/-! # From the requests to the connections: what is sent, by request id -/
namespace Fcgi.Model
open Fcgi.Spec
variable {U : Type} [Transmits U]

/-! ### The objects made for a request id -/

/-- The request objects made for `k`, in order. -/
def objsOf (k : RequestId) (tr : List MEvent) : List Nat :=
  tr.filterMap fun e => match e with
    | .created r k' _ => if k' = k then some r else none
    | _ => none

theorem objsOf_append (k tr es) : objsOf k (tr ++ es) = objsOf k tr ++ objsOf k es := by simp [objsOf]

theorem mem_objsOf {k : RequestId} {r : Nat} {tr : List MEvent} : r ∈ objsOf k tr ↔ ∃ m, .created r k m ∈ tr := by
  simp only [objsOf, List.mem_filterMap]
  constructor
  · rintro ⟨e, he, h⟩
    cases e <;> simp only [reduceCtorEq] at h
    split at h
    · rename_i hk; cases h; subst hk; exact ⟨_, he⟩
    · cases h
  · rintro ⟨m, hm⟩
    exact ⟨_, hm, by simp⟩

structure ObjInv {σ} (tr : List MEvent) (s : MSt σ) : Prop where
  ls : ∀ k r, (k, r) ∈ s.table → ∃ pre, objsOf k tr = pre ++ [r] ∧ r ∉ pre
  un : ∀ r k m k' m', .created r k m ∈ tr → .created r k' m' ∈ tr → k = k' ∧ m = m'
  nw : ∀ r k m, .created r k m ∈ tr → r < s.next

theorem run_objs {σ} {P : Prog σ} {x tr s} (h : MRun P (mInit x) tr s) : ObjInv tr s := by
  induction h with
  | refl => exact ⟨by simp [mInit], by simp, by simp⟩
  | step hr hs ih =>
    rename_i tr s' es s''
    obtain ⟨I, S, K, Q⟩ := run_kq hr
    have hE := step_effect I S hs
    obtain ⟨ls, un, nw⟩ := ih
    have quiet : ∀ e, (∀ r k m, e ≠ .created r k m) → (∀ x ∈ s''.table, x ∈ s'.table) → s''.next = s'.next → ObjInv (tr ++ [e]) s'' := by
      intro e h1 h2 h3
      have hc : ∀ r k m, .created r k m ∈ tr ++ [e] → .created r k m ∈ tr := by
        intro r k m hm
        rcases List.mem_append.1 hm with hm | hm
        · exact hm
        · rw [List.mem_singleton] at hm; exact absurd hm.symm (h1 _ _ _)
      refine ⟨fun k r hm => ?_, fun r k m k' m' a b => un r k m k' m' (hc _ _ _ a) (hc _ _ _ b), fun r k m a => by rw [h3]; exact nw r k m (hc _ _ _ a)⟩
      have : objsOf k [e] = [] := by
        cases e with
        | created r k m => exact absurd rfl (h1 r k m)
        | _ => simp [objsOf]
      rw [objsOf_append, this, List.append_nil]
      exact ls k r (h2 _ hm)
    cases hE with
    | none h => rw [List.append_nil]; exact ⟨by rw [h.table]; exact ls, un, by rw [h.next]; exact nw⟩
    | quiet e he h =>
      refine quiet e ?_ (by rw [h.table]; exact fun _ h => h) h.next
      intro r t m hh; subst hh; simp [Spec.MEvent.quiet] at he
    | dropped k m hl hb h => exact quiet _ (by simp) (by rw [h.table]; exact fun _ h => h) h.next
    | accepted k m r hl ht hn hq hs => exact quiet _ (by simp) (by rw [ht]; exact fun _ h => h) hn
    | began k r t m hpc ht hn hq hq' hs => exact quiet _ (by simp) (by rw [ht]; exact fun _ h => h) hn
    | ended k r t m hpc ht hn hq hs => exact quiet _ (by simp) (by rw [ht]; exact fun _ h => h) hn
    | removed k r hm ht hn hq hs => exact quiet _ (by simp) (by rw [ht]; exact fun _ h => (List.mem_filter.1 h).1) hn
    | created k m hl hb ht hn hq hs =>
      refine ⟨fun k' r hm => ?_, fun r k1 m1 k2 m2 a b => ?_, fun r k' m' a => ?_⟩
      · rw [ht] at hm
        rw [objsOf_append]
        replace hm := List.mem_cons.1 hm
        rcases hm with hm | hm
        · cases hm
          refine ⟨objsOf k tr, by simp [objsOf], fun hh => ?_⟩
          obtain ⟨m', hm'⟩ := mem_objsOf.1 hh
          exact absurd (nw _ _ _ hm') (by omega)
        · have hne : k' ≠ k := by
            intro hk
            rw [hk] at hm
            exact lookup_none hl r (by assumption)
          have : objsOf k' [MEvent.created s'.next k m] = [] := by simp [objsOf, Ne.symm hne]
          rw [this, List.append_nil]; exact ls k' r hm
      · rcases List.mem_append.1 a with a | a <;> rcases List.mem_append.1 b with b | b
        · exact un _ _ _ _ _ a b
        · simp only [List.mem_singleton, MEvent.created.injEq] at b
          exact absurd (nw _ _ _ a) (by omega)
        · simp only [List.mem_singleton, MEvent.created.injEq] at a
          exact absurd (nw _ _ _ b) (by omega)
        · simp only [List.mem_singleton, MEvent.created.injEq] at a b
          exact ⟨a.2.1.trans b.2.1.symm, a.2.2.trans b.2.2.symm⟩
      · rw [hn]
        rcases List.mem_append.1 a with a | a
        · exact Nat.lt_succ_of_lt (nw _ _ _ a)
        · simp only [List.mem_singleton, MEvent.created.injEq] at a; omega

/-! ### The records of a request -/

/-- Every record a request sends goes to its connection and carries its id. -/
theorem req_sent {U : Type} (hd : Handlers U) (g) (sock id role kill max) (u : U) (ms) {q rest fin}
    (e : handler hd g (freshReq sock id role kill max u) ms = .ok (q, rest, fin)) :
    ∀ x ∈ sentOf q.log, x.1 = sock ∧ Complete x.2.1 ∧ frameId x.2.1 = id.toNat := by
  obtain ⟨h1, h2, hc, _⟩ := handler_spec hd g ms _ q rest fin (freshReq_alive ..) e
  obtain ⟨c1, c2, c3, _⟩ : q.sock = sock ∧ q.id = id ∧ q.kill = kill ∧ _ := hc
  have hid : id.toNat < 2^16 := id.toNat_lt
  have good : ∀ x : Record, IsOut q x → Complete x.bytes ∧ frameId x.bytes = id.toNat := by
    intro x hx
    have hw : x.id = id.toNat ∧ x.content.length ≤ 65535 ∧ x.padding.length < 8 := by
      rcases hx with hx | hx <;> exact ⟨by rw [hx.id, c2], hx.content_max, hx.padding⟩
    have wf : x.WF := ⟨by omega, by omega, by omega⟩
    exact ⟨Record.complete x wf, by rw [Record.frameId x wf, hw.1]⟩
  cases fin with
  | true =>
    obtain ⟨pre, rs, en, e1, e2, e3, ⟨g', e4⟩, _⟩ := (h1 rfl).recs
    rw [e1, sentOf_append, e2]
    intro x hx
    rcases List.mem_append.1 hx with hx | hx
    · obtain ⟨y, hy, rfl⟩ := List.mem_map.1 hx
      exact ⟨c1, good y (e3 y hy)⟩
    · simp only [sentOf, List.mem_singleton] at hx
      subst hx
      obtain ⟨r, r1, r2, r3, r4, r5, r6, r7⟩ := endRequestRecord_spec g' q.id q.status
      have wf : r.WF := ⟨by rw [r3, c2]; omega, by omega, by rw [r6]; simp⟩
      refine ⟨c1, ?_⟩
      show Complete en ∧ frameId en = _
      rw [e4, r7]
      exact ⟨Record.complete r wf, by rw [Record.frameId r wf, r3, c2]⟩
  | false =>
    obtain ⟨rs, e1, e2, _⟩ := (h2 rfl).1.recs
    rw [e1]
    intro x hx
    obtain ⟨y, hy, rfl⟩ := List.mem_map.1 hx
    exact ⟨c1, good y (e2 y hy)⟩

/-- Every record a request sends goes to its connection and carries its id. -/
theorem req_sentW {U : Type} (hd : HandlersW U) (g) (sock id role kill max) (u : U) (ms) {q rest fin}
    (e : handlerW hd g (freshReqW sock id role kill max u) ms = .ok (q, rest, fin)) :
    ∀ x ∈ sentOfW q.log, x.1 = sock ∧ Complete x.2.1 ∧ frameId x.2.1 = id.toNat := by
  obtain ⟨h1, h2, hc, _⟩ := handler_specW hd g ms _ q rest fin (freshReq_aliveW ..) e
  obtain ⟨c1, c2, c3, _⟩ : q.sock = sock ∧ q.id = id ∧ q.kill = kill ∧ _ := hc
  have hid : id.toNat < 2^16 := id.toNat_lt
  have good : ∀ x : Record, IsOutW q x → Complete x.bytes ∧ frameId x.bytes = id.toNat := by
    intro x hx
    have hw : x.id = id.toNat ∧ x.content.length ≤ 65535 ∧ x.padding.length < 8 := by
      rcases hx with hx | hx <;> exact ⟨by rw [hx.id, c2], hx.content_max, hx.padding⟩
    have wf : x.WF := ⟨by omega, by omega, by omega⟩
    exact ⟨Record.complete x wf, by rw [Record.frameId x wf, hw.1]⟩
  cases fin with
  | true =>
    obtain ⟨pre, rs, en, e1, e2, e3, ⟨g', e4⟩, _⟩ := (h1 rfl).recs
    rw [e1, sentOf_appendW, e2]
    intro x hx
    rcases List.mem_append.1 hx with hx | hx
    · obtain ⟨y, hy, rfl⟩ := List.mem_map.1 hx
      exact ⟨c1, good y (e3 y hy)⟩
    · simp only [sentOfW, List.mem_singleton] at hx
      subst hx
      obtain ⟨r, r1, r2, r3, r4, r5, r6, r7⟩ := endRequestRecord_spec g' q.id q.status
      have wf : r.WF := ⟨by rw [r3, c2]; omega, by omega, by rw [r6]; simp⟩
      refine ⟨c1, ?_⟩
      show Complete en ∧ frameId en = _
      rw [e4, r7]
      exact ⟨Record.complete r wf, by rw [Record.frameId r wf, r3, c2]⟩
  | false =>
    obtain ⟨rs, e1, e2, _⟩ := (h2 rfl).1.recs
    rw [e1]
    intro x hx
    obtain ⟨y, hy, rfl⟩ := List.mem_map.1 hx
    exact ⟨c1, good y (e2 y hy)⟩

theorem handler_allW {U} (h : HandlersW U) (g) : ∀ (ms : List Message) (r : ReqW U), handlerW h g r ms = handleAll (handleMsgW h g) r ms
  | [], _ => rfl
  | m :: ms, r => by
    simp only [handlerW, handleAll]
    congr 1
    funext x
    rw [handler_allW h g ms]


/-- So of all requests of the library. -/
theorem lib_sent {P : SrvProg U} [hP : OfLibrary P] {sock id role kill ms q rest fin}
    (e : handleAll P.handle (P.fresh sock id role kill) ms = .ok (q, rest, fin)) :
    ∀ x ∈ Transmits.sent q, x.1 = sock ∧ Complete x.2.1 ∧ frameId x.2.1 = id.toNat := by
  cases hP with
  | narrow => exact req_sent _ _ _ _ _ _ _ _ _ ((handler_all ..).trans e)
  | wide => exact req_sentW _ _ _ _ _ _ _ _ _ ((handler_allW ..).trans e)

/-- Nothing that was sent is taken back. -/
theorem lib_grows {P : SrvProg U} [hP : OfLibrary P] {sock id role kill ms q q' m c}
    (e : handleAll P.handle (P.fresh sock id role kill) ms = .ok (q, [], false)) (h : P.handle q m = .ok (q', c)) :
    ∃ l, Transmits.sent q' = Transmits.sent q ++ l := by
  have e5 : handleAll P.handle q [m] = .ok (q', [], c) := by
    simp only [handleAll, h, Res.ok_bind]
    cases c <;> rfl
  cases hP with
  | narrow =>
    have hal := ((handler_spec _ _ _ _ _ _ _ (freshReq_alive ..) ((handler_all ..).trans e)).2.1 rfl).1
    obtain ⟨l, hl⟩ := (handler_spec _ _ _ _ _ _ _ hal ((handler_all ..).trans e5)).2.2.2.1
    exact ⟨sentOf l, by show sentOf _ = sentOf _ ++ _; rw [hl, sentOf_append]⟩
  | wide =>
    have hal := ((handler_specW _ _ _ _ _ _ _ (freshReq_aliveW ..) ((handler_allW ..).trans e)).2.1 rfl).1
    obtain ⟨l, hl⟩ := (handler_specW _ _ _ _ _ _ _ hal ((handler_allW ..).trans e5)).2.2.2.1
    exact ⟨sentOfW l, by show sentOfW _ = sentOfW _ ++ _; rw [hl, sentOf_appendW]⟩

theorem lib_none {P : SrvProg U} [hP : OfLibrary P] {sock id role kill} : Transmits.sent (P.fresh sock id role kill) = [] := by
  cases hP <;> rfl

/-- What a management message is answered with goes to its connection and carries id 0. -/
theorem mgmt_sent (g : Nat → UInt8) (m : Message) (socket : Nat) :
    ∀ x ∈ (mgmtSends g m socket).1, x.1 = socket ∧ frameId x.2.1 = 0 := by
  have hans : ∀ name d, managementAnswer name = some d → frameId d = 0 := by
    intro name d h
    unfold managementAnswer at h
    split at h <;> (try split at h) <;> (try (cases h; done)) <;> (cases h; decide +kernel)
  unfold mgmtSends
  split
  · have hl : ∀ l, (localHandler 1 m.data (g 7) (garbage (fun i => g (9 + i)) 7) = .done l ∨
        localHandler 1 m.data (g 7) (garbage (fun i => g (9 + i)) 7) = .running l) → ∀ d ∈ l, frameId d = 0 := by
      intro l h d hd
      unfold localHandler at h
      split at h
      · rcases h with h | h <;> cases h
      · split at h
        · unfold getValuesLoop at h
          split at h
          · simp only [getValuesLoop, reduceCtorEq, false_or, Mgmt.running.injEq] at h
            subst h
            simp only [List.nil_append, Option.mem_toList] at hd
            exact hans _ _ hd
          · rcases h with h | h <;> cases h; cases hd
          · rcases h with h | h <;> cases h
          · rcases h with h | h <;> cases h; cases hd
        · rcases h with h | h <;> cases h
          simp only [List.mem_singleton] at hd
          subst hd; rfl
    split
    · rename_i l hh
      intro x hx
      obtain ⟨d, hd, rfl⟩ := List.mem_map.1 hx
      exact ⟨rfl, hl l (Or.inl hh) d hd⟩
    · rename_i l hh
      intro x hx
      obtain ⟨d, hd, rfl⟩ := List.mem_map.1 hx
      exact ⟨rfl, hl l (Or.inr hh) d hd⟩
    · simp
  · simp

/-! ### Who holds a request -/

theorem notify_mutexOf {σ} (s : MSt σ) (t : Nat) : (s.notifyAll.th t).mutexOf = (s.th t).mutexOf := by
  simp only [MSt.notifyAll]
  split
  · rename_i h; rw [h]; rfl
  · rfl

theorem put_eq {α} (f : Nat → α) (i : Nat) (v : α) : put f i v i = v := by simp [put]

theorem hstep_mutex {σ} (P : Prog σ) (t : Nat) (s : MSt σ) (es) (s') (h : hstep P t s = some (es, s')) :
    (∀ t', t' ≠ t → (s'.th t').mutexOf = (s.th t').mutexOf) ∧
    ((s'.th t).mutexOf = (s.th t).mutexOf ∨ (s'.th t).mutexOf = none ∨
      ∃ k r, s.th t = .find k ∧ (s'.th t).mutexOf = some (k, r) ∧ (s.objs r).mutex = none ∧ (k, r) ∈ s.table) := by
  have ho : ∀ (s : MSt σ) (pc : HPC) (t' : Nat), t' ≠ t → ((s.goto t pc).th t') = s.th t' := by
    intro s pc t' ht; simp [MSt.goto, put, ht]
  have hs : ∀ (s : MSt σ) (pc : HPC), ((s.goto t pc).th t) = pc := by
    intro s pc; simp [MSt.goto, put]
  unfold hstep at h
  cases hp : s.th t <;> rw [hp] at h <;> dsimp only at h
  case find k =>
    split at h
    · simp only [Option.some.injEq, Prod.mk.injEq] at h; obtain ⟨rfl, rfl⟩ := h
      exact ⟨fun t' ht => by rw [ho _ _ _ ht], Or.inl (by rw [hs]; rfl)⟩
    · rename_i r hl
      split at h
      · rename_i hm
        simp only [Option.some.injEq, Prod.mk.injEq] at h; obtain ⟨rfl, rfl⟩ := h
        refine ⟨fun t' ht => by rw [ho _ _ _ ht]; rfl, Or.inr (Or.inr ⟨k, r, rfl, by rw [hs]; rfl, hm, mlookup_mem hl⟩)⟩
      · simp only [Option.some.injEq, Prod.mk.injEq] at h; obtain ⟨rfl, rfl⟩ := h
        exact ⟨fun t' ht => by rw [ho _ _ _ ht]; rfl, Or.inl (by rw [hs]; rfl)⟩
  case judge =>
    split at h
    · simp only [Option.some.injEq, Prod.mk.injEq] at h; obtain ⟨rfl, rfl⟩ := h
      exact ⟨fun t' ht => by rw [ho _ _ _ ht]; exact notify_mutexOf s t', Or.inl (by rw [hs]; rfl)⟩
    · simp only [Option.some.injEq, Prod.mk.injEq] at h; obtain ⟨rfl, rfl⟩ := h
      exact ⟨fun t' ht => by rw [ho _ _ _ ht], Or.inl (by rw [hs]; rfl)⟩
  all_goals repeat' split at h
  all_goals first
    | (cases h; done)
    | (simp only [Option.some.injEq, Prod.mk.injEq] at h; obtain ⟨rfl, rfl⟩ := h
       refine ⟨fun t' ht => by first | (rw [ho _ _ _ ht]; done) | (rw [ho _ _ _ ht]; rfl), ?_⟩
       rw [hs]
       first
         | exact Or.inl rfl
         | exact Or.inr (Or.inl rfl)
         | (left; split <;> rfl))

theorem pstep_mutex {σ} (P : Prog σ) (p w : Nat) (s : MSt σ) (es) (s') (h : pstep P p w s = some (es, s')) (t : Nat) :
    (s'.th t).mutexOf = (s.th t).mutexOf := by
  unfold pstep at h
  cases hp : s.pu p <;> rw [hp] at h <;> dsimp only at h
  case task k =>
    split at h
    · split at h
      · rename_i hw
        simp only [Option.some.injEq, Prod.mk.injEq] at h; obtain ⟨rfl, rfl⟩ := h
        by_cases ht : t = w
        · subst ht; simp only [MSt.goto, MSt.pgoto, put_eq]; rw [hw]; rfl
        · simp [MSt.goto, MSt.pgoto, put, ht]
      · split at h
        · simp only [Option.some.injEq, Prod.mk.injEq] at h; obtain ⟨rfl, rfl⟩ := h; rfl
        · cases h
    · cases h
  all_goals repeat' split at h
  all_goals first | (cases h; done) | (simp only [Option.some.injEq, Prod.mk.injEq] at h; obtain ⟨-, rfl⟩ := h; first | rfl | (exfalso; simp_all; done))

theorem estep_mutex {σ} (P : Prog σ) (e : Outer) (s : MSt σ) (es) (s') (I : MInv P s) (h : estep P e s = some (es, s')) (t : Nat) :
    (s'.th t).mutexOf = (s.th t).mutexOf := by
  unfold estep at h
  cases e <;> dsimp only at h
  case join =>
    split at h
    · rename_i hj
      simp only [Option.some.injEq, Prod.mk.injEq] at h; obtain ⟨rfl, rfl⟩ := h
      dsimp only
      by_cases ht : t < P.threads
      · rcases hj t (by simp [ht]) with hh | hh <;> rw [hh] <;> rfl
      · rw [I.off t (by omega)]
    · cases h
  case start =>
    split at h
    · simp only [Option.some.injEq, Prod.mk.injEq] at h; obtain ⟨rfl, rfl⟩ := h
      dsimp only
      split
      · rename_i hh; rw [hh.2]; rfl
      · rfl
    · cases h
  case spurious x =>
    split at h
    · rename_i hw
      simp only [Option.some.injEq, Prod.mk.injEq] at h; obtain ⟨rfl, rfl⟩ := h
      by_cases ht : t = x
      · subst ht; simp only [MSt.goto, put_eq]; rw [hw]; rfl
      · simp [MSt.goto, put, ht]
    · cases h
  all_goals repeat' split at h
  all_goals first
    | (cases h; done)
    | (simp only [Option.some.injEq, Prod.mk.injEq] at h; obtain ⟨-, rfl⟩ := h
       first | rfl | exact notify_mutexOf _ _)

end Fcgi.Model
