import Verif.Lemmas.ServerSend
/-! # What has been sent for a request id is what its requests have produced, less what a thread has in hand -/
namespace Fcgi.Model
open Fcgi.Spec
variable {U : Type} [Transmits U]

/-- The records of a request, with their kill flags. -/
def recsOf (x : Option U) : List (Bytes × Bool) :=
  match x with
  | some q => (Transmits.sent q).map Prod.snd
  | none => []

/-- What the requests made for `k` have produced. -/
def madeFor (k : RequestId) (tr : List MEvent) (m : MSt (Option U)) : List (Bytes × Bool) :=
  (objsOf k tr).flatMap fun r => recsOf (m.objs r).state

/-- What has been passed to `Transceiver::send` for `k`. -/
def sentFor (k : RequestId) (ops : List TOp) : List (Bytes × Bool) :=
  (sentTo k.socket ops).filter (fun x => frameId x.1 = k.id.toNat)

/-- No undefined behaviour in the requests made for `k`. -/
def SoundFor (k : RequestId) (tr : List MEvent) (m : MSt (Option U)) : Prop :=
  ∀ r m0, .created r k m0 ∈ tr → (m.objs r).state ≠ none

theorem flatMap_ext' {α β} {l : List α} {f g : α → List β} (h : ∀ x ∈ l, f x = g x) : l.flatMap f = l.flatMap g := by
  induction l with
  | nil => rfl
  | cons a l ih => rw [List.flatMap_cons, List.flatMap_cons, h a (by simp), ih (fun x hx => h x (by simp [hx]))]

structure SSInv (tr : List MEvent) (ops : List TOp) (s : Srv U) : Prop where
  ow1 : ∀ t k r, (s.m.th t).mutexOf = some (k, r) → ∀ x ∈ s.out t, x.1 = k.socket ∧ Complete x.2.1 ∧ frameId x.2.1 = k.id.toNat
  ow2 : ∀ t, (s.m.th t).mutexOf = none → ∀ x ∈ s.out t, frameId x.2.1 = 0 ∧ ∃ y ∈ s.t.msgs, y.id = ⟨x.1, 0⟩
  lo : ∀ t l, s.loops t = some l → (s.m.th t).mutexOf = none ∧ ∀ x ∈ l, frameId x.2.1 = 0 ∧ ∃ y ∈ s.t.msgs, y.id = ⟨x.1, 0⟩
  st : ∀ c, ∀ x ∈ sentTo c ops, (Complete x.1 ∧ frameId x.1 ≠ 0) ∨ (frameId x.1 = 0 ∧ ∃ y ∈ s.t.msgs, y.id = ⟨c, 0⟩)
  eh : ∀ k, k.id ≠ 0 → SoundFor k tr s.m → ∀ t r, (s.m.th t).mutexOf = some (k, r) → sentFor k ops ++ (s.out t).map Prod.snd = madeFor k tr s.m
  en : ∀ k, k.id ≠ 0 → SoundFor k tr s.m → (∀ t r, (s.m.th t).mutexOf ≠ some (k, r)) → sentFor k ops = madeFor k tr s.m

/-- A step of the manager without the user's code. -/
theorem made_same {P : SrvProg U} [OfLibrary P] {tr s es s'} (hr : MRun P.prog (mInit none) tr s) (h : MStep P.prog s es s')
    (hn : ∀ r t m c, .ended r t m c ∉ es) (k : RequestId) :
    madeFor k (tr ++ es) s' = madeFor k tr s ∧ (SoundFor k (tr ++ es) s' → SoundFor k tr s) := by
  obtain ⟨I, S, _, _⟩ := run_kq hr
  have O := run_objs hr
  have hE := step_effect I S h
  clear h
  have key : ∀ e, (∀ r k m, e ≠ .created r k m) → (∀ r, (s'.objs r).state = (s.objs r).state) →
      madeFor k (tr ++ [e]) s' = madeFor k tr s ∧ (SoundFor k (tr ++ [e]) s' → SoundFor k tr s) := by
    intro e h1 h2
    have : objsOf k [e] = [] := by
      cases e with
      | created r k m => exact absurd rfl (h1 r k m)
      | _ => simp [objsOf]
    refine ⟨?_, fun hs r m0 hm => ?_⟩
    · unfold madeFor
      rw [objsOf_append, this, List.append_nil]
      simp only [h2]
    · rw [← h2]; exact hs r m0 (by simp [hm])
  cases hE with
  | none h =>
    rw [List.append_nil]
    exact ⟨by unfold madeFor; simp only [h.state], fun hs r m0 hm => by rw [← h.state]; exact hs r m0 hm⟩
  | quiet e he h =>
    refine key e ?_ h.state
    intro r t m hh; subst hh; simp [Spec.MEvent.quiet] at he
  | dropped k m hl hb h => exact key _ (by simp) h.state
  | accepted k m r hl ht hn hq hs => exact key _ (by simp) hs
  | began k r t m hpc ht hn hq hq' hs => exact key _ (by simp) hs
  | ended k r t m hpc ht hn hq hs => exact absurd (List.mem_singleton.2 rfl) (hn _ _ _ _)
  | removed k r hm ht hn hq hs => exact key _ (by simp) hs
  | created k' m hl hb ht hn hq hs =>
    have old : ∀ r k m, .created r k m ∈ tr → (s'.objs r).state = (s.objs r).state := by
      intro r k m hm
      have := O.nw r k m hm
      rw [hs, if_neg (by omega)]
    constructor
    · unfold madeFor
      rw [objsOf_append, List.flatMap_append]
      have h1 : (objsOf k [MEvent.created s.next k' m]).flatMap (fun r => recsOf (s'.objs r).state) = [] := by
        by_cases hk : k' = k
        · subst hk
          simp only [objsOf, List.filterMap_cons, if_true, List.filterMap_nil, List.flatMap_cons, List.flatMap_nil, List.append_nil]
          rw [hs, if_pos rfl]
          show (Transmits.sent (P.fresh _ _ _ _)).map Prod.snd = []
          rw [lib_none]; rfl
        · simp [objsOf, hk]
      rw [h1, List.append_nil]
      apply flatMap_ext'
      intro r hr
      obtain ⟨m0, hm0⟩ := mem_objsOf.1 hr
      rw [old r k m0 hm0]
    · intro hs' r m0 hm
      rw [← old r k m0 hm]; exact hs' r m0 (by simp [hm])

theorem ss_keep {tr ops es os} {s s' : Srv U} (J : SSInv tr ops s)
    (hth : ∀ t, (s'.m.th t).mutexOf = (s.m.th t).mutexOf) (ho : s'.out = s.out) (hl : s'.loops = s.loops)
    (hm : ∀ y ∈ s.t.msgs, y ∈ s'.t.msgs) (hs : ∀ c, sentTo c os = [])
    (hk : ∀ k, madeFor k (tr ++ es) s'.m = madeFor k tr s.m ∧ (SoundFor k (tr ++ es) s'.m → SoundFor k tr s.m)) : SSInv (tr ++ es) (ops ++ os) s' := by
  have hx : ∀ {c : Nat}, (∃ y ∈ s.t.msgs, y.id = ⟨c, 0⟩) → ∃ y ∈ s'.t.msgs, y.id = ⟨c, 0⟩ := by
    rintro c ⟨y, hy, h⟩; exact ⟨y, hm y hy, h⟩
  have hsf : ∀ k, sentFor k (ops ++ os) = sentFor k ops := by
    intro k; unfold sentFor; rw [sentTo_append, hs, List.append_nil]
  refine ⟨?_, ?_, ?_, ?_, ?_, ?_⟩
  · intro t k r h; rw [hth] at h; rw [ho]; exact J.ow1 t k r h
  · intro t h x hxx; rw [hth] at h; rw [ho] at hxx
    obtain ⟨h1, h2⟩ := J.ow2 t h x hxx
    exact ⟨h1, hx h2⟩
  · intro t l h; rw [hl] at h; rw [hth]
    obtain ⟨h1, h2⟩ := J.lo t l h
    exact ⟨h1, fun x hxx => ⟨(h2 x hxx).1, hx (h2 x hxx).2⟩⟩
  · intro c x hxx
    rw [sentTo_append, hs, List.append_nil] at hxx
    rcases J.st c x hxx with h | ⟨h, h'⟩
    · exact Or.inl h
    · exact Or.inr ⟨h, hx h'⟩
  · intro k h0 hS t r h
    rw [hsf, ho, (hk k).1]; rw [hth] at h
    exact J.eh k h0 ((hk k).2 hS) t r h
  · intro k h0 hS h
    rw [hsf, (hk k).1]
    exact J.en k h0 ((hk k).2 hS) (fun t r => by rw [← hth]; exact h t r)

theorem ss_move {P : SrvProg U} [OfLibrary P] {tr ops es} {s s' : Srv U} (J : SSInv tr ops s) (I : MInv P.prog s.m) (t : Nat)
    (hth : ∀ t', t' ≠ t → (s'.m.th t').mutexOf = (s.m.th t').mutexOf)
    (ht : (s'.m.th t).mutexOf = (s.m.th t).mutexOf ∨ (s'.m.th t).mutexOf = none ∨
      ∃ k r, s.m.th t = .find k ∧ (s'.m.th t).mutexOf = some (k, r) ∧ (s.m.objs r).mutex = none ∧ (k, r) ∈ s.m.table)
    (h0 : s.out t = []) (hl0 : s.loops t = none) (ho : s'.out = s.out) (hl : s'.loops = s.loops)
    (hm : s'.t.msgs = s.t.msgs)
    (hk : ∀ k, madeFor k (tr ++ es) s'.m = madeFor k tr s.m ∧ (SoundFor k (tr ++ es) s'.m → SoundFor k tr s.m)) : SSInv (tr ++ es) ops s' := by
  refine ⟨?_, ?_, ?_, ?_, ?_, ?_⟩
  · intro t' k r h; rw [ho]
    by_cases htt : t' = t
    · subst htt; rw [h0]; simp
    · rw [hth _ htt] at h; exact J.ow1 t' k r h
  · intro t' h; rw [ho, hm]
    by_cases htt : t' = t
    · subst htt; rw [h0]; simp
    · rw [hth _ htt] at h; exact J.ow2 t' h
  · intro t' l h; rw [hl] at h; rw [hm]
    by_cases htt : t' = t
    · subst htt; rw [hl0] at h; cases h
    · rw [hth _ htt]; exact J.lo t' l h
  · intro c x hx; rw [hm]; exact J.st c x hx
  · intro k hk0 hS t' r h
    rw [ho, (hk k).1]
    have hS := (hk k).2 hS
    by_cases htt : t' = t
    · subst htt
      rcases ht with ht | ht | ⟨k', r', e1, e2, e3, e4⟩
      · rw [ht] at h; exact J.eh k hk0 hS t' r h
      · rw [ht] at h; cases h
      · rw [e2] at h; cases h
        rw [h0, List.map_nil, List.append_nil]
        apply J.en k hk0 hS
        intro t'' r'' h''
        have hmt := I.mt t'' _ h''
        have : r'' = r := I.nd k r'' r hmt e4
        subst this
        have : (s.m.th t'').holdsM = some r'' := by
          cases hp : s.m.th t'' <;> rw [hp] at h'' <;> simp_all [HPC.mutexOf, HPC.holdsM]
        rw [(I.mu r'' t'').2 this] at e3
        cases e3
    · rw [hth _ htt] at h; exact J.eh k hk0 hS t' r h
  · intro k hk0 hS h
    rw [(hk k).1]
    have hS := (hk k).2 hS
    by_cases hh : ∃ t' r, (s.m.th t').mutexOf = some (k, r)
    · obtain ⟨t', r, hh⟩ := hh
      have htt : t' = t := by
        apply Classical.byContradiction
        intro hne
        exact h t' r (by rw [hth _ hne]; exact hh)
      subst htt
      have := J.eh k hk0 hS t' r hh
      rwa [h0, List.map_nil, List.append_nil] at this
    · exact J.en k hk0 hS (fun t' r hx => hh ⟨t', r, hx⟩)

theorem ss_mgmt {tr ops es} {s s' : Srv U} (J : SSInv tr ops s) (t : Nat)
    (hth : ∀ t', (s'.m.th t').mutexOf = (s.m.th t').mutexOf) (hn : (s.m.th t).mutexOf = none) (l) (hls)
    (hL : ∀ x ∈ l, frameId x.2.1 = 0 ∧ ∃ y ∈ s.t.msgs, y.id = ⟨x.1, 0⟩)
    (hL' : ∀ l', hls = some l' → l' = l)
    (ho : s'.out = put s.out t l) (hl : s'.loops = put s.loops t hls) (hm : s'.t.msgs = s.t.msgs)
    (hk : ∀ k, madeFor k (tr ++ es) s'.m = madeFor k tr s.m ∧ (SoundFor k (tr ++ es) s'.m → SoundFor k tr s.m)) : SSInv (tr ++ es) ops s' := by
  have hne : ∀ t' k r, (s.m.th t').mutexOf = some (k, r) → t' ≠ t := by
    intro t' k r h hh; subst hh; rw [hn] at h; cases h
  refine ⟨?_, ?_, ?_, ?_, ?_, ?_⟩
  · intro t' k r h; rw [hth] at h
    rw [ho, put_other _ _ _ (hne _ _ _ h)]; exact J.ow1 t' k r h
  · intro t' h; rw [hth] at h; rw [ho, hm]
    by_cases htt : t' = t
    · subst htt; rw [put_eq]; exact hL
    · rw [put_other _ _ _ htt]; exact J.ow2 t' h
  · intro t' l' h; rw [hl] at h; rw [hth, hm]
    by_cases htt : t' = t
    · subst htt; rw [put_eq] at h
      rw [hL' l' h]; exact ⟨hn, hL⟩
    · rw [put_other _ _ _ htt] at h; exact J.lo t' l' h
  · intro c x hx; rw [hm]; exact J.st c x hx
  · intro k hk0 hS t' r h; rw [hth] at h
    rw [ho, put_other _ _ _ (hne _ _ _ h), (hk k).1]
    exact J.eh k hk0 ((hk k).2 hS) t' r h
  · intro k hk0 hS h
    rw [(hk k).1]
    exact J.en k hk0 ((hk k).2 hS) (fun t' r => by rw [← hth]; exact h t' r)

/-- The request a thread is working on has not been completed, and is as if alone. -/
theorem work_alone {P : SrvProg U} {tr s} (hr : MRun P.prog (mInit none) tr s) {t k r m} (hpc : s.th t = .work k r m) {q}
    (hq : (s.objs r).state = some q) :
    ∃ role kill, handleAll P.handle (P.fresh k.socket k.id role kill) (endedBy r tr) = .ok (q, [], false) := by
  obtain ⟨I, S, K, Q⟩ := run_kq hr
  have A := run_ainv hr
  have T := run_tinv hr
  obtain ⟨m0, hm0⟩ := A.cr k r (I.mt t _ (by rw [hpc]; rfl))
  obtain ⟨q0, e1, fin, e2, e3⟩ := request_alone hr r k m0 hm0 q hq
  have hfin : fin = false := by
    cases hf : fin with
    | false => rfl
    | true =>
      obtain ⟨t', m', hh⟩ := e3.1 hf
      have hb := T.wk t r m (by rw [hpc]; rfl)
      rcases watch_over hh with h' | h' <;> (rw [hb] at h'; cases h')
  subst hfin
  simp only [kindProg, Option.some.injEq] at e1
  subst e1
  exact ⟨_, _, e2⟩

theorem work_grow {P : SrvProg U} [OfLibrary P] {tr s} (hr : MRun P.prog (mInit none) tr s) {t k r m} (hpc : s.th t = .work k r m) {q q'}
    (hq : (s.objs r).state = some q) (hq' : (P.prog.handle (some q) m).1 = some q') :
    (∃ l, Transmits.sent q' = Transmits.sent q ++ l) ∧ ∀ x ∈ Transmits.sent q', x.1 = k.socket ∧ Complete x.2.1 ∧ frameId x.2.1 = k.id.toNat := by
  obtain ⟨role, kill, e2⟩ := work_alone hr hpc hq
  have hh : ∃ c, P.handle q m = .ok (q', c) := by
    simp only [SrvProg.prog, kindProg] at hq'
    cases hx : P.handle q m with
    | ok y => rw [hx] at hq'; simp only [Option.some.injEq] at hq'; exact ⟨y.2, by rw [← hq']⟩
    | _ => rw [hx] at hq'; cases hq'
  obtain ⟨c, hh⟩ := hh
  have e4 := handleAll_snoc P.handle _ _ _ m e2
  rw [hh] at e4
  exact ⟨lib_grows e2 hh, lib_sent e4⟩

theorem ss_work {P : SrvProg U} [OfLibrary P] {tr ops es m'} {s : Srv U} (hr : MRun P.prog (mInit none) tr s.m) (J : SSInv tr ops s) {t k r m}
    (hpc : s.m.th t = .work k r m) (h0 : s.out t = []) (hl0 : s.loops t = none) (h : hstep P.prog t s.m = some (es, m')) {s' : Srv U}
    (hm : s'.m = m') (ht : s'.t = s.t) (ho : s'.out = put s.out t (sendsOf P.replyHeap t s.m m').1) (hl : s'.loops = s.loops) : SSInv (tr ++ es) ops s' := by
  obtain ⟨I, S, K, Q⟩ := run_kq hr
  have O := run_objs hr
  have hE := hstep_effect P.prog t s.m es m' I h
  have hmx : ∀ t', (m'.th t').mutexOf = (s.m.th t').mutexOf := by
    intro t'
    have h' := h
    unfold hstep at h'
    rw [hpc] at h'
    dsimp only at h'
    simp only [Option.some.injEq, Prod.mk.injEq] at h'; obtain ⟨-, rfl⟩ := h'
    by_cases htt : t' = t
    · subst htt; simp only [MSt.goto, put_eq]; rw [hpc]; split <;> rfl
    · simp only [MSt.goto]; rw [put_other _ _ _ htt]; rfl
  have hes : es = [.ended r t m (P.prog.handle (s.m.objs r).state m).2] ∧
      ∀ x, (m'.objs x).state = if x = r then (P.prog.handle (s.m.objs r).state m).1 else (s.m.objs x).state := by
    have h' := h
    unfold hstep at h'
    rw [hpc] at h'
    dsimp only at h'
    simp only [Option.some.injEq, Prod.mk.injEq] at h'; obtain ⟨rfl, rfl⟩ := h'
    refine ⟨rfl, fun x => ?_⟩
    simp only [MSt.goto, MSt.setObj, MSt.touch, put_state]
  obtain ⟨rfl, hst⟩ := hes
  have hhold : (s.m.th t).mutexOf = some (k, r) := by rw [hpc]; rfl
  have htab := I.mt t _ hhold
  obtain ⟨pre, hpre, hnin⟩ := O.ls k r htab
  have hobj : ∀ k' e, (∀ r k m, e ≠ MEvent.created r k m) → objsOf k' (tr ++ [e]) = objsOf k' tr := by
    intro k' e he
    rw [objsOf_append]
    have : objsOf k' [e] = [] := by
      cases e with
      | created r k m => exact absurd rfl (he r k m)
      | _ => simp [objsOf]
    rw [this, List.append_nil]
  have hother : ∀ t' k' r', t' ≠ t → (s.m.th t').mutexOf = some (k', r') → k' ≠ k := by
    intro t' k' r' hne hh hk
    subst hk
    have := I.nd k' r' r (I.mt t' _ hh) htab
    subst this
    have h1 : (s.m.th t').holdsM = some r' := by
      cases hp : s.m.th t' <;> rw [hp] at hh <;> simp_all [HPC.mutexOf, HPC.holdsM]
    have h2 : (s.m.th t).holdsM = some r' := by rw [hpc]; rfl
    have := (I.mu r' t').2 h1
    rw [(I.mu r' t).2 h2] at this
    cases this; exact hne rfl
  have hsame : ∀ k', k' ≠ k → madeFor k' (tr ++ [.ended r t m (P.prog.handle (s.m.objs r).state m).2]) m' = madeFor k' tr s.m ∧
      (SoundFor k' (tr ++ [.ended r t m (P.prog.handle (s.m.objs r).state m).2]) m' → SoundFor k' tr s.m) := by
    intro k' hk'
    have hnr : ∀ x m0, .created x k' m0 ∈ tr → x ≠ r := by
      intro x m0 hx hxr
      subst hxr
      obtain ⟨m1, hm1⟩ := mem_objsOf.1 (show x ∈ objsOf k tr by rw [hpre]; simp)
      exact hk' (O.un _ _ _ _ _ hx hm1).1
    constructor
    · unfold madeFor
      rw [hobj _ _ (by simp)]
      apply flatMap_ext'
      intro x hx
      obtain ⟨m0, hm0⟩ := mem_objsOf.1 hx
      rw [hst, if_neg (hnr x m0 hm0)]
    · intro hS x m0 hx
      have := hS x m0 (by simp [hx])
      rwa [hst, if_neg (hnr x m0 hx)] at this
  have hsnd : SoundFor k (tr ++ [.ended r t m (P.prog.handle (s.m.objs r).state m).2]) m' → SoundFor k tr s.m := by
    intro hS x m0 hx
    have := hS x m0 (by simp [hx])
    rw [hst] at this
    by_cases hxr : x = r
    · subst hxr
      rw [if_pos rfl] at this
      intro hn
      rw [hn] at this
      exact this rfl
    · rwa [if_neg hxr] at this
  -- what is produced
  have hnew : ∀ q q', (s.m.objs r).state = some q → (m'.objs r).state = some q' →
      (sendsOf P.replyHeap t s.m m').1 = (Transmits.sent q').drop (Transmits.sent q).length ∧
      Transmits.sent q' = Transmits.sent q ++ (Transmits.sent q').drop (Transmits.sent q).length ∧
      ∀ x ∈ Transmits.sent q', x.1 = k.socket ∧ Complete x.2.1 ∧ frameId x.2.1 = k.id.toNat := by
    intro q q' h1 h2
    have h3 : (P.prog.handle (some q) m).1 = some q' := by
      rw [hst, if_pos rfl, h1] at h2; exact h2
    obtain ⟨⟨l, hl⟩, hx⟩ := work_grow hr hpc h1 h3
    refine ⟨by simp only [sendsOf, hpc, h1, h2], ?_, hx⟩
    rw [hl]; simp
  subst hm
  refine ⟨?_, ?_, ?_, ?_, ?_, ?_⟩
  · intro t' k' r' hh; rw [hmx] at hh
    by_cases htt : t' = t
    · subst htt
      rw [hhold] at hh; cases hh
      rw [ho, put_eq]
      intro x hx
      have hb : ∃ q q', (s.m.objs r).state = some q ∧ (s'.m.objs r).state = some q' := by
        simp only [sendsOf, hpc] at hx
        split at hx
        · rename_i q q' h1 h2; exact ⟨q, q', h1, h2⟩
        · cases hx
      obtain ⟨q, q', h1, h2⟩ := hb
      obtain ⟨e1, e2, e3⟩ := hnew q q' h1 h2
      rw [e1] at hx
      exact e3 x (List.mem_of_mem_drop hx)
    · rw [ho, put_other _ _ _ htt]; exact J.ow1 t' k' r' hh
  · intro t' hh; rw [hmx] at hh
    have htt : t' ≠ t := by intro h; subst h; rw [hhold] at hh; cases hh
    rw [ho, put_other _ _ _ htt, ht]; exact J.ow2 t' hh
  · intro t' l hh; rw [hl] at hh; rw [hmx, ht]; exact J.lo t' l hh
  · intro c x hx; rw [ht]; exact J.st c x hx
  · intro k' hk0 hS t' r' hh; rw [hmx] at hh
    by_cases htt : t' = t
    · subst htt
      rw [hhold] at hh; cases hh
      have hold := J.eh k hk0 (hsnd hS) t' r hhold
      rw [h0, List.map_nil, List.append_nil] at hold
      obtain ⟨m0, hm0⟩ := mem_objsOf.1 (show r ∈ objsOf k tr by rw [hpre]; simp)
      have s1 := hsnd hS r m0 hm0
      have s2 := hS r m0 (by simp [hm0])
      obtain ⟨q, hq⟩ := Option.ne_none_iff_exists'.1 s1
      obtain ⟨q', hq'⟩ := Option.ne_none_iff_exists'.1 s2
      obtain ⟨e1, e2, e3⟩ := hnew q q' hq hq'
      rw [ho, put_eq, hold, e1]
      unfold madeFor
      rw [hobj _ _ (by simp), hpre, List.flatMap_append, List.flatMap_append, List.append_assoc]
      congr 1
      · apply flatMap_ext'
        intro x hx
        rw [hst, if_neg (fun h => hnin (by rw [← h]; exact hx))]
      · simp only [List.flatMap_cons, List.flatMap_nil, List.append_nil, hq, hq', recsOf]
        rw [← List.map_append, ← e2]
    · have hk' := hother t' k' r' htt hh
      rw [ho, put_other _ _ _ htt, (hsame k' hk').1]
      exact J.eh k' hk0 ((hsame k' hk').2 hS) t' r' hh
  · intro k' hk0 hS hh
    have hk' : k' ≠ k := by
      intro h; subst h
      exact hh t r (by rw [hmx]; exact hhold)
    rw [(hsame k' hk').1]
    exact J.en k' hk0 ((hsame k' hk').2 hS) (fun t' r' => by rw [← hmx]; exact hh t' r')

theorem ss_send {P : SrvProg U} [OfLibrary P] {tr ops} {s : Srv U} (I : MInv P.prog s.m) (K : MKInv s.m) (J : SSInv tr ops s) (t : Nat) (x rest) (hx : s.out t = x :: rest)
    {s' : Srv U} (hm : s'.m = s.m) (ht : s'.t.msgs = s.t.msgs) (ho : s'.out = put s.out t rest) (hl : s'.loops = s.loops) :
    SSInv tr (ops ++ [.send x.1 x.2.1 x.2.2]) s' := by
  have hxo : x ∈ s.out t := by rw [hx]; simp
  have hsub : ∀ t', ∀ y ∈ s'.out t', y ∈ s.out t' := by
    intro t' y hy
    rw [ho] at hy
    by_cases htt : t' = t
    · subst htt; rw [put_eq] at hy; rw [hx]; simp [hy]
    · rwa [put_other _ _ _ htt] at hy
  have hst : ∀ c, sentTo c [TOp.send x.1 x.2.1 x.2.2] = if x.1 = c then [x.2] else [] := by
    intro c; simp only [sentTo, List.flatMap_cons, List.flatMap_nil, List.append_nil]
  have hsf : ∀ k : RequestId, sentFor k (ops ++ [.send x.1 x.2.1 x.2.2]) = sentFor k ops ++ if x.1 = k.socket ∧ frameId x.2.1 = k.id.toNat then [x.2] else [] := by
    intro k
    unfold sentFor
    rw [sentTo_append, List.filter_append, hst]
    congr 1
    by_cases h1 : x.1 = k.socket <;> by_cases h2 : frameId x.2.1 = k.id.toNat <;> simp [h1, h2]
  -- other keys do not see it
  have hskip : ∀ k : RequestId, k.id ≠ 0 → (∀ r, (s.m.th t).mutexOf ≠ some (k, r)) → sentFor k (ops ++ [.send x.1 x.2.1 x.2.2]) = sentFor k ops := by
    intro k hk0 hn
    rw [hsf, if_neg, List.append_nil]
    rintro ⟨h1, h2⟩
    cases hmo : (s.m.th t).mutexOf with
    | none =>
      have := (J.ow2 t hmo x hxo).1
      rw [this] at h2
      exact hk0 (UInt16.toNat_inj.1 h2.symm)
    | some e =>
      obtain ⟨k', r'⟩ := e
      obtain ⟨e1, e2, e3⟩ := J.ow1 t k' r' hmo x hxo
      apply hn r'
      rw [hmo]
      have hs : k' = k := by
        obtain ⟨a, b⟩ := k; obtain ⟨a', b'⟩ := k'
        simp only at e1 e3 h1 h2
        rw [RequestId.mk.injEq]
        exact ⟨e1.symm.trans h1, UInt16.toNat_inj.1 (e3.symm.trans h2)⟩
      rw [hs]
  refine ⟨?_, ?_, ?_, ?_, ?_, ?_⟩
  · intro t' k r h y hy; rw [hm] at h; exact J.ow1 t' k r h y (hsub t' y hy)
  · intro t' h y hy; rw [hm] at h; rw [ht]; exact J.ow2 t' h y (hsub t' y hy)
  · intro t' l h; rw [hl] at h; rw [hm, ht]; exact J.lo t' l h
  · intro c y hy
    rw [sentTo_append, hst] at hy
    rw [ht]
    rcases List.mem_append.1 hy with hy | hy
    · exact J.st c y hy
    · split at hy
      · rename_i hc
        simp only [List.mem_singleton] at hy
        subst hy
        cases hmo : (s.m.th t).mutexOf with
        | none =>
          obtain ⟨e1, e2⟩ := J.ow2 t hmo x hxo
          right; exact ⟨e1, by rw [← hc]; exact e2⟩
        | some e =>
          obtain ⟨k', r'⟩ := e
          obtain ⟨e1, e2, e3⟩ := J.ow1 t k' r' hmo x hxo
          left
          refine ⟨e2, ?_⟩
          rw [e3]
          intro h
          exact (K.tk _ (I.mt t _ hmo)).1 (UInt16.toNat_inj.1 h)
      · cases hy
  · intro k hk0 hS t' r h; rw [hm] at h hS ⊢
    by_cases htt : t' = t
    · subst htt
      obtain ⟨e1, e2, e3⟩ := J.ow1 t' k r h x hxo
      have := J.eh k hk0 hS t' r h
      rw [hsf, if_pos ⟨e1, e3⟩, ho, put_eq, ← this, hx, List.map_cons]
      simp
    · rw [ho, put_other _ _ _ htt, hskip k hk0]
      · exact J.eh k hk0 hS t' r h
      · intro r' h'
        have := I.nd k r r' (I.mt t' _ h) (I.mt t _ h')
        subst this
        have g : ∀ t, (s.m.th t).mutexOf = some (k, r) → (s.m.th t).holdsM = some r := by
          intro t hh
          cases hp : s.m.th t <;> rw [hp] at hh <;> simp_all [HPC.mutexOf, HPC.holdsM]
        have := (I.mu r t').2 (g t' h)
        rw [(I.mu r t).2 (g t h')] at this
        cases this; exact htt rfl
  · intro k hk0 hS h; rw [hm] at h hS ⊢
    rw [hskip k hk0 (h t)]
    exact J.en k hk0 hS h

theorem hstep_ended {σ} (P : Prog σ) (t : Nat) (s : MSt σ) (es) (s') (h : hstep P t s = some (es, s'))
    (hn : ∀ k r m, s.th t ≠ .work k r m) : ∀ r t' m c, .ended r t' m c ∉ es := by
  unfold hstep at h
  cases hp : s.th t <;> rw [hp] at h <;> dsimp only at h
  case work k r m => exact absurd hp (hn k r m)
  all_goals repeat' split at h
  all_goals first | (cases h; done) | (simp only [Option.some.injEq, Prod.mk.injEq] at h; obtain ⟨rfl, rfl⟩ := h; simp)

theorem pstep_ended {σ} (P : Prog σ) (p w : Nat) (s : MSt σ) (es) (s') (h : pstep P p w s = some (es, s')) : ∀ r t' m c, .ended r t' m c ∉ es := by
  unfold pstep at h
  cases hp : s.pu p <;> rw [hp] at h <;> dsimp only at h
  all_goals repeat' split at h
  all_goals first | (cases h; done) | (simp only [Option.some.injEq, Prod.mk.injEq] at h; obtain ⟨rfl, rfl⟩ := h; simp)

theorem estep_ended {σ} (P : Prog σ) (e : Outer) (s : MSt σ) (es) (s') (h : estep P e s = some (es, s')) : ∀ r t' m c, .ended r t' m c ∉ es := by
  unfold estep at h
  cases e <;> dsimp only at h
  all_goals repeat' split at h
  all_goals first | (cases h; done) | (simp only [Option.some.injEq, Prod.mk.injEq] at h; obtain ⟨rfl, rfl⟩ := h; first | simp | (split <;> simp))

theorem put_id {α} (f : Nat → α) (i : Nat) (v : α) (h : f i = v) : put f i v = f := by
  funext j; unfold put; split
  · rename_i hj; rw [hj, h]
  · rfl

theorem srv_sends {P : SrvProg U} [OfLibrary P] {tr ops s} (h : SrvRun P srvInit tr ops s) : SSInv tr ops s := by
  induction h with
  | refl =>
    refine ⟨?_, ?_, ?_, ?_, ?_, ?_⟩ <;> simp [srvInit, mInit, HPC.mutexOf, sentTo, sentFor, madeFor, objsOf]
  | step run hs J =>
    rename_i tr ops s' es os s''
    have A := srv_parts run
    have R := srv_routed run
    obtain ⟨I, S, K, Q⟩ := run_kq A.m
    have byT : ∀ (op : TOp) {t'}, (op.byPeer = true ∨ op.byThread = true) → op.step P.recvHeap s'.t = .ok t' → SSInv (tr ++ []) (ops ++ [op]) (s'.withT t') := by
      intro op t' ho h
      obtain ⟨st1, h1, h2, _, _⟩ := init_run P.recvHeap ops
      rw [A.t] at h1; cases h1
      obtain ⟨new, hn⟩ := tstep_msgs P.recvHeap op s'.t t' (fun x => (h2 x).1) h
      refine ss_keep (tr := tr) (es := []) (os := [op]) J (fun t => rfl) rfl rfl (fun y hy => ?_) (fun c => ?_) (fun k => ?_)
      · show y ∈ t'.msgs
        rw [← hn]; simp [hy]
      · cases op <;> simp [TOp.byPeer, TOp.byThread] at ho <;> rfl
      · rw [List.append_nil]; exact ⟨rfl, id⟩
    cases hs with
    | peer op ho h => exact byT op (Or.inl ho) h
    | net op ho hi hg h => exact byT op (Or.inr ho) h
    | give x hx h =>
      exact ss_keep J (fun t => estep_mutex _ _ _ _ _ I h t) rfl rfl (fun y hy => hy) (fun c => rfl)
        (fun k => made_same A.m (.env _ h) (estep_ended _ _ _ _ _ h) k)
    | pusher p w h =>
      exact ss_keep J (fun t => pstep_mutex _ _ _ _ _ _ h t) rfl rfl (fun y hy => hy) (fun c => rfl)
        (fun k => made_same A.m (.pusher p w h) (pstep_ended _ _ _ _ _ _ h) k)
    | outer e he h =>
      exact ss_keep J (fun t => estep_mutex _ _ _ _ _ I h t) rfl rfl (fun y hy => hy) (fun c => rfl)
        (fun k => made_same A.m (.env _ h) (estep_ended _ _ _ _ _ h) k)
    | send t x rest ho =>
      rw [List.append_nil]
      exact ss_send I K J t x rest ho rfl rfl rfl rfl
    | again t l ho hl =>
      rw [List.append_nil ops]
      obtain ⟨h1, h2⟩ := J.lo t l hl
      have := ss_mgmt (es := []) (s' := { s' with out := put s'.out t l }) J t (fun _ => rfl) h1 l (s'.loops t) h2
        (fun l' h' => by rw [hl] at h'; cases h'; rfl) rfl (put_id _ _ _ rfl).symm rfl (fun k => by rw [List.append_nil]; exact ⟨rfl, id⟩)
      exact this
    | work t ho hl h =>
      rename_i m'
      rw [List.append_nil]
      by_cases hw : ∃ k r m, s'.m.th t = .work k r m
      · obtain ⟨k, r, m, hpc⟩ := hw
        refine ss_work A.m J hpc ho hl h rfl rfl rfl ?_
        dsimp only
        have : (sendsOf P.replyHeap t s'.m m').2 = false := by
          simp only [sendsOf, hpc]; split <;> rfl
        rw [this]
        exact put_id _ _ _ hl
      · have hnw : ∀ k r m, s'.m.th t ≠ .work k r m := fun k r m hh => hw ⟨k, r, m, hh⟩
        obtain ⟨h1, h2⟩ := hstep_mutex _ _ _ _ _ h
        have hmade := fun k => made_same A.m (.handler t h) (hstep_ended _ _ _ _ _ h hnw) k
        by_cases hp : ∃ k, s'.m.th t = .popped k ∧ k.id = 0
        · obtain ⟨k, hpc, hk0⟩ := hp
          have hn : (s'.m.th t).mutexOf = none := by rw [hpc]; rfl
          have hth : ∀ t', (m'.th t').mutexOf = (s'.m.th t').mutexOf := by
            intro t'
            by_cases htt : t' = t
            · subst htt
              rcases h2 with h2 | h2 | ⟨k', r', e1, _⟩
              · exact h2
              · rw [h2, hn]
              · rw [hpc] at e1; cases e1
            · exact h1 t' htt
          have hsd : ∀ x ∈ (sendsOf P.replyHeap t s'.m m').1, frameId x.2.1 = 0 ∧ ∃ y ∈ s'.t.msgs, y.id = ⟨x.1, 0⟩ := by
            intro x hx
            simp only [sendsOf, hpc, hk0, if_true] at hx
            split at hx
            · rename_i msg socket rest hmsg
              obtain ⟨e1, e2⟩ := mgmt_sent _ _ _ x hx
              refine ⟨e2, ?_⟩
              rw [e1]
              exact R.mm msg socket (by rw [hmsg]; simp)
            · cases hx
          refine ss_mgmt J t hth hn _ _ hsd ?_ rfl rfl rfl hmade
          intro l' h'
          split at h'
          · cases h'; rfl
          · cases h'
        · have hso : sendsOf P.replyHeap t s'.m m' = ([], false) := by
            unfold sendsOf
            cases hpc : s'.m.th t with
            | work k r m => exact absurd hpc (hnw k r m)
            | popped k =>
              dsimp only
              rw [if_neg]
              exact fun hk => hp ⟨k, hpc, hk⟩
            | _ => rfl
          rw [hso]
          simp only [Bool.false_eq_true, if_false]
          refine ss_move (s' := { s' with m := m', out := put s'.out t [], loops := put s'.loops t none }) J I t h1 h2 ho hl ?_ ?_ rfl hmade
          · exact put_id _ _ _ ho
          · exact put_id _ _ _ hl

end Fcgi.Model
