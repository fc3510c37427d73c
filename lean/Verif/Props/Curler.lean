import Verif.Lemmas.CurlerRun
/-! # Properties of the HTTP client's thread: C58, C97 - C101 -/
namespace Fcgi.Props
open Fcgi.Model Fcgi.Spec

variable {conc : Nat} {x y z : Bool} {tr : List CurlerEvent} {s : CurlerSt}

theorem snoc_induction {α} {P : List α → Prop} (l : List α) (nil : P []) (snoc : ∀ l x, P l → P (l ++ [x])) : P l := by
  have : ∀ l : List α, P l.reverse := by
    intro l
    induction l with
    | nil => exact nil
    | cons x l ih => rw [List.reverse_cons]; exact snoc _ _ ih
  simpa using this l.reverse

/-! ### C58 -/

/-- C58: at every moment of a history at most `conc` transfers have begun and are not complete. -/
theorem C58_bounded (h : CurlerRun (curlerInit conc x y z) tr s) (a : List CurlerEvent) (ha : a <+: tr) : (begunRs a).length ≤ (finishedRs a).length + conc := by
  obtain ⟨s1, h1⟩ := h.prefix ha
  have i := h1.inv
  have := i.balance.length_eq
  have := i.bound
  have := i.conc
  rw [List.length_append] at *
  omega

/-- C58: transfers begin in the order of the calls of `queue()`, one for each call at most. -/
theorem C58_order (h : CurlerRun (curlerInit conc x y z) tr s) : begunRs tr <+: queuedRs tr := ⟨s.queue, h.inv.order.symm⟩

/-- C58: only transfers that have begun complete, each once. -/
theorem C58_complete (h : CurlerRun (curlerInit conc x y z) tr s) (r : Nat) : (finishedRs tr).count r ≤ (begunRs tr).count r := by
  rw [h.inv.balance.count_eq, List.count_append]
  omega

theorem cb_mono (r : Nat) : ∀ (b : List CurlerEvent) (k : Option Nat), (∀ e ∈ b, e.ofThread = false) → b.foldl (cbAfter r) k = none → k = none := by
  intro b
  induction b with
  | nil => intro k _ h; exact h
  | cons e b ihb =>
    intro k hb h
    have h1 := ihb _ (fun e he => hb e (List.mem_cons_of_mem _ he)) h
    have he := hb e List.mem_cons_self
    cases e
    case setCb r' k' =>
      simp only [cbAfter] at h1
      split at h1
      · cases h1
      · exact h1
    all_goals first
      | exact h1
      | (simp [CurlerEvent.ofThread] at he; done)

/-- The last of these events leaves the thread there. -/
theorem after_finished (h : CurlerRun (curlerInit conc x y z) tr s) : ∀ (a b : List CurlerEvent) (r : Nat), tr = a ++ .finished r :: b → (∀ e ∈ b, e.ofThread = false) →
    (∃ m, s.pc = .callback r m) ∨ callbackOf r a = none := by
  generalize h0 : curlerInit conc x y z = s0 at h
  induction h with
  | refl => intro a b r h; simp at h
  | @step tr s' es s'' run hs ih =>
    intro a b r he hb
    subst h0
    have i := CurlerRun.inv run
    cases hs with
    | handler f hs =>
      obtain ⟨p1, p2, p3, p4, p5, p6, p7, p8⟩ := kstep_pc hs
      rcases (CurlerStep.handler f hs).one with rfl | ⟨e, rfl⟩
      · rw [List.append_nil] at he
        rcases ih a b r he hb with ⟨m, hm⟩ | hm
        · rcases p4 r m hm with ⟨_, hn, _⟩ | ⟨k, _, hk⟩
          · right
            have hcb := i.cb r
            rw [hn, he, callbackOf_append] at hcb
            have := cb_mono r b _ hb (by simpa only [List.foldl_cons, cbAfter] using hcb)
            exact this
          · cases hk
        · exact Or.inr hm
      · have het := p8 e (by simp)
        rcases List.eq_nil_or_concat b with rfl | ⟨b', y, rfl⟩
        · obtain ⟨rfl, h5⟩ := List.append_inj' he rfl
          cases h5
          exact Or.inl (p1 r rfl)
        · rw [List.concat_eq_append, ← List.cons_append, ← List.append_assoc] at he
          obtain ⟨_, h5⟩ := List.append_inj' he rfl
          cases h5
          have := hb e (by simp)
          rw [het] at this; cases this
    | call c hs =>
      obtain ⟨q1, q2, _⟩ := kcall_pc hs
      have move : (∃ m, s'.pc = .callback r m) → ∃ m, s''.pc = .callback r m := by
        rintro ⟨m, hm⟩
        rcases q2 with q | ⟨q, _⟩ | ⟨q, _⟩
        · exact ⟨m, q.trans hm⟩
        · rw [hm] at q; cases q
        · rw [hm] at q; cases q
      rcases (CurlerStep.call c hs).one with rfl | ⟨e, rfl⟩
      · rw [List.append_nil] at he
        exact (ih a b r he hb).imp move id
      · have het := q1 e (by simp)
        rcases List.eq_nil_or_concat b with rfl | ⟨b', y, rfl⟩
        · obtain ⟨rfl, h5⟩ := List.append_inj' he rfl
          cases h5
          cases het
        · rw [List.concat_eq_append, ← List.cons_append, ← List.append_assoc] at he
          obtain ⟨h4, h5⟩ := List.append_inj' he rfl
          cases h5
          exact (ih a b' r h4 fun e he => hb e (by simp [he])).imp move id

theorem last_event (h : CurlerRun (curlerInit conc x y z) tr s) : (∀ r m, s.pc = .callback r m → ∃ a b, tr = a ++ .finished r :: b ∧ ∀ e ∈ b, e.ofThread = false) ∧
    (∀ (a b : List CurlerEvent) (r k : Nat), tr = a ++ .called r k :: b → (∀ e ∈ b, e.ofThread = false) → ∃ m, s.pc = .clear r m) := by
  generalize h0 : curlerInit conc x y z = s0 at h
  induction h with
  | refl => subst h0; exact ⟨fun r m h => by simp [curlerInit] at h, fun a b r k h => by simp at h⟩
  | @step tr s' es s'' run hs ih =>
    subst h0
    obtain ⟨ih1, ih2⟩ := ih
    cases hs with
    | handler f hs =>
      obtain ⟨p1, p2, p3, p4, p5, p6, p7, p8⟩ := kstep_pc hs
      constructor
      · intro r m hm
        rw [p6 r m hm]
        exact ⟨tr, [], rfl, by simp⟩
      · intro a b r k he hb
        rcases (CurlerStep.handler f hs).one with rfl | ⟨e, rfl⟩
        · rw [List.append_nil] at he
          obtain ⟨m, hm⟩ := ih2 a b r k he hb
          cases p5 r m hm
        · have het := p8 e (by simp)
          rcases List.eq_nil_or_concat b with rfl | ⟨b', y, rfl⟩
          · obtain ⟨rfl, h5⟩ := List.append_inj' he rfl
            cases h5
            obtain ⟨m, _, h, _⟩ := p2 r k rfl
            exact ⟨m, h⟩
          · rw [List.concat_eq_append, ← List.cons_append, ← List.append_assoc] at he
            obtain ⟨_, h5⟩ := List.append_inj' he rfl
            cases h5
            have := hb e (by simp)
            rw [het] at this; cases this
    | call c hs =>
      obtain ⟨q1, q2, _⟩ := kcall_pc hs
      constructor
      · intro r m hm
        have hp : s'.pc = .callback r m := by
          rcases q2 with q | ⟨_, q⟩ | ⟨_, q⟩
          · exact q.symm.trans hm
          · rw [hm] at q; cases q
          · rw [hm] at q; cases q
        obtain ⟨a, b, rfl, hb⟩ := ih1 r m hp
        refine ⟨a, b ++ es, by simp, fun e he => ?_⟩
        rcases List.mem_append.1 he with he | he
        · exact hb e he
        · exact q1 e he
      · intro a b r k he hb
        have move : (∃ m, s'.pc = .clear r m) → ∃ m, s''.pc = .clear r m := by
          rintro ⟨m, hm⟩
          rcases q2 with q | ⟨q, _⟩ | ⟨q, _⟩
          · exact ⟨m, q.trans hm⟩
          · rw [hm] at q; cases q
          · rw [hm] at q; cases q
        rcases (CurlerStep.call c hs).one with rfl | ⟨e, rfl⟩
        · rw [List.append_nil] at he
          exact move (ih2 a b r k he hb)
        · have het := q1 e (by simp)
          rcases List.eq_nil_or_concat b with rfl | ⟨b', y, rfl⟩
          · obtain ⟨rfl, h5⟩ := List.append_inj' he rfl
            cases h5
            cases het
          · rw [List.concat_eq_append, ← List.cons_append, ← List.append_assoc] at he
            obtain ⟨h4, h5⟩ := List.append_inj' he rfl
            cases h5
            exact move (ih2 a b' r k h4 fun e he => hb e (by simp [he]))

theorem CurlerStep.thread {s s' : CurlerSt} {e : CurlerEvent} (h : CurlerStep s [e] s') (he : e.ofThread = true) : ∃ f, kstep f s = some ([e], s') := by
  cases h with
  | handler f h => exact ⟨f, h⟩
  | call c h => have := (kcall_pc h).1 e (by simp); rw [he] at this; cases this

/-- C58: a callback is called only when the request's transfer has just completed, and it is the function the request has then. -/
theorem C58_called (h : CurlerRun (curlerInit conc x y z) tr s) (a b : List CurlerEvent) (r k : Nat) (e : tr = a ++ .called r k :: b) :
    callbackOf r a = some k ∧ ∃ u v, a = u ++ .finished r :: v ∧ ∀ e ∈ v, e.ofThread = false := by
  obtain ⟨s1, s2, h1, hs, _⟩ := h.split a _ b e
  obtain ⟨f, hf⟩ := CurlerStep.thread hs rfl
  obtain ⟨m, hm, _, hk⟩ := (kstep_pc hf).2.1 r k rfl
  exact ⟨by rw [h1.inv.cb, hk], (last_event h1).1 r m hm⟩

/-- C58: when a transfer completes and its request has a function, that is what is called next (whatever other threads do meanwhile). -/
theorem C58_calls_partial (h : CurlerRun (curlerInit conc x y z) tr s) (a b c : List CurlerEvent) (r : Nat) (e : CurlerEvent) (ht : tr = a ++ .finished r :: b ++ e :: c)
    (hb : ∀ e ∈ b, e.ofThread = false) (he : e.ofThread = true) (hf : callbackOf r a ≠ none) : ∃ k, e = .called r k ∧ callbackOf r (a ++ .finished r :: b) = some k := by
  obtain ⟨s1, s2, h1, hs, _⟩ := h.split (a ++ .finished r :: b) e c ht
  obtain ⟨f, hk⟩ := CurlerStep.thread hs he
  obtain ⟨m, hm⟩ := (after_finished h1 a b r rfl hb).resolve_right hf
  rcases (kstep_pc hk).2.2.2.1 r m hm with ⟨h2, _⟩ | ⟨k, h2, h3⟩
  · cases h2
  · cases h3
    exact ⟨k, rfl, by rw [h1.inv.cb, h2]⟩

/-- C58: after a call the function is destroyed, so that it is not called twice. -/
theorem C58_dropped (h : CurlerRun (curlerInit conc x y z) tr s) (a b c : List CurlerEvent) (r k : Nat) (e : CurlerEvent) (ht : tr = a ++ .called r k :: b ++ e :: c)
    (hb : ∀ e ∈ b, e.ofThread = false) (he : e.ofThread = true) : e = .dropped r := by
  obtain ⟨s1, s2, h1, hs, _⟩ := h.split (a ++ .called r k :: b) e c ht
  obtain ⟨f, hk⟩ := CurlerStep.thread hs he
  obtain ⟨m, hm⟩ := (last_event h1).2 a b r k rfl hb
  simpa using (kstep_pc hk).2.2.2.2.1 r m hm

theorem calledRs_append (a b : List CurlerEvent) : calledRs (a ++ b) = calledRs a ++ calledRs b := by simp [calledRs]

theorem called_count (h : CurlerRun (curlerInit conc x y z) tr s) (r : Nat) : (calledRs tr).count r + (match s.pc with | .callback r' _ => if r' = r then 1 else 0 | _ => 0) ≤ (finishedRs tr).count r := by
  generalize h0 : curlerInit conc x y z = s0 at h
  induction h with
  | refl => subst h0; simp [curlerInit, calledRs]
  | @step tr s' es s'' run hs ih =>
    subst h0
    rw [calledRs_append, finishedRs_append, List.count_append, List.count_append]
    cases hs with
    | handler f hs =>
      obtain ⟨p1, p2, p3, p4, p5, p6, p7, p8⟩ := kstep_pc hs
      have hr : (match s''.pc with | .callback r' _ => if r' = r then 1 else 0 | _ => 0) ≤ (finishedRs es).count r := by
        split
        · rename_i r' m hm
          rw [p6 r' m hm]
          by_cases hr : r' = r <;> simp [finishedRs, hr]
        · exact Nat.zero_le _
      by_cases hc : (calledRs es).count r = 0
      · have : (calledRs tr).count r ≤ (finishedRs tr).count r := by omega
        omega
      · have hex : ∃ k, es = [.called r k] := by
          rcases (CurlerStep.handler f hs).one with rfl | ⟨e, rfl⟩
          · simp [calledRs] at hc
          · cases e <;> simp [calledRs] at hc
            rename_i r' k
            by_cases hr' : r' = r
            · exact ⟨k, by rw [hr']⟩
            · simp [List.count_singleton, hr'] at hc
        obtain ⟨k, rfl⟩ := hex
        obtain ⟨m, hm, hm', _⟩ := p2 r k rfl
        rw [hm] at ih
        simp [hm', calledRs, finishedRs] at ih ⊢
        exact ih
    | call c hs =>
      obtain ⟨q1, q2, _⟩ := kcall_pc hs
      have h1 : calledRs es = [] := by
        unfold calledRs
        rw [List.filterMap_eq_nil_iff]
        intro e he
        have := q1 e he
        cases e <;> simp_all [CurlerEvent.ofThread]
      rw [h1]
      have : (match s''.pc with | .callback r' _ => if r' = r then 1 else 0 | _ => 0) ≤ (match s'.pc with | .callback r' _ => if r' = r then 1 else 0 | _ => 0) := by
        rcases q2 with q | ⟨_, q⟩ | ⟨_, q⟩
        · rw [q]; exact Nat.le_refl _
        · rw [q]; exact Nat.zero_le _
        · rw [q]; exact Nat.zero_le _
      simp only [List.count_nil]
      omega

/-- C58: no more calls than completions. -/
theorem C58_once (h : CurlerRun (curlerInit conc x y z) tr s) (r : Nat) : (calledRs tr).count r ≤ (finishedRs tr).count r := Nat.le_trans (Nat.le_add_right _ _) (called_count h r)

/-- One transfer, from `queue()` to the callback: the steps of the thread. -/
def oneTransfer (r : Nat) : List (KFate ⊕ KCall) := [.inl .go, .inl .go, .inl .go, .inl (.complete []), .inl .timeout, .inl (.complete [r]), .inl .go, .inl .go, .inl .go]

def queueing (r : Nat) : List (KFate ⊕ KCall) := [.inr (.queue r), .inr .locked, .inr .locked, .inr .locked]

-- A history where all that happens, with two requests at a time.
example : ∃ tr s, CurlerRun (curlerInit 2 true false true) tr s ∧ decide (tr = [.setCb 7 1, .queued 7, .queued 8, .started, .began 7, .began 8, .finished 8, .finished 7, .called 7 1, .dropped 7,
    .stopped, .ended] ∧ s.pc = .done) = true :=
  kfound ([.inr (.setCb 7 1), .inr (.queue 7), .inr .locked, .inr (.queue 8), .inr .locked, .inr .start, .inl .go, .inl .go, .inl .go, .inl .go, .inl (.complete []), .inl .socket, .inl (.complete [8, 7])] ++
    [.inl .go, .inl .go, .inl .go, .inl .go, .inl .go, .inr .stop, .inl .go, .inl .go]) (by decide +kernel)

/-- C58 fails: a function set between the call of the old one and its destruction (in the callback itself, for instance, to use the
request again) is never called. -/
theorem C58_lost_violated : ∃ tr s, CurlerRun (curlerInit 1 false false false) tr s ∧
    decide (tr = [.setCb 7 1, .queued 7, .started, .began 7, .finished 7, .called 7 1, .setCb 7 2, .queued 7, .dropped 7, .began 7, .finished 7, .stopped, .ended]) = true :=
  kfound ([.inr (.setCb 7 1)] ++ queueing 7 ++ [.inr .start] ++ (oneTransfer 7).take 8 ++ [.inr (.setCb 7 2)] ++ queueing 7 ++ [.inl .go] ++ (oneTransfer 7).take 7 ++
    [.inl .go, .inr .stop, .inl .go, .inl .go]) (by decide +kernel)

/-! ### C100: requests that are complete at once -/

/-- C100: the thread goes back to the queue, after a look at the transfers, only when it has taken note of all that are complete. -/
theorem C100_noted_partial (h : CurlerRun (curlerInit conc x y z) tr s) {f : KFate} {es : List CurlerEvent} {s' : CurlerSt}
    (hp : s.pc = .info ∨ (∃ r m, s.pc = .callback r m) ∨ ∃ r m, s.pc = .clear r m) (hs : kstep f s = some (es, s')) (hq : s'.pc = .relock) : s'.msgs = [] := by
  have i := h.inv
  unfold kstep at hs
  rcases hp with hp | ⟨r, m, hp⟩ | ⟨r, m, hp⟩
  · rw [hp] at hs
    cases f <;> simp at hs
    unfold CurlerSt.note at hs
    split at hs
    · cases hs; assumption
    · split at hs <;> (cases hs; simp at hq)
  · have hm := i.more r m (Or.inl hp)
    rw [hp] at hs
    cases f <;> simp at hs
    split at hs <;> cases hs
    · simp [nextMessage] at hq; subst hq; simpa using hm
    · simp at hq
  · have hm := i.more r m (Or.inr hp)
    rw [hp] at hs
    cases f <;> simp at hs
    obtain ⟨_, rfl⟩ := hs
    simp [nextMessage] at hq; subst hq; simpa using hm

/-- All transfers in progress are complete, and nothing but a wake-up, after which the messages are not read, awakes the thread. -/
def Deaf (s : CurlerSt) : Prop := s.running = [] ∧ s.count = 0 ∧ s.handles ≠ [] ∧ s.conc ≤ s.handles.length ∧ s.term = false ∧
  (s.pc = .poll ∨ s.pc = .wakeLock ∨ s.pc = .reset ∨ s.pc = .test)

theorem Deaf.step {s s' : CurlerSt} {es : List CurlerEvent} (d : Deaf s) (h : CurlerStep s es s') (hes : .interrupted ∉ es ∧ .stray ∉ es ∧ .terminated ∉ es) :
    Deaf s' ∧ ∀ e ∈ es, e.ofThread = false := by
  obtain ⟨h1, h2, h3, h4, h5, h6⟩ := d
  have hends : s.ends = false := by simp [CurlerSt.ends, h5, h3]
  have hfill : s.mayFill = false := by simp only [CurlerSt.mayFill, Bool.and_eq_false_iff, decide_eq_false_iff_not]; exact Or.inr (by omega)
  cases h with
  | handler f h =>
    unfold kstep at h
    rcases h6 with hp | hp | hp | hp
    all_goals rw [hp] at h
    all_goals cases f
    all_goals simp only [h1, h2, hends, hfill, if_true, if_false, Option.some.injEq, Prod.mk.injEq, reduceCtorEq, Nat.lt_irrefl, Bool.false_eq_true] at h
    all_goals repeat' split at h
    all_goals try (cases h; done)
    all_goals obtain ⟨rfl, rfl⟩ := by simpa only [Option.some.injEq, Prod.mk.injEq] using h
    all_goals first
      | (simp at hes; done)
      | exact ⟨⟨by first | exact h1 | rfl, by first | exact h2 | rfl, h3, h4, h5, by simp⟩, by simp⟩
  | call c h =>
    refine ⟨?_, (kcall_pc h).1⟩
    unfold kcall at h
    split at h
    · cases h
    repeat' split at h
    all_goals cases h
    all_goals first
      | (simp at hes; done)
      | exact ⟨h1, h2, h3, h4, h5, h6⟩
      | (rename_i hp; rcases h6 with h | h | h | h <;> (rw [h] at hp; cases hp))

theorem Deaf.run {s s' : CurlerSt} {tr : List CurlerEvent} (h : CurlerRun s tr s') (d : Deaf s) (hes : .interrupted ∉ tr ∧ .stray ∉ tr ∧ .terminated ∉ tr) :
    Deaf s' ∧ ∀ e ∈ tr, e.ofThread = false := by
  induction h with
  | refl => exact ⟨d, by simp⟩
  | step run hs ih =>
    simp only [List.mem_append, not_or] at hes
    obtain ⟨d1, h1⟩ := ih ⟨hes.1.1, hes.2.1.1, hes.2.2.1⟩
    obtain ⟨d2, h2⟩ := d1.step hs ⟨hes.1.2, hes.2.1.2, hes.2.2.2⟩
    refine ⟨d2, fun e he => ?_⟩
    rcases List.mem_append.1 he with he | he
    · exact h1 e he
    · exact h2 e he

/-- C100 fails: a request whose transfer completes as soon as it is begun (because its URL is wrong, for instance), the only one in
progress, is not noticed.  Then neither its callback is called nor any other request begun, nor does the thread end after `stop()`: the thread
does nothing at all until a signal interrupts it or `terminate()` is called. -/
theorem C100_violated (r k : Nat) : ∃ tr s, CurlerRun (curlerInit 1 false false false) tr s ∧ tr = [.setCb r k, .queued r, .started, .began r] ∧
    s.running = [] ∧ ∀ tr' s', CurlerRun s tr' s' → .interrupted ∉ tr' → .stray ∉ tr' → .terminated ∉ tr' → ∀ e ∈ tr', e.ofThread = false := by
  have hd : ∃ s, kdo ([.inr (.setCb r k)] ++ queueing r ++ [.inr .start] ++ (oneTransfer r).take 3 ++ [.inl (.complete [r])]) (curlerInit 1 false false false) =
      some ([.setCb r k, .queued r, .started, .began r], s) ∧ s.running = [] ∧ s.count = 0 ∧ s.handles = [r] ∧ s.conc = 1 ∧ s.term = false ∧ s.pc = .poll := by
    simp [kdo, kone, queueing, oneTransfer, kcall, kstep, curlerInit, CurlerSt.ends, CurlerSt.mayFill, CurlerSt.take, CurlerSt.act, CurlerPC.holds]
  obtain ⟨s, hs, h1, h2, h3, h4, h5, h6⟩ := hd
  refine ⟨_, s, kdo_sound _ _ _ _ hs, rfl, h1, fun tr' s' hr e1 e2 e3 => (Deaf.run hr ⟨h1, h2, by simp [h3], by simp [h3, h4], h5, Or.inl h6⟩ ⟨e1, e2, e3⟩).2⟩

-- ... with `stop()` and more requests, and wake-ups, for instance.
example : ∃ tr s, CurlerRun (curlerInit 1 false false false) tr s ∧
    decide (tr = [.setCb 7 1, .queued 7, .started, .began 7, .stopped, .queued 8] ∧ s.stop = true ∧ s.pc = .poll ∧ s.bytes = 0 ∧ s.waking = false) = true :=
  kfound ([.inr (.setCb 7 1)] ++ queueing 7 ++ [.inr .start] ++ (oneTransfer 7).take 3 ++ [.inl (.complete [7])] ++ [.inr .stop, .inr .read, .inr .set, .inr .write, .inr (.queue 8), .inr .locked] ++
    [.inl .wake, .inl .go, .inl .go, .inl .go]) (by decide +kernel)

/-- C58 fails: so not every callback is called. -/
theorem C58_never_violated (r k : Nat) : ∃ tr s, CurlerRun (curlerInit 1 false false false) tr s ∧ tr = [.setCb r k, .queued r, .started, .began r] ∧
    s.running = [] ∧ ∀ tr' s', CurlerRun s tr' s' → .interrupted ∉ tr' → .stray ∉ tr' → .terminated ∉ tr' → .called r k ∉ tr' := by
  obtain ⟨tr, s, h1, h2, h3, h4⟩ := C100_violated r k
  refine ⟨tr, s, h1, h2, h3, fun tr' s' hr a b c hm => ?_⟩
  have := h4 tr' s' hr a b c _ hm
  simp [CurlerEvent.ofThread] at this

/-! ### C97: stop() -/

theorem ended_state (h : CurlerRun (curlerInit conc x y z) tr s) (a b : List CurlerEvent) (e : tr = a ++ .ended :: b) : ∃ s1, CurlerRun (curlerInit conc x y z) a s1 ∧ s1.ends = true ∧ s1.pc = .test := by
  obtain ⟨s1, s2, h1, hs, _⟩ := h.split a _ b e
  obtain ⟨f, hf⟩ := CurlerStep.thread hs rfl
  refine ⟨s1, h1, ?_⟩
  unfold kstep at hf
  split at hf
  all_goals try unfold CurlerSt.take at hf
  all_goals try unfold CurlerSt.note at hf
  all_goals try rw [Option.map_eq_some_iff] at hf
  all_goals repeat' split at hf
  all_goals first
    | (simp at hf; done)
    | (rw [Option.map_eq_some_iff] at hf; simp at hf; done)
    | (constructor <;> assumption)

/-- C97: unless `terminate()` has been called since the thread was started, when it ends every request queued has been begun and is
complete, as often as it was queued. -/
theorem C97_drained_partial (h : CurlerRun (curlerInit conc x y z) tr s) (a b : List CurlerEvent) (e : tr = a ++ .ended :: b) (ht : .terminated ∉ sinceStart a) :
    begunRs a = queuedRs a ∧ (finishedRs a).Perm (queuedRs a) := by
  obtain ⟨s1, h1, h2, h3⟩ := ended_state h a b e
  have i := h1.inv
  have hterm : s1.term = false := by
    cases hh : s1.term with
    | false => rfl
    | true => exact absurd ((i.term.resolve_left (by simp [h3])).1 hh) ht
  simp [CurlerSt.ends, hterm] at h2
  obtain ⟨⟨_, hq⟩, hh⟩ := h2
  have e1 := i.order
  have e2 := i.balance
  rw [hq, List.append_nil] at e1
  rw [hh, List.append_nil] at e2
  exact ⟨e1.symm, by rw [e1]; exact e2.symm⟩

/-- C97: and every one of them whose request had a function has called it: the thread does not end between the completion and the call. -/
theorem C97_called (h : CurlerRun (curlerInit conc x y z) tr s) (a b c : List CurlerEvent) (r : Nat) (ht : tr = a ++ .finished r :: b ++ .ended :: c)
    (hf : callbackOf r a ≠ none) : ∃ k u v, b = u ++ .called r k :: v ∧ ∀ e ∈ u, e.ofThread = false := by
  have : ∃ u e v, b ++ .ended :: c = u ++ e :: v ∧ (∀ e ∈ u, e.ofThread = false) ∧ e.ofThread = true := by
    clear ht
    induction b with
    | nil => exact ⟨[], .ended, c, rfl, by simp, rfl⟩
    | cons e b ih =>
      cases he : e.ofThread with
      | true => exact ⟨[], e, b ++ .ended :: c, rfl, by simp, he⟩
      | false =>
        obtain ⟨u, e', v, h1, h2, h3⟩ := ih
        refine ⟨e :: u, e', v, by rw [List.cons_append, h1]; rfl, ?_, h3⟩
        simpa [he] using h2
  obtain ⟨u, e, v, h1, h2, h3⟩ := this
  obtain ⟨k, rfl, _⟩ := C58_calls_partial h a u v r e (by rw [ht]; simp only [List.append_assoc, List.cons_append, h1]) h2 h3 hf
  refine ⟨k, u, ?_⟩
  rcases List.append_eq_append_iff.1 h1 with ⟨w, h4, h5⟩ | ⟨w, h4, h5⟩
  · cases w with
    | nil => simp at h5
    | cons d w =>
      simp at h5
      have := h2 d (by rw [h4]; simp)
      rw [← h5.1] at this
      cases this
  · cases w with
    | nil => simp at h5
    | cons d w =>
      simp at h5
      exact ⟨w, by rw [h4, h5.1], h2⟩

/-- C97 fails: `stop()` may never end the thread, though every transfer is complete. -/
theorem C97_violated (r k : Nat) : ∃ tr s, CurlerRun (curlerInit 1 false false false) tr s ∧ tr = [.setCb r k, .queued r, .started, .began r] ∧
    s.running = [] ∧ ∀ tr' s', CurlerRun s tr' s' → .interrupted ∉ tr' → .stray ∉ tr' → .terminated ∉ tr' → .ended ∉ tr' := by
  obtain ⟨tr, s, h1, h2, h3, h4⟩ := C100_violated r k
  refine ⟨tr, s, h1, h2, h3, fun tr' s' hr a b c hm => ?_⟩
  have := h4 tr' s' hr a b c _ hm
  simp [CurlerEvent.ofThread] at this

/-! ### C98: the thread ends when asked to, and sleeps only if there is nothing to do -/

/-- C98: the thread ends only if it has been asked to since it was started. -/
theorem C98_asked (h : CurlerRun (curlerInit conc x y z) tr s) (a b : List CurlerEvent) (e : tr = a ++ .ended :: b) : .terminated ∈ sinceStart a ∨ .stopped ∈ sinceStart a := by
  obtain ⟨s1, h1, h2, h3⟩ := ended_state h a b e
  have i := h1.inv
  simp only [CurlerSt.ends, Bool.or_eq_true, Bool.and_eq_true] at h2
  rcases h2 with h2 | ⟨⟨h2, _⟩, _⟩
  · exact Or.inl ((i.term.resolve_left (by simp [h3])).1 h2)
  · exact Or.inr ((i.stop.resolve_left (by simp [h3])).1 h2)

/-- The thread sleeps: it waits for events, there is nothing in the wake-up socket, and no other thread is in a call that might write there. -/
def Asleep (s : CurlerSt) : Prop := s.pc = .poll ∧ s.bytes = 0 ∧ s.asked = 0 ∧ s.saw = 0 ∧ s.writing = 0 ∧ s.lock = none

/-- C98: no wake-up is lost: when the thread sleeps, `terminate()` has not been called; either every request queued has been begun or as
many as allowed are in progress; and if `stop()` has been called some requests are not complete. -/
theorem C98_asleep (h : CurlerRun (curlerInit conc x y z) tr s) (hs : Asleep s) : .terminated ∉ sinceStart tr ∧
    (begunRs tr = queuedRs tr ∨ (begunRs tr).length = (finishedRs tr).length + conc) ∧ (.stopped ∈ sinceStart tr → ¬ (finishedRs tr).Perm (queuedRs tr)) := by
  have i := h.inv
  obtain ⟨hp, h1, h2, h3, h4, h5⟩ := hs
  have hends : ¬ s.ends = true := fun he => by
    have := i.quiet (Or.inl hp) he
    simp [h1, h2, h3, h4, h5] at this
  have hfill : ¬ s.mayFill = true := fun he => by
    have := i.quietQ hp he
    simp [h1, h2, h3, h4, h5] at this
  have hlen := i.balance.length_eq
  rw [List.length_append] at hlen
  have hord := congrArg List.length i.order
  rw [List.length_append] at hord
  simp only [CurlerSt.ends, Bool.or_eq_true, Bool.and_eq_true, List.isEmpty_iff, not_or, not_and] at hends
  refine ⟨fun ht => hends.1 ((i.term.resolve_left (by simp [hp])).2 ht), ?_, fun ht hperm => ?_⟩
  · simp only [CurlerSt.mayFill, Bool.and_eq_true, Bool.not_eq_true', decide_eq_true_eq, not_and] at hfill
    cases hq : s.queue with
    | nil => left; rw [i.order, hq, List.append_nil]
    | cons r q =>
      right
      have := hfill (by rw [hq]; rfl)
      have := i.bound
      have := i.conc
      omega
  · have hp2 := hperm.length_eq
    have hz1 : s.queue = [] := List.length_eq_zero_iff.1 (by omega)
    have hz2 : s.handles = [] := List.length_eq_zero_iff.1 (by omega)
    exact hends.2 ⟨(i.stop.resolve_left (by simp [hp])).2 ht, hz1⟩ hz2

example : ∃ tr s, CurlerRun (curlerInit 1 false true true) tr s ∧ Asleep s ∧ decide (tr = [.queued 7, .queued 8, .started, .began 7, .stopped]) = true := by
  obtain ⟨tr, s, h, hp⟩ := kfound (s := curlerInit 1 false true true) (p := fun tr s => decide (s.pc = .poll ∧ s.bytes = 0 ∧ s.asked = 0 ∧ s.saw = 0 ∧ s.writing = 0 ∧ s.lock = none ∧
    tr = [.queued 7, .queued 8, .started, .began 7, .stopped]))
    ([.inr (.queue 7), .inr .locked, .inr (.queue 8), .inr .locked, .inr .start, .inl .go, .inl .go, .inl .go, .inr .stop, .inr .read, .inr .set, .inr .write, .inl (.complete []), .inl .wake, .inl .go, .inl .go, .inl .go])
    (by decide +kernel)
  simp only [decide_eq_true_eq] at hp
  exact ⟨tr, s, h, ⟨hp.1, hp.2.1, hp.2.2.1, hp.2.2.2.1, hp.2.2.2.2.1, hp.2.2.2.2.2.1⟩, by simpa using hp.2.2.2.2.2.2⟩

/-- How many steps of the thread are left at most, once it has been told to end. -/
def stepsLeft (s : CurlerSt) : Nat :=
  match s.pc with
  | .off | .done | .crashed => 0
  | .test => 1
  | .relock | .reset => 2
  | .wakeLock => 3
  | .info => 3 + 3 * s.msgs.length
  | .clear _ _ => 4 + 3 * s.msgs.length
  | .callback _ _ => 5 + 3 * s.msgs.length
  | .action => 4 + 3 * (s.msgs.length + s.running.length)
  | .poll => 5 + 3 * (s.msgs.length + s.running.length)
  | .fill => 6 + 3 * (s.msgs.length + s.running.length) + 4 * s.queue.length

theorem act_length {s s' : CurlerSt} {rs : List Nat} {pc : CurlerPC} (h : s.act rs pc = some s') (i : CurlerInv conc tr s) :
    s'.msgs.length + s'.running.length = s.msgs.length + s.running.length ∧ s'.pc = pc ∧ s'.term = s.term := by
  obtain ⟨rfl, hp⟩ := act_perm h i.perm i.nodup
  have h1 := hp.length_eq
  have h2 := i.perm.length_eq
  refine ⟨?_, rfl, rfl⟩
  simp only [List.length_append] at h1 h2 ⊢
  omega

/-- C98: after `terminate()` the thread ends: each of its steps leaves fewer steps to the end, calls of other threads leave as many, and
it can always go on (if need be after a step of another thread that is in `queue()`, or before the end of the calls that it has to be awoken by). -/
theorem C98_terminate (h : CurlerRun (curlerInit conc x y z) tr s) (ht : s.term = true) :
    (∀ f es s', kstep f s = some (es, s') → s'.term = true ∧ stepsLeft s' < stepsLeft s) ∧
    (∀ c es s', kcall c s = some (es, s') → (c = .start ∧ s.pc = .off) ∨ (s'.term = true ∧ stepsLeft s' = stepsLeft s)) ∧
    (s.pc ≠ .off → s.pc ≠ .done → s.pc ≠ .crashed → s.lock = none → s.asked = 0 → s.saw = 0 → s.writing = 0 → ∃ f, f ≠ .signal ∧ f ≠ .socket ∧ (kstep f s).isSome) := by
  have i := h.inv
  have hends : s.ends = true := by simp [CurlerSt.ends, ht]
  refine ⟨?_, ?_, ?_⟩
  · intro f es s' hs
    unfold kstep at hs
    split at hs
    case h_1 hp => split at hs <;> cases hs; exact ⟨ht, by simp [stepsLeft, hp]⟩
    case h_2 hp => rw [if_pos hends] at hs; cases hs; exact ⟨ht, by simp [stepsLeft, hp]⟩
    case h_3 hp =>
      split at hs
      case isFalse => cases hs
      rename_i hm
      unfold CurlerSt.take at hs
      split at hs
      · rename_i hq; simp [CurlerSt.mayFill, hq] at hm
      · rename_i r q hq
        split at hs <;> cases hs
        · exact ⟨ht, by simp only [stepsLeft, hp]; omega⟩
        · exact ⟨ht, by simp [stepsLeft, hp, hq]; omega⟩
    case h_4 hp =>
      split at hs
      · cases hs
      · rw [Option.map_eq_some_iff] at hs
        obtain ⟨s1, hs, h⟩ := hs
        cases h
        obtain ⟨e1, e2, e3⟩ := act_length hs i
        exact ⟨e3.trans ht, by simp only [stepsLeft, hp, e2]; omega⟩
    case h_5 hp => split at hs <;> cases hs; exact ⟨ht, by simp [stepsLeft, hp]; omega⟩
    case h_6 hp => split at hs <;> cases hs; exact ⟨ht, by simp [stepsLeft, hp]⟩
    case h_7 hp => cases hs; exact ⟨ht, by simp [stepsLeft, hp]⟩
    case h_8 hp => cases hs; exact ⟨ht, by simp [stepsLeft, hp]⟩
    case h_9 hp => split at hs <;> cases hs; exact ⟨ht, by simp [stepsLeft, hp]⟩
    case h_10 hp => cases hs; exact ⟨ht, by simp [stepsLeft, hp]⟩
    case h_11 hp =>
      rw [Option.map_eq_some_iff] at hs
      obtain ⟨s1, hs, h⟩ := hs
      cases h
      obtain ⟨e1, e2, e3⟩ := act_length hs i
      exact ⟨e3.trans ht, by simp only [stepsLeft, hp, e2]; omega⟩
    case h_12 hp =>
      unfold CurlerSt.note at hs
      split at hs
      · cases hs; exact ⟨ht, by simp [stepsLeft, hp]; omega⟩
      · rename_i r ms hm
        split at hs <;> cases hs
        · exact ⟨ht, by simp [stepsLeft, hp, hm]; omega⟩
        · exact ⟨ht, by simp only [stepsLeft, hp]; omega⟩
    case h_13 r more hp =>
      split at hs <;> cases hs
      · refine ⟨ht, ?_⟩
        unfold nextMessage
        split <;> simp [stepsLeft, hp]
        omega
      · exact ⟨ht, by simp [stepsLeft, hp]⟩
    case h_14 r more hp =>
      cases hs
      refine ⟨ht, ?_⟩
      unfold nextMessage
      split <;> simp [stepsLeft, hp]
      omega
    case h_15 => cases hs
  · intro c es s' hs
    unfold kcall at hs
    split at hs
    · cases hs
    repeat' split at hs
    all_goals cases hs
    all_goals first
      | exact Or.inr ⟨ht, rfl⟩
      | exact Or.inr ⟨rfl, rfl⟩
      | (rename_i hp; exact Or.inl ⟨rfl, hp⟩)
      | (rename_i hp; refine Or.inr ⟨ht, ?_⟩; simp only [stepsLeft]; rw [hp]; done)
      | skip
    rename_i r hp
    refine Or.inr ⟨ht, ?_⟩
    unfold stepsLeft
    dsimp only
    split
    all_goals first | rfl | skip
    rename_i hf
    rw [hf] at hp
    simp [CurlerPC.holds] at hp
  · intro h1 h2 h3 hl ha hsw hwr
    cases hp : s.pc with
    | off => exact absurd hp h1
    | done => exact absurd hp h2
    | crashed => exact absurd hp h3
    | relock => exact ⟨.go, by simp, by simp, by simp [kstep, hp, hl]⟩
    | test => exact ⟨.go, by simp, by simp, by simp [kstep, hp, hends]⟩
    | fill =>
      cases hm : s.mayFill with
      | true => exact ⟨.go, by simp, by simp, by simp [kstep, hp, hm]⟩
      | false => exact ⟨.complete [], by simp, by simp, by simp [kstep, hp, hm, CurlerSt.act]⟩
    | poll =>
      have := i.quiet (Or.inl hp) hends
      simp only [ha, hsw, hwr, hl, Nat.lt_irrefl, false_or, ne_eq, not_true_eq_false, or_false] at this
      exact ⟨.wake, by simp, by simp, by simp [kstep, hp, this]⟩
    | wakeLock => exact ⟨.go, by simp, by simp, by simp [kstep, hp, hl]⟩
    | reset => exact ⟨.go, by simp, by simp, by simp [kstep, hp]⟩
    | action => exact ⟨.complete [], by simp, by simp, by simp [kstep, hp, CurlerSt.act]⟩
    | info => exact ⟨.go, by simp, by simp, by simp [kstep, hp]⟩
    | callback r m => refine ⟨.go, by simp, by simp, ?_⟩; simp only [kstep, hp]; split <;> rfl
    | clear r m => exact ⟨.go, by simp, by simp, by simp [kstep, hp]⟩

example : ∃ tr s, CurlerRun (curlerInit 1 false false false) tr s ∧ decide (s.term = true ∧ s.pc = .poll ∧ s.lock = none ∧ s.asked = 0 ∧ s.saw = 0 ∧ s.writing = 0 ∧
    tr = [.queued 7, .started, .began 7, .terminated]) = true :=
  kfound ([.inr (.queue 7), .inr .locked, .inr .locked, .inr .locked, .inr .start, .inl .go, .inl .go, .inl .go, .inl (.complete []), .inr .terminate, .inr .read, .inr .set, .inr .write]) (by decide +kernel)

/-! ### C99: queueing a request again -/

/-- C99: if no request is queued again before it is complete the program is not ended by the HTTP client. -/
theorem C99_safe_partial (h : CurlerRun (curlerInit conc x y z) tr s) (hq : ∀ a r b, tr = a ++ .queued r :: b → (queuedRs a).count r = (finishedRs a).count r) : .crashed ∉ tr := by
  have key : ∀ a, a <+: tr → ∀ r, (queuedRs a).count r ≤ (finishedRs a).count r + 1 := by
    intro a
    induction a using snoc_induction with
    | nil => intro _ r; simp [queuedRs]
    | snoc a e ih =>
      intro ha r
      obtain ⟨b, hb⟩ := ha
      have ih' := ih ⟨e :: b, by rw [← hb]; simp⟩ r
      rw [queuedRs_append, finishedRs_append, List.count_append, List.count_append]
      have he : (queuedRs [e]).count r = 0 ∨ e = .queued r := by
        cases e <;> simp [queuedRs]
        rename_i r'
        by_cases hr : r' = r
        · exact Or.inr hr
        · exact Or.inl (by simp [List.count_singleton, hr])
      rcases he with he | rfl
      · omega
      · have := hq a r b (by rw [← hb]; simp)
        simp [queuedRs, finishedRs] at this ⊢
        omega
  intro hc
  obtain ⟨a, b, hab⟩ := List.append_of_mem hc
  obtain ⟨s1, s2, h1, hs, _⟩ := h.split a _ b hab
  obtain ⟨f, hf⟩ := CurlerStep.thread hs rfl
  have i := h1.inv
  have hk := key a ⟨_, hab.symm⟩
  unfold kstep at hf
  split at hf
  case h_3 hp =>
    split at hf
    case isFalse => cases hf
    case isTrue hm =>
      unfold CurlerSt.take at hf
      split at hf
      · simp at hf
      · rename_i r q hqq
        split at hf
        · rename_i hr
          have h2 := hk r
          rw [i.order, hqq, List.count_append, i.balance.count_eq, List.count_append] at h2
          have h3 := List.count_pos_iff.2 hr
          simp at h2
          omega
        · simp at hf
  case h_12 hp =>
    unfold CurlerSt.note at hf
    split at hf
    · simp at hf
    · rename_i r ms hm
      split at hf
      · simp at hf
      · rename_i hr
        exact hr (i.perm.symm.subset (by simp [hm]))
  all_goals repeat' split at hf
  all_goals first
    | (simp at hf; done)
    | (rw [Option.map_eq_some_iff] at hf; simp at hf; done)

/-- C99: nor with one transfer at a time. -/
theorem C99_one (h : CurlerRun (curlerInit conc x y z) tr s) (h1c : conc ≤ 1) : .crashed ∉ tr := by
  intro hc
  obtain ⟨a, b, hab⟩ := List.append_of_mem hc
  obtain ⟨s1, s2, h1, hs, _⟩ := h.split a _ b hab
  obtain ⟨f, hf⟩ := CurlerStep.thread hs rfl
  have i := h1.inv
  unfold kstep at hf
  split at hf
  case h_3 hp =>
    split at hf
    case isFalse => cases hf
    case isTrue hm =>
      simp only [CurlerSt.mayFill, Bool.and_eq_true, decide_eq_true_eq, i.conc] at hm
      have : s1.handles = [] := List.length_eq_zero_iff.1 (by omega)
      unfold CurlerSt.take at hf
      split at hf
      · simp at hf
      · rename_i r q hqq
        rw [this] at hf
        simp at hf
  case h_12 hp =>
    unfold CurlerSt.note at hf
    split at hf
    · simp at hf
    · rename_i r ms hm
      split at hf
      · simp at hf
      · rename_i hr
        exact hr (i.perm.symm.subset (by simp [hm]))
  all_goals repeat' split at hf
  all_goals first
    | (simp at hf; done)
    | (rw [Option.map_eq_some_iff] at hf; simp at hf; done)

/-- C99 fails: queueing a request twice may end the program. -/
theorem C99_violated (r : Nat) : ∃ tr s, CurlerRun (curlerInit 2 false false false) tr s ∧ tr = [.queued r, .queued r, .started, .began r, .crashed] ∧ s.pc = .crashed := by
  have : ∃ s, kdo ([.inr (.queue r), .inr .locked, .inr .locked, .inr .locked, .inr (.queue r), .inr .locked, .inr .start, .inl .go, .inl .go, .inl .go, .inl .go]) (curlerInit 2 false false false) =
      some ([.queued r, .queued r, .started, .began r, .crashed], s) ∧ s.pc = .crashed := by
    simp [kdo, kone, kcall, kstep, curlerInit, CurlerSt.ends, CurlerSt.mayFill, CurlerSt.take, CurlerPC.holds]
  obtain ⟨s, h1, h2⟩ := this
  exact ⟨_, s, kdo_sound _ _ _ _ h1, rfl, h2⟩

-- A request queued again when it is complete.
example : ∃ tr s, CurlerRun (curlerInit 2 false false false) tr s ∧ decide (tr = [.queued 7, .started, .began 7, .finished 7, .queued 7, .began 7, .finished 7]) = true :=
  kfound (queueing 7 ++ [.inr .start] ++ (oneTransfer 7).take 8 ++ queueing 7 ++ (oneTransfer 7).take 8) (by decide +kernel)

/-! ### C101: what the sockets are polled for -/

theorem socketCallbacks_append (m : List (Nat × Interest)) (h : List (Nat × CurlWait)) (x : Nat × CurlWait) : socketCallbacks m (h ++ [x]) = socketCallback (socketCallbacks m h) x.1 x.2 := by
  induction h generalizing m with
  | nil => rfl
  | cons y h ih => exact ih _

theorem lookup_filter_ne (m : List (Nat × Interest)) (a b : Nat) : (m.filter fun x => x.1 ≠ a).lookup b = if b = a then none else m.lookup b := by
  induction m with
  | nil => simp
  | cons p m ih =>
    by_cases hp : p.1 = a
    · rw [List.filter_cons_of_neg (by simpa using hp), ih]
      by_cases hb : b = a
      · simp [hb]
      · have : (b == p.1) = false := by simpa using fun h : b = p.1 => hb (h.trans hp)
        rw [List.lookup_cons, this, if_neg hb]
    · rw [List.filter_cons_of_pos (by simpa using hp), List.lookup_cons, List.lookup_cons, ih]
      cases hb : b == p.1 with
      | true =>
        have hb : b = p.1 := by simpa using hb
        dsimp only
        rw [if_neg fun h => hp (hb ▸ h)]
      | false => dsimp only

/-- C101: the thread polls exactly the sockets the transfer library has it poll - but always for input and never for output, whatever the library asked for. -/
theorem C101_sockets_partial (h : List (Nat × CurlWait)) (socket : Nat) : (socketCallbacks [] h).lookup socket =
    match lastWait socket h with
    | none | some .remove => none
    | some _ => some ⟨true, false⟩ := by
  induction h using snoc_induction with
  | nil => rfl
  | snoc h x ih =>
    rw [socketCallbacks_append]
    have hl : lastWait socket (h ++ [x]) = if x.1 = socket then some x.2 else lastWait socket h := by
      unfold lastWait
      rw [List.reverse_append]
      simp only [List.reverse_cons, List.reverse_nil, List.nil_append, List.singleton_append, List.find?_cons]
      by_cases hx : x.1 = socket <;> simp [hx]
    rw [hl]
    unfold socketCallback
    by_cases hr : x.2 = .remove
    · rw [if_pos hr, pollDel, lookup_filter_ne, ih]
      by_cases hx : x.1 = socket
      · simp [hx, hr]
      · simp [hx, Ne.symm hx]
    · rw [if_neg hr, pollAdd]
      by_cases hx : x.1 = socket
      · have hv : (socketCallbacks [] h).lookup socket = none ∨ (socketCallbacks [] h).lookup socket = some ⟨true, false⟩ := by
          rw [ih]
          split
          · exact Or.inl rfl
          · exact Or.inl rfl
          · exact Or.inr rfl
        rw [hx, if_pos rfl]
        have : (match some x.2 with | none | some .remove => none | some _ => some (⟨true, false⟩ : Interest)) = some ⟨true, false⟩ := by
          cases hy : x.2 <;> simp_all
        rw [this]
        rcases hv with hv | hv
        · rw [hv]; simp
        · rw [hv]; simp [hv]
      · rw [if_neg hx]
        split
        · exact ih
        · rw [List.lookup_cons]
          have : (socket == x.1) = false := by simpa using Ne.symm hx
          rw [this]
          exact ih

/-- C101 fails: whenever the transfer library waits until it can send (a connection to be made, or data to be sent), that is not what the socket is polled for. -/
theorem C101_violated (h : List (Nat × CurlWait)) (socket : Nat) (w : CurlWait) (hw : lastWait socket h = some w) (ho : w = .out ∨ w = .inout) :
    (socketCallbacks [] h).lookup socket ≠ w.interest := by
  rw [C101_sockets_partial, hw]
  rcases ho with rfl | rfl <;> simp [CurlWait.interest]

example : (socketCallbacks [] [(5, .out), (6, .in_), (5, .in_), (6, .remove)]).lookup 5 = CurlWait.in_.interest ∧
    (socketCallbacks [] [(5, .out), (6, .in_), (5, .in_), (6, .remove)]).lookup 6 = CurlWait.remove.interest := by decide

end Fcgi.Props
