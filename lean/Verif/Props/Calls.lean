import Verif.Lemmas.Calls
import Verif.Props.Manager
/-! # Properties C127 and C128: messages given to a request through its callback -/
namespace Fcgi.Props
open Fcgi Fcgi.Model Fcgi.Spec

variable {σ : Type} {P : Prog σ} {places : Place → Prop} {x : σ} {cs : List (RequestId × Message)} {tr : List MEvent} {s : NSt σ}

/-! ### Traces -/

@[elab_as_elim]
theorem traceInduction {α : Type} {motive : List α → Prop} (nil : motive []) (snoc : ∀ l a, motive l → motive (l ++ [a])) (l : List α) : motive l := by
  rw [← List.reverse_reverse l]
  induction l.reverse with
  | nil => exact nil
  | cons a l ih => rw [List.reverse_cons]; exact snoc _ a ih

theorem filterMap_same {α β : Type} {f g : α → Option β} {l : List α} (h : ∀ a ∈ l, f a = g a) : l.filterMap f = l.filterMap g := by
  induction l with
  | nil => rfl
  | cons a l ih => rw [List.filterMap_cons, List.filterMap_cons, h a (by simp), ih fun b hb => h b (by simp [hb])]

def createdFor (k : RequestId) (tr : List MEvent) : List Message :=
  tr.filterMap fun e => match e with
    | .created _ k' m => if k' = k then some m else none
    | _ => none

def acceptedFor (k : RequestId) (tr : List MEvent) : List Message :=
  tr.filterMap fun e => match e with
    | .accepted _ k' m => if k' = k then some m else none
    | _ => none

theorem taken_split (k : RequestId) (tr : List MEvent) :
    (takenFor k tr).Perm (droppedFor k tr ++ (createdFor k tr ++ acceptedFor k tr)) := by
  induction tr with
  | nil => exact .refl _
  | cons e tr ih =>
    simp only [takenFor, droppedFor, createdFor, acceptedFor, List.filterMap_cons] at ih ⊢
    cases e with
    | created r k' m =>
      by_cases c : k' = k
      · simp only [c, if_true]
        exact ((List.Perm.cons m ih).trans (List.perm_middle.symm.trans (by simp)))
      · simpa only [c, if_false] using ih
    | accepted r k' m =>
      by_cases c : k' = k
      · simp only [c, if_true]
        refine (List.Perm.cons m ih).trans ?_
        rw [← List.append_assoc, ← List.append_assoc]
        exact List.perm_middle.symm
      · simpa only [c, if_false] using ih
    | dropped k' m =>
      by_cases c : k' = k
      · simp only [c, if_true]
        exact List.Perm.cons m ih
      · simpa only [c, if_false] using ih
    | _ => exact ih

theorem routed_front {tr es : List MEvent} (h : WellRouted (tr ++ es)) : WellRouted tr := by
  intro b e a he
  exact h b e (a ++ es) (by rw [he]; simp)

theorem routed_last {tr : List MEvent} {e : MEvent} (h : WellRouted (tr ++ [e])) : Routed tr e := h tr e [] rfl

theorem serving_begun {tr : List MEvent} {k : RequestId} {r : Nat} (h : serving tr k = some r) : ∃ m, .created r k m ∈ tr := by
  induction tr using traceInduction with
  | nil => cases h
  | snoc tr e ih =>
    rw [serving_snoc] at h
    cases e with
    | created r' k' m =>
      simp only [Serving.see] at h
      split at h
      · rename_i hk
        injection h with h
        subst hk h
        exact ⟨m, by simp⟩
      · obtain ⟨m', hm⟩ := ih h
        exact ⟨m', by simp [hm]⟩
    | removed r' =>
      simp only [Serving.see] at h
      split at h
      · cases h
      · obtain ⟨m', hm⟩ := ih h
        exact ⟨m', by simp [hm]⟩
    | _ =>
      obtain ⟨m', hm⟩ := ih h
      exact ⟨m', by simp [hm]⟩

theorem accepted_created {tr : List MEvent} (h : WellRouted tr) {r k m} (he : .accepted r k m ∈ tr) : ∃ m', .created r k m' ∈ tr := by
  obtain ⟨b, a, rfl⟩ := List.append_of_mem he
  obtain ⟨m', hm⟩ := serving_begun (h b _ a rfl)
  exact ⟨m', by simp [hm]⟩

theorem created_one {tr : List MEvent} (h : WellRouted tr) {r k k' m m'} (h1 : .created r k m ∈ tr) (h2 : .created r k' m' ∈ tr) : k = k' ∧ m = m' := by
  induction tr using traceInduction with
  | nil => cases h1
  | snoc tr e ih =>
    have hr := routed_last h
    rcases List.mem_append.1 h1 with c1 | c1 <;> rcases List.mem_append.1 h2 with c2 | c2
    · exact ih (routed_front h) c1 c2
    · rw [List.mem_singleton] at c2; subst c2; exact absurd c1 (hr.2.2 _ _)
    · rw [List.mem_singleton] at c1; subst c1; exact absurd c2 (hr.2.2 _ _)
    · rw [List.mem_singleton] at c1 c2
      rw [← c1] at c2
      injection c2 with _ a b
      exact ⟨a.symm, b.symm⟩

theorem created_single {tr : List MEvent} (h : WellRouted tr) {r k m0} (h1 : .created r k m0 ∈ tr) (honly : ∀ r' m', .created r' k m' ∈ tr → r' = r) :
    createdFor k tr = [m0] := by
  induction tr using traceInduction with
  | nil => cases h1
  | snoc tr e ih =>
    have hr := routed_last h
    have hf := routed_front h
    have ho : ∀ r' m', .created r' k m' ∈ tr → r' = r := fun r' m' c => honly r' m' (by simp [c])
    have happ : createdFor k (tr ++ [e]) = createdFor k tr ++ createdFor k [e] := by simp [createdFor]
    have hnone : (∀ m', MEvent.created r k m' ∉ tr) → createdFor k tr = [] := by
      intro hn
      unfold createdFor
      rw [List.filterMap_eq_nil_iff]
      intro a ha
      cases a with
      | created r' k' m' =>
        by_cases c : k' = k
        · subst c
          have := ho r' m' ha
          subst this
          exact absurd ha (hn m')
        · simp [c]
      | _ => rfl
    rw [happ]
    rcases List.mem_append.1 h1 with c | c
    · rw [ih hf c ho]
      cases e with
      | created r' k' m' =>
        by_cases d : k' = k
        · subst d
          have := honly r' m' (by simp)
          subst this
          exact absurd c (hr.2.2 _ _)
        · simp [createdFor, d]
      | _ => rfl
    · rw [List.mem_singleton] at c
      subst c
      rw [hnone fun m' hm => absurd hm (hr.2.2 _ _)]
      simp [createdFor]

/-! ## C127: what is given to a callback is handled by the request once -/

/-- Whoever calls - the transceiver, other threads, the request itself from `response()` - when all calls have returned every message given
for a request id has either made a request, or been put in the queue of the request that served the id at that time, or been thrown away
since there was none: each exactly once. -/
theorem C127_taken (h : NRun P places (nInit x) cs tr s) (hi : ∀ p, s.m.pu p = .idle) (k : RequestId) (hk : Ordinary k)
    (hs : ∀ m ∈ callsFor k cs, Sound m) : (callsFor k cs).Perm (takenFor k tr) ∧ WellRouted tr :=
  ⟨nrun_perm h k hk hs hi, C44_routed (nrun_mrun h)⟩

/-- So if a request is the only one its id was ever given to and is still being served, then, when everything has come to rest, the request
has handled exactly the messages given for its id while it was there, each once. -/
theorem C127_handled_partial (h : NRun P (· = .response) (nInit x) cs tr s) (hrest : NStill P s) (hterm : s.m.terminate = false)
    (ht : ∃ t, s.m.th t ≠ .off ∧ s.m.th t ≠ .finished) (k : RequestId) (hk : Ordinary k) (hs : ∀ m ∈ callsFor k cs, Sound m)
    (r : Nat) (hr : serving tr k = some r) (honly : ∀ r' m', .created r' k m' ∈ tr → r' = r) :
    ∃ m0, .created r k m0 ∈ tr ∧ (callsFor k cs).Perm (droppedFor k tr ++ m0 :: endedBy r tr) := by
  have hm := nrun_mrun h
  have hstill := nstill_still h hrest
  have hroute := C44_routed hm
  obtain ⟨m0, h0⟩ := serving_begun hr
  refine ⟨m0, h0, ?_⟩
  have h1 := nrun_perm h k hk hs ((C66_no_deadlock hm hstill).2)
  have h2 := taken_split k tr
  rw [created_single hroute h0 honly] at h2
  have h3 : acceptedFor k tr = acceptedBy r tr := by
    unfold acceptedFor acceptedBy
    apply filterMap_same
    intro e he
    cases e with
    | accepted r' k' m =>
      obtain ⟨m', hc⟩ := accepted_created hroute he
      have : k' = k ↔ r' = r := by
        constructor
        · rintro rfl; exact honly r' m' hc
        · rintro rfl; exact (created_one hroute hc h0).1
      simp only [this]
    | _ => rfl
  rw [h3, ← C40_handled hm hstill hterm ht k r hr] at h2
  exact h1.trans h2
/-! ### Concrete runs -/

/-- A message of the application. -/
def cbMsg : Message := ⟨80, []⟩
def nh (t n : Nat) : List NChoice := List.replicate n (.h t)
def npu (p n w : Nat) : List NChoice := List.replicate n (.p p w)
/-- One thread, a request, and a message for it that is in the queue. -/
def nBegun (m : Message) : List NChoice :=
  [.e .start] ++ nh 0 6 ++ [.outside 0 mgrKey mgrBegin] ++ npu 0 2 0 ++ [.outside 0 mgrKey m] ++ npu 0 3 0
/-- While it handles the message, the request gives itself another. -/
def nCalled : List NChoice := nBegun mgrParams ++ nh 0 8 ++ [.within 0 1 mgrKey cbMsg .response] ++ npu 1 3 0

theorem nplay_named {n : Nat} {cs : List NChoice} (h : cs.all (fun c => decide (c.name < n)) = true) : ∀ c ∈ cs, c.name < n := by
  intro c hc; simpa using List.all_eq_true.1 h c hc

theorem nplay_places {cs : List NChoice} (h : cs.all (fun c => decide (c.place = none ∨ c.place = some .response)) = true) :
    ∀ c ∈ cs, ∀ pl, c.place = some pl → pl = .response := by
  intro c hc pl hp
  have := List.all_eq_true.1 h c hc
  simp only [decide_eq_true_eq, hp] at this
  rcases this with c | c
  · cases c
  · injection c

/-- A run by choices at the end of which nothing can move. -/
theorem ncall_still {cs : List NChoice} {f : List (RequestId × Message) × List MEvent × NSt Nat → Bool}
    (hp : cs.all (fun c => decide (c.place = none ∨ c.place = some .response)) = true) (hn : cs.all (fun c => decide (c.name < 2)) = true)
    (h : (nplay (mgrDemo 1) (nInit 0) cs).any (fun y => f y && (decide (y.2.2.m.pu 0 = .idle ∧ y.2.2.m.pu 1 = .idle) && (y.2.2.m.th 0).resting)) = true) :
    ∃ ks tr s, NRun (mgrDemo 1) (· = .response) (nInit 0) ks tr s ∧ NStill (mgrDemo 1) s ∧ f (ks, tr, s) = true := by
  obtain ⟨ks, tr, s, h1, h2, h3⟩ := nplay_any (places := (· = .response)) (nplay_places hp) h
  simp only [Bool.and_eq_true, decide_eq_true_eq] at h2
  refine ⟨ks, tr, s, h1, h3 2 (nplay_named hn) ?_ ?_, h2.1⟩
  · intro q hq
    have : q = 0 ∨ q = 1 := by omega
    rcases this with rfl | rfl
    · exact h2.2.1.1
    · exact h2.2.1.2
  · intro t ht
    have : t = 0 := by have : t < 1 := ht; omega
    subst this
    exact h2.2.2

example : ∃ ks tr s, NRun (mgrDemo 1) (· = .response) (nInit 0) ks tr s ∧ NStill (mgrDemo 1) s ∧ s.m.terminate = false ∧ s.m.th 0 = .waiting ∧
    serving tr mgrKey = some 0 ∧ callsFor mgrKey ks = [mgrBegin, mgrParams, cbMsg] ∧ endedBy 0 tr = [mgrParams, cbMsg] := by
  obtain ⟨ks, tr, s, h1, h2, h3⟩ := ncall_still (cs := nCalled ++ nh 0 22)
    (f := fun y => decide (y.2.2.m.terminate = false ∧ y.2.2.m.th 0 = .waiting ∧ serving y.2.1 mgrKey = some 0 ∧
      callsFor mgrKey y.1 = [mgrBegin, mgrParams, cbMsg] ∧ endedBy 0 y.2.1 = [mgrParams, cbMsg])) (by rfl) (by rfl) (by rfl)
  have h3 := of_decide_eq_true h3
  exact ⟨ks, tr, s, h1, h2, h3⟩
example : Ordinary mgrKey ∧ Sound cbMsg ∧ Sound mgrBegin ∧ Sound mgrParams := by
  refine ⟨by unfold Ordinary; decide, .inl (by decide), .inr (by decide), .inr (by decide)⟩

/-- The property does not hold for every request: ids are used again, and a callback is bound to the id, not to the request.  Here a request
asks for something, and is ended by an ABORT_REQUEST before the answer is there; the answer is handled by the next request of the same id. -/
theorem C127_violated : ∃ ks tr s, NRun (mgrDemo 1) (· = .response) (nInit 0) ks tr s ∧ NStill (mgrDemo 1) s ∧ s.m.ub = false ∧
    ks = [(mgrKey, mgrBegin), (mgrKey, mgrAbort), (mgrKey, mgrBegin), (mgrKey, cbMsg)] ∧
    tr = [.created 0 mgrKey mgrBegin, .accepted 0 mgrKey mgrAbort, .began 0 0 mgrAbort, .ended 0 0 mgrAbort true, .removed 0,
      .created 1 mgrKey mgrBegin, .accepted 1 mgrKey cbMsg, .began 1 0 cbMsg, .ended 1 0 cbMsg false] := by
  obtain ⟨ks, tr, s, h1, h2, h3⟩ := ncall_still
    (cs := nBegun mgrAbort ++ nh 0 15 ++ [.outside 0 mgrKey mgrBegin] ++ npu 0 2 0 ++ [.outside 1 mgrKey cbMsg] ++ npu 1 3 0 ++ nh 0 18)
    (f := fun y => decide (y.2.2.m.ub = false ∧
      y.1 = [(mgrKey, mgrBegin), (mgrKey, mgrAbort), (mgrKey, mgrBegin), (mgrKey, cbMsg)] ∧
      y.2.1 = [.created 0 mgrKey mgrBegin, .accepted 0 mgrKey mgrAbort, .began 0 0 mgrAbort, .ended 0 0 mgrAbort true, .removed 0,
        .created 1 mgrKey mgrBegin, .accepted 1 mgrKey cbMsg, .began 1 0 cbMsg, .ended 1 0 cbMsg false])) (by rfl) (by rfl) (by rfl)
  have h3 := of_decide_eq_true h3
  exact ⟨ks, tr, s, h1, h2, h3⟩

/-! ## C128: a callback can be called from anywhere -/

/-- Also if handler threads call callbacks, from `response()` and the like, and wait for the calls to return: a state in which nobody can move is one in which
every call has returned and every thread waits for tasks or has ended. -/
theorem C128_no_deadlock_partial (h : NRun P (· = .response) (nInit x) cs tr s) (hs : NStill P s) :
    (∀ t, s.m.th t = .off ∨ s.m.th t = .waiting ∨ s.m.th t = .finished) ∧ ∀ p, s.m.pu p = .idle :=
  C66_no_deadlock (nrun_mrun h) (nstill_still h hs)

/-- A step of a handler thread or of a call that is under way. -/
def NInner (P : Prog σ) (s s' : NSt σ) : Prop :=
  (∃ t es, s.inCall t = false ∧ hstep P t s.m = some (es, s'.m) ∧ s'.call = s.call) ∨ ∃ p w es, pstep P p w s.m = some (es, s'.m) ∧ s'.call = s.call

/-- And the threads do come to rest, whatever the scheduler does, if there are no more calls. -/
theorem C128_settles (h : NRun P places (nInit x) cs tr s) : ¬ ∃ f : Nat → NSt σ, f 0 = s ∧ ∀ i, NInner P (f i) (f (i + 1)) := by
  rintro ⟨f, h0, hf⟩
  refine C66_settles (nrun_mrun h) ⟨fun i => (f i).m, congrArg NSt.m h0, fun i => ?_⟩
  rcases hf i with ⟨t, es, _, h1, _⟩ | ⟨p, w, es, h1, _⟩
  · exact .inl ⟨t, es, h1⟩
  · exact .inr ⟨p, w, es, h1⟩

example : ∃ ks tr s, NRun (mgrDemo 1) (· = .response) (nInit 0) ks tr s ∧ s.inCall 0 = true ∧ s.m.th 0 = .work mgrKey 0 mgrParams ∧ s.m.pu 1 = .call mgrKey cbMsg := by
  obtain ⟨ks, tr, s, h1, h2, _⟩ := nplay_any (P := mgrDemo 1) (x := 0) (places := (· = .response))
    (cs := nBegun mgrParams ++ nh 0 8 ++ [.within 0 1 mgrKey cbMsg .response]) (nplay_places (by rfl))
    (f := fun y => decide (y.2.2.inCall 0 = true ∧ y.2.2.m.th 0 = .work mgrKey 0 mgrParams ∧ y.2.2.m.pu 1 = .call mgrKey cbMsg)) (by rfl)
  exact ⟨ks, tr, s, h1, of_decide_eq_true h2⟩

/-- It is not possible from the destructor of a request, which is run with the table of requests locked: whatever else happens, the call never
returns, and the thread holds the lock for ever. -/
theorem C128_violated (h : NRun P places (nInit x) cs tr s) (t p : Nat) (k : RequestId) (hk : Ordinary k) (m : Message) (hf : s.inCall t = false)
    (hd : Place.destructor.here (s.m.th t) = true) {es m'} (hc : estep P (.push p k m) s.m = some (es, m')) (ha : places .destructor)
    {cs' tr' s'} (h' : NRun P places ⟨m', put (s.named p) t (some p)⟩ cs' tr' s') :
    s'.inCall t = true ∧ s'.m.pu p = .call k m ∧ s'.m.writer = some (.handler t) := by
  have hs : NRun P places (nInit x) (cs ++ [(k, m)]) (tr ++ es) ⟨m', put (s.named p) t (some p)⟩ := .step h (.within t p k m .destructor ha hd hf hc)
  have I := (run_kq (nrun_mrun h)).1
  have hth : ∃ k' r, s.m.th t = .erase k' r := by
    cases hp : s.m.th t <;> rw [hp] at hd <;> first | (cases hd; done) | exact ⟨_, _, rfl⟩
  have hlt : t < P.threads := by
    apply Nat.lt_of_not_le
    intro c
    rw [I.off t c] at hd
    cases hd
  have T0 : Trapped t p k m ⟨m', put (s.named p) t (some p)⟩ := by
    have e1 := estep_others _ _ _ _ hc t hlt (here_busy hd).1 (here_busy hd).2.1 (here_busy hd).2.2
    simp only [estep] at hc
    split at hc
    · cases hc
      refine ⟨by dsimp only; rw [put_same], ?_, ?_⟩
      · dsimp only [MSt.pgoto]
        rw [put_same, if_neg hk.1, if_neg hk.2]
      · dsimp only
        rw [e1]; exact hth
    · cases hc
  have T : Trapped t p k m s' := by
    clear I hth hlt
    induction h' with
    | refl => exact T0
    | step hr hst ih => exact nstep_trapped (NRun.trans hs hr) ih hst
  have I' := (run_kq (nrun_mrun (NRun.trans hs h'))).1
  obtain ⟨k', r, ht⟩ := T.th
  exact ⟨NSt.inCall_iff.2 ⟨p, T.call, by rw [T.pu]; simp⟩, T.pu, (I'.wh t).2 (by rw [ht]; rfl)⟩

example : ∃ ks tr s, NRun (mgrDemo 1) (fun _ => True) (nInit 0) ks tr s ∧ s.inCall 0 = false ∧ Place.destructor.here (s.m.th 0) = true ∧
    (estep (mgrDemo 1) (.push 1 mgrKey cbMsg) s.m).isSome := by
  obtain ⟨ks, tr, s, h1, h2, _⟩ := nplay_any (P := mgrDemo 1) (x := 0) (places := fun _ => True)
    (cs := nBegun mgrAbort ++ nh 0 10) (fun _ _ _ _ => trivial)
    (f := fun y => decide (y.2.2.inCall 0 = false ∧ Place.destructor.here (y.2.2.m.th 0) = true ∧ (estep (mgrDemo 1) (.push 1 mgrKey cbMsg) y.2.2.m).isSome)) (by rfl)
  exact ⟨ks, tr, s, h1, of_decide_eq_true h2⟩


end Fcgi.Props
