import Verif.Lemmas.ManagerRequest
/-! # Properties C40–C44, C63–C66: the manager's threads

`MRun P (mInit x) tr s` is any run of the manager, from its construction: any number of handler threads and of
calls of `push`, in any interleaving, with `start`, `stop`, `terminate`, `join`, lost connections and spurious
wake-ups at any moment; `tr` is what an observer saw and `s` where it has got to. -/
namespace Fcgi.Props
open Fcgi Fcgi.Model Fcgi.Spec
variable {σ : Type} {P : Prog σ} {x : σ} {tr : List MEvent} {s : MSt σ}

/-! ## C66 no deadlock -/

/-- If nothing can move, every handler thread is waiting for tasks or has ended, and every call of `push` has
returned: no set of threads ever waits for each other's mutexes. -/
theorem C66_no_deadlock (h : MRun P (mInit x) tr s) (hs : Still P s) :
    (∀ t, s.th t = .off ∨ s.th t = .waiting ∨ s.th t = .finished) ∧ ∀ p, s.pu p = .idle := by
  obtain ⟨h1, h2⟩ := still_rest (run_kq h).1 hs
  refine ⟨fun t => ?_, h2⟩
  have := h1 t
  cases hp : s.th t <;> simp_all [rest_all]

/-- The threads do not run in circles either: without anything new from outside, whatever the scheduler does,
they come to rest after finitely many steps. -/
theorem C66_settles (h : MRun P (mInit x) tr s) : ¬ ∃ f : Nat → MSt σ, f 0 = s ∧ ∀ i, Inner P (f i) (f (i + 1)) := by
  rintro ⟨f, h0, hf⟩
  have acc := run_acc h
  have key : ∀ s, Acc (fun s' s => Inner P s s') s → ∀ i, f i ≠ s := by
    intro s acc
    induction acc with
    | intro s _ ih =>
      intro i hi
      exact ih (f (i + 1)) (by rw [← hi]; exact hf i) (i + 1) rfl
  exact key s acc 0 h0

/-- And so there is, from everywhere, a way to such a state. -/
theorem C66_reaches (h : MRun P (mInit x) tr s) : ∃ tr' s', MRun P s tr' s' ∧ Still P s' := by
  have acc := run_acc h
  clear h
  induction acc with
  | intro s _ ih =>
    by_cases hs : Still P s
    · exact ⟨[], s, .refl s, hs⟩
    · unfold Still at hs
      have : ∃ s', Inner P s s' := by
        by_cases h1 : ∀ t, hstep P t s = none
        · have h2 : ¬ ∀ p w, pstep P p w s = none := fun h2 => hs ⟨h1, h2⟩
          simp only [Classical.not_forall] at h2
          obtain ⟨p, w, h2⟩ := h2
          cases hp : pstep P p w s with
          | none => exact absurd hp h2
          | some y => exact ⟨y.2, Or.inr ⟨p, w, y.1, hp⟩⟩
        · simp only [Classical.not_forall] at h1
          obtain ⟨t, h1⟩ := h1
          cases hp : hstep P t s with
          | none => exact absurd hp h1
          | some y => exact ⟨y.2, Or.inl ⟨t, y.1, hp⟩⟩
      obtain ⟨s', hi⟩ := this
      obtain ⟨tr', s'', hr, hst⟩ := ih s' hi
      rcases hi with ⟨t, es, hh⟩ | ⟨p, w, es, hh⟩
      · exact ⟨_, s'', MRun.trans (.step (.refl s) (.handler t hh)) hr, hst⟩
      · exact ⟨_, s'', MRun.trans (.step (.refl s) (.pusher p w hh)) hr, hst⟩

/-! ## C40 no message is lost -/

/-- At every moment of every run: if a request has messages waiting, then a task for it is in the queue, or a
thread is on its way to look at its messages, or a call of `push` is about to add a task. -/
theorem C40_pending (h : MRun P (mInit x) tr s) (k : RequestId) (r : Nat) (hk : serving tr k = some r)
    (hw : begunBy r tr ≠ acceptedBy r tr) :
    k ∈ s.tasks ∨ (∃ t, (s.th t).attends = some k) ∨ ∃ p, s.pu p = .task k := by
  obtain ⟨I, S, K, Q⟩ := run_kq h
  have R := run_rinv h
  rw [R.sv] at hk
  refine Q k r (mlookup_mem hk) (fun h0 => hw ?_)
  rw [R.qu, h0, List.append_nil]

/-- Whenever the threads have come to rest, with at least one that has not ended and no call of `terminate`,
all messages accepted for all requests being served have been handled to the end. -/
theorem C40_handled (h : MRun P (mInit x) tr s) (hs : Still P s) (hterm : s.terminate = false)
    (ht : ∃ t, s.th t ≠ .off ∧ s.th t ≠ .finished) (k : RequestId) (r : Nat) (hk : serving tr k = some r) :
    endedBy r tr = acceptedBy r tr := by
  obtain ⟨I, S, K, Q⟩ := run_kq h
  have R := run_rinv h
  have W := run_winv h
  have T := run_tinv h
  obtain ⟨h1, h2⟩ := still_rest I hs
  rw [R.sv] at hk
  have hm := mlookup_mem hk
  have hq : (s.objs r).queue = [] := by
    cases hh : (s.objs r).queue with
    | nil => rfl
    | cons m q =>
      exfalso
      have hne : (s.objs r).queue ≠ [] := by rw [hh]; simp
      obtain ⟨t, t1, t2⟩ := ht
      have hsl : (s.th t).sleeps = true := by
        have := h1 t
        cases hp : s.th t <;> simp_all [rest_all, HPC.sleeps]
      rcases Q k r hm hne with hk | ⟨u, hu⟩ | ⟨p, hp⟩
      · rcases W.xw hterm k r hm hne hk t hsl with ⟨u, hu⟩ | ⟨p, hp⟩
        · rw [h1 u] at hu; cases hu
        · rw [h2 p] at hp; cases hp
      · have := h1 u
        cases hp : s.th u <;> simp_all [rest_all, A_all]
      · rw [h2 p] at hp; cases hp
  have hfree : watch r tr = .free := by
    apply T.wm
    · cases hx : (s.objs r).mutex with
      | none => rfl
      | some u =>
        have hu := (I.mu r u).1 hx
        have := h1 u
        cases hp : s.th u <;> simp_all [rest_all, N_all]
    · exact (I.al r).2 ⟨k, hm⟩
  have := begun_ended r tr (by rw [hfree]; simp)
  rw [hfree, List.append_nil] at this
  rw [R.qu, hq, List.append_nil, this]

/-! ## C41 one thread at a time, in order -/

/-- No observer of a request ever sees two threads handling its messages at the same time, or its messages
being handled after it is complete or destroyed. -/
theorem C41_exclusive (h : MRun P (mInit x) tr s) (r : Nat) : watch r tr ≠ .wrong := (run_tinv h).ww r

/-- The messages are handled in the order they arrived, none twice, none left out. -/
theorem C41_order (h : MRun P (mInit x) tr s) (r : Nat) :
    begunBy r tr <+: acceptedBy r tr ∧ endedBy r tr <+: acceptedBy r tr := by
  have h1 := (run_rinv h).qu r
  have h2 := begun_ended r tr (C41_exclusive h r)
  refine ⟨⟨_, h1.symm⟩, ?_⟩
  rw [h1, h2, List.append_assoc]
  exact ⟨_, rfl⟩

/-- Whatever the other threads do, every request behaves as it does alone: the verdict of each handling (whether
the request is complete) is that of a request made from the same record that has handled the same messages one
after the other. -/
theorem C41_alone (h : MRun P (mInit x) tr s) (before after : List MEvent) (r t : Nat) (m : Message) (c : Bool)
    (he : tr = before ++ .ended r t m c :: after) :
    ∃ k m0, .created r k m0 ∈ before ∧ c = (P.handle (alone P.make P.handle k m0 (endedBy r before)) m).2 :=
  (run_ainv h).fl before r t m c after he

/-- And with the requests of `Model/Request.lean`: the state of a request in the manager, including all it has
sent and all calls of the user's handlers, is that of `Request::handler` on its own, on the messages handled so
far, so that C36–C39 hold of it. -/
theorem C41_request {U} {threads : Nat} {hd : Handlers U} {g : Nat → Nat → Nat → UInt8} {maxPost : Nat} {u : U} {tr s y}
    (h : MRun (requestProg threads hd g maxPost u) (mInit y) tr s) (r : Nat) (k : RequestId) (m0 : Message)
    (hc : .created r k m0 ∈ tr) (q : Req U) (hq : (s.objs r).state = some q) :
    endedBy r tr <+: acceptedBy r tr ∧
    ∃ role kill fin, handler hd g (freshReq k.socket k.id role kill maxPost u) (endedBy r tr) = .ok (q, [], fin) ∧
      (m0.data.length ≥ 11 → role.toNat = 256 * (m0.data.getD 8 0).toNat + (m0.data.getD 9 0).toNat ∧
        (kill = true ↔ (m0.data.getD 10 0).toNat % 2 = 0)) := by
  refine ⟨(C41_order h r).2, ?_⟩
  obtain ⟨q0, h1, fin, h2, _⟩ := request_alone h r k m0 hc q hq
  simp only [kindProg, Option.some.injEq] at h1
  refine ⟨_, _, fin, by rw [handler_all, h1]; exact h2, fun _ => ?_⟩
  generalize m0.data.getD 8 0 = a
  generalize m0.data.getD 9 0 = b
  generalize m0.data.getD 10 0 = c
  constructor
  · have ha := a.toNat_lt
    have hb := b.toNat_lt
    simp only [UInt16.toNat_add, UInt16.toNat_mul, UInt8.toNat_toUInt16]
    simp
    omega
  · rw [beq_iff_eq, ← UInt8.toNat_inj, UInt8.toNat_and]
    simp [Nat.and_one_is_mod]

/-! ## C42 stopping -/

/-- A handler thread ends only after `terminate()`, or after `stop()` and with no request left. -/
theorem C42_drains (h : MRun P (mInit x) tr s) {es s'} (hst : MStep P s es s') (t : Nat) (hf : .finished t ∈ es) :
    s.terminate = true ∨ s.stop = true ∧ ∀ k, serving tr k = none := by
  have R := run_rinv h
  have conv : s.leave = true → s.terminate = true ∨ s.stop = true ∧ ∀ k, serving tr k = none := by
    intro hl
    simp only [MSt.leave, Bool.or_eq_true, Bool.and_eq_true, List.isEmpty_iff] at hl
    rcases hl with hl | ⟨h1, h2⟩
    · exact Or.inl hl
    · exact Or.inr ⟨h1, fun k => by rw [R.sv, h2]; rfl⟩
  cases hst with
  | handler u hh =>
    unfold hstep at hh
    split at hh
    case h_6 =>
      split at hh
      · cases hh; cases hf
      · rename_i hn
        apply conv
        simp only [MSt.leave]
        simp only [Bool.and_eq_true, Bool.not_eq_true', Bool.not_eq_false', not_and, Bool.and_eq_false_iff] at hn
        cases h1 : s.terminate <;> simp_all
    case h_20 =>
      split at hh
      · rename_i hl; exact conv hl
      · cases hh; cases hf
    all_goals repeat' split at hh
    all_goals first
      | (cases hh; done)
      | (cases hh; simp at hf; done)
  | pusher p w hh =>
    unfold pstep at hh
    split at hh
    all_goals repeat' split at hh
    all_goals first
      | (cases hh; done)
      | (cases hh; simp at hf; done)
  | env e hh =>
    unfold estep at hh
    split at hh
    all_goals repeat' split at hh
    all_goals first
      | (cases hh; done)
      | (cases hh; simp at hf; done)

/-- After `terminate()` all threads end, and `join()` returns. -/
theorem C42_terminate (h : MRun P (mInit x) tr s) (hs : Still P s) (ht : s.terminate = true) :
    (∀ t, s.th t = .off ∨ s.th t = .finished) ∧ estep P .join s ≠ none := by
  have key : ∀ t, s.th t = .off ∨ s.th t = .finished := by
    intro t
    rcases (C66_no_deadlock h hs).1 t with h1 | h1 | h1
    · exact Or.inl h1
    · have := (run_winv h).tw ht t
      rw [h1] at this; cases this
    · exact Or.inr h1
  refine ⟨key, ?_⟩
  unfold estep
  rw [if_pos (fun t _ => key t)]; simp

/-- After `stop()`, when no request is left, all threads end, and `join()` returns: if no connection has been lost.
(Missing: with lost connections it is false, see `C42_violated`.) -/
theorem C42_ends_partial (h : MRun P (mInit x) tr s) (hs : Still P s) (hl : ∀ sock, .lost sock ∉ tr)
    (hstop : s.stop = true) (hn : ∀ k, serving tr k = none) :
    (∀ t, s.th t = .off ∨ s.th t = .finished) ∧ estep P .join s ≠ none := by
  have R := run_rinv h
  have L := run_linv h hl
  have htab : s.table = [] := by
    cases ht : s.table with
    | nil => rfl
    | cons e l =>
      obtain ⟨k, r⟩ := e
      have := hn k
      rw [R.sv, ht] at this
      simp at this
  have hleave : s.leave = true := by simp [MSt.leave, hstop, htab]
  obtain ⟨h1, h2⟩ := still_rest (run_kq h).1 hs
  have key : ∀ t, s.th t = .off ∨ s.th t = .finished := by
    intro t
    rcases (C66_no_deadlock h hs).1 t with h' | h' | h'
    · exact Or.inl h'
    · exfalso
      obtain ⟨u, hu⟩ := L.lv hleave t (by rw [h']; rfl)
      have := h1 u
      cases hp : s.th u <;> simp_all [rest_all, inner_all]
    · exact Or.inr h'
  refine ⟨key, ?_⟩
  unfold estep
  rw [if_pos (fun t _ => key t)]; simp

/-! ### A concrete program: requests are complete when they get an ABORT_REQUEST record -/

def mgrDemo (threads : Nat) : Prog Nat := ⟨threads, fun _ _ => 0, fun n m => (n + 1, m.data[1]? == some 2)⟩
def mgrKey : RequestId := ⟨5, 1⟩
def mgrBegin : Message := ⟨0, [1, 1, 0, 1, 0, 8, 0, 0, 0, 1, 1, 0, 0, 0, 0, 0]⟩
def mgrParams : Message := ⟨0, [1, 4, 0, 1, 0, 0, 0, 0]⟩
def mgrAbort : Message := ⟨0, [1, 2, 0, 1, 0, 0, 0, 0]⟩
/-- A handler thread starts and waits. -/
def mgrStart (t : Nat) : List Choice := List.replicate 6 (.h t)
def mgrPush (k : RequestId) (m : Message) (steps w : Nat) : List Choice := .e (.push 0 k m) :: List.replicate steps (.p 0 w)
/-- The loss of connection 5, with its requests `n`. -/
def mgrLost (n : Nat) : List Choice := [.e (.close 5)] ++ mgrPush ⟨5, 0xffff⟩ ⟨0, []⟩ (2 + n) 0

/-- A request is served from its beginning to its end by two threads, one message each; then `stop` ends both. -/
def mgrGood : List Choice :=
  [.e .start] ++ mgrStart 0 ++ mgrStart 1 ++ mgrPush mgrKey mgrBegin 2 0 ++ mgrPush mgrKey mgrParams 3 0 ++
  List.replicate 18 (.h 0) ++ mgrPush mgrKey mgrAbort 3 1 ++ List.replicate 15 (.h 1) ++ [.e .stop] ++
  List.replicate 3 (.h 0) ++ List.replicate 3 (.h 1)

example : ∃ tr s, MRun (mgrDemo 2) (mInit 0) tr s ∧ (endedBy 0 tr = [mgrParams, mgrAbort] ∧ acceptedBy 0 tr = [mgrParams, mgrAbort] ∧
    watch 0 tr = .over ∧ s.table = [] ∧ s.stop = true) ∧ Still (mgrDemo 2) s := by
  obtain ⟨tr, s, h1, h2, h3⟩ := play_any (P := mgrDemo 2) (cs := mgrGood) (x := 0)
    (f := fun y => decide ((endedBy 0 y.1 = [mgrParams, mgrAbort] ∧ acceptedBy 0 y.1 = [mgrParams, mgrAbort] ∧
      watch 0 y.1 = .over ∧ y.2.table = [] ∧ y.2.stop = true) ∧ y.2.pu 0 = .idle ∧ ∀ t ∈ List.range 2, (y.2.th t).resting = true)) (by rfl)
  have h2 := of_decide_eq_true h2
  exact ⟨tr, s, h1, h2.1, h3 (by rfl) h2.2.1 (fun t ht => h2.2.2 t (List.mem_range.2 ht))⟩

/-- A run by choices at the end of which nothing can move, and what is found there. -/
theorem mgr_still {n : Nat} {cs : List Choice} {f : List MEvent × MSt Nat → Bool}
    (h : (play (mgrDemo n) (mInit 0) cs).any (fun y => f y && (decide (y.2.pu 0 = .idle) &&
      decide (∀ t ∈ List.range n, (y.2.th t).resting = true))) = true)
    (he : cs.any Choice.elsewhere = false) :
    ∃ tr s, MRun (mgrDemo n) (mInit 0) tr s ∧ Still (mgrDemo n) s ∧ f (tr, s) = true := by
  obtain ⟨tr, s, h1, h2, h3⟩ := play_any h
  simp only [Bool.and_eq_true, decide_eq_true_eq] at h2
  exact ⟨tr, s, h1, h3 he h2.2.1 (fun t ht => h2.2.2 t (List.mem_range.2 ht)), h2.1⟩

/-- The same without asking that nothing can move. -/
theorem mgr_run {n : Nat} {cs : List Choice} {f : List MEvent × MSt Nat → Bool} (h : (play (mgrDemo n) (mInit 0) cs).any f = true) :
    ∃ tr s, MRun (mgrDemo n) (mInit 0) tr s ∧ f (tr, s) = true := by
  obtain ⟨tr, s, h1, h2, _⟩ := play_any h
  exact ⟨tr, s, h1, h2⟩

/-- Stopping is not reliable: after `stop()`, if the last request goes because its connection is lost, the threads
that are waiting are not woken: they wait for ever and `join()` never returns. -/
theorem C42_violated : ∃ tr s, MRun (mgrDemo 1) (mInit 0) tr s ∧ Still (mgrDemo 1) s ∧ s.stop = true ∧ (∀ k, serving tr k = none) ∧
    s.th 0 = .waiting ∧ estep (mgrDemo 1) .join s = none := by
  obtain ⟨tr, s, h1, h2, h3⟩ := mgr_still (n := 1)
    (cs := [.e .start] ++ mgrStart 0 ++ mgrPush mgrKey mgrBegin 2 0 ++ [.e .stop] ++ List.replicate 6 (.h 0) ++ mgrLost 1)
    (f := fun y => decide (y.2.stop = true ∧ y.2.table = [] ∧ y.2.th 0 = .waiting) && (estep (mgrDemo 1) .join y.2).isNone) (by rfl) (by rfl)
  simp only [Bool.and_eq_true, decide_eq_true_eq, Option.isNone_iff_eq_none] at h3
  exact ⟨tr, s, h1, h2, h3.1.1, fun k => by rw [(run_rinv h1).sv, h3.1.2.1]; rfl, h3.1.2.2, h3.2⟩

/-! ## C43 a lost connection -/

/-- The handling of a lost connection touches no request of another connection: they are served as before, and
their objects are as before. -/
theorem C43_only (h : MRun P (mInit x) tr s) (p w sock : Nat) (l : List (RequestId × Nat))
    (hl : s.pu p = .lost sock ∨ s.pu p = .sweep sock l) {es s'} (hst : pstep P p w s = some (es, s')) (k : RequestId) (hk : k.socket ≠ sock) :
    serving (tr ++ es) k = serving tr k ∧ ∀ r, serving tr k = some r → s'.objs r = s.objs r := by
  have R := run_rinv h
  have R' := run_rinv (.step h (.pusher p w hst))
  obtain ⟨I, S⟩ := mrun_inv (init_inv P x).1 (init_inv P x).2 h
  have V := run_vinv (p := p) (init_inv P x).1 (init_inv P x).2 (by simp [mInit]) h
  rw [R.sv, R'.sv]
  unfold pstep at hst
  rcases hl with hl | hl
  · rw [hl] at hst
    dsimp only at hst
    split at hst
    · cases hst; exact ⟨rfl, fun _ _ => rfl⟩
    · cases hst
  · rw [hl] at hst
    cases l with
    | nil => dsimp only at hst; cases hst; exact ⟨rfl, fun _ _ => rfl⟩
    | cons e l =>
      obtain ⟨k1, r1⟩ := e
      have hs := V.so sock _ hl (k1, r1) (by simp)
      have hm := S.sw p (k1, r1) (by rw [hl]; simp [PPC.todo])
      have hne : k ≠ k1 := by rintro rfl; exact hk hs
      dsimp only at hst
      split at hst
      · cases hst
        simp only [MSt.touch, MSt.destroy, MSt.pgoto]
        refine ⟨?_, fun r hr => ?_⟩
        · generalize s.table = tb
          clear hm R' h
          induction tb with
          | nil => rfl
          | cons e tb ih =>
            obtain ⟨a, b⟩ := e
            by_cases ha : a = k1
            · subst ha
              rw [List.filter_cons_of_neg (by simp), List.lookup_cons, show (k == a) = false by simpa using hne]
              exact ih
            · rw [List.filter_cons_of_pos (by simpa using ha), List.lookup_cons, List.lookup_cons, ih]
        · apply put_other
          rintro rfl
          exact hne (I.ni _ _ _ (mlookup_mem hr) hm)
      · cases hst; exact ⟨rfl, fun _ _ => rfl⟩

/-- When the handling of a lost connection ends, the only requests left of this connection are those it found
being handled by a thread. -/
theorem C43_all {tr0 s0} (h0 : MRun P (mInit x) tr0 s0) (p sock : Nat) (hp : s0.pu p = .lost sock) (h : MRun P s0 tr s)
    (he : s.pu p = .sweep sock []) (k : RequestId) (r : Nat) (hk : serving (tr0 ++ tr) k = some r) (hs : k.socket = sock) :
    .spared r ∈ tr := by
  obtain ⟨I, S⟩ := mrun_inv (init_inv P x).1 (init_inv P x).2 h0
  have V := run_vinv (p := p) I S (by rw [hp]; simp) h
  rw [(run_rinv (MRun.trans h0 h)).sv] at hk
  rcases V.sp sock [] he k r (mlookup_mem hk) hs with h' | h'
  · cases h'
  · exact h'

/-- And a request is spared only while a thread is handling it; all others it comes to are removed. -/
theorem C43_spared (h : MRun P (mInit x) tr s) (p w : Nat) {es s'} (hst : pstep P p w s = some (es, s')) (r : Nat) :
    (.spared r ∈ es → ∃ t, (s.objs r).mutex = some t ∧ (s.th t).holdsM = some r) ∧
    (.removed r ∈ es → (s.objs r).mutex = none) ∧
    (∀ sock k l, s.pu p = .sweep sock ((k, r) :: l) → (es = [.removed r] ∨ es = [.spared r])) := by
  have I := (mrun_inv (init_inv P x).1 (init_inv P x).2 h).1
  unfold pstep at hst
  split at hst
  case h_4 sock k1 r1 l hpc =>
    split at hst
    · rename_i hx
      cases hst
      refine ⟨by simp, ?_, ?_⟩
      · intro hr; simp at hr; subst hr; exact hx
      · intro sock' k' l' hh; rw [hpc] at hh; cases hh; exact Or.inl rfl
    · rename_i hx
      cases hst
      refine ⟨?_, by simp, ?_⟩
      · intro hr; simp at hr; subst hr
        cases hm : (s.objs r).mutex with
        | none => exact absurd hm hx
        | some t => exact ⟨t, rfl, (I.mu r t).1 hm⟩
      · intro sock' k' l' hh; rw [hpc] at hh; cases hh; exact Or.inr rfl
  all_goals rename_i hpc
  all_goals repeat' split at hst
  all_goals first
    | (cases hst; done)
    | (cases hst; refine ⟨by simp, by simp, ?_⟩; intro sock' k' l' hh; rw [hpc] at hh; cases hh; done)

/-! ## C44 routing -/

/-- In every run: requests are created only by BEGIN_REQUEST records for ids not in use; what is dropped are
records other than BEGIN_REQUEST for ids not in use; every other message goes to the request serving its id; and
only requests serving an id are removed. -/
theorem C44_routed (h : MRun P (mInit x) tr s) : WellRouted tr := (run_rinv h).ok

/-- What a call of `push` finds for an id is the request made by the last BEGIN_REQUEST for it, as long as it has not
been removed; and every call ends in one of the three ways (or in undefined behaviour, see C64). -/
theorem C44_answered (h : MRun P (mInit x) tr s) (p w : Nat) (k : RequestId) (m : Message) (hp : s.pu p = .route k m)
    {es s'} (hst : pstep P p w s = some (es, s')) (hu : s'.ub = false) :
    (∃ r, serving tr k = some r ∧ es = [.accepted r k m] ∧ (s'.objs r).queue = (s.objs r).queue ++ [m]) ∨
    (serving tr k = none ∧ isBegin m = true ∧ ∃ r, es = [.created r k m] ∧ serving (tr ++ es) k = some r ∧
      (s'.objs r).state = P.make k m.data ∧ (s'.objs r).queue = []) ∨
    (serving tr k = none ∧ isBegin m = false ∧ es = [.dropped k m] ∧ ∀ k', serving (tr ++ es) k' = serving tr k') := by
  have R := run_rinv h
  have R' := run_rinv (.step h (.pusher p w hst))
  rw [R.sv]
  unfold pstep at hst
  rw [hp] at hst
  dsimp only at hst
  split at hst
  · rename_i hk
    split at hst
    · rename_i ht
      split at hst
      · cases hst; cases hu
      · rename_i b hb
        split at hst
        · rename_i h1
          cases hst
          refine Or.inr (Or.inl ⟨hk, by simp [isBegin, ht, hb, h1], s.next, rfl, ?_, ?_, ?_⟩)
          · rw [R'.sv]; simp [MSt.pgoto, List.lookup_cons]
          · simp [MSt.pgoto]
          · simp [MSt.pgoto]
        · rename_i h1
          cases hst
          exact Or.inr (Or.inr ⟨hk, by simp [isBegin, hb, h1], rfl, fun k' => by rw [R.sv, R'.sv]; rfl⟩)
    · rename_i ht
      cases hst
      exact Or.inr (Or.inr ⟨hk, by simp [isBegin, ht], rfl, fun k' => by rw [R.sv, R'.sv]; rfl⟩)
  · rename_i r hk
    split at hst
    · cases hst
      exact Or.inl ⟨r, hk, rfl, by simp [MSt.pgoto, MSt.setObj, MSt.touch]⟩
    · cases hst

/-! ## C63 reuse of a request id -/

/-- A BEGIN_REQUEST record for an id that serves no request starts a new request.  (Missing: this also for ids whose request
is over; it is false, see `C63_violated`.) -/
theorem C63_fresh_partial (h : MRun P (mInit x) tr s) (p w : Nat) (k : RequestId) (m : Message) (hp : s.pu p = .route k m)
    (hb : isBegin m = true) (hn : serving tr k = none) :
    ∃ s', pstep P p w s = some ([.created s.next k m], s') ∧ serving (tr ++ [.created s.next k m]) k = some s.next ∧
      (∀ k' m', .created s.next k' m' ∉ tr) ∧ watch s.next tr = .free := by
  have R := run_rinv h
  have T := run_tinv h
  rw [R.sv] at hn
  simp only [isBegin, Bool.and_eq_true, decide_eq_true_eq, beq_iff_eq] at hb
  have hst : ∃ s', pstep P p w s = some ([.created s.next k m], s') := by
    unfold pstep
    rw [hp]
    simp only [hn, hb.1, hb.2, if_true]
    exact ⟨_, rfl⟩
  obtain ⟨s', hst⟩ := hst
  refine ⟨s', hst, ?_, fun k' m' hm => ?_, T.wn _ (Nat.le_refl _)⟩
  · simp only [serving, List.foldl_append, List.foldl_cons, List.foldl_nil, Serving.see, if_true]
  · exact absurd (R.nw _ _ _ hm) (Nat.lt_irrefl _)

/-- When the server has been told that a request is over, it may use its id for a new request at once; but the manager
still has the old request in its table for a moment.  A BEGIN_REQUEST arriving then is put in the queue of the old
request and is never answered: no request is created, and all later records for the id are dropped. -/
theorem C63_violated : ∃ tr s, MRun (mgrDemo 1) (mInit 0) tr s ∧ Still (mgrDemo 1) s ∧ s.terminate = false ∧ s.stop = false ∧ s.ub = false ∧
    tr = [.created 0 mgrKey mgrBegin, .accepted 0 mgrKey mgrAbort, .began 0 0 mgrAbort, .ended 0 0 mgrAbort true,
      .accepted 0 mgrKey mgrBegin, .removed 0, .dropped mgrKey mgrParams] := by
  obtain ⟨tr, s, h1, h2, h3⟩ := mgr_still (n := 1)
    (cs := [.e .start] ++ mgrStart 0 ++ mgrPush mgrKey mgrBegin 2 0 ++ mgrPush mgrKey mgrAbort 3 0 ++
      List.replicate 9 (.h 0) ++ mgrPush mgrKey mgrBegin 3 0 ++ List.replicate 10 (.h 0) ++ mgrPush mgrKey mgrParams 2 0)
    (f := fun y => decide (y.2.terminate = false ∧ y.2.stop = false ∧ y.2.ub = false ∧
      y.1 = [.created 0 mgrKey mgrBegin, .accepted 0 mgrKey mgrAbort, .began 0 0 mgrAbort, .ended 0 0 mgrAbort true,
      .accepted 0 mgrKey mgrBegin, .removed 0, .dropped mgrKey mgrParams])) (by rfl) (by rfl)
  have h3 := of_decide_eq_true h3
  exact ⟨tr, s, h1, h2, h3⟩

/-! ## C64 no undefined behaviour -/

/-- In every run in which no connection is lost and every BEGIN_REQUEST record has its body: no request is used after its
destruction, no mutex is destroyed while locked, nothing is read past the end of a record and nothing is taken from an
empty queue.  (Missing: runs with lost connections and short records, see below.) -/
theorem C64_safe_partial (h : MRunW P Mild (mInit x) tr s) : s.ub = false := (run_safe h).2

/-- A connection lost while a thread is between releasing the mutex of a request and the mutex of its messages: the
request is destroyed, with the latter still locked. -/
theorem C64_sweep_violated : ∃ tr s, MRun (mgrDemo 1) (mInit 0) tr s ∧ s.ub = true ∧
    tr = [.created 0 mgrKey mgrBegin, .accepted 0 mgrKey mgrParams, .began 0 0 mgrParams, .ended 0 0 mgrParams false,
      .lost 5, .removed 0] := by
  obtain ⟨tr, s, h1, h2⟩ := mgr_run (n := 1)
    (cs := [.e .start] ++ mgrStart 0 ++ mgrPush mgrKey mgrBegin 2 0 ++ mgrPush mgrKey mgrParams 3 0 ++
      List.replicate 13 (.h 0) ++ mgrLost 1)
    (f := fun y => decide (y.2.ub = true ∧
      y.1 = [.created 0 mgrKey mgrBegin, .accepted 0 mgrKey mgrParams, .began 0 0 mgrParams, .ended 0 0 mgrParams false,
      .lost 5, .removed 0])) (by rfl)
  exact ⟨tr, s, h1, of_decide_eq_true h2⟩

/-- A BEGIN_REQUEST record that is only a header: its body is read all the same. -/
theorem C64_short_violated : ∃ tr s, MRun (mgrDemo 1) (mInit 0) tr s ∧ s.ub = true ∧
    tr = [.created 0 mgrKey ⟨0, [1, 1, 0, 1, 0, 0, 0, 0]⟩] := by
  obtain ⟨tr, s, h1, h2⟩ := mgr_run (n := 1)
    (cs := [.e .start] ++ mgrPush mgrKey ⟨0, [1, 1, 0, 1, 0, 0, 0, 0]⟩ 2 0)
    (f := fun y => decide (y.2.ub = true ∧ y.1 = [.created 0 mgrKey ⟨0, [1, 1, 0, 1, 0, 0, 0, 0]⟩])) (by rfl)
  exact ⟨tr, s, h1, of_decide_eq_true h2⟩

/-! ## C65 no request of a lost connection stays -/

/-- If the socket is closed when its loss is announced, nothing begins on it afterwards, and no thread is at that moment
between finding the socket in order and giving the request back, then once the threads have come to rest no request
of the connection is left.  (Missing: the last condition, see `C65_violated`.) -/
theorem C65_partial {tr0 s0} (h0 : MRun P (mInit x) tr0 s0) (p sock : Nat) (hp : s0.pu p = .lost sock)
    (hc : s0.invalid sock = true) (hb : ∀ t k r, s0.th t = .stay k r → k.socket ≠ sock)
    (h : MRun P s0 tr s) (hn : ∀ r k m, .created r k m ∈ tr → k.socket ≠ sock) (hs : Still P s) (k : RequestId) (hk : k.socket = sock) :
    serving (tr0 ++ tr) k = none := by
  obtain ⟨I, S⟩ := mrun_inv (init_inv P x).1 (init_inv P x).2 h0
  have hr := MRun.trans h0 h
  obtain ⟨I', S'⟩ := mrun_inv I S h
  have G := run_ginv (p := p) (x := sock) I S ⟨hc, fun t k hl => ?_, fun k r _ _ => Or.inl hp⟩ h hn
  · obtain ⟨h1, h2⟩ := still_rest I' hs
    rw [(run_rinv hr).sv]
    cases hl : s.table.lookup k with
    | none => rfl
    | some r =>
      exfalso
      rcases G.ge k r (mlookup_mem hl) hk with h' | ⟨l, h', _⟩ | ⟨t, h'⟩
      · rw [h2 p] at h'; cases h'
      · rw [h2 p] at h'; cases h'
      · have := h1 t
        cases hq : s.th t <;> simp_all [rest_all, M_all]
  · cases hq : s0.th t <;> rw [hq] at hl <;> simp_all [letting_all]
    exact hb t _ _ hq

/-- Without it: a thread that has just found the socket in order keeps the request out of the reach of the handling
of the loss, and then gives it back.  It stays for ever; after `stop()` the threads never end. -/
theorem C65_violated : ∃ tr s, MRun (mgrDemo 1) (mInit 0) tr s ∧ Still (mgrDemo 1) s ∧ s.invalid 5 = true ∧ s.ub = false ∧ s.stop = true ∧
    serving tr mgrKey = some 0 ∧ estep (mgrDemo 1) .join s = none ∧
    tr = [.created 0 mgrKey mgrBegin, .accepted 0 mgrKey mgrParams, .began 0 0 mgrParams, .ended 0 0 mgrParams false,
      .lost 5, .spared 0] := by
  obtain ⟨tr, s, h1, h2, h3⟩ := mgr_still (n := 1)
    (cs := [.e .start] ++ mgrStart 0 ++ mgrPush mgrKey mgrBegin 2 0 ++ mgrPush mgrKey mgrParams 3 0 ++
      List.replicate 12 (.h 0) ++ mgrLost 1 ++ List.replicate 6 (.h 0) ++ [.e .stop] ++ List.replicate 6 (.h 0))
    (f := fun y => decide (y.2.invalid 5 = true ∧ y.2.ub = false ∧ y.2.stop = true ∧ serving y.1 mgrKey = some 0 ∧
      (estep (mgrDemo 1) .join y.2).isNone = true ∧
      y.1 = [.created 0 mgrKey mgrBegin, .accepted 0 mgrKey mgrParams, .began 0 0 mgrParams, .ended 0 0 mgrParams false,
      .lost 5, .spared 0])) (by rfl) (by rfl)
  have h3 := of_decide_eq_true h3
  simp only [Option.isNone_iff_eq_none] at h3
  exact ⟨tr, s, h1, h2, h3⟩

/-- A run as C65 and C43 ask for: two requests, the connection of one is lost while a thread handles it. -/
example : ∃ tr s, MRun (mgrDemo 1) (mInit 0) tr s ∧ Still (mgrDemo 1) s ∧ s.invalid 5 = true ∧ s.ub = false ∧
    serving tr mgrKey = none ∧ serving tr ⟨6, 1⟩ = some 1 ∧ .spared 0 ∈ tr ∧ .removed 0 ∈ tr := by
  obtain ⟨tr, s, h1, h2, h3⟩ := mgr_still (n := 1)
    (cs := [.e .start] ++ mgrStart 0 ++ mgrPush mgrKey mgrBegin 2 0 ++ mgrPush ⟨6, 1⟩ mgrBegin 2 0 ++ mgrPush mgrKey mgrParams 3 0 ++
      List.replicate 10 (.h 0) ++ mgrLost 1 ++ List.replicate 8 (.h 0))
    (f := fun y => decide (y.2.invalid 5 = true ∧ y.2.ub = false ∧ serving y.1 mgrKey = none ∧ serving y.1 ⟨6, 1⟩ = some 1 ∧ .spared 0 ∈ y.1 ∧ .removed 0 ∈ y.1)) (by rfl) (by rfl)
  have h3 := of_decide_eq_true h3
  exact ⟨tr, s, h1, h2, h3⟩

/-! ## Witnesses: for each theorem above, a concrete run that meets its hypotheses -/

/-- A thread, a request with a message handled and one waiting. -/
def mgrBusy : List Choice :=
  [.e .start] ++ mgrStart 0 ++ mgrPush mgrKey mgrBegin 2 0 ++ mgrPush mgrKey mgrParams 3 0 ++ List.replicate 18 (.h 0)

-- C66_no_deadlock, C40_handled
example : ∃ tr s, MRun (mgrDemo 1) (mInit 0) tr s ∧ Still (mgrDemo 1) s ∧ s.terminate = false ∧ s.th 0 = .waiting ∧
    serving tr mgrKey = some 0 ∧ acceptedBy 0 tr = [mgrParams] := by
  obtain ⟨tr, s, h1, h2, h3⟩ := mgr_still (n := 1) (cs := mgrBusy)
    (f := fun y => decide (y.2.terminate = false ∧ y.2.th 0 = .waiting ∧ serving y.1 mgrKey = some 0 ∧ acceptedBy 0 y.1 = [mgrParams])) (by rfl) (by rfl)
  exact ⟨tr, s, h1, h2, of_decide_eq_true h3⟩

-- C40_pending: one message handled, another waiting
example : ∃ tr s, MRun (mgrDemo 1) (mInit 0) tr s ∧ serving tr mgrKey = some 0 ∧ begunBy 0 tr = [mgrParams] ∧
    acceptedBy 0 tr = [mgrParams, mgrAbort] := by
  obtain ⟨tr, s, h1, h3⟩ := mgr_run (n := 1) (cs := mgrBusy ++ mgrPush mgrKey mgrAbort 3 0)
    (f := fun y => decide (serving y.1 mgrKey = some 0 ∧ begunBy 0 y.1 = [mgrParams] ∧ acceptedBy 0 y.1 = [mgrParams, mgrAbort])) (by rfl)
  exact ⟨tr, s, h1, of_decide_eq_true h3⟩

-- C41_alone: the second message of a request, between those of another one
example : ∃ tr s, MRun (mgrDemo 2) (mInit 0) tr s ∧ ∃ before after, tr = before ++ .ended 0 1 mgrAbort true :: after ∧
    endedBy 0 before = [mgrParams] := by
  obtain ⟨tr, s, h1, h3⟩ := mgr_run (n := 2) (cs := mgrGood)
    (f := fun y => decide (y.1 = [.created 0 mgrKey mgrBegin, .accepted 0 mgrKey mgrParams, .began 0 0 mgrParams, .ended 0 0 mgrParams false,
      .accepted 0 mgrKey mgrAbort, .began 0 1 mgrAbort, .ended 0 1 mgrAbort true, .removed 0, .finished 0, .finished 1])) (by rfl)
  have h3 := of_decide_eq_true h3
  exact ⟨tr, s, h1, _, _, h3.trans (by rfl : _ = [MEvent.created 0 mgrKey mgrBegin, .accepted 0 mgrKey mgrParams, .began 0 0 mgrParams,
    .ended 0 0 mgrParams false, .accepted 0 mgrKey mgrAbort, .began 0 1 mgrAbort] ++ .ended 0 1 mgrAbort true :: [.removed 0, .finished 0, .finished 1]), by rfl⟩

-- C42_drains: the step with which a thread ends after `stop()`
example : ∃ tr s es s', MRun (mgrDemo 1) (mInit 0) tr s ∧ MStep (mgrDemo 1) s es s' ∧ .finished 0 ∈ es ∧ s.stop = true ∧ s.terminate = false := by
  obtain ⟨tr, s, h1, h3⟩ := mgr_run (n := 1) (cs := mgrBusy ++ mgrPush mgrKey mgrAbort 3 0 ++ List.replicate 15 (.h 0) ++ [.e .stop] ++ List.replicate 2 (.h 0))
    (f := fun y => decide (y.2.stop = true ∧ y.2.terminate = false) &&
      ((hstep (mgrDemo 1) 0 y.2).map (·.1) == some [.finished 0])) (by rfl)
  simp only [Bool.and_eq_true, decide_eq_true_eq, beq_iff_eq, Option.map_eq_some_iff] at h3
  obtain ⟨⟨h3, h4⟩, ⟨es, s'⟩, h5, h6⟩ := h3
  exact ⟨tr, s, es, s', h1, .handler 0 h5, by rw [show es = _ from h6]; simp, h3, h4⟩

-- C42_terminate: with a request left
example : ∃ tr s, MRun (mgrDemo 1) (mInit 0) tr s ∧ Still (mgrDemo 1) s ∧ s.terminate = true ∧ serving tr mgrKey = some 0 := by
  obtain ⟨tr, s, h1, h2, h3⟩ := mgr_still (n := 1) (cs := mgrBusy ++ [.e .terminate] ++ List.replicate 3 (.h 0))
    (f := fun y => decide (y.2.terminate = true ∧ serving y.1 mgrKey = some 0)) (by rfl) (by rfl)
  exact ⟨tr, s, h1, h2, of_decide_eq_true h3⟩

-- C42_ends_partial: after serving a request
example : ∃ tr s, MRun (mgrDemo 2) (mInit 0) tr s ∧ Still (mgrDemo 2) s ∧ (∀ sock, .lost sock ∉ tr) ∧ s.stop = true ∧ (∀ k, serving tr k = none) ∧
    endedBy 0 tr = [mgrParams, mgrAbort] := by
  obtain ⟨tr, s, h1, h2, h3⟩ := mgr_still (n := 2) (cs := mgrGood)
    (f := fun y => decide (y.2.stop = true ∧ y.2.table = [] ∧ endedBy 0 y.1 = [mgrParams, mgrAbort] ∧
      y.1.all (fun e => match e with | .lost _ => false | _ => true) = true)) (by rfl) (by rfl)
  have h3 := of_decide_eq_true h3
  exact ⟨tr, s, h1, h2, fun sock hm => by have := List.all_eq_true.1 h3.2.2.2 _ hm; simp at this,
    h3.1, fun k => by rw [(run_rinv h1).sv, h3.2.1]; rfl, h3.2.2.1⟩

/-- Two connections with a request each; the loss of one is announced. -/
def mgrTwo : List Choice :=
  [.e .start] ++ mgrStart 0 ++ mgrPush mgrKey mgrBegin 2 0 ++ mgrPush ⟨6, 1⟩ mgrBegin 2 0 ++ [.e (.close 5)] ++ mgrPush ⟨5, 0xffff⟩ ⟨0, []⟩ 0 0

-- C43_only, C43_spared, C43_all: the request of the other connection is served, that of the lost one is swept
example : ∃ tr s es s', MRun (mgrDemo 1) (mInit 0) tr s ∧ s.pu 0 = .sweep 5 [(mgrKey, 0)] ∧ pstep (mgrDemo 1) 0 0 s = some (es, s') ∧
    es = [.removed 0] ∧ serving tr ⟨6, 1⟩ = some 1 ∧ s'.pu 0 = .sweep 5 [] := by
  obtain ⟨tr, s, h1, h3⟩ := mgr_run (n := 1) (cs := mgrTwo ++ [.p 0 0])
    (f := fun y => decide (y.2.pu 0 = .sweep 5 [(mgrKey, 0)] ∧ serving y.1 ⟨6, 1⟩ = some 1) &&
      ((pstep (mgrDemo 1) 0 0 y.2).map (fun z => (z.1, z.2.pu 0)) == some ([.removed 0], .sweep 5 []))) (by rfl)
  simp only [Bool.and_eq_true, decide_eq_true_eq, beq_iff_eq, Option.map_eq_some_iff, Prod.mk.injEq] at h3
  obtain ⟨⟨h3, h4⟩, ⟨es, s'⟩, h5, h6, h7⟩ := h3
  exact ⟨tr, s, es, s', h1, h3, h5, h6, h4, h7⟩

-- C43_all: the request is being handled and so is spared
example : ∃ tr0 s0 tr s, MRun (mgrDemo 1) (mInit 0) tr0 s0 ∧ s0.pu 0 = .lost 5 ∧ MRun (mgrDemo 1) s0 tr s ∧ s.pu 0 = .sweep 5 [] ∧
    serving (tr0 ++ tr) mgrKey = some 0 := by
  have h : (play (mgrDemo 1) (mInit 0) ([.e .start] ++ mgrStart 0 ++ mgrPush mgrKey mgrBegin 2 0 ++ mgrPush mgrKey mgrParams 3 0 ++
      List.replicate 10 (.h 0) ++ [.e (.close 5)] ++ mgrPush ⟨5, 0xffff⟩ ⟨0, []⟩ 0 0)).any (fun y => decide (y.2.pu 0 = .lost 5) &&
      (play (mgrDemo 1) y.2 [.p 0 0, .p 0 0]).any fun z => decide (z.2.pu 0 = .sweep 5 [] ∧ serving (y.1 ++ z.1) mgrKey = some 0)) = true := by rfl
  simp only [Option.any_eq_true] at h
  obtain ⟨⟨tr0, s0⟩, h1, h2⟩ := h
  simp only [Bool.and_eq_true, decide_eq_true_eq, Option.any_eq_true] at h2
  obtain ⟨h2, ⟨tr, s⟩, h3, h4⟩ := h2
  exact ⟨tr0, s0, tr, s, play_run h1, h2, play_run h3, h4.1, h4.2⟩

-- C44_answered, C63_fresh_partial: a BEGIN_REQUEST, while another request is served
example : ∃ tr s es s', MRun (mgrDemo 1) (mInit 0) tr s ∧ s.pu 0 = .route ⟨6, 1⟩ mgrBegin ∧ isBegin mgrBegin = true ∧ serving tr ⟨6, 1⟩ = none ∧
    serving tr mgrKey = some 0 ∧ pstep (mgrDemo 1) 0 0 s = some (es, s') ∧ s'.ub = false ∧ es = [.created 1 ⟨6, 1⟩ mgrBegin] := by
  obtain ⟨tr, s, h1, h3⟩ := mgr_run (n := 1) (cs := mgrBusy ++ mgrPush ⟨6, 1⟩ mgrBegin 1 0)
    (f := fun y => decide (y.2.pu 0 = .route ⟨6, 1⟩ mgrBegin ∧ serving y.1 ⟨6, 1⟩ = none ∧ serving y.1 mgrKey = some 0) &&
      ((pstep (mgrDemo 1) 0 0 y.2).map (fun z => (z.1, z.2.ub)) == some ([.created 1 ⟨6, 1⟩ mgrBegin], false))) (by rfl)
  simp only [Bool.and_eq_true, decide_eq_true_eq, beq_iff_eq, Option.map_eq_some_iff, Prod.mk.injEq] at h3
  obtain ⟨⟨h3, h4, h4'⟩, ⟨es, s'⟩, h5, h6, h7⟩ := h3
  exact ⟨tr, s, es, s', h1, h3, by rfl, h4, h4', h5, h7, h6⟩

theorem play_runW {P : Prog σ} {ok : Outer → Prop} {cs : List Choice} : ∀ {s0 tr0 s tr s'}, MRunW P ok s0 tr0 s → (∀ o, .e o ∈ cs → ok o) →
    play P s cs = some (tr, s') → MRunW P ok s0 (tr0 ++ tr) s' := by
  induction cs with
  | nil => intro s0 tr0 s tr s' hr _ h; cases h; simpa using hr
  | cons c cs ih =>
    intro s0 tr0 s tr s' hr hok h
    unfold play at h
    split at h
    · cases h
    · rename_i es s1 hc
      split at h
      · cases h
      · rename_i tr' s2 hp
        cases h
        rw [← List.append_assoc]
        refine ih ?_ (fun o ho => hok o (List.mem_cons_of_mem _ ho)) hp
        cases c with
        | h t => exact .handler hr t hc
        | p p w => exact .pusher hr p w hc
        | e o => exact .env hr o (hok o (List.mem_cons_self ..)) hc

-- C64_safe_partial: a request served to its end
example : ∃ tr s, MRunW (mgrDemo 2) Mild (mInit 0) tr s ∧ endedBy 0 tr = [mgrParams, mgrAbort] := by
  have h : (play (mgrDemo 2) (mInit 0) mgrGood).any (fun y => decide (endedBy 0 y.1 = [mgrParams, mgrAbort])) = true := by rfl
  simp only [Option.any_eq_true, decide_eq_true_eq] at h
  obtain ⟨⟨tr, s⟩, h1, h2⟩ := h
  have hm : ∀ o, Choice.e o ∈ mgrGood → Mild o := by
    intro o ho
    simp only [mgrGood, mgrStart, mgrPush, List.mem_append, List.mem_cons, List.mem_replicate, List.not_mem_nil, reduceCtorEq, and_false, or_false, false_or,
      Choice.e.injEq] at ho
    rcases ho with (((rfl | rfl) | rfl) | rfl) | rfl
    all_goals first
      | trivial
      | exact ⟨by decide, by unfold Whole; decide⟩
  have := play_runW (.refl _) hm h1
  exact ⟨tr, s, by simpa using this, h2⟩

-- C65_partial
example : ∃ tr0 s0 tr s, MRun (mgrDemo 1) (mInit 0) tr0 s0 ∧ s0.pu 0 = .lost 5 ∧ s0.invalid 5 = true ∧ (∀ t k r, s0.th t = .stay k r → k.socket ≠ 5) ∧
    MRun (mgrDemo 1) s0 tr s ∧ (∀ r k m, .created r k m ∈ tr → k.socket ≠ 5) ∧ Still (mgrDemo 1) s ∧ serving tr0 mgrKey = some 0 := by
  have h : (play (mgrDemo 1) (mInit 0) mgrTwo).any (fun y => decide (y.2.pu 0 = .lost 5 ∧ y.2.invalid 5 = true ∧ serving y.1 mgrKey = some 0 ∧ y.2.th 0 = .waiting) &&
      (play (mgrDemo 1) y.2 [.p 0 0, .p 0 0, .p 0 0]).any fun z => decide (z.1 = [.removed 0] ∧ z.2.pu 0 = .idle ∧ z.2.th 0 = .waiting)) = true := by rfl
  simp only [Option.any_eq_true] at h
  obtain ⟨⟨tr0, s0⟩, h1, h2⟩ := h
  simp only [Bool.and_eq_true, decide_eq_true_eq, Option.any_eq_true] at h2
  obtain ⟨h2, ⟨tr, s⟩, h3, h4⟩ := h2
  have r0 := play_run h1
  have r1 := r0.trans (play_run h3)
  refine ⟨tr0, s0, tr, s, r0, h2.1, h2.2.1, fun t k r ht => ?_, play_run h3, fun r k m hm => ?_, still_of_rest (fun t => ?_) (fun q => ?_), h2.2.2.1⟩
  · by_cases h0 : t = 0
    · subst h0; rw [h2.2.2.2] at ht; cases ht
    · rw [(run_kq r0).1.off t (by show 1 ≤ t; omega)] at ht; cases ht
  · rw [show tr = _ from h4.1] at hm; simp at hm
  · by_cases h0 : t = 0
    · subst h0; rw [h4.2.2]; rfl
    · rw [(run_kq r1).1.off t (by show 1 ≤ t; omega)]; rfl
  · by_cases h0 : q = 0
    · subst h0; exact h4.2.1
    · rw [play_pu h3 (by rfl) q h0, play_pu h1 (by rfl) q h0]; rfl

-- C41_request: a request that has handled a record
example : ∃ tr s q, MRun (requestProg 1 (defaultHandlers (fun (n : Nat) e _ => (⟨[], e, n⟩, false))) (fun _ _ _ => 0) 100 0) (mInit none) tr s ∧
    .created 0 mgrKey mgrBegin ∈ tr ∧ (s.objs 0).state = some q ∧ endedBy 0 tr = [mgrParams] ∧ q.state = 5 := by
  obtain ⟨tr, s, h1, h2, _⟩ := play_any (P := requestProg 1 (defaultHandlers (fun (n : Nat) e _ => (⟨[], e, n⟩, false))) (fun _ _ _ => 0) 100 0)
    (cs := mgrBusy) (x := none)
    (f := fun y => decide (.created 0 mgrKey mgrBegin ∈ y.1 ∧ endedBy 0 y.1 = [mgrParams]) && ((y.2.objs 0).state.map (·.state) == some 5)) (by rfl)
  simp only [Bool.and_eq_true, decide_eq_true_eq, beq_iff_eq, Option.map_eq_some_iff] at h2
  obtain ⟨⟨h2, h3⟩, q, h4, h5⟩ := h2
  exact ⟨tr, s, q, h1, h2, h4, h3, h5⟩

end Fcgi.Props
