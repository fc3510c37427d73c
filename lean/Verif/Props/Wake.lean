import Verif.Lemmas.Wake
/-! # Properties C45, C67–C69: the transceiver's thread

`WRun (wInit a b l n) tr s` is any run from the construction on: any number of threads calling `send`, one at a time
calling `start`, `stop`, `terminate` or `join`, connections, data and signals arriving at any moment. -/
namespace Fcgi.Props
open Fcgi Fcgi.Model Fcgi.Spec
variable {a b l : Bool} {n : Nat} {tr : List WEvent} {s : WSt}

/-- The thread exists and has not ended. -/
def Running (s : WSt) : Prop := s.rx ≠ .off ∧ s.rx ≠ .finished

theorem quiet_asleep {I : WakeInv tr s} (hq : AtRest s) (hr : Running s) : s.rx = .asleep ∧ s.bytes = 0 := by
  rcases quiet_rx I hq.2.2 with h | h | h
  · exact absurd h hr.1
  · exact absurd h hr.2
  · exact h

/-! ## C45 wake-ups are not lost -/

/-- The thread never goes to sleep after a call of `wake()` before `poll()` has returned at least once. -/
theorem C45_wakeful (h : WRun (wInit a b l n) tr s) : Wakeful tr := by
  induction h with
  | refl => intro before after hh; cases before <;> cases hh
  | @step tr s1 es s2 hr hs ih =>
    have I := run_winv' hr
    have hst := step_slept hs
    intro before after hh
    match es, hst with
    | [], _ => rw [List.append_nil] at hh; exact ih before after hh
    | [e], hst =>
      rcases List.eq_nil_or_concat after with rfl | ⟨a', x, rfl⟩
      · have hx := List.append_inj' hh rfl
        cases hx.2
        obtain ⟨h1, h2⟩ := hst.2 (by simp)
        rw [← hx.1]
        cases hu : unanswered tr with
        | false => rfl
        | true =>
          have := I.un hu
          rw [h1, h2] at this
          simp [brisk_all] at this
      · rw [List.concat_eq_append, ← List.cons_append, ← List.append_assoc] at hh
        exact ih before a' (List.append_inj_left' hh rfl)
    | _ :: _ :: _, hst => simp at hst

/-- While it sleeps and a wake-up has not been answered, the operating system can report the wake-up channel. -/
theorem C45_getup (h : WRun (wInit a b l n) tr s) (hs : s.rx = .asleep) (hu : unanswered tr = true) (w : Wrote) (c : Bool) :
    ∃ es s', rstep ⟨.wakeup, w, c⟩ s = some (es, s') := by
  have := (run_winv' h).un hu
  rw [hs] at this
  rcases this with this | this
  · unfold rstep
    rw [hs]
    simp only [WSt.reports, this]
    exact ⟨_, _, rfl⟩
  · cases this

/-- Once no thread can move by itself any more, every wake-up has been answered. -/
theorem C45_answered (h : WRun (wInit a b l n) tr s) (hq : AtRest s) (hr : Running s) : unanswered tr = false := by
  have I := run_winv' h
  obtain ⟨h1, h2⟩ := quiet_asleep (I := I) hq hr
  cases hu : unanswered tr with
  | false => rfl
  | true =>
    have := I.un hu
    rw [h1, h2] at this
    simp [brisk_all] at this

/-- There is never more than one byte in the wake-up channel, and the thread never reads from it when it is empty
(which would block, with the mutex held, all callers of `wake()`). -/
theorem C45_channel (h : WRun (wInit a b l n) tr s) : s.bytes ≤ 1 ∧ s.stuck = false := by
  have I := run_winv' h
  refine ⟨?_, I.st⟩
  have := I.ch
  omega

/-! ## C67 everything queued is sent -/

/-- The records are written in the order they were queued, none twice. -/
theorem C67_order (h : WRun (wInit a b l n) tr s) : writtenIn tr <+: queuedIn tr := by
  rw [(run_winv' h).fi, List.append_assoc]
  exact ⟨_, rfl⟩

/-- When no thread can move by itself, nothing is left in the queue: no record waits for unrelated traffic. -/
theorem C67_sent (h : WRun (wInit a b l n) tr s) (hq : AtRest s) (hr : Running s) : writtenIn tr = queuedIn tr := by
  have I := run_winv' h
  obtain ⟨h1, h2⟩ := quiet_asleep (I := I) hq hr
  have hqu : s.queue = [] := by
    cases hx : s.queue with
    | nil => rfl
    | cons r q =>
      exfalso
      rcases I.qu (by rw [h1]; rfl) (by rw [hx]; simp) with h' | ⟨i, h'⟩
      · omega
      · rw [quiet_tx (hq.2.1 i)] at h'; cases h'
  rw [I.fi, h1, hqu]
  simp [hand_all]

/-! ## C68 the thread ends exactly when asked to -/

/-- It ends only after `terminate()`, or after `stop()` with no connection left. -/
theorem C68_only {es s'} (hs : WStep s es s') (he : .ended ∈ es) : s.term = true ∨ s.stop = true ∧ s.sockets = 0 := by
  cases hs with
  | rx f hf =>
    unfold rstep at hf
    split at hf
    case h_3 =>
      split at hf
      · cases hf; cases he
      · rename_i hn
        cases h1 : s.term <;> simp_all
    all_goals repeat' split at hf
    all_goals first
      | (cases hf; done)
      | (cases hf; simp at he; done)
      | (generalize hfr : f.ready = rd at *; cases rd <;> simp only [WSt.got] at hf <;> cases hf <;> simp at he)
  | ctl hf =>
    unfold cstep at hf
    split at hf
    all_goals first
      | (cases hf; done)
      | (cases hf; simp at he; done)
  | tx i hf =>
    unfold sstep at hf
    split at hf
    all_goals first
      | (cases hf; done)
      | (cases hf; simp at he; done)
  | call c hf => cases he

/-- After `terminate()`, and after `stop()` when the last connection has gone, it does end: no traffic is needed. -/
theorem C68_ends (h : WRun (wInit a b l n) tr s) (hq : AtRest s) (hs : s.term = true ∨ s.stop = true ∧ s.sockets = 0) : ¬ Running s := by
  intro hr
  have I := run_winv' h
  obtain ⟨h1, h2⟩ := quiet_asleep (I := I) hq hr
  have hc := quiet_ctl hq.1
  rcases hs with hs | ⟨hs, h0⟩
  · rcases I.te (by rw [h1]; rfl) hs with h' | ⟨sp, h'⟩
    · omega
    · rw [hc] at h'; cases h'
  · rcases I.so (by rw [h1]; rfl) hs h0 with h' | h' | h' | h' | ⟨h', _⟩
    · omega
    all_goals (rw [hc] at h'; cases h')

/-! ## C69 starting and stopping to accept connections -/

/-- After `stop()` has returned no connection is admitted. -/
theorem C69_refuses (h : WRun (wInit a b l n) tr s) (hc : s.ctl = .idle) (hs : s.stop = true) {es s'} (hst : WStep s es s') : .admitted ∉ es := by
  have I := run_winv' h
  intro he
  cases hst with
  | rx f hf =>
    have hacc : s.rx ≠ .off → s.accept = false := by
      intro hoff
      rcases I.sa hs hoff with h' | h' | h' | h'
      · exact h'
      all_goals (rw [hc] at h'; cases h')
    unfold rstep at hf
    split at hf
    case h_11 hpc =>
      rw [hacc (by rw [hpc]; simp)] at hf
      cases hf; simp at he
    all_goals repeat' split at hf
    all_goals first
      | (cases hf; done)
      | (cases hf; simp at he; done)
      | (generalize hfr : f.ready = rd at *; cases rd <;> simp only [WSt.got] at hf <;> cases hf <;> simp at he)
  | ctl hf => unfold cstep at hf; rw [hc] at hf; cases hf
  | tx i hf =>
    unfold sstep at hf
    split at hf
    all_goals first
      | (cases hf; done)
      | (cases hf; simp at he; done)
  | call c hf => cases he

/-- In runs in which the thread does not refresh its poll set between the two assignments of `accept()`: when nothing
moves, the listeners are watched if and only if `start()` was the last call.  (Missing: the other runs; see below.) -/
theorem C69_partial (h : WRunIn Unraced (wInit a b l n) tr s) (hq : AtRest s) (hr : Running s) : s.polled = (s.listeners && !s.stop) := by
  have I := run_winv' h.run
  have Q := run_pinv h
  obtain ⟨h1, h2⟩ := quiet_asleep (I := I) hq hr
  have hc := quiet_ctl hq.1
  have hacc : s.accept = !s.stop := by
    cases hs : s.stop with
    | false =>
      rcases I.ac hs with h' | h' | h' | h' | h'
      · exact h'
      all_goals (rw [hc] at h'; cases h')
    | true =>
      rcases I.sa hs hr.1 with h' | h' | h' | h'
      · exact h'
      all_goals (rw [hc] at h'; cases h')
  rcases Q.po with h' | h'
  · exfalso
    rcases Q.pr h' (Or.inr h1) with h'' | ⟨v, sp, h''⟩ | ⟨sp, h''⟩
    · omega
    · rw [hc] at h''; cases h''
    · rw [hc] at h''; cases h''
  · rw [h', hacc]

def calm : Fate := ⟨.nothing, .all false, false⟩
def rxn (n : Nat) : List WChoice := List.replicate n (.rx calm)
def ctln (n : Nat) : List WChoice := List.replicate n .ctl

theorem wplay_quiet {cs : List WChoice} {a b c n} {f : List WEvent × WSt → Bool}
    (h : (wplay (wInit a b c n) cs).any (fun y => f y && decide (y.2.tx 0 = .idle ∧ y.2.ctl = .idle ∧
      (y.2.rx = .off ∨ y.2.rx = .finished ∨ y.2.rx = .asleep ∧ y.2.bytes = 0))) = true)
    (he : cs.any WChoice.elsewhere = false) :
    ∃ tr s, WRun (wInit a b c n) tr s ∧ AtRest s ∧ f (tr, s) = true := by
  obtain ⟨tr, s, h1, h2, h3⟩ := wplay_any h
  simp only [Bool.and_eq_true, decide_eq_true_eq] at h2
  exact ⟨tr, s, h1, h3 he h2.2.1 h2.2.2.1 h2.2.2.2, h2.1⟩

/-- The server is started, a connection comes in, `stop()` is called, and, before the connection ends, `start()` again.
`start()` has returned, the thread is running, nothing is stopped, and yet the listeners are not watched: no connection
will ever be let in again. -/
theorem C69_violated : ∃ tr s, WRun (wInit false false true 0) tr s ∧ AtRest s ∧ Running s ∧ s.stop = false ∧ s.accept = true ∧
    s.listeners = true ∧ s.polled = false ∧ s.sockets = 1 := by
  obtain ⟨tr, s, h1, h2, h3⟩ := wplay_quiet (a := false) (b := false) (c := true) (n := 0)
    (cs := [.call .start] ++ ctln 4 ++ rxn 5 ++ [.rx ⟨.listener, .all false, false⟩] ++ rxn 7 ++
      [.call .stop] ++ ctln 5 ++ rxn 4 ++ [.rx ⟨.wakeup, .all false, false⟩] ++ rxn 7 ++
      [.call .start] ++ ctln 4 ++ rxn 3 ++ ctln 1 ++ rxn 1 ++ ctln 2 ++
      [.rx ⟨.wakeup, .all false, false⟩] ++ rxn 10)
    (f := fun y => decide (y.2.rx ≠ .off ∧ y.2.rx ≠ .finished ∧ y.2.stop = false ∧ y.2.accept = true ∧ y.2.listeners = true ∧ y.2.polled = false ∧ y.2.sockets = 1))
    (by rfl) (by rfl)
  have h3 := of_decide_eq_true h3
  exact ⟨tr, s, h1, h2, ⟨h3.1, h3.2.1⟩, h3.2.2⟩

/-- `start()` for a thread that has ended but has not been joined does nothing: everything is set to run, and nothing runs. -/
theorem C69_unjoined_violated : ∃ tr s, WRun (wInit false false true 0) tr s ∧ AtRest s ∧ s.rx = .finished ∧ s.stop = false ∧ s.term = false ∧
    s.accept = true := by
  obtain ⟨tr, s, h1, h2, h3⟩ := wplay_quiet (a := false) (b := false) (c := true) (n := 0)
    (cs := [.call .start] ++ ctln 4 ++ [.call .stop] ++ ctln 5 ++ rxn 1 ++ [.call .start] ++ ctln 7)
    (f := fun y => decide (y.2.rx = .finished ∧ y.2.stop = false ∧ y.2.term = false ∧ y.2.accept = true)) (by rfl) (by rfl)
  have h3 := of_decide_eq_true h3
  exact ⟨tr, s, h1, h2, h3⟩

/-- A run with sleep, a record sent from another thread while asleep, written in two parts. -/
example : ∃ tr s, WRun (wInit true true true 0) tr s ∧ AtRest s ∧ Running s ∧ s.sockets = 1 ∧
    tr = [.admitted, .returned, .slept, .queued 7, .woke, .returned, .returned, .written 7, .slept] := by
  obtain ⟨tr, s, h1, h2, h3⟩ := wplay_quiet (a := true) (b := true) (c := true) (n := 0)
    (cs := [.call .start] ++ ctln 4 ++ rxn 5 ++ [.rx ⟨.listener, .all false, false⟩] ++ rxn 10 ++
      [.call (.send 0 7), .tx 0, .tx 0, .rx ⟨.wakeup, .all false, false⟩] ++ rxn 6 ++ [.rx ⟨.nothing, .part, false⟩] ++ rxn 13)
    (f := fun y => decide (y.2.rx ≠ .off ∧ y.2.rx ≠ .finished ∧ y.2.sockets = 1 ∧
      y.1 = [.admitted, .returned, .slept, .queued 7, .woke, .returned, .returned, .written 7, .slept])) (by rfl) (by rfl)
  have h3 := of_decide_eq_true h3
  exact ⟨tr, s, h1, h2, ⟨h3.1, h3.2.1⟩, h3.2.2⟩

/-- A run as in `C69_partial`: a connection is admitted, `stop()`, and `start()` while the thread sleeps. -/
example : ∃ tr s, WRunIn Unraced (wInit false false true 0) tr s ∧ s.stop = false ∧ s.accept = true ∧ s.rx = .asleep ∧ s.bytes = 0 ∧ s.polled = true ∧
    tr = [.admitted, .returned, .slept, .woke, .returned, .slept, .woke, .returned, .slept] := by
  have h : (wplayU (wInit false false true 0) ([.call .start] ++ ctln 4 ++ rxn 5 ++ [.rx ⟨.listener, .all false, false⟩] ++ rxn 10 ++
      [.call .stop] ++ ctln 5 ++ [.rx ⟨.wakeup, .all false, false⟩] ++ rxn 12 ++
      [.call .start] ++ ctln 7 ++ [.rx ⟨.wakeup, .all false, false⟩] ++ rxn 12)).any (fun y => decide (y.2.stop = false ∧ y.2.accept = true ∧
      y.2.rx = .asleep ∧ y.2.bytes = 0 ∧ y.2.polled = true ∧
      y.1 = [.admitted, .returned, .slept, .woke, .returned, .slept, .woke, .returned, .slept])) = true := by rfl
  obtain ⟨y, hy, h1⟩ := (Option.any_eq_true _ _).1 h
  exact ⟨y.1, y.2, wplayU_run hy, of_decide_eq_true h1⟩

/-! ## Witnesses for the other theorems -/

-- C45_getup: asleep, a record queued from another thread and the wake-up not answered
example : ∃ tr s, WRun (wInit true true true 0) tr s ∧ s.rx = .asleep ∧ unanswered tr = true := by
  obtain ⟨tr, s, h1, h2, _⟩ := wplay_any (a := true) (b := true) (c := true) (n := 0)
    (cs := [.call .start] ++ ctln 4 ++ rxn 5 ++ [.rx ⟨.listener, .all false, false⟩] ++ rxn 10 ++ [.call (.send 0 7), .tx 0, .tx 0])
    (f := fun y => decide (y.2.rx = .asleep ∧ unanswered y.1 = true)) (by rfl)
  exact ⟨tr, s, h1, of_decide_eq_true h2⟩

-- C68_only: the step with which the thread ends after `stop()`
example : ∃ tr s es s', WRun (wInit false false true 0) tr s ∧ WStep s es s' ∧ .ended ∈ es ∧ s.stop = true ∧ s.term = false := by
  obtain ⟨tr, s, h1, h2, _⟩ := wplay_any (a := false) (b := false) (c := true) (n := 0)
    (cs := [.call .start] ++ ctln 4 ++ [.call .stop] ++ ctln 5)
    (f := fun y => decide (y.2.stop = true ∧ y.2.term = false) && ((rstep calm y.2).map (·.1) == some [.ended])) (by rfl)
  simp only [Bool.and_eq_true, decide_eq_true_eq, beq_iff_eq, Option.map_eq_some_iff] at h2
  obtain ⟨⟨h2, h3⟩, ⟨es, s'⟩, h4, h5⟩ := h2
  exact ⟨tr, s, es, s', h1, .rx _ h4, by rw [show es = _ from h5]; simp, h2, h3⟩

-- C68_ends, both ways: a thread that was asleep with a connection when asked to end
example : (∃ tr s, WRun (wInit false false true 0) tr s ∧ AtRest s ∧ s.term = true ∧ s.sockets = 1 ∧ .slept ∈ tr) ∧
    ∃ tr s, WRun (wInit false false true 0) tr s ∧ AtRest s ∧ s.stop = true ∧ s.term = false ∧ s.sockets = 0 ∧ .slept ∈ tr := by
  constructor
  · obtain ⟨tr, s, h1, h2, h3⟩ := wplay_quiet (a := false) (b := false) (c := true) (n := 0)
      (cs := [.call .start] ++ ctln 4 ++ rxn 5 ++ [.rx ⟨.listener, .all false, false⟩] ++ rxn 10 ++
        [.call .terminate] ++ ctln 2 ++ [.rx ⟨.wakeup, .all false, false⟩] ++ rxn 7)
      (f := fun y => decide (y.2.term = true ∧ y.2.sockets = 1 ∧ .slept ∈ y.1)) (by rfl) (by rfl)
    exact ⟨tr, s, h1, h2, of_decide_eq_true h3⟩
  · obtain ⟨tr, s, h1, h2, h3⟩ := wplay_quiet (a := false) (b := false) (c := true) (n := 0)
      (cs := [.call .start] ++ ctln 4 ++ rxn 12 ++
        [.call .stop] ++ ctln 5 ++ [.rx ⟨.wakeup, .all false, false⟩] ++ rxn 9)
      (f := fun y => decide (y.2.stop = true ∧ y.2.term = false ∧ y.2.sockets = 0 ∧ .slept ∈ y.1)) (by rfl) (by rfl)
    exact ⟨tr, s, h1, h2, of_decide_eq_true h3⟩

-- C69_refuses: `stop()` has returned while there is a connection, and the thread still moves
example : ∃ tr s es s', WRun (wInit false false true 0) tr s ∧ s.ctl = .idle ∧ s.stop = true ∧ s.sockets = 1 ∧ WStep s es s' := by
  obtain ⟨tr, s, h1, h2, _⟩ := wplay_any (a := false) (b := false) (c := true) (n := 0)
    (cs := [.call .start] ++ ctln 4 ++ rxn 5 ++ [.rx ⟨.listener, .all false, false⟩] ++ rxn 10 ++ [.call .stop] ++ ctln 5)
    (f := fun y => decide (y.2.ctl = .idle ∧ y.2.stop = true ∧ y.2.sockets = 1) && (rstep ⟨.wakeup, .all false, false⟩ y.2).isSome) (by rfl)
  simp only [Bool.and_eq_true, decide_eq_true_eq, Option.isSome_iff_exists] at h2
  obtain ⟨⟨h2, h3, h3'⟩, ⟨es, s'⟩, h4⟩ := h2
  exact ⟨tr, s, es, s', h1, h2, h3, h3', .rx _ h4⟩

end Fcgi.Props
