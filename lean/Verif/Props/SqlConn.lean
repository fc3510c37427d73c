import Verif.Lemmas.SqlWake
/-! # The database connections: C53, C77-C82

`QRun conc cap (qInit a b) tr s` is any run: `tr` what can be seen of it, `s` the state reached; any number of threads
call `queue()`, `stop()` and `terminate()`, connections are made, fail and are lost at any moment. -/
namespace Fcgi.Props
open Fcgi Fcgi.Model Fcgi.Spec
variable {conc cap : Nat} {a b : Bool} {tr : List QEvent} {s : SqSt}

/-- A run made by choices. -/
def qrun (conc cap : Nat) : List (QFate ⊕ QCall) → SqSt → Option (List QEvent × SqSt)
  | [], s => some ([], s)
  | .inl f :: cs, s => (qstep conc f s).bind fun (es, s') => (qrun conc cap cs s').map fun (tr, s'') => (es ++ tr, s'')
  | .inr c :: cs, s => (qcall conc cap c s).bind fun (es, s') => (qrun conc cap cs s').map fun (tr, s'') => (es ++ tr, s'')

theorem QRun_trans {s s' s'' : SqSt} {t t' : List QEvent} (h : QRun conc cap s t s') (h' : QRun conc cap s' t' s'') : QRun conc cap s (t ++ t') s'' := by
  induction h' with
  | refl => rwa [List.append_nil]
  | step _ hs ih => rw [← List.append_assoc]; exact .step ih hs

theorem qrun_sound : ∀ (cs : List (QFate ⊕ QCall)) (s : SqSt) (tr : List QEvent) (s' : SqSt), qrun conc cap cs s = some (tr, s') → QRun conc cap s tr s' := by
  intro cs
  induction cs with
  | nil => intro s tr s' h; cases h; exact .refl _
  | cons c cs ih =>
    intro s tr s' h
    have one : ∀ (es : List QEvent) (s1 : SqSt), QStep conc cap s es s1 → (qrun conc cap cs s1).map (fun (tr, s'') => (es ++ tr, s'')) = some (tr, s') → QRun conc cap s tr s' := by
      intro es s1 hs h
      obtain ⟨⟨t, s2⟩, h1, h2⟩ := Option.map_eq_some_iff.1 h
      cases h2
      have := QRun.step (.refl s) hs
      rw [List.nil_append] at this
      exact QRun_trans this (ih _ _ _ h1)
    cases c with
    | inl f =>
      obtain ⟨⟨es, s1⟩, h1, h2⟩ := Option.bind_eq_some_iff.1 h
      exact one es s1 (.handler f h1) h2
    | inr f =>
      obtain ⟨⟨es, s1⟩, h1, h2⟩ := Option.bind_eq_some_iff.1 h
      exact one es s1 (.call f h1) h2

/-- A run found by trying. -/
theorem found {P : List QEvent → SqSt → Bool} (cs : List (QFate ⊕ QCall)) (h : (qrun conc cap cs (qInit a b)).any (fun (tr, s) => P tr s) = true) :
    ∃ tr s, QRun conc cap (qInit a b) tr s ∧ P tr s = true := by
  cases hq : qrun conc cap cs (qInit a b) with
  | none => rw [hq] at h; cases h
  | some x => rw [hq] at h; exact ⟨x.1, x.2, qrun_sound _ _ _ _ hq, h⟩

/-- Starting, with connections on these sockets; the thread is about to look for idle ones. -/
def up (socks : List Nat) : List (QFate ⊕ QCall) :=
  [.inr .start, .inl .signal, .inl .signal, .inl .signal] ++ socks.map (fun n => .inl (.connected n)) ++ [.inl .signal]
/-- A call of `queue()`. -/
def ask : List (QFate ⊕ QCall) := [.inr .enter, .inr .look, .inr .push, .inr .wake]

/-! ### C53 -/

/-- C53: the callback of a query is called at most once, after it was accepted and given to a connection. -/
theorem C53_once (h : QRun conc cap (qInit a b) tr s) :
    (calledIn tr).Nodup ∧ (∀ q ∈ calledIn tr, q ∈ sentIn tr) ∧ ∀ q ∈ sentIn tr, q ∈ acceptedIn tr := by
  have I := h.inv
  refine ⟨(List.nodup_append.1 I.nd).2.1, I.calledSent, ?_⟩
  intro q hq
  rw [I.acc]
  exact List.mem_range.2 (I.sentLt q hq)

/-- C53: a query waits, is in progress on one connection, or has been called back: never two of these. -/
theorem C53_one (h : QRun conc cap (qInit a b) tr s) : (s.queue ++ s.busy ++ calledIn tr).Nodup := h.inv.nd

/-- C53: a query given to a connection for the first time was accepted after all those given to one before. -/
theorem C53_order (h : QRun conc cap (qInit a b) tr s) (before after : List QEvent) (q sock : Nat) (e : tr = before ++ .sent q sock :: after)
    (first : q ∉ sentIn before) : ∀ p ∈ sentIn before, p < q := by
  revert before after
  refine QRun.rec' (P := fun tr _ => ∀ before after, tr = before ++ QEvent.sent q sock :: after → q ∉ sentIn before → ∀ p ∈ sentIn before, p < q) ?_ ?_ h
  · intro before after e; cases before <;> cases e
  · intro tr s es s' run I ih eff before after e first
    have one : es = [] ∨ ∃ x, es = [x] := by cases eff <;> simp
    rcases one with rfl | ⟨x, rfl⟩
    · rw [List.append_nil] at e; exact ih before after e first
    · rcases List.eq_nil_or_concat after with rfl | ⟨a', y, rfl⟩
      · obtain ⟨rfl, e2⟩ := List.append_inj' e rfl
        cases e2
        cases eff with
        | send _ rest p hh _ qs hq l1 l2 u hc whole =>
          obtain ⟨re, fresh, s1, s2, s3, s4⟩ := I.split
          cases re with
          | nil =>
            rw [hq] at s1
            intro p hp
            exact s3 p hp q (by rw [← List.nil_append fresh, ← s1]; exact List.mem_cons_self)
          | cons r re =>
            rw [hq, List.cons_append, List.cons.injEq] at s1
            exact absurd (s2 q (by rw [s1.1]; exact List.mem_cons_self)) first
      · rw [List.concat_eq_append, ← List.cons_append, ← List.append_assoc] at e
        exact ih before a' (List.append_inj_left' e rfl) first

/-- C53: as long as no connection is lost every query is given to one connection at most once. -/
theorem C53_sentOnce (h : QRun conc cap (qInit a b) tr s) (hl : noLoss tr) : (sentIn tr).Nodup := (h.inv.noLoss hl).1

/-- C53, in part: until `stop()` or `terminate()` is called no accepted query is lost, whatever happens to the connections: it
waits, is in progress or was called back.  Missing: connections that refuse a query, `stop()`, see below. -/
theorem C53_kept_partial (hc : 0 < conc) (h : QRun conc cap (qInit a b) tr s) (h1 : QEvent.stopped ∉ tr) (h2 : QEvent.terminated ∉ tr) (h3 : noRefusal tr) :
    ∀ q ∈ acceptedIn tr, q ∈ s.queue ∨ q ∈ s.busy ∨ q ∈ calledIn tr := by
  intro q hq
  rw [h.inv.acc] at hq
  exact h.all hc h2 h1 h3 q (List.mem_range.1 hq)

/-- C53, in part: once the thread has been ended by `stop()`, every accepted query has at least been given to a
connection, if it was not accepted after the call of `stop()`. -/
theorem C53_stop_partial (hc : 0 < conc) (h : QRun conc cap (qInit a b) tr s) (h2 : QEvent.terminated ∉ tr) (h3 : noRefusal tr) (hd : s.pc = .done) :
    ∀ q ∈ acceptedIn tr, q ∈ sentIn tr ∨ q ∈ lateIn tr := by
  intro q hq
  rw [h.inv.acc] at hq
  rcases h.kept hc h2 h3 q (List.mem_range.1 hq) with hk | hk
  · exact Or.inr (h.late hc h2 (Or.inr (Or.inr (Or.inr hd))) q hk)
  · exact hk

/-- C53 fails: after `stop()` a query in progress is dropped, though no connection failed: the thread ends, and its
callback is never called. -/
theorem C53_stop_violated : ∃ tr s, QRun 1 1 (qInit false false) tr s ∧
    decide (tr = [.started, .accepted 0, .sent 0 5, .stopped, .ended] ∧ s.pc = .done ∧ s.queue = [] ∧ s.busy = []) = true :=
  found (up [5] ++ ask ++ [.inl (.sent true), .inl .signal, .inr .stop, .inl .wakeup, .inl .signal, .inl .signal, .inl .signal]) (by decide +kernel)

/-- C53 fails: a query whose `queue()` overlaps `stop()` is accepted and dropped. -/
theorem C53_race_violated : ∃ tr s, QRun 1 1 (qInit false false) tr s ∧
    decide (tr = [.started, .stopped, .accepted 0, .ended] ∧ s.pc = .done ∧ s.queue = []) = true :=
  found (up [5] ++ [.inl .signal, .inl .signal, .inr .enter, .inr .look, .inr .stop, .inl .signal, .inl .signal, .inr .push, .inr .wake, .inl .signal]) (by decide +kernel)

/-- C53 fails: a query refused by a connection is not put back. -/
theorem C53_refused_violated : ∃ tr s, QRun 1 1 (qInit false false) tr s ∧
    decide (tr = [.started, .accepted 0, .refused 0] ∧ s.queue = [] ∧ s.busy = []) = true :=
  found (up [5] ++ ask ++ [.inl .refused]) (by decide +kernel)

/-- An event: the connection hangs up. -/
def hangs (sock : Nat) : QFate ⊕ QCall := .inl (.event sock false true true false false false 0 false)

/-- C53 fails: after two connections were lost their queries are given to new ones in the wrong order. -/
theorem C53_again_violated : ∃ tr s, QRun 2 9 (qInit false false) tr s ∧
    decide (sentIn tr = [0, 1, 1, 0]) = true :=
  found (up [5, 6] ++ ask ++ ask ++ [.inl (.sent true), .inl (.sent true), .inl .signal, hangs 5, .inl .signal, .inl .failed, .inl .signal, .inl .signal,
    hangs 6, .inl .signal, .inl (.connected 5), .inl (.connected 6), .inl .signal, .inl (.sent true), .inl (.sent true)]) (by decide +kernel)

/-- Two queries on two connections, the second ending first; a third waits, and is called back as well. -/
example : ∃ tr s, QRun 2 9 (qInit false false) tr s ∧
    decide (tr = [.started, .accepted 0, .accepted 1, .accepted 2, .sent 0 5, .sent 1 6, .called 1 (some 1), .sent 2 6, .called 0 (some 1), .called 2 (some 1)] ∧ s.pc = .test) = true :=
  found (up [5, 6] ++ ask ++ ask ++ ask ++ [.inl (.sent true), .inl (.sent true), .inl .signal,
    .inl (.event 6 true false false false true true 1 true), .inl .signal, .inl .signal, .inl .signal, .inl (.sent true), .inl .signal,
    .inl (.event 5 true false false false true true 1 true), .inl .signal, .inl .signal, .inl .signal,
    .inl (.event 6 true false false false true true 1 true)]) (by decide +kernel)

/-! ### C77 -/

/-- C77: when the thread waits in the poll and nothing is under way to wake it, then queries are waiting only if all
connections are busy. -/
theorem C77_noIdle (hc : 0 < conc) (h : QRun conc cap (qInit a b) tr s) (hp : s.pc = .poll) (hw : s.wake = 0) (hh : s.held = false) (hq : s.queue ≠ []) :
    ∀ c ∈ s.conns, c.query ≠ none := by
  rcases (h.wake hc).poll hp hq with h | h | h
  · exact h
  · omega
  · rw [hh] at h; cases h

/-- C77: a query that was accepted while the thread waits wakes it: it can go on. -/
theorem C77_wakes (hc : 0 < conc) (h : QRun conc cap (qInit a b) tr s) (hp : s.pc = .poll) (hh : s.held = false) (hq : s.queue ≠ []) (c : QConn) (hm : c ∈ s.conns)
    (hi : c.query = none) : ∃ es s', qstep conc .wakeup s = some (es, s') ∧ s'.pc = .test := by
  rcases (h.wake hc).poll hp hq with h | h | h
  · exact absurd hi (h c hm)
  · unfold qstep
    rw [hp]
    dsimp only
    rw [if_pos h]
    exact ⟨_, _, rfl, rfl⟩
  · rw [hh] at h; cases h

example : ∃ tr s, QRun 1 1 (qInit false false) tr s ∧ decide (s.pc = .poll ∧ s.held = false ∧ s.queue ≠ [] ∧ ∃ c ∈ s.conns, c.query = none) = true :=
  found (up [5] ++ [.inl .signal] ++ ask) (by decide +kernel)

/-! ### C78 -/

/-- C78, in part: as long as the wake-up socket has room, the threads do not block each other: a call holding the mutex can go
on; if none does, the thread can go on, unless it waits for something to happen, has ended or has not begun. -/
theorem C78_moves_partial (h : QRun conc cap (qInit a b) tr s) (hw : s.wake < cap) :
    (s.held = true → ∃ s', qcall conc cap .wake s = some ([], s')) ∧
    (s.held = false → s.pc = .off ∨ s.pc = .done ∨ s.pc = .ub ∨ s.pc = .exit ∨ s.pc = .poll ∨ ∃ f es s', qstep conc f s = some (es, s')) := by
  constructor
  · intro hh
    unfold qcall
    simp only [hh, hw, and_self, if_true]
    exact ⟨_, rfl⟩
  · intro hh
    cases hp : s.pc with
    | off => simp
    | done => simp
    | ub => simp
    | exit => simp
    | poll => simp
    | begin0 => simp only [qstep, hp, reduceCtorEq, false_or]; exact ⟨.signal, _, _, rfl⟩
    | begin1 => simp only [qstep, hp, hh, reduceCtorEq, false_or]; exact ⟨.signal, _, _, rfl⟩
    | test => simp only [qstep, hp, reduceCtorEq, false_or]; exact ⟨.signal, _, _, rfl⟩
    | connect =>
      simp only [reduceCtorEq, false_or]
      refine ⟨.failed, ?_⟩
      simp only [qstep, hp]
      split
      · exact ⟨_, _, rfl⟩
      · exact ⟨_, _, rfl⟩
    | scan rest =>
      simp only [reduceCtorEq, false_or]
      refine ⟨.sent true, ?_⟩
      cases rest with
      | nil => simp only [qstep, hp]; exact ⟨_, _, rfl⟩
      | cons x rest =>
        simp only [qstep, hp, hh]
        split
        · exact ⟨_, _, rfl⟩
        · split
          · exact ⟨_, _, rfl⟩
          · simp only [Bool.false_eq_true, if_false]
            split
            · exact ⟨_, _, rfl⟩
            · exact ⟨_, _, rfl⟩
    | end0 => simp only [qstep, hp, reduceCtorEq, false_or]; exact ⟨.signal, _, _, rfl⟩
    | end1 => simp only [qstep, hp, hh, reduceCtorEq, false_or]; exact ⟨.signal, _, _, rfl⟩

/-- Nobody moves any more. -/
structure Jammed (cap : Nat) (s : SqSt) : Prop where
  held : s.held = true
  full : cap ≤ s.wake
  at_ : ∃ sock rest c, s.pc = .scan (sock :: rest) ∧ findConn sock s.conns = some c ∧ c.query = none

theorem jammed_step {s s' : SqSt} {es : List QEvent} (J : Jammed cap s) (h : QStep conc cap s es s') :
    Jammed cap s' ∧ s'.pc = s.pc ∧ acceptedIn es = [] ∧ calledIn es = [] ∧ sentIn es = [] := by
  obtain ⟨sock, rest, c, h1, h2, h3⟩ := J.at_
  cases h with
  | handler f h =>
    unfold qstep at h
    rw [h1] at h
    dsimp only at h
    rw [h2] at h
    simp [h3, J.held] at h
  | call c h =>
    cases c with
    | enter =>
      simp only [qcall] at h
      split at h
      · cases h
      · cases h; exact ⟨⟨J.held, J.full, J.at_⟩, rfl, rfl, rfl, rfl⟩
    | look =>
      simp only [qcall] at h
      split at h
      · cases h
      · split at h
        · cases h; exact ⟨⟨J.held, J.full, J.at_⟩, rfl, rfl, rfl, rfl⟩
        · cases h; exact ⟨⟨J.held, J.full, J.at_⟩, rfl, rfl, rfl, rfl⟩
    | push =>
      simp only [qcall] at h
      split at h
      · cases h
      · rename_i hn; exact absurd (Or.inr J.held) hn
    | wake =>
      simp only [qcall] at h
      split at h
      · rename_i hn; have := J.full; omega
      · cases h
    | stop => cases h; exact ⟨⟨J.held, J.full, J.at_⟩, rfl, rfl, rfl, rfl⟩
    | terminate => cases h; exact ⟨⟨J.held, J.full, J.at_⟩, rfl, rfl, rfl, rfl⟩
    | signal =>
      simp only [qcall] at h
      split at h
      · rename_i hn; have := J.full; omega
      · cases h
    | start =>
      simp only [qcall] at h
      rw [h1] at h
      simp at h

theorem jammed_run {s s' : SqSt} {t : List QEvent} (J : Jammed cap s) (h : QRun conc cap s t s') :
    Jammed cap s' ∧ s'.pc = s.pc ∧ acceptedIn t = [] ∧ calledIn t = [] ∧ sentIn t = [] := by
  induction h with
  | refl => exact ⟨J, rfl, rfl, rfl, rfl⟩
  | step run h ih =>
    obtain ⟨j, e, e1, e2, e3⟩ := ih
    obtain ⟨j', e', e1', e2', e3'⟩ := jammed_step j h
    exact ⟨j', e'.trans e, by rw [acceptedIn_append, e1, e1']; rfl, by rw [calledIn_append, e2, e2']; rfl, by rw [sentIn_append, e3, e3']; rfl⟩

/-- Connections can be made, all of them idle. -/
theorem reach_conns (conc cap : Nat) : ∀ n ≤ conc, ∃ tr s, QRun conc cap (qInit false false) tr s ∧ s.pc = .connect ∧ s.stop = false ∧ s.held = false ∧
    s.conns.length = n ∧ (∀ c ∈ s.conns, c.query = none ∧ c.sock < n) ∧ s.wake = 0 ∧ s.saw = 0 ∧ s.passed = 0 ∧ s.next = 0 := by
  intro n
  induction n with
  | zero =>
    intro _
    have h := qrun_sound (conc := conc) (cap := cap) [.inr .start, .inl .signal, .inl .signal, .inl .signal] (qInit false false) _ _ rfl
    exact ⟨_, _, h, rfl, rfl, rfl, rfl, (by intro c hc; cases hc), rfl, rfl, rfl, rfl⟩
  | succ n ih =>
    intro hn
    obtain ⟨tr, s, h, hp, h1, h2, h3, h4, h5, h6, h7, h8⟩ := ih (by omega)
    obtain ⟨l1, l2, e1, e2⟩ := addConn_split ⟨n, none, false⟩ s.conns
    have hs : qstep conc (.connected n) s = some ([], { s with conns := addConn ⟨n, none, false⟩ s.conns }) := by
      unfold qstep
      rw [hp]
      dsimp only
      rw [if_neg (by omega), if_neg]
      intro hm
      obtain ⟨c, hc, e⟩ := List.mem_map.1 hm
      have := (h4 c hc).2
      omega
    refine ⟨_, _, .step h (.handler _ hs), hp, h1, h2, ?_, ?_, h5, h6, h7, h8⟩
    · dsimp only
      rw [e2, ← h3, e1]
      simp only [List.length_append, List.length_cons]
      omega
    · intro c hc
      dsimp only at hc
      rw [e2, List.mem_append, List.mem_cons] at hc
      rcases hc with hc | rfl | hc
      · obtain ⟨a1, a2⟩ := h4 c (by rw [e1]; exact List.mem_append_left _ hc); exact ⟨a1, by omega⟩
      · exact ⟨rfl, Nat.lt_succ_self _⟩
      · obtain ⟨a1, a2⟩ := h4 c (by rw [e1]; exact List.mem_append_right _ hc); exact ⟨a1, by omega⟩

/-- C78 fails, however much the wake-up socket takes: that many calls of `queue()` while the thread is busy, and one more,
and neither that call nor the thread ever goes on; no query is accepted, given to a connection or called back any more. -/
theorem C78_deadlock_violated (conc cap : Nat) (hconc : 0 < conc) : ∃ tr s, QRun conc cap (qInit false false) tr s ∧ (acceptedIn tr).length = cap + 1 ∧
    ∀ t s', QRun conc cap s t s' → s'.held = true ∧ s'.pc = s.pc ∧ acceptedIn t = [] ∧ calledIn t = [] ∧ sentIn t = [] := by
  obtain ⟨tr, s, h, hp, h1, h2, h3, h4, h5, h6, h7, h8⟩ := reach_conns conc cap conc (Nat.le_refl _)
  have hs : qstep conc .signal s = some ([], { s with pc := .scan (s.conns.map QConn.sock) }) := by
    unfold qstep; rw [hp]; dsimp only; rw [if_pos h3]
  have h := QRun.step h (.handler _ hs)
  have calls : ∀ n ≤ cap, ∃ t s', QRun conc cap (qInit false false) t s' ∧ s'.pc = .scan (s.conns.map QConn.sock) ∧ s'.conns = s.conns ∧ s'.stop = false ∧ s'.held = false ∧ s'.wake = n ∧
      s'.saw = 0 ∧ s'.passed = 0 ∧ s'.next = s.next + n := by
    intro n
    induction n with
    | zero => intro _; exact ⟨_, _, h, rfl, rfl, h1, h2, h5, h6, h7, rfl⟩
    | succ n ih =>
      intro hn
      obtain ⟨t, s', r, a1, a2, a3, a4, a5, a6, a7, a8⟩ := ih (by omega)
      have hrun := qrun_sound (conc := conc) (cap := cap) ask s' [.accepted s'.next]
        { s' with saw := 0, passed := 0, held := false, wake := n + 1, queue := s'.queue ++ [s'.next], next := s'.next + 1 } (by
          simp only [ask, qrun, qcall, a3, a6, a7, a2, h3, a4, a5]
          simp only [Bool.false_eq_true, if_false, Option.bind_some, Nat.zero_add, Nat.succ_ne_zero, Nat.one_ne_zero, Nat.add_one_ne_zero]
          rw [if_pos h3]
          simp [show n < cap by omega])
      exact ⟨_, _, QRun_trans r hrun, a1, a2, a3, rfl, rfl, rfl, rfl, by dsimp only; omega⟩
  obtain ⟨t, s', r, a1, a2, a3, a4, a5, a6, a7, a8⟩ := calls cap (Nat.le_refl _)
  have hrun := qrun_sound (conc := conc) (cap := cap) [.inr .enter, .inr .look, .inr .push] s' [.accepted s'.next]
    { s' with saw := 0, passed := 0, held := true, queue := s'.queue ++ [s'.next], next := s'.next + 1 } (by
      simp only [qrun, qcall, a3, a6, a7, a2, h3, a4]
      simp only [Bool.false_eq_true, if_false, Option.bind_some, Nat.zero_add, Nat.succ_ne_zero, Nat.one_ne_zero, Nat.add_one_ne_zero]
      rw [if_pos h3]
      simp)
  have hfin := QRun_trans r hrun
  refine ⟨_, _, hfin, ?_, ?_⟩
  · rw [hfin.inv.acc, List.length_range]
    dsimp only
    omega
  · intro t' s'' hr
    have J : Jammed cap { s' with saw := 0, passed := 0, held := true, queue := s'.queue ++ [s'.next], next := s'.next + 1 } := by
      refine ⟨rfl, by dsimp only; omega, ?_⟩
      dsimp only
      cases hcs : s.conns with
      | nil => rw [hcs] at h3; simp at h3; omega
      | cons c cs =>
        refine ⟨c.sock, cs.map QConn.sock, c, ?_, ?_, (h4 c (by rw [hcs]; simp)).1⟩
        · rw [a1, hcs]; rfl
        · rw [a2, hcs]; simp [findConn]
    obtain ⟨j, e, e1, e2, e3⟩ := jammed_run J hr
    exact ⟨j.held, e, e1, e2, e3⟩

/-! ### C79 -/

/-- C79, in part: there is no undefined behaviour as long as no connection refuses a query. -/
theorem C79_ub_partial (hc : 0 < conc) (h : QRun conc cap (qInit a b) tr s) (hr : noRefusal tr) : s.pc ≠ .ub := h.noUb hc hr

theorem kill_exit {s s' : SqSt} {es : List QEvent} {c : QConn} (h : s.kill c = some (es, s')) : s'.pc = .test := by
  unfold SqSt.kill at h
  split at h
  · cases h; rfl
  · split at h
    · cases h
    · cases h; rfl

theorem hangup_exit {s s' : SqSt} {es : List QEvent} {c : QConn} {x y z : Bool} (h : s.hangup c x y z = some (es, s')) (he : s'.pc = .exit) :
    x = false ∧ y = false ∧ z = false := by
  unfold SqSt.hangup at h
  split at h
  · rw [kill_exit h] at he; cases he
  · rename_i hn; simpa [and_assoc] using hn

/-- C79, in part: the process is ended only if a connection's socket shows neither a hang-up nor an error, and there is no
input, or input that cannot be read, or input while no query is in progress. -/
theorem C79_exit_partial {s s' : SqSt} {es : List QEvent} (f : QFate) (h : qstep conc f s = some (es, s')) (he : s'.pc = .exit) :
    ∃ c ∈ s.conns, ∃ inp consume w n k, f = .event c.sock inp false false false consume w n k ∧ (inp = false ∨ consume = false ∨ c.query = none) := by
  unfold qstep at h
  split at h
  all_goals try (rename_i hp)
  all_goals try (cases h; done)
  · cases h; cases he
  · split at h
    · cases h
    · cases h; cases he
  · cases h; dsimp only at he; split at he <;> cases he
  · split at h
    · cases h; cases he
    · split at h
      · split at h
        · cases h
        · cases h; rw [show s.pc = _ from hp] at he; cases he
      · cases h; cases he
      · cases h
  · cases h; cases he
  · split at h
    · cases h; cases he
    · split at h
      · cases h; cases he
      · split at h
        · cases h
        · split at h
          · cases h; cases he
          · split at h
            · cases h; cases he
            · cases h; cases he
            · cases h
  · split at h
    · split at h
      · cases h; cases he
      · cases h
    · split at h
      · cases h
      · cases h; cases he
    · cases h; cases he
    · split at h
      · cases h
      · rename_i sock inp r1 r2 r3 consume w n k c hf
        obtain ⟨l1, l2, hcs, rfl⟩ := findConn_split hf
        have hm : c ∈ s.conns := by rw [hcs]; simp
        split at h
        · split at h
          · rename_i q hq
            split at h
            · unfold SqSt.input at h
              dsimp only at h
              split at h
              · split at h
                · cases h
                · cases h; cases he
              · cases h; cases he
            · rename_i hcons
              obtain ⟨rfl, rfl, rfl⟩ := hangup_exit h he
              exact ⟨c, hm, _, _, _, _, _, rfl, Or.inr (Or.inl (by simpa using hcons))⟩
          · rename_i hq
            obtain ⟨rfl, rfl, rfl⟩ := hangup_exit h he
            exact ⟨c, hm, _, _, _, _, _, rfl, Or.inr (Or.inr hq)⟩
        · rename_i hin
          obtain ⟨rfl, rfl, rfl⟩ := hangup_exit h he
          exact ⟨c, hm, _, _, _, _, _, rfl, Or.inl (by simpa using hin)⟩
    · cases h
  · cases h; cases he
  · split at h
    · cases h
    · cases h; cases he

/-- C79 fails: after a query is refused (for example by a connection that was lost meanwhile) the loop goes on with an
iterator to what was erased. -/
theorem C79_iterator_violated : ∃ tr s, QRun 1 1 (qInit false false) tr s ∧ decide (s.pc = .ub) = true :=
  found (up [5] ++ ask ++ [.inl .refused]) (by decide +kernel)

/-- C79 fails: something the server sends while no query is in progress (a notice, a parameter's new value) ends the process. -/
theorem C79_notice_violated : ∃ tr s, QRun 1 1 (qInit false false) tr s ∧ decide (s.pc = .exit) = true :=
  found (up [5] ++ [.inl .signal, .inl (.event 5 true false false false true true 0 false)]) (by decide +kernel)

/-! ### C80 -/

/-- C80, in part: the result that is there when a query is called back is one of the executions of this query; if no
connection was lost it is that of the only one. -/
theorem C80_result_partial (h : QRun conc cap (qInit a b) tr s) (before after : List QEvent) (q r : Nat) (e : tr = before ++ .called q (some r) :: after) :
    1 ≤ r ∧ r ≤ (sentIn before).count q ∧ (noLoss before → r = 1 ∧ (sentIn before).count q = 1) := by
  have main : 1 ≤ r ∧ r ≤ (sentIn before).count q ∧ (noLoss before → (sentIn before).Nodup) := by
    revert before after
    refine QRun.rec' (P := fun tr _ => ∀ before after, tr = before ++ QEvent.called q (some r) :: after → 1 ≤ r ∧ r ≤ (sentIn before).count q ∧ (noLoss before → (sentIn before).Nodup)) ?_ ?_ h
    · intro before after e; cases before <;> cases e
    · intro tr s es s' run I ih eff before after e
      have one : es = [] ∨ ∃ x, es = [x] := by cases eff <;> simp
      rcases one with rfl | ⟨x, rfl⟩
      · rw [List.append_nil] at e; exact ih before after e
      · rcases List.eq_nil_or_concat after with rfl | ⟨a', y, rfl⟩
        · obtain ⟨rfl, e2⟩ := List.append_inj' e rfl
          simp only [List.cons.injEq, and_true] at e2
          refine ⟨?_, ?_, fun hl => (I.noLoss hl).1⟩
          all_goals
            have J := I.step eff
            have hq : s'.res q = some r := by
              cases eff with
              | complete p l1 l2 sock q' hc res hr hr' => injection e2 with e3 e4; rw [e3] at e4; exact e4
              | _ => cases e2
          · exact (J.res q r hq).1
          · have h2 := (J.res q r hq).2
            rw [J.runs, sentIn_append, e2] at h2
            simpa [sentIn] using h2
        · rw [List.concat_eq_append, ← List.cons_append, ← List.append_assoc] at e
          exact ih before a' (List.append_inj_left' e rfl)
  refine ⟨main.1, main.2.1, fun hl => ?_⟩
  have hn := main.2.2 hl
  have hle := List.nodup_iff_count.1 hn q
  have := main.1
  have := main.2.1
  omega

/-- C80 fails: if the connection is lost after a result has come and before the query is complete, the query is executed
again, and it is called back with the result of the first execution. -/
theorem C80_stale_violated : ∃ tr s, QRun 1 1 (qInit false false) tr s ∧
    decide (tr = [.started, .accepted 0, .sent 0 5, .dropped 5, .sent 0 6, .called 0 (some 1)]) = true :=
  found (up [5] ++ ask ++ [.inl (.sent true), .inl .signal, .inl (.event 5 true false false false true true 1 false),
    .inl .signal, .inl .signal, .inl .signal, .inl .signal, hangs 5, .inl .signal, .inl (.connected 6), .inl .signal, .inl (.sent true), .inl .signal,
    .inl (.event 6 true false false false true true 1 true)]) (by decide +kernel)

/-! ### C81 -/

/-- C81: the thread ends only if `stop()` or `terminate()` was called. -/
theorem C81_asked (h : QRun conc cap (qInit a b) tr s) (hd : s.pc = .done) : QEvent.stopped ∈ tr ∨ QEvent.terminated ∈ tr :=
  h.after (Or.inr (Or.inr hd))

/-- C81: after `terminate()` the thread does not stay in the poll: something is there to wake it, or about to be written. -/
theorem C81_terminate (hc : 0 < conc) (h : QRun conc cap (qInit a b) tr s) (ht : s.term = true) (hp : s.pc = .poll) : 0 < s.wake ∨ 0 < s.waking := by
  refine Classical.byContradiction fun hn => ?_
  have := (h.wake hc).idle hp (Or.inr ht) (by omega) (by omega)
  rw [ht] at this
  cases this.1

/-- C81: after `stop()` it stays there only while a query is in progress, or while it waits to connect again. -/
theorem C81_stop (hc : 0 < conc) (h : QRun conc cap (qInit a b) tr s) (ht : s.stop = true) (hp : s.pc = .poll) :
    0 < s.wake ∨ 0 < s.waking ∨ s.busy ≠ [] ∨ s.conns.length ≠ conc := by
  refine Classical.byContradiction fun hn => ?_
  simp only [not_or] at hn
  have := (h.wake hc).idle hp (Or.inl ht) (by omega) (by omega)
  rcases this.2 with h | h
  · exact hn.2.2.1 h
  · exact hn.2.2.2 h

/-- C81: once at the test of the loop after `terminate()`, or after `stop()` with nothing waiting, three steps end the thread. -/
theorem C81_ends {s : SqSt} (hp : s.pc = .test) (hh : s.held = false) (ht : s.term = true ∨ s.stop = true ∧ s.queue = []) :
    ∃ s', qrun conc cap [.inl .signal, .inl .signal, .inl .signal] s = some ([.ended], s') ∧ s'.pc = .done := by
  have : (!s.term && !(s.stop && s.queue.isEmpty)) = false := by
    rcases ht with h | ⟨h1, h2⟩
    · rw [h]; rfl
    · rw [h1, h2]; simp
  simp only [qrun, qstep, hp, this, hh]
  exact ⟨_, rfl, rfl⟩

example : ∃ tr s, QRun 1 9 (qInit false false) tr s ∧
    decide (s.pc = .poll ∧ s.stop = true ∧ s.wake = 0 ∧ s.waking = 0 ∧ s.busy = [0] ∧ s.queue = [1]) = true :=
  found (up [5] ++ ask ++ ask ++ [.inl (.sent true), .inl .signal, .inr .stop, .inr .signal, .inl .wakeup, .inl .signal, .inl .signal, .inl .signal, .inl .signal]) (by decide +kernel)

/-! ### C82 -/

/-- C82 fails: if the socket does not take the whole query at once, the rest is sent only when there is input on it - and the
server has no reason to send any.  Here the thread waits, and no other step sends the rest. -/
theorem C82_rest_violated :
    (∃ tr s, QRun 1 1 (qInit false false) tr s ∧ decide (s.pc = .poll ∧ ⟨5, some 0, true⟩ ∈ s.conns) = true) ∧
    ∀ (tr : List QEvent) (s s' : SqSt) (es : List QEvent) (f : QFate) (c : QConn), QRun conc cap (qInit a b) tr s → c ∈ s.conns → c.query ≠ none →
      qstep conc f s = some (es, s') → (∀ i r1 r2 r3 k w n d, f ≠ .event c.sock i r1 r2 r3 k w n d) → c ∈ s'.conns ∨ s'.conns = [] := by
  refine ⟨found (up [5] ++ ask ++ [.inl (.sent false), .inl .signal]) (by decide +kernel), ?_⟩
  intro tr s s' es f c hr hm hq h hf
  have hn := hr.inv.socks
  have hset : ∀ (sock : Nat) (g : QConn → QConn), sock ≠ c.sock → c ∈ setConn sock g s.conns := fun sock g hne =>
    List.mem_map.2 ⟨c, hm, if_neg (fun e => hne e.symm)⟩
  have hdrop : ∀ sock : Nat, sock ≠ c.sock → c ∈ dropConn sock s.conns := fun sock hne =>
    List.mem_filter.2 ⟨hm, by simpa using fun e => hne e.symm⟩
  have hkill : ∀ d : QConn, d.sock ≠ c.sock → s.kill d = some (es, s') → c ∈ s'.conns := by
    intro d hd h
    unfold SqSt.kill at h
    split at h
    · cases h; exact hdrop _ hd
    · split at h
      · cases h
      · cases h; exact hdrop _ hd
  have hhang : ∀ (d : QConn) (x y z : Bool), d.sock ≠ c.sock → s.hangup d x y z = some (es, s') → c ∈ s'.conns := by
    intro d x y z hd h
    unfold SqSt.hangup at h
    split at h
    · exact hkill d hd h
    · cases h; exact hm
  unfold qstep at h
  split at h
  all_goals try (rename_i hp)
  all_goals try (cases h; done)
  · cases h; exact Or.inr rfl
  · split at h
    · cases h
    · cases h; exact Or.inl hm
  · cases h; exact Or.inl hm
  · split at h
    · cases h; exact Or.inl hm
    · split at h
      · split at h
        · cases h
        · cases h
          obtain ⟨l1, l2, e1, e2⟩ := addConn_split ⟨_, none, false⟩ s.conns
          left
          dsimp only
          rw [e2]
          rw [e1] at hm
          rcases List.mem_append.1 hm with h | h
          · exact List.mem_append_left _ h
          · exact List.mem_append_right _ (List.mem_cons_of_mem _ h)
      · cases h; exact Or.inl hm
      · cases h
  · cases h; exact Or.inl hm
  · split at h
    · cases h; exact Or.inl hm
    · rename_i d hd
      obtain ⟨l1, l2, e1, e2⟩ := findConn_split hd
      split at h
      · cases h; exact Or.inl hm
      · rename_i hidle
        have hne : d.sock ≠ c.sock := by
          intro e
          have : d = c := by
            rw [e1, List.map_append, List.map_cons, List.perm_middle.nodup_iff, List.nodup_cons, List.mem_append, not_or] at hn
            rw [e1, List.mem_append, List.mem_cons] at hm
            rcases hm with h | h | h
            · exact absurd (e ▸ List.mem_map_of_mem h) hn.1.1
            · exact h.symm
            · exact absurd (e ▸ List.mem_map_of_mem h) hn.1.2
          rw [this] at hidle
          cases hcq : c.query with
          | none => exact hq hcq
          | some _ => rw [hcq] at hidle; exact hidle rfl
        rw [e2] at hne
        split at h
        · cases h
        · split at h
          · cases h; exact Or.inl hm
          · split at h
            · cases h; exact Or.inl (hset _ _ hne)
            · cases h; exact Or.inl (hdrop _ hne)
            · cases h
  · split at h
    · split at h
      · cases h; exact Or.inl hm
      · cases h
    · split at h
      · cases h
      · cases h; exact Or.inl hm
    · cases h; exact Or.inl hm
    · split at h
      · cases h
      · rename_i sock inp r1 r2 r3 consume w n k x d hd
        obtain ⟨l1, l2, e1, e2⟩ := findConn_split hd
        have hne : d.sock ≠ c.sock := fun e => hf inp r1 r2 r3 consume w n k (by rw [← e, e2])
        split at h
        · split at h
          · split at h
            · unfold SqSt.input at h
              dsimp only at h
              split at h
              · split at h
                · cases h
                · cases h; exact Or.inl (hset _ _ hne)
              · cases h; exact Or.inl (hset _ _ hne)
            · exact Or.inl (hhang _ _ _ _ hne h)
          · exact Or.inl (hhang _ _ _ _ hne h)
        · exact Or.inl (hhang _ _ _ _ hne h)
    · cases h
  · cases h; exact Or.inr rfl
  · split at h
    · cases h
    · cases h; exact Or.inl hm

/-! ### Further witnesses -/

-- C53_kept_partial: of three queries one is called back, one runs and one waits
example : ∃ tr s, QRun 1 9 (qInit false false) tr s ∧ decide (QEvent.stopped ∉ tr ∧ QEvent.terminated ∉ tr ∧ acceptedIn tr = [0, 1, 2] ∧
    calledIn tr = [0] ∧ s.busy = [1] ∧ s.queue = [2]) = true :=
  found (up [5] ++ ask ++ ask ++ ask ++ [.inl (.sent true), .inl .signal, .inl (.event 5 true false false false true true 1 true), .inl .signal, .inl .signal,
    .inl (.sent true)]) (by decide +kernel)
-- C53_stop_partial, C81_asked: the thread has ended after `stop()`, having sent all
example : ∃ tr s, QRun 1 9 (qInit false false) tr s ∧ decide (QEvent.terminated ∉ tr ∧ s.pc = .done ∧ acceptedIn tr = [0] ∧ calledIn tr = [0] ∧ QEvent.stopped ∈ tr) = true :=
  found (up [5] ++ ask ++ [.inl (.sent true), .inl .signal, .inl (.event 5 true false false false true true 1 true), .inr .stop,
    .inl .signal, .inl .signal, .inl .signal]) (by decide +kernel)
-- C77_noIdle: a query runs on the only connection, another waits, and the thread sleeps
example : ∃ tr s, QRun 1 9 (qInit false false) tr s ∧ decide (s.pc = .poll ∧ s.wake = 0 ∧ s.held = false ∧ s.queue = [1] ∧ s.busy = [0]) = true :=
  found (up [5] ++ ask ++ ask ++ [.inl (.sent true), .inl .signal, .inl .wakeup, .inl .signal, .inl .signal, .inl .signal, .inl .signal]) (by decide +kernel)
-- C78_moves_partial: a call of `queue()` holds the mutex, and the wake-up socket has room
example : ∃ tr s, QRun 1 9 (qInit false false) tr s ∧ decide (s.wake < 9 ∧ s.held = true ∧ s.queue = [0]) = true :=
  found (up [5] ++ [.inr .enter, .inr .look, .inr .push]) (by decide +kernel)
-- C81_terminate: `terminate()` while the thread sleeps
example : ∃ tr s, QRun 1 9 (qInit false false) tr s ∧ decide (s.term = true ∧ s.pc = .poll ∧ s.busy = [0]) = true :=
  found (up [5] ++ ask ++ [.inl (.sent true), .inl .signal, .inr .terminate]) (by decide +kernel)

end Fcgi.Props
