import Verif.Model.SqlConn
/-! # Lemmas for the database connections -/
namespace Fcgi.Model
open Fcgi.Spec

/-! ### Connections -/

theorem findConn_split {sock : Nat} : ∀ {cs : List QConn} {c : QConn}, findConn sock cs = some c →
    ∃ l1 l2, cs = l1 ++ c :: l2 ∧ c.sock = sock := by
  intro cs c h
  unfold findConn at h
  obtain ⟨h1, l1, l2, h2, _⟩ := List.find?_eq_some_iff_append.1 h
  exact ⟨l1, l2, h2, by simpa using h1⟩

theorem setConn_split {l1 l2 : List QConn} {c : QConn} {f : QConn → QConn} (h : ((l1 ++ c :: l2).map QConn.sock).Nodup) :
    setConn c.sock f (l1 ++ c :: l2) = l1 ++ f c :: l2 := by
  unfold setConn
  rw [List.map_append, List.map_cons, List.perm_middle.nodup_iff, List.nodup_cons] at h
  have key : ∀ l : List QConn, c.sock ∉ l.map QConn.sock → l.map (fun d => if d.sock = c.sock then f d else d) = l := by
    intro l hl
    induction l with
    | nil => rfl
    | cons d l ih =>
      simp only [List.map_cons, List.mem_cons, not_or] at hl
      rw [List.map_cons, if_neg (fun e => hl.1 e.symm), ih hl.2]
  rw [List.mem_append, not_or] at h
  rw [List.map_append, List.map_cons, if_pos rfl, key l1 h.1.1, key l2 h.1.2]

theorem dropConn_split {l1 l2 : List QConn} {c : QConn} (h : ((l1 ++ c :: l2).map QConn.sock).Nodup) :
    dropConn c.sock (l1 ++ c :: l2) = l1 ++ l2 := by
  unfold dropConn
  rw [List.map_append, List.map_cons, List.perm_middle.nodup_iff, List.nodup_cons, List.mem_append, not_or] at h
  have key : ∀ l : List QConn, c.sock ∉ l.map QConn.sock → l.filter (fun d => d.sock ≠ c.sock) = l := by
    intro l hl
    rw [List.filter_eq_self]
    intro d hd
    simp only [ne_eq, decide_not, Bool.not_eq_true', decide_eq_false_iff_not]
    intro e
    exact hl (e ▸ List.mem_map_of_mem hd)
  rw [List.filter_append, List.filter_cons, key l1 h.1.1, key l2 h.1.2]
  simp

theorem addConn_split (c : QConn) : ∀ cs : List QConn, ∃ l1 l2, cs = l1 ++ l2 ∧ addConn c cs = l1 ++ c :: l2 := by
  intro cs
  induction cs with
  | nil => exact ⟨[], [], rfl, rfl⟩
  | cons d ds ih =>
    unfold addConn
    split
    · exact ⟨[], d :: ds, rfl, rfl⟩
    · obtain ⟨l1, l2, h1, h2⟩ := ih
      exact ⟨d :: l1, l2, by rw [h1]; rfl, by rw [h2]; rfl⟩

/-- What a step does. -/
inductive QEffect (conc cap : Nat) (s : SqSt) : List QEvent → SqSt → Prop where
  | begin0 (p : s.pc = .begin0) : QEffect conc cap s [] { s with conns := [], pc := .begin1 }
  | begin1 (p : s.pc = .begin1) (h : s.held = false) : QEffect conc cap s [] { s with queue := [], pc := .test }
  | go (p : s.pc = .test) (h1 : s.term = false) (h2 : s.stop = true → s.queue ≠ []) : QEffect conc cap s [] { s with pc := .connect }
  | leave (p : s.pc = .test) (h : s.term = true ∨ s.stop = true ∧ s.queue = []) : QEffect conc cap s [] { s with pc := .end0 }
  | ready (p : s.pc = .connect) : QEffect conc cap s [] { s with pc := .scan (s.conns.map QConn.sock) }
  | add (p : s.pc = .connect) (sock : Nat) (l1 l2) (h : s.conns = l1 ++ l2) (hn : sock ∉ s.conns.map QConn.sock) (hl : s.conns.length ≠ conc) :
      QEffect conc cap s [] { s with conns := l1 ++ ⟨sock, none, false⟩ :: l2 }
  | scanned (p : s.pc = .scan []) : QEffect conc cap s [] { s with pc := .poll }
  | skip (sock rest) (p : s.pc = .scan (sock :: rest)) (l1 l2 c) (h : s.conns = l1 ++ c :: l2) (hs : c.sock = sock) (hq : c.query ≠ none) :
      QEffect conc cap s [] { s with pc := .scan rest }
  | stray (sock rest) (p : s.pc = .scan (sock :: rest)) (h : sock ∉ s.conns.map QConn.sock) : QEffect conc cap s [] { s with pc := .ub }
  | empty (sock rest) (p : s.pc = .scan (sock :: rest)) (h : s.held = false) (hq : s.queue = []) : QEffect conc cap s [] { s with pc := .poll }
  | send (sock rest) (p : s.pc = .scan (sock :: rest)) (h : s.held = false) (q qs) (hq : s.queue = q :: qs) (l1 l2 u)
      (hc : s.conns = l1 ++ ⟨sock, none, u⟩ :: l2) (whole : Bool) :
      QEffect conc cap s [.sent q sock] { s with queue := qs, conns := l1 ++ ⟨sock, some q, !whole⟩ :: l2, runs := qset s.runs q (s.runs q + 1), pc := .scan rest }
  | refuse (sock rest) (p : s.pc = .scan (sock :: rest)) (h : s.held = false) (q qs) (hq : s.queue = q :: qs) (l1 l2 u)
      (hc : s.conns = l1 ++ ⟨sock, none, u⟩ :: l2) :
      QEffect conc cap s [.refused q] { s with queue := qs, conns := l1 ++ l2, pc := .ub }
  | wakeup (p : s.pc = .poll) (h : 0 < s.wake) : QEffect conc cap s [] { s with wake := s.wake - min s.wake 256, pc := .test }
  | timeout (p : s.pc = .poll) (h : s.conns.length ≠ conc) : QEffect conc cap s [] { s with pc := .test }
  | signal (p : s.pc = .poll) : QEffect conc cap s [] { s with pc := .test }
  | complete (p : s.pc = .poll) (l1 l2 sock q) (hc : s.conns = l1 ++ ⟨sock, some q, false⟩ :: l2) (res) (hr : ∀ p, p ≠ q → res p = s.res p)
      (hr' : res q = s.res q ∨ res q = some (s.runs q)) :
      QEffect conc cap s [.called q (res q)] { s with conns := l1 ++ ⟨sock, none, false⟩ :: l2, res := res, pc := .test }
  | progress (p : s.pc = .poll) (l1 l2 sock q u u') (hc : s.conns = l1 ++ ⟨sock, some q, u⟩ :: l2) (res) (hr : ∀ p, p ≠ q → res p = s.res p)
      (hr' : res q = s.res q ∨ res q = some (s.runs q)) :
      QEffect conc cap s [] { s with conns := l1 ++ ⟨sock, some q, u'⟩ :: l2, res := res, pc := .test }
  | killIdle (p : s.pc = .poll) (l1 l2 sock u) (hc : s.conns = l1 ++ ⟨sock, none, u⟩ :: l2) :
      QEffect conc cap s [.dropped sock] { s with conns := l1 ++ l2, pc := .test }
  | killBusy (p : s.pc = .poll) (h : s.held = false) (l1 l2 sock q u) (hc : s.conns = l1 ++ ⟨sock, some q, u⟩ :: l2) :
      QEffect conc cap s [.dropped sock] { s with queue := q :: s.queue, conns := l1 ++ l2, pc := .test }
  | weird (p : s.pc = .poll) : QEffect conc cap s [] { s with pc := .exit }
  | end0 (p : s.pc = .end0) : QEffect conc cap s [] { s with conns := [], pc := .end1 }
  | end1 (p : s.pc = .end1) (h : s.held = false) : QEffect conc cap s [.ended] { s with queue := [], pc := .done }
  | enter (h : s.stop = false) : QEffect conc cap s [] { s with saw := s.saw + 1 }
  | look (h : s.saw ≠ 0) (hc : s.conns.length = conc) : QEffect conc cap s [] { s with saw := s.saw - 1, passed := s.passed + 1 }
  | lookNo (h : s.saw ≠ 0) (hc : s.conns.length ≠ conc) : QEffect conc cap s [] { s with saw := s.saw - 1 }
  | push (h : s.passed ≠ 0) (hh : s.held = false) :
      QEffect conc cap s [.accepted s.next] { s with passed := s.passed - 1, held := true, queue := s.queue ++ [s.next], next := s.next + 1 }
  | wake (h : s.held = true) (hw : s.wake < cap) : QEffect conc cap s [] { s with held := false, wake := s.wake + 1 }
  | stop : QEffect conc cap s [.stopped] { s with stop := true, waking := s.waking + 1 }
  | terminate : QEffect conc cap s [.terminated] { s with term := true, waking := s.waking + 1 }
  | notify (h : 0 < s.waking) (hw : s.wake < cap) : QEffect conc cap s [] { s with waking := s.waking - 1, wake := s.wake + 1 }
  | start (p : s.pc = .off ∨ s.pc = .done) : QEffect conc cap s [.started] { s with stop := false, term := false, pc := .begin0 }

theorem kill_effect {conc cap : Nat} {s s' : SqSt} {es} {c : QConn} {l1 l2} (hp : s.pc = .poll) (hn : (s.conns.map QConn.sock).Nodup) (hc : s.conns = l1 ++ c :: l2)
    (h : s.kill c = some (es, s')) : QEffect conc cap s es s' := by
  obtain ⟨sock, query, u⟩ := c
  rw [hc] at hn
  have hd := dropConn_split hn
  unfold SqSt.kill at h
  dsimp only at h hd
  cases query with
  | none =>
    cases h
    rw [hc, hd]
    exact .killIdle hp l1 l2 sock u hc
  | some q =>
    dsimp only at h
    split at h
    · cases h
    · rename_i hh
      cases h
      rw [hc, hd]
      exact .killBusy hp (by simpa using hh) l1 l2 sock q u hc

theorem hangup_effect {conc cap : Nat} {s s' : SqSt} {es} {c : QConn} {l1 l2} {a b d} (hp : s.pc = .poll) (hn : (s.conns.map QConn.sock).Nodup) (hc : s.conns = l1 ++ c :: l2)
    (h : s.hangup c a b d = some (es, s')) : QEffect conc cap s es s' := by
  unfold SqSt.hangup at h
  split at h
  · exact kill_effect hp hn hc h
  · cases h; exact .weird hp

theorem input_effect {conc cap : Nat} {s s' : SqSt} {es} {c : QConn} {l1 l2} {q w r k} (hp : s.pc = .poll) (hn : (s.conns.map QConn.sock).Nodup) (hc : s.conns = l1 ++ c :: l2)
    (hq : c.query = some q) (h : s.input c q w r k = some (es, s')) : QEffect conc cap s es s' := by
  obtain ⟨sock, query, u⟩ := c
  dsimp only at hq
  subst hq
  rw [hc] at hn
  unfold SqSt.input at h
  dsimp only at h
  generalize hres : (if r > 0 ∧ s.res q = none then qset s.res q (some (s.runs q)) else s.res) = res at h
  have h1 : ∀ p, p ≠ q → res p = s.res p := by
    intro p hpq
    rw [← hres]
    split
    · simp [qset, hpq]
    · rfl
  have h2 : res q = s.res q ∨ res q = some (s.runs q) := by
    rw [← hres]
    split
    · right; simp [qset]
    · left; rfl
  rw [hc] at h
  split at h
  · split at h
    · cases h
    · rename_i hu
      have hu : u = false := by simpa using hu
      subst hu
      cases h
      rw [setConn_split hn]
      exact .complete hp l1 l2 sock q hc res h1 h2
  · cases h
    rw [setConn_split hn]
    exact .progress hp l1 l2 sock q u _ hc res h1 h2

theorem qstep_effect {conc cap : Nat} {s s' : SqSt} {es} {f : QFate} (hn : (s.conns.map QConn.sock).Nodup) (h : qstep conc f s = some (es, s')) :
    QEffect conc cap s es s' := by
  unfold qstep at h
  split at h
  all_goals try (rename_i hp)
  all_goals try (cases h; done)
  · cases h; exact .begin0 hp
  · split at h
    · cases h
    · cases h; rename_i hh; exact .begin1 hp (by simpa using hh)
  · cases h
    by_cases hg : (!s.term && !(s.stop && s.queue.isEmpty)) = true
    · rw [if_pos hg]
      simp only [Bool.and_eq_true, Bool.not_eq_true'] at hg
      refine .go hp hg.1 ?_
      intro e1 e2
      rw [e1, e2] at hg
      simp at hg
    · rw [if_neg hg]
      refine .leave hp ?_
      cases ht : s.term with
      | true => exact Or.inl rfl
      | false =>
        right
        rw [ht] at hg
        simpa using hg
  · split at h
    · cases h; exact .ready hp
    · rename_i hl
      split at h
      · split at h
        · cases h
        · rename_i sock hns
          cases h
          obtain ⟨l1, l2, e1, e2⟩ := addConn_split ⟨sock, none, false⟩ s.conns
          rw [e2]
          exact .add hp sock l1 l2 e1 hns hl
      · cases h; exact .ready hp
      · cases h
  · cases h; exact .scanned hp
  · rename_i sock rest
    split at h
    · rename_i hf
      cases h
      refine .stray sock rest hp ?_
      intro hm
      obtain ⟨c, h1, h2⟩ := List.mem_map.1 hm
      unfold findConn at hf
      rw [List.find?_eq_none] at hf
      exact hf c h1 (by simpa using h2)
    · rename_i c hf
      obtain ⟨l1, l2, hc, hs⟩ := findConn_split hf
      split at h
      · rename_i hq
        cases h
        refine .skip sock rest hp l1 l2 c hc hs ?_
        intro e; rw [e] at hq; cases hq
      · rename_i hq
        split at h
        · cases h
        · rename_i hh
          have hh : s.held = false := by simpa using hh
          split at h
          · rename_i hqe; cases h; exact .empty sock rest hp hh hqe
          · rename_i q qs hqe
            obtain ⟨sk, query, u⟩ := c
            dsimp only at hs hq
            subst hs
            have hq : query = none := by simpa using hq
            subst hq
            rw [hc] at hn
            split at h
            · rename_i whole
              cases h
              rw [hc, setConn_split hn]
              exact .send sk rest hp hh q qs hqe l1 l2 u hc whole
            · cases h
              rw [hc]
              have := dropConn_split hn
              dsimp only at this
              rw [this]
              exact .refuse sk rest hp hh q qs hqe l1 l2 u hc
            · cases h
  · split at h
    · split at h
      · cases h; rename_i hw; exact .wakeup hp hw
      · cases h
    · split at h
      · cases h
      · cases h; rename_i hl; exact .timeout hp hl
    · cases h; exact .signal hp
    · split at h
      · cases h
      · rename_i c hf
        obtain ⟨l1, l2, hc, hs⟩ := findConn_split hf
        split at h
        · split at h
          · rename_i q hq
            split at h
            · exact input_effect hp hn hc hq h
            · exact hangup_effect hp hn hc h
          · exact hangup_effect hp hn hc h
        · exact hangup_effect hp hn hc h
    · cases h
  · cases h; exact .end0 hp
  · split at h
    · cases h
    · cases h; rename_i hh; exact .end1 hp (by simpa using hh)

theorem qcall_effect {conc cap : Nat} {s s' : SqSt} {es} {c : QCall} (h : qcall conc cap c s = some (es, s')) :
    QEffect conc cap s es s' := by
  unfold qcall at h
  split at h
  · split at h
    · cases h
    · cases h; rename_i hh; exact .enter (by simpa using hh)
  · split at h
    · cases h
    · rename_i h0
      split at h
      · cases h; rename_i hc; exact .look h0 hc
      · cases h; rename_i hc; exact .lookNo h0 hc
  · split at h
    · cases h
    · rename_i hh
      cases h
      rw [not_or] at hh
      exact .push hh.1 (by simpa using hh.2)
  · split at h
    · cases h; rename_i hh; exact .wake hh.1 hh.2
    · cases h
  · cases h; exact .stop
  · cases h; exact .terminate
  · split at h
    · cases h; rename_i hh; exact .notify hh.1 hh.2
    · cases h
  · split at h
    · cases h; rename_i hh; exact .start hh
    · cases h

theorem QStep.effect {conc cap : Nat} {s s' : SqSt} {es} (hn : (s.conns.map QConn.sock).Nodup) (h : QStep conc cap s es s') : QEffect conc cap s es s' := by
  cases h with
  | handler f h => exact qstep_effect hn h
  | call c h => exact qcall_effect h

/-! ### What is where -/

theorem acceptedIn_append (a b : List QEvent) : acceptedIn (a ++ b) = acceptedIn a ++ acceptedIn b := List.filterMap_append
theorem sentIn_append (a b : List QEvent) : sentIn (a ++ b) = sentIn a ++ sentIn b := List.filterMap_append
theorem calledIn_append (a b : List QEvent) : calledIn (a ++ b) = calledIn a ++ calledIn b := List.filterMap_append

/-- The queries of some connections. -/
def inProgress (cs : List QConn) : List Nat := cs.filterMap QConn.query

theorem inProgress_append (a b : List QConn) : inProgress (a ++ b) = inProgress a ++ inProgress b := List.filterMap_append
theorem inProgress_none (s u) (b : List QConn) : inProgress (⟨s, none, u⟩ :: b) = inProgress b := rfl
theorem inProgress_some (s q u) (b : List QConn) : inProgress (⟨s, some q, u⟩ :: b) = q :: inProgress b := rfl

structure SqlInv (tr : List QEvent) (s : SqSt) : Prop where
  socks : (s.conns.map QConn.sock).Nodup
  acc : acceptedIn tr = List.range s.next
  nd : (s.queue ++ inProgress s.conns ++ calledIn tr).Nodup
  lt : ∀ q ∈ s.queue, q < s.next
  sentLt : ∀ q ∈ sentIn tr, q < s.next
  busySent : ∀ q ∈ inProgress s.conns, q ∈ sentIn tr
  calledSent : ∀ q ∈ calledIn tr, q ∈ sentIn tr
  runs : ∀ q, s.runs q = (sentIn tr).count q
  res : ∀ q r, s.res q = some r → 1 ≤ r ∧ r ≤ s.runs q
  split : ∃ re fresh, s.queue = re ++ fresh ∧ (∀ q ∈ re, q ∈ sentIn tr) ∧ (∀ x ∈ sentIn tr, ∀ y ∈ fresh, x < y) ∧ fresh.Pairwise (· < ·)
  noLoss : noLoss tr → (sentIn tr).Nodup ∧ ∀ q ∈ s.queue, q ∉ sentIn tr

theorem noLoss_left {a b : List QEvent} (h : Spec.noLoss (a ++ b)) : Spec.noLoss a := fun c hc => h c (List.mem_append_left _ hc)

section
variable {conc cap : Nat} {tr : List QEvent} {s s' : SqSt} {es : List QEvent}

/-- A step that says nothing about queries and does not touch them. -/
theorem SqlInv.quiet (I : SqlInv tr s) (h1 : acceptedIn es = []) (h2 : sentIn es = []) (h3 : calledIn es = [])
    (e1 : s'.queue = s.queue) (e2 : s'.next = s.next) (e3 : s'.runs = s.runs) (e4 : s'.res = s.res)
    (e5 : inProgress s'.conns = inProgress s.conns) (e6 : (s'.conns.map QConn.sock).Nodup) : SqlInv (tr ++ es) s' where
  socks := e6
  acc := by rw [acceptedIn_append, h1, List.append_nil, e2, I.acc]
  nd := by rw [calledIn_append, h3, List.append_nil, e1, e5]; exact I.nd
  lt := by rw [e1, e2]; exact I.lt
  sentLt := by rw [sentIn_append, h2, List.append_nil, e2]; exact I.sentLt
  busySent := by rw [sentIn_append, h2, List.append_nil, e5]; exact I.busySent
  calledSent := by rw [sentIn_append, h2, List.append_nil, calledIn_append, h3, List.append_nil]; exact I.calledSent
  runs := by rw [sentIn_append, h2, List.append_nil, e3]; exact I.runs
  res := by rw [e3, e4]; exact I.res
  split := by rw [sentIn_append, h2, List.append_nil, e1]; exact I.split
  noLoss := by
    intro h
    rw [sentIn_append, h2, List.append_nil, e1]
    exact I.noLoss (noLoss_left h)

/-- A step that forgets queries. -/
theorem SqlInv.forget (I : SqlInv tr s) (h1 : acceptedIn es = []) (h2 : sentIn es = []) (h3 : calledIn es = [])
    (e1 : s'.queue = s.queue ∨ s'.queue = []) (e2 : s'.next = s.next) (e3 : s'.runs = s.runs) (e4 : s'.res = s.res)
    (e5 : s'.conns = s.conns ∨ s'.conns = []) : SqlInv (tr ++ es) s' := by
  have hsub : s'.queue.Sublist s.queue := by
    rcases e1 with e | e <;> rw [e]
    · exact List.Sublist.refl _
    · exact List.nil_sublist _
  have hb : (inProgress s'.conns).Sublist (inProgress s.conns) := by
    rcases e5 with e | e <;> rw [e]
    · exact List.Sublist.refl _
    · exact List.nil_sublist _
  exact
  { socks := by
      rcases e5 with e | e <;> rw [e]
      · exact I.socks
      · exact List.nodup_nil
    acc := by rw [acceptedIn_append, h1, List.append_nil, e2, I.acc]
    nd := by
      rw [calledIn_append, h3, List.append_nil]
      exact I.nd.sublist ((hsub.append hb).append (List.Sublist.refl _))
    lt := by rw [e2]; exact fun q hq => I.lt q (hsub.subset hq)
    sentLt := by rw [sentIn_append, h2, List.append_nil, e2]; exact I.sentLt
    busySent := by rw [sentIn_append, h2, List.append_nil]; exact fun q hq => I.busySent q (hb.subset hq)
    calledSent := by rw [sentIn_append, h2, List.append_nil, calledIn_append, h3, List.append_nil]; exact I.calledSent
    runs := by rw [sentIn_append, h2, List.append_nil, e3]; exact I.runs
    res := by rw [e3, e4]; exact I.res
    split := by
      rw [sentIn_append, h2, List.append_nil]
      rcases e1 with e | e <;> rw [e]
      · exact I.split
      · exact ⟨[], [], rfl, by simp, by simp, List.Pairwise.nil⟩
    noLoss := by
      intro h
      rw [sentIn_append, h2, List.append_nil]
      obtain ⟨n1, n2⟩ := I.noLoss (noLoss_left h)
      exact ⟨n1, fun q hq => n2 q (hsub.subset hq)⟩ }

theorem SqlInv.step (I : SqlInv tr s) (h : QEffect conc cap s es s') : SqlInv (tr ++ es) s' := by
  cases h with
  | begin0 p => exact I.forget rfl rfl rfl (Or.inl rfl) rfl rfl rfl (Or.inr rfl)
  | begin1 p h => exact I.forget rfl rfl rfl (Or.inr rfl) rfl rfl rfl (Or.inl rfl)
  | go p h1 h2 => exact I.quiet rfl rfl rfl rfl rfl rfl rfl rfl I.socks
  | leave p h => exact I.quiet rfl rfl rfl rfl rfl rfl rfl rfl I.socks
  | ready p => exact I.quiet rfl rfl rfl rfl rfl rfl rfl rfl I.socks
  | add p sock l1 l2 h hn hl =>
    refine I.quiet rfl rfl rfl rfl rfl rfl rfl ?_ ?_
    · dsimp only
      rw [h, inProgress_append, inProgress_append, inProgress_none]
    · have := I.socks
      rw [h] at this hn
      simp only [List.map_append, List.map_cons] at this hn ⊢
      rw [List.perm_middle.nodup_iff, List.nodup_cons]
      exact ⟨hn, this⟩
  | scanned p => exact I.quiet rfl rfl rfl rfl rfl rfl rfl rfl I.socks
  | skip sock rest p l1 l2 c h hs hq => exact I.quiet rfl rfl rfl rfl rfl rfl rfl rfl I.socks
  | stray sock rest p h => exact I.quiet rfl rfl rfl rfl rfl rfl rfl rfl I.socks
  | empty sock rest p h hq => exact I.quiet rfl rfl rfl rfl rfl rfl rfl rfl I.socks
  | send sock rest p h q qs hq l1 l2 u hc whole =>
    have e2 : sentIn (tr ++ [.sent q sock]) = sentIn tr ++ [q] := by rw [sentIn_append]; rfl
    have e3 : calledIn (tr ++ [.sent q sock]) = calledIn tr := by rw [calledIn_append]; exact List.append_nil _
    have eb : inProgress s.conns = inProgress l1 ++ inProgress l2 := by rw [hc, inProgress_append, inProgress_none]
    have eb' : inProgress (l1 ++ ⟨sock, some q, !whole⟩ :: l2) = inProgress l1 ++ q :: inProgress l2 := by rw [inProgress_append, inProgress_some]
    have hqm : q ∈ s.queue := by rw [hq]; exact List.mem_cons_self
    obtain ⟨re, fresh, s1, s2, s3, s4⟩ := I.split
    refine { socks := ?_, acc := ?_, nd := ?_, lt := ?_, sentLt := ?_, busySent := ?_, calledSent := ?_, runs := ?_, res := ?_, split := ?_, noLoss := ?_ }
    · have := I.socks
      rw [hc] at this
      simpa using this
    · rw [acceptedIn_append]; simpa [acceptedIn] using I.acc
    · dsimp only
      rw [e3, eb']
      have := I.nd
      rw [hq, eb] at this
      refine List.Perm.nodup ?_ this
      rw [List.perm_iff_count]; intro a; simp only [List.count_append, List.count_cons]; omega
    · intro x hx; exact I.lt x (by rw [hq]; exact List.mem_cons_of_mem _ hx)
    · rw [e2]
      intro x hx
      rcases List.mem_append.1 hx with hx | hx
      · exact I.sentLt x hx
      · rw [List.mem_singleton.1 hx]; exact I.lt q hqm
    · dsimp only
      rw [e2, eb']
      intro x hx
      simp only [List.mem_append, List.mem_cons, List.not_mem_nil, or_false] at hx ⊢
      rcases hx with hx | hx | hx
      · exact Or.inl (I.busySent x (by rw [eb]; exact List.mem_append_left _ hx))
      · exact Or.inr hx
      · exact Or.inl (I.busySent x (by rw [eb]; exact List.mem_append_right _ hx))
    · rw [e2, e3]
      intro x hx
      exact List.mem_append_left _ (I.calledSent x hx)
    · rw [e2]
      intro x
      simp only [qset, List.count_append, List.count_cons, List.count_nil, I.runs]
      by_cases hx : x = q
      · subst hx; simp
      · simp [hx, Ne.symm hx]
    · intro x r hr
      obtain ⟨r1, r2⟩ := I.res x r hr
      refine ⟨r1, ?_⟩
      simp only [qset]
      split
      · rename_i hx; subst hx; omega
      · exact r2
    · rw [e2]
      cases re with
      | nil =>
        rw [hq] at s1
        simp only [List.nil_append] at s1
        subst s1
        rw [List.pairwise_cons] at s4
        refine ⟨[], qs, rfl, by simp, ?_, s4.2⟩
        intro x hx y hy
        rcases List.mem_append.1 hx with hx | hx
        · exact s3 x hx y (List.mem_cons_of_mem _ hy)
        · rw [List.mem_singleton.1 hx]; exact s4.1 y hy
      | cons x re =>
        rw [hq, List.cons_append, List.cons.injEq] at s1
        obtain ⟨rfl, s1⟩ := s1
        refine ⟨re, fresh, s1, fun y hy => List.mem_append_left _ (s2 y (List.mem_cons_of_mem _ hy)), ?_, s4⟩
        intro x hx y hy
        rcases List.mem_append.1 hx with hx | hx
        · exact s3 x hx y hy
        · rw [List.mem_singleton.1 hx]; exact s3 q (s2 q List.mem_cons_self) y hy
    · intro hl
      obtain ⟨n1, n2⟩ := I.noLoss (noLoss_left hl)
      rw [e2]
      constructor
      · rw [List.nodup_append]
        refine ⟨n1, by simp, ?_⟩
        intro a ha b hb
        rw [List.mem_singleton.1 hb]
        intro e
        exact n2 q hqm (e ▸ ha)
      · intro x hx
        simp only [List.mem_append, List.mem_singleton, not_or]
        refine ⟨n2 x (by rw [hq]; exact List.mem_cons_of_mem _ hx), ?_⟩
        rintro rfl
        have := I.nd
        rw [hq, List.cons_append, List.cons_append, List.nodup_cons] at this
        exact this.1 (List.mem_append_left _ (List.mem_append_left _ hx))
  | refuse sock rest p h q qs hq l1 l2 u hc =>
    have e2 : sentIn (tr ++ [.refused q]) = sentIn tr := by rw [sentIn_append]; exact List.append_nil _
    have e3 : calledIn (tr ++ [.refused q]) = calledIn tr := by rw [calledIn_append]; exact List.append_nil _
    have eb : inProgress s.conns = inProgress (l1 ++ l2) := by rw [hc, inProgress_append, inProgress_none, inProgress_append]
    obtain ⟨re, fresh, s1, s2, s3, s4⟩ := I.split
    refine { socks := ?_, acc := ?_, nd := ?_, lt := ?_, sentLt := ?_, busySent := ?_, calledSent := ?_, runs := ?_, res := I.res, split := ?_, noLoss := ?_ }
    · have := I.socks
      rw [hc] at this
      refine this.sublist ?_
      simp
    · rw [acceptedIn_append]; simpa [acceptedIn] using I.acc
    · dsimp only
      rw [e3, ← eb]
      have := I.nd
      rw [hq, List.cons_append, List.cons_append, List.nodup_cons] at this
      exact this.2
    · intro x hx; exact I.lt x (by rw [hq]; exact List.mem_cons_of_mem _ hx)
    · rw [e2]; exact I.sentLt
    · dsimp only; rw [e2, ← eb]; exact I.busySent
    · rw [e2, e3]; exact I.calledSent
    · rw [e2]; exact I.runs
    · rw [e2]
      cases re with
      | nil =>
        rw [hq] at s1
        simp only [List.nil_append] at s1
        subst s1
        rw [List.pairwise_cons] at s4
        exact ⟨[], qs, rfl, by simp, fun x hx y hy => s3 x hx y (List.mem_cons_of_mem _ hy), s4.2⟩
      | cons x re =>
        rw [hq, List.cons_append, List.cons.injEq] at s1
        exact ⟨re, fresh, s1.2, fun y hy => s2 y (List.mem_cons_of_mem _ hy), s3, s4⟩
    · intro hl
      obtain ⟨n1, n2⟩ := I.noLoss (noLoss_left hl)
      rw [e2]
      exact ⟨n1, fun x hx => n2 x (by rw [hq]; exact List.mem_cons_of_mem _ hx)⟩
  | wakeup p h => exact I.quiet rfl rfl rfl rfl rfl rfl rfl rfl I.socks
  | timeout p h => exact I.quiet rfl rfl rfl rfl rfl rfl rfl rfl I.socks
  | signal p => exact I.quiet rfl rfl rfl rfl rfl rfl rfl rfl I.socks
  | complete p l1 l2 sock q hc res hr hr' =>
    have e2 : sentIn (tr ++ [.called q (res q)]) = sentIn tr := by rw [sentIn_append]; exact List.append_nil _
    have e3 : calledIn (tr ++ [.called q (res q)]) = calledIn tr ++ [q] := by rw [calledIn_append]; rfl
    have eb : inProgress s.conns = inProgress l1 ++ q :: inProgress l2 := by rw [hc, inProgress_append, inProgress_some]
    have eb' : inProgress (l1 ++ ⟨sock, none, false⟩ :: l2) = inProgress l1 ++ inProgress l2 := by rw [inProgress_append, inProgress_none]
    have hqs : q ∈ sentIn tr := I.busySent q (by rw [eb]; simp)
    refine { socks := ?_, acc := ?_, nd := ?_, lt := I.lt, sentLt := ?_, busySent := ?_, calledSent := ?_, runs := ?_, res := ?_, split := ?_, noLoss := ?_ }
    · have := I.socks
      rw [hc] at this
      simpa using this
    · rw [acceptedIn_append]; simpa [acceptedIn] using I.acc
    · dsimp only
      rw [e3, eb']
      have := I.nd
      rw [eb] at this
      refine List.Perm.nodup ?_ this
      rw [List.perm_iff_count]; intro a; simp only [List.count_append, List.count_cons, List.count_nil]; omega
    · rw [e2]; exact I.sentLt
    · dsimp only
      rw [e2, eb']
      intro x hx
      refine I.busySent x ?_
      rw [eb]
      simp only [List.mem_append, List.mem_cons] at hx ⊢
      rcases hx with hx | hx
      · exact Or.inl hx
      · exact Or.inr (Or.inr hx)
    · rw [e2, e3]
      intro x hx
      rcases List.mem_append.1 hx with hx | hx
      · exact I.calledSent x hx
      · rw [List.mem_singleton.1 hx]; exact hqs
    · rw [e2]; exact I.runs
    · intro x r hx
      dsimp only at hx ⊢
      by_cases hxq : x = q
      · subst hxq
        rcases hr' with e | e
        · rw [e] at hx; exact I.res x r hx
        · rw [e] at hx
          cases hx
          refine ⟨?_, Nat.le_refl _⟩
          rw [I.runs]
          exact List.count_pos_iff.2 hqs
      · rw [hr x hxq] at hx; exact I.res x r hx
    · rw [e2]; exact I.split
    · intro hl
      rw [e2]
      exact I.noLoss (noLoss_left hl)
  | progress p l1 l2 sock q u u' hc res hr hr' =>
    have eb : inProgress s.conns = inProgress l1 ++ q :: inProgress l2 := by rw [hc, inProgress_append, inProgress_some]
    have eb' : inProgress (l1 ++ ⟨sock, some q, u'⟩ :: l2) = inProgress s.conns := by rw [inProgress_append, inProgress_some, eb]
    have hqs : q ∈ sentIn tr := I.busySent q (by rw [eb]; simp)
    have J : SqlInv (tr ++ []) { s with conns := l1 ++ ⟨sock, some q, u'⟩ :: l2, pc := .test } := by
      refine I.quiet rfl rfl rfl rfl rfl rfl rfl eb' ?_
      have := I.socks
      rw [hc] at this
      simpa using this
    refine { J with res := ?_ }
    intro x r hx
    dsimp only at hx ⊢
    by_cases hxq : x = q
    · subst hxq
      rcases hr' with e | e
      · rw [e] at hx; exact I.res x r hx
      · rw [e] at hx
        cases hx
        refine ⟨?_, Nat.le_refl _⟩
        rw [I.runs]
        exact List.count_pos_iff.2 hqs
    · rw [hr x hxq] at hx; exact I.res x r hx
  | killIdle p l1 l2 sock u hc =>
    refine I.quiet rfl rfl rfl rfl rfl rfl rfl ?_ ?_
    · dsimp only; rw [hc, inProgress_append, inProgress_append, inProgress_none]
    · have := I.socks
      rw [hc] at this
      refine this.sublist ?_
      simp
  | killBusy p h l1 l2 sock q u hc =>
    have e2 : sentIn (tr ++ [.dropped sock]) = sentIn tr := by rw [sentIn_append]; exact List.append_nil _
    have e3 : calledIn (tr ++ [.dropped sock]) = calledIn tr := by rw [calledIn_append]; exact List.append_nil _
    have eb : inProgress s.conns = inProgress l1 ++ q :: inProgress l2 := by rw [hc, inProgress_append, inProgress_some]
    have hqs : q ∈ sentIn tr := I.busySent q (by rw [eb]; simp)
    obtain ⟨re, fresh, s1, s2, s3, s4⟩ := I.split
    refine { socks := ?_, acc := ?_, nd := ?_, lt := ?_, sentLt := ?_, busySent := ?_, calledSent := ?_, runs := ?_, res := I.res, split := ?_, noLoss := ?_ }
    · have := I.socks
      rw [hc] at this
      refine this.sublist ?_
      simp
    · rw [acceptedIn_append]; simpa [acceptedIn] using I.acc
    · dsimp only
      rw [e3, inProgress_append]
      have := I.nd
      rw [eb] at this
      refine List.Perm.nodup ?_ this
      rw [List.perm_iff_count]; intro a; simp only [List.count_append, List.count_cons]; omega
    · intro x hx
      rcases List.mem_cons.1 hx with rfl | hx
      · exact I.sentLt x hqs
      · exact I.lt x hx
    · rw [e2]; exact I.sentLt
    · dsimp only
      rw [e2, inProgress_append]
      intro x hx
      refine I.busySent x ?_
      rw [eb]
      simp only [List.mem_append, List.mem_cons] at hx ⊢
      rcases hx with hx | hx
      · exact Or.inl hx
      · exact Or.inr (Or.inr hx)
    · rw [e2, e3]; exact I.calledSent
    · rw [e2]; exact I.runs
    · rw [e2]
      refine ⟨q :: re, fresh, by dsimp only; rw [s1]; rfl, ?_, s3, s4⟩
      intro x hx
      rcases List.mem_cons.1 hx with rfl | hx
      · exact hqs
      · exact s2 x hx
    · intro hl
      exact absurd (List.mem_append_right _ List.mem_cons_self) (hl sock)
  | weird p => exact I.quiet rfl rfl rfl rfl rfl rfl rfl rfl I.socks
  | end0 p => exact I.forget rfl rfl rfl (Or.inl rfl) rfl rfl rfl (Or.inr rfl)
  | end1 p h => exact I.forget rfl rfl rfl (Or.inr rfl) rfl rfl rfl (Or.inl rfl)
  | enter h => exact I.quiet rfl rfl rfl rfl rfl rfl rfl rfl I.socks
  | look h hc => exact I.quiet rfl rfl rfl rfl rfl rfl rfl rfl I.socks
  | lookNo h hc => exact I.quiet rfl rfl rfl rfl rfl rfl rfl rfl I.socks
  | push h hh =>
    have e2 : sentIn (tr ++ [.accepted s.next]) = sentIn tr := by rw [sentIn_append]; exact List.append_nil _
    have e3 : calledIn (tr ++ [.accepted s.next]) = calledIn tr := by rw [calledIn_append]; exact List.append_nil _
    have hlt : ∀ x ∈ s.queue ++ inProgress s.conns ++ calledIn tr, x < s.next := by
      intro x hx
      simp only [List.mem_append] at hx
      rcases hx with (hx | hx) | hx
      · exact I.lt x hx
      · exact I.sentLt x (I.busySent x hx)
      · exact I.sentLt x (I.calledSent x hx)
    obtain ⟨re, fresh, s1, s2, s3, s4⟩ := I.split
    refine { socks := I.socks, acc := ?_, nd := ?_, lt := ?_, sentLt := ?_, busySent := ?_, calledSent := ?_, runs := ?_, res := I.res, split := ?_, noLoss := ?_ }
    · rw [acceptedIn_append, I.acc, List.range_succ]; rfl
    · dsimp only
      rw [e3]
      have : (s.next :: (s.queue ++ inProgress s.conns ++ calledIn tr)).Nodup := by
        rw [List.nodup_cons]
        exact ⟨fun hm => absurd (hlt _ hm) (Nat.lt_irrefl _), I.nd⟩
      refine List.Perm.nodup ?_ this
      rw [List.perm_iff_count]; intro a; simp only [List.count_append, List.count_cons, List.count_nil]; omega
    · intro x hx
      dsimp only at hx ⊢
      rcases List.mem_append.1 hx with hx | hx
      · exact Nat.lt_succ_of_lt (I.lt x hx)
      · rw [List.mem_singleton.1 hx]; exact Nat.lt_succ_self _
    · rw [e2]; exact fun x hx => Nat.lt_succ_of_lt (I.sentLt x hx)
    · rw [e2]; exact I.busySent
    · rw [e2, e3]; exact I.calledSent
    · rw [e2]; exact I.runs
    · rw [e2]
      refine ⟨re, fresh ++ [s.next], by dsimp only; rw [s1, List.append_assoc], s2, ?_, ?_⟩
      · intro x hx y hy
        rcases List.mem_append.1 hy with hy | hy
        · exact s3 x hx y hy
        · rw [List.mem_singleton.1 hy]; exact I.sentLt x hx
      · rw [List.pairwise_append]
        refine ⟨s4, List.pairwise_singleton _ _, ?_⟩
        intro x hx y hy
        rw [List.mem_singleton.1 hy]
        exact I.lt x (by rw [s1]; exact List.mem_append_right _ hx)
    · intro hl
      rw [e2]
      obtain ⟨n1, n2⟩ := I.noLoss (noLoss_left hl)
      refine ⟨n1, ?_⟩
      intro x hx
      rcases List.mem_append.1 hx with hx | hx
      · exact n2 x hx
      · rw [List.mem_singleton.1 hx]
        intro hm
        exact absurd (I.sentLt _ hm) (Nat.lt_irrefl _)
  | wake h hw => exact I.quiet rfl rfl rfl rfl rfl rfl rfl rfl I.socks
  | stop => exact I.quiet rfl rfl rfl rfl rfl rfl rfl rfl I.socks
  | terminate => exact I.quiet rfl rfl rfl rfl rfl rfl rfl rfl I.socks
  | notify h hw => exact I.quiet rfl rfl rfl rfl rfl rfl rfl rfl I.socks
  | start p => exact I.quiet rfl rfl rfl rfl rfl rfl rfl rfl I.socks

theorem sqlInv_init (a b : Bool) : SqlInv [] (qInit a b) where
  socks := List.nodup_nil
  acc := rfl
  nd := List.nodup_nil
  lt := by intro q hq; cases hq
  sentLt := by intro q hq; cases hq
  busySent := by intro q hq; cases hq
  calledSent := by intro q hq; cases hq
  runs := fun _ => rfl
  res := by intro q r h; cases h
  split := ⟨[], [], rfl, by simp, by simp, List.Pairwise.nil⟩
  noLoss := fun _ => ⟨List.nodup_nil, by intro q hq; cases hq⟩

theorem QRun.inv {a b : Bool} (h : QRun conc cap (qInit a b) tr s) : SqlInv tr s := by
  induction h with
  | refl => exact sqlInv_init a b
  | step run h ih => exact ih.step (h.effect ih.socks)

/-- The steps of a run are effects. -/
theorem QRun.rec' {a b : Bool} {P : List QEvent → SqSt → Prop} (h0 : P [] (qInit a b))
    (hs : ∀ tr s es s', QRun conc cap (qInit a b) tr s → SqlInv tr s → P tr s → QEffect conc cap s es s' → P (tr ++ es) s') :
    ∀ {tr s}, QRun conc cap (qInit a b) tr s → P tr s := by
  intro tr s h
  induction h with
  | refl => exact h0
  | step run h ih => exact hs _ _ _ _ run run.inv ih (h.effect run.inv.socks)

end

end Fcgi.Model
