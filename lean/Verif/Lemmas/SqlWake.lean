import Verif.Lemmas.SqlConn
/-! # Lemmas for the database connections: waking, stopping, losing -/
namespace Fcgi.Model
open Fcgi.Spec
variable {conc cap : Nat} {tr : List QEvent} {s s' : SqSt} {es : List QEvent}

theorem inProgress_ne {cs : List QConn} {c : QConn} (h : c ∈ cs) (hq : c.query ≠ none) : inProgress cs ≠ [] := by
  cases hc : c.query with
  | none => exact absurd hc hq
  | some q =>
    have : q ∈ inProgress cs := List.mem_filterMap.2 ⟨c, h, hc⟩
    exact List.ne_nil_of_mem this

theorem nodup_map_inj {α β : Type} {f : α → β} : ∀ {l : List α}, (l.map f).Nodup → ∀ {a b : α}, a ∈ l → b ∈ l → f a = f b → a = b := by
  intro l
  induction l with
  | nil => intro _ a b ha; cases ha
  | cons x l ih =>
    intro h a b ha hb e
    rw [List.map_cons, List.nodup_cons] at h
    rcases List.mem_cons.1 ha with h1 | h1 <;> rcases List.mem_cons.1 hb with h2 | h2
    · rw [h1, h2]
    · rw [h1] at e
      exact absurd (e ▸ List.mem_map_of_mem h2) h.1
    · rw [h2] at e
      exact absurd (e ▸ List.mem_map_of_mem h1) h.1
    · exact ih h.2 h1 h2 e

/-- Between the test of the loop and the poll. -/
def Dispatching (pc : QPC) : Prop := pc = .connect ∨ ∃ rest, pc = .scan rest

structure SqlWake (conc : Nat) (s : SqSt) : Prop where
  poll : s.pc = .poll → s.queue ≠ [] → (∀ c ∈ s.conns, c.query ≠ none) ∨ 0 < s.wake ∨ s.held = true
  scan : ∀ rest, s.pc = .scan rest → (∀ c ∈ s.conns, c.sock ∉ rest → c.query ≠ none) ∧ rest.Nodup ∧ ∀ x ∈ rest, x ∈ s.conns.map QConn.sock
  disp : Dispatching s.pc → (s.stop = true ∨ s.term = true) → s.wake = 0 → s.waking = 0 → s.term = false ∧ (s.queue ≠ [] ∨ inProgress s.conns ≠ [])
  idle : s.pc = .poll → (s.stop = true ∨ s.term = true) → s.wake = 0 → s.waking = 0 → s.term = false ∧ (inProgress s.conns ≠ [] ∨ s.conns.length ≠ conc)

/-- The thread goes on to somewhere where nothing is claimed. -/
theorem SqlWake.away (h1 : s.pc ≠ .poll) (h2 : ¬ Dispatching s.pc) : SqlWake conc s where
  poll := fun h => absurd h h1
  scan := fun rest h => absurd (Or.inr ⟨rest, h⟩) h2
  disp := fun h => absurd h h2
  idle := fun h => absurd h h1

theorem not_disp {pc : QPC} (h : pc = .begin0 ∨ pc = .begin1 ∨ pc = .test ∨ pc = .end0 ∨ pc = .end1 ∨ pc = .done ∨ pc = .ub ∨ pc = .exit ∨ pc = .off ∨ pc = .poll) : ¬ Dispatching pc := by
  rintro (e | ⟨r, e⟩) <;> subst e <;> simp at h

theorem SqlWake.step (hconc : 0 < conc) (I : SqlInv tr s) (W : SqlWake conc s) (h : QEffect conc cap s es s') : SqlWake conc s' := by
  cases h with
  | begin0 p => exact .away (by simp) (not_disp (by simp))
  | begin1 p h => exact .away (by simp) (not_disp (by simp))
  | go p h1 h2 =>
    refine ⟨fun h => (by cases h), fun rest h => (by cases h), ?_, fun h => (by cases h)⟩
    intro _ h _ _
    refine ⟨h1, Or.inl ?_⟩
    rcases h with h | h
    · exact h2 h
    · rw [h1] at h; cases h
  | leave p h => exact .away (by simp) (not_disp (by simp))
  | ready p =>
    refine ⟨fun h => (by cases h), ?_, fun _ => W.disp (Or.inl p), fun h => (by cases h)⟩
    intro rest h
    cases h
    exact ⟨fun c hc hn => absurd (List.mem_map_of_mem hc) hn, I.socks, fun x hx => hx⟩
  | add p sock l1 l2 h hn hl =>
    refine ⟨fun e => ?_, fun rest e => ?_, fun _ h1 h2 h3 => ?_, fun e => ?_⟩
    · rw [show s.pc = _ from p] at e; cases e
    · rw [show s.pc = _ from p] at e; cases e
    · obtain ⟨a1, a2⟩ := W.disp (Or.inl p) h1 h2 h3
      refine ⟨a1, ?_⟩
      dsimp only
      rw [inProgress_append, inProgress_none, ← inProgress_append, ← h]
      exact a2
    · rw [show s.pc = _ from p] at e; cases e
  | scanned p =>
    have hb := (W.scan [] p).1
    refine ⟨fun _ _ => Or.inl (fun c hc => hb c hc (by simp)), fun rest h => (by cases h), fun h => absurd h (not_disp (by simp)), ?_⟩
    intro _ h1 h2 h3
    refine ⟨(W.disp (Or.inr ⟨[], p⟩) h1 h2 h3).1, ?_⟩
    dsimp only
    cases hc : s.conns with
    | nil => right; simp; omega
    | cons c cs => left; rw [← hc]; exact inProgress_ne (c := c) (by rw [hc]; simp) (hb c (by rw [hc]; simp) (by simp))
  | skip sock rest p l1 l2 c h hs hq =>
    refine ⟨fun h => (by cases h), ?_, fun _ => W.disp (Or.inr ⟨_, p⟩), fun h => (by cases h)⟩
    intro r e
    cases e
    obtain ⟨a1, a2, a3⟩ := W.scan _ p
    refine ⟨?_, (List.nodup_cons.1 a2).2, fun x hx => a3 x (List.mem_cons_of_mem _ hx)⟩
    intro d hd hn
    by_cases e : d.sock = sock
    · have hcm : c ∈ s.conns := by rw [h]; simp
      have : d = c := by
        have hinj := I.socks
        dsimp only at hd
        exact nodup_map_inj hinj hd hcm (by rw [e, hs])
      rw [this]; exact hq
    · exact a1 d hd (by simp [e, hn])
  | stray sock rest p h => exact .away (by simp) (not_disp (by simp))
  | empty sock rest p h hq =>
    refine ⟨fun _ h => absurd hq h, fun rest h => (by cases h), fun h => absurd h (not_disp (by simp)), ?_⟩
    intro _ h1 h2 h3
    obtain ⟨a1, a2⟩ := W.disp (Or.inr ⟨_, p⟩) h1 h2 h3
    rcases a2 with a2 | a2
    · exact absurd hq a2
    · exact ⟨a1, Or.inl a2⟩
  | send sock rest p h q qs hq l1 l2 u hc whole =>
    refine ⟨fun h => (by cases h), ?_, ?_, fun h => (by cases h)⟩
    · intro r e
      cases e
      obtain ⟨a1, a2, a3⟩ := W.scan _ p
      refine ⟨?_, (List.nodup_cons.1 a2).2, ?_⟩
      · intro d hd hn
        simp only [List.mem_append, List.mem_cons] at hd
        have hsk := I.socks
        rw [hc, List.map_append, List.map_cons, List.perm_middle.nodup_iff, List.nodup_cons, List.mem_append, not_or] at hsk
        have other : d ∈ l1 ∨ d ∈ l2 → d.query ≠ none := by
          intro hm
          refine a1 d (by rw [hc]; simp only [List.mem_append, List.mem_cons]; rcases hm with hm | hm <;> simp [hm]) ?_
          simp only [List.mem_cons, not_or]
          refine ⟨?_, hn⟩
          intro e
          rcases hm with hm | hm
          · exact hsk.1.1 (List.mem_map.2 ⟨d, hm, e⟩)
          · exact hsk.1.2 (List.mem_map.2 ⟨d, hm, e⟩)
        rcases hd with hd | rfl | hd
        · exact other (Or.inl hd)
        · simp
        · exact other (Or.inr hd)
      · intro x hx
        have := a3 x (List.mem_cons_of_mem _ hx)
        rw [hc] at this
        simpa using this
    · intro _ h1 h2 h3
      refine ⟨(W.disp (Or.inr ⟨_, p⟩) h1 h2 h3).1, Or.inr ?_⟩
      dsimp only
      rw [inProgress_append, inProgress_some]
      simp
  | refuse sock rest p h q qs hq l1 l2 u hc => exact .away (by simp) (not_disp (by simp))
  | wakeup p h => exact .away (by simp) (not_disp (by simp))
  | timeout p h => exact .away (by simp) (not_disp (by simp))
  | signal p => exact .away (by simp) (not_disp (by simp))
  | complete p l1 l2 sock q hc res hr hr' => exact .away (by simp) (not_disp (by simp))
  | progress p l1 l2 sock q u u' hc res hr hr' => exact .away (by simp) (not_disp (by simp))
  | killIdle p l1 l2 sock u hc => exact .away (by simp) (not_disp (by simp))
  | killBusy p h l1 l2 sock q u hc => exact .away (by simp) (not_disp (by simp))
  | weird p => exact .away (by simp) (not_disp (by simp))
  | end0 p => exact .away (by simp) (not_disp (by simp))
  | end1 p h => exact .away (by simp) (not_disp (by simp))
  | enter h => exact ⟨W.poll, W.scan, W.disp, W.idle⟩
  | look h hc => exact ⟨W.poll, W.scan, W.disp, W.idle⟩
  | lookNo h hc => exact ⟨W.poll, W.scan, W.disp, W.idle⟩
  | push h hh =>
    refine ⟨fun _ _ => Or.inr (Or.inr rfl), W.scan, ?_, W.idle⟩
    intro h1 h2 h3 h4
    exact ⟨(W.disp h1 h2 h3 h4).1, Or.inl (by simp)⟩
  | wake h hw => exact ⟨fun _ _ => Or.inr (Or.inl (Nat.succ_pos _)), W.scan, fun _ _ h => absurd h (Nat.succ_ne_zero _), fun _ _ h => absurd h (Nat.succ_ne_zero _)⟩
  | stop => exact ⟨W.poll, W.scan, fun _ _ _ h => absurd h (Nat.succ_ne_zero _), fun _ _ _ h => absurd h (Nat.succ_ne_zero _)⟩
  | terminate => exact ⟨W.poll, W.scan, fun _ _ _ h => absurd h (Nat.succ_ne_zero _), fun _ _ _ h => absurd h (Nat.succ_ne_zero _)⟩
  | notify h hw => exact ⟨fun _ _ => Or.inr (Or.inl (Nat.succ_pos _)), W.scan, fun _ _ h => absurd h (Nat.succ_ne_zero _), fun _ _ h => absurd h (Nat.succ_ne_zero _)⟩
  | start p => exact .away (by simp) (not_disp (by simp))

theorem QRun.wake {a b : Bool} (hconc : 0 < conc) (h : QRun conc cap (qInit a b) tr s) : SqlWake conc s :=
  QRun.rec' (P := fun _ s => SqlWake conc s) (.away (by simp [qInit]) (not_disp (by simp [qInit])))
    (fun _ _ _ _ _ I W e => W.step hconc I e) h

/-! ### Undefined behaviour comes from a refused query only -/

theorem QRun.noUb {a b : Bool} (hconc : 0 < conc) (h : QRun conc cap (qInit a b) tr s) (hr : noRefusal tr) : s.pc ≠ .ub := by
  revert hr
  refine QRun.rec' (P := fun tr s => noRefusal tr → s.pc ≠ .ub) (by intro _ h; cases h) ?_ h
  intro tr s es s' run I ih e hr
  have hr' : noRefusal tr := fun q hq => hr q (List.mem_append_left _ hq)
  have ih := ih hr'
  cases e with
  | stray sock rest p h => exact absurd ((run.wake hconc).scan _ p |>.2.2 sock List.mem_cons_self) h
  | refuse sock rest p h q qs hq l1 l2 u hc => exact absurd (List.mem_append_right _ List.mem_cons_self) (hr q)
  | _ => first | exact ih | simp

/-! ### What is kept -/

theorem noRefusal_left {a b : List QEvent} (h : noRefusal (a ++ b)) : noRefusal a := fun c hc => h c (List.mem_append_left _ hc)

theorem lateIn_append : ∀ a b : List QEvent, lateIn (a ++ b) = if QEvent.stopped ∈ a then lateIn a ++ acceptedIn b else lateIn b := by
  intro a b
  induction a with
  | nil => simp
  | cons e a ih =>
    by_cases he : e = .stopped
    · subst he
      simp [lateIn, acceptedIn_append]
    · have h1 : ∀ t, lateIn (e :: t) = lateIn t := by intro t; cases e <;> first | rfl | exact absurd rfl he
      rw [List.cons_append, h1, h1, ih]
      simp [Ne.symm he]

theorem lateIn_not {a : List QEvent} (h : QEvent.stopped ∉ a) : lateIn a = [] := by
  have := lateIn_append a []
  rw [if_neg h, List.append_nil] at this
  exact this

theorem lateIn_mono {a b : List QEvent} {q : Nat} (h : q ∈ lateIn a) : q ∈ lateIn (a ++ b) := by
  rw [lateIn_append]
  split
  · exact List.mem_append_left _ h
  · rename_i hn; rw [lateIn_not hn] at h; cases h

theorem lateIn_push {a : List QEvent} {q : Nat} (h : QEvent.stopped ∈ a) : q ∈ lateIn (a ++ [.accepted q]) := by
  rw [lateIn_append, if_pos h]
  exact List.mem_append_right _ (by simp [acceptedIn])

/-- Not at work: before the loop. -/
def Before (pc : QPC) : Prop := pc = .off ∨ pc = .begin0 ∨ pc = .begin1
/-- After the loop. -/
def After (pc : QPC) : Prop := pc = .end0 ∨ pc = .end1 ∨ pc = .done

theorem notStopped_left {a b : List QEvent} {e : QEvent} (h : e ∉ a ++ b) : e ∉ a := fun hc => h (List.mem_append_left _ hc)

theorem QRun.off {a b : Bool} (hconc : 0 < conc) (h : QRun conc cap (qInit a b) tr s) : s.pc = .off → s.next = 0 ∧ s.passed = 0 ∧ s.conns = [] := by
  refine QRun.rec' (P := fun _ s => s.pc = .off → s.next = 0 ∧ s.passed = 0 ∧ s.conns = []) (by intro _; exact ⟨rfl, rfl, rfl⟩) ?_ h
  intro tr s es s' run I ih e
  cases e <;> simp_all
  rename_i hc
  intro hp
  rw [(ih hp).2.2] at hc
  simp at hc
  omega

theorem QRun.stopped {a b : Bool} (h : QRun conc cap (qInit a b) tr s) : s.pc ≠ .off → s.stop = true → QEvent.stopped ∈ tr := by
  refine QRun.rec' (P := fun tr s => s.pc ≠ .off → s.stop = true → QEvent.stopped ∈ tr) (by intro h; exact absurd rfl h) ?_ h
  intro tr s es s' run I ih e
  cases e <;> simp_all

theorem QRun.terminated {a b : Bool} (h : QRun conc cap (qInit a b) tr s) : s.pc ≠ .off → s.term = true → QEvent.terminated ∈ tr := by
  refine QRun.rec' (P := fun tr s => s.pc ≠ .off → s.term = true → QEvent.terminated ∈ tr) (by intro h; exact absurd rfl h) ?_ h
  intro tr s es s' run I ih e
  cases e <;> simp_all

theorem QRun.after {a b : Bool} (h : QRun conc cap (qInit a b) tr s) : After s.pc → QEvent.stopped ∈ tr ∨ QEvent.terminated ∈ tr := by
  refine QRun.rec' (P := fun tr s => After s.pc → QEvent.stopped ∈ tr ∨ QEvent.terminated ∈ tr) (by intro h; simp [After, qInit] at h) ?_ h
  intro tr s es s' run I ih e
  have h1 := run.stopped
  have h2 := run.terminated
  unfold After at ih ⊢
  cases e <;> simp_all
  rename_i h
  rcases h with h | h
  · exact Or.inr (h2 h)
  · exact Or.inl (h1 h.1)

theorem QRun.before {a b : Bool} (hconc : 0 < conc) (h : QRun conc cap (qInit a b) tr s) :
    Before s.pc → QEvent.stopped ∉ tr → QEvent.terminated ∉ tr → s.next = 0 ∧ s.passed = 0 ∧ s.conns = [] := by
  refine QRun.rec' (P := fun tr s => Before s.pc → QEvent.stopped ∉ tr → QEvent.terminated ∉ tr → s.next = 0 ∧ s.passed = 0 ∧ s.conns = []) (by intro _ _ _; exact ⟨rfl, rfl, rfl⟩) ?_ h
  intro tr s es s' run I ih e
  have h1 := run.after
  have h2 := run.off hconc
  unfold After at h1
  unfold Before at ih ⊢
  cases e <;> simp_all
  · rename_i hc
    intro hb hs
    refine Classical.byContradiction fun ht => ?_
    rw [(ih hb hs ht).2.2] at hc
    simp at hc
    omega
  · rename_i hp
    intro hs ht
    rcases hp with hp | hp
    · exact h2 hp
    · rcases h1 (by simp [hp]) with h | h
      · exact absurd h hs
      · exact absurd h ht

theorem QRun.late {a b : Bool} (hconc : 0 < conc) (h : QRun conc cap (qInit a b) tr s) :
    QEvent.terminated ∉ tr → Before s.pc ∨ After s.pc → ∀ q ∈ s.queue, q ∈ lateIn tr := by
  refine QRun.rec' (P := fun tr s => QEvent.terminated ∉ tr → Before s.pc ∨ After s.pc → ∀ q ∈ s.queue, q ∈ lateIn tr) (by intro _ _ q hq; cases hq) ?_ h
  intro tr s es s' run I ih e ht hp
  have ht' := notStopped_left ht
  have h1 := run.after
  have h2 := run.off hconc
  have h3 := run.before hconc
  have h4 := run.terminated
  have hmono : (∀ q ∈ s.queue, q ∈ lateIn tr) → ∀ q ∈ s.queue, q ∈ lateIn (tr ++ es) := fun h q hq => lateIn_mono (h q hq)
  unfold Before After at *
  cases e <;> simp_all
  · have hs : QEvent.stopped ∈ tr := by
      rcases hp with hp | hp
      · exact h3 hp
      · exact h1 hp
    intro q hq
    rcases hq with hq | rfl
    · exact hmono q hq
    · exact lateIn_push hs
  · rename_i hp
    refine hmono (ih ?_)
    rcases hp with hp | hp <;> simp [hp]

theorem QRun.kept {a b : Bool} (hconc : 0 < conc) (h : QRun conc cap (qInit a b) tr s) :
    QEvent.terminated ∉ tr → noRefusal tr → ∀ q < s.next, q ∈ s.queue ∨ q ∈ sentIn tr ∨ q ∈ lateIn tr := by
  refine QRun.rec' (P := fun tr s => QEvent.terminated ∉ tr → noRefusal tr → ∀ q < s.next, q ∈ s.queue ∨ q ∈ sentIn tr ∨ q ∈ lateIn tr) (by intro _ _ q hq; cases hq) ?_ h
  intro tr s es s' run I ih e ht hr
  have ht' := notStopped_left ht
  have hr' := noRefusal_left hr
  have ih := ih ht' hr'
  have hl := run.late hconc ht'
  have base : s'.next = s.next → (∀ q ∈ s.queue, q ∈ s'.queue ∨ q ∈ sentIn (tr ++ es) ∨ q ∈ lateIn (tr ++ es)) →
      ∀ q < s'.next, q ∈ s'.queue ∨ q ∈ sentIn (tr ++ es) ∨ q ∈ lateIn (tr ++ es) := by
    intro e1 e2 q hq
    rw [e1] at hq
    rcases ih q hq with h | h | h
    · exact e2 q h
    · right; left; rw [sentIn_append]; exact List.mem_append_left _ h
    · right; right; exact lateIn_mono h
  cases e with
  | begin1 p h => exact base rfl (fun q hq => Or.inr (Or.inr (lateIn_mono (hl (Or.inl (Or.inr (Or.inr p))) q hq))))
  | end1 p h => exact base rfl (fun q hq => Or.inr (Or.inr (lateIn_mono (hl (Or.inr (Or.inr (Or.inl p))) q hq))))
  | refuse sock rest p h q qs hq l1 l2 u hc => exact absurd (List.mem_append_right _ List.mem_cons_self) (hr q)
  | send sock rest p h q qs hq l1 l2 u hc whole =>
    refine base rfl ?_
    intro x hx
    rw [hq] at hx
    rcases List.mem_cons.1 hx with rfl | hx
    · right; left; rw [sentIn_append]; exact List.mem_append_right _ (by simp [sentIn])
    · exact Or.inl hx
  | killBusy p h l1 l2 sock q u hc => exact base rfl (fun q hq => Or.inl (List.mem_cons_of_mem _ hq))
  | push h hh =>
    intro q hq
    by_cases e : q = s.next
    · left; rw [e]; simp
    · have : q < s.next := by simp only at hq; omega
      rcases ih q this with h | h | h
      · left; simp [h]
      · right; left; rw [sentIn_append]; exact List.mem_append_left _ h
      · right; right; exact lateIn_mono h
  | _ => exact base rfl (fun q hq => Or.inl hq)

theorem QRun.all {a b : Bool} (hconc : 0 < conc) (h : QRun conc cap (qInit a b) tr s) :
    QEvent.terminated ∉ tr → QEvent.stopped ∉ tr → noRefusal tr → ∀ q < s.next, q ∈ s.queue ∨ q ∈ inProgress s.conns ∨ q ∈ calledIn tr := by
  refine QRun.rec' (P := fun tr s => QEvent.terminated ∉ tr → QEvent.stopped ∉ tr → noRefusal tr → ∀ q < s.next, q ∈ s.queue ∨ q ∈ inProgress s.conns ∨ q ∈ calledIn tr) (by intro _ _ _ q hq; cases hq) ?_ h
  intro tr s es s' run I ih e ht hst hr
  have ht' := notStopped_left ht
  have hst' := notStopped_left hst
  have hr' := noRefusal_left hr
  have ih := ih ht' hst' hr'
  have h1 : ¬ After s.pc := fun h => by
    rcases run.after h with h | h
    · exact hst' h
    · exact ht' h
  have h2 : Before s.pc → s.next = 0 := fun h => (run.before hconc h hst' ht').1
  have base : s'.next = s.next → (∀ q, q ∈ s.queue ∨ q ∈ inProgress s.conns → q ∈ s'.queue ∨ q ∈ inProgress s'.conns ∨ q ∈ calledIn es) →
      ∀ q < s'.next, q ∈ s'.queue ∨ q ∈ inProgress s'.conns ∨ q ∈ calledIn (tr ++ es) := by
    intro e1 e2 q hq
    rw [e1] at hq
    rw [calledIn_append, List.mem_append]
    rcases ih q hq with h | h | h
    · rcases e2 q (Or.inl h) with h | h | h
      · exact Or.inl h
      · exact Or.inr (Or.inl h)
      · exact Or.inr (Or.inr (Or.inr h))
    · rcases e2 q (Or.inr h) with h | h | h
      · exact Or.inl h
      · exact Or.inr (Or.inl h)
      · exact Or.inr (Or.inr (Or.inr h))
    · exact Or.inr (Or.inr (Or.inl h))
  have zero : Before s.pc → s'.next = s.next → ∀ q < s'.next, q ∈ s'.queue ∨ q ∈ inProgress s'.conns ∨ q ∈ calledIn (tr ++ es) := by
    intro hb e q hq; rw [e, h2 hb] at hq; cases hq
  cases e with
  | begin0 p => exact zero (Or.inr (Or.inl p)) rfl
  | begin1 p h => exact zero (Or.inr (Or.inr p)) rfl
  | add p sock l1 l2 h hn hl =>
    refine base rfl ?_
    intro q hq
    dsimp only
    rw [inProgress_append, inProgress_none, ← inProgress_append, ← h]
    rcases hq with hq | hq
    · exact Or.inl hq
    · exact Or.inr (Or.inl hq)
  | send sock rest p h q qs hq l1 l2 u hc whole =>
    refine base rfl ?_
    intro x hx
    rw [hq, hc] at hx
    simp only [inProgress_append, inProgress_none, inProgress_some, List.mem_append, List.mem_cons] at hx ⊢
    rcases hx with (hx | hx) | hx | hx <;> simp [hx]
  | refuse sock rest p h q qs hq l1 l2 u hc => exact absurd (List.mem_append_right _ List.mem_cons_self) (hr q)
  | complete p l1 l2 sock q hc res hr hr' =>
    refine base rfl ?_
    intro x hx
    rw [hc] at hx
    simp only [inProgress_append, inProgress_none, inProgress_some, List.mem_append, List.mem_cons] at hx ⊢
    rcases hx with hx | hx | hx | hx <;> simp [hx, calledIn]
  | progress p l1 l2 sock q u u' hc res hr hr' =>
    refine base rfl ?_
    intro x hx
    rw [hc] at hx
    simp only [inProgress_append, inProgress_some, List.mem_append, List.mem_cons] at hx ⊢
    rcases hx with hx | hx | hx | hx <;> simp [hx]
  | killIdle p l1 l2 sock u hc =>
    refine base rfl ?_
    intro x hx
    rw [hc] at hx
    simp only [inProgress_append, inProgress_none, List.mem_append] at hx ⊢
    rcases hx with hx | hx | hx <;> simp [hx]
  | killBusy p h l1 l2 sock q u hc =>
    refine base rfl ?_
    intro x hx
    rw [hc] at hx
    simp only [inProgress_append, inProgress_some, List.mem_append, List.mem_cons] at hx ⊢
    rcases hx with hx | hx | hx | hx <;> simp [hx]
  | end0 p => exact absurd (Or.inl p) h1
  | end1 p h => exact absurd (Or.inr (Or.inl p)) h1
  | push h hh =>
    intro q hq
    by_cases e : q = s.next
    · left; rw [e]; simp
    · have : q < s.next := by simp only at hq; omega
      rcases ih q this with h | h | h
      · left; simp [h]
      · exact Or.inr (Or.inl h)
      · refine Or.inr (Or.inr ?_)
        rw [calledIn_append]
        exact List.mem_append_left _ h
  | _ =>
    refine base rfl ?_
    intro q hq
    rcases hq with hq | hq
    · exact Or.inl hq
    · exact Or.inr (Or.inl hq)

end Fcgi.Model
