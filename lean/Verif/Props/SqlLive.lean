import Verif.Props.SqlConn
/-! # C138: a willing database gets and answers every query -/
namespace Fcgi.Props
open Fcgi.Spec Fcgi.Model
variable {conc cap : Nat} {a b : Bool} {tr : List QEvent} {s : SqSt}

/-- The database is willing: connections can be made, they take whole queries, and the next thing that comes from a connection is the complete answer to the query it has.
In the poll, time is not spent on signals. -/
def Willingly (s : SqSt) : QFate → Prop
  | .failed | .refused => False
  | .sent whole => whole = true
  | .signal => s.pc ≠ .poll
  | .event sock inp _ _ _ consume _ results complete =>
    inp = true ∧ consume = true ∧ complete = true ∧ 0 < results ∧ ∃ c ∈ s.conns, c.sock = sock ∧ c.query ≠ none
  | _ => True

/-- A step of the thread with a willing database, or the rest of a call of `queue()`. -/
inductive WillingStep (conc cap : Nat) : SqSt → List QEvent → SqSt → Prop where
  | thread {s es s'} (f : QFate) (w : Willingly s f) (h : qstep conc f s = some (es, s')) : WillingStep conc cap s es s'
  | queue {s es s'} (h : qcall conc cap .wake s = some (es, s')) : WillingStep conc cap s es s'

inductive WillingRun (conc cap : Nat) : SqSt → List QEvent → SqSt → Prop where
  | refl (s : SqSt) : WillingRun conc cap s [] s
  | step {s tr s' es s''} (run : WillingRun conc cap s tr s') (h : WillingStep conc cap s' es s'') : WillingRun conc cap s (tr ++ es) s''

theorem WillingStep.step {es : List QEvent} {s' : SqSt} (h : WillingStep conc cap s es s') : QStep conc cap s es s' := by
  cases h with
  | thread f _ h => exact .handler f h
  | queue h => exact .call _ h

theorem WillingRun.run {es : List QEvent} {s' : SqSt} (h : WillingRun conc cap s es s') : QRun conc cap s es s' := by
  induction h with
  | refl => exact .refl _
  | step _ h ih => exact .step ih h.step

/-! ### How much there is to do -/

def phaseOf : QPC → Nat
  | .off => 6
  | .begin0 => 5
  | .begin1 => 4
  | .end0 => 2
  | .end1 => 1
  | .done | .ub | .exit => 0
  | _ => 3

def placeOf (conc : Nat) (s : SqSt) : Nat :=
  match s.pc with
  | .test => s.conns.length + 4
  | .connect => s.conns.length + 3
  | .scan rest => if s.conns.length = conc then rest.length + 1 else s.conns.length + 6 + rest.length
  | .poll => if s.conns.length = conc then 0 else s.conns.length + 5
  | _ => 0

def work (conc : Nat) (s : SqSt) : Nat × Nat × Nat × Nat × Nat × Nat × Nat :=
  (phaseOf s.pc, s.queue.length + (inProgress s.conns).length, s.queue.length, s.held.toNat, s.wake, conc - s.conns.length, placeOf conc s)

abbrev lexLt : WellFoundedRelation (Nat × Nat × Nat × Nat × Nat × Nat × Nat) := inferInstance

theorem lex_of {a a' b b' c c' d d' e e' f f' g g' : Nat}
    (h : a < a' ∨ a = a' ∧ (b < b' ∨ b = b' ∧ (c < c' ∨ c = c' ∧ (d < d' ∨ d = d' ∧ (e < e' ∨ e = e' ∧ (f < f' ∨ f = f' ∧ g < g')))))) :
    lexLt.rel (a, b, c, d, e, f, g) (a', b', c', d', e', f', g') := by
  rcases h with h | ⟨rfl, h⟩
  · exact .left _ _ h
  refine .right _ ?_
  rcases h with h | ⟨rfl, h⟩
  · exact .left _ _ h
  refine .right _ ?_
  rcases h with h | ⟨rfl, h⟩
  · exact .left _ _ h
  refine .right _ ?_
  rcases h with h | ⟨rfl, h⟩
  · exact .left _ _ h
  refine .right _ ?_
  rcases h with h | ⟨rfl, h⟩
  · exact .left _ _ h
  refine .right _ ?_
  rcases h with h | ⟨rfl, h⟩
  · exact .left _ _ h
  exact .right _ h

theorem sqlRoom (h : QRun conc cap (qInit a b) tr s) : s.conns.length ≤ conc := by
  refine QRun.rec' (P := fun _ s => s.conns.length ≤ conc) (by simp [qInit]) ?_ h
  intro tr s es s' run I ih e
  cases e <;> simp_all <;> omega

/-- Every step leaves less to do. -/
theorem work_less {es : List QEvent} {s' : SqSt} (h : QRun conc cap (qInit a b) tr s) (st : WillingStep conc cap s es s') : lexLt.rel (work conc s') (work conc s) := by
  have hroom := sqlRoom h
  have hn := h.inv.socks
  cases st with
  | queue h =>
    simp only [qcall] at h
    split at h
    · rename_i hh
      cases h
      exact lex_of (by simp [hh.1])
    · cases h
  | thread f w h =>
    unfold qstep at h
    split at h
    · cases h
    · cases h
    · cases h
    · cases h
    · rename_i p; cases h; exact lex_of (by simp [p, phaseOf])
    · rename_i p
      split at h
      · cases h
      · cases h; exact lex_of (by simp [p, phaseOf])
    · rename_i p
      cases h
      refine lex_of ?_
      split
      · simp [p, phaseOf, placeOf]
      · simp [p, phaseOf]
    · rename_i p
      split at h
      · rename_i hl
        cases h
        exact lex_of (by simp [p, phaseOf, placeOf, hl])
      · rename_i hl
        split at h
        · rename_i sock
          split at h
          · cases h
          · cases h
            obtain ⟨l1, l2, e1, e2⟩ := addConn_split ⟨sock, none, false⟩ s.conns
            refine lex_of ?_
            dsimp only
            rw [e2, e1]
            rw [e1] at hl hroom
            simp [p, phaseOf, inProgress_append, inProgress_none] at hl hroom ⊢
            omega
        · exact absurd w (by simp [Willingly])
        · cases h
    · rename_i p
      cases h
      refine lex_of ?_
      simp only [p, phaseOf, placeOf]
      split <;> simp
    · rename_i sock rest p
      split at h
      · cases h; exact lex_of (by simp [p, phaseOf])
      · rename_i c hf
        split at h
        · cases h
          refine lex_of ?_
          simp only [p, phaseOf, placeOf]
          split <;> simp
        · split at h
          · cases h
          · split at h
            · cases h
              refine lex_of ?_
              simp only [p, phaseOf, placeOf]
              split <;> simp
              omega
            · rename_i hc hh q qs hq
              split at h
              · cases h
                obtain ⟨l1, l2, e1, e2⟩ := findConn_split hf
                obtain ⟨k, cq, u⟩ := c
                dsimp only at e2
                subst e2
                cases cq with
                | some x => simp_all
                | none =>
                  refine lex_of ?_
                  dsimp only
                  rw [e1] at hn ⊢
                  rw [setConn_split (c := ⟨k, none, u⟩) hn]
                  simp [p, hq, phaseOf, inProgress_append, inProgress_none, inProgress_some]
                  omega
              · exact absurd w (by simp [Willingly])
              · cases h
    · rename_i p
      split at h
      · split at h
        · cases h
          refine lex_of ?_
          dsimp only
          exact Or.inr ⟨by rw [p]; rfl, Or.inr ⟨rfl, Or.inr ⟨rfl, Or.inr ⟨rfl, Or.inl (by omega)⟩⟩⟩⟩
        · cases h
      · split at h
        · cases h
        · rename_i hl
          cases h
          refine lex_of ?_
          simp [p, phaseOf, placeOf, hl]
      · exact absurd p w
      · obtain ⟨rfl, rfl, rfl, hr, c, hm, hs, hq⟩ := w
        split at h
        · cases h
        · rename_i d hf
          rw [if_pos rfl] at h
          obtain ⟨l1, l2, e1, e2⟩ := findConn_split hf
          obtain ⟨k, cq, u⟩ := d
          split at h
          · rename_i q hq'
            dsimp only at hq' e2
            subst e2 hq'
            simp only [SqSt.input, if_true] at h
            split at h
            · cases h
            · cases h
              refine lex_of ?_
              dsimp only
              rw [e1] at hn ⊢
              rw [setConn_split (c := ⟨k, some q, u⟩) hn]
              simp [p, phaseOf, inProgress_append, inProgress_none, inProgress_some]
          · rename_i hq'
            dsimp only at hq' e2
            subst e2 hq'
            refine absurd ?_ hq
            have := nodup_map_inj hn hm (b := ⟨k, none, u⟩) (by rw [e1]; simp) (by simpa using hs)
            rw [this]
      · cases h
    · rename_i p; cases h; exact lex_of (by simp [p, phaseOf])
    · rename_i p
      split at h
      · cases h
      · cases h; exact lex_of (by simp [p, phaseOf])

/-- C138: with a willing database the thread does not go round for ever: it comes to rest. -/
theorem C138_ends (h : QRun conc cap (qInit a b) tr s) :
    ¬ ∃ f : Nat → SqSt, f 0 = s ∧ ∀ n, ∃ es, WillingStep conc cap (f n) es (f (n + 1)) := by
  rintro ⟨f, h0, hs⟩
  have reach : ∀ n, ∃ t, QRun conc cap (qInit a b) t (f n) := by
    intro n
    induction n with
    | zero => exact ⟨tr, h0 ▸ h⟩
    | succ n ih =>
      obtain ⟨t, ht⟩ := ih
      obtain ⟨es, he⟩ := hs n
      exact ⟨t ++ es, .step ht he.step⟩
  have none : ∀ w, ∀ n, work conc (f n) = w → False := by
    intro w
    induction w using lexLt.wf.induction with
    | _ w ih =>
      intro n e
      obtain ⟨t, ht⟩ := reach n
      obtain ⟨es, he⟩ := hs n
      exact ih _ (e ▸ work_less ht he) (n + 1) rfl
  exact none _ 0 rfl

/-- What a willing step leaves as it was. -/
structure SqlCalm (cap : Nat) (s : SqSt) : Prop where
  on : s.pc ≠ .off
  noExit : s.pc ≠ .exit
  unsent : ∀ c ∈ s.conns, c.unsent = false
  room : s.held = false ∨ s.wake < cap

theorem SqlCalm.step {es : List QEvent} {s' : SqSt} (I : SqlInv tr s) (C : SqlCalm cap s) (st : WillingStep conc cap s es s') :
    SqlCalm cap s' ∧ QEvent.stopped ∉ es ∧ QEvent.terminated ∉ es ∧ noRefusal es ∧ acceptedIn es = [] := by
  have hn := I.socks
  obtain ⟨c1, c2, c3, c4⟩ := C
  cases st with
  | queue h =>
    simp only [qcall] at h
    split at h
    · cases h
      exact ⟨⟨c1, c2, c3, .inl rfl⟩, by simp, by simp, by simp [noRefusal], rfl⟩
    · cases h
  | thread f w h =>
    have quiet : ∀ s', SqlCalm cap s' → SqlCalm cap s' ∧ QEvent.stopped ∉ ([] : List QEvent) ∧ QEvent.terminated ∉ ([] : List QEvent) ∧ noRefusal [] ∧ acceptedIn [] = [] :=
      fun _ h => ⟨h, by simp, by simp, by simp [noRefusal], rfl⟩
    unfold qstep at h
    split at h
    · cases h
    · cases h
    · cases h
    · cases h
    · cases h; exact quiet _ ⟨by simp, by simp, by simp, c4⟩
    · split at h
      · cases h
      · cases h; exact quiet _ ⟨by simp, by simp, c3, c4⟩
    · cases h
      refine quiet _ ⟨?_, ?_, c3, c4⟩ <;> dsimp only <;> split <;> simp
    · split at h
      · cases h; exact quiet _ ⟨by simp, by simp, c3, c4⟩
      · split at h
        · rename_i sock
          split at h
          · cases h
          · cases h
            obtain ⟨l1, l2, e1, e2⟩ := addConn_split ⟨sock, none, false⟩ s.conns
            refine quiet _ ⟨c1, c2, ?_, c4⟩
            dsimp only
            rw [e2]
            rw [e1] at c3
            simp only [List.mem_append, List.mem_cons] at c3 ⊢
            rintro c (hc | rfl | hc)
            · exact c3 _ (.inl hc)
            · rfl
            · exact c3 _ (.inr hc)
        · exact absurd w (by simp [Willingly])
        · cases h
    · cases h; exact quiet _ ⟨by simp, by simp, c3, c4⟩
    · rename_i sock rest p
      split at h
      · cases h; exact quiet _ ⟨by simp, by simp, c3, c4⟩
      · split at h
        · cases h; exact quiet _ ⟨by simp, by simp, c3, c4⟩
        · split at h
          · cases h
          · split at h
            · cases h; exact quiet _ ⟨by simp, by simp, c3, c4⟩
            · split at h
              · cases h
                have ww : _ = true := w
                refine ⟨⟨by simp, by simp, ?_, c4⟩, by simp, by simp, by simp [noRefusal], rfl⟩
                intro c hc
                simp only [setConn, List.mem_map] at hc
                obtain ⟨d, hd, rfl⟩ := hc
                split
                · simp [ww]
                · exact c3 d hd
              · exact absurd w (by simp [Willingly])
              · cases h
    · rename_i p
      split at h
      · split at h
        · cases h
          refine quiet _ ⟨by simp, by simp, c3, c4.imp (fun x => x) (fun x => ?_)⟩
          dsimp only
          omega
        · cases h
      · split at h
        · cases h
        · cases h; exact quiet _ ⟨by simp, by simp, c3, c4⟩
      · exact absurd p w
      · obtain ⟨rfl, rfl, rfl, hr, c, hm, hs, hq⟩ := w
        split at h
        · cases h
        · rename_i d hf
          rw [if_pos rfl] at h
          split at h
          · simp only [SqSt.input, if_true] at h
            split at h
            · cases h
            · cases h
              refine ⟨⟨by simp, by simp, ?_, c4⟩, by simp, by simp, by simp [noRefusal], rfl⟩
              intro c hc
              simp only [setConn, List.mem_map] at hc
              obtain ⟨d, hd, rfl⟩ := hc
              split
              · exact c3 d hd
              · exact c3 d hd
          · rename_i hq'
            obtain ⟨l1, l2, e1, e2⟩ := findConn_split hf
            refine absurd ?_ hq
            rw [nodup_map_inj hn hm (b := d) (by rw [e1]; simp) (hs.trans e2.symm)]
            exact hq'
      · cases h
    · cases h; exact quiet _ ⟨by simp, by simp, by simp, c4⟩
    · split at h
      · cases h
      · cases h; exact ⟨⟨by simp, by simp, c3, c4⟩, by simp, by simp, by simp [noRefusal], rfl⟩

/-- There is always a socket not in use. -/
theorem freshSock (l : List Nat) : ∃ n, n ∉ l := by
  refine ⟨l.sum + 1, fun h => ?_⟩
  have : ∀ (l : List Nat) (x : Nat), x ∈ l → x ≤ l.sum := by
    intro l
    induction l with
    | nil => simp
    | cons y l ih =>
      intro x hx
      rcases List.mem_cons.1 hx with rfl | hx
      · simp
      · have := ih x hx; simp; omega
  have := this l _ h
  omega

/-- The thread rests only in the poll, with all connections made, nothing in the wake-up socket and no query in progress. -/
theorem rest_where (hc : 0 < conc) (h : QRun conc cap (qInit a b) tr s) (C : SqlCalm cap s) (h1 : QEvent.stopped ∉ tr) (h2 : QEvent.terminated ∉ tr) (h3 : noRefusal tr)
    (stuck : ∀ es s', ¬ WillingStep conc cap s es s') :
    s.held = false ∧ s.pc = .poll ∧ s.wake = 0 ∧ s.conns.length = conc ∧ s.busy = [] := by
  have hh : s.held = false := by
    cases hh : s.held with
    | false => rfl
    | true =>
      refine absurd (.queue (es := []) (s' := { s with held := false, wake := s.wake + 1 }) ?_) (stuck _ _)
      rcases C.room with x | x
      · rw [hh] at x; cases x
      · simp [qcall, hh, x]
  have halt : ∀ f, Willingly s f → ∀ x, qstep conc f s = some x → False := fun f w x e => stuck x.1 x.2 (.thread f w e)
  have hub := C79_ub_partial hc h h3
  have hafter := h.after
  refine ⟨hh, ?_⟩
  have hp : s.pc = .poll := by
    rcases hp : s.pc with _ | _ | _ | _ | _ | rest | _ | _ | _ | _ | _ | _
    · exact absurd hp C.on
    · exact (halt .wakeup trivial _ (by simp only [qstep, hp]; rfl)).elim
    · exact (halt .wakeup trivial _ (by simp only [qstep, hp, hh, Bool.false_eq_true, if_false]; rfl)).elim
    · exact (halt .wakeup trivial _ (by simp only [qstep, hp]; rfl)).elim
    · by_cases hl : s.conns.length = conc
      · exact (halt .wakeup trivial _ (by simp only [qstep, hp, if_pos hl]; rfl)).elim
      · obtain ⟨n, hnn⟩ := freshSock (s.conns.map QConn.sock)
        exact (halt (.connected n) trivial _ (by simp only [qstep, hp, if_neg hl, if_neg hnn]; rfl)).elim
    · exfalso
      cases rest with
      | nil => exact halt .wakeup trivial _ (by simp only [qstep, hp]; rfl)
      | cons sock rest =>
        have : ∃ es s', qstep conc (.sent true) s = some (es, s') := by
          simp only [qstep, hp, hh]
          split
          · exact ⟨_, _, rfl⟩
          · split
            · exact ⟨_, _, rfl⟩
            · simp only [Bool.false_eq_true, if_false]
              split
              · exact ⟨_, _, rfl⟩
              · exact ⟨_, _, rfl⟩
        obtain ⟨es, s', e⟩ := this
        exact stuck _ _ (.thread (.sent true) rfl e)
    · rfl
    · rcases hafter (.inl hp) with x | x
      · exact absurd x h1
      · exact absurd x h2
    · rcases hafter (.inr (.inl hp)) with x | x
      · exact absurd x h1
      · exact absurd x h2
    · rcases hafter (.inr (.inr hp)) with x | x
      · exact absurd x h1
      · exact absurd x h2
    · exact absurd hp hub
    · exact absurd hp C.noExit
  refine ⟨hp, ?_, ?_, ?_⟩
  · cases hw : s.wake with
    | zero => rfl
    | succ n =>
      have hw' : s.wake > 0 := by omega
      exact (halt .wakeup trivial _ (by simp only [qstep, hp, if_pos hw']; rfl)).elim
  · cases Classical.em (s.conns.length = conc) with
    | inl x => exact x
    | inr hl => exact (halt .timeout trivial _ (by simp only [qstep, hp, if_neg hl]; rfl)).elim
  · cases hb : s.busy with
    | nil => rfl
    | cons q qs =>
      exfalso
      have hm : q ∈ s.busy := by rw [hb]; simp
      obtain ⟨c, hcm, hq⟩ := List.mem_filterMap.1 hm
      have hf : findConn c.sock s.conns = some c := by
        cases hf : findConn c.sock s.conns with
        | none =>
          have := List.find?_eq_none.1 hf c hcm
          simp at this
        | some d =>
          obtain ⟨l1, l2, e1, e2⟩ := findConn_split hf
          rw [nodup_map_inj h.inv.socks hcm (b := d) (by rw [e1]; simp) e2.symm]
      have : ∃ x, qstep conc (.event c.sock true false false false true true 1 true) s = some x := by
        simp [qstep, hp, hf, hq, SqSt.input, C.unsent c hcm]
      obtain ⟨x, e⟩ := this
      exact halt (.event c.sock true false false false true true 1 true) ⟨rfl, rfl, rfl, by omega, c, hcm, rfl, by rw [hq]; simp⟩ x e

/-- C138: and when it has come to rest, the callback of every query ever accepted has been called. -/
theorem C138_called {t : List QEvent} {s' : SqSt} (hc : 0 < conc) (h : QRun conc cap (qInit a b) tr s) (on : s.pc ≠ .off ∧ s.pc ≠ .exit)
    (h1 : QEvent.stopped ∉ tr) (h2 : QEvent.terminated ∉ tr) (h3 : noRefusal tr)
    (whole : ∀ c ∈ s.conns, c.unsent = false) (room : s.held = false ∨ s.wake < cap)
    (h' : WillingRun conc cap s t s') (rest : ∀ es s'', ¬ WillingStep conc cap s' es s'') :
    ∀ q ∈ acceptedIn tr, q ∈ calledIn (tr ++ t) := by
  have hr := QRun_trans h h'.run
  have key : SqlCalm cap s' ∧ QEvent.stopped ∉ tr ++ t ∧ QEvent.terminated ∉ tr ++ t ∧ noRefusal (tr ++ t) := by
    clear rest hr
    induction h' with
    | refl => simpa using ⟨⟨on.1, on.2, whole, room⟩, h1, h2, h3⟩
    | @step t s1 es s2 run st ih =>
      obtain ⟨C, k1, k2, k3⟩ := ih
      obtain ⟨C', j1, j2, j3, _⟩ := C.step (QRun_trans h run.run).inv st
      rw [← List.append_assoc]
      refine ⟨C', ?_, ?_, ?_⟩
      · rw [List.mem_append]; exact fun x => x.elim k1 j1
      · rw [List.mem_append]; exact fun x => x.elim k2 j2
      · intro q hq
        rcases List.mem_append.1 hq with x | x
        · exact k3 q x
        · exact j3 q x
  obtain ⟨C, k1, k2, k3⟩ := key
  obtain ⟨hh, hp, hw, hl, hb⟩ := rest_where hc hr C k1 k2 k3 rest
  intro q hq
  have hq' : q ∈ acceptedIn (tr ++ t) := by rw [acceptedIn_append]; exact List.mem_append_left _ hq
  rcases C53_kept_partial hc hr k1 k2 k3 q hq' with x | x | x
  · exfalso
    have hne : s'.queue ≠ [] := fun e => by rw [e] at x; cases x
    have := C77_noIdle hc hr hp hw hh hne
    cases hcs : s'.conns with
    | nil => rw [hcs] at hl; simp at hl; omega
    | cons c cs =>
      have hcm : c ∈ s'.conns := by rw [hcs]; simp
      exact inProgress_ne hcm (this c hcm) hb
  · rw [hb] at x; cases x
  · exact x

/-- Three queries, one connection, a call of `queue()` in the middle: the case is met. -/
example : ∃ tr s, QRun 1 9 (qInit false false) tr s ∧ decide (s.pc ≠ .off ∧ s.pc ≠ .exit ∧ QEvent.stopped ∉ tr ∧ QEvent.terminated ∉ tr ∧
    acceptedIn tr = [0, 1, 2] ∧ calledIn tr = [] ∧ (∀ c ∈ s.conns, c.unsent = false) ∧ s.held = true ∧ s.wake < 9 ∧ s.busy = [0] ∧ s.queue = [1, 2]) = true :=
  found (up [5] ++ ask ++ [.inl (.sent true), .inl .signal] ++ ask ++ ask.take 3) (by decide +kernel)

end Fcgi.Props
