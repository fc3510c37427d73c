import Verif.Lemmas.ManagerSafe
import Verif.Lemmas.RequestPairs
import Verif.Model.ManagerRequest
/-! # The manager with the requests of `Model/Request.lean`, and runs given by a list of choices -/
namespace Fcgi.Model
open Fcgi.Spec
variable {σ : Type}

/-- request.cpp 57-162 `Request::handler` on its own, message by message, for any way of handling a message: what is left of the messages
and whether the request is complete. -/
def handleAll {Q} (act : Q → Message → Res (Q × Bool)) : Q → List Message → Res (Q × List Message × Bool)
  | r, [] => .ok (r, [], false)
  | r, m :: ms => do
    let x ← act r m
    if x.2 then return (x.1, ms, true) else handleAll act x.1 ms

theorem handler_all {U} (h : Handlers U) (g) : ∀ (ms : List Message) (r : Req U), handler h g r ms = handleAll (handleMsg h g) r ms
  | [], _ => rfl
  | m :: ms, r => by
    simp only [handler, handleAll]
    congr 1
    funext x
    rw [handler_all h g ms]

theorem handleAll_append {Q} (act : Q → Message → Res (Q × Bool)) : ∀ (ms ms' : List Message) (r : Q),
    handleAll act r (ms ++ ms') = (handleAll act r ms >>= fun x =>
      if x.2.2 then .ok (x.1, x.2.1 ++ ms', true) else handleAll act x.1 ms') := by
  intro ms ms'
  induction ms with
  | nil => intro r; simp [handleAll]
  | cons m ms ih =>
    intro r
    simp only [List.cons_append, handleAll]
    cases act r m with
    | ok x =>
      simp only [Res.ok_bind]
      cases hx : x.2 with
      | true => simp
      | false => simp [ih]
    | ub k => rfl
    | stuck => rfl

theorem handleAll_snoc {Q} (act : Q → Message → Res (Q × Bool)) (r r' : Q) (ms : List Message) (m : Message)
    (e : handleAll act r ms = .ok (r', [], false)) :
    handleAll act r (ms ++ [m]) = (act r' m >>= fun x => .ok (x.1, [], x.2)) := by
  rw [handleAll_append, e]
  simp only [Res.ok_bind, Bool.false_eq_true, if_false, handleAll]
  cases act r' m with
  | ok x => cases hx : x.2 <;> simp [hx]
  | ub k => rfl
  | stuck => rfl

/-! ### The observer's words -/

theorem watch_snoc (r : Nat) (tr : List MEvent) (e : MEvent) : watch r (tr ++ [e]) = (watch r tr).see r e := by
  simp [watch]

theorem watch_wrong_prefix {r : Nat} {tr : List MEvent} {e : MEvent} (h : watch r (tr ++ [e]) ≠ .wrong) : watch r tr ≠ .wrong := by
  intro hw
  apply h
  rw [watch_snoc, hw]
  cases e <;> simp [Watch.see]

/-- What has begun has ended, except for what is going on. -/
theorem begun_ended (r : Nat) (tr : List MEvent) (h : watch r tr ≠ .wrong) :
    begunBy r tr = endedBy r tr ++ (match watch r tr with | .busy _ m => [m] | _ => []) := by
  induction tr using list_snoc_ind with
  | h0 => rfl
  | h1 tr e ih =>
    have ih := ih (watch_wrong_prefix h)
    rw [watch_snoc] at h ⊢
    rw [begunBy_append, endedBy_append, ih]
    revert h
    generalize watch r tr = w
    cases e with
    | began r' t m =>
      by_cases hr : r' = r
      · cases w <;> simp [Watch.see, begunBy, endedBy, hr]
      · simp [Watch.see, begunBy, endedBy, hr]
    | ended r' t m c =>
      by_cases hr : r' = r
      · cases w with
        | busy t' m' =>
          simp only [Watch.see, hr, if_true, begunBy, endedBy]
          split
          · rename_i hh; cases hh; cases c <;> simp
          · simp
        | _ => simp [Watch.see, hr]
      · simp [Watch.see, begunBy, endedBy, hr]
    | removed r' =>
      by_cases hr : r' = r
      · cases w <;> simp [Watch.see, begunBy, endedBy, hr]
      · simp [Watch.see, begunBy, endedBy, hr]
    | _ => simp [Watch.see, begunBy, endedBy]

/-- Once it is over it is over. -/
theorem watch_over {r : Nat} {tr : List MEvent} {t m} (h : .ended r t m true ∈ tr) : watch r tr = .over ∨ watch r tr = .wrong := by
  induction tr using list_snoc_ind with
  | h0 => simp at h
  | h1 tr e ih =>
    rw [watch_snoc]
    rcases List.mem_append.1 h with h | h
    · rcases ih h with hh | hh <;> rw [hh] <;> cases e <;> simp only [Watch.see] <;> repeat' split
      all_goals simp_all
    · rw [List.mem_singleton] at h
      subst h
      simp only [Watch.see, if_true]
      split <;> simp

/-- The state of every request is that of `Request::handler` on its own applied to the messages handled. -/
theorem request_alone {Q : Type} {threads : Nat} {fresh : Nat → UInt16 → UInt16 → Bool → Q} {act : Q → Message → Res (Q × Bool)} {tr s x}
    (hr : MRun (kindProg threads fresh act) (mInit x) tr s) :
    ∀ r k m0, .created r k m0 ∈ tr → ∀ q, (s.objs r).state = some q →
      ∃ q0, (kindProg threads fresh act).make k m0.data = some q0 ∧
        ∃ fin, handleAll act q0 (endedBy r tr) = .ok (q, [], fin) ∧ (fin = true ↔ ∃ t m, .ended r t m true ∈ tr) := by
  induction hr with
  | refl => intro r k m0 hm; cases hm
  | step hr hs ih =>
    rename_i tr s' es s''
    obtain ⟨I, S, K, Q⟩ := run_kq hr
    have A := run_ainv hr
    have R := run_rinv hr
    have T := run_tinv hr
    have hE := step_effect I S hs
    clear hs
    have quiet : ∀ e, (∀ r t m c, e ≠ .ended r t m c) → (∀ r k m, e ≠ .created r k m) →
        (∀ r, (s''.objs r).state = (s'.objs r).state) →
        ∀ r k m0, .created r k m0 ∈ tr ++ [e] → ∀ q, (s''.objs r).state = some q →
          ∃ q0, (kindProg threads fresh act).make k m0.data = some q0 ∧
            ∃ fin, handleAll act q0 (endedBy r (tr ++ [e])) = .ok (q, [], fin) ∧ (fin = true ↔ ∃ t m, .ended r t m true ∈ tr ++ [e]) := by
      intro e h1 h2 h3 r k m0 hm q hq
      have hm' : .created r k m0 ∈ tr := by
        rcases List.mem_append.1 hm with hm | hm
        · exact hm
        · rw [List.mem_singleton] at hm; exact absurd hm.symm (h2 _ _ _)
      rw [h3] at hq
      obtain ⟨q0, e1, fin, e2, e3⟩ := ih r k m0 hm' q hq
      refine ⟨q0, e1, fin, ?_, ?_⟩
      · have : endedBy r [e] = [] := by
          cases e with
          | ended r t m c => exact absurd rfl (h1 r t m c)
          | _ => simp [endedBy]
        rw [endedBy_append, this, List.append_nil]; exact e2
      · rw [e3]
        constructor
        · rintro ⟨t, m, hh⟩; exact ⟨t, m, by simp [hh]⟩
        · rintro ⟨t, m, hh⟩
          rcases List.mem_append.1 hh with hh | hh
          · exact ⟨t, m, hh⟩
          · rw [List.mem_singleton] at hh; exact absurd hh.symm (h1 _ _ _ _)
    cases hE with
    | none h => rw [List.append_nil]; intro r k m0 hm q hq; rw [h.state] at hq; exact ih r k m0 hm q hq
    | quiet e he h =>
      refine quiet e ?_ ?_ h.state
      · intro r t m c hh; subst hh; simp [Spec.MEvent.quiet] at he
      · intro r t m hh; subst hh; simp [Spec.MEvent.quiet] at he
    | dropped k m hl hb h => exact quiet _ (by simp) (by simp) h.state
    | accepted k m r hl ht hn hq hs => exact quiet _ (by simp) (by simp) hs
    | began k r t m hpc ht hn hq hq' hs => exact quiet _ (by simp) (by simp) hs
    | removed k r hm ht hn hq hs => exact quiet _ (by simp) (by simp) hs
    | created k m hl hb ht hn hq hs =>
      intro r k' m0 hm q hq'
      have h6 : endedBy r (tr ++ [.created s'.next k m]) = endedBy r tr := by
        rw [endedBy_append]; simp [endedBy]
      rw [hs] at hq'
      rw [h6]
      rcases List.mem_append.1 hm with hm | hm
      · have := R.nw _ _ _ hm
        rw [if_neg (by omega)] at hq'
        obtain ⟨q0, e1, fin, e2, e3⟩ := ih r k' m0 hm q hq'
        refine ⟨q0, e1, fin, e2, ?_⟩
        rw [e3]
        simp
      · rw [List.mem_singleton] at hm
        injection hm with e1 e2 e3
        subst e1 e2 e3
        rw [if_pos rfl] at hq'
        refine ⟨q, hq', false, ?_, ?_⟩
        · rw [A.en _ (Nat.le_refl _)]; rfl
        · simp only [Bool.false_eq_true, false_iff]
          rintro ⟨t, m', hh⟩
          have hh : .ended s'.next t m' true ∈ tr := by simpa using hh
          have : m' ∈ endedBy s'.next tr := by
            simp only [endedBy, List.mem_filterMap]; exact ⟨_, hh, by simp⟩
          rw [A.en _ (Nat.le_refl _)] at this
          cases this
    | ended k r t m hpc ht hn hq hs =>
      intro x k' m0 hm q hq'
      have hc : .created x k' m0 ∈ tr := by simpa using hm
      rw [hs] at hq'
      by_cases hx : x = r
      · subst hx
        rw [if_pos rfl] at hq'
        cases hst : (s'.objs x).state with
        | none => rw [hst] at hq'; cases hq'
        | some q1 =>
          obtain ⟨q0, e1, fin, e2, e3⟩ := ih x k' m0 hc q1 hst
          have hfin : fin = false := by
            cases hf : fin with
            | false => rfl
            | true =>
              obtain ⟨t', m', hh⟩ := e3.1 hf
              have hb := T.wk t x m (by rw [hpc]; rfl)
              rcases watch_over hh with h' | h' <;> (rw [hb] at h'; cases h')
          subst hfin
          have h7 : endedBy x (tr ++ [.ended x t m ((kindProg threads fresh act).handle (s'.objs x).state m).2]) = endedBy x tr ++ [m] := by
            rw [endedBy_append]; simp [endedBy]
          refine ⟨q0, e1, ?_⟩
          rw [hst] at hq' h7
          rw [h7, handleAll_snoc act _ _ _ _ e2]
          simp only [kindProg] at hq' ⊢
          cases hh : act q1 m with
          | ok y =>
            rw [hh] at hq'
            simp only [Option.some.injEq] at hq'
            refine ⟨y.2, by simp only [Res.ok_bind, hq'], fun hy => ⟨t, m, by simp [hst, hh, hy]⟩, ?_⟩
            rintro ⟨t', m', hx⟩
            rcases List.mem_append.1 hx with hx | hx
            · exact absurd (e3.2 ⟨t', m', hx⟩) (by simp)
            · simp only [hst, hh, List.mem_singleton, MEvent.ended.injEq] at hx
              exact hx.2.2.2.symm
          | _ => rw [hh] at hq'; cases hq'
      · rw [if_neg hx] at hq'
        obtain ⟨q0, e1, fin, e2, e3⟩ := ih x k' m0 hc q hq'
        refine ⟨q0, e1, fin, ?_, ?_⟩
        · rw [endedBy_append]; simpa [endedBy, Ne.symm hx] using e2
        · rw [e3]
          simp [hx]

/-! ### Runs given by a list of choices -/

inductive Choice where
  | h (t : Nat)
  | p (p w : Nat)
  | e (o : Outer)

def choose (P : Prog σ) (s : MSt σ) : Choice → Option (List MEvent × MSt σ)
  | .h t => hstep P t s
  | .p p w => pstep P p w s
  | .e o => estep P o s

def play (P : Prog σ) : MSt σ → List Choice → Option (List MEvent × MSt σ)
  | s, [] => some ([], s)
  | s, c :: cs =>
    match choose P s c with
    | none => none
    | some (es, s') =>
      match play P s' cs with
      | none => none
      | some (tr, s'') => some (es ++ tr, s'')

theorem MRun.trans {P : Prog σ} {a tr b tr' c} (h : MRun P a tr b) (h' : MRun P b tr' c) : MRun P a (tr ++ tr') c := by
  induction h' with
  | refl => simpa using h
  | step _ hs ih => rw [← List.append_assoc]; exact .step ih hs

theorem play_run {P : Prog σ} {cs : List Choice} : ∀ {s tr s'}, play P s cs = some (tr, s') → MRun P s tr s' := by
  induction cs with
  | nil => intro s tr s' h; cases h; exact .refl _
  | cons c cs ih =>
    intro s tr s' h
    unfold play at h
    split at h
    · cases h
    · rename_i es s1 hc
      split at h
      · cases h
      · rename_i tr' s2 hp
        cases h
        have st : MStep P s es s1 := by
          cases c with
          | h t => exact .handler t hc
          | p p w => exact .pusher p w hc
          | e o => exact .env o hc
        have := MRun.trans (.step (.refl s) st) (ih hp)
        simpa using this

theorem still_of_rest {P : Prog σ} {s : MSt σ} (ht : ∀ t, (s.th t).resting = true) (hp : ∀ p, s.pu p = .idle) : Still P s := by
  constructor
  · intro t
    have := ht t
    unfold hstep
    cases h : s.th t <;> rw [h] at this <;> simp_all [rest_all]
  · intro p w
    unfold pstep
    rw [hp p]

/-- The choice moves a call with another number than 0. -/
def Choice.elsewhere : Choice → Bool
  | Choice.p n _ => n != 0
  | Choice.e (.push n _ _) => n != 0
  | _ => false

theorem play_pu {P : Prog σ} {cs : List Choice} : ∀ {s tr s'}, play P s cs = some (tr, s') → cs.any Choice.elsewhere = false →
    ∀ q, q ≠ 0 → s'.pu q = s.pu q := by
  induction cs with
  | nil => intro s tr s' h _ q _; cases h; rfl
  | cons c cs ih =>
    intro s tr s' h he q hq
    simp only [List.any_cons, Bool.or_eq_false_iff] at he
    unfold play at h
    split at h
    · cases h
    · rename_i es s1 hc
      split at h
      · cases h
      · rename_i tr' s2 hp
        cases h
        rw [ih hp he.2 q hq]
        cases c with
        | h t => rw [(hstep_table P t _ _ _ hc).1]
        | p p w =>
          obtain ⟨pc, h1, _⟩ := pstep_sweep P p w _ _ _ hc
          have : p = 0 := by simpa [Choice.elsewhere] using he.1
          rw [h1, put_other _ _ _ (by omega)]
        | e o =>
          cases o with
          | push p k m =>
            have : p = 0 := by simpa [Choice.elsewhere] using he.1
            simp only [choose, estep] at hc
            split at hc
            · cases hc; simp only [MSt.pgoto]; rw [put_other _ _ _ (by omega)]
            · cases hc
          | _ =>
            simp only [choose, estep] at hc
            repeat' split at hc
            all_goals first
              | (cases hc; done)
              | (cases hc; rfl)

/-- A run by choices that moves only call 0, and what is found at its end. -/
theorem play_any {P : Prog σ} {cs : List Choice} {x : σ} {f : List MEvent × MSt σ → Bool} (h : (play P (mInit x) cs).any f = true) :
    ∃ tr s', MRun P (mInit x) tr s' ∧ f (tr, s') = true ∧
      (cs.any Choice.elsewhere = false → s'.pu 0 = .idle → (∀ t, t < P.threads → (s'.th t).resting = true) → Still P s') := by
  cases hp : play P (mInit x) cs with
  | none => rw [hp] at h; cases h
  | some y =>
    rw [hp] at h
    refine ⟨y.1, y.2, play_run hp, h, fun h1 h2 h3 => still_of_rest (fun t => ?_) (fun q => ?_)⟩
    · by_cases ht : t < P.threads
      · exact h3 t ht
      · rw [(run_kq (play_run hp)).1.off t (by omega)]; rfl
    · by_cases hq : q = 0
      · subst hq; exact h2
      · rw [play_pu hp h1 q hq]; rfl

end Fcgi.Model
