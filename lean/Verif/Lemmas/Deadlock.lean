import Verif.Spec.Race
/-! # An order of the locks, checked on programs, that excludes deadlocks -/
namespace Fcgi.Lemmas
open Fcgi.Spec

variable {L V R : Type} [DecidableEq L]

/-- Same locks. -/
def SameHeld (h k : List (L × Bool)) : Prop := ∀ x, x ∈ h ↔ x ∈ k

theorem SameHeld.refl (h : List (L × Bool)) : SameHeld h h := fun _ => .rfl
theorem SameHeld.symm {h k : List (L × Bool)} (e : SameHeld h k) : SameHeld k h := fun x => (e x).symm

/-- A lock is waited for only by who has smaller ones. -/
def orderly (rank : L → Nat) (h : List (L × Bool)) : TAct L V → Prop
  | .acq l => ∀ x ∈ h, rank x.1 < rank l
  | .acqS l => ∀ x ∈ h, rank x.1 < rank l
  | _ => True

def OrderlyRun (rank : L → Nat) : List (L × Bool) → List (TAct L V) → Prop
  | h, [] => h = []
  | h, a :: t => orderly rank h a ∧ OrderlyRun rank (heldAfter h a) t

theorem heldAfter_same {h k : List (L × Bool)} (e : SameHeld h k) (a : TAct L V) : SameHeld (heldAfter h a) (heldAfter k a) := by
  intro x
  cases a <;> simp [heldAfter, e x]

theorem orderly_same (rank : L → Nat) : ∀ (t : List (TAct L V)) {h k : List (L × Bool)}, SameHeld h k → OrderlyRun rank h t → OrderlyRun rank k t
  | [], h, k, e, o => by
    have o' : h = [] := o
    subst o'
    exact List.eq_nil_iff_forall_not_mem.2 fun x hx => nomatch (e x).2 hx
  | a :: t, h, k, e, o => by
    refine ⟨?_, orderly_same rank t (heldAfter_same e a) o.2⟩
    have o1 := o.1
    cases a with
    | acq l => exact fun x hx => o1 x ((e x).2 hx)
    | acqS l => exact fun x hx => o1 x ((e x).2 hx)
    | tryAcq l => trivial
    | rel l => trivial
    | relS l => trivial
    | rd v => trivial
    | wr v => trivial

def heldPost : TProg L V → List (L × Bool) → List (L × Bool)
  | .skip, h => h
  | .act a, h => heldAfter h a
  | .seq p q, h => heldPost q (heldPost p h)
  | .alt p _, h => heldPost p h
  | .star _, h => h
  | .any _, h => h

def OrderCheck (rank : L → Nat) : TProg L V → List (L × Bool) → Prop
  | .skip, _ => True
  | .act a, h => orderly rank h a
  | .seq p q, h => OrderCheck rank p h ∧ OrderCheck rank q (heldPost p h)
  | .alt p q, h => OrderCheck rank p h ∧ OrderCheck rank q h ∧ SameHeld (heldPost p h) (heldPost q h)
  | .star p, h => OrderCheck rank p h ∧ SameHeld h (heldPost p h)
  | .any f, h => ∀ i, OrderCheck rank (f i) h ∧ SameHeld h (heldPost (f i) h)

theorem orderCheck_sound (rank : L → Nat) {p : TProg L V} {t : List (TAct L V)} (run : Runs p t) :
    ∀ h, OrderCheck rank p h → ∀ u, OrderlyRun rank (heldPost p h) u → OrderlyRun rank h (t ++ u) := by
  induction run with
  | skip => exact fun _ _ _ o => o
  | act a => exact fun _ c _ o => ⟨c, o⟩
  | seq _ _ ih1 ih2 =>
    intro h c u o
    rw [List.append_assoc]
    exact ih1 h c.1 _ (ih2 _ c.2 u o)
  | left _ ih => exact fun h c u o => ih h c.1 u o
  | right _ ih => exact fun h c u o => ih h c.2.1 u (orderly_same rank u c.2.2 o)
  | stop => exact fun _ _ _ o => o
  | again _ _ ih1 ih2 =>
    intro h c u o
    rw [List.append_assoc]
    exact ih1 h c.1 _ (orderly_same rank _ c.2 (ih2 h c u o))
  | any i _ ih => exact fun h c u o => ih h (c i).1 u (orderly_same rank u (c i).2 o)

/-- Checked code does not deadlock. -/
theorem no_deadlock (rank : L → Nat) (bound : Nat) (hb : ∀ l, rank l < bound) (code : R → TProg L V)
    (hc : ∀ r, OrderCheck rank (code r) [] ∧ heldPost (code r) [] = []) (role : Nat → R) {s t : Threads L V}
    (h0 : Starting code role s) (h : ThreadsReach s t) : NoDeadlock t := by
  have inv : ∀ i, OrderlyRun rank (t i).held (t i).rest := by
    induction h with
    | refl =>
      intro i
      have := orderCheck_sound rank (h0 i).2 [] (hc _).1 [] (hc _).2
      rw [List.append_nil] at this
      rw [(h0 i).1]
      exact this
    | step _ st ih =>
      obtain ⟨i, a, rest, hr, _⟩ := st
      intro j
      by_cases e : j = i
      · subst e
        have := ih j
        rw [hr] at this
        simpa using this.2
      · simpa [e] using ih j
  constructor
  · -- the lock waited for gets higher and higher
    have key : ∀ n i, (∀ l, (t i).rest.head? = some (.acq l) → 2 * (bound - rank l) ≤ n) →
        (∀ l, (t i).rest.head? = some (.acqS l) → 2 * (bound - rank l) + 1 ≤ n) → Resolves t i := by
      intro n
      induction n with
      | zero =>
        intro i h1 h2
        refine ⟨i, fun j w => ?_⟩
        rcases w with ⟨l, b, w, _⟩ | ⟨l, w, _⟩
        · have := h1 l w; have := hb l; omega
        · have := h2 l w; omega
      | succ n ih =>
        intro i h1 h2
        refine ⟨i, fun j w => ?_⟩
        -- a thread that has a lock waits only for higher ones
        have above : ∀ l b, (l, b) ∈ (t j).held → ∀ l', ((t j).rest.head? = some (.acq l') ∨ (t j).rest.head? = some (.acqS l')) → rank l < rank l' := by
          intro l b hm l' hh
          have o := inv j
          cases hr : (t j).rest with
          | nil => rw [hr] at hh; rcases hh with hh | hh <;> cases hh
          | cons a u =>
            rw [hr] at hh o
            simp only [List.head?_cons, Option.some.injEq] at hh
            rcases hh with rfl | rfl
            · exact o.1 _ hm
            · exact o.1 _ hm
        rcases w with ⟨l, b, w, hm⟩ | ⟨l, w, hm | hm⟩
        · have a := h1 l w
          refine ih j (fun l' e => ?_) (fun l' e => ?_)
          · have := above l b hm l' (.inl e); have := hb l'; omega
          · have := above l b hm l' (.inr e); have := hb l'; omega
        · have a := h2 l w
          refine ih j (fun l' e => ?_) (fun l' e => ?_)
          · have := above l true hm l' (.inl e); have := hb l'; omega
          · have := above l true hm l' (.inr e); have := hb l'; omega
        · have a := h2 l w
          refine ih j (fun l' e => ?_) (fun l' e => ?_)
          · rw [hm] at e; cases e; omega
          · rw [hm] at e; cases e
    intro i
    exact key (2 * bound + 1) i (fun l _ => by omega) (fun l _ => by omega)
  · intro i hr
    have := inv i
    rw [hr] at this
    exact this

end Fcgi.Lemmas
