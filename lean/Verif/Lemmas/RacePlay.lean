import Verif.Spec.Race
/-! # Finding schedules with a race -/
namespace Fcgi.Lemmas
open Fcgi.Spec

variable {L V R : Type} [DecidableEq L] [DecidableEq V]

/-- Which branches to take. -/
inductive Script where
  | done
  | pair (a b : Script)
  | right (a : Script)
  | rounds (n : Nat) (a : Script)
  | pick (n : Nat) (a : Script)

/-- The actions of a piece of code with these branches; if nothing is said: the first branch, no round, object 0. -/
def playCode : TProg L V → Script → List (TAct L V)
  | .skip, _ => []
  | .act a, _ => [a]
  | .seq p q, .pair a b => playCode p a ++ playCode q b
  | .seq p q, _ => playCode p .done ++ playCode q .done
  | .alt _ q, .right a => playCode q a
  | .alt p _, a => playCode p a
  | .star p, .rounds n a => (List.replicate n (playCode p a)).flatten
  | .star _, _ => []
  | .any f, .pick n a => playCode (f n) a
  | .any f, _ => playCode (f 0) .done

theorem playCode_runs : ∀ (p : TProg L V) (a : Script), Runs p (playCode p a)
  | .skip, _ => by unfold playCode; exact .skip
  | .act a, _ => by unfold playCode; exact .act a
  | .seq p q, a => by
    cases a <;> unfold playCode <;> exact .seq (playCode_runs p _) (playCode_runs q _)
  | .alt p q, a => by
    cases a with
    | right a => unfold playCode; exact .right (playCode_runs q a)
    | done => simp only [playCode]; exact .left (playCode_runs p _)
    | pair a b => simp only [playCode]; exact .left (playCode_runs p _)
    | rounds n b => simp only [playCode]; exact .left (playCode_runs p _)
    | pick n b => simp only [playCode]; exact .left (playCode_runs p _)
  | .star p, a => by
    cases a with
    | rounds n a =>
      simp only [playCode]
      induction n with
      | zero => exact .stop
      | succ n ih => exact .again (playCode_runs p a) ih
    | done => simp only [playCode]; exact .stop
    | pair a b => simp only [playCode]; exact .stop
    | right b => simp only [playCode]; exact .stop
    | pick n b => simp only [playCode]; exact .stop
  | .any f, a => by
    cases a with
    | pick n a => unfold playCode; exact .any n (playCode_runs (f n) a)
    | done => simp only [playCode]; exact .any 0 (playCode_runs (f 0) _)
    | pair a b => simp only [playCode]; exact .any 0 (playCode_runs (f 0) _)
    | right b => simp only [playCode]; exact .any 0 (playCode_runs (f 0) _)
    | rounds n b => simp only [playCode]; exact .any 0 (playCode_runs (f 0) _)

/-- Whether none of these locks is in the way. -/
def freeOf (hs : List (L × Bool)) : TAct L V → Bool
  | .acq l | .tryAcq l => ! hs.any (·.1 = l)
  | .acqS l => ! hs.contains (l, true)
  | _ => true

/-- A thread goes on alone: the locks it holds afterwards, if it never meets a lock held by it or by the others. -/
def goOn (others : List (L × Bool)) : List (TAct L V) → List (L × Bool) → Option (List (L × Bool))
  | [], h => some h
  | a :: t, h => if freeOf (others ++ h) a then goOn others t (heldAfter h a) else none

theorem reach_trans {s t u : Threads L V} (h : ThreadsReach s t) (h' : ThreadsReach t u) : ThreadsReach s u := by
  induction h' with
  | refl => exact h
  | step _ st ih => exact .step ih st

theorem goOn_reach (others : List (L × Bool)) (i : Nat) (suf : List (TAct L V)) : ∀ (pre : List (TAct L V)) (s : Threads L V) (h' : List (L × Bool)),
    (s i).rest = pre ++ suf → (∀ j, j ≠ i → ∀ x ∈ (s j).held, x ∈ others) → goOn others pre (s i).held = some h' →
    ThreadsReach s (fun j => if j = i then ⟨suf, h'⟩ else s j)
  | [], s, h', hr, _, hg => by
    simp only [goOn, Option.some.injEq] at hg
    have : (fun j => if j = i then ⟨suf, h'⟩ else s j) = s := by
      funext j
      split
      · rename_i e
        subst e
        cases hs : s j with
        | mk r h =>
          rw [hs] at hr hg
          simp only [List.nil_append] at hr
          simp only at hg
          rw [hr, hg]
      · rfl
    rw [this]; exact .refl s
  | a :: pre, s, h', hr, ho, hg => by
    simp only [goOn] at hg
    split at hg
    · rename_i hf
      have free : Free s a := by
        have any : ∀ l, (! (others ++ (s i).held).any (·.1 = l)) = true → ∀ j b, (l, b) ∉ (s j).held := by
          intro l hl j b hm
          have hm' : (l, b) ∈ others ++ (s i).held := by
            by_cases e : j = i
            · subst e; exact List.mem_append_right _ hm
            · exact List.mem_append_left _ (ho j e _ hm)
          have : (others ++ (s i).held).any (·.1 = l) = true := List.any_eq_true.2 ⟨_, hm', by simp⟩
          rw [this] at hl
          cases hl
        cases a with
        | acq l => exact any l hf
        | tryAcq l => exact any l hf
        | acqS l =>
          intro j hm
          have hm' : (l, true) ∈ others ++ (s i).held := by
            by_cases e : j = i
            · subst e; exact List.mem_append_right _ hm
            · exact List.mem_append_left _ (ho j e _ hm)
          have : (others ++ (s i).held).contains (l, true) = true := List.contains_iff_mem.2 hm'
          simp only [freeOf, this] at hf
          cases hf
        | rel l => trivial
        | relS l => trivial
        | rd v => trivial
        | wr v => trivial
      have st := ThreadStep.mk s i a (pre ++ suf) (by rw [hr]; rfl) free
      have := goOn_reach others i suf pre (fun j => if j = i then ⟨pre ++ suf, heldAfter (s i).held a⟩ else s j) h'
        (by simp) (fun j hj x hx => ho j hj x (by simpa [hj] using hx)) (by simpa using hg)
      refine reach_trans (.step (.refl s) st) ?_
      have e : (fun j => if j = i then ⟨suf, h'⟩ else if j = i then ⟨pre ++ suf, heldAfter (s i).held a⟩ else s j) =
          (fun j => if j = i then (⟨suf, h'⟩ : Thread L V) else s j) := by
        funext j; split <;> rfl
      rw [e] at this
      exact this
    · cases hg

/-- Two threads, the first does `m` actions, then the second does `n`. -/
def raceAt (p q : List (TAct L V)) (m n : Nat) (v : V) : Bool :=
  match goOn [] (p.take m) [] with
  | none => false
  | some h => match goOn h (q.take n) [] with
    | none => false
    | some _ => ((p.drop m).head? == some (.wr v) && ((q.drop n).head? == some (.wr v) || (q.drop n).head? == some (.rd v))) ||
        ((q.drop n).head? == some (.wr v) && (p.drop m).head? == some (.rd v))

theorem racy_of {solo : R → Prop} {code : R → TProg L V} {v : V} (a b c : R) (hc : ¬ solo c) (ha : a ≠ b ∨ ¬ solo a) (hac : a ≠ c ∨ ¬ solo a) (hbc : b ≠ c ∨ ¬ solo b)
    (idle : Runs (code c) []) (x y : Script) (m n : Nat) (h : raceAt (playCode (code a) x) (playCode (code b) y) m n v = true) : Racy solo code v := by
  let s : Threads L V := fun i => if i = 0 then ⟨playCode (code a) x, []⟩ else if i = 1 then ⟨playCode (code b) y, []⟩ else ⟨[], []⟩
  simp only [raceAt] at h
  split at h
  · cases h
  · rename_i h1 g1
    split at h
    · cases h
    · rename_i h2 g2
      refine ⟨fun i => if i = 0 then a else if i = 1 then b else c, s,
        fun j => if j = 1 then ⟨(playCode (code b) y).drop n, h2⟩ else if j = 0 then ⟨(playCode (code a) x).drop m, h1⟩ else s j, ?_, ?_, ?_, ?_⟩
      · intro i j hs e
        by_cases i0 : i = 0
        · subst i0
          by_cases j0 : j = 0
          · exact j0.symm
          · by_cases j1 : j = 1
            · subst j1; simp at hs e; rcases ha with h' | h'
              · exact absurd e h'
              · exact absurd hs h'
            · simp [j0, j1] at hs e; rcases hac with h' | h'
              · exact absurd e h'
              · exact absurd hs h'
        · by_cases i1 : i = 1
          · subst i1
            by_cases j0 : j = 0
            · subst j0; simp at hs e; rcases ha with h' | h'
              · exact absurd e.symm h'
              · rw [e] at hs; exact absurd hs h'
            · by_cases j1 : j = 1
              · exact j1.symm
              · simp [j0, j1] at hs e; rcases hbc with h' | h'
                · exact absurd e h'
                · exact absurd hs h'
          · simp [i0, i1] at hs; exact absurd hs hc
      · intro i
        by_cases i0 : i = 0
        · subst i0; exact ⟨rfl, playCode_runs _ _⟩
        · by_cases i1 : i = 1
          · subst i1; exact ⟨rfl, playCode_runs _ _⟩
          · simp only [s, i0, i1, if_false]
            exact ⟨trivial, idle⟩
      · have r1 := goOn_reach [] 0 ((playCode (code a) x).drop m) ((playCode (code a) x).take m) s h1 (List.take_append_drop _ _).symm (by
          intro j hj y hy
          by_cases j1 : j = 1
          · subst j1; exact hy
          · simp only [s, hj, j1, if_false] at hy; exact hy) g1
        have r2 := goOn_reach h1 1 ((playCode (code b) y).drop n) ((playCode (code b) y).take n) (fun j => if j = 0 then ⟨(playCode (code a) x).drop m, h1⟩ else s j) h2
          (by simp [s]) (by
          intro j hj y hy
          by_cases j0 : j = 0
          · subst j0; exact hy
          · simp only [s, hj, j0, if_false] at hy; cases hy) g2
        exact reach_trans r1 r2
      · simp only [Bool.or_eq_true, Bool.and_eq_true, beq_iff_eq] at h
        rcases h with ⟨hw, hr⟩ | ⟨hw, hr⟩
        · exact ⟨0, 1, by decide, by simpa using hw, by simpa using hr⟩
        · exact ⟨1, 0, by decide, by simpa using hw, .inr (by simpa using hr)⟩

end Fcgi.Lemmas
