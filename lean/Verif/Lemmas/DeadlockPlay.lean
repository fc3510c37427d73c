import Verif.Lemmas.RacePlay
/-! # Finding schedules with a deadlock -/
namespace Fcgi.Lemmas
open Fcgi.Spec
variable {L V R : Type} [DecidableEq L] [DecidableEq V]

/-- Two threads, the first does `m` actions, then the second `n`; now each of them waits for a lock that the other one has. -/
def stuckAt (p q : List (TAct L V)) (m n : Nat) : Bool :=
  match goOn [] (p.take m) [] with
  | none => false
  | some h => match goOn h (q.take n) [] with
    | none => false
    | some h' =>
      (match (p.drop m).head? with | some (.acq l) => h'.any (·.1 = l) | some (.acqS l) => h'.contains (l, true) | _ => false) &&
      (match (q.drop n).head? with | some (.acq l) => h.any (·.1 = l) | some (.acqS l) => h.contains (l, true) | _ => false)

theorem circle {s : Threads L V} {i j : Nat} (h : WaitsFor s i j) (h' : WaitsFor s j i) : ¬ Resolves s i := by
  intro r
  have key : ∀ k, Resolves s k → k ≠ i ∧ k ≠ j := by
    intro k r
    induction r with
    | mk k _ ih =>
      constructor
      · rintro rfl; exact (ih j h).2 rfl
      · rintro rfl; exact (ih i h').1 rfl
  exact (key i r).1 rfl

theorem waits_of {s : Threads L V} {i j : Nat} {p : List (TAct L V)} {h : List (L × Bool)} (hp : (s i).rest = p) (hh : (s j).held = h)
    (e : (match p.head? with | some (.acq l) => h.any (·.1 = l) | some (.acqS l) => h.contains (l, true) | _ => false) = true) : WaitsFor s i j := by
  subst hp hh
  split at e
  · rename_i l hl
    obtain ⟨⟨l', b⟩, hm, he⟩ := List.any_eq_true.1 e
    simp only [decide_eq_true_eq] at he
    subst he
    exact .inl ⟨_, b, hl, hm⟩
  · rename_i l hl
    exact .inr ⟨l, hl, .inl (List.contains_iff_mem.1 e)⟩
  · cases e

theorem stuck_of {code : R → TProg L V} (a b c : R) (idle : Runs (code c) []) (x y : Script) (m n : Nat)
    (h : stuckAt (playCode (code a) x) (playCode (code b) y) m n = true) : 
    ∃ s t : Threads L V, Starting code (fun i => if i = 0 then a else if i = 1 then b else c) s ∧ ThreadsReach s t ∧ WaitsFor t 0 1 ∧ WaitsFor t 1 0 := by
  let s : Threads L V := fun i => if i = 0 then ⟨playCode (code a) x, []⟩ else if i = 1 then ⟨playCode (code b) y, []⟩ else ⟨[], []⟩
  simp only [stuckAt] at h
  split at h
  · cases h
  · rename_i h1 g1
    split at h
    · cases h
    · rename_i h2 g2
      refine ⟨s, fun j => if j = 1 then ⟨(playCode (code b) y).drop n, h2⟩ else if j = 0 then ⟨(playCode (code a) x).drop m, h1⟩ else s j, ?_, ?_, ?_, ?_⟩
      · intro i
        by_cases i0 : i = 0
        · subst i0; exact ⟨rfl, playCode_runs _ _⟩
        · by_cases i1 : i = 1
          · subst i1; exact ⟨rfl, playCode_runs _ _⟩
          · simp only [s, i0, i1, if_false]
            exact ⟨trivial, idle⟩
      · have r1 := goOn_reach [] 0 ((playCode (code a) x).drop m) ((playCode (code a) x).take m) s h1 (List.take_append_drop _ _).symm (by
          intro j hj y hy
          by_cases j1 : j = 1
          · subst j1; exact hy
          · simp only [s, hj, j1, if_false] at hy; exact hy) g1
        have r2 := goOn_reach h1 1 ((playCode (code b) y).drop n) ((playCode (code b) y).take n) (fun j => if j = 0 then ⟨(playCode (code a) x).drop m, h1⟩ else s j) h2
          (by simp [s]) (by
          intro j hj y hy
          by_cases j0 : j = 0
          · subst j0; exact hy
          · simp only [s, hj, j0, if_false] at hy; cases hy) g2
        exact reach_trans r1 r2
      · rw [Bool.and_eq_true] at h
        exact waits_of (by simp) (by simp) h.1
      · rw [Bool.and_eq_true] at h
        exact waits_of (by simp) (by simp) h.2
end Fcgi.Lemmas
