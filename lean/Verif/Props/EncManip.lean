import Verif.Model.EncManip
/-! # C139: the encoding manipulators on arbitrary streams -/
namespace Fcgi.Props
open Fcgi Fcgi.Model Fcgi.Spec

private theorem encRun_inv (web : Nat → Bool) (first : Nat → Option Nat) : ∀ (h : List EncOp),
    (onlyWeb web first h → ∃ w, encRun web first h = .ok w) ∧
    (¬ onlyWeb web first h → encRun web first h = .ub .oobWrite) ∧
    ∀ w, encRun web first h = .ok w → (∀ s, w.rdbuf s = attachedTo first s h) ∧ (∀ b, w.enc b = lastAsked first b h) ∧ w.logged = 0 := by
  intro h
  induction h with
  | nil =>
    refine ⟨fun _ => ⟨_, rfl⟩, fun x => absurd trivial x, ?_⟩
    intro w e
    cases e
    exact ⟨fun _ => rfl, fun _ => rfl, rfl⟩
  | cons o h ih =>
    obtain ⟨i1, i2, i3⟩ := ih
    cases o with
    | attach s b =>
      refine ⟨?_, ?_, ?_⟩
      · intro x
        obtain ⟨w, e⟩ := i1 x
        exact ⟨encAttach s b w, by simp only [encRun, e]; rfl⟩
      · intro x
        simp only [encRun, i2 x]; rfl
      · intro w e
        obtain ⟨w', e1, e2⟩ := Res.bind_eq_ok.1 e
        cases e2
        obtain ⟨j1, j2, j3⟩ := i3 w' e1
        refine ⟨fun t => ?_, j2, j3⟩
        simp only [encAttach, attachedTo, eq_comm (a := s)]
        split
        · rfl
        · exact j1 t
    | manip s e =>
      refine ⟨?_, ?_, ?_⟩
      · rintro ⟨x, b, hb, hw⟩
        obtain ⟨w, e'⟩ := i1 x
        obtain ⟨j1, _⟩ := i3 w e'
        exact ⟨_, by simp only [encRun, e', Res.ok_bind, encManip, j1, hb, castBuf, hw, if_true]; rfl⟩
      · intro x
        by_cases hx : onlyWeb web first h
        · obtain ⟨w, e'⟩ := i1 hx
          obtain ⟨j1, _⟩ := i3 w e'
          have : castBuf web (attachedTo first s h) = none := by
            cases hb : attachedTo first s h with
            | none => rfl
            | some b =>
              cases hw : web b with
              | false => simp [castBuf, hw]
              | true => exact absurd ⟨hx, b, hb, hw⟩ x
          simp only [encRun, e', Res.ok_bind, encManip, j1, this]
        · simp only [encRun, i2 hx]; rfl
      · intro w e'
        obtain ⟨w', e1, e2⟩ := Res.bind_eq_ok.1 e'
        obtain ⟨j1, j2, j3⟩ := i3 w' e1
        unfold encManip at e2
        split at e2
        · rename_i b hb
          cases e2
          refine ⟨j1, fun c => ?_, j3⟩
          have hb' : attachedTo first s h = some b := by
            rw [← j1]
            cases hr : w'.rdbuf s with
            | none => rw [hr] at hb; cases hb
            | some d =>
              rw [hr] at hb
              simp only [castBuf] at hb
              split at hb
              · exact hb
              · cases hb
          simp only [lastAsked, hb', Option.some.injEq, eq_comm (a := c)]
          split
          · rfl
          · exact j2 c
        · cases e2

/-- C139: if encodings are only asked for on streams with a web stream buffer, nothing bad happens, and every buffer has the encoding asked for last through a
stream attached to it: streams do not disturb each other. (`_partial`: the English property says so of all streams.) -/
theorem C139_partial (web : Nat → Bool) (first : Nat → Option Nat) (h : List EncOp) (hw : onlyWeb web first h) :
    ∃ w, encRun web first h = .ok w ∧ ∀ b, w.enc b = lastAsked first b h := by
  obtain ⟨i1, _, i3⟩ := encRun_inv web first h
  obtain ⟨w, e⟩ := i1 hw
  exact ⟨w, e, (i3 w e).2.1⟩

/-- C139: otherwise the program writes through a null pointer, always. -/
theorem C139_violated (web : Nat → Bool) (first : Nat → Option Nat) (h : List EncOp) (hw : ¬ onlyWeb web first h) :
    encRun web first h = .ub .oobWrite := (encRun_inv web first h).2.1 hw

/-- C139: and the error the code means to log is never logged. -/
theorem C139_silent_violated (web : Nat → Bool) (first : Nat → Option Nat) (h : List EncOp) (w : EncWorld) (e : encRun web first h = .ok w) : w.logged = 0 :=
  ((encRun_inv web first h).2.2 w e).2.2

/-- Stream 0 has a web buffer, stream 1 another; stream 2 comes to share that of 0. -/
example : onlyWeb (· < 3) (fun s => some s) [.manip 2 .html, .attach 2 (some 0), .manip 1 .url, .manip 0 .url] ∧
    lastAsked (fun s => some s) 0 [.manip 2 .html, .attach 2 (some 0), .manip 1 .url, .manip 0 .url] = .html ∧
    lastAsked (fun s => some s) 1 [.manip 2 .html, .attach 2 (some 0), .manip 1 .url, .manip 0 .url] = .url := by
  refine ⟨?_, rfl, rfl⟩
  simp [onlyWeb, attachedTo]

/-- `std::cout << Encoding::HTML` -/
example : ¬ onlyWeb (fun _ => false) (fun _ => some 0) [.manip 0 .html] := by simp [onlyWeb, attachedTo]

end Fcgi.Props
