import Verif.Lemmas.Curler
namespace Fcgi.Model
open Fcgi.Spec

/-- At most one event at a time. -/
theorem CurlerStep.one {s s' : CurlerSt} {es : List CurlerEvent} (h : CurlerStep s es s') : es = [] ∨ ∃ e, es = [e] := by
  cases h with
  | handler f h =>
    unfold kstep at h
    split at h
    all_goals try unfold CurlerSt.take at h
    all_goals try unfold CurlerSt.note at h
    all_goals try rw [Option.map_eq_some_iff] at h
    all_goals repeat' split at h
    all_goals first
      | (cases h; simp; done)
      | (obtain ⟨_, _, h⟩ := h; cases h; simp; done)
      | (cases h; done)
      | (rw [Option.map_eq_some_iff] at h; obtain ⟨_, _, h⟩ := h; cases h; simp; done)
  | call c h =>
    unfold kcall at h
    repeat' split at h
    all_goals cases h
    all_goals simp

theorem CurlerRun.split {s0 s : CurlerSt} {tr : List CurlerEvent} (h : CurlerRun s0 tr s) : ∀ (a : List CurlerEvent) (e : CurlerEvent) (b : List CurlerEvent), tr = a ++ e :: b →
    ∃ s1 s2, CurlerRun s0 a s1 ∧ CurlerStep s1 [e] s2 ∧ CurlerRun s2 b s := by
  induction h with
  | refl => intro a e b h; simp at h
  | @step tr s' es s'' run hs ih =>
    intro a e b h
    rcases hs.one with rfl | ⟨x, rfl⟩
    · obtain ⟨s1, s2, h1, h2, h3⟩ := ih a e b (by simpa using h)
      have := h3.step hs
      rw [List.append_nil] at this
      exact ⟨s1, s2, h1, h2, this⟩
    · rcases List.eq_nil_or_concat b with rfl | ⟨b', y, rfl⟩
      · have : tr ++ [x] = a ++ [e] := h
        obtain ⟨rfl, h5⟩ := List.append_inj' this rfl
        cases h5
        exact ⟨_, _, run, hs, .refl _⟩
      · rw [List.concat_eq_append, ← List.cons_append, ← List.append_assoc] at h
        obtain ⟨h4, h5⟩ := List.append_inj' h rfl
        cases h5
        obtain ⟨s1, s2, h1, h2, h3⟩ := ih a e b' h4
        exact ⟨s1, s2, h1, h2, by rw [List.concat_eq_append]; exact h3.step hs⟩

theorem CurlerRun.prefix {s0 s : CurlerSt} {tr a : List CurlerEvent} (h : CurlerRun s0 tr s) (hp : a <+: tr) : ∃ s1, CurlerRun s0 a s1 := by
  obtain ⟨b, rfl⟩ := hp
  cases b with
  | nil => exact ⟨s, by simpa using h⟩
  | cons e b => obtain ⟨s1, _, h1, _⟩ := h.split a e b rfl; exact ⟨s1, h1⟩

theorem CurlerRun.trans {s0 s1 s2 : CurlerSt} {a b : List CurlerEvent} (h : CurlerRun s0 a s1) (h2 : CurlerRun s1 b s2) : CurlerRun s0 (a ++ b) s2 := by
  induction h2 with
  | refl => simpa using h
  | step run hs ih => rw [← List.append_assoc]; exact ih.step hs

/-- Scripts. -/
def kone (s : CurlerSt) : KFate ⊕ KCall → Option (List CurlerEvent × CurlerSt)
  | .inl f => kstep f s
  | .inr c => kcall c s

def kdo : List (KFate ⊕ KCall) → CurlerSt → Option (List CurlerEvent × CurlerSt)
  | [], s => some ([], s)
  | x :: xs, s => do
    let (es, s) ← kone s x
    let (es', s) ← kdo xs s
    return (es ++ es', s)

theorem kdo_sound : ∀ (xs : List (KFate ⊕ KCall)) (s : CurlerSt) (tr : List CurlerEvent) (s' : CurlerSt), kdo xs s = some (tr, s') → CurlerRun s tr s' := by
  intro xs
  induction xs with
  | nil => intro s tr s' h; cases h; exact .refl _
  | cons x xs ih =>
    intro s tr s' h
    simp only [kdo, Option.bind_eq_bind, Option.bind_eq_some_iff, Option.pure_def, Option.some.injEq, Prod.mk.injEq, Prod.exists] at h
    obtain ⟨es, s1, h1, es', s2, h2, rfl, rfl⟩ := h
    have hs : CurlerStep s es s1 := by
      cases x with
      | inl f => exact .handler f h1
      | inr c => exact .call c h1
    have := (CurlerRun.refl s).step hs
    exact CurlerRun.trans (by simpa using this) (ih _ _ _ h2)

theorem kfound {s : CurlerSt} {p : List CurlerEvent → CurlerSt → Bool} (xs : List (KFate ⊕ KCall)) (h : ((kdo xs s).map fun x => p x.1 x.2) = some true) :
    ∃ tr s', CurlerRun s tr s' ∧ p tr s' = true := by
  rw [Option.map_eq_some_iff] at h
  obtain ⟨⟨tr, s'⟩, h1, h2⟩ := h
  exact ⟨tr, s', kdo_sound _ _ _ _ h1, h2⟩

/-! ### The thread's events and where it is -/

/-- What a step of the thread does to the place. -/
theorem kstep_pc {f : KFate} {s s' : CurlerSt} {es : List CurlerEvent} (h : kstep f s = some (es, s')) :
    (∀ r, es = [.finished r] → ∃ m, s'.pc = .callback r m) ∧
    (∀ r k, es = [.called r k] → ∃ m, s.pc = .callback r m ∧ s'.pc = .clear r m ∧ s.cb r = some k) ∧
    (∀ r, es = [.dropped r] → ∃ m, s.pc = .clear r m) ∧
    (∀ r m, s.pc = .callback r m → es = [] ∧ s.cb r = none ∧ s'.pc = nextMessage m ∨ ∃ k, s.cb r = some k ∧ es = [.called r k]) ∧
    (∀ r m, s.pc = .clear r m → es = [.dropped r]) ∧
    (∀ r m, s'.pc = .callback r m → es = [.finished r]) ∧
    (∀ r m, s'.pc = .clear r m → ∃ k, es = [.called r k]) ∧
    (∀ e ∈ es, e.ofThread = true) := by
  unfold kstep at h
  split at h
  all_goals try unfold CurlerSt.take at h
  all_goals try unfold CurlerSt.note at h
  all_goals try unfold CurlerSt.act at h
  all_goals try rw [Option.map_eq_some_iff] at h
  all_goals repeat' split at h
  all_goals try (cases h; done)
  all_goals try rw [Option.map_eq_some_iff] at h
  all_goals first
    | (cases h; done)
    | (obtain ⟨_, h0, h⟩ := h; cases h0; done)
    | (obtain ⟨_, h0, h⟩ := h; cases h0; cases h)
    | cases h
  all_goals simp [*, CurlerEvent.ofThread, nextMessage]
  all_goals try split
  all_goals first | (refine ⟨Decidable.em _, fun r => ⟨fun h _ => h, fun h _ => h⟩⟩; done) | simp

theorem kcall_pc {c : KCall} {s s' : CurlerSt} {es : List CurlerEvent} (h : kcall c s = some (es, s')) :
    (∀ e ∈ es, e.ofThread = false) ∧ ((s'.pc = s.pc) ∨ (s.pc = .off ∧ s'.pc = .relock) ∨ (s.pc = .done ∧ s'.pc = .off)) ∧
    (∀ r, s.cb r ≠ none → s'.cb r ≠ none) := by
  unfold kcall at h
  repeat' split at h
  all_goals cases h
  all_goals simp [*, CurlerEvent.ofThread]
  intro r hr
  split
  · simp
  · exact hr

end Fcgi.Model
