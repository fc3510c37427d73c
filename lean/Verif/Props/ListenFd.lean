import Verif.Model.ListenFd
/-! # C142: listening on ports and on the inherited socket -/
namespace Fcgi.Props
open Fcgi Fcgi.Model

theorem put_put (w : FdWorld) (fd : Nat) (a b : Option FdKind) : (w.put fd a).put fd b = w.put fd b := by
  simp only [FdWorld.put, FdWorld.mk.injEq, and_true]
  funext n
  split <;> rfl

theorem put_same (w : FdWorld) (fd : Nat) (h : w.fds fd = none) : w.put fd none = w := by
  cases w with
  | mk fds groups =>
    simp only [FdWorld.put, FdWorld.mk.injEq, and_true]
    funext n
    split
    · rename_i e; subst e; exact h.symm
    · rfl

/-- What the loop over the addresses does. -/
theorem tcp_try {n : Nat} {os : TcpOs} {i r : Option Nat} {w w' : FdWorld} (h : TcpTry n os i w r w') :
    (r = none → w' = w) ∧ ∀ fd, r = some fd → w.fds fd = none ∧ ∃ j, (j < n ∨ i = some j) ∧ os.socket j = some fd ∧ os.bind j = true ∧ os.listen j = true ∧
      w' = w.put fd (some (.sock (some j) true)) := by
  have next : ∀ i j, nextListen n i = some j → j < n := by
    intro i j h
    unfold nextListen at h
    split at h
    · cases h; assumption
    · cases h
  induction h with
  | finish => exact ⟨fun _ => rfl, fun fd h => by cases h⟩
  | @noSocket i w r w' h _ ih =>
    refine ⟨ih.1, fun fd hfd => ?_⟩
    obtain ⟨h1, j, hj, rest⟩ := ih.2 fd hfd
    exact ⟨h1, j, .inl (hj.elim (fun x => x) (next i j)), rest⟩
  | @hit i w fd h free hb hl =>
    refine ⟨fun h => (by cases h), fun fd' hfd => ?_⟩
    cases hfd
    exact ⟨free, i, .inr rfl, h, hb, hl, by rw [put_put, put_put]⟩
  | @miss i w fd r w' h free hb _ ih =>
    rw [put_put, put_same _ _ free] at ih
    refine ⟨ih.1, fun fd hfd => ?_⟩
    obtain ⟨h1, j, hj, rest⟩ := ih.2 fd hfd
    exact ⟨h1, j, .inl (hj.elim (fun x => x) (next i j)), rest⟩

/-- C142: `listen(interface, service)` returns true only if one new descriptor now listens on one of the addresses found, for this group; and if it returns false, nothing has changed: no
descriptor stays open. -/
theorem C142_port {given : Bool} {n : Nat} {os : TcpOs} {g : Nat} {w w' : FdWorld} {r : Bool} (h : ListenTcp given n os g w r w') :
    (r = false → w' = w) ∧
    (r = true → ∃ fd i, w.fds fd = none ∧ i < n ∧ os.bind i = true ∧ os.listen i = true ∧ w'.fds fd = some (.sock (some i) true) ∧ fd ∈ w'.groups g ∧
      (∀ m, m ≠ fd → w'.fds m = w.fds m ∧ ∀ j, m ∈ w'.groups j ↔ m ∈ w.groups j) ∧ ∀ j, j ≠ g → w'.groups j = w.groups j) := by
  cases h with
  | noService h => exact ⟨fun _ => rfl, fun h => by cases h⟩
  | unresolved h hn => exact ⟨fun _ => rfl, fun h => by cases h⟩
  | fails h hn t => exact ⟨fun _ => (tcp_try t).1 rfl, fun h => by cases h⟩
  | @listens fd w' h hn t =>
    refine ⟨fun h => (by cases h), fun _ => ?_⟩
    obtain ⟨hf, j, hj, hs, hb, hl, rfl⟩ := (tcp_try t).2 fd rfl
    refine ⟨fd, j, hf, ?_, hb, hl, by simp [FdWorld.add, FdWorld.put], ?_, ?_, ?_⟩
    · rcases hj with hj | hj
      · exact hj
      · cases hj; exact hn
    · by_cases hx : fd ∈ w.groups g <;> simp [FdWorld.add, FdWorld.put, hx]
    · intro m hm
      refine ⟨by simp [FdWorld.add, FdWorld.put, hm], fun j => ?_⟩
      by_cases hx : fd ∈ w.groups g <;> by_cases hj : j = g <;> simp [FdWorld.add, FdWorld.put, hx, hj, hm]
    · intro j hj
      simp [FdWorld.add, FdWorld.put, hj]

/-- C142: `listen()` returns true exactly if this group does not listen on descriptor 0 yet, it is a socket, and the system agrees; descriptor 0 then is listened on for this group.
Otherwise nothing has changed. -/
theorem C142_default (w : FdWorld) (g : Nat) (agrees : Bool) :
    ((w.listenDefault g agrees).1 = true ↔ 0 ∉ w.groups g ∧ agrees = true ∧ ∃ a l, w.fds 0 = some (.sock a l)) ∧
    ((w.listenDefault g agrees).1 = false → (w.listenDefault g agrees).2 = w) ∧
    ((w.listenDefault g agrees).1 = true → (∃ a, (w.listenDefault g agrees).2.fds 0 = some (.sock a true)) ∧ (w.listenDefault g agrees).2.groups g = w.groups g ++ [0] ∧
      ∀ j, j ≠ g → (w.listenDefault g agrees).2.groups j = w.groups j) := by
  unfold FdWorld.listenDefault FdWorld.sysListen
  by_cases h0 : 0 ∈ w.groups g
  · simp [h0]
  · simp only [h0, not_false_eq_true, if_true, true_and]
    cases hf : w.fds 0 with
    | none => simp
    | some k =>
      cases k with
      | other => simp
      | sock a l =>
        cases agrees with
        | false => simp
        | true =>
          simp only [if_true, FdWorld.add, FdWorld.put]
          refine ⟨by simp, by simp, fun _ => ⟨⟨a, rfl⟩, by simp [h0], ?_⟩⟩
          intro j hj
          simp [hj]

/-- C142: the destructor closes the listeners of its group and touches no other descriptor. -/
theorem C142_destroy (w : FdWorld) (g n : Nat) : (w.destroy g).fds n = (if n ∈ w.groups g then none else w.fds n) ∧ (w.destroy g).groups g = [] ∧
    ∀ j, j ≠ g → (w.destroy g).groups j = w.groups j := by
  refine ⟨rfl, by simp [FdWorld.destroy], fun j hj => by simp [FdWorld.destroy, hj]⟩

/-- Every listener of every group is open and listening, and of one group only. -/
def Listening (w : FdWorld) : Prop :=
  ∀ g fd, fd ∈ w.groups g → (∃ a, w.fds fd = some (.sock a true)) ∧ ∀ g', fd ∈ w.groups g' → g' = g

/-- `listen()` was called only when no other group had descriptor 0. -/
inductive FdAlone (fds : Nat → Option FdKind) : List FdEvent → FdWorld → Prop where
  | start : FdAlone fds [] ⟨fds, fun _ => []⟩
  | step {tr w e w'} (run : FdAlone fds tr w) (h : FdStep w e w') (alone : ∀ g r, e = .default g r → ∀ j, j ≠ g → 0 ∉ w.groups j) : FdAlone fds (tr ++ [e]) w'

theorem FdAlone.run {fds : Nat → Option FdKind} {tr : List FdEvent} {w : FdWorld} (h : FdAlone fds tr w) : FdRun fds tr w := by
  induction h with
  | start => exact .start
  | step _ h _ ih => exact .step ih h

/-- C142: in every history in which `listen()` is only called while no other group has descriptor 0, all listeners of all groups stay open and listening until their group is destroyed.
(`_partial`: the English property has no such condition.) -/
theorem C142_stays_partial {fds : Nat → Option FdKind} {tr : List FdEvent} {w : FdWorld} (h : FdAlone fds tr w) : Listening w := by
  induction h with
  | start => intro g fd h; cases h
  | @step tr w e w' _ h alone ih =>
    cases h with
    | @default g agrees =>
      obtain ⟨_, h2, h3⟩ := C142_default w g agrees
      cases hr : (w.listenDefault g agrees).1 with
      | false => rw [h2 hr]; exact ih
      | true =>
        obtain ⟨⟨a, k1⟩, k2, k3⟩ := h3 hr
        have al := alone g _ rfl
        have same : ∀ m, m ≠ 0 → (w.listenDefault g agrees).2.fds m = w.fds m := by
          intro m hm
          unfold FdWorld.listenDefault FdWorld.sysListen
          split
          · split
            · rfl
            · rename_i _ w2 hw
              split at hw
              · split at hw
                · cases hw; simp [FdWorld.add, FdWorld.put, hm]
                · cases hw
              · cases hw
          · rfl
        generalize (w.listenDefault g agrees).2 = w' at *
        have groupOf : ∀ j m, m ∈ w'.groups j → m ∈ w.groups j ∨ m = 0 ∧ j = g := by
          intro j m hm
          by_cases hj : j = g
          · subst hj
            rw [k2] at hm
            rcases List.mem_append.1 hm with x | x
            · exact .inl x
            · exact .inr ⟨by simpa using x, rfl⟩
          · rw [k3 j hj] at hm; exact .inl hm
        intro j m hm
        by_cases hm0 : m = 0
        · subst hm0
          refine ⟨⟨a, k1⟩, ?_⟩
          have one : ∀ i, 0 ∈ w'.groups i → i = g := by
            intro i hi
            rcases groupOf i 0 hi with x | x
            · cases Classical.em (i = g) with
              | inl y => exact y
              | inr y => exact absurd x (al i y)
            · exact x.2
          intro i hi
          rw [one i hi, one j hm]
        · rcases groupOf j m hm with x | x
          · obtain ⟨b, hb⟩ := ih j m x
            refine ⟨by rw [same m hm0]; exact b, fun i hi => ?_⟩
            rcases groupOf i m hi with y | y
            · exact hb i y
            · exact absurd y.1 hm0
          · exact absurd x.1 hm0
    | @tcp g given n os r _ t =>
      obtain ⟨h1, h2⟩ := C142_port t
      cases r with
      | false => rw [h1 rfl]; exact ih
      | true =>
        obtain ⟨fd, i, hf, _, _, _, k1, k2, k3, k4⟩ := h2 rfl
        have fresh : ∀ j, fd ∉ w.groups j := by
          intro j hj
          obtain ⟨⟨a, e⟩, _⟩ := ih j fd hj
          rw [hf] at e; cases e
        have only : ∀ j, fd ∈ w'.groups j → j = g := by
          intro j hj
          cases Classical.em (j = g) with
          | inl x => exact x
          | inr x => rw [k4 j x] at hj; exact absurd hj (fresh j)
        intro j m hm
        by_cases hmf : m = fd
        · subst hmf
          refine ⟨⟨_, k1⟩, fun i hi => ?_⟩
          rw [only i hi, only j hm]
        · obtain ⟨b, hb⟩ := ih j m ((k3 m hmf).2 j |>.1 hm)
          exact ⟨by rw [(k3 m hmf).1]; exact b, fun i hi => hb i ((k3 m hmf).2 i |>.1 hi)⟩
    | destroy g =>
      intro j m hm
      have hj : j ≠ g ∧ m ∈ w.groups j := by
        simp only [FdWorld.destroy] at hm
        split at hm
        · cases hm
        · exact ⟨by assumption, hm⟩
      obtain ⟨b, hb⟩ := ih j m hj.2
      have hng : m ∉ w.groups g := fun x => hj.1 (hb g x).symm
      refine ⟨by simp only [FdWorld.destroy, if_neg hng]; exact b, fun i hi => ?_⟩
      simp only [FdWorld.destroy] at hi
      split at hi
      · cases hi
      · exact hb i hi
    | @open_ fd k hf =>
      intro j m hm
      obtain ⟨⟨a, e⟩, hb⟩ := ih j m hm
      have : m ≠ fd := fun x => by rw [x, hf] at e; cases e
      exact ⟨⟨a, by simp only [FdWorld.put, if_neg this]; exact e⟩, hb⟩
    | @close fd hf =>
      intro j m hm
      obtain ⟨⟨a, e⟩, hb⟩ := ih j m hm
      have : m ≠ fd := fun x => hf j (x ▸ hm)
      exact ⟨⟨a, by simp only [FdWorld.put, if_neg this]; exact e⟩, hb⟩

/-- The inherited socket on descriptor 0, and nothing else. -/
def inherited : Nat → Option FdKind := fun n => if n = 0 then some (.sock (some 9) false) else none

/-- C142 fails: two groups can listen on descriptor 0, both calls succeed; when one is destroyed, the other is left with a closed descriptor, which next may be any file of the program. -/
theorem C142_shared_violated : ∃ w w' : FdWorld,
    FdRun inherited [.default 1 true, .default 2 true, .destroy 1] w ∧ 0 ∈ w.groups 2 ∧ w.fds 0 = none ∧
    FdRun inherited [.default 1 true, .default 2 true, .destroy 1, .open_ 0 .other] w' ∧ 0 ∈ w'.groups 2 ∧ w'.fds 0 = some .other := by
  have r3 := FdRun.step (FdRun.step (FdRun.step (.start (fds := inherited)) (.default (g := 1) true)) (.default (g := 2) true)) (.destroy 1)
  have r4 := FdRun.step r3 (.open_ (fd := 0) .other (by decide))
  exact ⟨_, _, r3, by decide, by decide, r4, by decide, by decide⟩

/-- A server on the inherited socket and on the second address of a name, the first being in use. -/
example : ∃ w : FdWorld, FdAlone inherited [.default 1 true, .tcp 1 true 2 ⟨fun _ => some 5, fun i => i == 1, fun _ => true⟩ true] w ∧ w.groups 1 = [0, 5] ∧
    w.fds 5 = some (.sock (some 1) true) := by
  have r1 := FdAlone.step (FdAlone.start (fds := inherited)) (.default (g := 1) true) (by intro g r _ j _ h; cases h)
  have t : TcpTry 2 ⟨fun _ => some 5, fun i => i == 1, fun _ => true⟩ (some 0) (FdWorld.listenDefault ⟨inherited, fun _ => []⟩ 1 true).2 (some 5) _ :=
    .miss (fd := 5) rfl (by decide) (.inl rfl) (.hit (fd := 5) rfl (by decide) rfl rfl)
  have r2 := FdAlone.step r1 (.tcp (g := 1) (.listens rfl (by decide) t)) (by intro g r h; cases h)
  exact ⟨_, r2, by decide, by decide⟩

end Fcgi.Props
