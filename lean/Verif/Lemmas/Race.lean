import Verif.Spec.Race
/-! # A lock discipline, checked on programs, that excludes data races -/
namespace Fcgi.Lemmas
open Fcgi.Spec

variable {L V R : Type} [DecidableEq L]

/-- How a thread has a lock: as a mutex, shared, or no longer but nobody else can get it
(because taking it needs another lock, which the thread has held exclusively ever since). -/
inductive Kind where
  | excl | shared | ghost
  deriving DecidableEq

/-- What protects a variable: sets of locks, one of which is needed for writing, and for reading; or a thread. -/
inductive Guard (L R : Type) where
  | locks (writing reading : List (List L))
  | owner (r : R)
  | const

structure Rules (L V R : Type) where
  guard : V → Option (Guard L R)
  /-- the lock needed to take this one -/
  under : L → Option L

abbrev Had (L : Type) := List (L × Kind)

def Had.some_ (A : Had L) (l : L) : Prop := ∃ k, (l, k) ∈ A
def Had.own (A : Had L) (l : L) : Prop := (l, Kind.excl) ∈ A ∨ (l, Kind.ghost) ∈ A

/-- Whether the rules allow an action. -/
def Rules.ok (G : Rules L V R) (r : R) (A : Had L) : TAct L V → Prop
  | .acq l => ∀ u, G.under l = some u → (u, Kind.excl) ∈ A ∨ (u, Kind.shared) ∈ A
  | .tryAcq l => ∀ u, G.under l = some u → (u, Kind.excl) ∈ A ∨ (u, Kind.shared) ∈ A
  | .acqS l => G.under l = none
  | .rel l => (l, Kind.excl) ∈ A
  | .relS _ => True
  | .rd v => match G.guard v with
    | none => True
    | some (.locks _ reading) => ∃ ls ∈ reading, ∀ l ∈ ls, A.some_ l
    | some (.owner r') => r = r'
    | some .const => True
  | .wr v => match G.guard v with
    | none => True
    | some (.locks writing _) => ∃ ls ∈ writing, ∀ l ∈ ls, A.own l
    | some (.owner r') => r = r'
    | some .const => False

/-- The locks had after an action. -/
def Rules.after (G : Rules L V R) (A : Had L) : TAct L V → Had L
  | .acq l => (l, .excl) :: A
  | .tryAcq l => (l, .excl) :: A
  | .acqS l => (l, .shared) :: A
  | .rel l =>
    let B := A.filter fun x => ¬ (x = (l, .excl) ∨ (x.2 = .ghost ∧ G.under x.1 = some l))
    match G.under l with
    | none => B
    | some u => if (u, Kind.excl) ∈ B then (l, .ghost) :: B else B
  | .relS l => A.filter (· ≠ (l, .shared))
  | _ => A

/-- A sequence of actions obeys the rules. -/
def Rules.Obeys (G : Rules L V R) (r : R) : Had L → List (TAct L V) → Prop
  | _, [] => True
  | A, a :: t => G.ok r A a ∧ G.Obeys r (G.after A a) t

theorem ok_mono (G : Rules L V R) (r : R) {A B : Had L} (h : ∀ x ∈ A, x ∈ B) (a : TAct L V) (o : G.ok r A a) : G.ok r B a := by
  have e : ∀ l, A.some_ l → B.some_ l := fun l ⟨k, hk⟩ => ⟨k, h _ hk⟩
  have e' : ∀ l, A.own l → B.own l := fun l hl => hl.imp (h _) (h _)
  cases a with
  | acq l => exact fun u hu => (o u hu).imp (h _) (h _)
  | tryAcq l => exact fun u hu => (o u hu).imp (h _) (h _)
  | acqS l => exact o
  | rel l => exact h _ o
  | relS l => trivial
  | rd v =>
    simp only [Rules.ok] at o ⊢
    split at o
    · trivial
    · obtain ⟨ls, h1, h2⟩ := o; exact ⟨ls, h1, fun l hl => e l (h2 l hl)⟩
    · exact o
    · trivial
  | wr v =>
    simp only [Rules.ok] at o ⊢
    split at o
    · trivial
    · obtain ⟨ls, h1, h2⟩ := o; exact ⟨ls, h1, fun l hl => e' l (h2 l hl)⟩
    · exact o
    · exact o

theorem after_mono (G : Rules L V R) {A B : Had L} (h : ∀ x ∈ A, x ∈ B) (a : TAct L V) : ∀ x ∈ G.after A a, x ∈ G.after B a := by
  have f : ∀ (p : L × Kind → Bool), ∀ x ∈ A.filter p, x ∈ B.filter p := fun p x hx =>
    List.mem_filter.2 ⟨h x (List.mem_filter.1 hx).1, (List.mem_filter.1 hx).2⟩
  cases a with
  | acq l => intro x hx; exact (List.mem_cons.1 hx).elim (fun e => List.mem_cons.2 (.inl e)) fun m => List.mem_cons_of_mem _ (h x m)
  | tryAcq l => intro x hx; exact (List.mem_cons.1 hx).elim (fun e => List.mem_cons.2 (.inl e)) fun m => List.mem_cons_of_mem _ (h x m)
  | acqS l => intro x hx; exact (List.mem_cons.1 hx).elim (fun e => List.mem_cons.2 (.inl e)) fun m => List.mem_cons_of_mem _ (h x m)
  | rel l =>
    intro x hx
    simp only [Rules.after] at hx ⊢
    cases hu : G.under l with
    | none => rw [hu] at hx; exact f _ x hx
    | some u =>
      rw [hu] at hx
      dsimp only at hx ⊢
      split at hx
      · rename_i hm
        rw [if_pos (f _ _ hm)]
        exact (List.mem_cons.1 hx).elim (fun e => List.mem_cons.2 (.inl e)) fun m => List.mem_cons_of_mem _ (f _ x m)
      · split
        · exact List.mem_cons_of_mem _ (f _ x hx)
        · exact f _ x hx
  | relS l => exact f _
  | rd v => exact h
  | wr v => exact h

theorem obeys_mono (G : Rules L V R) (r : R) : ∀ (t : List (TAct L V)) {A B : Had L}, (∀ x ∈ A, x ∈ B) → G.Obeys r A t → G.Obeys r B t
  | [], _, _, _, _ => trivial
  | a :: t, _, _, h, o => ⟨ok_mono G r h a o.1, obeys_mono G r t (after_mono G h a) o.2⟩

/-- Locks surely had after a piece of code. -/
def Rules.post (G : Rules L V R) : TProg L V → Had L → Had L
  | .skip, A => A
  | .act a, A => G.after A a
  | .seq p q, A => G.post q (G.post p A)
  | .alt p _, A => G.post p A
  | .star _, A => A
  | .any _, A => A

/-- The check of a piece of code. -/
def Rules.Check (G : Rules L V R) (r : R) : TProg L V → Had L → Prop
  | .skip, _ => True
  | .act a, A => G.ok r A a
  | .seq p q, A => G.Check r p A ∧ G.Check r q (G.post p A)
  | .alt p q, A => G.Check r p A ∧ G.Check r q A ∧ ∀ x ∈ G.post p A, x ∈ G.post q A
  | .star p, A => G.Check r p A ∧ ∀ x ∈ A, x ∈ G.post p A
  | .any f, A => ∀ i, G.Check r (f i) A ∧ ∀ x ∈ A, x ∈ G.post (f i) A

/-- A checked piece of code obeys the rules whatever branches it takes. -/
theorem check_sound (G : Rules L V R) (r : R) {p : TProg L V} {t : List (TAct L V)} (run : Runs p t) :
    ∀ (A : Had L), G.Check r p A → ∀ u, G.Obeys r (G.post p A) u → G.Obeys r A (t ++ u) := by
  induction run with
  | skip => exact fun _ _ _ h => h
  | act a => exact fun _ c _ h => ⟨c, h⟩
  | seq _ _ ih1 ih2 =>
    intro A c u h
    rw [List.append_assoc]
    exact ih1 A c.1 _ (ih2 _ c.2 u h)
  | left _ ih => exact fun A c u h => ih A c.1 u h
  | right _ ih => exact fun A c u h => ih A c.2.1 u (obeys_mono G r u c.2.2 h)
  | stop => exact fun _ _ _ h => h
  | again _ _ ih1 ih2 =>
    intro A c u h
    rw [List.append_assoc]
    exact ih1 A c.1 _ (obeys_mono G r _ c.2 (ih2 A c u h))
  | any i _ ih => exact fun A c u h => ih A (c i).1 u (obeys_mono G r u (c i).2 h)

/-- The guards make sense: a set of locks for writing meets every other set. -/
structure Rules.Sound (G : Rules L V R) (solo : R → Prop) : Prop where
  meets : ∀ v w rs, G.guard v = some (.locks w rs) → ∀ x ∈ w, ∀ y ∈ w ++ rs, ∃ l ∈ x, l ∈ y
  solo : ∀ v r, G.guard v = some (.owner r) → solo r

/-- What is always true of the locks of the threads. -/
structure LockInv (G : Rules L V R) (role : Nat → R) (s : Threads L V) (A : Nat → Had L) : Prop where
  obeys : ∀ i, G.Obeys (role i) (A i) (s i).rest
  excl : ∀ i l, (l, true) ∈ (s i).held ↔ (l, Kind.excl) ∈ A i
  shared : ∀ i l, (l, false) ∈ (s i).held ↔ (l, Kind.shared) ∈ A i
  alone : ∀ i j l k k', i ≠ j → (l, k) ∈ A i → k ≠ .shared → (l, k') ∉ A j
  ghost : ∀ i l, (l, Kind.ghost) ∈ A i → ∃ u, G.under l = some u ∧ (u, Kind.excl) ∈ A i

theorem lockInv_step (G : Rules L V R) (role : Nat → R) {s t : Threads L V} {A : Nat → Had L} (h : LockInv G role s A) (st : ThreadStep s t) :
    ∃ B, LockInv G role t B := by
  obtain ⟨i, a, rest, hr, free⟩ := st
  have ho := h.obeys i
  rw [hr] at ho
  obtain ⟨ok, ho⟩ := ho
  refine ⟨fun j => if j = i then G.after (A i) a else A j, ?_, ?_, ?_, ?_, ?_⟩
  · intro j
    by_cases e : j = i
    · subst e; simpa using ho
    · simpa [e] using h.obeys j
  · intro j l
    by_cases e : j = i
    · subst e
      simp only [if_true]
      cases a with
      | acq m => simp [heldAfter, Rules.after, h.excl j l]
      | tryAcq m => simp [heldAfter, Rules.after, h.excl j l]
      | acqS m => simp [heldAfter, Rules.after, h.excl j l]
      | rel m =>
        have : (l, Kind.excl) ∈ G.after (A j) (.rel m : TAct L V) ↔ (l, Kind.excl) ∈ A j ∧ l ≠ m := by
          simp only [Rules.after]
          split
          · simp
          · split <;> simp
        rw [this]
        simp [heldAfter, h.excl j l]
      | relS m => simp [heldAfter, Rules.after, h.excl j l]
      | rd v => exact h.excl j l
      | wr v => exact h.excl j l
    · simpa [e] using h.excl j l
  · intro j l
    by_cases e : j = i
    · subst e
      simp only [if_true]
      cases a with
      | acq m => simp [heldAfter, Rules.after, h.shared j l]
      | tryAcq m => simp [heldAfter, Rules.after, h.shared j l]
      | acqS m => simp [heldAfter, Rules.after, h.shared j l]
      | rel m =>
        have : (l, Kind.shared) ∈ G.after (A j) (.rel m : TAct L V) ↔ (l, Kind.shared) ∈ A j := by
          simp only [Rules.after]
          split
          · simp
          · split <;> simp
        rw [this]
        simp [heldAfter, h.shared j l]
      | relS m => simp [heldAfter, Rules.after, h.shared j l]
      | rd v => exact h.shared j l
      | wr v => exact h.shared j l
    · simpa [e] using h.shared j l
  · -- the new locks of thread i exclude those of the others
    have new : ∀ l k, (l, k) ∈ G.after (A i) a → k ≠ .shared → ∀ j, j ≠ i → ∀ k', (l, k') ∉ A j := by
      intro l k hm hk j hj k' hm'
      cases a with
      | acq m =>
        simp only [Rules.after, List.mem_cons] at hm
        rcases hm with hm | hm
        · injection hm with e1 e2
          subst e1
          cases k' with
          | excl => exact free j true ((h.excl j l).2 hm')
          | shared => exact free j false ((h.shared j l).2 hm')
          | ghost =>
            obtain ⟨u, hu, hx⟩ := h.ghost j l hm'
            rcases ok u hu with o | o
            · exact h.alone j i u .excl .excl hj hx (by simp) o
            · exact h.alone j i u .excl .shared hj hx (by simp) o
        · exact h.alone i j l k k' (Ne.symm hj) hm hk hm'
      | tryAcq m =>
        simp only [Rules.after, List.mem_cons] at hm
        rcases hm with hm | hm
        · injection hm with e1 e2
          subst e1
          cases k' with
          | excl => exact free j true ((h.excl j l).2 hm')
          | shared => exact free j false ((h.shared j l).2 hm')
          | ghost =>
            obtain ⟨u, hu, hx⟩ := h.ghost j l hm'
            rcases ok u hu with o | o
            · exact h.alone j i u .excl .excl hj hx (by simp) o
            · exact h.alone j i u .excl .shared hj hx (by simp) o
        · exact h.alone i j l k k' (Ne.symm hj) hm hk hm'
      | acqS m =>
        simp only [Rules.after, List.mem_cons] at hm
        rcases hm with hm | hm
        · injection hm with e1 e2
          exact hk e2
        · exact h.alone i j l k k' (Ne.symm hj) hm hk hm'
      | rel m =>
        have : (l, k) ∈ A i ∨ l = m := by
          simp only [Rules.after] at hm
          split at hm
          · exact .inl (List.mem_filter.1 hm).1
          · split at hm
            · rcases List.mem_cons.1 hm with hm | hm
              · injection hm with e1 e2; exact .inr e1
              · exact .inl (List.mem_filter.1 hm).1
            · exact .inl (List.mem_filter.1 hm).1
        rcases this with hm | rfl
        · exact h.alone i j l k k' (Ne.symm hj) hm hk hm'
        · exact h.alone i j l .excl k' (Ne.symm hj) ok (by simp) hm'
      | relS m => exact h.alone i j l k k' (Ne.symm hj) (List.mem_filter.1 hm).1 hk hm'
      | rd v => exact h.alone i j l k k' (Ne.symm hj) hm hk hm'
      | wr v => exact h.alone i j l k k' (Ne.symm hj) hm hk hm'
    -- and the locks of the others exclude the new ones
    have old : ∀ l k', (l, k') ∈ G.after (A i) a → ∀ j, j ≠ i → ∀ k, k ≠ .shared → (l, k) ∉ A j := by
      intro l k' hm' j hj k hk hm
      cases hk' : k' with
      | excl => exact new l k' hm' (by simp [hk']) j hj k hm
      | ghost => exact new l k' hm' (by simp [hk']) j hj k hm
      | shared =>
        subst hk'
        cases a with
        | acq m =>
          simp only [Rules.after, List.mem_cons] at hm'
          rcases hm' with hm' | hm'
          · injection hm' with _ e2; cases e2
          · exact h.alone j i l k .shared hj hm hk hm'
        | tryAcq m =>
          simp only [Rules.after, List.mem_cons] at hm'
          rcases hm' with hm' | hm'
          · injection hm' with _ e2; cases e2
          · exact h.alone j i l k .shared hj hm hk hm'
        | acqS m =>
          simp only [Rules.after, List.mem_cons] at hm'
          rcases hm' with hm' | hm'
          · injection hm' with e1 e2
            subst e1
            cases k with
            | shared => exact hk rfl
            | excl => exact free j ((h.excl j l).2 hm)
            | ghost =>
              obtain ⟨u, hu, _⟩ := h.ghost j l hm
              have ok' : G.under l = none := ok
              rw [ok'] at hu; cases hu
          · exact h.alone j i l k .shared hj hm hk hm'
        | rel m =>
          have : (l, Kind.shared) ∈ A i := by
            simp only [Rules.after] at hm'
            split at hm'
            · exact (List.mem_filter.1 hm').1
            · split at hm'
              · rcases List.mem_cons.1 hm' with hm' | hm'
                · injection hm' with _ e2; cases e2
                · exact (List.mem_filter.1 hm').1
              · exact (List.mem_filter.1 hm').1
          exact h.alone j i l k .shared hj hm hk this
        | relS m => exact h.alone j i l k .shared hj hm hk (List.mem_filter.1 hm').1
        | rd v => exact h.alone j i l k .shared hj hm hk hm'
        | wr v => exact h.alone j i l k .shared hj hm hk hm'
    intro p q l k k' hpq hm hk hm'
    by_cases ep : p = i
    · subst ep
      simp only [if_true] at hm
      simp only [if_neg (Ne.symm hpq)] at hm'
      exact new l k hm hk q (Ne.symm hpq) k' hm'
    · simp only [if_neg ep] at hm
      by_cases eq : q = i
      · subst eq
        simp only [if_true] at hm'
        exact old l k' hm' p ep k hk hm
      · simp only [if_neg eq] at hm'
        exact h.alone p q l k k' hpq hm hk hm'
  · intro j l hm
    by_cases e : j = i
    · subst e
      simp only [if_true] at hm ⊢
      cases a with
      | acq m =>
        simp only [Rules.after, List.mem_cons] at hm
        rcases hm with hm | hm
        · injection hm with _ e2; cases e2
        · obtain ⟨u, h1, h2⟩ := h.ghost j l hm
          exact ⟨u, h1, List.mem_cons_of_mem _ h2⟩
      | tryAcq m =>
        simp only [Rules.after, List.mem_cons] at hm
        rcases hm with hm | hm
        · injection hm with _ e2; cases e2
        · obtain ⟨u, h1, h2⟩ := h.ghost j l hm
          exact ⟨u, h1, List.mem_cons_of_mem _ h2⟩
      | acqS m =>
        simp only [Rules.after, List.mem_cons] at hm
        rcases hm with hm | hm
        · injection hm with _ e2; cases e2
        · obtain ⟨u, h1, h2⟩ := h.ghost j l hm
          exact ⟨u, h1, List.mem_cons_of_mem _ h2⟩
      | rel m =>
        have keep : (l, Kind.ghost) ∈ (A j).filter (fun x => ¬ (x = (m, .excl) ∨ (x.2 = .ghost ∧ G.under x.1 = some m))) →
            ∃ u, G.under l = some u ∧ (u, Kind.excl) ∈ (A j).filter (fun x => ¬ (x = (m, .excl) ∨ (x.2 = .ghost ∧ G.under x.1 = some m))) := by
          intro hm
          obtain ⟨h0, h1⟩ := List.mem_filter.1 hm
          obtain ⟨u, h2, h3⟩ := h.ghost j l h0
          refine ⟨u, h2, List.mem_filter.2 ⟨h3, ?_⟩⟩
          refine decide_eq_true ?_
          rintro (hu | ⟨hu, _⟩)
          · injection hu with hu
            subst hu
            exact of_decide_eq_true h1 (.inr ⟨rfl, h2⟩)
          · cases hu
        simp only [Rules.after] at hm ⊢
        split at hm
        · exact keep hm
        · rename_i u hu
          split at hm
          · rename_i hx
            rw [if_pos hx]
            rcases List.mem_cons.1 hm with hm | hm
            · injection hm with e1 _
              subst e1
              exact ⟨u, hu, List.mem_cons_of_mem _ hx⟩
            · obtain ⟨u', h1, h2⟩ := keep hm
              exact ⟨u', h1, List.mem_cons_of_mem _ h2⟩
          · rename_i hx
            rw [if_neg hx]
            exact keep hm
      | relS m =>
        obtain ⟨h0, _⟩ := List.mem_filter.1 hm
        obtain ⟨u, h1, h2⟩ := h.ghost j l h0
        exact ⟨u, h1, List.mem_filter.2 ⟨h2, by simp⟩⟩
      | rd v => exact h.ghost j l hm
      | wr v => exact h.ghost j l hm
    · simp only [if_neg e] at hm ⊢
      exact h.ghost j l hm

theorem lockInv_reach (G : Rules L V R) (role : Nat → R) {s t : Threads L V} (A) (h : LockInv G role s A) (r : ThreadsReach s t) : ∃ B, LockInv G role t B := by
  induction r with
  | refl => exact ⟨A, h⟩
  | step _ st ih => obtain ⟨B, hB⟩ := ih; exact lockInv_step G role hB st

/-- Checked code has no race on a guarded variable. -/
theorem no_race (G : Rules L V R) {solo : R → Prop} (hG : G.Sound solo) (code : R → TProg L V) (hc : ∀ r, G.Check r (code r) [])
    (role : Nat → R) (hs : ∀ i j, solo (role i) → role i = role j → i = j) {s t : Threads L V} (h0 : Starting code role s) (h : ThreadsReach s t)
    (v : V) {g} (hv : G.guard v = some g) : ¬ Race t v := by
  have i0 : LockInv G role s (fun _ => []) := by
    refine ⟨?_, ?_, ?_, ?_, ?_⟩
    · intro i
      have := check_sound G (role i) (h0 i).2 [] (hc _) [] trivial
      rwa [List.append_nil] at this
    · intro i l; simp [(h0 i).1]
    · intro i l; simp [(h0 i).1]
    · intro i j l k k' _ hm; cases hm
    · intro i l hm; cases hm
  obtain ⟨A, inv⟩ := lockInv_reach G role _ i0 h
  rintro ⟨i, j, hij, hw, hrw⟩
  have first : ∀ i a, (t i).rest.head? = some a → G.ok (role i) (A i) a := by
    intro i a ha
    have := inv.obeys i
    cases hr : (t i).rest with
    | nil => rw [hr] at ha; cases ha
    | cons b l =>
      rw [hr] at ha this
      simp only [List.head?_cons, Option.some.injEq] at ha
      subst ha
      exact this.1
  have wi := first i _ hw
  simp only [Rules.ok, hv] at wi
  cases g with
  | locks ws rs =>
    obtain ⟨x, hx, hl⟩ := wi
    have other : ∃ y ∈ ws ++ rs, ∀ l ∈ y, (A j).some_ l := by
      rcases hrw with h' | h'
      · have o := first j _ h'
        simp only [Rules.ok, hv] at o
        obtain ⟨y, hy, hl⟩ := o
        refine ⟨y, List.mem_append_left _ hy, fun l hl' => ?_⟩
        rcases hl l hl' with o | o
        · exact ⟨_, o⟩
        · exact ⟨_, o⟩
      · have o := first j _ h'
        simp only [Rules.ok, hv] at o
        obtain ⟨y, hy, hl⟩ := o
        exact ⟨y, List.mem_append_right _ hy, hl⟩
    obtain ⟨y, hy, hl'⟩ := other
    obtain ⟨l, h1, h2⟩ := hG.meets v ws rs hv x hx y hy
    obtain ⟨k, hk⟩ := hl' l h2
    rcases hl l h1 with o | o
    · exact inv.alone i j l _ k hij o (by simp) hk
    · exact inv.alone i j l _ k hij o (by simp) hk
  | owner r =>
    have rj : role j = r := by
      rcases hrw with h' | h'
      · have o := first j _ h'; simpa only [Rules.ok, hv] using o
      · have o := first j _ h'; simpa only [Rules.ok, hv] using o
    exact hij (hs i j (by rw [wi]; exact hG.solo v r hv) (wi.trans rj.symm))
  | const => exact wi

end Fcgi.Lemmas
