import Verif.Spec.HelperLife
/-! # C123: starting, stopping and destroying the HTTP client, the mailer and SQL connections -/
namespace Fcgi.Props
open Fcgi.Spec Fcgi.Model

theorem hlife_append (k : Helper) (ops ops' : List HelperOp) : ∀ l, HLife.run k l (ops ++ ops') = match HLife.run k l ops with
    | .ok l' => l'.run k ops' | r => r := by
  induction ops with
  | nil => intro l; rfl
  | cons op ops ih =>
    intro l
    simp only [List.cons_append, HLife.run]
    cases l.step k op with
    | ok l' => exact ih l'
    | _ => rfl

theorem hlife_snoc {k : Helper} {l0 : HLife} {ops : List HelperOp} {op : HelperOp} {l : HLife} (h : HLife.run k l0 (ops ++ [op]) = .ok l) :
    ∃ l1, HLife.run k l0 ops = .ok l1 ∧ l1.step k op = .ok l := by
  rw [hlife_append] at h
  cases h1 : HLife.run k l0 ops with
  | ok l1 =>
    rw [h1] at h
    simp only [HLife.run] at h
    refine ⟨l1, rfl, ?_⟩
    cases h2 : l1.step k op with
    | ok l2 => rw [h2] at h; exact h
    | blocked => rw [h2] at h; cases h
    | aborts => rw [h2] at h; cases h
    | gone => rw [h2] at h; cases h
    | undefined => rw [h2] at h; cases h
  | blocked => rw [h1] at h; cases h
  | aborts => rw [h1] at h; cases h
  | gone => rw [h1] at h; cases h
  | undefined => rw [h1] at h; cases h

/-- A list that ends in `x` and, elsewhere, an element followed by no `j`. -/
theorem snoc_split {α} {ops a b : List α} {x y : α} (h : ops ++ [y] = a ++ x :: b) : (b = [] ∧ ops = a ∧ y = x) ∨ ∃ b', b = b' ++ [y] ∧ ops = a ++ x :: b' := by
  rcases List.eq_nil_or_concat b with rfl | ⟨b', z, rfl⟩
  · obtain ⟨rfl, hx⟩ := List.append_inj' h rfl
    exact .inl ⟨rfl, rfl, by simpa using hx⟩
  · rw [List.concat_eq_append] at h ⊢
    have h' : ops ++ [y] = (a ++ x :: b') ++ [z] := by simpa using h
    obtain ⟨rfl, hz⟩ := List.append_inj' h' rfl
    obtain rfl : y = z := by simpa using hz
    exact .inr ⟨b', rfl, rfl⟩

theorem unjoined_snoc (ops : List HelperOp) (op : HelperOp) : Unjoined (ops ++ [op]) ↔ op = .start ∨ op ≠ .join ∧ Unjoined ops := by
  constructor
  · rintro ⟨a, b, h, hb⟩
    rcases snoc_split h with ⟨rfl, rfl, rfl⟩ | ⟨b', rfl, rfl⟩
    · exact .inl rfl
    · simp only [List.mem_append, List.mem_singleton, not_or] at hb
      exact .inr ⟨fun e => hb.2 e.symm, a, b', rfl, hb.1⟩
  · rintro (rfl | ⟨h, a, b, rfl, hb⟩)
    · exact ⟨ops, [], rfl, by simp⟩
    · exact ⟨a, b ++ [op], by simp, by simp only [List.mem_append, List.mem_singleton, not_or]; exact ⟨hb, fun e => h e.symm⟩⟩

theorem ended_snoc (ops : List HelperOp) (op : HelperOp) : EndedUnjoined (ops ++ [op]) ↔ op = .ends ∨ op ≠ .join ∧ EndedUnjoined ops := by
  constructor
  · rintro ⟨a, b, h, hb⟩
    rcases snoc_split h with ⟨rfl, rfl, rfl⟩ | ⟨b', rfl, rfl⟩
    · exact .inl rfl
    · simp only [List.mem_append, List.mem_singleton, not_or] at hb
      exact .inr ⟨fun e => hb.2 e.symm, a, b', rfl, hb.1⟩
  · rintro (rfl | ⟨h, a, b, rfl, hb⟩)
    · exact ⟨ops, [], rfl, by simp⟩
    · exact ⟨a, b ++ [op], by simp, by simp only [List.mem_append, List.mem_singleton, not_or]; exact ⟨hb, fun e => h e.symm⟩⟩

/-- What the history says of the object. -/
structure HInv (k : Helper) (ops : List HelperOp) (l : HLife) : Prop where
  none : l.thread = .none ↔ ¬ Unjoined ops
  ended : l.thread = .ended ↔ EndedUnjoined ops
  asked : l.thread ≠ .none → ((l.stop = some true ∨ l.term = some true) ↔ AskedToEnd ops)
  inited : l.inited = true ↔ k = .curler ∨ .init ∈ ops
  waking : .start ∈ ops → l.waking = true
  flags : .start ∈ ops → l.stop.isSome = true ∧ l.inited = true

theorem unjoined_first {ops : List HelperOp} (h : Unjoined ops) : ∃ a b, ops = a ++ .start :: b ∧ ¬ Unjoined a ∧ .join ∉ b := by
  obtain ⟨a, b, e, hb⟩ := h
  suffices H : ∀ (n : Nat) (a b : List HelperOp), a.length ≤ n → ops = a ++ .start :: b → .join ∉ b →
      ∃ a b, ops = a ++ .start :: b ∧ ¬ Unjoined a ∧ .join ∉ b from H _ a b (Nat.le_refl _) e hb
  intro n
  induction n with
  | zero =>
    intro a b hn e hb
    refine ⟨a, b, e, ?_, hb⟩
    rintro ⟨c, d, rfl, _⟩
    simp at hn
  | succ n ih =>
    intro a b hn e hb
    by_cases ha : Unjoined a
    · obtain ⟨c, d, rfl, hd⟩ := ha
      refine ih c (d ++ .start :: b) (by simp at hn; omega) (by rw [e]; simp) ?_
      simp only [List.mem_append, List.mem_cons, not_or]
      exact ⟨hd, by simp, hb⟩
    · exact ⟨a, b, e, ha, hb⟩

theorem asked_unjoined {ops : List HelperOp} (h : AskedToEnd ops) : Unjoined ops := by
  obtain ⟨a, b, c, x, rfl, _, hb, hx, hc⟩ := h
  refine ⟨a, b ++ x :: c, by simp, ?_⟩
  simp only [List.mem_append, List.mem_cons, not_or]
  exact ⟨hb, by rcases hx with rfl | rfl <;> simp, hc⟩

theorem asked_snoc (ops : List HelperOp) (op : HelperOp) :
    AskedToEnd (ops ++ [op]) ↔ op ≠ .join ∧ (AskedToEnd ops ∨ (op = .stop ∨ op = .terminate) ∧ Unjoined ops) := by
  constructor
  · rintro ⟨a, b, c, x, h, ha, hb, hx, hc⟩
    rcases snoc_split h with ⟨rfl, rfl, rfl⟩ | ⟨c', rfl, rfl⟩
    · exact ⟨by rcases hx with rfl | rfl <;> simp, .inr ⟨hx, a, b, rfl, hb⟩⟩
    · simp only [List.mem_append, List.mem_singleton, not_or] at hc
      exact ⟨fun e => hc.2 e.symm, .inl ⟨a, b, c', x, rfl, ha, hb, hx, hc.1⟩⟩
  · rintro ⟨hj, ⟨a, b, c, x, rfl, ha, hb, hx, hc⟩ | ⟨hx, hu⟩⟩
    · exact ⟨a, b, c ++ [op], x, by simp, ha, hb, hx, by simp only [List.mem_append, List.mem_singleton, not_or]; exact ⟨hc, fun e => hj e.symm⟩⟩
    · obtain ⟨a, b, rfl, ha, hb⟩ := unjoined_first hu
      exact ⟨a, b, [], op, rfl, ha, hb, hx, by simp⟩

theorem hinv (k : Helper) (ops : List HelperOp) : ∀ l, HLife.run k (.fresh k) ops = .ok l → HInv k ops l := by
  suffices h : ∀ (rev : List HelperOp) l, HLife.run k (.fresh k) rev.reverse = .ok l → HInv k rev.reverse l by
    intro l hl
    have := h ops.reverse l
    rw [List.reverse_reverse] at this
    exact this hl
  intro rev
  induction rev with
  | nil =>
    intro l h
    cases h
    have u : ¬ Unjoined [] := by rintro ⟨a, b, h, _⟩; simp at h
    have e : ¬ EndedUnjoined [] := by rintro ⟨a, b, h, _⟩; simp at h
    cases k <;>
      exact ⟨by simpa [HLife.fresh] using u, by simpa [HLife.fresh] using e, by simp [HLife.fresh], by simp [HLife.fresh], by simp, by simp⟩
  | cons op rev ih =>
    intro l h
    rw [List.reverse_cons] at h ⊢
    obtain ⟨l1, h1, h2⟩ := hlife_snoc h
    have i := ih l1 h1
    clear h ih h1
    generalize rev.reverse = ops at i
    obtain ⟨i1, i2, i3, i4, i5, i6⟩ := i
    cases op with
    | init =>
      cases h2
      refine ⟨?_, ?_, ?_, ?_, ?_, ?_⟩
      · rw [unjoined_snoc]; simpa using i1
      · rw [ended_snoc]; simpa using i2
      · rw [asked_snoc]; simpa using i3
      · simp
      · simpa using i5
      · intro hs; exact ⟨(i6 (by simpa using hs)).1, rfl⟩
    | start =>
      simp only [HLife.step] at h2
      by_cases ht : l1.thread = .none
      · rw [if_neg (by simpa using ht)] at h2
        split at h2
        · rename_i hi
          cases h2
          have nu := i1.1 ht
          refine ⟨by rw [unjoined_snoc]; simp, ?_, ?_, ?_, by simp, ?_⟩
          · rw [ended_snoc]
            simp only [reduceCtorEq, false_or, ne_eq, not_false_eq_true, true_and, false_iff]
            intro he
            have := i2.2 he
            rw [ht] at this; cases this
          · intro _
            rw [asked_snoc]
            simp only [Option.some.injEq, Bool.false_eq_true, or_self, ne_eq, reduceCtorEq, not_false_eq_true, false_and, or_false,
              true_and, false_iff]
            exact fun x => nu (asked_unjoined x)
          · simpa using i4
          · simp [hi]
        · cases h2
      · rw [if_pos ht] at h2
        cases h2
        refine ⟨?_, ?_, ?_, ?_, ?_, ?_⟩
        · rw [unjoined_snoc]; simp [ht]
        · rw [ended_snoc]; simpa using i2
        · intro hn
          rw [asked_snoc]
          simpa using i3 hn
        · simpa using i4
        · intro _
          have hu : Unjoined ops := Classical.byContradiction fun c => ht (i1.2 c)
          obtain ⟨a, b, rfl, _⟩ := hu
          exact i5 (by simp)
        · intro _
          have hu : Unjoined ops := Classical.byContradiction fun c => ht (i1.2 c)
          obtain ⟨a, b, rfl, _⟩ := hu
          exact i6 (by simp)
    | stop =>
      simp only [HLife.step] at h2
      split at h2
      · cases h2
        refine ⟨?_, ?_, ?_, ?_, ?_, ?_⟩
        · rw [unjoined_snoc]; simpa using i1
        · rw [ended_snoc]; simpa using i2
        · intro hn
          rw [asked_snoc]
          have hu : Unjoined ops := Classical.byContradiction fun c => hn (i1.2 c)
          simp [hu]
        · simpa using i4
        · simpa using i5
        · intro hs; exact ⟨rfl, (i6 (by simpa using hs)).2⟩
      · cases h2
    | terminate =>
      simp only [HLife.step] at h2
      split at h2
      · cases h2
        refine ⟨?_, ?_, ?_, ?_, ?_, ?_⟩
        · rw [unjoined_snoc]; simpa using i1
        · rw [ended_snoc]; simpa using i2
        · intro hn
          rw [asked_snoc]
          have hu : Unjoined ops := Classical.byContradiction fun c => hn (i1.2 c)
          simp [hu]
        · simpa using i4
        · simpa using i5
        · simpa using i6
      · cases h2
    | join =>
      simp only [HLife.step] at h2
      split at h2
      · cases h2
      · cases h2
        refine ⟨by rw [unjoined_snoc]; simp, by rw [ended_snoc]; simp, by simp, ?_, ?_, ?_⟩
        · simpa using i4
        · simpa using i5
        · simpa using i6
    | queue =>
      have e : l = l1 := by
        cases k <;> simp only [HLife.step] at h2 <;> split at h2 <;> first | (cases h2; done) | (injection h2 with h2; exact h2.symm)
      subst e
      refine ⟨?_, ?_, ?_, ?_, ?_, ?_⟩
      · rw [unjoined_snoc]; simpa using i1
      · rw [ended_snoc]; simpa using i2
      · rw [asked_snoc]; simpa using i3
      · simpa using i4
      · simpa using i5
      · simpa using i6
    | destroy =>
      simp only [HLife.step] at h2
      split at h2 <;> cases h2
    | ends =>
      simp only [HLife.step] at h2
      split at h2
      · rename_i hr
        cases h2
        refine ⟨?_, by rw [ended_snoc]; simp, ?_, ?_, ?_, ?_⟩
        · rw [unjoined_snoc]
          have : ¬ l1.thread = .none := by rw [hr.1]; simp
          rw [i1] at this
          have hu : Unjoined ops := Classical.byContradiction this
          simp [hu]
        · intro _
          rw [asked_snoc]
          simpa using i3 (by rw [hr.1]; simp)
        · simpa using i4
        · simpa using i5
        · simpa using i6
      · cases h2

/-- In whatever order the calls are made: there is no thread before start() and after join() has returned; between them it runs until it
ends. -/
theorem C123_thread (k : Helper) (ops : List HelperOp) (l : HLife) (h : HLife.run k (.fresh k) ops = .ok l) :
    (l.thread = .none ↔ ¬ Unjoined ops) ∧ (l.thread = .ended ↔ EndedUnjoined ops) ∧
    (l.thread = .runs ↔ Unjoined ops ∧ ¬ EndedUnjoined ops) := by
  have i := hinv k ops l h
  refine ⟨i.none, i.ended, ?_⟩
  rw [← i.ended]
  cases ht : l.thread with
  | none => have := i.none.1 ht; simp [this]
  | runs => simp only [reduceCtorEq, not_false_eq_true, and_true, true_iff]; exact Classical.byContradiction fun c => by simp [i.none.2 c] at ht
  | ended => simp

/-- start(), after init(), of an object that has no thread: it has one that runs, and that has not been asked to end, whatever stop() and
terminate() were called before. -/
theorem C123_start (k : Helper) (ops : List HelperOp) (l : HLife) (h : HLife.run k (.fresh k) ops = .ok l)
    (hi : k = .curler ∨ .init ∈ ops) (hj : ¬ Unjoined ops) :
    ∃ l', HLife.run k (.fresh k) (ops ++ [.start]) = .ok l' ∧ l'.thread = .runs ∧ l'.step k .ends = .blocked := by
  have i := hinv k ops l h
  have ht := i.none.2 hj
  have hin := i.inited.2 hi
  refine ⟨{ l with stop := some false, term := some false, waking := true, thread := .runs }, ?_, rfl, by simp [HLife.step]⟩
  rw [hlife_append, h]
  simp [HLife.run, HLife.step, ht, hin]

/-- The thread ends only if stop() or terminate() has been called since it was started (and can end if it has). -/
theorem C123_ends (k : Helper) (ops : List HelperOp) (l : HLife) (h : HLife.run k (.fresh k) ops = .ok l) :
    (∃ l', HLife.run k (.fresh k) (ops ++ [.ends]) = .ok l') ↔ ¬ EndedUnjoined ops ∧ AskedToEnd ops := by
  have i := hinv k ops l h
  obtain ⟨_, t2, t3⟩ := C123_thread k ops l h
  have hs : HLife.run k (.fresh k) (ops ++ [.ends]) = l.step k .ends := by
    rw [hlife_append, h]
    simp only [HLife.run]
    cases l.step k .ends <;> rfl
  rw [hs]
  simp only [HLife.step]
  constructor
  · rintro ⟨l', e⟩
    split at e
    · rename_i hc
      exact ⟨(t3.1 hc.1).2, (i.asked (by rw [hc.1]; simp)).1 hc.2⟩
    · cases e
  · rintro ⟨he, ha⟩
    have hu := asked_unjoined ha
    have hr := t3.2 ⟨hu, he⟩
    rw [if_pos ⟨hr, (i.asked (by rw [hr]; simp)).2 ha⟩]
    exact ⟨_, rfl⟩

/-- join() returns exactly if no thread runs; afterwards there is none. -/
theorem C123_join (k : Helper) (ops : List HelperOp) (l : HLife) (h : HLife.run k (.fresh k) ops = .ok l) :
    (HLife.run k (.fresh k) (ops ++ [.join]) = .blocked ∧ Unjoined ops ∧ ¬ EndedUnjoined ops) ∨
    (∃ l', HLife.run k (.fresh k) (ops ++ [.join]) = .ok l' ∧ l'.thread = .none) ∧ (¬ Unjoined ops ∨ EndedUnjoined ops) := by
  obtain ⟨t1, t2, t3⟩ := C123_thread k ops l h
  have hs : HLife.run k (.fresh k) (ops ++ [.join]) = l.step k .join := by
    rw [hlife_append, h]
    simp only [HLife.run]
    cases l.step k .join <;> rfl
  rw [hs]
  simp only [HLife.step]
  by_cases hr : l.thread = .runs
  · rw [if_pos hr]; exact .inl ⟨rfl, t3.1 hr⟩
  · rw [if_neg hr]
    refine .inr ⟨⟨_, rfl, rfl⟩, ?_⟩
    by_cases hu : Unjoined ops
    · exact .inr (Classical.byContradiction fun c => hr (t3.2 ⟨hu, c⟩))
    · exact .inl hu

/-- Calls in the order the headers describe neither end the program nor are undefined. -/
theorem C123_safe_partial (k : Helper) (ops : List HelperOp) (hd : Documented k ops) :
    HLife.run k (.fresh k) ops ≠ .aborts ∧ HLife.run k (.fresh k) ops ≠ .undefined := by
  suffices h : ∀ (rest done : List HelperOp) l, ops = done ++ rest → HLife.run k (.fresh k) done = .ok l →
      l.run k rest ≠ .aborts ∧ l.run k rest ≠ .undefined from h ops [] _ rfl rfl
  intro rest
  induction rest with
  | nil => intro done l _ _; simp [HLife.run]
  | cons op rest ih =>
    intro done l e h
    have i := hinv k done l h
    obtain ⟨d1, d2, d3⟩ := hd done op rest e
    have next : ∀ l', l.step k op = .ok l' → (HLife.run k l (op :: rest) ≠ .aborts ∧ HLife.run k l (op :: rest) ≠ .undefined) := by
      intro l' hs
      have := ih (done ++ [op]) l' (by rw [e]; simp) (by rw [hlife_append, h]; simp [HLife.run, hs])
      simpa [HLife.run, hs] using this
    have wakes : .start ∈ done → l.canWake k = true := by
      intro hs
      cases k
      · exact i.waking hs
      · rfl
      · exact (i.flags hs).2
    cases op with
    | init => exact next _ rfl
    | start =>
      by_cases ht : l.thread = .none
      · have hin : l.inited = true := by
          rw [i.inited]
          by_cases hk : k = .curler
          · exact .inl hk
          · exact .inr (d1 ⟨rfl, hk⟩)
        exact next { l with stop := some false, term := some false, waking := true, thread := .runs } (by simp [HLife.step, ht, hin])
      · exact next l (by simp [HLife.step, ht])
    | stop => exact next { l with stop := some true } (by simp [HLife.step, wakes (d2 (by simp))])
    | terminate => exact next { l with term := some true } (by simp [HLife.step, wakes (d2 (by simp))])
    | join =>
      by_cases hr : l.thread = .runs
      · simp [HLife.run, HLife.step, hr]
      · exact next { l with thread := .none } (by simp [HLife.step, hr])
    | queue =>
      have hs := d2 (by simp)
      have hw := wakes hs
      have hf := i.flags hs
      refine next l ?_
      cases k
      · simp [HLife.step, hw]
      · simp [HLife.step, hw]
      · simp only [HLife.step]
        rw [if_neg]
        rintro (c | c)
        · rw [c] at hf; simp at hf
        · rw [c] at hf; simp at hf
    | destroy =>
      have ht := i.none.2 (d3 rfl)
      simp [HLife.run, HLife.step, ht]
    | ends =>
      by_cases hc : l.thread = .runs ∧ (l.stop = some true ∨ l.term = some true)
      · exact next { l with thread := .ended } (by simp only [HLife.step]; rw [if_pos hc])
      · have : l.step k .ends = .blocked := by simp only [HLife.step]; rw [if_neg hc]
        simp [HLife.run, this]

/-- A documented history with a second start, and its states. -/
example : Documented .sql [.init, .start, .queue, .stop, .ends, .join, .start, .terminate, .ends, .join, .destroy] ∧
    HLife.run .sql (.fresh .sql) [.init, .start, .queue, .stop, .ends, .join, .start] = .ok ⟨true, true, some false, some false, .runs⟩ ∧
    HLife.run .sql (.fresh .sql) [.init, .start, .queue, .stop, .ends, .join, .start, .terminate, .ends, .join, .destroy] = .gone := by
  refine ⟨?_, by decide, by decide⟩
  intro a op b h
  have ha : a = ([.init, .start, .queue, .stop, .ends, .join, .start, .terminate, .ends, .join, .destroy] : List HelperOp).take a.length := by
    rw [h]; simp
  have hb : op = ([.init, .start, .queue, .stop, .ends, .join, .start, .terminate, .ends, .join, .destroy] : List HelperOp)[a.length]?.getD .init := by
    rw [h]; simp
  have hl : a.length < 11 := by have := congrArg List.length h; simp at this; omega
  have nj : ¬ Unjoined [.init, .start, .queue, .stop, .ends, .join, .start, .terminate, .ends, .join] := by
    intro h
    have := (unjoined_snoc [.init, .start, .queue, .stop, .ends, .join, .start, .terminate, .ends] .join).1 h
    simp at this
  generalize a.length = n at ha hb hl
  clear h
  subst ha
  match n, hl with
  | 0, _ | 1, _ | 2, _ | 3, _ | 4, _ | 5, _ | 6, _ | 7, _ | 8, _ | 9, _ => subst hb; simp
  | 10, _ => subst hb; exact ⟨by simp, by simp, fun _ => nj⟩

/-- Violated: destroying an object after stop(), or after its thread has ended, but without join(), ends the program. -/
theorem C123_destroy_violated (k : Helper) (mid : List HelperOp) (hm : ∀ x ∈ mid, x = .queue ∨ x = .stop ∨ x = .terminate) (tail : List HelperOp)
    (ht : tail = [] ∨ tail = [.ends]) :
    HLife.run k (.fresh k) (.init :: .start :: mid ++ [.stop] ++ tail ++ [.destroy]) = .aborts := by
  have hstart : HLife.run k (.fresh k) [.init, .start] = .ok ⟨true, true, some false, some false, .runs⟩ := by cases k <;> rfl
  have hmid : ∀ (mid : List HelperOp), (∀ x ∈ mid, x = .queue ∨ x = .stop ∨ x = .terminate) → ∀ b c, ∃ b' c',
      HLife.run k ⟨true, true, some b, some c, .runs⟩ mid = .ok ⟨true, true, some b', some c', .runs⟩ := by
    intro mid
    induction mid with
    | nil => intro _ b c; exact ⟨b, c, rfl⟩
    | cons x mid ih =>
      intro hm b c
      have hx := hm x (by simp)
      have ih := ih (fun y hy => hm y (by simp [hy]))
      rcases hx with rfl | rfl | rfl
      · obtain ⟨b', c', e⟩ := ih b c
        exact ⟨b', c', by cases k <;> simpa [HLife.run, HLife.step, HLife.canWake] using e⟩
      · obtain ⟨b', c', e⟩ := ih true c
        exact ⟨b', c', by cases k <;> simpa [HLife.run, HLife.step, HLife.canWake] using e⟩
      · obtain ⟨b', c', e⟩ := ih b true
        exact ⟨b', c', by cases k <;> simpa [HLife.run, HLife.step, HLife.canWake] using e⟩
  obtain ⟨b', c', e⟩ := hmid mid hm false false
  have e2 : HelperOp.init :: .start :: mid ++ [.stop] ++ tail ++ [.destroy] = [.init, .start] ++ (mid ++ (.stop :: tail ++ [.destroy])) := by simp
  rw [e2, hlife_append, hstart]
  dsimp only
  rw [hlife_append, e]
  dsimp only
  rcases ht with rfl | rfl
  · cases k <;> rfl
  · cases k <;> rfl

/-- Violated: start() after the thread has been asked to end, or has ended, but before join(), returns and starts nothing: when the old
thread has ended no thread runs. -/
theorem C123_restart_violated (k : Helper) :
    (∃ l, HLife.run k (.fresh k) [.init, .start, .stop, .ends, .start] = .ok l ∧ l.thread = .ended) ∧
    (∃ l, HLife.run k (.fresh k) [.init, .start, .stop, .start, .ends] = .ok l ∧ l.thread = .ended) := by
  cases k <;> exact ⟨⟨_, rfl, rfl⟩, _, rfl, rfl⟩

/-- Violated: stop() and terminate() of an HTTP client that was never started use a variable without a value; those of an SQL connection
that was not initialised write to a descriptor without a value, and queue() before start() tests a flag without a value. -/
theorem C123_early_violated :
    HLife.run .curler (.fresh .curler) [.stop] = .undefined ∧ HLife.run .curler (.fresh .curler) [.terminate] = .undefined ∧
    HLife.run .curler (.fresh .curler) [.queue] = .undefined ∧
    HLife.run .sql (.fresh .sql) [.stop] = .undefined ∧ HLife.run .sql (.fresh .sql) [.terminate] = .undefined ∧
    HLife.run .sql (.fresh .sql) [.init, .queue] = .undefined := ⟨rfl, rfl, rfl, rfl, rfl, rfl⟩

end Fcgi.Props
