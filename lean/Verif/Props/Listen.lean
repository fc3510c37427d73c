import Verif.Model.Listen
/-! # C117: listening on a named socket -/
namespace Fcgi.Props
open Fcgi.Model

/-- A client that connects to `name` reaches group `g`: the name is that of a socket of this group, which is open. -/
def Reaches (w : LWorld) (name : Bytes) (g : Nat) : Prop :=
  ∃ s u v m, w.fs name = some (.sock s u v m) ∧ s ∈ (w.groups g).listeners ∧ s ∈ w.opened

/-- A name that fits into a socket address. -/
def NameFits (name : Bytes) : Prop := name ≠ [] ∧ name.length ≤ 107

theorem sunPath_fits {name : Bytes} (h : name.length ≤ 107) : sunPath name = name := List.take_of_length_le h

theorem fsPut_same (fs : Bytes → Option FNode) (n : Bytes) (x) : fsPut fs n x n = x := by simp [fsPut]
theorem fsPut_other (fs : Bytes → Option FNode) {n m : Bytes} (x) (h : m ≠ n) : fsPut fs n x m = fs m := by simp [fsPut, h]

theorem remove_cases {w w' : LWorld} {os : ListenOs} {name : Bytes} (h : w.remove os name = some w') :
    w'.fs name = none ∧ (∀ q, q ≠ name → w'.fs q = w.fs q) ∧ w'.next = w.next ∧ w'.opened = w.opened ∧ w'.groups = w.groups := by
  unfold LWorld.remove at h
  split at h
  · cases h; exact ⟨by assumption, fun _ _ => rfl, rfl, rfl, rfl⟩
  · cases h
  · split at h
    · cases h; exact ⟨fsPut_same _ _ _, fun q hq => fsPut_other _ _ hq, rfl, rfl, rfl⟩
    · cases h

theorem tryRemove_frame (w : LWorld) (os : ListenOs) (name : Bytes) :
    (∀ q, q ≠ name → (w.tryRemove os name).fs q = w.fs q) ∧ (w.tryRemove os name).next = w.next ∧ (w.tryRemove os name).opened = w.opened ∧
      (w.tryRemove os name).groups = w.groups ∧ ((w.tryRemove os name).fs name = none ∨ (w.tryRemove os name).fs name = w.fs name) := by
  unfold LWorld.tryRemove
  cases h : w.remove os name with
  | none => exact ⟨fun _ _ => rfl, rfl, rfl, rfl, Or.inr rfl⟩
  | some w' => obtain ⟨a, b, c, d, e⟩ := remove_cases h; exact ⟨b, c, d, e, Or.inl a⟩

theorem bind_cases {w w' : LWorld} {os : ListenOs} {s : Nat} {path : Bytes} (h : w.bind os s path = some w') :
    w.fs path = none ∧ (path ≠ [] → w'.fs path = some (.sock s os.uid os.gid os.mode)) ∧ (path = [] → w' = w) ∧
      (∀ q, q ≠ path → w'.fs q = w.fs q) ∧ w'.next = w.next ∧ w'.opened = w.opened ∧ w'.groups = w.groups := by
  unfold LWorld.bind at h
  split at h
  · rename_i hb
    cases h
    by_cases hp : path = []
    · rw [if_pos hp]; exact ⟨hb.2, fun h => absurd hp h, fun _ => rfl, fun _ _ => rfl, rfl, rfl, rfl⟩
    · rw [if_neg hp]; exact ⟨hb.2, fun _ => fsPut_same _ _ _, fun h => absurd h hp, fun q hq => fsPut_other _ _ hq, rfl, rfl, rfl⟩
  · cases h

/-- What `chown` and `chmod` leave as it is. -/
structure Touched (w w' : LWorld) (name : Bytes) : Prop where
  fs : ∀ q, q ≠ name → w'.fs q = w.fs q
  next : w'.next = w.next
  opened : w'.opened = w.opened
  groups : w'.groups = w.groups

theorem chown_cases {w w' : LWorld} {os : ListenOs} {name : Bytes} {o g : Option Bytes} (h : w.chown os name o g = .ok (some w')) :
    Touched w w' name ∧
    (∀ s u v m, w.fs name = some (.sock s u v m) → ∃ u' v', w'.fs name = some (.sock s u' v' m) ∧
      (∀ a b, o = some a → g = some b → os.user a = some u' ∧ os.grp b = some v') ∧ ((o = none ∨ g = none) → u' = u ∧ v' = v)) ∧
    ((∀ s u v m, w.fs name ≠ some (.sock s u v m)) → w'.fs name = w.fs name) := by
  unfold LWorld.chown at h
  split at h
  · split at h
    · split at h
      · cases h
      · rename_i a b _ _ u v hu hv _ s0 u0 v0 m0 hfs
        split at h
        · cases h
          refine ⟨⟨fun q hq => fsPut_other _ _ hq, rfl, rfl, rfl⟩, ?_, ?_⟩
          · intro s u1 v1 m hs
            rw [hfs] at hs; cases hs
            exact ⟨u, v, fsPut_same _ _ _, fun a' b' ha hb => by cases ha; cases hb; exact ⟨hu, hv⟩, fun h => by rcases h with h | h <;> cases h⟩
          · intro hn; exact absurd hfs (hn _ _ _ _)
        · cases h
      · rename_i hns hfs
        split at h
        · cases h
          refine ⟨⟨fun q hq => rfl, rfl, rfl, rfl⟩, ?_, fun _ => rfl⟩
          intro s u1 v1 m hs
          rw [hs] at hfs; cases hfs
          exact absurd rfl (hns _ _ _ _)
        · cases h
    · cases h
  · rename_i hn
    cases h
    refine ⟨⟨fun q hq => rfl, rfl, rfl, rfl⟩, ?_, fun _ => rfl⟩
    intro s u v m hs
    exact ⟨u, v, hs, fun a b ha hb => absurd hb (by intro hb; exact hn a b ha hb), fun _ => ⟨rfl, rfl⟩⟩

theorem chmod_cases {w w' : LWorld} {os : ListenOs} {name : Bytes} {p : UInt32} (h : w.chmod os name p = some w') :
    Touched w w' name ∧
    (∀ s u v m, w.fs name = some (.sock s u v m) → ∃ m', w'.fs name = some (.sock s u v m') ∧
      (p ≠ 0xffffffff → m' = p.toNat % 4096) ∧ (p = 0xffffffff → m' = m)) ∧
    ((∀ s u v m, w.fs name ≠ some (.sock s u v m)) → w'.fs name = w.fs name) := by
  unfold LWorld.chmod at h
  split at h
  · rename_i hp
    split at h
    · cases h
    · rename_i s0 u0 v0 m0 hfs
      split at h
      · cases h
        refine ⟨⟨fun q hq => fsPut_other _ _ hq, rfl, rfl, rfl⟩, ?_, ?_⟩
        · intro s u v m hs
          rw [hfs] at hs; cases hs
          exact ⟨_, fsPut_same _ _ _, fun _ => rfl, fun h => absurd h hp⟩
        · intro hn; exact absurd hfs (hn _ _ _ _)
      · cases h
    · rename_i x hns hfs
      split at h
      · cases h
        exact ⟨⟨fun q hq => rfl, rfl, rfl, rfl⟩, fun s u v m hs => absurd hs (by rw [hfs]; intro hs; cases hs; exact hns _ _ _ _ rfl), fun _ => rfl⟩
      · cases h
  · rename_i hp
    cases h
    exact ⟨⟨fun q hq => rfl, rfl, rfl, rfl⟩, fun s u v m hs => ⟨m, hs, fun h => absurd h hp, fun _ => rfl⟩, fun _ => rfl⟩

/-- What a call of `listen` does, whatever it returns. -/
theorem listen_cases {w w' : LWorld} {os : ListenOs} {g : Nat} {name : Bytes} {p : UInt32} {o gr : Option Bytes} {r : Bool}
    (h : w.listenName os g name p o gr = .ok (r, w')) :
    (∀ q, q ≠ name → (q ≠ sunPath name ∨ w.fs q ≠ none) → w'.fs q = w.fs q) ∧ w.next ≤ w'.next ∧
    (r = false → w'.opened = w.opened.filter (· ≠ w.next) ∨ w'.opened = w.opened) ∧ (r = false → w'.groups = w.groups) ∧
    (r = true → w'.opened = w.next :: w.opened ∧ w'.next = w.next + 1 ∧
      (w'.groups g).listeners = (w.groups g).listeners ++ [w.next] ∧ (w'.groups g).names = (w.groups g).names ++ [name] ∧
      ∀ i, i ≠ g → w'.groups i = w.groups i) ∧
    (r = true → NameFits name → ∃ u v m, w'.fs name = some (.sock w.next u v m) ∧
      (p ≠ 0xffffffff → m = p.toNat % 4096) ∧ (p = 0xffffffff → m = os.mode) ∧
      (∀ a b, o = some a → gr = some b → os.user a = some u ∧ os.grp b = some v) ∧ ((o = none ∨ gr = none) → u = os.uid ∧ v = os.gid)) := by
  unfold LWorld.listenName at h
  cases h1 : w.remove os name with
  | none =>
    rw [h1] at h; cases h
    exact ⟨fun _ _ _ => rfl, Nat.le_refl _, fun _ => Or.inr rfl, fun _ => rfl, nofun, nofun⟩
  | some w1 =>
    rw [h1] at h; dsimp only at h
    obtain ⟨a1, a2, a3, a4, a5⟩ := remove_cases h1
    by_cases hs : os.socket = true
    · rw [if_pos hs] at h
      cases h2 : LWorld.bind { w1 with next := w1.next + 1, opened := w1.next :: w1.opened } os w1.next (sunPath name) with
      | none =>
        rw [h2] at h; cases h
        obtain ⟨b1, b2, b3, b4, _⟩ := tryRemove_frame (LWorld.close { w1 with next := w1.next + 1, opened := w1.next :: w1.opened } w1.next) os name
        refine ⟨fun q hq _ => (b1 q hq).trans (a2 q hq), by rw [b2]; dsimp only [LWorld.close]; omega, fun _ => Or.inl ?_, fun _ => b4.trans a5, nofun, nofun⟩
        rw [b3]; dsimp only [LWorld.close]; rw [a3, a4]; simp
      | some w2 =>
        rw [h2] at h; dsimp only at h
        obtain ⟨c1, c2, c3, c4, c5, c6, c7⟩ := bind_cases h2
        dsimp only at c1 c4 c5 c6 c7
        replace c4 : ∀ q, q ≠ name → (q ≠ sunPath name ∨ w.fs q ≠ none) → w2.fs q = w1.fs q := by
          intro q hq hq'
          by_cases hx : q = sunPath name
          · rw [← hx, a2 q hq] at c1
            rcases hq' with hq' | hq'
            · exact absurd hx hq'
            · exact absurd c1 hq'
          · exact c4 q hx
        cases h3 : w2.chown os name o gr with
        | ub k => rw [h3] at h; cases h
        | stuck => rw [h3] at h; cases h
        | ok x =>
          rw [h3] at h
          cases x with
          | none =>
            cases h
            refine ⟨fun q hq hq' => (c4 q hq hq').trans (a2 q hq), by dsimp only [LWorld.close]; rw [c5]; omega, fun _ => Or.inl ?_, fun _ => c7.trans a5, nofun, nofun⟩
            dsimp only [LWorld.close]; rw [c6, a3, a4]; simp
          | some w3 =>
            dsimp only at h
            obtain ⟨⟨d1, d2, d3, d4⟩, d5, d6⟩ := chown_cases h3
            cases h4 : w3.chmod os name p with
            | none =>
              rw [h4] at h; cases h
              refine ⟨fun q hq hq' => (d1 q hq).trans ((c4 q hq hq').trans (a2 q hq)), by dsimp only [LWorld.close]; rw [d2, c5]; omega, fun _ => Or.inl ?_,
                fun _ => d4.trans (c7.trans a5), nofun, nofun⟩
              dsimp only [LWorld.close]; rw [d3, c6, a3, a4]; simp
            | some w4 =>
              rw [h4] at h; dsimp only at h
              obtain ⟨⟨e1, e2, e3, e4⟩, e5, e6⟩ := chmod_cases h4
              have hgr : w4.groups = w.groups := e4.trans (d4.trans (c7.trans a5))
              have hop : w4.opened = w.next :: w.opened := by rw [e3, d3, c6, a3, a4]
              have hnx : w4.next = w.next + 1 := by rw [e2, d2, c5, a3]
              have hfs : ∀ q, q ≠ name → (q ≠ sunPath name ∨ w.fs q ≠ none) → w4.fs q = w.fs q := fun q hq hq' =>
                (e1 q hq).trans ((d1 q hq).trans ((c4 q hq hq').trans (a2 q hq)))
              by_cases hl : os.listen = true
              · rw [if_pos hl] at h; cases h
                refine ⟨hfs, by dsimp only; omega, nofun, nofun, fun _ => ⟨hop, hnx, ?_, ?_, ?_⟩, fun _ hf => ?_⟩
                · dsimp only; rw [if_pos rfl, hgr, a3]
                · dsimp only; rw [if_pos rfl, hgr]
                · intro i hi; dsimp only; rw [if_neg hi, hgr]
                · have hp := sunPath_fits hf.2
                  rw [hp] at c2
                  obtain ⟨u, v, f1, f2, f3⟩ := d5 _ _ _ _ (c2 hf.1)
                  obtain ⟨m, g1, g2, g3⟩ := e5 _ _ _ _ f1
                  exact ⟨u, v, m, by dsimp only; rw [g1, a3], g2, g3, f2, f3⟩
              · rw [if_neg hl] at h; cases h
                refine ⟨hfs, by dsimp only [LWorld.close]; omega, fun _ => Or.inl ?_, fun _ => hgr, nofun, nofun⟩
                dsimp only [LWorld.close]; rw [hop, a3]; simp
    · rw [if_neg hs] at h; cases h
      exact ⟨fun q hq _ => a2 q hq, by rw [a3]; exact Nat.le_refl _, fun _ => Or.inr a4, fun _ => a5, nofun, nofun⟩

/-! ### Histories -/

/-- Of every history: the open sockets are those of the listeners, and no two groups have the same. -/
structure ListenInv (w : LWorld) : Prop where
  below : ∀ s ∈ w.opened, s < w.next
  mine : ∀ g, ∀ s ∈ (w.groups g).listeners, s ∈ w.opened
  one : ∀ g g' s, s ∈ (w.groups g).listeners → s ∈ (w.groups g').listeners → g = g'
  all : ∀ s ∈ w.opened, ∃ g, s ∈ (w.groups g).listeners

theorem foldl_close (l : List Nat) : ∀ w : LWorld,
    (l.foldl LWorld.close w).fs = w.fs ∧ (l.foldl LWorld.close w).next = w.next ∧ (l.foldl LWorld.close w).groups = w.groups ∧
      ∀ s, s ∈ (l.foldl LWorld.close w).opened ↔ s ∈ w.opened ∧ s ∉ l := by
  induction l with
  | nil => intro w; exact ⟨rfl, rfl, rfl, fun s => by simp⟩
  | cons a l ih =>
    intro w
    obtain ⟨h1, h2, h3, h4⟩ := ih (w.close a)
    refine ⟨h1, h2, h3, fun s => ?_⟩
    rw [List.foldl_cons, h4]
    simp only [LWorld.close, List.mem_filter, List.mem_cons, decide_eq_true_eq]
    constructor
    · rintro ⟨⟨a, b⟩, c⟩; exact ⟨a, fun h => h.elim b c⟩
    · rintro ⟨a, b⟩; exact ⟨⟨a, fun h => b (Or.inl h)⟩, fun h => b (Or.inr h)⟩

theorem tryRemove_gone (w : LWorld) (os : ListenOs) (n : Bytes) (h : os.removes n = true) :
    (w.tryRemove os n).fs n = none ∨ (w.tryRemove os n).fs n = some .dir := by
  unfold LWorld.tryRemove LWorld.remove
  cases hf : w.fs n with
  | none => exact Or.inl hf
  | some x => cases x <;> dsimp only [Option.getD] <;> simp [h, hf, fsPut]

theorem foldl_remove (os : ListenOs) (l : List Bytes) : ∀ w : LWorld,
    (l.foldl (fun w n => w.tryRemove os n) w).opened = w.opened ∧ (l.foldl (fun w n => w.tryRemove os n) w).next = w.next ∧
      (l.foldl (fun w n => w.tryRemove os n) w).groups = w.groups ∧
      (∀ q, q ∉ l → (l.foldl (fun w n => w.tryRemove os n) w).fs q = w.fs q) ∧
      (∀ q, (w.fs q = none ∨ w.fs q = some .dir) ∨ (q ∈ l ∧ os.removes q = true) →
        (l.foldl (fun w n => w.tryRemove os n) w).fs q = none ∨ (l.foldl (fun w n => w.tryRemove os n) w).fs q = some .dir) := by
  induction l with
  | nil => intro w; exact ⟨rfl, rfl, rfl, fun _ _ => rfl, fun q h => h.elim id (fun h => absurd h.1 (by simp))⟩
  | cons a l ih =>
    intro w
    obtain ⟨b1, b2, b3, b4, b5⟩ := tryRemove_frame w os a
    obtain ⟨h1, h2, h3, h4, h5⟩ := ih (w.tryRemove os a)
    refine ⟨h1.trans b3, h2.trans b2, h3.trans b4, fun q hq => ?_, fun q hq => ?_⟩
    · rw [List.mem_cons, not_or] at hq
      exact (h4 q hq.2).trans (b1 q hq.1)
    · apply h5 q
      by_cases hqa : q = a
      · subst hqa
        rcases hq with hq | hq
        · left
          rcases b5 with b5 | b5
          · exact Or.inl b5
          · rw [b5]; exact hq
        · exact Or.inl (tryRemove_gone w os q hq.2)
      · rcases hq with hq | hq
        · left; rw [b1 q hqa]; exact hq
        · exact Or.inr ⟨(List.mem_cons.1 hq.1).resolve_left hqa, hq.2⟩

theorem foldl_keep (os : ListenOs) (l : List Bytes) : ∀ (w : LWorld) (q : Bytes),
    (l.foldl (fun w n => w.tryRemove os n) w).fs q = none ∨ (l.foldl (fun w n => w.tryRemove os n) w).fs q = w.fs q := by
  induction l with
  | nil => intro w q; exact Or.inr rfl
  | cons a l ih =>
    intro w q
    obtain ⟨b1, _, _, _, b5⟩ := tryRemove_frame w os a
    rcases ih (w.tryRemove os a) q with h | h
    · exact Or.inl h
    · by_cases hqa : q = a
      · subst hqa
        rcases b5 with b5 | b5
        · exact Or.inl (h.trans b5)
        · exact Or.inr (h.trans b5)
      · exact Or.inr (h.trans (b1 q hqa))

/-- What the end of a group does, with or without its destructor. -/
theorem end_cases {w w' : LWorld} {g : Nat} (h : w' = w.crash g ∨ ∃ os, w' = w.destroy os g) :
    w'.next = w.next ∧ (∀ i, i ≠ g → w'.groups i = w.groups i) ∧ w'.groups g = {} ∧
    (∀ s, s ∈ w'.opened ↔ s ∈ w.opened ∧ s ∉ (w.groups g).listeners) ∧
    (∀ q, q ∉ (w.groups g).names → w'.fs q = w.fs q) := by
  obtain ⟨a1, a2, a3, a4⟩ := foldl_close (w.groups g).listeners w
  rcases h with rfl | ⟨os, rfl⟩
  · refine ⟨a2, fun i hi => ?_, ?_, a4, fun q _ => by dsimp only [LWorld.crash]; rw [a1]⟩
    · dsimp only [LWorld.crash]; rw [if_neg hi, a3]
    · dsimp only [LWorld.crash]; rw [if_pos rfl]
  · obtain ⟨b1, b2, b3, b4, _⟩ := foldl_remove os (w.groups g).names ((w.groups g).listeners.foldl LWorld.close w)
    refine ⟨b2.trans a2, fun i hi => ?_, ?_, fun s => ?_, fun q hq => (b4 q hq).trans (by rw [a1])⟩
    · dsimp only [LWorld.destroy]; rw [if_neg hi, b3, a3]
    · dsimp only [LWorld.destroy]; rw [if_pos rfl]
    · dsimp only [LWorld.destroy]; rw [b1]; exact a4 s

theorem end_inv {w w' : LWorld} {g : Nat} (h : w' = w.crash g ∨ ∃ os, w' = w.destroy os g) (i : ListenInv w) : ListenInv w' := by
  obtain ⟨a1, a2, a3, a4, _⟩ := end_cases h
  have key : ∀ g' s, s ∈ (w'.groups g').listeners → g' ≠ g ∧ s ∈ (w.groups g').listeners := by
    intro g' s hs
    by_cases hg : g' = g
    · subst hg; rw [a3] at hs; cases hs
    · exact ⟨hg, by rwa [a2 g' hg] at hs⟩
  refine ⟨fun s hs => ?_, fun g' s hs => ?_, fun g1 g2 s h1 h2 => ?_, fun s hs => ?_⟩
  · rw [a1]; exact i.below s ((a4 s).1 hs).1
  · obtain ⟨k1, k2⟩ := key g' s hs
    exact (a4 s).2 ⟨i.mine g' s k2, fun hx => k1 (i.one g' g s k2 hx)⟩
  · exact i.one g1 g2 s (key g1 s h1).2 (key g2 s h2).2
  · obtain ⟨hs1, hs2⟩ := (a4 s).1 hs
    obtain ⟨g', hg'⟩ := i.all s hs1
    have : g' ≠ g := fun h => hs2 (h ▸ hg')
    exact ⟨g', by rw [a2 g' this]; exact hg'⟩

theorem filter_below {w : LWorld} (i : ListenInv w) : w.opened.filter (· ≠ w.next) = w.opened := by
  apply List.filter_eq_self.2
  intro s hs
  have := i.below s hs
  simp; omega

theorem listen_inv {w w' : LWorld} {os : ListenOs} {g : Nat} {name : Bytes} {p : UInt32} {o gr : Option Bytes} {r : Bool}
    (h : w.listenName os g name p o gr = .ok (r, w')) (i : ListenInv w) : ListenInv w' := by
  obtain ⟨_, h2, h3, h4, h5, _⟩ := listen_cases h
  cases r with
  | false =>
    have ho : w'.opened = w.opened := (h3 rfl).elim (fun h => h.trans (filter_below i)) id
    have hg := h4 rfl
    refine ⟨fun s hs => ?_, fun g' s hs => ?_, fun g1 g2 s a b => ?_, fun s hs => ?_⟩
    · have := i.below s (ho ▸ hs); omega
    · rw [ho]; exact i.mine g' s (hg ▸ hs)
    · rw [hg] at a b; exact i.one g1 g2 s a b
    · rw [hg]; exact i.all s (ho ▸ hs)
  | true =>
    obtain ⟨ho, hn, hl, _, hr⟩ := h5 rfl
    have key : ∀ g' s, s ∈ (w'.groups g').listeners → (s ∈ (w.groups g').listeners) ∨ (g' = g ∧ s = w.next) := by
      intro g' s hs
      by_cases hg : g' = g
      · subst hg; rw [hl] at hs; rcases List.mem_append.1 hs with hs | hs
        · exact Or.inl hs
        · exact Or.inr ⟨rfl, by simpa using hs⟩
      · rw [hr g' hg] at hs; exact Or.inl hs
    have new : ∀ g', w.next ∉ (w.groups g').listeners := fun g' hx => Nat.lt_irrefl _ (i.below _ (i.mine g' _ hx))
    refine ⟨fun s hs => ?_, fun g' s hs => ?_, fun g1 g2 s a b => ?_, fun s hs => ?_⟩
    · rw [ho] at hs; rw [hn]
      rcases List.mem_cons.1 hs with rfl | hs
      · omega
      · have := i.below s hs; omega
    · rw [ho]
      rcases key g' s hs with h | ⟨_, rfl⟩
      · exact List.mem_cons_of_mem _ (i.mine g' s h)
      · exact List.mem_cons_self
    · rcases key g1 s a with a | ⟨e1, e2⟩ <;> rcases key g2 s b with b | ⟨e3, e4⟩
      · exact i.one g1 g2 s a b
      · exact absurd (e4 ▸ a) (new _)
      · exact absurd (e2 ▸ b) (new _)
      · rw [e1, e3]
    · rw [ho] at hs
      rcases List.mem_cons.1 hs with rfl | hs
      · exact ⟨g, by rw [hl]; simp⟩
      · obtain ⟨g', hg'⟩ := i.all s hs
        refine ⟨g', ?_⟩
        by_cases hg : g' = g
        · subst hg; rw [hl]; exact List.mem_append_left _ hg'
        · rw [hr g' hg]; exact hg'

theorem lstep_inv {w w' : LWorld} {op : LOp} {r} (h : op.step w = .ok (r, w')) (i : ListenInv w) : ListenInv w' := by
  cases op with
  | listen os g name p o gr =>
    obtain ⟨x, hx, h⟩ := Res.bind_eq_ok.1 h
    cases h
    exact listen_inv (r := x.1) hx i
  | destroy os g => cases h; exact end_inv (Or.inr ⟨os, rfl⟩) i
  | crash g => cases h; exact end_inv (Or.inl rfl) i
  | file n d => cases h; exact ⟨i.below, i.mine, i.one, i.all⟩
  | unlink n => cases h; exact ⟨i.below, i.mine, i.one, i.all⟩

theorem lrun_cons {w w' : LWorld} {op : LOp} {ops : List LOp} {r} (h : lrun w (op :: ops) = .ok (r, w')) :
    ∃ r1 w1 r2, op.step w = .ok (r1, w1) ∧ lrun w1 ops = .ok (r2, w') ∧ r = r1 :: r2 := by
  obtain ⟨x, h1, h⟩ := Res.bind_eq_ok.1 h
  obtain ⟨y, h2, h⟩ := Res.bind_eq_ok.1 h
  cases h
  exact ⟨x.1, x.2, y.1, h1, h2, rfl⟩

theorem lrun_append : ∀ {ops ops' : List LOp} {w w' : LWorld} {r}, lrun w (ops ++ ops') = .ok (r, w') →
    ∃ r1 w1 r2, lrun w ops = .ok (r1, w1) ∧ lrun w1 ops' = .ok (r2, w') ∧ r = r1 ++ r2 ∧ r1.length = ops.length := by
  intro ops
  induction ops with
  | nil => intro ops' w w' r h; exact ⟨[], w, r, rfl, h, rfl, rfl⟩
  | cons op ops ih =>
    intro ops' w w' r h
    obtain ⟨r1, w1, r2, h1, h2, rfl⟩ := lrun_cons h
    obtain ⟨r3, w3, r4, h3, h4, rfl, h5⟩ := ih h2
    refine ⟨r1 :: r3, w3, r4, ?_, h4, rfl, by simp [h5]⟩
    show (op.step w >>= _) = _
    rw [h1]; simp [h3]

theorem lrun_inv {ops : List LOp} : ∀ {w w' : LWorld} {r}, lrun w ops = .ok (r, w') → ListenInv w → ListenInv w' := by
  induction ops with
  | nil => intro w w' r h i; cases h; exact i
  | cons op ops ih =>
    intro w w' r h i
    obtain ⟨_, w1, _, h1, h2, _⟩ := lrun_cons h
    exact ih h2 (lstep_inv h1 i)

theorem lInit_inv (fs) : ListenInv (lInit fs) := ⟨nofun, nofun, nofun, nofun⟩

/-! ### The claims -/

/-- A world that some history of calls, crashes and other people's files leads to. -/
def LReach (w : LWorld) : Prop := ∃ fs ops r, lrun (lInit fs) ops = .ok (r, w)

theorem LReach.inv {w : LWorld} (h : LReach w) : ListenInv w := by
  obtain ⟨fs, ops, r, h⟩ := h
  exact lrun_inv h (lInit_inv fs)

/-- The owner and group of the file: those asked for if both were given, otherwise those of any new file. -/
def OwnedAs (os : ListenOs) (owner group : Option Bytes) (u v : Nat) : Prop :=
  match owner, group with
  | some a, some b => os.user a = some u ∧ os.grp b = some v
  | _, _ => u = os.uid ∧ v = os.gid

/-- **C117.** Wherever it is called: if `listen` returns true, clients that connect to the name reach this group, over a socket that did not
exist before; the file has the permissions and the owner that were asked for. -/
theorem C117_listens {w w' : LWorld} (hw : LReach w) {os : ListenOs} {g : Nat} {name : Bytes} {p : UInt32} {o gr : Option Bytes}
    (hn : NameFits name) (h : w.listenName os g name p o gr = .ok (true, w')) :
    Reaches w' name g ∧
    ∃ s u v m, w'.fs name = some (.sock s u v m) ∧ s ∉ w.opened ∧ OwnedAs os o gr u v ∧ m = (if p = 0xffffffff then os.mode else p.toNat % 4096) := by
  obtain ⟨_, _, _, _, h5, h6⟩ := listen_cases h
  obtain ⟨a1, _, a3, _⟩ := h5 rfl
  obtain ⟨u, v, m, b1, b2, b3, b4, b5⟩ := h6 rfl hn
  have hnew : w.next ∉ w.opened := fun hx => Nat.lt_irrefl _ (hw.inv.below _ hx)
  refine ⟨⟨w.next, u, v, m, b1, by rw [a3]; simp, by rw [a1]; simp⟩, w.next, u, v, m, b1, hnew, ?_, ?_⟩
  · unfold OwnedAs
    split
    · exact b4 _ _ rfl rfl
    · rename_i hx
      apply b5
      cases o with
      | none => exact Or.inl rfl
      | some a => cases gr with
        | none => exact Or.inr rfl
        | some b => exact (hx a b rfl rfl).elim
  · split
    · exact b3 ‹_›
    · exact b2 ‹_›

/-- **C117.** Whatever `listen` returns, the files of other names stay as they are. -/
theorem C117_frame {w w' : LWorld} {os : ListenOs} {g : Nat} {name : Bytes} {p : UInt32} {o gr : Option Bytes} {r : Bool}
    (hn : NameFits name) (h : w.listenName os g name p o gr = .ok (r, w')) (q : Bytes) (hq : q ≠ name) : w'.fs q = w.fs q :=
  (listen_cases h).1 q hq (Or.inl (by rw [sunPath_fits hn.2]; exact hq))

/-- **C117.** If it returns false, no descriptor is left open and the group listens where it did; and if neither the owner nor the
permissions nor the listening were refused, no file is left under the name, except one that could not be removed. -/
theorem C117_failed_partial {w w' : LWorld} (hw : LReach w) {os : ListenOs} {g : Nat} {name : Bytes} {p : UInt32} {o gr : Option Bytes}
    (hn : NameFits name) (h : w.listenName os g name p o gr = .ok (false, w')) :
    w'.opened = w.opened ∧ w'.groups = w.groups ∧
    (os.chown = true → os.chmod = true → os.listen = true → w'.fs name = none ∨ (w'.fs name = w.fs name ∧ w.remove os name = none)) := by
  obtain ⟨_, _, h3, h4, _, _⟩ := listen_cases h
  refine ⟨(h3 rfl).elim (fun h => h.trans (filter_below hw.inv)) id, h4 rfl, fun hc hm hl => ?_⟩
  unfold LWorld.listenName at h
  cases h1 : w.remove os name with
  | none => rw [h1] at h; cases h; exact Or.inr ⟨rfl, rfl⟩
  | some w1 =>
    left
    rw [h1] at h; dsimp only at h
    obtain ⟨a1, _⟩ := remove_cases h1
    split at h
    · cases h2 : LWorld.bind { w1 with next := w1.next + 1, opened := w1.next :: w1.opened } os w1.next (sunPath name) with
      | none =>
        rw [h2] at h; cases h
        obtain ⟨_, _, _, _, b⟩ := tryRemove_frame (LWorld.close { w1 with next := w1.next + 1, opened := w1.next :: w1.opened } w1.next) os name
        rcases b with b | b
        · exact b
        · rw [b]; exact a1
      | some w2 =>
        rw [h2] at h; dsimp only at h
        exfalso
        obtain ⟨_, c2, _⟩ := bind_cases h2
        rw [sunPath_fits hn.2] at c2
        have c2 := c2 hn.1
        cases h3 : w2.chown os name o gr with
        | ub k => rw [h3] at h; cases h
        | stuck => rw [h3] at h; cases h
        | ok x =>
          rw [h3] at h
          cases x with
          | none =>
            unfold LWorld.chown at h3
            rw [c2] at h3
            split at h3
            · split at h3
              · simp [hc] at h3
              · cases h3
            · cases h3
          | some w3 =>
            dsimp only at h
            obtain ⟨_, d5, _⟩ := chown_cases h3
            obtain ⟨u, v, d5, _⟩ := d5 _ _ _ _ c2
            cases h4 : w3.chmod os name p with
            | none =>
              unfold LWorld.chmod at h4
              rw [d5] at h4
              split at h4
              · simp [hm] at h4
              · cases h4
            | some w4 =>
              rw [h4] at h; dsimp only at h
              simp [hl] at h
    · cases h; exact a1

/-- Nobody but `g` listens on the name. -/
def OnlyOf (g : Nat) (name : Bytes) : LOp → Prop
  | .listen _ g' n _ _ _ => n = name → g' = g
  | _ => True

/-- The name and the group are left alone: the group lives on, nobody replaces or removes the file, nobody listens on it again. -/
def Leaves (g : Nat) (name : Bytes) : LOp → Prop
  | .listen _ _ n _ _ _ => n ≠ name
  | .destroy _ g' => g' ≠ g
  | .crash g' => g' ≠ g
  | .file n _ => n ≠ name
  | .unlink n => n ≠ name

theorem only_step {w w' : LWorld} {op : LOp} {r} {g : Nat} {name : Bytes} (h : op.step w = .ok (r, w')) (ho : OnlyOf g name op)
    (i : ∀ i, i ≠ g → name ∉ (w.groups i).names) : ∀ i, i ≠ g → name ∉ (w'.groups i).names := by
  cases op with
  | listen os g' n p o gr =>
    obtain ⟨⟨x, w1⟩, hx, h⟩ := Res.bind_eq_ok.1 h
    cases h
    obtain ⟨_, _, _, h4, h5, _⟩ := listen_cases hx
    cases x with
    | false => intro j hj; rw [h4 rfl]; exact i j hj
    | true =>
      obtain ⟨_, _, _, b1, b2⟩ := h5 rfl
      intro j hj
      by_cases hjg : j = g'
      · subst hjg
        rw [b1, List.mem_append, not_or]
        exact ⟨i j hj, fun hm => hj (ho (List.mem_singleton.1 hm).symm)⟩
      · rw [b2 j hjg]; exact i j hj
  | destroy os g' =>
    cases h
    obtain ⟨_, b1, b2, _⟩ := end_cases (w := w) (g := g') (Or.inr ⟨os, rfl⟩)
    intro j hj
    by_cases hjg : j = g'
    · subst hjg; rw [b2]; simp
    · rw [b1 j hjg]; exact i j hj
  | crash g' =>
    cases h
    obtain ⟨_, b1, b2, _⟩ := end_cases (w := w) (g := g') (Or.inl rfl)
    intro j hj
    by_cases hjg : j = g'
    · subst hjg; rw [b2]; simp
    · rw [b1 j hjg]; exact i j hj
  | file n d => cases h; exact i
  | unlink n => cases h; exact i

theorem only_run {ops : List LOp} {g : Nat} {name : Bytes} : ∀ {w w' : LWorld} {r}, lrun w ops = .ok (r, w') → (∀ op ∈ ops, OnlyOf g name op) →
    (∀ i, i ≠ g → name ∉ (w.groups i).names) → ∀ i, i ≠ g → name ∉ (w'.groups i).names := by
  induction ops with
  | nil => intro w w' r h _ i; cases h; exact i
  | cons op ops ih =>
    intro w w' r h ho i
    obtain ⟨_, w1, _, h1, h2, _⟩ := lrun_cons h
    exact ih h2 (fun op hop => ho op (List.mem_cons_of_mem _ hop)) (only_step h1 (ho op List.mem_cons_self) i)

theorem stays_step {w w' : LWorld} {op : LOp} {r} {g : Nat} {name : Bytes} (h : op.step w = .ok (r, w')) (hl : Leaves g name op)
    (i : ListenInv w) (no : ∀ i, i ≠ g → name ∉ (w.groups i).names) (hr : Reaches w name g) : Reaches w' name g := by
  obtain ⟨s, u, v, m, a1, a2, a3⟩ := hr
  have ended : ∀ g', g' ≠ g → (w' = w.crash g' ∨ ∃ os, w' = w.destroy os g') → Reaches w' name g := by
    intro g' hg' he
    obtain ⟨_, b1, _, b3, b4⟩ := end_cases he
    refine ⟨s, u, v, m, (b4 _ (no g' hg')).trans a1, by rw [b1 g (Ne.symm hg')]; exact a2, (b3 s).2 ⟨a3, fun hx => hg' (i.one _ _ s hx a2)⟩⟩
  cases op with
  | listen os g' n p o gr =>
    obtain ⟨⟨x, w1⟩, hx, h⟩ := Res.bind_eq_ok.1 h
    cases h
    obtain ⟨h1, _, h3, h4, h5, _⟩ := listen_cases hx
    have hfs := (h1 name (Ne.symm hl) (Or.inr (by rw [a1]; nofun))).trans a1
    cases x with
    | false =>
      have ho : w1.opened = w.opened := (h3 rfl).elim (fun h => h.trans (filter_below i)) id
      exact ⟨s, u, v, m, hfs, by rw [h4 rfl]; exact a2, by rw [ho]; exact a3⟩
    | true =>
      obtain ⟨c1, _, c2, _, c3⟩ := h5 rfl
      refine ⟨s, u, v, m, hfs, ?_, by rw [c1]; exact List.mem_cons_of_mem _ a3⟩
      by_cases hg : g = g'
      · subst hg; rw [c2]; exact List.mem_append_left _ a2
      · rw [c3 g hg]; exact a2
  | destroy os g' => cases h; exact ended g' hl (Or.inr ⟨os, rfl⟩)
  | crash g' => cases h; exact ended g' hl (Or.inl rfl)
  | file n d =>
    cases h
    exact ⟨s, u, v, m, (fsPut_other _ _ (Ne.symm hl)).trans a1, a2, a3⟩
  | unlink n =>
    cases h
    exact ⟨s, u, v, m, (fsPut_other _ _ (Ne.symm hl)).trans a1, a2, a3⟩

theorem stays_run {ops : List LOp} {g : Nat} {name : Bytes} : ∀ {w w' : LWorld} {r}, lrun w ops = .ok (r, w') →
    (∀ op ∈ ops, OnlyOf g name op) → (∀ op ∈ ops, Leaves g name op) → ListenInv w → (∀ i, i ≠ g → name ∉ (w.groups i).names) →
    Reaches w name g → Reaches w' name g := by
  induction ops with
  | nil => intro w w' r h _ _ _ _ hr; cases h; exact hr
  | cons op ops ih =>
    intro w w' r h ho hl i no hr
    obtain ⟨_, w1, _, h1, h2, _⟩ := lrun_cons h
    exact ih h2 (fun op hop => ho op (List.mem_cons_of_mem _ hop)) (fun op hop => hl op (List.mem_cons_of_mem _ hop))
      (lstep_inv h1 i) (only_step h1 (ho op List.mem_cons_self) no) (stays_step h1 (hl op List.mem_cons_self) i no hr)

/-- **C117.** Whatever happened before and whatever happens after (other groups that listen elsewhere, even on names too long for a socket
address, end or crash, files that come and go): once `listen` has returned true, clients reach the group for as long as it lives, nobody
replaces the file, and no other group has listened on the same name. -/
theorem C117_stays_partial {fs : Bytes → Option FNode} {pre post : List LOp} {os : ListenOs} {g : Nat} {name : Bytes} {p : UInt32}
    {o gr : Option Bytes} {rs : List (Option Bool)} {w : LWorld} (hn : NameFits name)
    (h : lrun (lInit fs) (pre ++ .listen os g name p o gr :: post) = .ok (rs, w)) (ht : rs[pre.length]? = some (some true))
    (ho : ∀ op ∈ pre ++ post, OnlyOf g name op) (hl : ∀ op ∈ post, Leaves g name op) : Reaches w name g := by
  obtain ⟨r1, w1, r2, h1, h2, rfl, hlen⟩ := lrun_append h
  obtain ⟨r3, w2, r4, h3, h4, rfl⟩ := lrun_cons h2
  rw [List.getElem?_append_right (by omega), hlen, Nat.sub_self] at ht
  cases ht
  have i1 := lrun_inv h1 (lInit_inv fs)
  have no1 := only_run (g := g) (name := name) h1 (fun op hop => ho op (List.mem_append_left _ hop)) (by intro i _; simp [lInit])
  have no2 := only_step (g := g) (name := name) h3 (fun _ => rfl) no1
  have i2 := lstep_inv h3 i1
  obtain ⟨⟨x, w2'⟩, hx, h3⟩ := Res.bind_eq_ok.1 h3
  cases h3
  exact stays_run h4 (fun op hop => ho op (List.mem_append_right _ hop)) hl i2 no2 (C117_listens ⟨fs, pre, r1, h1⟩ hn hx).1

/-- Neither destroys the group nor ends its process. -/
def Lives (g : Nat) : LOp → Prop
  | .destroy _ g' => g' ≠ g
  | .crash g' => g' ≠ g
  | _ => True

theorem names_step {w w' : LWorld} {op : LOp} {r} {g : Nat} {name : Bytes} (h : op.step w = .ok (r, w')) (hl : Lives g op)
    (hn : name ∈ (w.groups g).names) : name ∈ (w'.groups g).names := by
  cases op with
  | listen os g' n p o gr =>
    obtain ⟨⟨x, w1⟩, hx, h⟩ := Res.bind_eq_ok.1 h
    cases h
    obtain ⟨_, _, _, h4, h5, _⟩ := listen_cases hx
    cases x with
    | false => rw [h4 rfl]; exact hn
    | true =>
      obtain ⟨_, _, _, b1, b2⟩ := h5 rfl
      by_cases hjg : g = g'
      · subst hjg; rw [b1]; exact List.mem_append_left _ hn
      · rw [b2 g hjg]; exact hn
  | destroy os g' =>
    cases h
    obtain ⟨_, b1, _⟩ := end_cases (w := w) (g := g') (Or.inr ⟨os, rfl⟩)
    rw [b1 g (Ne.symm hl)]; exact hn
  | crash g' =>
    cases h
    obtain ⟨_, b1, _⟩ := end_cases (w := w) (g := g') (Or.inl rfl)
    rw [b1 g (Ne.symm hl)]; exact hn
  | file n d => cases h; exact hn
  | unlink n => cases h; exact hn

theorem names_run {ops : List LOp} {g : Nat} {name : Bytes} : ∀ {w w' : LWorld} {r}, lrun w ops = .ok (r, w') → (∀ op ∈ ops, Lives g op) →
    name ∈ (w.groups g).names → name ∈ (w'.groups g).names := by
  induction ops with
  | nil => intro w w' r h _ i; cases h; exact i
  | cons op ops ih =>
    intro w w' r h ho i
    obtain ⟨_, w1, _, h1, h2, _⟩ := lrun_cons h
    exact ih h2 (fun op hop => ho op (List.mem_cons_of_mem _ hop)) (names_step h1 (ho op List.mem_cons_self) i)

/-- **C117.** After the destruction of a group none of the names it listened on is left, whatever happened in between, unless as a directory
somebody put there or where the system refuses to remove it; and no client reaches the group, by any name. -/
theorem C117_removed {fs : Bytes → Option FNode} {pre mid : List LOp} {os os' : ListenOs} {g : Nat} {name : Bytes} {p : UInt32}
    {o gr : Option Bytes} {rs : List (Option Bool)} {w : LWorld}
    (h : lrun (lInit fs) (pre ++ .listen os g name p o gr :: mid ++ [.destroy os' g]) = .ok (rs, w)) (ht : rs[pre.length]? = some (some true))
    (hl : ∀ op ∈ mid, Lives g op) (ha : os'.removes name = true) :
    (w.fs name = none ∨ w.fs name = some .dir) ∧ ∀ q, ¬ Reaches w q g := by
  rw [List.append_assoc] at h
  obtain ⟨r1, w1, r2, h1, h2, rfl, hlen⟩ := lrun_append h
  obtain ⟨r3, w2, r4, h3, h4, rfl⟩ := lrun_cons h2
  rw [List.getElem?_append_right (by omega), hlen, Nat.sub_self] at ht
  cases ht
  obtain ⟨r5, w5, r6, h5, h6, -, -⟩ := lrun_append h4
  obtain ⟨⟨x, w2'⟩, hx, h3⟩ := Res.bind_eq_ok.1 h3
  cases h3
  have hn : name ∈ (w2'.groups g).names := by
    obtain ⟨_, _, _, _, h5, _⟩ := listen_cases hx
    rw [(h5 rfl).2.2.2.1]; simp
  have hn := names_run h5 hl hn
  obtain ⟨_, w6, _, h7, h8, -⟩ := lrun_cons h6
  cases h7; cases h8
  obtain ⟨_, _, b2, _, b4⟩ := end_cases (w := w5) (g := g) (Or.inr ⟨os', rfl⟩)
  refine ⟨?_, fun q hq => ?_⟩
  · obtain ⟨_, _, _, _, h⟩ := foldl_remove os' (w5.groups g).names ((w5.groups g).listeners.foldl LWorld.close w5)
    exact h name (Or.inr ⟨hn, ha⟩)
  · obtain ⟨s, u, v, m, _, hs, _⟩ := hq
    rw [b2] at hs; cases hs

/-- The end of a group, by its destructor or by a crash. -/
def endOf (g : Nat) (d : Option ListenOs) : LOp :=
  match d with
  | some os => .destroy os g
  | none => .crash g

theorem who_step {w w' : LWorld} {op : LOp} {r} (h : op.step w = .ok (r, w')) (G : Nat → Prop) (hw : ∀ i, ¬ G i → (w.groups i).listeners = [])
    (hop : ∀ os g n p o gr, op = .listen os g n p o gr → G g) : ∀ i, ¬ G i → (w'.groups i).listeners = [] := by
  intro j hj
  have ended : ∀ g', (w' = w.crash g' ∨ ∃ os, w' = w.destroy os g') → (w'.groups j).listeners = [] := by
    intro g' he
    obtain ⟨_, b1, b2, _⟩ := end_cases he
    by_cases hjg : j = g'
    · subst hjg; rw [b2]
    · rw [b1 j hjg]; exact hw j hj
  cases op with
  | listen os g' n p o gr =>
    obtain ⟨⟨x, w1⟩, hx, h⟩ := Res.bind_eq_ok.1 h
    cases h
    obtain ⟨_, _, _, h4, h5, _⟩ := listen_cases hx
    cases x with
    | false => rw [h4 rfl]; exact hw j hj
    | true =>
      obtain ⟨_, _, _, _, b2⟩ := h5 rfl
      rw [b2 j (fun hx => hj (hx ▸ hop _ _ _ _ _ _ rfl))]; exact hw j hj
  | destroy os g' => cases h; exact ended g' (Or.inr ⟨os, rfl⟩)
  | crash g' => cases h; exact ended g' (Or.inl rfl)
  | file n d => cases h; exact hw j hj
  | unlink n => cases h; exact hw j hj

theorem who_run {ops : List LOp} (G : Nat → Prop) : ∀ {w w' : LWorld} {r}, lrun w ops = .ok (r, w') → (∀ i, ¬ G i → (w.groups i).listeners = []) →
    (∀ op ∈ ops, ∀ os g n p o gr, op = .listen os g n p o gr → G g) → ∀ i, ¬ G i → (w'.groups i).listeners = [] := by
  induction ops with
  | nil => intro w w' r h i _; cases h; exact i
  | cons op ops ih =>
    intro w w' r h i ho
    obtain ⟨_, w1, _, h1, h2, _⟩ := lrun_cons h
    exact ih h2 (who_step h1 G i (ho op List.mem_cons_self)) (fun op hop => ho op (List.mem_cons_of_mem _ hop))

theorem ends_run (ends : List (Nat × Option ListenOs)) : ∀ {w w' : LWorld} {r}, lrun w (ends.map fun e => endOf e.1 e.2) = .ok (r, w') →
    ∀ G : Nat → Prop, (∀ i, ¬ G i → (w.groups i).listeners = []) → ∀ i, ¬ (G i ∧ i ∉ ends.map (·.1)) → (w'.groups i).listeners = [] := by
  induction ends with
  | nil => intro w w' r h G i j hj; cases h; exact i j (fun hg => hj ⟨hg, by simp⟩)
  | cons e ends ih =>
    intro w w' r h G i j hj
    obtain ⟨_, w1, _, h1, h2, _⟩ := lrun_cons h
    refine ih h2 (fun i => G i ∧ i ≠ e.1) ?_ j ?_
    · intro k hk
      have he : w1 = w.crash e.1 ∨ ∃ os, w1 = w.destroy os e.1 := by
        obtain ⟨g', d⟩ := e
        cases d <;> cases h1
        · exact Or.inl rfl
        · exact Or.inr ⟨_, rfl⟩
      obtain ⟨_, b1, b2, _⟩ := end_cases he
      by_cases hke : k = e.1
      · subst hke; rw [b2]
      · rw [b1 k hke]; exact i k (fun hg => hk ⟨hg, hke⟩)
    · rintro ⟨⟨a, b⟩, c⟩
      exact hj ⟨a, by simp only [List.map_cons, List.mem_cons, not_or]; exact ⟨b, c⟩⟩

/-- **C117.** No descriptor is lost: whatever happened, when every group that listened is gone, destroyed or crashed, no socket is open. -/
theorem C117_none_left {fs : Bytes → Option FNode} {ops : List LOp} {ends : List (Nat × Option ListenOs)} {rs : List (Option Bool)} {w : LWorld}
    (h : lrun (lInit fs) (ops ++ ends.map fun e => endOf e.1 e.2) = .ok (rs, w))
    (he : ∀ os g n p o gr, LOp.listen os g n p o gr ∈ ops → g ∈ ends.map (·.1)) : w.opened = [] := by
  have i := lrun_inv h (lInit_inv fs)
  obtain ⟨r1, w1, r2, h1, h2, -, -⟩ := lrun_append h
  have a := who_run (· ∈ ends.map (·.1)) h1 (by intro i _; simp [lInit]) (fun op hop os g n p o gr e => he os g n p o gr (e ▸ hop))
  have b := ends_run ends h2 _ a
  cases ho : w.opened with
  | nil => rfl
  | cons s l =>
    obtain ⟨g, hg⟩ := i.all s (by rw [ho]; simp)
    rw [b g (fun ⟨x, y⟩ => y x)] at hg; cases hg

/-- **C117.** A name can be listened on whatever was left under it, a dead server's socket for instance: `listen` returns true if the system
allows the calls, the name is not a directory's, and the owner and group are known. -/
theorem C117_again (w : LWorld) (os : ListenOs) (g : Nat) (name : Bytes) (p : UInt32) (o gr : Option Bytes) (hn : NameFits name)
    (hr : os.removes name = true) (hs : os.socket = true) (hb : os.bind = true) (hc : os.chown = true) (hm : os.chmod = true)
    (hl : os.listen = true) (hd : w.fs name ≠ some .dir)
    (ho : ∀ a b, o = some a → gr = some b → (os.user a).isSome ∧ (os.grp b).isSome) :
    ∃ w', w.listenName os g name p o gr = .ok (true, w') := by
  have h1 : ∃ w1, w.remove os name = some w1 := by
    unfold LWorld.remove
    split
    · exact ⟨_, rfl⟩
    · contradiction
    · rw [if_pos hr]; exact ⟨_, rfl⟩
  obtain ⟨w1, h1⟩ := h1
  obtain ⟨a1, _⟩ := remove_cases h1
  have h2 : ∃ w2, LWorld.bind { w1 with next := w1.next + 1, opened := w1.next :: w1.opened } os w1.next (sunPath name) = some w2 := by
    unfold LWorld.bind
    rw [sunPath_fits hn.2, if_pos ⟨hb, a1⟩]; exact ⟨_, rfl⟩
  obtain ⟨w2, h2⟩ := h2
  obtain ⟨_, c2, _⟩ := bind_cases h2
  rw [sunPath_fits hn.2] at c2
  have c2 := c2 hn.1
  have h3 : ∃ w3, w2.chown os name o gr = .ok (some w3) := by
    unfold LWorld.chown
    split
    · rename_i a b
      obtain ⟨hu, hv⟩ := ho a b rfl rfl
      obtain ⟨u, hu⟩ := Option.isSome_iff_exists.1 hu
      obtain ⟨v, hv⟩ := Option.isSome_iff_exists.1 hv
      rw [hu, hv, c2]; simp [hc]
    · exact ⟨_, rfl⟩
  obtain ⟨w3, h3⟩ := h3
  obtain ⟨_, d5, _⟩ := chown_cases h3
  obtain ⟨u, v, d5, _⟩ := d5 _ _ _ _ c2
  have h4 : ∃ w4, w3.chmod os name p = some w4 := by
    unfold LWorld.chmod
    rw [d5]
    split
    · simp [hm]
    · exact ⟨_, rfl⟩
  obtain ⟨w4, h4⟩ := h4
  unfold LWorld.listenName
  rw [h1]; dsimp only
  rw [if_pos hs, h2]; dsimp only
  rw [h3]; dsimp only
  rw [h4]; dsimp only
  rw [if_pos hl]; exact ⟨_, rfl⟩

/-! ### A concrete history -/

/-- A server listens on `/a` with permissions 0660 and crashes; the next one listens there again, with an owner; a second one listens on
`/b` and is destroyed. -/
def lDemo : List LOp :=
  [.listen {} 0 [47, 97] 0o660 none none, .crash 0,
   .listen { user := fun _ => some 33, grp := fun _ => some 34 } 1 [47, 97] 0o660 (some [119]) (some [119]),
   .listen {} 2 [47, 98] 0xffffffff none none, .destroy {} 2]

/-- What is left of it: `/a` leads to the second socket, `/b` is gone. -/
theorem C117_demo : ∃ w, lrun (lInit fun _ => none) lDemo = .ok ([some true, none, some true, some true, none], w) ∧
    w.fs [47, 97] = some (.sock 1 33 34 0o660) ∧ w.fs [47, 98] = none ∧ w.opened = [1] ∧ Reaches w [47, 97] 1 := by
  refine ⟨_, rfl, ?_, ?_, ?_, 1, 33, 34, 0o660, ?_, ?_, ?_⟩ <;> decide +kernel

/-- It meets the hypotheses of `C117_stays_partial` for the third server on `/b`, up to its destruction. -/
example : (∀ op ∈ (lDemo.take 3) ++ [LOp.unlink [47, 97]], OnlyOf 2 [47, 98] op) ∧ (∀ op ∈ [LOp.unlink [47, 97]], Leaves 2 [47, 98] op) ∧ NameFits [47, 98] := by
  refine ⟨?_, ?_, ?_⟩
  · intro op hop
    simp only [lDemo, List.take, List.cons_append, List.nil_append, List.mem_cons, List.not_mem_nil, or_false] at hop
    rcases hop with rfl | rfl | rfl | rfl <;> simp [OnlyOf]
  · intro op hop; simp only [List.mem_singleton] at hop; subst hop; simp [Leaves]
  · exact ⟨by decide, by decide⟩

/-! ### What fails -/

/-- **C117 fails** when the permissions are refused: `listen` returns false, but the file it made stays there, and the destruction of the
group does not remove it; clients that connect are refused. -/
theorem C117_leftover_violated (os : ListenOs) (w : LWorld) (hw : LReach w) (g : Nat) (name : Bytes) (p : UInt32) (hn : NameFits name)
    (hs : os.socket = true) (hb : os.bind = true) (hm : os.chmod = false) (hp : p ≠ 0xffffffff) (hf : w.fs name = none)
    (hnew : name ∉ (w.groups g).names) :
    ∃ w', w.listenName os g name p none none = .ok (false, w') ∧ ∀ os', ∃ s u v m, (w'.destroy os' g).fs name = some (.sock s u v m) ∧
      s ∉ (w'.destroy os' g).opened := by
  have h1 : w.remove os name = some w := by unfold LWorld.remove; rw [hf]
  have hd := sunPath_fits hn.2
  have hx : w.listenName os g name p none none = .ok (false, LWorld.close { w with next := w.next + 1, opened := w.next :: w.opened, fs := fsPut w.fs name (some (.sock w.next os.uid os.gid os.mode)) } w.next) := by
    unfold LWorld.listenName
    rw [h1]; dsimp only
    rw [if_pos hs, hd]
    unfold LWorld.bind
    rw [if_pos ⟨hb, hf⟩, if_neg hn.1]
    dsimp only [LWorld.chown]
    unfold LWorld.chmod
    rw [if_pos hp]; dsimp only; rw [fsPut_same]; simp [hm]
  refine ⟨_, hx, fun os' => ⟨w.next, os.uid, os.gid, os.mode, ?_, ?_⟩⟩
  · obtain ⟨_, _, _, _, b4⟩ := end_cases (w := LWorld.close { w with next := w.next + 1, opened := w.next :: w.opened, fs := fsPut w.fs name (some (.sock w.next os.uid os.gid os.mode)) } w.next) (g := g) (Or.inr ⟨os', rfl⟩)
    rw [b4 name hnew]; exact fsPut_same _ _ _
  · obtain ⟨_, _, _, b3, _⟩ := end_cases (w := LWorld.close { w with next := w.next + 1, opened := w.next :: w.opened, fs := fsPut w.fs name (some (.sock w.next os.uid os.gid os.mode)) } w.next) (g := g) (Or.inr ⟨os', rfl⟩)
    rw [b3]; intro ⟨hx, _⟩
    simp [LWorld.close] at hx

/-- **C117 fails** for every name of 108 bytes or more: `listen` can return true although no file of this name is there; what it made has the
first 107 bytes as its name, is not removed with the group, and makes the next call fail. -/
theorem C117_long_violated (w : LWorld) (g : Nat) (name : Bytes) (hn : 107 < name.length) (hf : w.fs name = none)
    (hs : w.fs (name.take 107) = none) (hno : ∀ i, name.take 107 ∉ (w.groups i).names) :
    ∃ w', w.listenName {} g name 0xffffffff none none = .ok (true, w') ∧ w'.fs name = none ∧
      (∃ s u v m, (w'.destroy {} g).fs (name.take 107) = some (.sock s u v m)) ∧
      ∃ w'', (w'.destroy {} g).listenName {} g name 0xffffffff none none = .ok (false, w'') := by
  have h1 : w.remove {} name = some w := by unfold LWorld.remove; rw [hf]
  have hne : name.take 107 ≠ [] := by intro h; have := congrArg List.length h; rw [List.length_take, List.length_nil] at this; omega
  have hnn : name ≠ name.take 107 := by intro h; have := congrArg List.length h; rw [List.length_take] at this; omega
  have hx : ∃ w', w.listenName {} g name 0xffffffff none none = .ok (true, w') ∧ w'.fs = fsPut w.fs (name.take 107) (some (.sock w.next 0 0 0o755)) ∧
      (w'.groups g).names = (w.groups g).names ++ [name] := by
    unfold LWorld.listenName
    rw [h1]; dsimp only
    unfold sunPath LWorld.bind
    rw [if_pos rfl, if_pos ⟨rfl, hs⟩, if_neg hne]
    dsimp only [LWorld.chown]
    unfold LWorld.chmod
    rw [if_neg (by simp)]; dsimp only
    rw [if_pos rfl]
    exact ⟨_, rfl, rfl, by dsimp only; rw [if_pos rfl]⟩
  obtain ⟨w', hx, hfs, hnm⟩ := hx
  have hfn : w'.fs name = none := by rw [hfs, fsPut_other _ _ hnn]; exact hf
  have hft : (w'.destroy {} g).fs (name.take 107) = some (.sock w.next 0 0 0o755) := by
    obtain ⟨_, _, _, _, b4⟩ := end_cases (w := w') (g := g) (Or.inr ⟨{}, rfl⟩)
    rw [b4, hfs, fsPut_same]
    rw [hnm, List.mem_append, not_or]
    exact ⟨hno g, fun h => hnn (List.mem_singleton.1 h).symm⟩
  refine ⟨w', hx, hfn, ⟨_, _, _, _, hft⟩, ?_⟩
  have hfd : (w'.destroy {} g).fs name = none := by
    obtain ⟨a1, _⟩ := foldl_close (w'.groups g).listeners w'
    rcases foldl_keep {} (w'.groups g).names ((w'.groups g).listeners.foldl LWorld.close w') name with h | h
    · exact h
    · exact h.trans (by rw [a1]; exact hfn)
  generalize w'.destroy {} g = wd at hft hfd
  have h2 : wd.remove {} name = some wd := by unfold LWorld.remove; rw [hfd]
  unfold LWorld.listenName
  rw [h2]; dsimp only
  unfold sunPath LWorld.bind
  rw [if_pos rfl, if_neg (by rw [hft]; simp)]
  exact ⟨_, rfl⟩

/-- **C117 fails** for a user or group the system does not know: the null pointer `getpwnam` or `getgrnam` returned is used. -/
theorem C117_owner_violated (w : LWorld) (os : ListenOs) (g : Nat) (name : Bytes) (p : UInt32) (o gr : Bytes) (hn : NameFits name)
    (hf : w.fs name = none) (hs : os.socket = true) (hb : os.bind = true) (hu : os.user o = none ∨ os.grp gr = none) :
    w.listenName os g name p (some o) (some gr) = .ub .oobRead := by
  have h1 : w.remove os name = some w := by unfold LWorld.remove; rw [hf]
  unfold LWorld.listenName
  rw [h1]; dsimp only
  rw [if_pos hs, sunPath_fits hn.2]
  unfold LWorld.bind
  rw [if_pos ⟨hb, hf⟩, if_neg hn.1]
  dsimp only [LWorld.chown]
  rcases hu with hu | hu
  · rw [hu]
  · rw [hu]; cases os.user o <;> rfl

/-- **C117 fails** for an owner without a group, or a group without an owner: it is ignored, although the call returns true. -/
theorem C117_ignored_violated (w : LWorld) (g : Nat) (name : Bytes) (o : Bytes) (u : Nat) (hn : NameFits name) (hf : w.fs name ≠ some .dir)
    (hu : u ≠ 0) : ∃ w' s u' v m, w.listenName { user := fun _ => some u } g name 0xffffffff (some o) none = .ok (true, w') ∧
      w'.fs name = some (.sock s u' v m) ∧ u' ≠ u := by
  obtain ⟨w', h⟩ := C117_again w { user := fun _ => some u } g name 0xffffffff (some o) none hn rfl rfl rfl rfl rfl rfl hf nofun
  obtain ⟨_, _, _, _, _, h6⟩ := listen_cases h
  obtain ⟨u', v, m, a, _, _, _, b⟩ := h6 rfl hn
  exact ⟨w', _, u', v, m, h, a, by rw [(b (Or.inr rfl)).1]; exact Ne.symm hu⟩

/-- **C117 fails** when a server is replaced before the old one has ended: the destruction of the old one removes the new one's file, and no
client reaches the new one any more. -/
theorem C117_stolen_violated (name : Bytes) (hn : NameFits name) :
    ∃ w w', lrun (lInit fun _ => none) [.listen {} 0 name 0xffffffff none none, .listen {} 1 name 0xffffffff none none] =
        .ok ([some true, some true], w) ∧ Reaches w name 1 ∧
      lrun w [.destroy {} 0] = .ok ([none], w') ∧ w'.fs name = none ∧ 1 ∈ (w'.groups 1).listeners := by
  obtain ⟨w1, h1⟩ := C117_again (lInit fun _ => none) {} 0 name 0xffffffff none none hn rfl rfl rfl rfl rfl rfl nofun nofun
  obtain ⟨_, _, _, _, a5, a6⟩ := listen_cases h1
  obtain ⟨u1, v1, m1, a6, _⟩ := a6 rfl hn
  obtain ⟨a1, a2, a3, a4, _⟩ := a5 rfl
  obtain ⟨w2, h2⟩ := C117_again w1 {} 1 name 0xffffffff none none hn rfl rfl rfl rfl rfl rfl (by rw [a6]; nofun) nofun
  obtain ⟨_, _, _, _, b5, b6⟩ := listen_cases h2
  obtain ⟨u2, v2, m2, b6, _⟩ := b6 rfl hn
  obtain ⟨b1, b2, b3, b4, b7⟩ := b5 rfl
  have hn0 : name ∈ (w2.groups 0).names := by rw [b7 0 (by decide), a4]; simp
  refine ⟨w2, w2.destroy {} 0, ?_, ⟨_, _, _, _, b6, by rw [b3]; simp, by rw [b1]; simp⟩, rfl, ?_, ?_⟩
  · simp [lrun, LOp.step, h1, h2]
  · obtain ⟨_, _, _, _, h⟩ := foldl_remove {} (w2.groups 0).names ((w2.groups 0).listeners.foldl LWorld.close w2)
    obtain ⟨d1, _⟩ := foldl_close (w2.groups 0).listeners w2
    rcases foldl_keep {} (w2.groups 0).names ((w2.groups 0).listeners.foldl LWorld.close w2) name with k | k
    · exact k
    · rcases h name (Or.inr ⟨hn0, rfl⟩) with h | h
      · exact h
      · rw [d1, b6, h] at k; cases k
  · obtain ⟨_, c1, _⟩ := end_cases (w := w2) (g := 0) (Or.inr ⟨{}, rfl⟩)
    rw [c1 1 (by decide), b3, a2]; simp [lInit]

end Fcgi.Props
