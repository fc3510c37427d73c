import Verif.Model.Group
/-! # C110: polling the sockets of a group -/
namespace Fcgi.Props
open Fcgi.Model

/-- What the operating system may report that is not the fault of a connection: polling fails, a listening socket cannot be put into the
poll set, a listening socket has other events than input, the wake-up socket hangs up, fails or cannot be read. -/
def OwnFault (g : Group) (t : Turn) : Prop :=
  t.relisted = false ∨ t.poll = .failed ∨ (∃ l b, l ∈ g.listeners ∧ t.poll = .event l b ∧ b.onlyIn = false) ∨
  (∃ b, t.poll = .event g.wakeFd b ∧ (b.err = true ∨ b.hup = true ∨ b.rdHup = true ∨ t.drained = false))

/-- Events no connection has according to the documentation of the operating system. -/
def Weird (t : Turn) : Prop := ∃ fd b, t.poll = .event fd b ∧ b.inn = false ∧ b.err = false ∧ b.hup = false ∧ b.rdHup = false

/-- A connection could not be accepted. -/
def Refused (g : Group) (t : Turn) : Prop := ∃ l b, l ∈ g.listeners ∧ t.poll = .event l b ∧ t.accepted = none

theorem group_create (g : Group) (t : Turn) (fd : Nat) : (g.create t fd).listeners = g.listeners ∧ (g.create t fd).wakeFd = g.wakeFd ∧
    (g.create t fd).accept = g.accept := by
  unfold Group.create; repeat' split
  all_goals exact ⟨rfl, rfl, rfl⟩

theorem group_relist (g : Group) : g.relist.listeners = g.listeners ∧ g.relist.wakeFd = g.wakeFd ∧ g.relist.accept = g.accept ∧
    g.relist.socks = g.socks ∧ g.relist.closed = g.closed := by
  unfold Group.relist; split <;> exact ⟨rfl, rfl, rfl, rfl, rfl⟩

theorem onlyIn_false {b : PBits} (h : b.onlyIn = true) : b.inn = true ∧ b.err = false ∧ b.hup = false ∧ b.rdHup = false ∧ b.other = false := by
  simp only [PBits.onlyIn, Bool.and_eq_true, Bool.not_eq_true'] at h
  exact ⟨h.1.1.1.1, h.1.1.1.2, h.1.1.2, h.1.2, h.2⟩

/-- The call ends the program only for a fault of the group's own, an event that does not exist - or a connection that could not be accepted. -/
theorem C110_exit_partial (ts : List Turn) : ∀ (g : Group) (block : Bool), (g.poll block ts).1 = .exit →
    ∃ t ∈ ts, OwnFault g t ∨ Weird t ∨ Refused g t := by
  induction ts with
  | nil => intro g block h; unfold Group.poll at h; split at h <;> cases h
  | cons t ts ih =>
    intro g block h
    have next : ∀ (g' : Group) (bl : Bool), g'.listeners = g.listeners → g'.wakeFd = g.wakeFd → (g'.poll bl ts).1 = .exit →
        ∃ x ∈ t :: ts, OwnFault g x ∨ Weird x ∨ Refused g x := by
      intro g' bl h1 h2 h3
      obtain ⟨x, hx, hc⟩ := ih g' bl h3
      refine ⟨x, by simp [hx], ?_⟩
      unfold OwnFault Refused at hc ⊢
      rw [h1, h2] at hc
      exact hc
    obtain ⟨r1, r2, r3, r4, r5⟩ := group_relist g
    unfold Group.poll at h
    split at h
    · split at h
      · rename_i hr
        simp only [Bool.and_eq_true, Bool.not_eq_true'] at hr
        exact ⟨t, by simp, .inl (.inl hr.2)⟩
      · dsimp only at h
        split at h
        · rename_i hp
          exact ⟨t, by simp, .inl (.inr (.inl hp))⟩
        · split at h
          · exact next _ _ r1 r2 h
          · cases h
        · cases h
        · rename_i fd b hp
          split at h
          · rename_i hl
            rw [r1] at hl
            split at h
            · split at h
              · rename_i ha
                exact ⟨t, by simp, .inr (.inr ⟨fd, b, hl, hp, ha⟩)⟩
              · rename_i new ha
                obtain ⟨c1, c2, c3⟩ := group_create g.relist t new
                exact next _ _ (c1.trans r1) (c2.trans r2) h
            · rename_i hb
              exact ⟨t, by simp, .inl (.inr (.inr (.inl ⟨fd, b, hl, hp, by simpa using hb⟩)))⟩
          · split at h
            · rename_i hw
              rw [r2] at hw
              subst hw
              split at h
              · split at h
                · exact next { g.relist with waking := false } _ r1 r2 h
                · rename_i hd
                  exact ⟨t, by simp, .inl (.inr (.inr (.inr ⟨b, hp, .inr (.inr (.inr (by simpa using hd)))⟩)))⟩
              · split at h
                · rename_i hh
                  simp only [Bool.or_eq_true] at hh
                  exact ⟨t, by simp, .inl (.inr (.inr (.inr ⟨b, hp, by rcases hh with hh | hh <;> simp [hh]⟩)))⟩
                · split at h
                  · rename_i hh
                    exact ⟨t, by simp, .inl (.inr (.inr (.inr ⟨b, hp, .inl hh⟩)))⟩
                  · cases h
            · split at h
              · exact next { g.relist with closed := g.relist.closed ++ [fd] } _ r1 r2 h
              · split at h
                · cases h
                · rename_i hh
                  split at h
                  · rename_i hi
                    simp only [Bool.or_eq_true, not_or, Bool.not_eq_true] at hh
                    exact ⟨t, by simp, .inr (.inl ⟨fd, b, hp, by simpa using hi, hh.2, hh.1.2, hh.1.1⟩)⟩
                  · cases h
    · cases h

/-- Violated: whatever the state of the server, a connection that cannot be accepted (the client has gone away again, another process has
taken it, all descriptors are in use) ends the program. -/
theorem C110_violated (g : Group) (block : Bool) (l : Nat) (hl : l ∈ g.listeners) (t : Turn) (ht : t.poll = .event l { inn := true })
    (hr : t.relisted = true) (ha : t.accepted = none) (ts : List Turn) : (g.poll block (t :: ts)).1 = .exit := by
  unfold Group.poll
  have : 0 < g.listeners.length := List.length_pos_of_mem hl
  rw [if_pos (by omega), if_neg (by simp [hr])]
  dsimp only
  rw [ht]
  have h2 : l ∈ g.relist.listeners := by rw [(group_relist g).1]; exact hl
  simp [h2, ha, PBits.onlyIn]

/-- The descriptors of the group. -/
def keys (g : Group) : List Nat := g.socks.map (·.1)

theorem poll_keeps (ts : List Turn) : ∀ (g : Group) (block : Bool),
    (∀ fd ∈ keys g, fd ∈ keys (g.poll block ts).2) ∧ (∀ fd ∈ g.closed, fd ∈ (g.poll block ts).2.closed) ∧
    (∀ fd ∈ keys (g.poll block ts).2, fd ∈ keys g ∨ g.accept = true ∧ ∃ t ∈ ts, t.accepted = some fd ∧ t.nonblock = true) := by
  induction ts with
  | nil => intro g block; unfold Group.poll; split <;> exact ⟨fun _ h => h, fun _ h => h, fun _ h => .inl h⟩
  | cons t ts ih =>
    intro g block
    obtain ⟨r1, r2, r3, r4, r5⟩ := group_relist g
    have same : ∀ (o : Polled) (g' : Group), keys g' = keys g → g'.closed = g.closed →
        (∀ fd ∈ keys g, fd ∈ keys (o, g').2) ∧ (∀ fd ∈ g.closed, fd ∈ (o, g').2.closed) ∧
        (∀ fd ∈ keys (o, g').2, fd ∈ keys g ∨ g.accept = true ∧ ∃ x ∈ t :: ts, x.accepted = some fd ∧ x.nonblock = true) := by
      intro o g' h1 h2
      dsimp only
      rw [h1, h2]
      exact ⟨fun _ h => h, fun _ h => h, fun _ h => .inl h⟩
    have kr : keys g.relist = keys g := by unfold keys; rw [r4]
    have next : ∀ (g' : Group) (bl : Bool), g'.accept = g.accept → (∀ fd ∈ keys g, fd ∈ keys g') → (∀ fd ∈ g.closed, fd ∈ g'.closed) →
        (∀ fd ∈ keys g', fd ∈ keys g ∨ g.accept = true ∧ t.accepted = some fd ∧ t.nonblock = true) →
        (∀ fd ∈ keys g, fd ∈ keys (g'.poll bl ts).2) ∧ (∀ fd ∈ g.closed, fd ∈ (g'.poll bl ts).2.closed) ∧
        (∀ fd ∈ keys (g'.poll bl ts).2, fd ∈ keys g ∨ g.accept = true ∧ ∃ x ∈ t :: ts, x.accepted = some fd ∧ x.nonblock = true) := by
      intro g' bl h0 h1 h2 h3
      obtain ⟨i1, i2, i3⟩ := ih g' bl
      refine ⟨fun fd h => i1 fd (h1 fd h), fun fd h => i2 fd (h2 fd h), ?_⟩
      intro fd h
      rcases i3 fd h with h | ⟨ha, x, hx, hc⟩
      · rcases h3 fd h with h | ⟨ha, hc⟩
        · exact .inl h
        · exact .inr ⟨ha, t, by simp, hc⟩
      · exact .inr ⟨h0 ▸ ha, x, by simp [hx], hc⟩
    have stay : ∀ (g' : Group) (bl : Bool), g'.accept = g.accept → keys g' = keys g → (∀ fd ∈ g.closed, fd ∈ g'.closed) →
        (∀ fd ∈ keys g, fd ∈ keys (g'.poll bl ts).2) ∧ (∀ fd ∈ g.closed, fd ∈ (g'.poll bl ts).2.closed) ∧
        (∀ fd ∈ keys (g'.poll bl ts).2, fd ∈ keys g ∨ g.accept = true ∧ ∃ x ∈ t :: ts, x.accepted = some fd ∧ x.nonblock = true) :=
      fun g' bl h0 h1 h2 => next g' bl h0 (fun fd h => h1 ▸ h) h2 (fun fd h => .inl (h1 ▸ h))
    unfold Group.poll
    split
    · split
      · exact same _ _ rfl rfl
      · dsimp only
        split
        · exact same _ _ kr r5
        · split
          · exact stay _ _ r3 kr (fun fd h => by rw [r5]; exact h)
          · exact same _ _ kr r5
        · exact same _ _ kr r5
        · rename_i fd b hp
          split
          · split
            · split
              · exact same _ _ kr r5
              · rename_i new ha
                obtain ⟨c1, c2, c3⟩ := group_create g.relist t new
                refine next _ _ (c3.trans r3) ?_ ?_ ?_
                · intro x hx
                  rw [← kr] at hx
                  unfold Group.create; repeat' split
                  all_goals first | exact hx | (unfold keys; dsimp only; simp only [List.map_append]; exact List.mem_append_left _ hx)
                · intro x hx
                  rw [← r5] at hx
                  unfold Group.create; repeat' split
                  all_goals first | exact hx | exact List.mem_append_left _ hx
                · intro x hx
                  unfold Group.create at hx
                  repeat' split at hx
                  all_goals first
                    | (left; rw [← kr]; exact hx)
                    | (unfold keys at hx; dsimp only at hx; simp only [List.map_append, List.mem_append] at hx
                       rcases hx with hx | hx
                       · left; rw [← kr]; exact hx
                       · right
                         simp only [List.map_cons, List.map_nil, List.mem_singleton] at hx
                         subst hx
                         refine ⟨?_, ha, ?_⟩
                         · rw [← r3]; assumption
                         · simp_all)
            · exact same _ _ kr r5
          · split
            · split
              · split
                · exact stay { g.relist with waking := false } _ r3 kr (fun fd h => by show fd ∈ g.relist.closed; rw [r5]; exact h)
                · exact same _ _ kr r5
              · split
                · exact same _ _ kr r5
                · split
                  · exact same _ _ kr r5
                  · exact same _ _ kr r5
            · split
              · exact stay { g.relist with closed := g.relist.closed ++ [fd] } _ r3 kr
                  (fun x h => List.mem_append_left _ (by rw [r5]; exact h))
              · split
                · refine same _ _ ?_ r5
                  unfold keys
                  dsimp only
                  rw [← r4, List.map_map]
                  apply List.map_congr_left
                  intro s _
                  dsimp only [Function.comp]
                  split
                  · rename_i e; exact e.symm
                  · rfl
                · split
                  · exact same _ _ kr r5
                  · exact same _ _ kr r5
    · exact same _ _ rfl rfl

theorem poll_socks (ts : List Turn) : ∀ (g : Group) (block : Bool), ∀ s ∈ g.socks,
    s ∈ (g.poll block ts).2.socks ∨ (g.poll block ts).1 = .socket s.1 ∧ (s.1, true, s.2.2) ∈ (g.poll block ts).2.socks := by
  induction ts with
  | nil => intro g block s hs; unfold Group.poll; split <;> exact .inl hs
  | cons t ts ih =>
    intro g block s hs
    obtain ⟨r1, r2, r3, r4, r5⟩ := group_relist g
    rw [← r4] at hs
    unfold Group.poll
    split
    · split
      · exact .inl (r4 ▸ hs)
      · dsimp only
        split
        · exact .inl hs
        · split
          · exact ih _ _ s hs
          · exact .inl hs
        · exact .inl hs
        · rename_i fd b hp
          split
          · split
            · split
              · exact .inl hs
              · rename_i new ha
                refine ih _ _ s ?_
                unfold Group.create; repeat' split
                all_goals first | exact hs | exact List.mem_append_left _ hs
            · exact .inl hs
          · split
            · split
              · split
                · exact ih { g.relist with waking := false } _ s hs
                · exact .inl hs
              · split
                · exact .inl hs
                · split
                  · exact .inl hs
                  · exact .inl hs
            · split
              · exact ih { g.relist with closed := g.relist.closed ++ [fd] } _ s hs
              · split
                · by_cases e : s.1 = fd
                  · right
                    refine ⟨by rw [e], ?_⟩
                    dsimp only
                    rw [List.mem_map]
                    exact ⟨s, hs, by rw [if_pos e, e]⟩
                  · left
                    dsimp only
                    rw [List.mem_map]
                    exact ⟨s, hs, by rw [if_neg e]⟩
                · split
                  · exact .inl hs
                  · exact .inl hs
    · exact .inl (r4 ▸ hs)

/-- After a turn the listening sockets are polled exactly if connections are let in, unless the program has ended. -/
theorem C110_listeners (t : Turn) (ts : List Turn) (g : Group) (block : Bool) (hn : g.listeners ≠ [])
    (hi : g.refresh = false → g.polled = g.accept) (he : (g.poll block (t :: ts)).1 ≠ .exit) :
    (g.poll block (t :: ts)).2.polled = g.accept ∧ (g.poll block (t :: ts)).2.accept = g.accept := by
  have fin : ∀ (ts : List Turn) (g' : Group) (bl : Bool), g'.refresh = false → g'.polled = g.accept → g'.accept = g.accept →
      (g'.poll bl ts).2.polled = g.accept ∧ (g'.poll bl ts).2.accept = g.accept := by
    intro ts
    induction ts with
    | nil => intro g' bl h1 h2 h3; unfold Group.poll; split <;> exact ⟨h2, h3⟩
    | cons t ts ih =>
      intro g' bl h1 h2 h3
      have hr : g'.relist = g' := by unfold Group.relist; rw [h1]; rfl
      unfold Group.poll
      split
      · split
        · exact ⟨h2, h3⟩
        · dsimp only
          rw [hr]
          split
          · exact ⟨h2, h3⟩
          · split
            · exact ih _ _ h1 h2 h3
            · exact ⟨h2, h3⟩
          · exact ⟨h2, h3⟩
          · split
            · split
              · split
                · exact ⟨h2, h3⟩
                · apply ih
                  all_goals unfold Group.create; repeat' split
                  all_goals assumption
              · exact ⟨h2, h3⟩
            · split
              · split
                · split
                  · exact ih _ _ h1 h2 h3
                  · exact ⟨h2, h3⟩
                · repeat' split
                  all_goals exact ⟨h2, h3⟩
              · split
                · exact ih _ _ h1 h2 h3
                · repeat' split
                  all_goals exact ⟨h2, h3⟩
      · exact ⟨h2, h3⟩
  by_cases hf : g.refresh = true
  · have hx : (g.poll block (t :: ts)) = if g.accept && !t.relisted then (.exit, g) else g.relist.poll block (t :: ts) := by
      have hr : g.relist.relist = g.relist := by unfold Group.relist; rw [hf]; rfl
      have hr2 : g.relist.refresh = false := by unfold Group.relist; rw [hf]; rfl
      obtain ⟨r1, r2, r3, r4, r5⟩ := group_relist g
      have hp : g.listeners.length + g.socks.length > 0 := by
        have := List.length_pos_iff.2 hn; omega
      have hne : g.listeners.isEmpty = false := by simpa using hn
      rw [Group.poll, if_pos hp, hf, hne]
      simp only [Bool.true_and, Bool.not_false, Bool.and_true]
      split
      · rfl
      · conv => rhs; rw [Group.poll, if_pos (by rw [r1, r4]; exact hp), hr2, hr]
        simp
    rw [hx] at he ⊢
    split at he
    · exact absurd rfl he
    · rename_i h
      rw [if_neg h]
      apply fin
      all_goals unfold Group.relist; rw [hf]; rfl
  · exact fin _ g block (by simpa using hf) (hi (by simpa using hf)) rfl

/-- A turn ends the call, or leads to a call in another state. -/
theorem group_turn (g : Group) (block : Bool) (t : Turn) :
    (∃ o g', o ≠ Polled.waiting ∧ ∀ ts, g.poll block (t :: ts) = (o, g')) ∨
    (∃ g' bl, g'.listeners = g.listeners ∧ g'.wakeFd = g.wakeFd ∧ (g.listeners.length + g.socks.length > 0 → g'.listeners.length + g'.socks.length > 0) ∧
      ∀ ts, g.poll block (t :: ts) = Group.poll g' bl ts) := by
  obtain ⟨r1, r2, r3, r4, r5⟩ := group_relist g
  have hlen : g.listeners.length + g.socks.length > 0 → g.relist.listeners.length + g.relist.socks.length > 0 := by rw [r1, r4]; exact id
  by_cases hpos : ¬ (g.listeners.length + g.socks.length > 0)
  · exact .inl ⟨.nothing, g, by simp, fun ts => by rw [Group.poll, if_neg hpos]⟩
  replace hpos := Decidable.not_not.1 hpos
  by_cases hr : (g.refresh && g.accept && !g.listeners.isEmpty && !t.relisted) = true
  · exact .inl ⟨.exit, g, by simp, fun ts => by rw [Group.poll, if_pos hpos, if_pos hr]⟩
  have hp : ∀ ts, g.poll block (t :: ts) = _ := fun ts => by rw [Group.poll, if_pos hpos, if_neg hr]
  dsimp only at hp
  cases hpt : t.poll with
  | failed => rw [hpt] at hp; exact .inl ⟨_, _, by simp, hp⟩
  | signal => rw [hpt] at hp; exact .inl ⟨_, _, by simp, hp⟩
  | timeout =>
    rw [hpt] at hp
    cases block
    · exact .inl ⟨_, _, by simp, hp⟩
    · exact .inr ⟨_, _, r1, r2, hlen, hp⟩
  | event y c =>
    rw [hpt] at hp
    dsimp only at hp
    by_cases h1 : y ∈ g.relist.listeners
    · simp only [if_pos h1] at hp
      by_cases h2 : c.onlyIn = true
      · simp only [if_pos h2] at hp
        cases ha : t.accepted with
        | none => rw [ha] at hp; exact .inl ⟨_, _, by simp, hp⟩
        | some new =>
          rw [ha] at hp
          obtain ⟨c1, c2, c3⟩ := group_create g.relist t new
          refine .inr ⟨_, _, c1.trans r1, c2.trans r2, fun _ => ?_, hp⟩
          rw [c1]
          have := List.length_pos_of_mem h1
          omega
      · simp only [if_neg h2] at hp
        exact .inl ⟨_, _, by simp, hp⟩
    · simp only [if_neg h1] at hp
      by_cases h2 : y = g.relist.wakeFd
      · simp only [if_pos h2] at hp
        by_cases h3 : c.onlyIn = true
        · simp only [if_pos h3] at hp
          by_cases h4 : t.drained = true
          · simp only [if_pos h4] at hp
            exact .inr ⟨{ g.relist with waking := false }, _, r1, r2, hlen, hp⟩
          · simp only [if_neg h4] at hp
            exact .inl ⟨_, _, by simp, hp⟩
        · simp only [if_neg h3] at hp
          by_cases h4 : (c.hup || c.rdHup) = true
          · simp only [if_pos h4] at hp
            exact .inl ⟨_, _, by simp, hp⟩
          · simp only [if_neg h4] at hp
            by_cases h5 : c.err = true
            · simp only [if_pos h5] at hp
              exact .inl ⟨_, _, by simp, hp⟩
            · simp only [if_neg h5] at hp
              exact .inl ⟨_, _, by simp, hp⟩
      · simp only [if_neg h2] at hp
        cases hk : g.relist.socks.lookup y with
        | none => rw [hk] at hp; exact .inr ⟨{ g.relist with closed := g.relist.closed ++ [y] }, _, r1, r2, hlen, hp⟩
        | some v =>
          rw [hk] at hp
          dsimp only at hp
          by_cases h4 : (c.rdHup || c.hup || c.err) = true
          · simp only [if_pos h4] at hp
            exact .inl ⟨_, _, by simp, hp⟩
          · simp only [if_neg h4] at hp
            by_cases h5 : (!c.inn) = true
            · simp only [if_pos h5] at hp
              exact .inl ⟨_, _, by simp, hp⟩
            · simp only [if_neg h5] at hp
              exact .inl ⟨_, _, by simp, hp⟩

/-- What comes after a number of turns is a call in the state they lead to (that may sleep or not). -/
theorem group_append (pre : List Turn) : ∀ (g : Group) (block : Bool), (g.poll block pre).1 = .waiting →
    (g.poll block pre).2.listeners = g.listeners ∧ (g.poll block pre).2.wakeFd = g.wakeFd ∧
    (g.poll block pre).2.listeners.length + (g.poll block pre).2.socks.length > 0 ∧
    ∃ bl, ∀ rest, g.poll block (pre ++ rest) = (g.poll block pre).2.poll bl rest := by
  induction pre with
  | nil =>
    intro g block h
    have : (g.poll block []).2 = g := by unfold Group.poll; split <;> rfl
    rw [this]
    refine ⟨rfl, rfl, ?_, block, fun _ => rfl⟩
    unfold Group.poll at h
    split at h
    · assumption
    · cases h
  | cons t ts ih =>
    intro g block h
    rcases group_turn g block t with ⟨o, g', ho, e⟩ | ⟨g', bl, l1, l2, _, e⟩
    · rw [e] at h; exact absurd h ho
    · rw [e] at h ⊢
      obtain ⟨i1, i2, i3, bl', i4⟩ := ih g' bl h
      exact ⟨i1.trans l1, i2.trans l2, i3, bl', fun rest => by rw [List.cons_append, e, i4]⟩

/-- Once it is woken, a call does not sleep any more: if nothing is pending it returns; and wake() can be used again. -/
theorem C110_woken (g : Group) (block : Bool) (pre : List Turn) (t z : Turn) (ts : List Turn) (hw : (g.poll block pre).1 = .waiting)
    (hl : g.wakeFd ∉ g.listeners) (ht : t.poll = .event g.wakeFd { inn := true }) (hd : t.drained = true) (hr : t.relisted = true)
    (hz : z.poll = .timeout) (hzr : z.relisted = true) :
    (g.poll block (pre ++ [t])).1 = .waiting ∧ (g.poll block (pre ++ [t])).2.waking = false ∧
    (g.poll block (pre ++ t :: z :: ts)).1 = .nothing := by
  obtain ⟨hs1, hs2, hp, bl, e⟩ := group_append pre g block hw
  rw [e, e]
  revert hp hs1 hs2
  generalize (g.poll block pre).2 = x
  intro hs1 hs2 hp
  rw [← hs1, ← hs2] at hl
  rw [← hs2] at ht
  obtain ⟨r1, r2, r3, r4, r5⟩ := group_relist x
  have step : ∀ ts, x.poll bl (t :: ts) = Group.poll { x.relist with waking := false } false ts := by
    intro ts
    rw [Group.poll, if_pos hp, if_neg (by simp [hr])]
    dsimp only
    rw [ht]
    dsimp only
    rw [if_neg (by rw [r1]; exact hl), if_pos r2.symm, if_pos (by decide), if_pos hd]
  have hp' : ({ x.relist with waking := false } : Group).listeners.length + ({ x.relist with waking := false } : Group).socks.length > 0 := by
    dsimp only; rw [r1, r4]; exact hp
  rw [step, step]
  refine ⟨?_, ?_, ?_⟩
  · unfold Group.poll; rw [if_pos hp']
  · unfold Group.poll; rw [if_pos hp']
  · rw [Group.poll, if_pos hp', if_neg (by simp [hzr])]
    dsimp only
    rw [hz]
    rfl

/-- Connections are neither lost nor invented: the group keeps those it has, and gets only connections that were accepted while
connections are let in; and as long as the call goes on every connection accepted in it is part of the group and polled, or has been
closed - the latter only if connections are not let in or the operating system refused. -/
theorem C110_connections (g : Group) (block : Bool) (ts : List Turn) :
    (∀ s ∈ g.socks, s ∈ (g.poll block ts).2.socks ∨ (g.poll block ts).1 = .socket s.1 ∧ (s.1, true, s.2.2) ∈ (g.poll block ts).2.socks) ∧
    (∀ fd ∈ keys (g.poll block ts).2, fd ∈ keys g ∨ g.accept = true ∧ ∃ t ∈ ts, t.accepted = some fd ∧ t.nonblock = true) ∧
    ((g.poll block ts).1 = .waiting → ∀ t ∈ ts, ∀ l b fd, l ∈ g.listeners → t.poll = .event l b → t.accepted = some fd →
      (g.accept = true ∧ t.nonblock = true ∧ t.added = true ∧ (fd, false, true) ∈ (g.poll block ts).2.socks) ∨
      ((g.accept = false ∨ t.nonblock = false ∨ t.added = false) ∧ fd ∈ (g.poll block ts).2.closed)) := by
  refine ⟨poll_socks ts g block, (poll_keeps ts g block).2.2, ?_⟩
  induction ts generalizing g block with
  | nil => intro _ t ht; cases ht
  | cons t ts ih =>
    intro h x hx l b fd hl hp ha
    obtain ⟨r1, r2, r3, r4, r5⟩ := group_relist g
    unfold Group.poll at h ⊢
    have next : ∀ (g' : Group) (bl : Bool), g'.listeners = g.listeners → g'.accept = g.accept → (g'.poll bl ts).1 = .waiting →
        (x = t → (g.accept = true ∧ x.nonblock = true ∧ x.added = true ∧ (fd, false, true) ∈ g'.socks) ∨
          ((g.accept = false ∨ x.nonblock = false ∨ x.added = false) ∧ fd ∈ g'.closed)) →
        (g.accept = true ∧ x.nonblock = true ∧ x.added = true ∧ (fd, false, true) ∈ (g'.poll bl ts).2.socks) ∨
          ((g.accept = false ∨ x.nonblock = false ∨ x.added = false) ∧ fd ∈ (g'.poll bl ts).2.closed) := by
      intro g' bl h1 h2 h3 h4
      rcases List.mem_cons.1 hx with rfl | hx
      · rcases h4 rfl with ⟨c1, c2, c3, c4⟩ | ⟨c1, c2⟩
        · rcases poll_socks ts g' bl _ c4 with c5 | ⟨c5, _⟩
          · exact .inl ⟨c1, c2, c3, c5⟩
          · rw [h3] at c5; cases c5
        · exact .inr ⟨c1, (poll_keeps ts g' bl).2.1 fd c2⟩
      · have := ih g' bl h3 x hx l b fd (h1 ▸ hl) hp ha
        rw [h2] at this
        exact this
    split at h
    · rename_i hpos
      rw [if_pos hpos]
      split at h
      · cases h
      · rename_i hr
        rw [if_neg hr]
        dsimp only at h ⊢
        cases hpt : t.poll with
        | failed => rw [hpt] at h; cases h
        | signal => rw [hpt] at h; cases h
        | timeout =>
          rw [hpt] at h
          dsimp only at h ⊢
          split at h
          · rename_i hb
            rw [if_pos hb]
            exact next _ _ r1 r3 h (by rintro rfl; rw [hp] at hpt; cases hpt)
          · cases h
        | event y c =>
          rw [hpt] at h
          dsimp only at h ⊢
          split at h
          · rename_i hyl
            rw [if_pos hyl]
            split at h
            · rename_i ho
              rw [if_pos ho]
              split at h
              · cases h
              · rename_i new hnew
                obtain ⟨c1, c2, c3⟩ := group_create g.relist t new
                try rw [hnew]
                try dsimp only
                refine next _ _ (c1.trans r1) (c3.trans r3) h ?_
                rintro rfl
                rw [ha] at hnew
                cases hnew
                unfold Group.create
                rw [r3]
                cases hn : x.nonblock <;> cases hacc : g.accept <;> cases had : x.added <;> simp
            · cases h
          · rename_i hyl
            rw [if_neg hyl]
            rw [r1] at hyl
            have hne : x ≠ t := by rintro rfl; rw [hp] at hpt; cases hpt; exact hyl hl
            split at h
            · rename_i hw
              rw [if_pos hw]
              split at h
              · rename_i ho
                rw [if_pos ho]
                split at h
                · rename_i hd
                  rw [if_pos hd]
                  exact next { g.relist with waking := false } _ r1 r3 h (fun e => absurd e hne)
                · cases h
              · repeat' split at h
                all_goals cases h
            · rename_i hw
              rw [if_neg hw]
              split at h
              · rename_i hk
                try rw [hk]
                exact next { g.relist with closed := g.relist.closed ++ [y] } _ r1 r3 h (fun e => absurd e hne)
              · repeat' split at h
                all_goals cases h
    · cases h

/-- A socket is handed out only if the operating system reported events of it, it is part of the group, and it is marked as closing if a
hang-up or an error is among them. -/
theorem C110_socket (ts : List Turn) : ∀ (g : Group) (block : Bool) (fd : Nat), (g.poll block ts).1 = .socket fd →
    ∃ t ∈ ts, ∃ b, t.poll = .event fd b ∧ fd ∈ keys (g.poll block ts).2 ∧
      ((b.rdHup || b.hup || b.err) = true → ∀ s ∈ (g.poll block ts).2.socks, s.1 = fd → s.2.1 = true) ∧
      ((b.rdHup || b.hup || b.err) = false → b.inn = true) := by
  induction ts with
  | nil => intro g block fd h; unfold Group.poll at h; split at h <;> cases h
  | cons t ts ih =>
    intro g block fd h
    obtain ⟨r1, r2, r3, r4, r5⟩ := group_relist g
    unfold Group.poll at h ⊢
    have next : ∀ (g' : Group) (bl : Bool), (g'.poll bl ts).1 = .socket fd →
      ∃ x ∈ t :: ts, ∃ b, x.poll = .event fd b ∧ fd ∈ keys (g'.poll bl ts).2 ∧
      ((b.rdHup || b.hup || b.err) = true → ∀ s ∈ (g'.poll bl ts).2.socks, s.1 = fd → s.2.1 = true) ∧
      ((b.rdHup || b.hup || b.err) = false → b.inn = true) := by
      intro g' bl h1
      obtain ⟨x, hx, hc⟩ := ih g' bl fd h1
      exact ⟨x, by simp [hx], hc⟩
    split at h
    · rename_i hpos
      rw [if_pos hpos]
      split at h
      · cases h
      · rename_i hr
        rw [if_neg hr]
        dsimp only at h ⊢
        cases hpt : t.poll with
        | failed => rw [hpt] at h; cases h
        | signal => rw [hpt] at h; cases h
        | timeout =>
          rw [hpt] at h
          dsimp only at h ⊢
          split at h
          · rename_i hb
            rw [if_pos hb]
            exact next _ _ h
          · cases h
        | event y c =>
          rw [hpt] at h
          dsimp only at h ⊢
          split at h
          · rename_i hyl
            rw [if_pos hyl]
            split at h
            · rename_i ho
              rw [if_pos ho]
              split at h
              · cases h
              · rename_i new hnew
                try rw [hnew]
                exact next _ _ h
            · cases h
          · rename_i hyl
            rw [if_neg hyl]
            split at h
            · rename_i hw
              rw [if_pos hw]
              split at h
              · rename_i ho
                rw [if_pos ho]
                split at h
                · rename_i hd
                  rw [if_pos hd]
                  exact next _ _ h
                · cases h
              · repeat' split at h
                all_goals cases h
            · rename_i hw
              rw [if_neg hw]
              cases hk : g.relist.socks.lookup y with
              | none =>
                rw [hk] at h
                exact next _ _ h
              | some v =>
                rw [hk] at h
                dsimp only at h ⊢
                have hmem : y ∈ keys g.relist := by
                  unfold keys
                  have := List.lookup_eq_some_iff.1 hk
                  obtain ⟨l1, l2, e, _⟩ := this
                  rw [e]; simp
                split at h
                · rename_i hc
                  rw [if_pos hc]
                  cases h
                  refine ⟨t, by simp, c, hpt, ?_, ?_, ?_⟩
                  · unfold keys at hmem ⊢
                    dsimp only
                    rw [List.map_map]
                    rw [List.mem_map] at hmem ⊢
                    obtain ⟨s, hs, he⟩ := hmem
                    refine ⟨s, hs, ?_⟩
                    dsimp only [Function.comp]
                    rw [if_pos he]
                  · intro _ s hs he
                    dsimp only at hs
                    rw [List.mem_map] at hs
                    obtain ⟨s', hs', e⟩ := hs
                    split at e
                    · rw [← e]
                    · rename_i hne
                      rw [← e] at he
                      exact absurd he hne
                  · intro hf; rw [hf] at hc; cases hc
                · rename_i hc
                  rw [if_neg hc]
                  split at h
                  · cases h
                  · rename_i hi
                    rw [if_neg hi]
                    cases h
                    exact ⟨t, by simp, c, hpt, hmem, fun x => absurd x hc, fun _ => by simpa using hi⟩
    · cases h

/-- A call that may sleep returns without a socket only if it was woken, interrupted by a signal, the wake-up socket had an event that does
not exist, or there are no sockets and listeners at all. -/
theorem C110_nothing (ts : List Turn) : ∀ (g : Group), (g.poll true ts).1 = .nothing →
    (g.listeners = [] ∧ g.socks = []) ∨ ∃ t ∈ ts, t.poll = .signal ∨ ∃ b, t.poll = .event g.wakeFd b := by
  induction ts with
  | nil =>
    intro g h
    unfold Group.poll at h
    split at h
    · cases h
    · rename_i hpos
      exact .inl ⟨List.eq_nil_of_length_eq_zero (by omega), List.eq_nil_of_length_eq_zero (by omega)⟩
  | cons t ts ih =>
    intro g h
    obtain ⟨r1, r2, r3, r4, r5⟩ := group_relist g
    unfold Group.poll at h
    have next : ∀ (g' : Group), g'.wakeFd = g.wakeFd → (g'.listeners ≠ [] ∨ g'.socks ≠ []) → (g'.poll true ts).1 = .nothing →
      (g.listeners = [] ∧ g.socks = []) ∨ ∃ t' ∈ t :: ts, t'.poll = .signal ∨ ∃ b, t'.poll = .event g.wakeFd b := by
      intro g' h1 h2 h3
      rcases ih g' h3 with ⟨e1, e2⟩ | ⟨x, hx, hc⟩
      · rcases h2 with h2 | h2
        · exact absurd e1 h2
        · exact absurd e2 h2
      · exact .inr ⟨x, by simp [hx], h1 ▸ hc⟩
    split at h
    · rename_i hpos
      have hne : g.relist.listeners ≠ [] ∨ g.relist.socks ≠ [] := by
        rw [r1, r4]
        by_cases e1 : g.listeners = []
        · right; intro e2; rw [e1, e2] at hpos; simp at hpos
        · exact .inl e1
      split at h
      · cases h
      · dsimp only at h
        cases hpt : t.poll with
        | failed => rw [hpt] at h; cases h
        | signal => exact .inr ⟨t, by simp, .inl hpt⟩
        | timeout =>
          rw [hpt] at h
          exact next _ r2 hne h
        | event y c =>
          rw [hpt] at h
          dsimp only at h
          split at h
          · rename_i hyl
            split at h
            · split at h
              · cases h
              · rename_i new hnew
                obtain ⟨c1, c2, c3⟩ := group_create g.relist t new
                refine next _ (c2.trans r2) (.inl ?_) h
                rw [c1]
                exact List.ne_nil_of_mem hyl
            · cases h
          · split at h
            · rename_i hw
              rw [r2] at hw
              exact .inr ⟨t, by simp, .inr ⟨c, hw ▸ hpt⟩⟩
            · split at h
              · exact next { g.relist with closed := g.relist.closed ++ [y] } r2 hne h
              · repeat' split at h
                all_goals cases h
    · rename_i hpos
      exact .inl ⟨List.eq_nil_of_length_eq_zero (by omega), List.eq_nil_of_length_eq_zero (by omega)⟩

/-- A server with a listening socket 3, wake-up socket 4 and a connection 7: it accepts 8, is woken, and 7 has hung up. -/
example : Group.poll ⟨[3], 4, true, true, false, true, [(7, false, true)], []⟩ true
      [{ poll := .event 3 { inn := true }, accepted := some 8 }, { poll := .event 4 { inn := true } },
       { poll := .event 7 { inn := true, rdHup := true } }] =
    (.socket 7, ⟨[3], 4, true, false, true, false, [(7, true, true), (8, false, true)], []⟩) := by decide
/-- The same server; the client that was to be accepted is gone: the end, also for the connection 7. -/
example : (Group.poll ⟨[3], 4, true, true, false, true, [(7, false, true)], []⟩ true [{ poll := .event 3 { inn := true } }]).1 = .exit := by decide

/-- `C110_woken`: a connection is accepted, then somebody wakes the group, and the loop returns once it is quiet. -/
example : let g : Group := ⟨[3], 4, true, true, false, true, [(7, false, true)], []⟩
    let pre : List Turn := [{ poll := .event 3 { inn := true }, accepted := some 8 }]
    (g.poll true pre).1 = .waiting ∧ g.wakeFd ∉ g.listeners ∧
    (g.poll true (pre ++ [{ poll := .event 4 { inn := true }, drained := true }, { poll := .timeout }])).1 = .nothing := by decide +kernel

end Fcgi.Props
