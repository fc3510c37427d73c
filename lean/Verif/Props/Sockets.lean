import Verif.Lemmas.Sockets
/-! # Properties C46, C70, C71: socket handles and connections -/
namespace Fcgi.Props
open Fcgi Fcgi.Model Fcgi.Spec
variable {tr : List SEvent} {s : SkSt}

/-! ## C46 handles share a connection, which is closed once -/

/-- Whatever is done with handles: for every connection the system calls are those of one life: no second `close`, no
`read` or `send` after it, and all with the connection's own descriptor (not one that has been given to another
connection since). -/
theorem C46_life (h : SkRun skInit tr s) (c : Nat) : life c tr ≠ .wrong := by
  rw [(skRun_inv h).lf]
  repeat' split
  all_goals simp

/-- A handle is valid exactly if it belongs to a connection, and that is open; so all handles of a connection become invalid together, and
a default handle is not valid. -/
theorem C46_valid (h : SkRun skInit tr s) (i : Nat) (x : Handle) (hx : s.handles i = some x) :
    s.valid x = true ↔ ∃ c fd, x.data = some c ∧ life c tr = .live fd := by
  have I := skRun_inv h
  cases hc : x.data with
  | none => simp [SkSt.valid, hc]
  | some c =>
    have := I.lf c
    rw [if_pos ((I.us i x hx).2 c hc)] at this
    simp only [SkSt.valid, hc, Option.some.injEq]
    constructor
    · intro hv; exact ⟨c, _, rfl, by rw [this, if_pos hv]⟩
    · rintro ⟨_, fd, rfl, hl⟩
      rw [this] at hl
      split at hl
      · assumption
      · cases hl

/-- Reading from or writing to an invalid handle makes no system call, changes nothing and returns -1. -/
theorem C46_invalid (s : SkSt) (i : Nat) (x : Handle) (hx : s.handles i = some x) (hv : s.valid x = false) (a : SkAns) :
    skStep (.read i a) s = some ([], some (-1), s) ∧ skStep (.write i a) s = some ([], some (-1), s) ∧
    skStep (.close i) s = some ([], none, s) := by
  unfold SkSt.valid at hv
  cases hd : x.data with
  | none => simp [skStep, hx, hd, SkSt.close]
  | some d => rw [hd] at hv; simp only at hv; simp [skStep, hx, hd, hv, SkSt.close]

/-- Copying, assigning, moving and dropping the handles of a user closes nothing. -/
theorem C46_copies (h : SkRun skInit tr s) (o : SkOp) (es v s') (hst : skStep o s = some (es, v, s'))
    (ho : (∃ i, o = .default i) ∨ (∃ i j, o = .copy i j) ∨ (∃ i j, o = .assign i j) ∨ (∃ i j, o = .move i j) ∨ ∃ i, o = .drop i) :
    es = [] ∧ ∀ c, (s'.datas c).valid = (s.datas c).valid := by
  have I := skRun_inv h
  rcases ho with ⟨i, rfl⟩ | ⟨i, j, rfl⟩ | ⟨i, j, rfl⟩ | ⟨i, j, rfl⟩ | ⟨i, rfl⟩
  case inr.inr.inr.inr =>
    simp only [skStep] at hst
    split at hst
    · rename_i x hx
      rw [destruct_user (I.us _ _ hx).1] at hst
      cases hst; exact ⟨rfl, fun _ => rfl⟩
    · cases hst
  all_goals
    simp only [skStep] at hst
    split at hst <;> first
      | (cases hst; done)
      | (cases hst; exact ⟨rfl, fun _ => rfl⟩)

/-- `close()` on any handle closes the connection, once, and makes all handles of it invalid. -/
theorem C46_close (h : SkRun skInit tr s) (i : Nat) (x : Handle) (c fd : Nat) (hx : s.handles i = some x) (hc : x.data = some c)
    (hl : life c tr = .live fd) :
    ∃ es s', skStep (.close i) s = some (es, none, s') ∧ life c (tr ++ es) = .shut ∧
      ∀ j y, s'.handles j = some y → y.data = some c → s'.valid y = false := by
  have I := skRun_inv h
  have hlt := (I.us i x hx).2
  obtain ⟨c1, c2, c3, c4, c5, c6, c7⟩ := close_inv I hlt
  refine ⟨(s.close x).1, (s.close x).2, by simp only [skStep, hx], ?_, ?_⟩
  · rw [c1.lf, if_pos (by rw [c2]; exact hlt c hc), c7 c hc]; rfl
  · intro j y hj hy
    simp only [SkSt.valid, hy]
    exact c7 c hc

/-- `read()` on a handle of an open connection returns what the system's `read` returns, 0 if there is nothing to read now; on an error, or
at the end of the data when the peer is known to have hung up, it returns -1 and closes the connection.  Otherwise it closes nothing. -/
theorem C46_read (h : SkRun skInit tr s) (i : Nat) (x : Handle) (c fd : Nat) (hx : s.handles i = some x) (hc : x.data = some c)
    (hl : life c tr = .live fd) :
    skStep (.read i .again) s = some ([.io c fd (some c)], some 0, s) ∧
    (∀ n : Nat, ¬ (n = 0 ∧ (s.datas c).closing = true) → skStep (.read i (.some n)) s = some ([SEvent.io c fd (some c)], some (n : Int), s)) ∧
    (∀ a, a = .error ∨ (a = .some 0 ∧ (s.datas c).closing = true) →
      ∃ es s', skStep (.read i a) s = some (SEvent.io c fd (some c) :: es, some (-1), s') ∧ life c (tr ++ SEvent.io c fd (some c) :: es) = .shut) := by
  have I := skRun_inv h
  have hlt := (I.us i x hx).2
  obtain ⟨hv, rfl⟩ := live_data I hl
  have how : s.owner (s.datas c).fd = some c := (I.ow _ _).2 ⟨hlt c hc, hv, rfl⟩
  refine ⟨by simp [skStep, hx, hc, hv, how], fun n hn => by simp [skStep, hx, hc, hv, how, hn], fun a ha => ?_⟩
  have hsh : life c (tr ++ SEvent.io c (s.datas c).fd (some c) :: (s.close x).1) = .shut := by
    obtain ⟨c1, c2, _, _, _, _, c7⟩ := close_inv (sk_io I (hlt c hc) hv) hlt
    rw [how] at c1
    have := c1.lf c
    rw [if_pos (by rw [c2]; exact hlt c hc), c7 c hc] at this
    simpa using this
  refine ⟨(s.close x).1, (s.close x).2, ?_, hsh⟩
  rcases ha with rfl | ⟨rfl, hcl⟩
  · simp [skStep, hx, hc, hv, how]
  · simp [skStep, hx, hc, hv, how, hcl]

/-- `write()` likewise; when the peer is known to have hung up it returns -1 without a system call. -/
theorem C46_write (h : SkRun skInit tr s) (i : Nat) (x : Handle) (c fd : Nat) (hx : s.handles i = some x) (hc : x.data = some c)
    (hl : life c tr = .live fd) :
    ((s.datas c).closing = true → ∀ a, skStep (.write i a) s = some ([], some (-1), s)) ∧
    ((s.datas c).closing = false → skStep (.write i .again) s = some ([.io c fd (some c)], some 0, s) ∧
      (∀ n : Nat, skStep (.write i (.some n)) s = some ([SEvent.io c fd (some c)], some (n : Int), s)) ∧
      ∃ es s', skStep (.write i .error) s = some (SEvent.io c fd (some c) :: es, some (-1), s') ∧ life c (tr ++ SEvent.io c fd (some c) :: es) = .shut) := by
  have I := skRun_inv h
  have hlt := (I.us i x hx).2
  obtain ⟨hv, rfl⟩ := live_data I hl
  have how : s.owner (s.datas c).fd = some c := (I.ow _ _).2 ⟨hlt c hc, hv, rfl⟩
  refine ⟨fun hcl a => by simp [skStep, hx, hc, hcl], fun hcl => ⟨by simp [skStep, hx, hc, hv, how, hcl], fun n => by simp [skStep, hx, hc, hv, how, hcl], ?_⟩⟩
  have hsh : life c (tr ++ SEvent.io c (s.datas c).fd (some c) :: (s.close x).1) = .shut := by
    obtain ⟨c1, c2, _, _, _, _, c7⟩ := close_inv (sk_io I (hlt c hc) hv) hlt
    rw [how] at c1
    have := c1.lf c
    rw [if_pos (by rw [c2]; exact hlt c hc), c7 c hc] at this
    simpa using this
  exact ⟨(s.close x).1, (s.close x).2, by simp [skStep, hx, hc, hv, how, hcl], hsh⟩

/-- A peer is known to have hung up exactly since `poll()` was told so for the descriptor of its connection: a new connection is not, and
nothing else changes it. -/
theorem C46_hangup (h : SkRun skInit tr s) (o : SkOp) (es v s') (hst : skStep o s = some (es, v, s')) (c : Nat) :
    (life c tr = .unborn → (∃ fd, life c (tr ++ es) = .live fd) → (s'.datas c).closing = false) ∧
    (life c tr ≠ .unborn → (s'.datas c).closing ≠ (s.datas c).closing → o = .hangup (s.datas c).fd ∧ (s'.datas c).closing = true) ∧
    (o = .hangup (s.datas c).fd → (∃ fd, life c tr = .live fd) → (s'.datas c).closing = true) := by
  have I := skRun_inv h
  have I' := skStep_inv I hst
  have hun : life c tr = .unborn ↔ ¬ c < s.next := by
    rw [I.lf]; split
    · split <;> simp_all
    · simp_all
  obtain ⟨k1, k2⟩ := skStep_closing I hst
  refine ⟨fun h1 _ => ?_, fun h1 h2 => ?_, fun h1 ⟨fd, h2⟩ => ?_⟩
  · have hn := hun.1 h1
    rename_i hl
    obtain ⟨fd, hl⟩ := hl
    have hlt : c < s'.next := by
      rw [I'.lf] at hl
      split at hl
      · assumption
      · cases hl
    exact k1 c hn hlt
  · have hlt : c < s.next := Decidable.not_not.1 fun hn => h1 (hun.2 hn)
    rcases k2 c hlt with k2 | k2
    · exact absurd k2 h2
    · exact k2
  · obtain ⟨hv, rfl⟩ := live_data I h2
    have hlt : c < s.next := Decidable.not_not.1 fun hn => by have := hun.2 hn; rw [h2] at this; cases this
    subst h1
    rcases I.ii c hlt hv with hx | hm
    · exact hx.elim
    · obtain ⟨w, hw⟩ : ∃ w, s.map.lookup (s.datas c).fd = some w := by
        cases hl : s.map.lookup (s.datas c).fd with
        | none => exact absurd hm (sk_none hl _)
        | some w => exact ⟨w, rfl⟩
      have := sk_nodup I.nd (sk_mem hw) hm
      subst this
      simp only [skStep, hw] at hst
      split at hst
      · cases hst; simp [SkSt.setData]
      · cases hst

/-- When the group is destroyed all its connections are closed: no descriptor is left open. -/
theorem C46_finish (h : SkRun skInit tr s) (he : s.ended = true) (c : Nat) : life c tr = .unborn ∨ life c tr = .shut := by
  have I := skRun_inv h
  rw [I.lf]
  split
  · rename_i hlt
    right
    cases hv : (s.datas c).valid with
    | false => rfl
    | true =>
      exfalso
      rcases I.ii c hlt hv with h' | h'
      · exact h'
      · rw [I.en he] at h'; cases h'
  · exact Or.inl rfl

def skPlay (s : SkSt) : List SkOp → Option (List SEvent × List (Option Int) × SkSt)
  | [] => some ([], [], s)
  | o :: os =>
    match skStep o s with
    | none => none
    | some (es, v, s') =>
      match skPlay s' os with
      | none => none
      | some (tr, vs, s'') => some (es ++ tr, v :: vs, s'')

theorem skPlay_run {os : List SkOp} : ∀ {s0 s tr0 tr vs s'}, SkRun s0 tr0 s → skPlay s os = some (tr, vs, s') → SkRun s0 (tr0 ++ tr) s' := by
  induction os with
  | nil => intro s0 s tr0 tr vs s' h0 h; cases h; simpa using h0
  | cons o os ih =>
    intro s0 s tr0 tr vs s' h0 h
    unfold skPlay at h
    split at h
    · cases h
    · rename_i es v s1 ho
      split at h
      · cases h
      · rename_i tr' vs' s2 hp
        cases h
        rw [← List.append_assoc]
        exact ih (.step h0 o ho) hp

/-- Two handles of a connection, one of them closed; its descriptor is then given to another connection; the other handle,
used after that, does no harm; the group ends. -/
example : ∃ s, SkRun skInit [.opened 0 5, .io 0 5 (some 0), .closed 0 5 (some 0), .opened 1 5, .io 1 5 (some 1), .closed 1 5 (some 1)] s ∧
    s.ended = true := by
  have h : (skPlay skInit [.accept 5 true, .poll 5 0, .copy 1 0, .read 1 (.some 3), .close 0, .drop 0, .connect 5 true 2, .read 1 (.some 4),
      .write 2 (.some 1), .finish, .write 2 (.some 1)]).any (fun y => decide (y.1 =
      [.opened 0 5, .io 0 5 (some 0), .closed 0 5 (some 0), .opened 1 5, .io 1 5 (some 1), .closed 1 5 (some 1)] ∧ y.2.2.ended = true)) = true := by rfl
  obtain ⟨y, hy, h1⟩ := (Option.any_eq_true _ _).1 h
  have h1 := of_decide_eq_true h1
  have := skPlay_run (.refl skInit) hy
  rw [List.nil_append, h1.1] at this
  exact ⟨_, this, h1.2⟩

/-! ## C70 an established connection is usable -/

/-- In runs in which the descriptors could always be added to the poll set: a connection established by the operating system is
open and in the group, the handle `connect` returns is a valid handle of it, and the group has nothing but open
connections.  (Missing: runs with a failure, see below.) -/
theorem C70_partial (h : SkRunF skInit tr s) (fd i : Nat) (he : s.ended = false) (hfd : s.owner fd = none) (hi : s.handles i = none) :
    (∃ s' x, skStep (.connect fd true i) s = some ([.opened s.next fd], none, s') ∧ life s.next (tr ++ [.opened s.next fd]) = .live fd ∧
      s'.handles i = some x ∧ x.data = some s.next ∧ s'.valid x = true) ∧
    ∀ e ∈ s.map, ∃ c, e.2.data = some c ∧ life c tr = .live e.1 := by
  have I := skRun_inv h.run
  have L := skRun_lively h
  obtain ⟨a1, a2, a3, a4, a5⟩ := adopt_fine I L hfd
  refine ⟨?_, ?_⟩
  · have hst : skStep (.connect fd true i) s = some ([.opened s.next fd], none, (s.adopt fd true).2.put i (some ⟨some s.next, false⟩)) := by
      simp only [skStep, he, hfd, hi, and_self, if_true, a1, a2, List.lookup_cons, beq_self_eq_true]
    refine ⟨_, _, hst, ?_, by simp only [SkSt.put, if_true]; rfl, rfl, ?_⟩
    · rw [life_append, I.lf, if_neg (by omega)]
      simp [Life.see]
    · simp only [SkSt.valid, SkSt.put]; exact a4
  · intro e hm
    obtain ⟨c, h1, h2, h3⟩ := I.mp e hm
    refine ⟨c, by rw [h1], ?_⟩
    rw [I.lf, if_pos h2, L e hm c (by rw [h1]), h3]
    rfl

/-- After one failure to add a descriptor to the poll set, a dead entry stays in the group under this descriptor (so that
`size()` is never 0 again); the next connection that gets the descriptor is closed at once although nothing is wrong with
it, and the handle `connect` returns is that of the dead connection. -/
theorem C70_violated : ∃ s x, SkRun skInit [.opened 0 5, .closed 0 5 (some 0), .opened 1 5, .closed 1 5 (some 1)] s ∧
    s.handles 0 = some x ∧ x.data = some 0 ∧ s.valid x = false ∧ s.map.length = 1 := by
  have h : (skPlay skInit [.accept 5 false, .connect 5 true 0]).any (fun y => decide (y.1 =
      [.opened 0 5, .closed 0 5 (some 0), .opened 1 5, .closed 1 5 (some 1)] ∧ y.2.2.handles 0 = some ⟨some 0, false⟩ ∧
      y.2.2.valid ⟨some 0, false⟩ = false ∧ y.2.2.map.length = 1)) = true := by rfl
  obtain ⟨y, hy, h1⟩ := (Option.any_eq_true _ _).1 h
  have h1 := of_decide_eq_true h1
  have := skPlay_run (.refl skInit) hy
  rw [List.nil_append, h1.1] at this
  exact ⟨_, _, this, h1.2.1, rfl, h1.2.2⟩

/-! ## C71 all addresses are tried -/

/-- If one of the first two of `n` addresses works, the first one that does is used, by `listen` as well as by `connect`; and one
address that does not work is reported.  (Missing: all other cases.) -/
theorem C71_partial (n : Nat) (ok : Nat → Bool) (hn : 0 < n) (h : n = 1 ∨ ok 0 = true ∨ ok 1 = true) (r : Option Nat) :
    (Search (nextListen n) ok (some 0) r ↔ r = (List.range n).find? ok) ∧
    (Search (nextConnect n) ok (some 0) r ↔ r = (List.range n).find? ok) := by
  have key : ∀ next : Nat → Option Nat, next 0 = (if 1 < n then some 1 else none) → (Search next ok (some 0) r ↔ r = (List.range n).find? ok) := by
    intro next h0
    obtain ⟨m, rfl⟩ : ∃ m, n = m + 1 := ⟨n - 1, by omega⟩
    rw [List.range_succ_eq_map, List.find?_cons]
    cases hk : ok 0 with
    | true =>
      constructor
      · intro hs; cases hs with
        | hit => rfl
        | miss hh => rw [hk] at hh; cases hh
      · rintro rfl; exact .hit hk
    | false =>
      by_cases hm : m = 0
      · subst hm
        simp only [Nat.zero_add, Nat.lt_irrefl, if_false] at h0
        constructor
        · intro hs; cases hs with
          | hit hh => rw [hk] at hh; cases hh
          | miss hh rest => rw [h0] at rest; cases rest; rfl
        · rintro rfl; exact .miss hk (by rw [h0]; exact .none)
      · obtain ⟨p, rfl⟩ : ∃ p, m = p + 1 := ⟨m - 1, by omega⟩
        have h1 : ok 1 = true := by
          rcases h with h | h | h
          · omega
          · rw [hk] at h; cases h
          · exact h
        rw [if_pos (by omega)] at h0
        rw [List.range_succ_eq_map, List.map_cons, List.find?_cons]
        simp only [Nat.succ_eq_add_one, Nat.zero_add, h1]
        constructor
        · intro hs; cases hs with
          | hit hh => rw [hk] at hh; cases hh
          | miss hh rest =>
            rw [h0] at rest
            cases rest with
            | hit => rfl
            | miss hh => rw [h1] at hh; cases hh
        · rintro rfl; exact .miss hk (by rw [h0]; exact .hit h1)
  exact ⟨key _ rfl, key _ (by simp [nextConnect])⟩

example : Search (nextListen 3) (fun i => i == 1) (some 0) (some 1) := .miss rfl (.hit rfl)

/-- `listen` on a name with at least two addresses, the first two of which do not work, never returns, even if a third one
works. -/
theorem C71_listen_violated (n : Nat) (ok : Nat → Bool) (hn : 1 < n) (h0 : ok 0 = false) (h1 : ok 1 = false) :
    ¬ ∃ r, Search (nextListen n) ok (some 0) r := by
  have key : ∀ i r, Search (nextListen n) ok i r → ∀ j, i = some j → (j = 0 ∨ j = 1) → False := by
    intro i r hs
    induction hs with
    | none => intro j hj; cases hj
    | hit hh => intro j hj h; cases hj; rcases h with rfl | rfl <;> simp_all
    | miss hh rest ih => intro j hj h; cases hj; exact ih 1 (by simp [nextListen, hn]) (Or.inr rfl)
  rintro ⟨r, hs⟩
  exact key _ r hs 0 rfl (Or.inl rfl)

/-- `connect` gives up after the first two addresses. -/
theorem C71_connect_violated (n : Nat) (ok : Nat → Bool) (hn : 2 < n) (h0 : ok 0 = false) (h1 : ok 1 = false) (h2 : ok 2 = true) :
    Search (nextConnect n) ok (some 0) none ∧ (List.range n).find? ok = some 2 := by
  refine ⟨.miss h0 ?_, ?_⟩
  · have : nextConnect n 0 = some 1 := by simp [nextConnect]; omega
    rw [this]
    refine .miss h1 ?_
    have : nextConnect n 1 = none := by simp [nextConnect]
    rw [this]
    exact .none
  · obtain ⟨m, rfl⟩ : ∃ m, n = m + 3 := ⟨n - 3, by omega⟩
    rw [List.range_succ_eq_map, List.find?_cons, h0, List.range_succ_eq_map]
    simp [List.range_succ_eq_map, h1, h2]

/-! ## Witnesses for C46 and C70 -/

-- C46_valid, C46_close, C46_read, C46_write, C46_copies: two handles of a live connection
example : ∃ tr s, SkRun skInit tr s ∧ s.handles 0 = some ⟨some 0, false⟩ ∧ s.handles 1 = some ⟨some 0, false⟩ ∧ life 0 tr = .live 5 ∧
    (skStep (.read 1 (.some 3)) s).isSome = true ∧ (skStep (.write 0 (.some 3)) s).isSome = true ∧ (skStep (.close 1) s).isSome = true := by
  have h : (skPlay skInit [.accept 5 true, .poll 5 0, .copy 1 0]).any (fun y => decide (y.2.2.handles 0 = some ⟨some 0, false⟩ ∧
      y.2.2.handles 1 = some ⟨some 0, false⟩ ∧ life 0 y.1 = .live 5 ∧ (skStep (.read 1 (.some 3)) y.2.2).isSome = true ∧
      (skStep (.write 0 (.some 3)) y.2.2).isSome = true ∧ (skStep (.close 1) y.2.2).isSome = true)) = true := by rfl
  obtain ⟨y, hy, h1⟩ := (Option.any_eq_true _ _).1 h
  exact ⟨_, _, by simpa using skPlay_run (.refl skInit) hy, of_decide_eq_true h1⟩

-- C46_invalid: a copy of a handle whose connection has been closed through the other
example : ∃ tr s, SkRun skInit tr s ∧ s.handles 1 = some ⟨some 0, false⟩ ∧ s.valid ⟨some 0, false⟩ = false ∧ life 0 tr = .shut := by
  have h : (skPlay skInit [.accept 5 true, .poll 5 0, .copy 1 0, .close 0]).any (fun y => decide (
      y.2.2.handles 1 = some ⟨some 0, false⟩ ∧ y.2.2.valid ⟨some 0, false⟩ = false ∧ life 0 y.1 = .shut)) = true := by rfl
  obtain ⟨y, hy, h1⟩ := (Option.any_eq_true _ _).1 h
  exact ⟨_, _, by simpa using skPlay_run (.refl skInit) hy, of_decide_eq_true h1⟩

-- C46_hangup: the peer has shut down its side, and a read finds it
example : ∃ tr s es v s', SkRun skInit tr s ∧ skStep (.read 0 (.some 0)) s = some (es, v, s') ∧ (s.datas 0).closing = true := by
  have h : (skPlay skInit [.accept 5 true, .hangup 5, .poll 5 0]).any (fun y => decide ((y.2.2.datas 0).closing = true) &&
    (skStep (.read 0 (.some 0)) y.2.2).isSome) = true := by rfl
  obtain ⟨y, hy, h1⟩ := (Option.any_eq_true _ _).1 h
  simp only [Bool.and_eq_true, decide_eq_true_eq, Option.isSome_iff_exists] at h1
  obtain ⟨h1, ⟨es, v, s'⟩, h2⟩ := h1
  exact ⟨_, _, es, v, s', by simpa using skPlay_run (.refl skInit) hy, h2, h1⟩

-- C70_partial: a second connection to be made while there is one
example : ∃ tr s, SkRunF skInit tr s ∧ s.ended = false ∧ s.owner 6 = none ∧ s.handles 2 = none ∧ s.map.length = 1 := by
  obtain ⟨es, v, s', h⟩ : ∃ es v s', skStep (.accept 5 true) skInit = some (es, v, s') := ⟨_, _, _, rfl⟩
  cases h
  exact ⟨_, _, .step (.refl _) (.accept 5 true) (by rfl) (by rfl), by rfl, by rfl, by rfl, by rfl⟩

end Fcgi.Props
