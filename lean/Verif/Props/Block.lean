import Verif.Spec.Block
/-! # C118: a block is a vector -/
namespace Fcgi.Props
open Fcgi.Model Fcgi.Spec

theorem agree_refl (l : List (Option Byte)) : Agree l l := ⟨rfl, fun _ _ h => h⟩

theorem agree_take {a b : List (Option Byte)} (h : Agree a b) (n : Nat) : Agree (a.take n) (b.take n) := by
  refine ⟨by simp [h.1], fun i x hx => ?_⟩
  rw [List.getElem?_take] at hx ⊢
  split at hx
  · rw [if_pos ‹_›]; exact h.2 i x hx
  · cases hx

theorem agree_drop {a b : List (Option Byte)} (h : Agree a b) (n : Nat) : Agree (a.drop n) (b.drop n) := by
  refine ⟨by simp [h.1], fun i x hx => ?_⟩
  rw [List.getElem?_drop] at hx ⊢
  exact h.2 _ x hx

theorem agree_set {a b : List (Option Byte)} (h : Agree a b) (i : Nat) (x : Option Byte) : Agree (a.set i x) (b.set i x) := by
  refine ⟨by simp [h.1], fun j y hy => ?_⟩
  rw [List.getElem?_set] at hy ⊢
  split at hy
  · rw [if_pos ‹_›]
    split at hy
    · rw [if_pos (h.1 ▸ ‹_›)]; exact hy
    · cases hy
  · rw [if_neg ‹_›]; exact h.2 j y hy

theorem agree_none {n : Nat} {b : List (Option Byte)} (h : b.length = n) : Agree (List.replicate n none) b := by
  refine ⟨by simp [h], fun i x hx => ?_⟩
  rw [List.getElem?_replicate] at hx
  split at hx <;> cases hx

theorem agree_append {a b c d : List (Option Byte)} (h1 : Agree a b) (h2 : Agree c d) : Agree (a ++ c) (b ++ d) := by
  refine ⟨by simp [h1.1, h2.1], fun i x hx => ?_⟩
  rw [List.getElem?_append] at hx ⊢
  rw [← h1.1]
  split at hx
  · rw [if_pos ‹_›]; exact h1.2 i x hx
  · rw [if_neg ‹_›]; exact h2.2 _ x hx

/-- The block has the value: its size, its bytes, its reserve; and its memory is at least what it has reserved. -/
structure BlkIs (b : Blk) (v : Vec) : Prop where
  content : Agree v.bytes b.content
  size : b.size = v.bytes.length
  cap : b.reserve = v.cap
  fits : b.size ≤ b.reserve
  room : b.reserve ≤ b.bytes.length
  null : b.data = none → b.reserve = 0

theorem content_length {b : Blk} {v : Vec} (h : BlkIs b v) : b.content.length = b.size := by
  have := h.fits; have := h.room
  simp [Blk.content]; omega

theorem blkIs_nil : BlkIs {} ⟨[], 0⟩ := ⟨agree_refl _, rfl, rfl, Nat.le_refl _, Nat.le_refl _, fun _ => rfl⟩

theorem read_agree {b : Blk} {v : Vec} (h : BlkIs b v) {off n : Nat} (hn : off + n ≤ v.bytes.length) :
    ∃ src, blkRead b off n = .ok src ∧ Agree ((v.bytes.drop off).take n) src ∧ src.length = n := by
  have h1 := h.fits; have h2 := h.room; have h3 := h.size
  unfold blkRead
  by_cases h0 : n = 0
  · rw [if_pos h0]; subst h0; exact ⟨_, rfl, by simp; exact agree_refl _, rfl⟩
  · rw [if_neg h0, if_pos (by omega)]
    refine ⟨_, rfl, ?_, by simp; omega⟩
    have e : (b.bytes.drop off).take n = (b.content.drop off).take n := by
      unfold Blk.content
      rw [List.drop_take, List.take_take, Nat.min_eq_left (by omega)]
    rw [e]
    exact agree_take (agree_drop h.content off) n

theorem assign_is {b : Blk} {v : Vec} (h : BlkIs b v) (id : Nat) {said src : List (Option Byte)} (hs : Agree said src) :
    ∃ b', b.assign id src = .ok b' ∧ BlkIs b' ⟨said, max v.cap said.length⟩ := by
  have h1 := h.fits; have h2 := h.room; have h3 := h.cap; have h4 := hs.1
  unfold Blk.assign
  by_cases hr : src.length > b.reserve
  · simp only [if_pos hr, blkNew, blkCopy, List.length_replicate, Nat.le_refl, if_true]
    refine ⟨_, rfl, ⟨?_, h4.symm, ?_, Nat.le_refl _, ?_, nofun⟩⟩
    · simpa [Blk.content, Blk.bytes] using hs
    · show src.length = max _ _; omega
    · simp [Blk.bytes]
  · simp only [if_neg hr]
    cases hd : b.data with
    | none =>
      have := h.null hd
      have : src = [] := List.eq_nil_of_length_eq_zero (by omega)
      subst this
      rw [if_pos rfl]
      have : said = [] := List.eq_nil_of_length_eq_zero h4
      subst this
      refine ⟨_, rfl, ⟨?_, rfl, ?_, Nat.zero_le _, by show b.reserve ≤ _; omega, fun h => ?_⟩⟩
      · simp [Blk.content]; exact agree_refl _
      · show b.reserve = max _ 0; omega
      · exact ‹b.reserve = 0›
    | some x =>
      obtain ⟨a, l⟩ := x
      have hl : b.bytes = l := by simp [Blk.bytes, hd]
      rw [hl] at h2
      simp only [blkCopy]
      rw [if_pos (by omega)]
      refine ⟨_, rfl, ⟨?_, h4.symm, ?_, by show src.length ≤ b.reserve; omega, ?_, nofun⟩⟩
      · simpa [Blk.content, Blk.bytes] using hs
      · show b.reserve = max _ _; omega
      · show b.reserve ≤ (src ++ l.drop src.length).length
        simp; omega

theorem reserve_is {b : Blk} {v : Vec} (h : BlkIs b v) (id x : Nat) :
    ∃ b', b.setReserve id x = .ok b' ∧ BlkIs b' ⟨v.bytes.take x, x⟩ := by
  have h1 := h.fits; have h2 := h.room; have h3 := h.cap; have h4 := h.size
  unfold Blk.setReserve
  by_cases hx : x ≠ b.reserve
  · rw [if_pos hx]
    obtain ⟨src, e, ha, hl⟩ := read_agree h (off := 0) (n := min b.size x) (by omega)
    simp only [e, Res.ok_bind, blkCopy, List.length_replicate]
    rw [if_pos (by omega)]
    refine ⟨_, rfl, ⟨?_, ?_, rfl, ?_, ?_, nofun⟩⟩
    · have : (v.bytes.drop 0).take (min b.size x) = v.bytes.take x := by
        rw [List.drop_zero, h4, Nat.min_comm, ← List.take_take, List.take_length]
      rw [this] at ha
      simp only [Blk.content, Blk.bytes]
      rw [List.take_left' hl]
      exact ha
    · simp; omega
    · show min b.size x ≤ x; omega
    · simp [Blk.bytes]; omega
  · rw [if_neg hx]
    have hx : x = b.reserve := by omega
    refine ⟨b, rfl, ⟨?_, ?_, hx.symm, h1, h2, h.null⟩⟩
    · rw [List.take_of_length_le (by omega)]; exact h.content
    · simp; omega

theorem size_is {b : Blk} {v : Vec} (h : BlkIs b v) (id x : Nat) :
    ∃ b', b.setSize id x = .ok b' ∧ BlkIs b' ⟨v.resize x, max v.cap x⟩ := by
  have h1 := h.fits; have h2 := h.room; have h3 := h.cap; have h4 := h.size
  -- within what is reserved
  have grow : ∀ b' : Blk, x ≤ b'.reserve → b'.reserve ≤ b'.bytes.length → (b'.data = none → b'.reserve = 0) → b'.reserve = max v.cap x →
      b'.bytes.take (min b.size x) = b.bytes.take (min b.size x) → BlkIs { b' with size := x } ⟨v.resize x, max v.cap x⟩ := by
    intro b' ha hb hc hd he
    refine ⟨?_, ?_, hd, ha, hb, hc⟩
    · show Agree _ (b'.bytes.take x)
      have hsplit : b'.bytes.take x = b'.bytes.take (min b.size x) ++ (b'.bytes.take x).drop (min b.size x) := by
        have := (List.take_append_drop (min b.size x) (b'.bytes.take x)).symm
        rwa [List.take_take, show min (min b.size x) x = min b.size x by omega] at this
      rw [hsplit, he]
      unfold Vec.resize
      apply agree_append
      · have := agree_take h.content x
        simp only [Blk.content, List.take_take] at this
        rw [Nat.min_comm]; exact this
      · apply agree_none
        simp; omega
    · simp [Vec.resize]; omega
  unfold Blk.setSize
  by_cases hx : x > b.reserve
  · rw [if_pos hx]
    have hfull : BlkIs { b with size := b.reserve } ⟨b.bytes.take b.reserve, v.cap⟩ :=
      ⟨agree_refl _, by simp; omega, h3, Nat.le_refl _, h2, h.null⟩
    obtain ⟨b', e, hb'⟩ := reserve_is hfull id x
    rw [e]
    refine ⟨_, rfl, grow b' (by rw [hb'.cap]; exact Nat.le_refl _) hb'.room hb'.null (by rw [hb'.cap]; show x = _; omega) ?_⟩
    -- the copied bytes, exactly
    have : b'.bytes.take b.reserve = b.bytes.take b.reserve := by
      unfold Blk.setReserve at e
      rw [if_pos (by show x ≠ b.reserve; omega)] at e
      obtain ⟨src, e1, e⟩ := Res.bind_eq_ok.1 e
      obtain ⟨l, e2, e⟩ := Res.bind_eq_ok.1 e
      cases e
      dsimp only at e1
      rw [show min b.reserve x = b.reserve by omega] at e1
      have hsrc : src = b.bytes.take b.reserve := by
        unfold blkRead at e1
        split at e1
        · cases e1; rename_i h0; rw [h0]; rfl
        · split at e1
          · cases e1; rfl
          · cases e1
      unfold blkCopy at e2
      split at e2
      · cases e2
        show (src ++ _).take _ = _
        rw [List.take_left' (by rw [hsrc]; simp; omega), hsrc]
      · cases e2
    have hm : min b.size x = min (min b.size x) b.reserve := by omega
    rw [hm, ← List.take_take, this, List.take_take]
  · rw [if_neg hx]
    exact ⟨_, rfl, grow b (by omega) h2 h.null (by omega) rfl⟩

/-- Every block has its value. -/
def BlksAre (w : BlkWorld) (s : Nat → Vec) : Prop := ∀ k, BlkIs (w.blk k) (s k)

theorem set_are {w : BlkWorld} {s : Nat → Vec} (h : BlksAre w s) {k : Nat} {b : Blk} {v : Vec} (hb : BlkIs b v) : BlksAre (w.set k b) (vecPut s k v) := by
  intro i
  unfold BlkWorld.set vecPut
  dsimp only
  split
  · exact hb
  · exact h i

/-- The one call excluded: a block moved to itself. -/
def selfMove : BlkOp → Prop
  | .moveAssign k j => k = j
  | _ => False

theorem step_are {w : BlkWorld} {s : Nat → Vec} (h : BlksAre w s) (op : BlkOp) (hv : vecValid s op) (hm : ¬ selfMove op) :
    ∃ w', op.step w = .ok w' ∧ BlksAre w' (vecStep s op) := by
  cases op with
  | make k => exact ⟨_, rfl, set_are h blkIs_nil⟩
  | makeSize k n =>
    refine ⟨_, rfl, set_are h ⟨?_, by simp, rfl, Nat.le_refl _, by simp [Blk.bytes, blkNew], nofun⟩⟩
    exact agree_none (by simp [Blk.content, Blk.bytes, blkNew])
  | makeData k d =>
    simp only [BlkOp.step, Blk.ofData, blkCopy, List.length_replicate, Nat.le_refl, if_true, Res.ok_bind, Res.pure_eq]
    refine ⟨_, rfl, set_are h ⟨?_, by simp, by simp, Nat.le_refl _, by simp [Blk.bytes], nofun⟩⟩
    simp only [Blk.content, Blk.bytes]
    rw [List.take_left' rfl]; exact agree_refl _
  | assign k d =>
    obtain ⟨b', e, hb⟩ := assign_is (h k) w.next (agree_refl (d.map some))
    rw [List.length_map] at hb
    refine ⟨_, ?_, set_are h hb⟩
    simp [BlkOp.step, e]
  | assignFrom k j off n =>
    obtain ⟨src, e1, ha, hl⟩ := read_agree (h j) hv
    obtain ⟨b', e, hb⟩ := assign_is (h k) w.next ha
    have hn : ¬ (j = k ∧ n > (w.blk k).reserve) := by
      rintro ⟨rfl, hg⟩
      have h1 := (h j).fits; have h2 := (h j).size
      have : off + n ≤ (s j).bytes.length := hv
      omega
    rw [ha.1, hl] at hb
    refine ⟨_, ?_, set_are h hb⟩
    simp only [BlkOp.step]
    rw [if_neg hn, e1]
    simp [e]
  | reserve k x =>
    obtain ⟨b', e, hb⟩ := reserve_is (h k) w.next x
    refine ⟨_, ?_, set_are h hb⟩
    simp [BlkOp.step, e]
  | size k x =>
    obtain ⟨b', e, hb⟩ := size_is (h k) w.next x
    refine ⟨_, ?_, set_are h hb⟩
    simp [BlkOp.step, e]
  | clear k => exact ⟨_, rfl, set_are h blkIs_nil⟩
  | moveMake k j =>
    refine ⟨_, rfl, ?_⟩
    unfold BlkWorld.move
    rw [if_neg hv]
    exact set_are (set_are h (h j)) blkIs_nil
  | moveAssign k j =>
    refine ⟨_, rfl, ?_⟩
    have hm : ¬ k = j := hm
    unfold BlkWorld.move
    dsimp only [vecStep]
    rw [if_neg hm, if_neg hm]
    exact set_are (set_are h (h j)) blkIs_nil
  | put k i b =>
    have hk := h k
    have h1 := hk.fits; have h2 := hk.room; have h3 := hk.size
    have hv : i < (s k).bytes.length := hv
    simp only [BlkOp.step]
    cases hd : (w.blk k).data with
    | none => have := hk.null hd; omega
    | some x =>
      obtain ⟨a, l⟩ := x
      have hl : (w.blk k).bytes = l := by simp [Blk.bytes, hd]
      rw [hl] at h2
      dsimp only
      rw [if_pos (by omega)]
      refine ⟨_, rfl, set_are h ⟨?_, by simp; omega, hk.cap, h1, by simp [Blk.bytes]; omega, nofun⟩⟩
      have := agree_set hk.content i (some b)
      simp only [Blk.content, hl] at this
      simp only [Blk.content, Blk.bytes]
      rw [List.take_set]; exact this

theorem run_are : ∀ {ops : List BlkOp} {w : BlkWorld} {s : Nat → Vec}, BlksAre w s → vecAllValid s ops → (∀ op ∈ ops, ¬ selfMove op) →
    ∃ w', blkRun w ops = .ok w' ∧ BlksAre w' (vecRun s ops) := by
  intro ops
  induction ops with
  | nil => intro w s h _ _; exact ⟨w, rfl, h⟩
  | cons op ops ih =>
    intro w s h hv hm
    obtain ⟨w1, e, h1⟩ := step_are h op hv.1 (hm op List.mem_cons_self)
    obtain ⟨w2, e2, h2⟩ := ih h1 hv.2 (fun op hop => hm op (List.mem_cons_of_mem _ hop))
    refine ⟨w2, ?_, h2⟩
    simp [blkRun, e, e2]

/-- **C118**, but for a block moved to itself: after every sequence of calls, if the caller stays within the blocks, no memory has been
misused, and every block shows the bytes a vector would show and has reserved what the documentation says. -/
theorem C118_vector_partial (ops : List BlkOp) (hv : vecAllValid vecInit ops) (hm : ∀ op ∈ ops, ¬ selfMove op) :
    ∃ w, blkRun {} ops = .ok w ∧ ∀ k, (w.blk k).size = (vecRun vecInit ops k).bytes.length ∧
      Agree (vecRun vecInit ops k).bytes (w.blk k).content ∧ (w.blk k).reserve = (vecRun vecInit ops k).cap := by
  obtain ⟨w, e, h⟩ := run_are (w := {}) (s := vecInit) (fun _ => blkIs_nil) hv hm
  exact ⟨w, e, fun k => ⟨(h k).size, (h k).content, (h k).cap⟩⟩

/-- Which blocks a call is about. -/
def about : BlkOp → List Nat
  | .make k | .makeSize k _ | .makeData k _ | .assign k _ | .assignFrom k _ _ _ | .reserve k _ | .size k _ | .clear k | .put k _ _ => [k]
  | .moveMake k j | .moveAssign k j => [k, j]

/-- **C118.** No call touches any other block. -/
theorem C118_frame (op : BlkOp) (w w' : BlkWorld) (h : op.step w = .ok w') (i : Nat) (hi : i ∉ about op) : w'.blk i = w.blk i := by
  have key : ∀ (w : BlkWorld) (k : Nat) (b : Blk), i ≠ k → (w.set k b).blk i = w.blk i := by
    intro w k b hk; simp [BlkWorld.set, hk]
  have move : ∀ k j, i ≠ k → i ≠ j → (w.move k j).blk i = w.blk i := by
    intro k j h1 h2
    unfold BlkWorld.move
    split
    · exact key _ _ _ h1
    · rw [key _ _ _ h2, key _ _ _ h1]
  cases op <;> simp only [about, List.mem_cons, List.not_mem_nil, or_false, not_or] at hi
  case make k => cases h; exact key _ _ _ hi
  case makeSize k n => cases h; exact key _ _ _ hi
  case makeData k d => obtain ⟨b, _, h⟩ := Res.bind_eq_ok.1 h; cases h; exact key _ _ _ hi
  case assign k d => obtain ⟨b, _, h⟩ := Res.bind_eq_ok.1 h; cases h; exact key _ _ _ hi
  case assignFrom k j off n =>
    obtain ⟨_, _, h⟩ := Res.bind_eq_ok.1 h
    obtain ⟨b, _, h⟩ := Res.bind_eq_ok.1 h; cases h; exact key _ _ _ hi
  case reserve k x => obtain ⟨b, _, h⟩ := Res.bind_eq_ok.1 h; cases h; exact key _ _ _ hi
  case size k x => obtain ⟨b, _, h⟩ := Res.bind_eq_ok.1 h; cases h; exact key _ _ _ hi
  case clear k => cases h; exact key _ _ _ hi
  case moveMake k j => cases h; exact move k j hi.1 hi.2
  case moveAssign k j => cases h; exact move k j hi.1 hi.2
  case put k n b =>
    simp only [BlkOp.step] at h
    split at h
    · split at h
      · cases h; exact key _ _ _ hi
      · cases h
    · cases h

/-- Where `begin()` points to. -/
def beginOf (b : Blk) : Option Nat := b.data.map (·.1)

/-- **C118.** Pointers into a block stay good as documented: assigning or setting a size not above the reserve keeps the memory, and moving a
block takes its memory along. -/
theorem C118_pointers (w w' : BlkWorld) (k : Nat) :
    (∀ d : Bytes, d.length ≤ (w.blk k).reserve → (BlkOp.assign k d).step w = .ok w' → beginOf (w'.blk k) = beginOf (w.blk k)) ∧
    (∀ x, x ≤ (w.blk k).reserve → (BlkOp.size k x).step w = .ok w' → beginOf (w'.blk k) = beginOf (w.blk k)) ∧
    (∀ j, k ≠ j → (BlkOp.moveAssign k j).step w = .ok w' → beginOf (w'.blk k) = beginOf (w.blk j) ∧ beginOf (w'.blk j) = none) ∧
    (∀ j, k ≠ j → (BlkOp.moveMake k j).step w = .ok w' → beginOf (w'.blk k) = beginOf (w.blk j) ∧ beginOf (w'.blk j) = none) := by
  have move : ∀ j, k ≠ j → w' = w.move k j → beginOf (w'.blk k) = beginOf (w.blk j) ∧ beginOf (w'.blk j) = none := by
    intro j hj h
    subst h
    unfold BlkWorld.move
    rw [if_neg hj]
    simp [BlkWorld.set, hj, beginOf]
  refine ⟨fun d hd h => ?_, fun x hx h => ?_, fun j hj h => ?_, fun j hj h => ?_⟩
  · obtain ⟨b, hb, h⟩ := Res.bind_eq_ok.1 h
    cases h
    unfold Blk.assign at hb
    rw [if_neg (by simp; omega)] at hb
    dsimp only at hb
    simp only [BlkWorld.set, if_true]
    split at hb
    · rename_i a l hl
      obtain ⟨_, _, hb⟩ := Res.bind_eq_ok.1 hb
      cases hb
      simp only [beginOf, hl]; rfl
    · split at hb
      · cases hb; rfl
      · cases hb
  · obtain ⟨b, hb, h⟩ := Res.bind_eq_ok.1 h
    cases h
    unfold Blk.setSize at hb
    rw [if_neg (by omega)] at hb
    cases hb
    simp [BlkWorld.set, beginOf]
  · cases h; exact move j hj rfl
  · cases h; exact move j hj rfl

/-- Blocks are made, filled, grown, moved and read back into one another. -/
def blkDemo : List BlkOp :=
  [.makeData 0 b!"hello", .reserve 0 3, .size 0 6, .put 0 5 33, .moveMake 1 0, .assignFrom 0 1 1 2, .assignFrom 1 1 1 2, .size 1 4, .clear 0]

/-- It meets the hypotheses, and what becomes of it. -/
example : vecAllValid vecInit blkDemo ∧ (∀ op ∈ blkDemo, ¬ selfMove op) ∧
    ∃ w, blkRun {} blkDemo = .ok w ∧ (w.blk 1).content = [some 101, some 108, some 108, none] ∧ (w.blk 0).content = [] := by
  refine ⟨?_, ?_, _, rfl, ?_, ?_⟩
  · simp [blkDemo, vecAllValid, vecValid, vecStep, vecPut, Vec.resize]
  · simp [blkDemo, selfMove]
  · decide +kernel
  · decide +kernel

/-- **C118 fails** for a block moved to itself: whatever it contained is lost. -/
theorem C118_self_violated (d : Bytes) (hd : d ≠ []) :
    ∃ w, blkRun {} [.makeData 0 d, .moveAssign 0 0] = .ok w ∧ (w.blk 0).content = [] ∧
      (vecRun vecInit [.makeData 0 d, .moveAssign 0 0] 0).bytes = d.map some ∧ d.map some ≠ [] := by
  have h : ∃ b, (BlkOp.makeData 0 d).step {} = .ok (BlkWorld.set {} 0 b) := by
    simp only [BlkOp.step, Blk.ofData, blkCopy, List.length_replicate, Nat.le_refl, if_true, Res.ok_bind, Res.pure_eq]
    exact ⟨_, rfl⟩
  obtain ⟨b, h⟩ := h
  refine ⟨(BlkWorld.set {} 0 b).move 0 0, ?_, ?_, ?_, by simpa using hd⟩
  · simp only [blkRun, h, Res.ok_bind]; rfl
  · simp [BlkWorld.move, BlkWorld.set, Blk.content]
  · simp [vecRun, vecStep, vecPut]

end Fcgi.Props
