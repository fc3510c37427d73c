import Verif.Lemmas.AddressText
/-! # What follows a text in memory does not change the address read from it -/
namespace Fcgi.Model
open Fcgi Fcgi.Spec

theorem rd_mono {mem ext : Bytes} {i : Nat} {x : Byte} (h : rd mem i = .ok x) : rd (mem ++ ext) i = .ok x := by
  unfold rd at h ⊢
  split at h
  · rename_i y hy; cases h
    rw [List.getElem?_append_left (List.getElem?_eq_some_iff.1 hy).1, hy]
  · cases h

theorem atoiDigits_mono {ext : Bytes} : ∀ (l : Bytes) (left : Nat) (n x : Int), atoiDigits l left n = .ok x → atoiDigits (l ++ ext) left n = .ok x := by
  intro l
  induction l with
  | nil => intro left n x h; cases h
  | cons c l ih =>
    intro left n x h
    rw [List.cons_append]
    unfold atoiDigits at h ⊢
    split
    · rename_i hc
      rw [if_pos hc] at h
      dsimp only at h ⊢
      split
      · rename_i ho; rw [if_pos ho] at h; cases h
      · rename_i ho; rw [if_neg ho] at h; exact ih _ _ _ h
    · rename_i hc
      rw [if_neg hc] at h
      exact h

theorem atoi_mono {v after ext : Bytes} {x : Int} (h : atoi v after = .ok x) : atoi v (after ++ ext) = .ok x := by
  unfold atoi at h ⊢
  dsimp only at h ⊢
  rw [← List.append_assoc]
  rw [Res.bind_eq_ok] at h
  obtain ⟨c, h1, h2⟩ := h
  rw [rd_mono h1]
  simp only [Res.ok_bind]
  split at h2
  · rename_i hc
    rw [if_pos hc]
    rw [Res.bind_eq_ok] at h2
    obtain ⟨r, h3, h4⟩ := h2
    have hl : 1 ≤ (v ++ after).length := by
      unfold rd at h1; split at h1
      · rename_i hy; have := (List.getElem?_eq_some_iff.1 hy).1; omega
      · cases h1
    rw [List.drop_append_of_le_length hl, atoiDigits_mono _ _ _ _ h3]
    exact h4
  · rename_i hc
    rw [if_neg hc]
    exact atoiDigits_mono _ _ _ _ h2

theorem slice_mono {mem ext : Bytes} {i j : Nat} (h : j ≤ mem.length) : slice (mem ++ ext) i j = slice mem i j := by
  unfold slice; rw [List.take_append_of_le_length h]

theorem octets_mono {mem ext : Bytes} {len : Nat} (hl : len ≤ mem.length) : ∀ (k read : Nat) (s : AddrSt) (r : Option AddrSt),
    octets mem len k read s = .ok r → octets (mem ++ ext) len k read s = .ok r := by
  intro k
  induction k with
  | zero => intro read s r h; exact h
  | succ k ih =>
    intro read s r h
    unfold octets at h ⊢
    dsimp only at h ⊢
    have hf : findDot (mem ++ ext) read len = findDot mem read len := by unfold findDot; rw [slice_mono hl]
    rw [hf, slice_mono hl, List.drop_append_of_le_length hl]
    split
    · rename_i h1
      rw [if_pos h1] at h
      split
      · rename_i h2
        rw [if_pos h2] at h
        rw [Res.bind_eq_ok] at h
        obtain ⟨v, h3, h4⟩ := h
        rw [Res.bind_eq_ok] at h4
        obtain ⟨d, h5, h6⟩ := h4
        rw [atoi_mono h3]
        simp only [Res.ok_bind, h5]
        exact ih _ _ _ h6
      · rename_i h2; rw [if_neg h2] at h; exact h
    · rename_i h1; rw [if_neg h1] at h; exact h

theorem assignLoop_mono {mem ext : Bytes} {len : Nat} (hl : len ≤ mem.length) : ∀ (fuel fuel' read : Nat) (s : AddrSt) (r : Option AddrSt), fuel ≤ fuel' →
    assignLoop mem len fuel read s = .ok r → assignLoop (mem ++ ext) len fuel' read s = .ok r := by
  intro fuel
  induction fuel with
  | zero => intro fuel' read s r _ h; cases h
  | succ fuel ih =>
    intro fuel' read s r hf h
    obtain ⟨f', rfl⟩ : ∃ f', fuel' = f' + 1 := ⟨fuel' - 1, by omega⟩
    unfold assignLoop at h ⊢
    rw [Res.bind_eq_ok] at h
    obtain ⟨stop, h1, h2⟩ := h
    have e1 : (if read ≥ len then Res.ok true else do let c ← rd (mem ++ ext) read; return decide (c = 58)) = .ok stop := by
      split
      · rename_i hr; rw [if_pos hr] at h1; exact h1
      · rename_i hr; rw [if_neg hr] at h1
        rw [Res.bind_eq_ok] at h1
        obtain ⟨c, h3, h4⟩ := h1
        rw [rd_mono h3]; exact h4
    rw [e1]
    simp only [Res.ok_bind]
    split
    · rename_i hs
      rw [if_pos hs] at h2
      rw [Res.bind_eq_ok] at h2
      obtain ⟨empty, h3, h4⟩ := h2
      have e2 : (if read = 0 then Res.ok true else do let c ← rd (mem ++ ext) (read - 1); return decide (c = 58)) = .ok empty := by
        split
        · rename_i hr; rw [if_pos hr] at h3; exact h3
        · rename_i hr; rw [if_neg hr] at h3
          rw [Res.bind_eq_ok] at h3
          obtain ⟨c, h5, h6⟩ := h3
          rw [rd_mono h5]; exact h6
      rw [e2]
      simp only [Res.ok_bind]
      split
      · rename_i he
        rw [if_pos he] at h4
        split
        · rename_i hp; rw [if_pos hp] at h4; exact h4
        · rename_i hp; rw [if_neg hp] at h4; exact ih _ _ _ _ (by omega) h4
      · rename_i he
        rw [if_neg he] at h4
        rw [Res.bind_eq_ok] at h4
        obtain ⟨s', h5, h6⟩ := h4
        rw [h5]
        simp only [Res.ok_bind]
        split
        · rename_i hw; rw [if_pos hw] at h6; exact h6
        · rename_i hw; rw [if_neg hw] at h6; exact ih _ _ _ _ (by omega) h6
    · rename_i hs
      rw [if_neg hs] at h2
      rw [Res.bind_eq_ok] at h2
      obtain ⟨c, h3, h4⟩ := h2
      rw [rd_mono h3]
      simp only [Res.ok_bind]
      cases hd : addrDigit c with
      | some v => rw [hd] at h4; exact ih _ _ _ _ (by omega) h4
      | none =>
        rw [hd] at h4
        dsimp only at h4 ⊢
        split
        · rename_i hp
          rw [if_pos hp] at h4
          rw [Res.bind_eq_ok] at h4
          obtain ⟨o, h5, h6⟩ := h4
          rw [h5]
          simp only [Res.ok_bind]
          cases o with
          | none => exact h6
          | some s' => exact octets_mono hl _ _ _ _ h6
        · rename_i hp; rw [if_neg hp] at h4; exact h4

/-- More memory after the text does not change what has been read. -/
theorem assign_mono {text after ext old a : Bytes} (h : assign text after old = .ok a) : assign text (after ++ ext) old = .ok a := by
  unfold assign at h ⊢
  rw [Res.bind_eq_ok] at h
  obtain ⟨r, h1, h2⟩ := h
  rw [← List.append_assoc, assignLoop_mono (by simp) _ _ _ _ _ (by simp) h1]
  exact h2

/-- Whatever follows: if the parser comes to an end without reading past everything, it has found the address. -/
theorem assign_any {t a x after old : Bytes} (h : AddrText t a) (ho : old.length = 16) (hx : assign t after old = .ok x) : x = a := by
  have h1 := assign_mono (ext := [0]) hx
  rw [assign_text h ⟨0, by simp, by decide⟩ ho] at h1
  cases h1; rfl

theorem addrText_length {t a : Bytes} (h : AddrText t a) : a.length = 16 := by
  cases h with
  | v4 h => cases h; rfl
  | full h hl => exact hl
  | none => rfl
  | left h hl => simp; omega
  | right h hl => simp; omega
  | mid h h' hl => simp; omega

/-! ### The addresses of a request -/

theorem ofFn_toList {b : Bytes} (h : b.length = 16) : (Vector.ofFn (n := 16) fun i => b.getD i.val 0).toList = b := by
  rw [Vector.toList_ofFn]
  apply List.ext_getElem
  · simp [h]
  · intro i h1 h2
    rw [List.getElem_ofFn, List.getD_eq_getElem?_getD, List.getElem?_eq_getElem h2]; rfl

theorem assignTo_text {t a after : Bytes} {old : Vector Byte 16} (h : AddrText t a) (hc : EndsColons after) :
    ∃ x, assignTo old t after = .ok x ∧ x.toList = a := by
  unfold assignTo
  rw [assign_text h hc (by simp)]
  exact ⟨_, rfl, ofFn_toList (addrText_length h)⟩

theorem assignTo_any {t a after : Bytes} {old x : Vector Byte 16} (h : AddrText t a) (hx : assignTo old t after = .ok x) : x.toList = a := by
  unfold assignTo at hx
  rw [Res.bind_eq_ok] at hx
  obtain ⟨b, h1, h2⟩ := hx
  cases h2
  rw [assign_any h (by simp) h1]
  exact ofFn_toList (addrText_length h)

theorem assignTo_ne {t after : Bytes} {old : Vector Byte 16} {b : Bytes} (h : assign t after old.toList = .ok b) : ∃ x, assignTo old t after = .ok x := by
  unfold assignTo; rw [h]; exact ⟨_, rfl⟩

end Fcgi.Model
