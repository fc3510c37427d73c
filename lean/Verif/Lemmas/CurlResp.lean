import Verif.Lemmas.Curl
/-! # Lemmas about the HTTP client's responses -/
namespace Fcgi
open Fcgi.Model Fcgi.Spec

/-! ## Splitting a header line -/

theorem blankB_iff (b : Byte) : blankB b = true ↔ isBlank b := by
  simp only [blankB, isBlank, decide_eq_true_eq]
  constructor
  · rintro (h | h | h | h) <;> simp [h]
  · rintro (h | h | h | h) <;> simp [h]

theorem skipBlanks_spec (line : Bytes) : ∀ (fuel c : Nat), c ≤ line.length → line.length < fuel + c →
    ∃ d, skipBlanks line fuel c = .ok d ∧ c ≤ d ∧ d ≤ line.length ∧ (∀ i, c ≤ i → i < d → ∀ b, line[i]? = some b → isBlank b) ∧
      (∀ b, line[d]? = some b → ¬ isBlank b) := by
  intro fuel
  induction fuel with
  | zero => intro c h1 h2; omega
  | succ fuel ih =>
    intro c h1 h2
    unfold skipBlanks
    by_cases hc : c < line.length
    · rw [if_pos hc, rd_ok hc]
      simp only [Res.ok_bind]
      by_cases hb : blankB line[c] = true
      · rw [if_pos hb]
        obtain ⟨d, e1, e2, e3, e4, e5⟩ := ih (c + 1) (by omega) (by omega)
        refine ⟨d, e1, by omega, e3, ?_, e5⟩
        intro i hi hi' b hbb
        by_cases hic : i = c
        · subst hic
          rw [List.getElem?_eq_getElem hc] at hbb; cases hbb
          exact (blankB_iff _).1 hb
        · exact e4 i (by omega) hi' b hbb
      · rw [if_neg hb]
        refine ⟨c, rfl, by omega, by omega, fun i h h' => by omega, ?_⟩
        intro b hbb
        rw [List.getElem?_eq_getElem hc] at hbb; cases hbb
        exact fun h => hb ((blankB_iff _).2 h)
    · rw [if_neg hc]
      refine ⟨c, rfl, by omega, by omega, fun i h h' => by omega, ?_⟩
      intro b hbb
      rw [List.getElem?_eq_none (by omega)] at hbb; cases hbb

theorem trimBlanks_spec (line : Bytes) (colon : Nat) : ∀ (e : Nat), colon ≤ e → e ≤ line.length →
    ∃ d, trimBlanks line colon e = .ok d ∧ colon ≤ d ∧ d ≤ e ∧ (∀ i, d ≤ i → i < e → ∀ b, line[i]? = some b → isBlank b) ∧
      (colon < d → ∀ b, line[d - 1]? = some b → ¬ isBlank b) := by
  intro e
  induction e with
  | zero => intro h1 h2; exact ⟨0, rfl, by omega, by omega, fun i h h' => by omega, fun h => by omega⟩
  | succ e ih =>
    intro h1 h2
    unfold trimBlanks
    by_cases hc : colon ≤ e
    · rw [if_pos hc, rd_ok (show e < line.length by omega)]
      simp only [Res.ok_bind]
      by_cases hb : blankB line[e] = true
      · rw [if_pos hb]
        obtain ⟨d, e1, e2, e3, e4, e5⟩ := ih hc (by omega)
        refine ⟨d, e1, e2, by omega, ?_, e5⟩
        intro i hi hi' b hbb
        by_cases hie : i = e
        · subst hie
          rw [List.getElem?_eq_getElem (by omega)] at hbb; cases hbb
          exact (blankB_iff _).1 hb
        · exact e4 i hi (by omega) b hbb
      · rw [if_neg hb]
        refine ⟨e + 1, rfl, by omega, by omega, fun i h h' => by omega, ?_⟩
        intro _ b hbb
        rw [Nat.add_sub_cancel, List.getElem?_eq_getElem (by omega)] at hbb; cases hbb
        exact fun h => hb ((blankB_iff _).2 h)
    · rw [if_neg hc]
      exact ⟨e + 1, rfl, by omega, by omega, fun i h h' => by omega, fun h => by omega⟩

theorem takeWhile_ne_split (l : Bytes) (c : Byte) (h : c ∈ l) : ∃ rest, l = l.takeWhile (· ≠ c) ++ c :: rest ∧ c ∉ l.takeWhile (· ≠ c) := by
  induction l with
  | nil => simp at h
  | cons x l ih =>
    by_cases hx : x = c
    · subst hx; exact ⟨l, by simp, by simp⟩
    · have hm : c ∈ l := by
        rcases List.mem_cons.1 h with h | h
        · exact absurd h.symm hx
        · exact h
      obtain ⟨rest, e1, e2⟩ := ih hm
      refine ⟨rest, ?_, ?_⟩
      · rw [List.takeWhile_cons_of_pos (by simpa using hx)]
        simpa using e1
      · rw [List.takeWhile_cons_of_pos (by simpa using hx)]
        simp only [List.mem_cons, not_or]
        exact ⟨fun h => hx h.symm, e2⟩

theorem splitHeader_none (line : Bytes) (h : c!":" ∉ line) : splitHeader line = .ok none := by
  unfold splitHeader
  have : line.takeWhile (· ≠ c!":") = line := by
    induction line with
    | nil => rfl
    | cons x l ih =>
      simp only [List.mem_cons, not_or] at h
      rw [List.takeWhile_cons_of_pos (by simpa using fun e : x = _ => h.1 e.symm), ih h.2]
  simp only [this, if_true]

theorem splitHeader_some (line : Bytes) (h : c!":" ∈ line) : ∃ k v, splitHeader line = .ok (some (k, v)) ∧ HeaderLine line k v := by
  obtain ⟨rest, e1, e2⟩ := takeWhile_ne_split line _ h
  unfold splitHeader
  generalize line.takeWhile (· ≠ c!":") = key at e1 e2
  subst e1
  have hlen : (key ++ c!":" :: rest).length = key.length + 1 + rest.length := by simp; omega
  rw [if_neg (by omega)]
  obtain ⟨d, f1, f2, f3, f4, f5⟩ := skipBlanks_spec (key ++ c!":" :: rest) ((key ++ c!":" :: rest).length + 1) (key.length + 1) (by omega) (by omega)
  obtain ⟨e, g1, g2, g3, g4, g5⟩ := trimBlanks_spec (key ++ c!":" :: rest) d (key ++ c!":" :: rest).length f3 (Nat.le_refl _)
  rw [f1]
  simp only [Res.ok_bind, g1]
  refine ⟨_, _, rfl, ?_⟩
  have hget : ∀ i, (key ++ c!":" :: rest)[key.length + 1 + i]? = rest[i]? := by
    intro i
    rw [List.getElem?_append_right (by omega), show key.length + 1 + i - key.length = i + 1 by omega, List.getElem?_cons_succ]
  have hsl : slice (key ++ c!":" :: rest) d e = slice rest (d - (key.length + 1)) (e - (key.length + 1)) := by
    have hk : key ++ c!":" :: rest = (key ++ [c!":"]) ++ rest := by simp
    simp only [slice]
    rw [hk, List.take_append, List.drop_append]
    simp only [List.length_append, List.length_cons, List.length_nil, Nat.zero_add, List.length_take]
    rw [List.drop_eq_nil_of_le (by simp; omega), List.nil_append]
    congr 1; omega
  obtain ⟨d, rfl⟩ : ∃ d', d = key.length + 1 + d' := ⟨d - (key.length + 1), by omega⟩
  obtain ⟨e, rfl⟩ : ∃ e', e = key.length + 1 + e' := ⟨e - (key.length + 1), by omega⟩
  rw [hsl]
  simp only [Nat.add_sub_cancel_left]
  have hd : d ≤ e := by omega
  have he : e ≤ rest.length := by omega
  have hbd : ∀ i, i < d → ∀ b, rest[i]? = some b → isBlank b := fun i hi b hb => f4 (key.length + 1 + i) (by omega) (by omega) b (by rw [hget]; exact hb)
  have hbe : ∀ i, e ≤ i → i < rest.length → ∀ b, rest[i]? = some b → isBlank b := fun i hi hi' b hb => g4 (key.length + 1 + i) (by omega) (by omega) b (by rw [hget]; exact hb)
  refine ⟨rest.take d, rest.drop e, ?_, e2, ?_, ?_, ?_, ?_⟩
  · have hr : rest = rest.take d ++ slice rest d e ++ rest.drop e := by
      obtain ⟨x, y, z, rfl, hx, hy⟩ := split3 rest d (e - d) (by omega)
      rw [slice_mid x y z d e hx.symm (by omega), List.take_append_of_le_length (by omega), List.take_of_length_le (by omega), ← List.append_assoc x y z,
        List.drop_append_of_le_length (by simp; omega), List.drop_eq_nil_of_le (as := x ++ y) (by simp; omega)]
      simp
    conv => lhs; rw [hr]
    simp
  · intro b hb
    obtain ⟨i, hi⟩ := List.mem_iff_getElem?.1 hb
    rw [List.getElem?_take] at hi
    split at hi
    · rename_i hlt; exact hbd i hlt b hi
    · cases hi
  · intro b hb
    obtain ⟨i, hi⟩ := List.mem_iff_getElem?.1 hb
    rw [List.getElem?_drop] at hi
    have : e + i < rest.length := by
      rcases Nat.lt_or_ge (e + i) rest.length with h | h
      · exact h
      · rw [List.getElem?_eq_none h] at hi; cases hi
    exact hbe (e + i) (by omega) this b hi
  · intro b hb
    by_cases hde : d = e
    · subst hde; simp [slice] at hb
    · have : (slice rest d e).head? = rest[d]? := by
        simp only [slice, List.head?_drop, List.getElem?_take]
        rw [if_pos (by omega)]
      rw [this] at hb
      exact f5 b (by rw [hget]; exact hb)
  · intro b hb
    by_cases hde : d = e
    · subst hde; simp [slice] at hb
    · have : (slice rest d e).getLast? = rest[e - 1]? := by
        simp only [slice]
        rw [List.getLast?_drop, List.length_take, Nat.min_eq_left he, if_neg (by omega), List.getLast?_take, if_neg (by omega)]
        cases hx : rest[e - 1]? with
        | none => rw [List.getElem?_eq_none_iff] at hx; omega
        | some x => rfl
      rw [this] at hb
      have := g5 (by omega) b
      rw [show key.length + 1 + e - 1 = key.length + 1 + (e - 1) by omega, hget] at this
      exact this hb

/-! ## A line has one name and one value -/

theorem dropWhile_blank (w t : Bytes) (hw : ∀ b ∈ w, isBlank b) : (w ++ t).dropWhile blankB = t.dropWhile blankB := by
  induction w with
  | nil => rfl
  | cons x w ih =>
    rw [List.cons_append, List.dropWhile_cons_of_pos ((blankB_iff x).2 (hw x (by simp)))]
    exact ih fun b hb => hw b (by simp [hb])

theorem dropWhile_keep (t : Bytes) (h : ∀ b, t.head? = some b → ¬ isBlank b) : t.dropWhile blankB = t := by
  cases t with
  | nil => rfl
  | cons x t => rw [List.dropWhile_cons_of_neg]; rw [blankB_iff]; exact h x rfl

/-- Blanks removed at both ends. -/
def trimB (t : Bytes) : Bytes := ((t.dropWhile blankB).reverse.dropWhile blankB).reverse

theorem trimB_spec (w1 v w2 : Bytes) (h1 : ∀ b ∈ w1, isBlank b) (h2 : ∀ b ∈ w2, isBlank b) (hh : ∀ b, v.head? = some b → ¬ isBlank b)
    (hl : ∀ b, v.getLast? = some b → ¬ isBlank b) : trimB (w1 ++ v ++ w2) = v := by
  unfold trimB
  rw [List.append_assoc, dropWhile_blank _ _ h1]
  by_cases hv : v = []
  · subst hv
    have := dropWhile_blank w2 [] h2
    simp only [List.append_nil] at this
    simp [this]
  · rw [dropWhile_keep (v ++ w2) (by
      intro b hb; cases v with
      | nil => exact absurd rfl hv
      | cons x v => exact hh b (by simpa using hb))]
    rw [List.reverse_append, dropWhile_blank _ _ (by simpa using h2), dropWhile_keep v.reverse (by simpa using hl), List.reverse_reverse]

theorem headerLine_unique {line k v k' v' : Bytes} (h : HeaderLine line k v) (h' : HeaderLine line k' v') : k = k' ∧ v = v' := by
  obtain ⟨w1, w2, e1, e2, e3, e4, e5, e6⟩ := h
  obtain ⟨w1', w2', f1, f2, f3, f4, f5, f6⟩ := h'
  have hline : k ++ c!":" :: (w1 ++ v ++ w2) = k' ++ c!":" :: (w1' ++ v' ++ w2') := by
    rw [e1] at f1; simpa using f1
  have key : ∀ (a b x y : Bytes), c!":" ∉ a → c!":" ∉ b → a ++ c!":" :: x = b ++ c!":" :: y → a = b ∧ x = y := by
    intro a
    induction a with
    | nil =>
      intro b x y _ hb he
      cases b with
      | nil => simpa using he
      | cons z b => simp at he; exact absurd he.1 (by simp at hb; exact hb.1)
    | cons z a ih =>
      intro b x y ha hb he
      cases b with
      | nil => simp at he; exact absurd he.1.symm (by simp at ha; exact ha.1)
      | cons z' b =>
        simp only [List.cons_append, List.cons.injEq] at he
        obtain ⟨e1, e2⟩ := ih b x y (by simp at ha; exact ha.2) (by simp at hb; exact hb.2) he.2
        exact ⟨by rw [he.1, e1], e2⟩
  obtain ⟨g1, g2⟩ := key _ _ _ _ e2 f2 hline
  exact ⟨g1, by rw [← trimB_spec w1 v w2 e3 e4 e5 e6, g2, trimB_spec w1' v' w2' f3 f4 f5 f6]⟩

theorem headerLine_colon {line k v : Bytes} (h : HeaderLine line k v) : c!":" ∈ line := by
  obtain ⟨w1, w2, rfl, _⟩ := h; simp

theorem splitHeader_iff (line k v : Bytes) : splitHeader line = .ok (some (k, v)) ↔ HeaderLine line k v := by
  constructor
  · intro h
    by_cases hc : c!":" ∈ line
    · obtain ⟨k', v', e1, e2⟩ := splitHeader_some line hc
      rw [e1] at h; simp at h; obtain ⟨rfl, rfl⟩ := h; exact e2
    · rw [splitHeader_none line hc] at h; simp at h
  · intro h
    obtain ⟨k', v', e1, e2⟩ := splitHeader_some line (headerLine_colon h)
    obtain ⟨rfl, rfl⟩ := headerLine_unique h e2
    exact e1

theorem isLength_iff {line k v : Bytes} (h : HeaderLine line k v) : isLength line ↔ (k = b!"Content-Length" ∨ k = b!"content-length") := by
  obtain ⟨w1, w2, e1, e2, _⟩ := h
  have hline : line = k ++ c!":" :: (w1 ++ v ++ w2) := by simpa using e1
  have key : ∀ n : Bytes, c!":" ∉ n → (n ++ b!":" <+: line ↔ k = n) := by
    intro n hn
    rw [hline]
    constructor
    · rintro ⟨t, ht⟩
      have key : ∀ (a b x y : Bytes), c!":" ∉ a → c!":" ∉ b → a ++ c!":" :: x = b ++ c!":" :: y → a = b := by
        intro a
        induction a with
        | nil =>
          intro b x y _ hb he
          cases b with
          | nil => rfl
          | cons z b => simp at he; exact absurd he.1 (by simp at hb; exact hb.1)
        | cons z a ih =>
          intro b x y ha hb he
          cases b with
          | nil => simp at he; exact absurd he.1.symm (by simp at ha; exact ha.1)
          | cons z' b =>
            simp only [List.cons_append, List.cons.injEq] at he
            rw [he.1, ih b x y (by simp at ha; exact ha.2) (by simp at hb; exact hb.2) he.2]
      exact (key n k t _ hn e2 (by simpa using ht)).symm
    · rintro rfl
      exact ⟨w1 ++ v ++ w2, by simp⟩
  unfold isLength
  rw [show b!"Content-Length:" = b!"Content-Length" ++ b!":" by rfl, show b!"content-length:" = b!"content-length" ++ b!":" by rfl,
    key _ (by decide), key _ (by decide)]

theorem stoiB_digits (v : Bytes) (hv : v ≠ []) (hd : ∀ b ∈ v, isDigit b) :
    stoiB v = if decimal v < 2 ^ 31 then some (decimal v : Int) else none := by
  have hns : v.dropWhile isspaceB = v := by
    cases v with
    | nil => rfl
    | cons x v =>
      have hx := hd x (by simp)
      rw [List.dropWhile_cons_of_neg]
      revert hx
      exact byte_forall (P := fun x => isDigit x → ¬ isspaceB x = true) (by decide +kernel) x
  have htw : v.takeWhile (fun b => decide (48 ≤ b ∧ b ≤ 57)) = v := by
    clear hns hv
    induction v with
    | nil => rfl
    | cons x v ih =>
      rw [List.takeWhile_cons_of_pos (by simpa [isDigit] using hd x (by simp)), ih fun b hb => hd b (by simp [hb])]
  unfold stoiB
  simp only [hns]
  cases v with
  | nil => exact absurd rfl hv
  | cons x v =>
    have hx := hd x (by simp)
    have h45 : x ≠ 45 := by rintro rfl; revert hx; decide
    have h43 : x ≠ 43 := by rintro rfl; revert hx; decide
    have hm : signB (x :: v) = (false, x :: v) := by
      unfold signB
      split
      · rename_i h; simp at h; exact absurd h.1 h45
      · rename_i h; simp at h; exact absurd h.1 h43
      · rfl
    simp only [hm, htw]
    rw [if_neg (by simp)]
    simp only [Bool.false_eq_true, if_false]
    by_cases h : decimal (x :: v) < 2 ^ 31
    · rw [if_pos h, if_pos (by omega)]
    · rw [if_neg h, if_neg (by omega)]

theorem isspaceB_iff (b : Byte) : isspaceB b = true ↔ b ∈ b!" \t\n\r" ∨ b = 11 ∨ b = 12 :=
  byte_forall (P := fun b => isspaceB b = true ↔ b ∈ b!" \t\n\r" ∨ b = 11 ∨ b = 12) (by decide +kernel) b

theorem digitsB (ds rest : Bytes) (hd : ∀ b ∈ ds, isDigit b) (hr : ∀ b ∈ rest.head?, ¬ isDigit b) :
    (ds ++ rest).takeWhile (fun b => decide (48 ≤ b ∧ b ≤ 57)) = ds := by
  induction ds with
  | nil =>
    cases rest with
    | nil => rfl
    | cons x rest => exact List.takeWhile_cons_of_neg (by have := hr x (by simp); simpa [isDigit] using this)
  | cons x ds ih =>
    rw [List.cons_append, List.takeWhile_cons_of_pos (by simpa [isDigit] using hd x (by simp)), ih fun b hb => hd b (by simp [hb])]

theorem spaceB (ws rest : Bytes) (hw : ∀ b ∈ ws, isspaceB b = true) (hr : ∀ b ∈ rest.head?, isspaceB b = false) :
    (ws ++ rest).dropWhile isspaceB = rest := by
  induction ws with
  | nil =>
    cases rest with
    | nil => rfl
    | cons x rest => exact List.dropWhile_cons_of_neg (by simp [hr x (by simp)])
  | cons x ws ih =>
    rw [List.cons_append, List.dropWhile_cons_of_pos (hw x (by simp)), ih fun b hb => hw b (by simp [hb])]

/-- What `std::stoi` accepts. -/
theorem stoiB_iff (v : Bytes) (n : Int) : stoiB v = some n ↔ Number v n ∧ -2147483648 ≤ n ∧ n ≤ 2147483647 := by
  constructor
  · intro h
    unfold stoiB at h
    dsimp only at h
    split at h
    · cases h
    rename_i hne
    obtain ⟨x, hx⟩ : ∃ x : Int, x = if (signB (v.dropWhile isspaceB)).1 = true then
      - (decimal ((signB (v.dropWhile isspaceB)).2.takeWhile fun b => decide (48 ≤ b ∧ b ≤ 57)) : Int)
      else (decimal ((signB (v.dropWhile isspaceB)).2.takeWhile fun b => decide (48 ≤ b ∧ b ≤ 57)) : Int) := ⟨_, rfl⟩
    rw [← hx] at h
    split at h
    · rename_i hb
      injection h with h
      subst h
      refine ⟨?_, hb⟩
      clear hb
      subst hx
      generalize ht : v.dropWhile isspaceB = t at hne
      have ev : v = v.takeWhile isspaceB ++ t := by rw [← ht]; exact (List.takeWhile_append_dropWhile).symm
      have hw : ∀ b ∈ v.takeWhile isspaceB, b ∈ b!" \t\n\r" ∨ b = 11 ∨ b = 12 := fun b hb =>
        (isspaceB_iff b).1 (by have := List.all_eq_true.1 List.all_takeWhile _ hb; simpa using this)
      have et := (List.takeWhile_append_dropWhile (p := fun b : Byte => decide (48 ≤ b ∧ b ≤ 57)) (l := (signB t).2)).symm
      have hd : ∀ b ∈ (signB t).2.takeWhile (fun b => decide (48 ≤ b ∧ b ≤ 57)), isDigit b := fun b hb => by
        have := List.all_eq_true.1 List.all_takeWhile _ hb; simpa [isDigit] using this
      have hr : ∀ b ∈ ((signB t).2.dropWhile (fun b => decide (48 ≤ b ∧ b ≤ 57))).head?, ¬ isDigit b := by
        intro b hb
        have := List.head?_dropWhile_not (p := fun b : Byte => decide (48 ≤ b ∧ b ≤ 57)) (l := (signB t).2)
        rw [Option.mem_def.1 hb] at this
        simpa [isDigit] using this
      have hs : (t = b!"-" ++ (signB t).2 ∧ (signB t).1 = true) ∨ ((t = (signB t).2 ∨ t = b!"+" ++ (signB t).2) ∧ (signB t).1 = false) := by
        unfold signB
        split
        · exact .inl ⟨rfl, rfl⟩
        · exact .inr ⟨.inr rfl, rfl⟩
        · exact .inr ⟨.inl rfl, rfl⟩
      rcases hs with ⟨h1, h2⟩ | ⟨h1 | h1, h2⟩
      · refine ⟨_, b!"-", _, _, ?_, hw, hne, hd, hr, .inl ⟨rfl, by rw [h2]; rfl⟩⟩
        rw [List.append_assoc, List.append_assoc, ← et, ← h1]
        exact ev
      · refine ⟨_, [], _, _, ?_, hw, hne, hd, hr, .inr ⟨.inl rfl, by rw [h2]; rfl⟩⟩
        rw [List.append_assoc, List.append_assoc, ← et, List.nil_append, ← h1]
        exact ev
      · refine ⟨_, b!"+", _, _, ?_, hw, hne, hd, hr, .inr ⟨.inr rfl, by rw [h2]; rfl⟩⟩
        rw [List.append_assoc, List.append_assoc, ← et, ← h1]
        exact ev
    · cases h
  · rintro ⟨⟨ws, sg, ds, rest, rfl, hw, hne, hd, hr, hs⟩, hb⟩
    obtain ⟨d, ds', rfl⟩ : ∃ d ds', ds = d :: ds' := List.exists_cons_of_ne_nil hne
    have hd0 := hd d (by simp)
    have hsp : isspaceB d = false := by
      revert hd0
      exact byte_forall (P := fun x => isDigit x → isspaceB x = false) (by decide +kernel) d
    have h45 : d ≠ 45 := by rintro rfl; revert hd0; decide
    have h43 : d ≠ 43 := by rintro rfl; revert hd0; decide
    have hws : ∀ b ∈ ws, isspaceB b = true := fun b hb => (isspaceB_iff b).2 (hw b hb)
    have e1 : (ws ++ sg ++ d :: ds' ++ rest).dropWhile isspaceB = sg ++ (d :: ds' ++ rest) := by
      rw [List.append_assoc, List.append_assoc]
      apply spaceB _ _ hws
      intro b hb
      rcases hs with ⟨rfl, _⟩ | ⟨rfl | rfl, _⟩ <;> simp at hb <;> subst hb
      · decide
      · exact hsp
      · decide
    have e2 : signB (sg ++ (d :: ds' ++ rest)) = (decide (sg = b!"-"), d :: ds' ++ rest) := by
      rcases hs with ⟨rfl, _⟩ | ⟨rfl | rfl, _⟩
      · rfl
      · unfold signB
        split
        · rename_i h; simp at h; exact absurd h.1 h45
        · rename_i h; simp at h; exact absurd h.1 h43
        · rfl
      · rfl
    unfold stoiB
    dsimp only
    rw [e1, e2]
    dsimp only
    rw [digitsB _ _ hd hr, if_neg hne]
    have e3 : (if decide (sg = b!"-") = true then -(decimal (d :: ds') : Int) else (decimal (d :: ds') : Int)) = n := by
      rcases hs with ⟨rfl, rfl⟩ | ⟨rfl | rfl, rfl⟩
      · rfl
      · rfl
      · rfl
    rw [e3, if_pos hb]

/-! ## The memory of the response -/

/-- The response holds the characters `D`. -/
structure RespInv {α} (D : List α) (r : Resp α) : Prop where
  mem : r.mem.length = r.reserve
  size : r.size = D.length
  le : r.size ≤ r.reserve
  data : r.mem.take r.size = D.map some

theorem RespInv.fresh {α} : RespInv ([] : List α) .fresh := ⟨rfl, rfl, Nat.le_refl _, rfl⟩

theorem RespInv.dataEq {α} {D : List α} {r : Resp α} (h : RespInv D r) : r.data = D.map fun c => some (some c) := by
  unfold Resp.data
  apply List.ext_getElem?
  intro i
  by_cases hi : i < r.size
  · rw [List.getElem?_map, List.getElem?_range hi]
    have := congrArg (fun l => l[i]?) h.data
    simp only [List.getElem?_take, if_pos hi, List.getElem?_map] at this
    simp only [Option.map_some, this, List.getElem?_map]
    have : i < D.length := by have := h.size; omega
    rw [List.getElem?_eq_getElem this]
    rfl
  · rw [List.getElem?_eq_none (by simpa using hi), List.getElem?_eq_none]
    simp; have := h.size; omega

theorem injectResponse_spec {α} (conv : Conv α) (hconv : ∀ d, (conv d).1.length ≤ d.length) {D : List α} {r : Resp α} (h : RespInv D r) (data : Bytes) :
    ∃ r', injectResponse conv r data = .ok (if (conv data).2.2 then data.length else (conv data).2.1, r') ∧ r'.headers = r.headers ∧
      RespInv (D ++ if (conv data).2.2 then [] else (conv data).1) r' := by
  have hl := hconv data
  unfold injectResponse
  obtain ⟨r1, e1, e2, e3, e4, e5, e6⟩ : ∃ r1 : Resp α, (if r.size + data.length > r.reserve then
      if r.size > r.mem.length then .ub .oobRead
      else .ok { r with reserve := r.size + data.length, mem := r.mem.take r.size ++ List.replicate data.length none }
    else .ok r) = CRes.ok r1 ∧ r1.size = r.size ∧ r1.headers = r.headers ∧ r1.mem.length = r1.reserve ∧ r1.size + data.length ≤ r1.reserve ∧ r1.mem.take r1.size = D.map some := by
    have := h.mem; have := h.le
    split
    · rw [if_neg (by omega)]
      refine ⟨_, rfl, rfl, rfl, by simp; omega, Nat.le_refl _, ?_⟩
      dsimp only
      rw [List.take_append_of_le_length (by simp; omega), List.take_take, Nat.min_self]
      exact h.data
    · exact ⟨r, rfl, rfl, rfl, h.mem, by omega, h.data⟩
  dsimp only
  rw [e1]
  simp only [CRes.bind]
  have hmem : (putAt r1.mem r1.size (conv data).1).length = r1.mem.length := by
    simp [putAt]; omega
  have htake : (putAt r1.mem r1.size (conv data).1).take (r1.size + (conv data).1.length) = (D ++ (conv data).1).map some := by
    unfold putAt
    rw [e6, List.take_append_of_le_length (by have := h.size; simp; omega), List.take_of_length_le (by have := h.size; simp; omega)]
    simp
  rw [if_neg (by omega)]
  have hs := h.size
  cases hf : (conv data).2.2 with
  | true =>
    simp only [if_true]
    refine ⟨_, rfl, e3, ⟨?_, ?_, ?_, ?_⟩⟩
    · dsimp only; rw [hmem, e4]
    · dsimp only; simp; omega
    · dsimp only; omega
    · dsimp only
      have := congrArg (List.take r1.size) htake
      rw [List.take_take, Nat.min_eq_left (by omega)] at this
      rw [this, ← List.map_take]
      rw [List.take_append_of_le_length (by omega), List.take_of_length_le (by omega), List.append_nil]
  | false =>
    simp only [Bool.false_eq_true, if_false]
    refine ⟨_, rfl, e3, ⟨?_, ?_, ?_, htake⟩⟩
    · dsimp only; rw [hmem, e4]
    · dsimp only; simp; omega
    · dsimp only; omega

theorem narrowConv_le (d : Bytes) : (narrowConv d).1.length ≤ d.length := Nat.le_refl _

/-- A header that does not give the length. -/
theorem injectHeader_other {α} [DecidableEq α] (dec : Bytes → Option (List α)) (r : Resp α) (k v : Bytes) (hk : ¬ (k = b!"Content-Length" ∨ k = b!"content-length")) :
    ∃ r', injectHeader dec r k v = .ok r' ∧ r'.mem = r.mem ∧ r'.size = r.size ∧ r'.reserve = r.reserve ∧
      r'.headers = (match dec k, dec v with | some k, some v => emplaceHeader r.headers k v | _, _ => r.headers) := by
  unfold injectHeader
  cases dec k <;> cases dec v <;> simp only [if_neg hk]
  · exact ⟨_, rfl, rfl, rfl, rfl, rfl⟩
  · exact ⟨_, rfl, rfl, rfl, rfl, rfl⟩
  · exact ⟨_, rfl, rfl, rfl, rfl, rfl⟩
  · exact ⟨_, rfl, rfl, rfl, rfl, rfl⟩

/-- A header that gives the length. -/
theorem injectHeader_length {α} [DecidableEq α] (dec : Bytes → Option (List α)) (r : Resp α) (k v : Bytes) (hk : k = b!"Content-Length" ∨ k = b!"content-length")
    (hv : v ≠ []) (hd : ∀ b ∈ v, isDigit b) (hn : decimal v < 2 ^ 31) (kc vc : List α) (hkc : dec k = some kc) (hvc : dec v = some vc) :
    injectHeader dec r k v = .ok { r with reserve := decimal v, mem := List.replicate (decimal v) none, headers := emplaceHeader r.headers kc vc } := by
  unfold injectHeader
  simp only [hkc, hvc, if_pos hk, stoiB_digits v hv hd, if_pos hn]
  rw [if_neg (by omega)]
  simp

/-! ## All callbacks -/

/-- The headers after the callbacks. -/
def headersFrom {α} [DecidableEq α] (dec : Bytes → Option (List α)) : List (List α × List α) → List Received → List (List α × List α)
  | h, [] => h
  | h, .body _ :: l => headersFrom dec h l
  | h, .header line :: l => headersFrom dec (match splitHeader line with
    | .ok (some (k, v)) => (match dec k, dec v with | some k, some v => emplaceHeader h k v | _, _ => h)
    | _ => h) l

theorem digits_ascii {v : Bytes} (h : ∀ b ∈ v, isDigit b) : ∀ b ∈ v, b < 128 := by
  intro b hb
  have := (h b hb).2
  rw [UInt8.le_iff_toNat_le] at this; rw [UInt8.lt_iff_toNat_lt]
  simp at *; omega

theorem onAll_spec {α} [DecidableEq α] (conv : Conv α) (dec : Bytes → Option (List α)) (val : Bytes → List α) (hconv : ∀ d, (conv d).1.length ≤ d.length)
    (hdec : ∀ t, (∀ b ∈ t, b < 128) → (dec t).isSome) :
    ∀ (l : List Received) (D : List α) (r : Resp α), RespInv D r → (∀ d, .body d ∈ l → conv d = (val d, d.length, false)) →
      (∀ line, .header line ∈ l → isLength line → goodLength line) → (∀ pre line post, l = pre ++ .header line :: post → isLength line → D = [] ∧ bodyOf pre = []) →
      ∃ r', onAll conv dec r l = .ok (l.map Received.size, r') ∧ RespInv (D ++ l.flatMap fun x => match x with | .body d => val d | .header _ => []) r' ∧
        r'.headers = headersFrom dec r.headers l := by
  intro l
  induction l with
  | nil => intro D r h _ _ _; exact ⟨r, rfl, by simpa using h, rfl⟩
  | cons x l ih =>
    intro D r h hb hl ho
    cases x with
    | body d =>
      have hd := hb d (by simp)
      obtain ⟨r1, e1, e2, e3⟩ := injectResponse_spec conv hconv h d
      rw [hd] at e1 e3
      simp only [Bool.false_eq_true, if_false] at e1 e3
      have hor : ∀ pre line post, l = pre ++ .header line :: post → isLength line → D ++ val d = [] ∧ bodyOf pre = [] := by
        intro pre line post he hlen
        have := ho (.body d :: pre) line post (by rw [he]; rfl) hlen
        simp only [bodyOf, List.flatMap_cons, List.append_eq_nil_iff] at this
        obtain ⟨h1, h2, h3⟩ := this
        have hv := hconv d
        rw [hd] at hv
        have : val d = [] := by
          subst h2; exact List.eq_nil_of_length_eq_zero (by simpa using hv)
        exact ⟨by rw [h1, this]; rfl, h3⟩
      obtain ⟨r', f1, f2, f3⟩ := ih (D ++ val d) r1 e3 (fun d' hd' => hb d' (by simp [hd'])) (fun line hline => hl line (by simp [hline])) hor
      refine ⟨r', ?_, by simpa using f2, by rw [f3, e2]; rfl⟩
      simp only [onAll, onReceived, e1, CRes.bind, f1, List.map_cons, Received.size]
    | header line =>
      have hor : ∀ pre ln post, l = pre ++ .header ln :: post → isLength ln → D = [] ∧ bodyOf pre = [] := by
        intro pre ln post he hlen
        have := ho (.header line :: pre) ln post (by rw [he]; rfl) hlen
        simpa [bodyOf] using this
      have key : ∃ r1, onReceived conv dec r (.header line) = .ok (line.length, r1) ∧ RespInv D r1 ∧
          r1.headers = (match splitHeader line with
            | .ok (some (k, v)) => (match dec k, dec v with | some k, some v => emplaceHeader r.headers k v | _, _ => r.headers)
            | _ => r.headers) := by
        by_cases hc : c!":" ∈ line
        · obtain ⟨k, v, e1, e2⟩ := splitHeader_some line hc
          simp only [onReceived, e1]
          by_cases hlen : isLength line
          · have hk := (isLength_iff e2).1 hlen
            obtain ⟨n', v', g1, g2, g3, g4⟩ := hl line (by simp) hlen
            obtain ⟨rfl, rfl⟩ := headerLine_unique e2 g1
            obtain ⟨kc, hkc⟩ := Option.isSome_iff_exists.1 (hdec k (by rcases hk with rfl | rfl <;> decide))
            obtain ⟨vc, hvc⟩ := Option.isSome_iff_exists.1 (hdec v (digits_ascii g3))
            rw [injectHeader_length dec r k v hk g2 g3 g4 kc vc hkc hvc]
            have hD := (ho [] line l rfl hlen).1
            refine ⟨_, rfl, ⟨by simp, h.size, ?_, ?_⟩, by simp only [hkc, hvc]⟩
            · have := h.size; rw [hD] at this; dsimp only; simp at this; omega
            · have := h.size; rw [hD] at this; dsimp only; simp at this; rw [this, hD]; rfl
          · obtain ⟨r1, f1, f2, f3, f4, f5⟩ := injectHeader_other dec r k v (fun hk => hlen ((isLength_iff e2).2 hk))
            rw [f1]
            exact ⟨r1, rfl, ⟨by rw [f2, f4]; exact h.mem, by rw [f3]; exact h.size, by rw [f3, f4]; exact h.le, by rw [f2, f3]; exact h.data⟩, f5⟩
        · have := splitHeader_none line hc
          simp only [onReceived, this]
          exact ⟨r, rfl, h, rfl⟩
      obtain ⟨r1, e1, e2, e3⟩ := key
      obtain ⟨r', f1, f2, f3⟩ := ih D r1 e2 (fun d hd => hb d (by simp [hd])) (fun ln hln => hl ln (by simp [hln])) hor
      refine ⟨r', ?_, by simpa using f2, ?_⟩
      · simp only [onAll, e1, CRes.bind, f1, List.map_cons, Received.size]
      · rw [f3, e3]; rfl

/-! ## Headers -/

theorem emplaceHeader_lookup {α} [DecidableEq α] (h : List (List α × List α)) (k v k' : List α) :
    (emplaceHeader h k v).lookup k' = if h.lookup k' = none ∧ k' = k then some v else h.lookup k' := by
  have happ : ∀ h : List (List α × List α), (h ++ [(k, v)]).lookup k' = if h.lookup k' = none then (if k' = k then some v else none) else h.lookup k' := by
    intro h
    induction h with
    | nil =>
      by_cases hk : k' = k
      · subst hk; simp [List.lookup]
      · have : (k' == k) = false := by simpa using hk
        simp [List.lookup, this, hk]
    | cons p h ih =>
      obtain ⟨p1, p2⟩ := p
      simp only [List.cons_append, List.lookup]
      by_cases hp : k' = p1
      · have : (k' == p1) = true := by simpa using hp
        simp [this]
      · have : (k' == p1) = false := by simpa using hp
        simp only [this]; exact ih
  unfold emplaceHeader
  by_cases hk : h.lookup k = none
  · rw [if_pos hk, happ]
    by_cases h1 : h.lookup k' = none
    · rw [if_pos h1]
      by_cases h2 : k' = k
      · rw [if_pos h2, if_pos ⟨h1, h2⟩]
      · rw [if_neg h2, if_neg (fun h => h2 h.2), h1]
    · rw [if_neg h1, if_neg (fun h => h1 h.1)]
  · rw [if_neg hk, if_neg]
    rintro ⟨h1, rfl⟩; exact hk h1

/-- The first header with a name decides. -/
theorem headersFrom_lookup (k v : Bytes) : ∀ (l : List Received) (h : List (Bytes × Bytes)),
    (headersFrom some h l).lookup k = some v ↔ h.lookup k = some v ∨ (h.lookup k = none ∧
      ∃ pre line post, l = pre ++ .header line :: post ∧ HeaderLine line k v ∧ ∀ ln, .header ln ∈ pre → ∀ v', ¬ HeaderLine ln k v') := by
  intro l
  induction l with
  | nil => intro h; simp [headersFrom]
  | cons x l ih =>
    intro h
    cases x with
    | body d =>
      rw [headersFrom, ih]
      constructor
      · rintro (h1 | ⟨h1, pre, line, post, e1, e2, e3⟩)
        · exact Or.inl h1
        · exact Or.inr ⟨h1, .body d :: pre, line, post, by rw [e1]; rfl, e2, by simpa using e3⟩
      · rintro (h1 | ⟨h1, pre, line, post, e1, e2, e3⟩)
        · exact Or.inl h1
        · right
          refine ⟨h1, ?_⟩
          cases pre with
          | nil => simp at e1
          | cons y pre =>
            simp only [List.cons_append, List.cons.injEq] at e1
            exact ⟨pre, line, post, e1.2, e2, fun ln hln => e3 ln (by simp [hln])⟩
    | header line =>
      rw [headersFrom]
      by_cases hc : c!":" ∈ line
      · obtain ⟨k1, v1, e1, e2⟩ := splitHeader_some line hc
        rw [e1]
        dsimp only
        rw [ih, emplaceHeader_lookup]
        by_cases hh : h.lookup k = none
        · by_cases hk : k = k1
          · subst hk
            rw [if_pos ⟨hh, rfl⟩, hh]
            constructor
            · rintro (h1 | ⟨h1, _⟩)
              · simp only [Option.some.injEq] at h1; subst h1
                exact Or.inr ⟨rfl, [], line, l, rfl, e2, by simp⟩
              · cases h1
            · rintro (h1 | ⟨_, pre, ln, post, f1, f2, f3⟩)
              · cases h1
              · left
                cases pre with
                | nil =>
                  simp only [List.nil_append, List.cons.injEq, Received.header.injEq] at f1
                  obtain ⟨rfl, rfl⟩ := f1
                  rw [(headerLine_unique e2 f2).2]
                | cons y pre =>
                  simp only [List.cons_append, List.cons.injEq] at f1
                  exact absurd e2 (f3 line (by simp [← f1.1]) v1)
          · rw [if_neg (fun h => hk h.2), hh]
            constructor
            · rintro (h1 | ⟨h1, pre, ln, post, f1, f2, f3⟩)
              · cases h1
              · refine Or.inr ⟨rfl, .header line :: pre, ln, post, by rw [f1]; rfl, f2, ?_⟩
                intro ln' hln' v' hv'
                rcases List.mem_cons.1 hln' with h | h
                · cases h; exact hk (headerLine_unique hv' e2).1
                · exact f3 ln' h v' hv'
            · rintro (h1 | ⟨h1, pre, ln, post, f1, f2, f3⟩)
              · cases h1
              · refine Or.inr ⟨rfl, ?_⟩
                cases pre with
                | nil =>
                  simp only [List.nil_append, List.cons.injEq, Received.header.injEq] at f1
                  obtain ⟨rfl, rfl⟩ := f1
                  exact absurd (headerLine_unique f2 e2).1 hk
                | cons y pre =>
                  simp only [List.cons_append, List.cons.injEq] at f1
                  exact ⟨pre, ln, post, f1.2, f2, fun ln' hln' => f3 ln' (by simp [hln'])⟩
        · rw [if_neg (fun h => hh h.1)]
          simp [hh]
      · rw [splitHeader_none line hc]
        dsimp only
        rw [ih]
        constructor
        · rintro (h1 | ⟨h1, pre, ln, post, e1, e2, e3⟩)
          · exact Or.inl h1
          · refine Or.inr ⟨h1, .header line :: pre, ln, post, by rw [e1]; rfl, e2, ?_⟩
            intro ln' hln' v' hv'
            rcases List.mem_cons.1 hln' with h | h
            · cases h; exact hc (headerLine_colon hv')
            · exact e3 ln' h v' hv'
        · rintro (h1 | ⟨h1, pre, ln, post, e1, e2, e3⟩)
          · exact Or.inl h1
          · refine Or.inr ⟨h1, ?_⟩
            cases pre with
            | nil =>
              simp only [List.nil_append, List.cons.injEq, Received.header.injEq] at e1
              obtain ⟨rfl, rfl⟩ := e1
              exact absurd (headerLine_colon e2) hc
            | cons y pre =>
              simp only [List.cons_append, List.cons.injEq] at e1
              exact ⟨pre, ln, post, e1.2, e2, fun ln' hln' => e3 ln' (by simp [hln'])⟩

end Fcgi
