import Verif.Spec.AddressCanon
import Verif.Lemmas.AddressPrint
/-! # The exact text of addresses -/
namespace Fcgi.Model
open Fcgi Fcgi.Spec

theorem digitChar_eq : ∀ d, d < 16 → digitChar false d = UInt8.ofNat (Nat.digitChar d).toNat := by
  have : ∀ d : Fin 16, digitChar false d.val = UInt8.ofNat (Nat.digitChar d.val).toNat := by decide
  intro d h; exact this ⟨d, h⟩

theorem numDigits_eq (base : Nat) (hb : 1 < base) (hb' : base ≤ 16) : ∀ (k n : Nat), n < base ^ k → 0 < k → numDigits base false k n = digitsOf base n := by
  intro k
  induction k with
  | zero => intro n _ h; omega
  | succ k ih =>
    intro n h _
    unfold numDigits digitsOf
    rw [Nat.toDigits_eq_if hb]
    have hm : n % base < base := Nat.mod_lt _ (by omega)
    split
    · rename_i hn
      simp [digitChar_eq n (by omega), Nat.mod_eq_of_lt hn]
    · rename_i hn
      have hk : 0 < k := by
        rcases Nat.eq_zero_or_pos k with rfl | hk
        · simp at h; omega
        · exact hk
      rw [ih (n / base) (by rw [Nat.pow_succ] at h; exact Nat.div_lt_of_lt_mul (by rwa [Nat.mul_comm] at h)) hk, List.map_append]
      simp [digitsOf, digitChar_eq (n % base) (by omega)]

/-- The format of a stream nobody has touched. -/
def NumFmt.untouched (f : NumFmt) : Prop := f.plain ∧ f.uppercase = false

theorem numText_eq {f : NumFmt} (hf : f.untouched) {n : Nat} (hn : n < 65536) : numText f true n = digitsOf 16 n := by
  unfold numText
  rw [hf.1.1, hf.1.2, hf.2]
  simp only [Bool.false_eq_true, false_and, if_false, if_true]
  exact numDigits_eq 16 (by omega) (by omega) 5 n (by omega) (by omega)

theorem numText_dec {f : NumFmt} (hf : f.untouched) (b : Byte) : numText f false b.toNat = digitsOf 10 b.toNat := by
  have hb := b.toNat_lt
  unfold numText
  rw [hf.1.1, hf.1.2, hf.2]
  simp only [Bool.false_eq_true, false_and, if_false]
  exact numDigits_eq 10 (by omega) (by omega) 5 _ (by omega) (by omega)

theorem groupAt_eq (a : Bytes) (i : Nat) : groupAt a i = addrGroup a i := by unfold groupAt addrGroup; omega

theorem group_text {f : NumFmt} (hf : f.untouched) (a : Bytes) (i : Nat) : numText f true (groupAt a i) = digitsOf 16 (addrGroup a i) := by
  rw [numText_eq hf (groupAt_lt a i), groupAt_eq]

theorem intercalate_cons {α} (s : List α) (x : List α) (l : List (List α)) (h : l ≠ []) : s.intercalate (x :: l) = x ++ s ++ s.intercalate l := by
  cases l with
  | nil => exact absurd rfl h
  | cons y l => simp [List.intercalate, List.intersperse]

theorem groupsText_one (a : Bytes) (i : Nat) : groupsText a i (i + 1) = digitsOf 16 (addrGroup a i) := by
  unfold groupsText
  rw [show i + 1 - i = 1 by omega]
  simp [List.range', List.intercalate, List.intersperse]

theorem groupsText_cons (a : Bytes) (i j : Nat) (h : i + 1 < j) :
    groupsText a i j = digitsOf 16 (addrGroup a i) ++ [58] ++ groupsText a (i + 1) j := by
  unfold groupsText
  rw [show j - i = (j - (i + 1)) + 1 by omega, List.range'_succ, List.map_cons, intercalate_cons]
  intro h'
  have := congrArg List.length h'
  simp at this; omega

theorem groupsText_nil (a : Bytes) (i : Nat) : groupsText a i i = [] := by
  unfold groupsText
  simp [List.intercalate]

theorem groupsText_length {f : NumFmt} (hf : f.untouched) (a : Bytes) : ∀ (n i : Nat), (groupsText a i (i + n)).length ≤ 5 * n - 1 := by
  intro n
  induction n with
  | zero => intro i; rw [Nat.add_zero, groupsText_nil]; simp
  | succ n ih =>
    intro i
    have h3 := (numText_hex hf.1 (groupAt_lt a i)).2.2
    rw [group_text hf] at h3
    rcases Nat.eq_zero_or_pos n with rfl | hn
    · rw [groupsText_one]; omega
    · rw [groupsText_cons a i _ (by omega)]
      have := ih (i + 1)
      rw [show i + 1 + n = i + (n + 1) by omega] at this
      simp only [List.length_append, List.length_cons, List.length_nil]
      omega

/-- The groups after the range, or all of them. -/
theorem print_rest_eq {f : NumFmt} {a : Bytes} {sub : Option (Nat × Nat)} (hf : f.untouched) : ∀ (k : Nat), k < 8 → (∀ j, 7 - k ≤ j → ¬ insideRun sub j) →
    ∀ out : Bytes, out.length ≤ 5 * (7 - k) → printGroups f a sub (k + 1) out = .ok (out ++ groupsText a (7 - k) 8) := by
  intro k
  induction k with
  | zero =>
    intro hk ho out hl
    rw [printGroups_outside hf.1 hk (ho _ (Nat.le_refl _)) hl]
    rw [show (8 : Nat) = 7 - 0 + 1 from rfl, groupsText_one, group_text hf]
    simp [printGroups]
  | succ k ih =>
    intro hk ho out hl
    have h3 := (numText_hex hf.1 (groupAt_lt a (7 - (k + 1)))).2.2
    rw [printGroups_outside hf.1 hk (ho _ (Nat.le_refl _)) hl, if_neg (by omega),
      ih (by omega) (fun j hj => ho j (by omega)) _ (by simp only [List.length_append, List.length_cons, List.length_nil]; omega),
      groupsText_cons a (7 - (k + 1)) 8 (by omega), group_text hf, show 7 - (k + 1) + 1 = 7 - k by omega]
    simp

/-- The groups before the range, which begins at `b`. -/
theorem print_before_eq {f : NumFmt} {a : Bytes} {b e : Nat} (hf : f.untouched) (hb : b ≤ 7) : ∀ (m : Nat), m < b →
    ∀ out : Bytes, out.length ≤ 5 * (b - 1 - m) →
      printGroups f a (some (b, e)) (8 - (b - 1 - m)) out = printGroups f a (some (b, e)) (8 - b) (out ++ groupsText a (b - 1 - m) b ++ [58]) := by
  intro m
  induction m with
  | zero =>
    intro hm out hl
    have := printGroups_outside (a := a) (sub := some (b, e)) (k := 8 - b) (out := out) hf.1 (by omega) (by rintro ⟨b', e', h, h1, h2⟩; cases h; omega) (by omega)
    have e1 : groupsText a (b - 1 - 0) b = digitsOf 16 (addrGroup a (b - 1)) := by
      have := groupsText_one a (b - 1)
      rwa [show b - 1 + 1 = b by omega] at this
    rw [show 8 - (b - 1 - 0) = 8 - b + 1 by omega, this, if_neg (by omega), show 7 - (8 - b) = b - 1 by omega, e1, group_text hf]
    simp
  | succ m ih =>
    intro hm out hl
    have h4 := (numText_hex hf.1 (groupAt_lt a (b - 1 - (m + 1)))).2.2
    have := printGroups_outside (a := a) (sub := some (b, e)) (k := 8 - (b - 1 - m)) (out := out) hf.1 (by omega) (by rintro ⟨b', e', h, h1, h2⟩; cases h; omega) (by omega)
    rw [show 8 - (b - 1 - (m + 1)) = 8 - (b - 1 - m) + 1 by omega, this, if_neg (by omega), show 7 - (8 - (b - 1 - m)) = b - 1 - (m + 1) by omega,
      ih (by omega) _ (by simp; omega), groupsText_cons a (b - 1 - (m + 1)) b (by omega), group_text hf, show b - 1 - (m + 1) + 1 = b - 1 - m by omega]
    simp

theorem print_run_eq {f : NumFmt} {a : Bytes} {b e : Nat} (hf : f.untouched) (hbe : b ≤ e) (he : e ≤ 7) :
    printGroups f a (some (b, e)) 8 [] = .ok (groupsText a 0 b ++ [58, 58] ++ groupsText a (e + 1) 8) := by
  have rest : ∀ out : Bytes, out.length ≤ 5 * b + 2 → (b ≠ 0 → out.length ≤ 5 * b + 1) →
      printGroups f a (some (b, e)) (7 - e) out = .ok (out ++ groupsText a (e + 1) 8) := by
    intro out ho ho'
    by_cases he7 : e = 7
    · subst he7
      rw [groupsText_nil]
      simp [printGroups]
    · have := print_rest_eq (f := f) (a := a) (sub := some (b, e)) hf (6 - e) (by omega) (by rintro j hj ⟨b', e', hh, h4, h5⟩; cases hh; omega) out
        (by by_cases hb : b = 0
            · omega
            · have := ho' hb; omega)
      rw [show 7 - (6 - e) = e + 1 by omega, show 6 - e + 1 = 7 - e by omega] at this
      exact this
  by_cases hb : b = 0
  · subst hb
    have h1 := print_inside (f := f) (a := a) (b := 0) he e (by omega) hbe [] (by simp)
    rw [Nat.sub_self, if_pos ⟨rfl, rfl⟩] at h1
    rw [h1, rest _ (by simp) (by simp), groupsText_nil]
    simp
  · have h3 := print_before_eq (f := f) (a := a) (b := b) (e := e) hf (by omega) (b - 1) (by omega) [] (by simp)
    rw [show b - 1 - (b - 1) = 0 by omega] at h3
    have hl := groupsText_length hf a b 0
    rw [Nat.zero_add] at hl
    have h4 := print_inside (f := f) (a := a) (b := b) he (e - b) (by omega) hbe ([] ++ groupsText a 0 b ++ [58]) (by rw [if_neg (by omega)]; simp; omega)
    rw [show e - (e - b) = b by omega, if_neg (by omega)] at h4
    rw [Nat.sub_zero] at h3
    rw [h3, h4, rest _ (by simp; omega) (by simp; omega)]
    simp

/-! ### Which run -/

/-- What is known of the run chosen so far: it lies before `i`, is a longest one there, and the last of these. -/
structure Chosen (a : Bytes) (sub : Option (Nat × Nat)) (i : Nat) : Prop where
  none : sub = none → ∀ j, j < i → addrGroup a j ≠ 0
  zero : ∀ b e, sub = some (b, e) → b ≤ e ∧ e < i ∧ ∀ j, b ≤ j → j ≤ e → addrGroup a j = 0
  most : ∀ b e b' n', sub = some (b, e) → b' + n' ≤ i → (∀ j, b' ≤ j → j < b' + n' → addrGroup a j = 0) →
    n' ≤ e + 1 - b ∧ (n' = e + 1 - b → b' ≤ b)

/-- The candidate: a run that ends just before `i` and cannot be extended to the left. -/
structure Cand (a : Bytes) (cand : Option (Nat × Nat)) (i : Nat) : Prop where
  none : cand = none → 0 < i → addrGroup a (i - 1) ≠ 0
  some : ∀ b e, cand = some (b, e) → b < i ∧ e = i ∧ (∀ j, b ≤ j → j < i → addrGroup a j = 0) ∧ (0 < b → addrGroup a (b - 1) ≠ 0)

/-- Where the run chosen so far was looked for: before the candidate. -/
def candStart (cand : Option (Nat × Nat)) (i : Nat) : Nat :=
  match cand with
  | none => i
  | some (b, _) => b

theorem zeroRunEnd_chosen {a : Bytes} {sub cand : Option (Nat × Nat)} {i : Nat} (hc : Cand a cand i) (hs : Chosen a sub (candStart cand i)) :
    Chosen a (zeroRunEnd sub cand) i := by
  unfold zeroRunEnd
  cases cand with
  | none => exact hs
  | some p =>
    obtain ⟨b, e⟩ := p
    obtain ⟨h1, rfl, h2, h3⟩ := hc.some b e rfl
    have hs : Chosen a sub b := hs
    dsimp only
    -- a run is before the candidate or in it
    have side : ∀ b' n', 0 < n' → b' + n' ≤ e → (∀ j, b' ≤ j → j < b' + n' → addrGroup a j = 0) → b' + n' ≤ b ∨ b ≤ b' := by
      intro b' n' hn hb hz
      by_cases hh : b ≤ b'
      · exact Or.inr hh
      · refine Or.inl ?_
        by_cases hk : b' + n' ≤ b
        · exact hk
        · exact absurd (hz (b - 1) (by omega) (by omega)) (h3 (by omega))
    split
    · rename_i hlt
      refine ⟨(by intro h; cases h), ?_, ?_⟩
      · intro b' e' hh
        cases hh
        exact ⟨by omega, by omega, fun j hb he => h2 j hb (by omega)⟩
      · intro b0 e0 b' n' hh hb hz
        cases hh
        rcases Nat.eq_zero_or_pos n' with rfl | hn
        · exact ⟨by omega, by omega⟩
        rcases side b' n' hn hb hz with hk | hk
        · cases hsub : sub with
          | none => exact absurd (hz b' (by omega) (by omega)) (hs.none hsub b' (by omega))
          | some q =>
            obtain ⟨b1, e1⟩ := q
            have := (hs.zero b1 e1 hsub).1
            have := hs.most b1 e1 b' n' hsub hk hz
            rw [hsub] at hlt
            simp only [subLength] at hlt
            exact ⟨by omega, by omega⟩
        · exact ⟨by omega, by omega⟩
    · rename_i hlt
      cases hsub : sub with
      | none => rw [hsub] at hlt; simp only [subLength] at hlt; omega
      | some q =>
        obtain ⟨b1, e1⟩ := q
        rw [hsub] at hlt
        simp only [subLength] at hlt
        have z := hs.zero b1 e1 hsub
        refine ⟨(by intro h; cases h), ?_, ?_⟩
        · intro b' e' hh
          cases hh
          exact ⟨z.1, by omega, z.2.2⟩
        · intro b0 e0 b' n' hh hb hz
          cases hh
          rcases Nat.eq_zero_or_pos n' with rfl | hn
          · exact ⟨by omega, by omega⟩
          rcases side b' n' hn hb hz with hk | hk
          · exact hs.most b1 e1 b' n' hsub hk hz
          · exact ⟨by omega, by omega⟩

theorem zeroRun_chosen {a : Bytes} : ∀ (k : Nat) (sub cand : Option (Nat × Nat)), k ≤ 8 → Cand a cand (8 - k) → Chosen a sub (candStart cand (8 - k)) →
    Chosen a (zeroRun a k sub cand) 8 := by
  intro k
  induction k with
  | zero => intro sub cand _ hc hs; exact zeroRunEnd_chosen hc hs
  | succ k ih =>
    intro sub cand hk hc hs
    unfold zeroRun
    dsimp only
    have hi : 8 - k = 8 - (k + 1) + 1 := by omega
    split
    · rename_i hz
      rw [groupAt_eq] at hz
      cases cand with
      | none =>
        refine ih _ _ (by omega) ⟨(by intro h; cases h), ?_⟩ hs
        intro b e hh; cases hh
        refine ⟨by omega, by omega, fun j h3 h4 => ?_, fun hb => hc.none rfl hb⟩
        rw [show j = 8 - (k + 1) by omega]; exact hz
      | some p =>
        obtain ⟨b, e⟩ := p
        obtain ⟨h1, rfl, h2, h3⟩ := hc.some b e rfl
        refine ih _ _ (by omega) ⟨(by intro h; cases h), ?_⟩ hs
        intro b' e' hh; cases hh
        refine ⟨by omega, by omega, fun j h5 h6 => ?_, h3⟩
        by_cases hj : j < 8 - (k + 1)
        · exact h2 j h5 hj
        · rw [show j = 8 - (k + 1) by omega]; exact hz
    · rename_i hz
      rw [groupAt_eq] at hz
      have hz' : ∀ j, 8 - (k + 1) ≤ j → j < 8 - k → addrGroup a j ≠ 0 := by
        intro j h1 h2
        rw [show j = 8 - (k + 1) by omega]; exact hz
      refine ih _ _ (by omega) ⟨fun _ _ => by rw [hi]; exact hz, by intro b e h; cases h⟩ ?_
      have h := zeroRunEnd_chosen hc hs
      show Chosen a _ (8 - k)
      refine ⟨?_, ?_, ?_⟩
      · intro hn j hj
        by_cases h2 : j < 8 - (k + 1)
        · exact h.none hn j h2
        · exact hz' j (by omega) hj
      · intro b e hh
        have := h.zero b e hh
        exact ⟨this.1, by omega, this.2.2⟩
      · intro b e b' n' hh hb hzz
        rcases Nat.eq_zero_or_pos n' with rfl | hn
        · have := h.zero b e hh
          exact ⟨by omega, by omega⟩
        refine h.most b e b' n' hh ?_ hzz
        by_cases hbn : b' + n' ≤ 8 - (k + 1)
        · exact hbn
        · exact absurd (hzz (b' + n' - 1) (by omega) (by omega)) (hz' _ (by omega) (by omega))

theorem zeroRun_all (a : Bytes) : Chosen a (zeroRun a 8 none none) 8 :=
  zeroRun_chosen 8 none none (Nat.le_refl _) ⟨fun _ h => absurd h (by decide), by intro b e h; cases h⟩
    ⟨fun _ j hj => absurd hj (by simp [candStart]), (by intro b e h; cases h), (by intro b e b' n' h; cases h)⟩

/-- The chosen run is the last of the longest ones. -/
theorem zeroRun_last {a : Bytes} {b e : Nat} (h : zeroRun a 8 none none = some (b, e)) :
    LongestAt a b (e + 1 - b) ∧ b ≤ e ∧ e ≤ 7 ∧ ∀ b', LongestAt a b' (e + 1 - b) → b' ≤ b := by
  have hc := zeroRun_all a
  obtain ⟨h1, h2, h3⟩ := hc.zero b e h
  refine ⟨⟨by omega, ⟨by omega, fun i hb hi => h3 i hb (by omega)⟩, ?_⟩, h1, by omega, ?_⟩
  · intro b' n' hz
    exact (hc.most b e b' n' h hz.1 hz.2).1
  · intro b' hl
    exact (hc.most b e b' _ h hl.2.1.1 hl.2.1.2).2 rfl

theorem zeroRun_none {a : Bytes} (h : zeroRun a 8 none none = none) : ∀ i, i < 8 → addrGroup a i ≠ 0 := (zeroRun_all a).none h

theorem mapped_iff (a : Bytes) : (zeroRun a 8 none none = some (0, 4) ∧ groupAt a 5 = 0xffff) ↔ Mapped a := by
  rw [groupAt_eq]
  constructor
  · rintro ⟨h, h5⟩
    exact ⟨(zeroRun_last h).1.2.1, h5⟩
  · rintro ⟨h, h5⟩
    refine ⟨?_, h5⟩
    cases hz : zeroRun a 8 none none with
    | none => exact absurd (h.2 0 (by omega) (by omega)) (zeroRun_none hz 0 (by omega))
    | some p =>
      obtain ⟨b, e⟩ := p
      obtain ⟨⟨h0, h1, h2⟩, h3, h4, _⟩ := zeroRun_last hz
      have h6 := h2 0 5 h
      have hb5 : ¬ (b ≤ 5 ∧ 5 ≤ e) := by
        intro hh
        have := h1.2 5 (by omega) (by omega)
        omega
      have : b = 0 ∧ e = 4 := by omega
      rw [this.1, this.2]

end Fcgi.Model
