import Verif.Lemmas.CurlWide
import Verif.Spec.HttpWide
/-! # What the UTF-8 conversion makes of any bytes -/
namespace Fcgi
open Fcgi.Model Fcgi.Spec

theorem scalar_ofNat (n : Nat) (h : n < 0xd800 ∨ 0xe000 ≤ n ∧ n < 0x110000) : isScalar (UInt32.ofNat n) ∧ (UInt32.ofNat n).toNat = n := by
  have e : (UInt32.ofNat n).toNat = n := by simp; omega
  refine ⟨?_, e⟩
  simp only [isScalar, UInt32.lt_iff_toNat_lt, UInt32.le_iff_toNat_le, e]
  simpa using h

theorem of_b8 (b : UInt8) (n : Nat) (h : n = b.toNat) : UInt8.ofNat n = b := by subst h; simp

theorem cont_nat {b : UInt8} (h : cont b = true) : 0x80 ≤ b.toNat ∧ b.toNat < 0xc0 := by
  simpa [cont, UInt8.le_iff_toNat_le, UInt8.lt_iff_toNat_lt] using h

theorem utf8Decode1_sound {d : Bytes} {c : UInt32} {n : Nat} (h : utf8Decode1 d = .char c n) :
    isScalar c ∧ d.take n = utf8Encode c.toNat := by
  cases d with
  | nil => simp [utf8Decode1] at h
  | cons b1 rest =>
    have l1 := b1.toNat_lt
    simp only [utf8Decode1] at h
    by_cases c1 : b1 < 0x80
    · rw [if_pos c1] at h
      injection h with e1 e2
      subst e1; subst e2
      have hb := utf8Encode_ascii b1 c1
      exact ⟨hb.2, by rw [hb.1]; rfl⟩
    rw [if_neg c1] at h
    by_cases c2 : b1 < 0xc2
    · rw [if_pos c2] at h; cases h
    rw [if_neg c2] at h
    by_cases c3 : b1 < 0xe0
    · rw [if_pos c3] at h
      cases rest with
      | nil => cases h
      | cons b2 rest =>
        dsimp only at h
        split at h
        · rename_i hc
          have hc := cont_nat hc
          injection h with e1 e2
          subst e1; subst e2
          simp only [UInt8.lt_iff_toNat_lt] at c1 c2 c3
          simp at c1 c2 c3
          obtain ⟨s1, s2⟩ := scalar_ofNat ((b1.toNat - 0xc0) * 64 + (b2.toNat - 0x80)) (by omega)
          refine ⟨s1, ?_⟩
          rw [s2]
          unfold utf8Encode
          rw [if_neg (by omega), if_pos (by omega), of_b8 b1 _ (by omega), of_b8 b2 _ (by omega)]
          rfl
        · cases h
    rw [if_neg c3] at h
    by_cases c4 : b1 < 0xf0
    · rw [if_pos c4] at h
      cases rest with
      | nil => cases h
      | cons b2 rest =>
        dsimp only at h
        split at h
        · cases h
        rename_i hb2
        simp only [Bool.or_eq_true, Bool.and_eq_true, decide_eq_true_eq, Bool.not_eq_true', not_or, not_and, Bool.not_eq_false,
          UInt8.lt_iff_toNat_lt, ge_iff_le, UInt8.le_iff_toNat_le, ← UInt8.toNat_inj] at hb2
        obtain ⟨⟨hk2, hx⟩, hy⟩ := hb2
        have hk2 := cont_nat hk2
        cases rest with
        | nil => cases h
        | cons b3 rest =>
          dsimp only at h
          split at h
          · rename_i hc
            have hc := cont_nat hc
            injection h with e1 e2
            subst e1; subst e2
            simp only [UInt8.lt_iff_toNat_lt] at c1 c2 c3 c4
            simp at c1 c2 c3 c4 hx hy
            obtain ⟨s1, s2⟩ := scalar_ofNat ((b1.toNat - 0xe0) * 4096 + (b2.toNat - 0x80) * 64 + (b3.toNat - 0x80)) (by omega)
            refine ⟨s1, ?_⟩
            rw [s2]
            unfold utf8Encode
            rw [if_neg (by omega), if_neg (by omega), if_pos (by omega), of_b8 b1 _ (by omega), of_b8 b2 _ (by omega), of_b8 b3 _ (by omega)]
            rfl
          · cases h
    rw [if_neg c4] at h
    by_cases c5 : b1 < 0xf5
    · rw [if_pos c5] at h
      cases rest with
      | nil => cases h
      | cons b2 rest =>
        dsimp only at h
        split at h
        · cases h
        rename_i hb2
        simp only [Bool.or_eq_true, Bool.and_eq_true, decide_eq_true_eq, Bool.not_eq_true', not_or, not_and, Bool.not_eq_false,
          UInt8.lt_iff_toNat_lt, ge_iff_le, UInt8.le_iff_toNat_le, ← UInt8.toNat_inj] at hb2
        obtain ⟨⟨hk2, hx⟩, hy⟩ := hb2
        have hk2 := cont_nat hk2
        cases rest with
        | nil => cases h
        | cons b3 rest =>
          dsimp only at h
          split at h
          · cases h
          rename_i hk3
          simp only [Bool.not_eq_true', Bool.not_eq_false] at hk3
          have hk3 := cont_nat hk3
          cases rest with
          | nil => cases h
          | cons b4 rest =>
            dsimp only at h
            split at h
            · rename_i hc
              have hc := cont_nat hc
              injection h with e1 e2
              subst e1; subst e2
              simp only [UInt8.lt_iff_toNat_lt] at c1 c2 c3 c4 c5
              simp at c1 c2 c3 c4 c5 hx hy
              obtain ⟨s1, s2⟩ := scalar_ofNat ((b1.toNat - 0xf0) * 262144 + (b2.toNat - 0x80) * 4096 + (b3.toNat - 0x80) * 64 + (b4.toNat - 0x80)) (by omega)
              refine ⟨s1, ?_⟩
              rw [s2]
              unfold utf8Encode
              rw [if_neg (by omega), if_neg (by omega), if_neg (by omega), of_b8 b1 _ (by omega), of_b8 b2 _ (by omega), of_b8 b3 _ (by omega),
                of_b8 b4 _ (by omega)]
              rfl
            · cases h
    rw [if_neg c5] at h
    cases h

/-- An incomplete character can be completed. -/
theorem utf8Decode1_complete {d : Bytes} (h : utf8Decode1 d = .incomplete) :
    ∃ ext c, ext ≠ [] ∧ utf8Decode1 (d ++ ext) = .char c (d.length + ext.length) := by
  have k8 : cont 0x80 = true := by decide
  have ka : cont 0xa0 = true := by decide
  have k9 : cont 0x90 = true := by decide
  cases d with
  | nil => exact ⟨[0x41], 0x41, by simp, by decide⟩
  | cons b1 rest =>
    simp only [utf8Decode1] at h
    by_cases c1 : b1 < 0x80
    · rw [if_pos c1] at h; cases h
    rw [if_neg c1] at h
    by_cases c2 : b1 < 0xc2
    · rw [if_pos c2] at h; cases h
    rw [if_neg c2] at h
    by_cases c3 : b1 < 0xe0
    · rw [if_pos c3] at h
      cases rest with
      | nil => exact ⟨[0x80], _, by simp, by simp only [List.cons_append, List.nil_append, utf8Decode1]; rw [if_neg c1, if_neg c2, if_pos c3, k8]; rfl⟩
      | cons b2 rest => dsimp only at h; split at h <;> cases h
    rw [if_neg c3] at h
    by_cases c4 : b1 < 0xf0
    · rw [if_pos c4] at h
      cases rest with
      | nil =>
        by_cases he : b1 = 0xe0
        · subst he
          exact ⟨[0xa0, 0x80], _, by simp, rfl⟩
        · refine ⟨[0x80, 0x80], UInt32.ofNat ((b1.toNat - 0xe0) * 4096 + ((0x80 : UInt8).toNat - 0x80) * 64 + ((0x80 : UInt8).toNat - 0x80)), by simp, ?_⟩
          simp only [List.cons_append, List.nil_append, utf8Decode1]
          rw [if_neg c1, if_neg c2, if_neg c3, if_pos c4, k8, if_neg (by simp [he])]
          rfl
      | cons b2 rest =>
        dsimp only at h
        split at h
        · cases h
        rename_i hb
        cases rest with
        | nil =>
          refine ⟨[0x80], UInt32.ofNat ((b1.toNat - 0xe0) * 4096 + (b2.toNat - 0x80) * 64 + ((0x80 : UInt8).toNat - 0x80)), by simp, ?_⟩
          simp only [List.cons_append, List.nil_append, utf8Decode1]
          rw [if_neg c1, if_neg c2, if_neg c3, if_pos c4, if_neg hb, k8]
          rfl
        | cons b3 rest => dsimp only at h; split at h <;> cases h
    rw [if_neg c4] at h
    by_cases c5 : b1 < 0xf5
    · rw [if_pos c5] at h
      cases rest with
      | nil =>
        by_cases he : b1 = 0xf0
        · subst he
          exact ⟨[0x90, 0x80, 0x80], _, by simp, rfl⟩
        · refine ⟨[0x80, 0x80, 0x80], UInt32.ofNat ((b1.toNat - 0xf0) * 262144 + ((0x80 : UInt8).toNat - 0x80) * 4096 + ((0x80 : UInt8).toNat - 0x80) * 64 + ((0x80 : UInt8).toNat - 0x80)), by simp, ?_⟩
          simp only [List.cons_append, List.nil_append, utf8Decode1]
          rw [if_neg c1, if_neg c2, if_neg c3, if_neg c4, if_pos c5, k8, if_neg (by simp [he])]
          rfl
      | cons b2 rest =>
        dsimp only at h
        split at h
        · cases h
        rename_i hb
        cases rest with
        | nil =>
          refine ⟨[0x80, 0x80], UInt32.ofNat ((b1.toNat - 0xf0) * 262144 + (b2.toNat - 0x80) * 4096 + ((0x80 : UInt8).toNat - 0x80) * 64 + ((0x80 : UInt8).toNat - 0x80)), by simp, ?_⟩
          simp only [List.cons_append, List.nil_append, utf8Decode1]
          rw [if_neg c1, if_neg c2, if_neg c3, if_neg c4, if_pos c5, if_neg hb, k8]
          rfl
        | cons b3 rest =>
          dsimp only at h
          split at h
          · cases h
          rename_i hb3
          cases rest with
          | nil =>
            refine ⟨[0x80], UInt32.ofNat ((b1.toNat - 0xf0) * 262144 + (b2.toNat - 0x80) * 4096 + (b3.toNat - 0x80) * 64 + ((0x80 : UInt8).toNat - 0x80)), by simp, ?_⟩
            simp only [List.cons_append, List.nil_append, utf8Decode1]
            rw [if_neg c1, if_neg c2, if_neg c3, if_neg c4, if_pos c5, if_neg hb, if_neg hb3, k8]
            rfl
          | cons b4 rest => dsimp only at h; split at h <;> cases h
    rw [if_neg c5] at h
    cases h

theorem utf8Decode1_incomplete {d : Bytes} (h : utf8Decode1 d = .incomplete) : Cut d := by
  obtain ⟨ext, c, hne, he⟩ := utf8Decode1_complete h
  obtain ⟨hs, ht⟩ := utf8Decode1_sound he
  rw [List.take_of_length_le (by simp)] at ht
  refine ⟨c, hs, ⟨ext, ht⟩, ?_⟩
  rw [← ht]
  have : 0 < ext.length := List.length_pos_iff.2 hne
  simp; omega

theorem cut_nil : Cut [] := ⟨0x41, Or.inl (by decide), List.nil_prefix, by decide⟩

theorem utf8Loop_sound : ∀ (fuel : Nat) (d : Bytes), d.length ≤ fuel → (utf8Loop fuel d).2.2 = false → Utf8Of d (utf8Loop fuel d).1 := by
  intro fuel
  induction fuel with
  | zero =>
    intro d hd _
    have : d = [] := List.length_eq_zero_iff.1 (by omega)
    subst this
    exact ⟨fun _ h => by simp [utf8Loop] at h, [], cut_nil, rfl⟩
  | succ fuel ih =>
    intro d hd hf
    cases d with
    | nil => exact ⟨fun _ h => by simp [utf8Loop] at h, [], cut_nil, rfl⟩
    | cons b rest =>
      rw [utf8Loop_cons] at hf ⊢
      cases hx : utf8Decode1 (b :: rest) with
      | incomplete => exact ⟨fun _ h => by simp at h, b :: rest, utf8Decode1_incomplete hx, rfl⟩
      | invalid => rw [hx] at hf; cases hf
      | char c n =>
        rw [hx] at hf
        dsimp only at hf ⊢
        obtain ⟨l1, l2⟩ := utf8Decode1_len hx
        obtain ⟨s1, s2⟩ := utf8Decode1_sound hx
        obtain ⟨ht, p, hp, e⟩ := ih ((b :: rest).drop n) (by simp at hd ⊢; omega) hf
        refine ⟨?_, p, hp, ?_⟩
        · intro x hx
          rcases List.mem_cons.1 hx with rfl | hx
          · exact s1
          · exact ht x hx
        · have : b :: rest = (b :: rest).take n ++ (b :: rest).drop n := (List.take_append_drop _ _).symm
          have e2 : utf8Text (c :: (utf8Loop fuel ((b :: rest).drop n)).1) = utf8Encode c.toNat ++ utf8Text (utf8Loop fuel ((b :: rest).drop n)).1 := by
            simp [utf8Text]
          rw [e2, List.append_assoc, ← e, ← s2]
          exact this

theorem utf8All_iff (b : Bytes) (t : List UInt32) : utf8All b = some t ↔ Utf8Of b t := by
  constructor
  · intro h
    unfold utf8All at h
    dsimp only at h
    split at h
    · cases h
    · rename_i hf
      injection h with h
      subst h
      exact utf8Loop_sound _ _ (Nat.le_refl _) ((Bool.not_eq_true _).mp hf)
  · rintro ⟨ht, p, ⟨c, hc, hp, hl⟩, rfl⟩
    unfold utf8All
    rw [utf8In_cut t ht c hc p hp hl]
    rfl

theorem shows_vec (v : Bytes) (old : WText) : Shows old v (vecToStringW v old) := by
  unfold vecToStringW
  cases h : utf8All v with
  | some t => exact .inl ((utf8All_iff _ _).1 h)
  | none => exact .inr ⟨(fun t ht => nomatch ((utf8All_iff _ _).2 ht).symm.trans h), rfl⟩

theorem shows_fun {old : WText} {v : Bytes} {w : WText} (h : Shows old v w) : w = vecToStringW v old := by
  unfold vecToStringW
  rcases h with h | ⟨h, rfl⟩
  · rw [(utf8All_iff _ _).2 h]; rfl
  · cases e : utf8All v with
    | none => rfl
    | some t => exact absurd ((utf8All_iff _ _).1 e) (h t)

end Fcgi
