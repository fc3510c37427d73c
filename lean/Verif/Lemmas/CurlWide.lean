import Verif.Lemmas.CurlResp
/-! # Lemmas about UTF-8 -/
namespace Fcgi
open Fcgi.Model Fcgi.Spec

theorem cont_ofNat (n : Nat) (h : n < 64) : cont (UInt8.ofNat (0x80 + n)) = true := by
  simp only [cont, decide_eq_true_eq, UInt8.le_iff_toNat_le, UInt8.lt_iff_toNat_lt, UInt8.toNat_ofNat']
  simp; omega

theorem b8 (n : Nat) (h : n < 256) : (UInt8.ofNat n).toNat = n := by simp; omega

theorem c32 (c : UInt32) (n : Nat) (h : n = c.toNat) : UInt32.ofNat n = c := by subst h; simp

theorem utf8Decode1_encode (c : UInt32) (hc : isScalar c) (rest : Bytes) : utf8Decode1 (utf8Encode c.toNat ++ rest) = .char c (utf8Encode c.toNat).length := by
  have hs : c.toNat < 0xd800 ∨ 0xe000 ≤ c.toNat ∧ c.toNat < 0x110000 := by
    simpa [isScalar, UInt32.lt_iff_toNat_lt, UInt32.le_iff_toNat_le] using hc
  generalize hn : c.toNat = n at hs
  unfold utf8Encode
  have lt : ∀ a b : Nat, a < 256 → b < 256 → ((UInt8.ofNat a < UInt8.ofNat b) ↔ a < b) := by
    intro a b ha hb; rw [UInt8.lt_iff_toNat_lt, b8 _ ha, b8 _ hb]
  have eq : ∀ a b : Nat, a < 256 → b < 256 → ((UInt8.ofNat a = UInt8.ofNat b) ↔ a = b) := by
    intro a b ha hb; rw [← UInt8.toNat_inj, b8 _ ha, b8 _ hb]
  have ge : ∀ a b : Nat, a < 256 → b < 256 → ((UInt8.ofNat a ≥ UInt8.ofNat b) ↔ b ≤ a) := by
    intro a b ha hb; show UInt8.ofNat b ≤ UInt8.ofNat a ↔ _; rw [UInt8.le_iff_toNat_le, b8 _ ha, b8 _ hb]
  by_cases h1 : n < 0x80
  · rw [if_pos h1]
    simp only [List.cons_append, List.nil_append, utf8Decode1]
    rw [if_pos (show UInt8.ofNat n < (128 : UInt8) from (lt n 128 (by omega) (by omega)).2 (by omega))]
    simp only [List.length_cons, List.length_nil, Dec.char.injEq, and_true]
    rw [← UInt32.toNat_inj]; simp; omega
  · rw [if_neg h1]
    by_cases h2 : n < 0x800
    · rw [if_pos h2]
      simp only [List.cons_append, List.nil_append, utf8Decode1]
      rw [if_neg (fun h => by have := (lt (0xc0 + n / 64) 128 (by omega) (by omega)).1 h; omega),
        if_neg (fun h => by have := (lt (0xc0 + n / 64) 0xc2 (by omega) (by omega)).1 h; omega),
        if_pos (show UInt8.ofNat (0xc0 + n / 64) < (0xe0 : UInt8) from (lt (0xc0 + n / 64) 0xe0 (by omega) (by omega)).2 (by omega)), cont_ofNat _ (by omega), b8 _ (by omega), b8 _ (by omega)]
      simp only [if_true, List.length_cons, List.length_nil, Dec.char.injEq, and_true]
      exact c32 _ _ (by omega)
    · rw [if_neg h2]
      by_cases h3 : n < 0x10000
      · rw [if_pos h3]
        simp only [List.cons_append, List.nil_append, utf8Decode1]
        rw [if_neg (fun h => by have := (lt (0xe0 + n / 4096) 128 (by omega) (by omega)).1 h; omega),
          if_neg (fun h => by have := (lt (0xe0 + n / 4096) 0xc2 (by omega) (by omega)).1 h; omega),
          if_neg (fun h => by have := (lt (0xe0 + n / 4096) 0xe0 (by omega) (by omega)).1 h; omega),
          if_pos (show UInt8.ofNat (0xe0 + n / 4096) < (0xf0 : UInt8) from (lt (0xe0 + n / 4096) 0xf0 (by omega) (by omega)).2 (by omega)), cont_ofNat _ (by omega), cont_ofNat _ (by omega)]
        rw [if_neg (by
          simp only [Bool.not_true, Bool.false_or, Bool.or_eq_true, Bool.and_eq_true, decide_eq_true_eq]
          rintro (⟨h, h'⟩ | ⟨h, h'⟩)
          · have := (eq (0xe0 + n / 4096) 0xe0 (by omega) (by omega)).1 h
            have := (lt (0x80 + n / 64 % 64) 0xa0 (by omega) (by omega)).1 h'
            omega
          · have := (eq (0xe0 + n / 4096) 0xed (by omega) (by omega)).1 h
            have := (ge (0x80 + n / 64 % 64) 0xa0 (by omega) (by omega)).1 h'
            omega)]
        rw [b8 _ (by omega), b8 _ (by omega), b8 _ (by omega)]
        simp only [if_true, List.length_cons, List.length_nil, Dec.char.injEq, and_true]
        exact c32 _ _ (by omega)
      · rw [if_neg h3]
        simp only [List.cons_append, List.nil_append, utf8Decode1]
        rw [if_neg (fun h => by have := (lt (0xf0 + n / 262144) 128 (by omega) (by omega)).1 h; omega),
          if_neg (fun h => by have := (lt (0xf0 + n / 262144) 0xc2 (by omega) (by omega)).1 h; omega),
          if_neg (fun h => by have := (lt (0xf0 + n / 262144) 0xe0 (by omega) (by omega)).1 h; omega),
          if_neg (fun h => by have := (lt (0xf0 + n / 262144) 0xf0 (by omega) (by omega)).1 h; omega),
          if_pos (show UInt8.ofNat (0xf0 + n / 262144) < (0xf5 : UInt8) from (lt (0xf0 + n / 262144) 0xf5 (by omega) (by omega)).2 (by omega)), cont_ofNat _ (by omega), cont_ofNat _ (by omega), cont_ofNat _ (by omega)]
        rw [if_neg (by
          simp only [Bool.not_true, Bool.false_or, Bool.or_eq_true, Bool.and_eq_true, decide_eq_true_eq]
          rintro (⟨h, h'⟩ | ⟨h, h'⟩)
          · have := (eq (0xf0 + n / 262144) 0xf0 (by omega) (by omega)).1 h
            have := (lt (0x80 + n / 4096 % 64) 0x90 (by omega) (by omega)).1 h'
            omega
          · have := (eq (0xf0 + n / 262144) 0xf4 (by omega) (by omega)).1 h
            have := (ge (0x80 + n / 4096 % 64) 0x90 (by omega) (by omega)).1 h'
            omega)]
        rw [b8 _ (by omega), b8 _ (by omega), b8 _ (by omega), b8 _ (by omega)]
        simp only [Bool.not_true, Bool.false_eq_true, if_false, if_true, List.length_cons, List.length_nil, Dec.char.injEq, and_true]
        exact c32 _ _ (by omega)

theorem utf8Decode1_len {d : Bytes} {c : UInt32} {n : Nat} (h : utf8Decode1 d = .char c n) : 1 ≤ n ∧ n ≤ d.length := by
  unfold utf8Decode1 at h
  repeat' split at h
  all_goals first
    | (simp only [reduceCtorEq] at h)
    | (injection h with _ h; subst h; simp)

theorem utf8Loop_cons (fuel : Nat) (b : Byte) (rest : Bytes) : utf8Loop (fuel + 1) (b :: rest) = match utf8Decode1 (b :: rest) with
    | .incomplete => ([], 0, false)
    | .invalid => ([], 0, true)
    | .char c len => (c :: (utf8Loop fuel ((b :: rest).drop len)).1, len + (utf8Loop fuel ((b :: rest).drop len)).2.1, (utf8Loop fuel ((b :: rest).drop len)).2.2) := rfl

theorem utf8Loop_le : ∀ (fuel : Nat) (d : Bytes), (utf8Loop fuel d).1.length ≤ d.length ∧ (utf8Loop fuel d).2.1 ≤ d.length := by
  intro fuel
  induction fuel with
  | zero => intro d; simp [utf8Loop]
  | succ fuel ih =>
    intro d
    cases d with
    | nil => simp [utf8Loop]
    | cons b rest =>
      unfold utf8Loop
      cases hd : utf8Decode1 (b :: rest) with
      | incomplete => simp
      | invalid => simp
      | char c n =>
        have := utf8Decode1_len hd
        have hi := ih ((b :: rest).drop n)
        rw [List.length_drop] at hi
        dsimp only
        generalize utf8Loop fuel ((b :: rest).drop n) = y at *
        simp only [List.length_cons] at *
        omega

theorem utf8In_le (d : Bytes) : (utf8In d).1.length ≤ d.length := (utf8Loop_le _ _).1

theorem utf8Encode_pos (n : Nat) : 1 ≤ (utf8Encode n).length := by
  unfold utf8Encode
  repeat' split
  all_goals simp

/-- Text followed by something. -/
theorem utf8Loop_text (rest : Bytes) : ∀ (t : List UInt32) (fuel : Nat), (∀ c ∈ t, isScalar c) → (utf8Text t).length + rest.length ≤ fuel →
    ∃ fuel', rest.length ≤ fuel' ∧ utf8Loop fuel (utf8Text t ++ rest) =
      (t ++ (utf8Loop fuel' rest).1, (utf8Text t).length + (utf8Loop fuel' rest).2.1, (utf8Loop fuel' rest).2.2) := by
  intro t
  induction t with
  | nil => intro fuel _ hf; exact ⟨fuel, by simpa [utf8Text] using hf, by simp [utf8Text]⟩
  | cons c t ih =>
    intro fuel ht hf
    have hu : utf8Text (c :: t) = utf8Encode c.toNat ++ utf8Text t := rfl
    have hp := utf8Encode_pos c.toNat
    rw [hu, List.length_append] at hf
    cases fuel with
    | zero => omega
    | succ fuel =>
      obtain ⟨fuel', e1, e2⟩ := ih fuel (fun d hd => ht d (by simp [hd])) (by omega)
      refine ⟨fuel', e1, ?_⟩
      rw [hu, List.append_assoc]
      have hdec := utf8Decode1_encode c (ht c (by simp)) (utf8Text t ++ rest)
      have hdrop : (utf8Encode c.toNat ++ (utf8Text t ++ rest)).drop (utf8Encode c.toNat).length = utf8Text t ++ rest := by simp
      generalize hd : utf8Encode c.toNat ++ (utf8Text t ++ rest) = d at hdec hdrop
      cases d with
      | nil => have := congrArg List.length hd; simp only [List.length_append, List.length_nil] at this; omega
      | cons b d =>
        rw [utf8Loop_cons, hdec]
        dsimp only
        rw [hdrop, e2]
        simp only [List.cons_append, List.length_append, Nat.add_assoc]

theorem utf8Loop_nil (fuel : Nat) : utf8Loop fuel [] = ([], 0, false) := by cases fuel <;> rfl

theorem utf8In_text (t : List UInt32) (ht : ∀ c ∈ t, isScalar c) : utf8In (utf8Text t) = (t, (utf8Text t).length, false) := by
  obtain ⟨fuel', _, e⟩ := utf8Loop_text [] t (utf8Text t).length ht (by simp)
  unfold utf8In
  rw [List.append_nil] at e
  rw [e]; simp [utf8Loop_nil]

theorem utf8Encode_ascii (b : Byte) (h : b < 128) : utf8Encode b.toUInt32.toNat = [b] ∧ isScalar b.toUInt32 := by
  have hb : b.toNat < 128 := by simpa [UInt8.lt_iff_toNat_lt] using h
  refine ⟨?_, ?_⟩
  · unfold utf8Encode; rw [if_pos (by simp; omega)]; simp
  · left; rw [UInt32.lt_iff_toNat_lt]; simp; omega

theorem utf8All_ascii (t : Bytes) (h : ∀ b ∈ t, b < 128) : utf8All t = some (t.map UInt8.toUInt32) := by
  have ht : utf8Text (t.map UInt8.toUInt32) = t := by
    induction t with
    | nil => rfl
    | cons b t ih =>
      have := ih fun x hx => h x (by simp [hx])
      simp only [utf8Text, List.map_cons, List.flatMap_cons] at *
      rw [this, (utf8Encode_ascii b (h b (by simp))).1]; rfl
  have := utf8In_text (t.map UInt8.toUInt32) (by
    intro c hc; obtain ⟨b, hb, rfl⟩ := List.mem_map.1 hc; exact (utf8Encode_ascii b (h b hb)).2)
  rw [ht] at this
  unfold utf8All; rw [this]; simp

/-- A character cut short. -/
theorem utf8Decode1_cut (c : UInt32) (hc : isScalar c) (p : Bytes) (hp : p <+: utf8Encode c.toNat) (hl : p.length < (utf8Encode c.toNat).length) :
    utf8Decode1 p = .incomplete := by
  have hs : c.toNat < 0xd800 ∨ 0xe000 ≤ c.toNat ∧ c.toNat < 0x110000 := by
    simpa [isScalar, UInt32.lt_iff_toNat_lt, UInt32.le_iff_toNat_le] using hc
  obtain ⟨q, hq⟩ := hp
  generalize hn : c.toNat = n at hs hq hl
  have lt : ∀ a b : Nat, a < 256 → b < 256 → ((UInt8.ofNat a < UInt8.ofNat b) ↔ a < b) := by
    intro a b ha hb; rw [UInt8.lt_iff_toNat_lt, b8 _ ha, b8 _ hb]
  have eq : ∀ a b : Nat, a < 256 → b < 256 → ((UInt8.ofNat a = UInt8.ofNat b) ↔ a = b) := by
    intro a b ha hb; rw [← UInt8.toNat_inj, b8 _ ha, b8 _ hb]
  have ge : ∀ a b : Nat, a < 256 → b < 256 → ((UInt8.ofNat a ≥ UInt8.ofNat b) ↔ b ≤ a) := by
    intro a b ha hb; show UInt8.ofNat b ≤ UInt8.ofNat a ↔ _; rw [UInt8.le_iff_toNat_le, b8 _ ha, b8 _ hb]
  unfold utf8Encode at hq hl
  cases p with
  | nil => rfl
  | cons x p =>
    by_cases h1 : n < 0x80
    · rw [if_pos h1] at hl; simp at hl
    · rw [if_neg h1] at hq hl
      by_cases h2 : n < 0x800
      · rw [if_pos h2] at hq hl
        simp only [List.length_cons, List.length_nil] at hl
        cases p with
        | cons y p => simp at hl; omega
        | nil =>
          simp only [List.cons_append, List.nil_append, List.cons.injEq] at hq
          obtain ⟨rfl, _⟩ := hq
          simp only [utf8Decode1]
          rw [if_neg (fun h => by have := (lt (0xc0 + n / 64) 128 (by omega) (by omega)).1 h; omega),
            if_neg (fun h => by have := (lt (0xc0 + n / 64) 0xc2 (by omega) (by omega)).1 h; omega),
            if_pos (show UInt8.ofNat (0xc0 + n / 64) < (0xe0 : UInt8) from (lt (0xc0 + n / 64) 0xe0 (by omega) (by omega)).2 (by omega))]
      · rw [if_neg h2] at hq hl
        by_cases h3 : n < 0x10000
        · rw [if_pos h3] at hq hl
          have hx : x = UInt8.ofNat (0xe0 + n / 4096) := by simp only [List.cons_append, List.cons.injEq] at hq; exact hq.1
          have hif : ∀ r, utf8Decode1 (x :: r) = (match r with
              | [] => .incomplete
              | b2 :: rest => if !cont b2 || (x = 0xe0 && b2 < 0xa0) || (x = 0xed && b2 ≥ 0xa0) then .invalid else match rest with
                | [] => .incomplete
                | b3 :: _ => if cont b3 then .char (UInt32.ofNat ((x.toNat - 0xe0) * 4096 + (b2.toNat - 0x80) * 64 + (b3.toNat - 0x80))) 3 else .invalid) := by
            intro r
            simp only [utf8Decode1]
            rw [hx, if_neg (fun h => by have := (lt (0xe0 + n / 4096) 128 (by omega) (by omega)).1 h; omega),
              if_neg (fun h => by have := (lt (0xe0 + n / 4096) 0xc2 (by omega) (by omega)).1 h; omega),
              if_neg (fun h => by have := (lt (0xe0 + n / 4096) 0xe0 (by omega) (by omega)).1 h; omega),
              if_pos (show UInt8.ofNat (0xe0 + n / 4096) < (0xf0 : UInt8) from (lt (0xe0 + n / 4096) 0xf0 (by omega) (by omega)).2 (by omega))]
            cases r with
            | nil => rfl
            | cons y r => rfl
          rw [hif]
          cases p with
          | nil => rfl
          | cons y p =>
            cases p with
            | cons z p => simp at hl; omega
            | nil =>
              have hy : y = UInt8.ofNat (0x80 + n / 64 % 64) := by simp only [List.cons_append, List.cons.injEq] at hq; exact hq.2.1
              dsimp only
              rw [hx, hy, cont_ofNat _ (by omega)]
              rw [if_neg (by
                simp only [Bool.not_true, Bool.false_or, Bool.or_eq_true, Bool.and_eq_true, decide_eq_true_eq]
                rintro (⟨h, h'⟩ | ⟨h, h'⟩)
                · have := (eq (0xe0 + n / 4096) 0xe0 (by omega) (by omega)).1 h
                  have := (lt (0x80 + n / 64 % 64) 0xa0 (by omega) (by omega)).1 h'
                  omega
                · have := (eq (0xe0 + n / 4096) 0xed (by omega) (by omega)).1 h
                  have := (ge (0x80 + n / 64 % 64) 0xa0 (by omega) (by omega)).1 h'
                  omega)]
        · rw [if_neg h3] at hq hl
          have hx : x = UInt8.ofNat (0xf0 + n / 262144) := by simp only [List.cons_append, List.cons.injEq] at hq; exact hq.1
          have hif : ∀ r, utf8Decode1 (x :: r) = (match r with
              | [] => .incomplete
              | b2 :: rest => if !cont b2 || (x = 0xf0 && b2 < 0x90) || (x = 0xf4 && b2 ≥ 0x90) then .invalid else match rest with
                | [] => .incomplete
                | b3 :: rest => if !cont b3 then .invalid else match rest with
                  | [] => .incomplete
                  | b4 :: _ =>
                    if cont b4 then .char (UInt32.ofNat ((x.toNat - 0xf0) * 262144 + (b2.toNat - 0x80) * 4096 + (b3.toNat - 0x80) * 64 + (b4.toNat - 0x80))) 4
                    else .invalid) := by
            intro r
            simp only [utf8Decode1]
            rw [hx, if_neg (fun h => by have := (lt (0xf0 + n / 262144) 128 (by omega) (by omega)).1 h; omega),
              if_neg (fun h => by have := (lt (0xf0 + n / 262144) 0xc2 (by omega) (by omega)).1 h; omega),
              if_neg (fun h => by have := (lt (0xf0 + n / 262144) 0xe0 (by omega) (by omega)).1 h; omega),
              if_neg (fun h => by have := (lt (0xf0 + n / 262144) 0xf0 (by omega) (by omega)).1 h; omega),
              if_pos (show UInt8.ofNat (0xf0 + n / 262144) < (0xf5 : UInt8) from (lt (0xf0 + n / 262144) 0xf5 (by omega) (by omega)).2 (by omega))]
            cases r with
            | nil => rfl
            | cons y r => rfl
          rw [hif]
          cases p with
          | nil => rfl
          | cons y p =>
            have hy : y = UInt8.ofNat (0x80 + n / 4096 % 64) := by simp only [List.cons_append, List.cons.injEq] at hq; exact hq.2.1
            dsimp only
            rw [hx, hy, cont_ofNat _ (by omega)]
            rw [if_neg (by
              simp only [Bool.not_true, Bool.false_or, Bool.or_eq_true, Bool.and_eq_true, decide_eq_true_eq]
              rintro (⟨h, h'⟩ | ⟨h, h'⟩)
              · have := (eq (0xf0 + n / 262144) 0xf0 (by omega) (by omega)).1 h
                have := (lt (0x80 + n / 4096 % 64) 0x90 (by omega) (by omega)).1 h'
                omega
              · have := (eq (0xf0 + n / 262144) 0xf4 (by omega) (by omega)).1 h
                have := (ge (0x80 + n / 4096 % 64) 0x90 (by omega) (by omega)).1 h'
                omega)]
            cases p with
            | nil => rfl
            | cons z p =>
              have hz : z = UInt8.ofNat (0x80 + n / 64 % 64) := by simp only [List.cons_append, List.cons.injEq] at hq; exact hq.2.2.1
              cases p with
              | cons w p => simp at hl; omega
              | nil => dsimp only; rw [hz, cont_ofNat _ (by omega)]; rfl

theorem utf8In_cut (t : List UInt32) (ht : ∀ c ∈ t, isScalar c) (c : UInt32) (hc : isScalar c) (p : Bytes) (hp : p <+: utf8Encode c.toNat)
    (hl : p.length < (utf8Encode c.toNat).length) : utf8In (utf8Text t ++ p) = (t, (utf8Text t).length, false) := by
  obtain ⟨fuel', e1, e⟩ := utf8Loop_text p t (utf8Text t ++ p).length ht (by simp)
  unfold utf8In
  rw [e]
  have : utf8Loop fuel' p = ([], 0, false) := by
    cases p with
    | nil => exact utf8Loop_nil _
    | cons x p =>
      cases fuel' with
      | zero => rfl
      | succ n => unfold utf8Loop; rw [utf8Decode1_cut c hc _ hp hl]
  simp [this]

theorem utf8In_invalid (t : List UInt32) (ht : ∀ c ∈ t, isScalar c) (bad : Bytes) (hb : utf8Decode1 bad = .invalid) :
    utf8In (utf8Text t ++ bad) = (t, (utf8Text t).length, true) := by
  obtain ⟨fuel', e1, e⟩ := utf8Loop_text bad t (utf8Text t ++ bad).length ht (by simp)
  unfold utf8In
  rw [e]
  have : utf8Loop fuel' bad = ([], 0, true) := by
    cases bad with
    | nil => exact absurd hb (by decide)
    | cons x p =>
      cases fuel' with
      | zero => simp at e1
      | succ n => unfold utf8Loop; rw [hb]
  simp [this]

end Fcgi
