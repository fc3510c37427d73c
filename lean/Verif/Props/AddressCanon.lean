import Verif.Lemmas.AddressCanon
/-! # C122: the text of an address is the canonical one -/
namespace Fcgi.Props
open Fcgi Fcgi.Model Fcgi.Spec

theorem printBuffer_mapped {f : NumFmt} {a : Bytes} (hf : f.untouched) (ha : a.length = 16) (hm : Mapped a) :
    printBuffer f a = .ok (b!"::ffff:" ++ [46].intercalate ((a.drop 12).map fun x => digitsOf 10 x.toNat)) := by
  have h12 := drop_two (a := a) (i := 6) (by omega)
  have h14 := drop_two (a := a) (i := 7) (by omega)
  have h16 : a.drop 16 = [] := List.drop_eq_nil_of_le (by omega)
  simp only [Nat.reduceAdd, Nat.reduceMul] at h12 h14
  rw [h16] at h14
  rw [h14] at h12
  unfold printBuffer
  rw [if_pos ((mapped_iff a).2 hm), h12]
  generalize a.getD 12 0 = x1 at *
  generalize a.getD 13 0 = x2 at *
  generalize a.getD 14 0 = x3 at *
  generalize a.getD 15 0 = x4 at *
  have l1 := (numText_octet f x1).2
  have l2 := (numText_octet f x2).2
  have l3 := (numText_octet f x3).2
  have l4 := (numText_octet f x4).2
  have hF : numText f true 0xffff = b!"ffff" := by
    rw [numText_eq hf (by omega)]; decide
  have p : ∀ (o s : Bytes), o.length + s.length ≤ 40 → putBuf o s = .ok (o ++ s) := fun o s hh => by unfold putBuf; rw [if_pos hh]
  rw [hF]
  rw [p _ _ (by simp)]; simp only [Res.ok_bind]
  rw [p _ _ (by simp)]; simp only [Res.ok_bind]
  rw [p _ _ (by simp)]; simp only [Res.ok_bind]
  rw [p _ _ (by simp)]; simp only [Res.ok_bind]
  rw [printOctets_ok hf.1 _ _ (by simp)]
  simp only [Res.ok_bind, Res.pure_eq, List.append_nil, List.cons_append, List.nil_append, List.flatMap_cons, List.flatMap_nil, List.map_cons,
    List.map_nil, numText_dec hf]
  congr 1
  generalize digitsOf 10 x1.toNat = t1
  generalize digitsOf 10 x2.toNat = t2
  generalize digitsOf 10 x3.toNat = t3
  generalize digitsOf 10 x4.toNat = t4
  have e : [(46 : Byte)].intercalate [t1, t2, t3, t4] = t1 ++ 46 :: (t2 ++ 46 :: (t3 ++ 46 :: t4)) := by
    simp [List.intercalate, List.intersperse]
  rw [e]
  have e2 : ∀ x : Bytes, x ++ (t1 ++ [46] ++ (t2 ++ [46] ++ (t3 ++ [46] ++ (t4 ++ [46])))) = (x ++ (t1 ++ 46 :: (t2 ++ 46 :: (t3 ++ 46 :: t4)))) ++ [46] := by
    intro x; simp
  have e' := fun x => congrArg List.dropLast (e2 x)
  simp only [List.dropLast_concat] at e'
  simpa using e' b!"::ffff:"

/-- The text of an address, on a stream nobody has touched.  IPv4 addresses as dotted numbers after `::ffff:`; others in groups without leading
zeroes and in small letters; if there is a zero group, the last of the longest runs of zeroes is replaced by `::`. -/
theorem C122_text (f : NumFmt) (left : Bool) (fill : Byte) (a : Bytes) (hs : f.showbase = false) (hg : f.sep = none) (hu : f.uppercase = false)
    (ha : a.length = 16) :
    (Mapped a → printAddr f left fill 0 a = .ok (b!"::ffff:" ++ [46].intercalate ((a.drop 12).map fun x => digitsOf 10 x.toNat))) ∧
    (¬ Mapped a → (∀ i, i < 8 → addrGroup a i ≠ 0) → printAddr f left fill 0 a = .ok (groupsText a 0 8)) ∧
    (¬ Mapped a → ∀ b n, LongestAt a b n → (∀ b', LongestAt a b' n → b' ≤ b) →
      printAddr f left fill 0 a = .ok (groupsText a 0 b ++ [58, 58] ++ groupsText a (b + n) 8)) := by
  have hf : f.untouched := ⟨⟨hs, hg⟩, hu⟩
  have noWidth : ∀ t, printBuffer f a = .ok t → printAddr f left fill 0 a = .ok t := by
    intro t ht
    unfold printAddr
    rw [ht]
    simp only [Res.ok_bind, Res.pure_eq, Nat.zero_max, Nat.zero_sub]
    cases left with
    | false => simp [emitRight]
    | true =>
      have : ∀ t : Bytes, emitLeft fill t.length t = t := by
        intro t
        induction t with
        | nil => rfl
        | cons c t ih => simp [emitLeft, ih]
      simp [this]
  refine ⟨fun hm => noWidth _ (printBuffer_mapped hf ha hm), ?_, ?_⟩
  · intro hm hz
    apply noWidth
    unfold printBuffer
    rw [if_neg (fun h => hm ((mapped_iff a).1 h))]
    cases hr : zeroRun a 8 none none with
    | none =>
      have := print_rest_eq (f := f) (a := a) (sub := none) hf 7 (by omega) (by rintro j _ ⟨b, e, hh, _⟩; cases hh) [] (by simp)
      simpa using this
    | some p =>
      obtain ⟨b, e⟩ := p
      obtain ⟨⟨h0, h1, _⟩, h2, h3, _⟩ := zeroRun_last hr
      exact absurd (h1.2 b (by omega) (by omega)) (hz b (by omega))
  · intro hm b n hl hlast
    apply noWidth
    unfold printBuffer
    rw [if_neg (fun h => hm ((mapped_iff a).1 h))]
    cases hr : zeroRun a 8 none none with
    | none => exact absurd (hl.2.1.2 b (by omega) (by have := hl.1; omega)) (zeroRun_none hr b (by have := hl.1; have := hl.2.1.1; omega))
    | some p =>
      obtain ⟨b', e⟩ := p
      obtain ⟨hl', h2, h3, hlast'⟩ := zeroRun_last hr
      have hn : n = e + 1 - b' := Nat.le_antisymm (hl'.2.2 b n hl.2.1) (hl.2.2 b' _ hl'.2.1)
      have hb : b = b' := Nat.le_antisymm (hlast' b (hn ▸ hl)) (hlast b' (hn ▸ hl'))
      subst hb
      rw [print_run_eq hf h2 h3, show e + 1 = b + n by omega]

/-- The canonical text is unique. -/
theorem canonical_unique {a t t' : Bytes} (h : Canonical a t) (h' : Canonical a t') : t = t' := by
  cases h with
  | mapped h =>
    cases h' with
    | mapped _ => rfl
    | full hm _ => exact absurd h hm
    | short hm _ _ _ => exact absurd h hm
  | full hm h =>
    cases h' with
    | mapped h2 => exact absurd h2 hm
    | full _ _ => rfl
    | short _ h2 hl _ => exact absurd (h _ _ hl.2.1) (by omega)
  | short hm h2 hl hfirst =>
    cases h' with
    | mapped h2 => exact absurd h2 hm
    | full _ h => exact absurd (h _ _ hl.2.1) (by omega)
    | short hm' h2' hl' hfirst' =>
      rename_i b n b' n'
      have hn : n = n' := Nat.le_antisymm (hl'.2.2 b n hl.2.1) (hl.2.2 b' n' hl'.2.1)
      subst hn
      have hb : b = b' := Nat.le_antisymm (hfirst b' hl') (hfirst' b hl)
      subst hb
      rfl

/-- The text is the canonical one of RFC 5952 (with `::ffff:` before IPv4 addresses), if the address has no zero group, or its longest run of
zeroes has two groups or more and there is only one of that length. -/
theorem C122_canonical_partial (f : NumFmt) (left : Bool) (fill : Byte) (a : Bytes) (hs : f.showbase = false) (hg : f.sep = none)
    (hu : f.uppercase = false) (ha : a.length = 16)
    (hz : (∀ i, i < 8 → addrGroup a i ≠ 0) ∨ ∃ b n, 2 ≤ n ∧ LongestAt a b n ∧ ∀ b', LongestAt a b' n → b' = b) (t : Bytes) :
    printAddr f left fill 0 a = .ok t ↔ Canonical a t := by
  obtain ⟨h1, h2, h3⟩ := C122_text f left fill a hs hg hu ha
  have key : ∃ t0, printAddr f left fill 0 a = .ok t0 ∧ Canonical a t0 := by
    by_cases hm : Mapped a
    · exact ⟨_, h1 hm, .mapped hm⟩
    · rcases hz with hz | ⟨b, n, hn, hl, hone⟩
      · refine ⟨_, h2 hm hz, .full hm ?_⟩
        intro b n hzz
        rcases Nat.eq_zero_or_pos n with rfl | hn
        · omega
        · exact absurd (hzz.2 b (by omega) (by omega)) (hz b (by have := hzz.1; omega))
      · exact ⟨_, h3 hm b n hl (fun b' hb' => by rw [hone b' hb']; omega), .short hm hn hl (fun b' hb' => by rw [hone b' hb']; omega)⟩
  obtain ⟨t0, e, hc⟩ := key
  constructor
  · intro h
    rw [e] at h
    cases h
    exact hc
  · intro h
    rw [canonical_unique h hc]; exact e

/-- `2001:db8::1` has one run of five zero groups. -/
def addrDb8 : Bytes := [0x20, 1, 0x0d, 0xb8, 0, 0, 0, 0, 0, 0, 0, 0, 0, 0, 0, 1]
theorem longest_of (a : Bytes) (b n : Nat) (h : (decide (0 < n) && decide (b + n ≤ 8) && (List.range 8).all (fun i => !(decide (b ≤ i) && decide (i < b + n)) || addrGroup a i == 0) &&
    (List.range 9).all fun b' => (List.range 9).all fun n' => !(decide (n < n') && decide (b' + n' ≤ 8)) ||
      (List.range 8).any fun i => decide (b' ≤ i) && decide (i < b' + n') && addrGroup a i != 0) = true) : LongestAt a b n := by
  simp only [Bool.and_eq_true, decide_eq_true_eq, List.all_eq_true, Bool.or_eq_true, Bool.not_eq_true', Bool.and_eq_false_iff, decide_eq_false_iff_not,
    beq_iff_eq, List.mem_range, List.any_eq_true, bne_iff_ne] at h
  obtain ⟨⟨⟨h1, h2⟩, h3⟩, h4⟩ := h
  refine ⟨h1, ⟨h2, fun i hb hi => ?_⟩, ?_⟩
  · rcases h3 i (by omega) with h | h
    · omega
    · exact h
  · intro b' n' hz
    by_cases hn : n' ≤ n
    · exact hn
    · have hz1 := hz.1
      rcases h4 b' (by omega) n' (by omega) with h | ⟨i, _, ⟨h5, h6⟩, h7⟩
      · omega
      · exact absurd (hz.2 i h5 h6) h7
example : 2 ≤ 5 ∧ LongestAt addrDb8 2 5 ∧ ∀ b', LongestAt addrDb8 b' 5 → b' = 2 := by
  refine ⟨by omega, longest_of _ _ _ (by decide), ?_⟩
  intro b' h
  have hb : b' ≤ 3 := by have := h.2.1.1; omega
  have hz := h.2.1.2
  by_cases h1 : b' ≤ 1
  · exact absurd (hz 1 (by omega) (by omega)) (by decide)
  · by_cases h3 : b' = 3
    · subst h3; exact absurd (hz 7 (by omega) (by omega)) (by decide)
    · omega
example : printAddr {} false 32 0 addrDb8 = .ok b!"2001:db8::1" := by decide +kernel
example : printAddr {} false 32 0 ([0, 0, 0, 0, 0, 0, 0, 0, 0, 0, 255, 255] ++ [192, 0, 2, 1]) = .ok b!"::ffff:192.0.2.1" := by decide +kernel

/-- RFC 5952's example for the choice among runs of the same length. -/
def addrTwoRuns : Bytes := [0x20, 1, 0x0d, 0xb8, 0, 0, 0, 0, 0, 1, 0, 0, 0, 0, 0, 1]
/-- Its example for a single zero group. -/
def addrOneZero : Bytes := [0x20, 1, 0x0d, 0xb8, 0, 0, 0, 1, 0, 1, 0, 1, 0, 1, 0, 1]

theorem notMapped {a : Bytes} (h : addrGroup a 0 ≠ 0) : ¬ Mapped a := fun hm => h (hm.1.2 0 (by omega) (by omega))

/-- Violated: of two runs of the same length the last is replaced, not the first. -/
theorem C122_first_violated : printAddr {} false 32 0 addrTwoRuns = .ok b!"2001:db8:0:0:1::1" ∧ Canonical addrTwoRuns b!"2001:db8::1:0:0:1" := by
  refine ⟨by decide +kernel, ?_⟩
  have hl : LongestAt addrTwoRuns 2 2 := longest_of _ _ _ (by decide)
  have := Canonical.short (notMapped (by decide)) (Nat.le_refl 2) hl (by
    intro b' h
    have hz := h.2.1.2
    by_cases h1 : 2 ≤ b'
    · exact h1
    · exact absurd (hz 1 (by omega) (by omega)) (by decide))
  have e : groupsText addrTwoRuns 0 2 ++ [58, 58] ++ groupsText addrTwoRuns (2 + 2) 8 = b!"2001:db8::1:0:0:1" := by decide +kernel
  rw [e] at this
  exact this

/-- Violated: a single zero group is replaced too. -/
theorem C122_single_violated : printAddr {} false 32 0 addrOneZero = .ok b!"2001:db8::1:1:1:1:1" ∧ Canonical addrOneZero b!"2001:db8:0:1:1:1:1:1" := by
  refine ⟨by decide +kernel, ?_⟩
  have := Canonical.full (a := addrOneZero) (notMapped (by decide)) (by
    intro b n h
    have hl : LongestAt addrOneZero 2 1 := longest_of _ _ _ (by decide)
    have := hl.2.2 b n h
    omega)
  have e : groupsText addrOneZero 0 8 = b!"2001:db8:0:1:1:1:1:1" := by decide +kernel
  rw [e] at this
  exact this

end Fcgi.Props
