import Verif.Lemmas.AddressPrint
/-! # Extracting addresses from a stream -/
namespace Fcgi.Model
open Fcgi Fcgi.Spec

/-- What follows cannot belong to the address. -/
def Ends (r : Bytes) : Prop := ∀ c, r.head? = some c → addrDigit c = none ∧ c ≠ 46 ∧ c ≠ 58

theorem ends_head {r : Bytes} (h : Ends r) : addrDigit (r.headD 0xff) = none ∧ r.headD 0xff ≠ 46 ∧ r.headD 0xff ≠ 58 := by
  cases r with
  | nil => exact ⟨by decide, by decide, by decide⟩
  | cons c r => exact h c rfl

theorem get_hex : ∀ {t : Bytes} {v : Nat}, HexNum t v → ∀ (n : Nat) (r : Bytes) (last : Byte) (s : AddrSt), s.chunk = 0 →
    ∃ s' l', getLoop (n + t.length) (t ++ r) last s = getLoop n r l' s' ∧ s'.chunk = UInt16.ofNat v ∧ s'.data = s.data ∧ s'.write = s.write ∧ s'.pad = s.pad ∧
      (t ≠ [] → addrDigit l' ≠ none) := by
  intro t v h
  induction h with
  | nil => intro n r last s hc; exact ⟨s, last, rfl, hc, rfl, rfl, rfl, fun h => absurd rfl h⟩
  | @snoc t m c d h hd ih =>
    intro n r last s hc
    obtain ⟨s1, l1, e1, e2, e3, e4, e5, _⟩ := ih (n + 1) (c :: r) last s hc
    obtain ⟨hd1, hd2⟩ := hexDigit_addr hd
    refine ⟨s1.digit d, c, ?_, digit_chunk e2 hd2, e3, e4, e5, fun _ => by rw [hd1]; simp⟩
    rw [List.append_assoc, List.length_append, List.length_singleton, show n + (t.length + 1) = n + 1 + t.length by omega]
    show getLoop (n + 1 + t.length) (t ++ ([c] ++ r)) last s = _
    rw [List.singleton_append, e1]
    conv => lhs; unfold getLoop
    simp [hd1]

theorem digit_last {l : Byte} (h : addrDigit l ≠ none) : l ≠ 0 ∧ l ≠ 58 := by
  refine ⟨?_, ?_⟩ <;> rintro rfl <;> exact h (by decide)

/-- A group and the character after it. -/
theorem get_group {t xs : Bytes} (h : HexGroup t xs) (n : Nat) (r : Bytes) (last : Byte) (s : AddrSt) {bs : Bytes} (hr : Ends r ∨ r.head? = some 58)
    (hc : s.chunk = 0) (hs : Has s bs) (hb : bs.length + 2 ≤ 16) :
    ∃ s', Has s' (bs ++ xs) ∧ s'.chunk = 0 ∧ s'.pad = s.pad ∧
      getLoop (n + 1 + t.length) (t ++ r) last s = if bs.length + 2 = 16 then .ok (s', false, r)
        else if r.headD 0xff ≠ 58 then .ok (s', s.pad.isNone, r) else getLoop n (r.drop 1) 58 s' := by
  obtain ⟨v, hv, h1, h4, rfl⟩ := h
  obtain ⟨s1, l1, e1, e2, e3, e4, e5, e6⟩ := get_hex hv (n + 1) r last s hc
  have hlt := hexNum_lt hv
  have : v < 65536 := Nat.lt_of_lt_of_le hlt (Nat.le_trans (Nat.pow_le_pow_right (by omega) h4) (by omega))
  have hs1 : Has s1 bs := ⟨by rw [e3]; exact hs.len, by rw [e4]; exact hs.wr, by rw [e3]; exact hs.tk⟩
  obtain ⟨s', f1, f2, f3, f4⟩ := group_has hs1 e2 this hb
  refine ⟨s', f2, f3, by rw [f4, e5], ?_⟩
  rw [e1]
  have hl := digit_last (e6 (by intro hh; rw [hh] at h1; simp at h1))
  have hd : addrDigit (r.headD 0xff) = none ∧ r.headD 0xff ≠ 46 := by
    rcases hr with hr | hr
    · exact ⟨(ends_head hr).1, (ends_head hr).2.1⟩
    · cases r with
      | nil => cases hr
      | cons c r => cases hr; exact ⟨addrDigit_colon, by show (58 : Byte) ≠ 46; decide⟩
  conv => lhs; unfold getLoop
  simp only [hd.1, hd.2, if_false, hl.1, hl.2, or_self, and_false, f1, Res.ok_bind]
  have hw : s'.write = bs.length + 2 := by rw [f2.wr]; simp
  rw [hw, f4, e5]
  by_cases h16 : bs.length + 2 = 16
  · rw [if_pos (by omega), if_pos h16]; rfl
  · rw [if_neg (by omega), if_neg h16]; rfl

theorem get_groups {t xs : Bytes} (h : Groups t xs) : ∀ (n : Nat) (r : Bytes) (last : Byte) (s : AddrSt) (bs : Bytes), s.chunk = 0 → Has s bs → bs.length + xs.length < 16 →
    ∃ s', Has s' (bs ++ xs) ∧ s'.chunk = 0 ∧ s'.pad = s.pad ∧ getLoop (n + 1 + t.length) (t ++ 58 :: r) last s = getLoop n r 58 s' := by
  induction h with
  | @one t xs h =>
    intro n r last s bs hc hs hb
    have h2 := hexGroup_len h
    obtain ⟨s', f1, f2, f3, f4⟩ := get_group h n (58 :: r) last s (Or.inr rfl) hc hs (by omega)
    rw [if_neg (by omega)] at f4
    exact ⟨s', f1, f2, f3, by simpa using f4⟩
  | @cons t xs t' xs' h g ih =>
    intro n r last s bs hc hs hb
    have h2 := hexGroup_len h
    simp only [List.length_append] at hb
    obtain ⟨s1, f1, f2, f3, f4⟩ := get_group h (n + 1 + t'.length) (58 :: (t' ++ 58 :: r)) last s (Or.inr rfl) hc hs (by omega)
    rw [if_neg (by omega)] at f4
    obtain ⟨s', g1, g2, g3, g4⟩ := ih n r 58 s1 (bs ++ xs) f2 f1 (by simp; omega)
    refine ⟨s', by simpa using g1, g2, by rw [g3, f3], ?_⟩
    have e : n + 1 + (t ++ 58 :: t').length = n + 1 + t'.length + 1 + t.length := by simp; omega
    rw [e, List.append_assoc, List.cons_append, f4]
    simpa using g4

theorem get_groups_end {t xs : Bytes} (h : Groups t xs) : ∀ (n : Nat) (r : Bytes) (last : Byte) (s : AddrSt) (bs : Bytes), Ends r → s.chunk = 0 → Has s bs →
    bs.length + xs.length ≤ 16 → bs.length + xs.length = 16 ∨ s.pad ≠ none →
    ∃ s', Has s' (bs ++ xs) ∧ s'.pad = s.pad ∧ getLoop (n + 1 + t.length) (t ++ r) last s = .ok (s', false, r) := by
  induction h with
  | @one t xs h =>
    intro n r last s bs hr hc hs hb hp
    have h2 := hexGroup_len h
    obtain ⟨s', f1, f2, f3, f4⟩ := get_group h n r last s (Or.inl hr) hc hs (by omega)
    refine ⟨s', f1, f3, ?_⟩
    rw [f4]
    split
    · rfl
    · rw [if_pos (ends_head hr).2.2]
      rcases hp with hp | hp
      · omega
      · cases hh : s.pad with
        | none => exact absurd hh hp
        | some p => rfl
  | @cons t xs t' xs' h g ih =>
    intro n r last s bs hr hc hs hb hp
    have h2 := hexGroup_len h
    have h3 := groups_len g
    simp only [List.length_append] at hb hp
    obtain ⟨s1, f1, f2, f3, f4⟩ := get_group h (n + 1 + t'.length) (58 :: (t' ++ r)) last s (Or.inr rfl) hc hs (by omega)
    rw [if_neg (by omega)] at f4
    obtain ⟨s', g1, g2, g3⟩ := ih n r 58 s1 (bs ++ xs) hr f2 f1 (by simp; omega) (hp.imp (by simp; omega) (by rw [f3]; exact id))
    refine ⟨s', by simpa using g1, by rw [g2, f3], ?_⟩
    have e : n + 1 + (t ++ 58 :: t').length = n + 1 + t'.length + 1 + t.length := by simp; omega
    rw [e, List.append_assoc, List.cons_append, f4]
    simpa using g3

/-! ### Dotted parts -/

theorem takeWhile_digits {t r : Bytes} (ht : ∀ c ∈ t, IsDigit c) (hr : ∀ c, r.head? = some c → ¬ IsDigit c) :
    (t ++ r).takeWhile (fun c => 48 ≤ c && c ≤ 57) = t ∧ (t ++ r).dropWhile (fun c => 48 ≤ c && c ≤ 57) = r := by
  have hd : ∀ c : Byte, (decide (48 ≤ c) && decide (c ≤ 57)) = true ↔ IsDigit c := by
    intro c
    rw [Bool.and_eq_true, decide_eq_true_eq, decide_eq_true_eq, UInt8.le_iff_toNat_le, UInt8.le_iff_toNat_le]
    rfl
  induction t with
  | nil =>
    cases r with
    | nil => simp
    | cons c r =>
      have := hr c rfl
      have h' : ¬ (decide (48 ≤ c) && decide (c ≤ 57)) = true := fun h => this ((hd c).1 h)
      simp only [List.nil_append]
      rw [List.takeWhile_cons_of_neg (p := fun c : Byte => decide (48 ≤ c) && decide (c ≤ 57)) h', List.dropWhile_cons_of_neg (p := fun c : Byte => decide (48 ≤ c) && decide (c ≤ 57)) h']
      exact ⟨rfl, rfl⟩
  | cons c t ih =>
    obtain ⟨i1, i2⟩ := ih (fun c hc => ht c (List.mem_cons_of_mem _ hc))
    have h' := (hd c).2 (ht c (List.mem_cons_self ..))
    rw [List.cons_append, List.takeWhile_cons_of_pos (p := fun c : Byte => decide (48 ≤ c) && decide (c ≤ 57)) h', List.dropWhile_cons_of_pos (p := fun c : Byte => decide (48 ≤ c) && decide (c ≤ 57)) h', i1, i2]
    exact ⟨rfl, rfl⟩

theorem getUnsigned_octet {t r : Bytes} {b : Byte} (h : Octet t b) (hr : ∀ c, r.head? = some c → ¬ IsDigit c) : getUnsigned (t ++ r) = (b.toNat, false, r) := by
  obtain ⟨⟨h1, h2, h3⟩, _⟩ := h
  cases t with
  | nil => exact absurd rfl h1
  | cons x t =>
    have hx := h2 x (List.mem_cons_self ..)
    have n1 : x ≠ 45 := (isDigit_ne hx).2.2
    have n2 : x ≠ 43 := by rintro rfl; unfold IsDigit at hx; simp at hx
    obtain ⟨i1, i2⟩ := takeWhile_digits h2 hr
    unfold getUnsigned
    have hh : (x :: t ++ r).head? = some x := rfl
    simp only [hh, Option.some.injEq, n1, n2, or_self, if_false]
    rw [i1, i2]
    have hv : (x :: t).foldl (fun n c => 10 * n + (c.toNat - 48)) 0 = b.toNat := h3
    have := b.toNat_lt
    rw [hv, if_neg (by simp), if_neg (by omega)]

theorem getOctets_step {t r : Bytes} {b : Byte} {k : Nat} {s : AddrSt} {bs : Bytes} {fail : Bool} (h : Octet t b) (hr : ∀ c, r.head? = some c → ¬ IsDigit c)
    (hs : Has s bs) (hb : bs.length < 16) :
    ∃ s', Has s' (bs ++ [b]) ∧ s'.pad = s.pad ∧ getOctets (k + 1) (46 :: (t ++ r)) s fail = getOctets k r s' fail := by
  obtain ⟨dd, e1, e2⟩ := store_has (b := b) hs hb
  refine ⟨_, e2 s.pad s.chunk, rfl, ?_⟩
  conv => lhs; unfold getOctets
  simp only [getUnsigned_octet h hr, UInt8.ofNat_toNat, e1, Res.ok_bind, Bool.or_false]

theorem get_quad {q cs r : Bytes} {n : Nat} {last : Byte} {s : AddrSt} {bs : Bytes} (h : Quad q cs) (hr : Ends r) (hc : s.chunk = 0) (hs : Has s bs) (hn : q.length ≤ n) :
    (bs ≠ [] → bs.length ≤ 12 → ∃ s', Has s' (bs ++ cs) ∧ s'.pad = s.pad ∧ getLoop n (q ++ r) last s = .ok (s', false, r)) ∧
    (bs = [] → ∃ s', Has s' ([255, 255] ++ cs) ∧ s'.pad = some 0 ∧ getLoop n (q ++ r) last s = .ok (s', false, r)) := by
  have hrd : ∀ c, r.head? = some c → ¬ IsDigit c := by
    intro c hc hd
    have := (hr c hc).1
    rw [isDigit_addr hd] at this
    cases this
  have hdot : ∀ (x : Bytes) c, (46 :: x).head? = some c → ¬ IsDigit c := by
    intro x c hc; cases hc; unfold IsDigit; decide
  cases h with
  | @mk t1 t2 t3 t4 a b c d h1 h2 h3 h4 =>
    simp only [List.length_append, List.length_cons] at hn
    obtain ⟨v, hv, hd⟩ := octet_hex h1
    obtain ⟨m, rfl⟩ : ∃ m, n = m + 1 + t1.length := ⟨n - 1 - t1.length, by omega⟩
    obtain ⟨s1, l1, e1, e2, e3, e4, e5, _⟩ := get_hex hv (m + 1) (46 :: (t2 ++ 46 :: (t3 ++ 46 :: (t4 ++ r)))) last s hc
    have hs1 : Has s1 bs := ⟨by rw [e3]; exact hs.len, by rw [e4]; exact hs.wr, by rw [e3]; exact hs.tk⟩
    have rest : ∀ (s2 : AddrSt) (ys : Bytes), Has s2 ys → ys.length ≤ 13 →
        ∃ s', Has s' (ys ++ [b, c, d]) ∧ s'.pad = s2.pad ∧ getOctets 3 (46 :: (t2 ++ 46 :: (t3 ++ 46 :: (t4 ++ r)))) s2 false = .ok (s', false, r) := by
      intro s2 ys hs2 hys
      obtain ⟨s3, f1, f2, f3⟩ := getOctets_step (k := 2) (fail := false) h2 (hdot (t3 ++ 46 :: (t4 ++ r))) hs2 (by omega)
      obtain ⟨s4, g1, g2, g3⟩ := getOctets_step (k := 1) (fail := false) h3 (hdot (t4 ++ r)) f1 (by simp; omega)
      obtain ⟨s5, i1, i2, i3⟩ := getOctets_step (k := 0) (fail := false) h4 hrd g1 (by simp; omega)
      refine ⟨s5, by simpa using i1, by rw [i2, g2, f2], ?_⟩
      rw [f3, g3, i3]
      rfl
    have step : ∀ s2, s1.firstOctet = .ok (some s2) →
        getLoop (m + 1 + t1.length) (t1 ++ 46 :: (t2 ++ 46 :: (t3 ++ 46 :: t4)) ++ r) last s = getOctets 3 (46 :: (t2 ++ 46 :: (t3 ++ 46 :: (t4 ++ r)))) s2 false := by
      intro s2 hf
      have : t1 ++ 46 :: (t2 ++ 46 :: (t3 ++ 46 :: t4)) ++ r = t1 ++ 46 :: (t2 ++ 46 :: (t3 ++ 46 :: (t4 ++ r))) := by simp
      rw [this, e1]
      conv => lhs; unfold getLoop
      simp [addrDigit_dot, hf]
    refine ⟨?_, ?_⟩
    · intro hb0 hb
      obtain ⟨s2, j1, j2, j3⟩ := firstOctet_has hs1 hb0 hb
      rw [e2, hd] at j2
      obtain ⟨s', k1, k2, k3⟩ := rest s2 _ j2 (by simp; omega)
      refine ⟨s', by simpa using k1, by rw [k2, j3, e5], ?_⟩
      rw [step s2 j1, k3]
    · rintro rfl
      obtain ⟨s2, j1, j2, j3⟩ := firstOctet_zero hs1
      rw [e2, hd] at j2
      obtain ⟨s', k1, k2, k3⟩ := rest s2 _ j2 (by simp)
      refine ⟨s', by simpa using k1, by rw [k2, j3], ?_⟩
      rw [step s2 j1, k3]

theorem get_tail {t xs r : Bytes} (h : Tail t xs) (n : Nat) (last : Byte) (s : AddrSt) (bs : Bytes) (hr : Ends r) (hc : s.chunk = 0) (hs : Has s bs)
    (hb : bs.length + xs.length ≤ 16) (hp : bs.length + xs.length = 16 ∨ s.pad ≠ none) (hn : t.length < n) :
    ∃ s', Has s' (bs ++ xs) ∧ s'.pad = s.pad ∧ getLoop n (t ++ r) last s = .ok (s', false, r) := by
  cases h with
  | groups h =>
    obtain ⟨m, rfl⟩ : ∃ m, n = m + 1 + t.length := ⟨n - 1 - t.length, by omega⟩
    exact get_groups_end h m r last s bs hr hc hs hb hp
  | @quad t bs' q cs h hq =>
    simp only [List.length_append, List.length_cons] at hb hp hn
    have hcs : cs.length = 4 := by cases hq; rfl
    have h2 := groups_len h
    obtain ⟨m, rfl⟩ : ∃ m, n = m + 1 + t.length := ⟨n - 1 - t.length, by omega⟩
    obtain ⟨s1, e1, e2, e3, e4⟩ := get_groups h m (q ++ r) last s bs hc hs (by omega)
    obtain ⟨s', f1, f2, f3⟩ := (get_quad (n := m) (last := 58) hq hr e2 e1 (by omega)).1
      (by intro hh; have := congrArg List.length hh; rw [List.length_append, List.length_nil] at this; omega) (by simp; omega)
    refine ⟨s', by simpa using f1, by rw [f2, e3], ?_⟩
    rw [List.append_assoc, List.cons_append, e4, f3]

theorem get_pad {r : Bytes} {n : Nat} {last : Byte} {s : AddrSt} (hl : last = 0 ∨ last = 58) (hp : s.pad = none ∨ s.pad = some s.write) :
    getLoop (n + 1) (58 :: r) last s = getLoop n r 58 { s with pad := some s.write } := by
  conv => lhs; unfold getLoop
  have h3 : ¬ (s.pad ≠ none ∧ s.pad ≠ some s.write) := by rcases hp with hp | hp <;> simp [hp]
  simp only [List.headD_cons, addrDigit_colon, List.drop_succ_cons, List.drop_zero]
  rw [if_neg (by decide), if_pos ⟨trivial, hl⟩, if_neg h3]

theorem get_trailing {r : Bytes} {n : Nat} {last : Byte} {s : AddrSt} {bs : Bytes} (hr : Ends r) (h0 : s.chunk = 0) (hs : Has s bs) (hb : bs.length ≤ 14)
    (hp : s.pad = some bs.length) : ∃ s', Has s' (bs ++ [0, 0]) ∧ s'.pad = s.pad ∧ getLoop (n + 1) r last s = .ok (s', false, r) := by
  obtain ⟨s', f1, f2, f3, f4⟩ := group_has (n := 0) hs h0 (by omega) (by omega)
  refine ⟨s', f2, f4, ?_⟩
  obtain ⟨h1, h2, h3⟩ := ends_head hr
  conv => lhs; unfold getLoop
  simp only [h1, h2, h3, if_false, false_and, f1, Res.ok_bind]
  split
  · rfl
  · simp [f4, hp]

/-- Every text of an address of at most 39 characters is extracted. -/
theorem get_text {t a r junk old : Bytes} (h : AddrText t a) (hr : Ends r) (hj : junk.length = 16) (hn : t.length ≤ 39) :
    getAddr (t ++ r) junk old = .ok (a, false, r) := by
  have fin : ∀ (s' : AddrSt) (x : Bytes), s'.padded = x → getLoop 40 (t ++ r) 0 ⟨junk, 0, none, 0⟩ = .ok (s', false, r) → getAddr (t ++ r) junk old = .ok (x, false, r) := by
    intro s' x hx hg
    unfold getAddr
    rw [hg]
    simp [hx]
  cases h with
  | v4 h =>
    rename_i cs
    obtain ⟨s', f1, f2, f3⟩ := (get_quad (n := 40) (last := 0) (s := ⟨junk, 0, none, 0⟩) h hr rfl (has_start hj _ _) (by omega)).2 rfl
    refine fin s' _ ?_ f3
    have hcs : cs.length = 4 := by cases h; rfl
    rw [padded_some (xs := []) f1 f2]
    simp [hcs]
  | full h hl =>
    obtain ⟨s', f1, f2, f3⟩ := get_tail (r := r) h 40 0 ⟨junk, 0, none, 0⟩ [] hr rfl (has_start hj _ _) (by simp; omega) (by simp; omega) (by omega)
    exact fin s' _ (padded_none f1 f2 (by simpa using hl)) f3
  | none =>
    have e1 := get_pad (r := 58 :: r) (n := 39) (last := 0) (s := ⟨junk, 0, none, 0⟩) (Or.inl rfl) (Or.inl rfl)
    have e2 := get_pad (r := r) (n := 38) (last := 58) (s := ⟨junk, 0, some 0, 0⟩) (Or.inr rfl) (Or.inr rfl)
    obtain ⟨s', f1, f2, f3⟩ := get_trailing (r := r) (n := 37) (last := 58) (s := ⟨junk, 0, some 0, 0⟩) hr rfl (has_start hj _ _) (by simp) rfl
    refine fin s' _ ?_ (e1.trans (e2.trans f3))
    rw [padded_some (xs := []) f1 f2]
    rfl
  | @left t xs h hl =>
    simp only [List.length_append, List.length_cons, List.length_nil] at hn
    obtain ⟨m, hm⟩ : ∃ m, 40 = m + 1 + 1 + 1 + t.length := ⟨40 - 3 - t.length, by omega⟩
    obtain ⟨s1, e1, e2, e3, e4⟩ := get_groups h (m + 1 + 1) (58 :: r) 0 ⟨junk, 0, none, 0⟩ [] rfl (has_start hj _ _) (by simp; omega)
    rw [List.nil_append] at e1
    have e5 := get_pad (r := r) (n := m + 1) (last := 58) (s := s1) (Or.inr rfl) (Or.inl e3)
    obtain ⟨s', f1, f2, f3⟩ := get_trailing (r := r) (n := m) (last := 58) (s := { s1 with pad := some s1.write }) (bs := xs) hr e2 (has_pad e1 _) hl (by simp only [e1.wr])
    refine fin s' _ ?_ ?_
    · rw [padded_some f1 (by rw [f2]; simp only [e1.wr]), List.append_assoc]
      congr 1
      simp only [List.length_cons, List.length_nil]
      rw [zeros_snoc]
      congr 1
      omega
    · rw [hm, List.append_assoc]
      exact e4.trans (e5.trans f3)
  | @right t ys h hl =>
    simp only [List.length_append, List.length_cons, List.length_nil] at hn
    have e1 := get_pad (r := 58 :: (t ++ r)) (n := 39) (last := 0) (s := ⟨junk, 0, none, 0⟩) (Or.inl rfl) (Or.inl rfl)
    have e2 := get_pad (r := t ++ r) (n := 38) (last := 58) (s := ⟨junk, 0, some 0, 0⟩) (Or.inr rfl) (Or.inr rfl)
    obtain ⟨s', f1, f2, f3⟩ := get_tail (r := r) h 38 58 ⟨junk, 0, some 0, 0⟩ [] hr rfl (has_start hj _ _) (by simp; omega) (Or.inr (by simp)) (by omega)
    refine fin s' _ ?_ (e1.trans (e2.trans f3))
    rw [padded_some (xs := []) f1 f2]
    simp
  | @mid t xs t' ys h h' hl =>
    simp only [List.length_append, List.length_cons, List.length_nil] at hn
    obtain ⟨m, hm⟩ : ∃ m, 40 = m + 1 + 1 + t.length := ⟨40 - 2 - t.length, by omega⟩
    have key : ∀ s : AddrSt, s.chunk = 0 → Has s xs → s.pad = some xs.length →
        ∃ s', Has s' (xs ++ ys) ∧ s'.pad = s.pad ∧ getLoop m (t' ++ r) 58 s = .ok (s', false, r) := by
      intro s h1 h2 h3
      rcases h' with h' | h'
      · exact get_tail h' m 58 s xs hr h1 h2 (by omega) (Or.inr (by rw [h3]; simp)) (by omega)
      · have := groups_len h
        have hcs : ys.length = 4 := by cases h'; rfl
        exact (get_quad (n := m) (last := 58) h' hr h1 h2 (by omega)).1 (by intro hh; rw [hh] at this; simp at this) (by omega)
    obtain ⟨s1, e1, e2, e3, e4⟩ := get_groups h (m + 1) (58 :: (t' ++ r)) 0 ⟨junk, 0, none, 0⟩ [] rfl (has_start hj _ _) (by simp; omega)
    rw [List.nil_append] at e1
    have e5 := get_pad (r := t' ++ r) (n := m) (last := 58) (s := s1) (Or.inr rfl) (Or.inl e3)
    obtain ⟨s', f1, f2, f3⟩ := key { s1 with pad := some s1.write } e2 (has_pad e1 _) (by simp only [e1.wr])
    refine fin s' _ ?_ ?_
    · rw [padded_some f1 (by rw [f2]; simp only [e1.wr])]
    · rw [hm]
      have : t ++ [58, 58] ++ t' ++ r = t ++ 58 :: 58 :: (t' ++ r) := by simp
      rw [this]
      exact e4.trans (e5.trans f3)

end Fcgi.Model
