import Verif.Lemmas.Http
namespace Fcgi.Model
open Fcgi Fcgi.Spec

/-! ### matching -/

theorem matchAt_iff (b pat : Bytes) (i : Nat) (hi : i ≤ b.length) : matchAt b pat i = true ↔ pat <+: b.drop i := by
  unfold matchAt slice
  rw [Bool.and_eq_true, decide_eq_true_eq, beq_iff_eq, List.drop_take, Nat.add_sub_cancel_left, List.prefix_iff_eq_take]
  constructor
  · rintro ⟨_, h⟩; exact h.symm
  · intro h
    refine ⟨?_, h.symm⟩
    have := congrArg List.length h
    simp at this; omega

theorem matchAt_suffix (pre suf pat : Bytes) : matchAt (pre ++ suf) pat pre.length = true ↔ pat <+: suf := by
  rw [matchAt_iff _ _ _ (by simp), List.drop_left]

/-- The two lists differ at a place both have. -/
def clash : Bytes → Bytes → Bool
  | a :: as, b :: bs => a != b || clash as bs
  | _, _ => false

theorem clash_noPrefix : ∀ (pat a rest : Bytes), clash pat a = true → ¬ pat <+: a ++ rest := by
  intro pat
  induction pat with
  | nil => intro a rest h; simp [clash] at h
  | cons p pat ih =>
    intro a rest h
    cases a with
    | nil => simp [clash] at h
    | cons c a =>
      simp only [clash, Bool.or_eq_true, bne_iff_ne] at h
      rw [List.cons_append, List.cons_prefix_cons]
      rintro ⟨h1, h2⟩
      rcases h with h | h
      · exact h h1
      · exact ih a rest h h2

theorem forbidden_noPrefix {pat t : Bytes} {q : UInt8} (hq : q ∈ pat) (ht : q ∉ t.take pat.length) : ¬ pat <+: t := by
  intro h
  rw [List.prefix_iff_eq_take] at h
  exact ht (h ▸ hq)

/-! ### reachability -/

def MpReach (b bd : Bytes) (s s' : MpState) : Prop := ∃ n, ∀ f, mpLoop b bd (f + n) s = mpLoop b bd f s'

theorem MpReach.refl {b bd s} : MpReach b bd s s := ⟨0, fun _ => rfl⟩
theorem MpReach.trans {b bd s s' s''} (h1 : MpReach b bd s s') (h2 : MpReach b bd s' s'') : MpReach b bd s s'' := by
  obtain ⟨n, h1⟩ := h1; obtain ⟨m, h2⟩ := h2
  exact ⟨m + n, fun f => by rw [← Nat.add_assoc, h1, h2]⟩
theorem MpReach.step {b bd s s'} (h : s.byte < b.length) (hs : mpStep b bd s = .ok s') : MpReach b bd s s' :=
  ⟨1, fun f => by rw [mpLoop, if_pos h, hs]; rfl⟩

theorem mpLoop_mono {b bd : Bytes} : ∀ (f k : Nat) (s r : MpState), mpLoop b bd f s = .ok r → mpLoop b bd (f + k) s = .ok r := by
  intro f
  induction f with
  | zero => intro k s r h; simp [mpLoop] at h
  | succ f ih =>
    intro k s r h
    rw [Nat.add_right_comm]
    unfold mpLoop at h ⊢
    split
    · rename_i hb
      rw [if_pos hb, Res.bind_eq_ok] at h
      obtain ⟨s', h1, h2⟩ := h
      rw [h1]
      exact ih k s' r h2
    · rename_i hb
      rwa [if_neg hb] at h

theorem MpReach.final {b bd s s'} (h : MpReach b bd s s') (he : b.length ≤ s'.byte) {N : Nat} {r : MpState}
    (hN : mpLoop b bd N s = .ok r) : r = s' := by
  obtain ⟨n, h⟩ := h
  have h1 := mpLoop_mono N (n + 1) s r hN
  have h2 := h (N + 1)
  rw [show N + 1 + n = N + (n + 1) by omega, h1, mpLoop, if_neg (by omega)] at h2
  cases h2; rfl

/-! ### totality -/

structure MpInv (b : Bytes) (s : MpState) : Prop where
  byte : s.byte ≤ b.length
  nameMode : s.mode = .name → s.nameStart ≤ s.byte
  nameEnd : s.nameEnd = b.length ∨ s.nameStart ≤ s.nameEnd ∧ s.nameEnd < b.length
  fileMode : s.mode = .filename → s.filenameStart ≤ s.byte
  fileEnd : s.filenameEnd = b.length ∨ s.filenameStart ≤ s.filenameEnd ∧ s.filenameEnd < b.length
  typeMode : s.mode = .contentType → s.contentTypeStart ≤ s.byte
  typeEnd : s.contentTypeEnd = b.length ∨ s.contentTypeStart ≤ s.contentTypeEnd ∧ s.contentTypeEnd < b.length
  bodyMode : s.mode = .body → 4 ≤ s.bodyStart ∧ s.bodyStart ≤ s.byte

theorem MpInv.cleared (b : Bytes) (byte : Nat) (h : byte ≤ b.length) (p f) : MpInv b (.cleared b.length byte p f) where
  byte := h
  nameMode := by intro h; cases h
  nameEnd := Or.inl rfl
  fileMode := by intro h; cases h
  fileEnd := Or.inl rfl
  typeMode := by intro h; cases h
  typeEnd := Or.inl rfl
  bodyMode := by intro h; cases h

def mpMeasure (b : Bytes) (s : MpState) : Nat := 2 * (b.length - s.byte) + (if s.mode = .contentType then 1 else 0)

theorem matchAt_len {b pat : Bytes} {i : Nat} (h : matchAt b pat i = true) : pat.length ≤ b.length - i := by
  unfold matchAt at h
  rw [Bool.and_eq_true, decide_eq_true_eq] at h
  exact h.1

theorem mpStep_safe (b bd : Bytes) (s : MpState) (hi : MpInv b s) (hb : s.byte < b.length) :
    ∃ s', mpStep b bd s = .ok s' ∧ MpInv b s' ∧ mpMeasure b s' < mpMeasure b s := by
  unfold mpStep
  obtain ⟨h1, h2, h3, h4, h5, h6, h7, h8⟩ := hi
  cases hm : s.mode with
  | header =>
    refine ⟨_, rfl, ?_⟩
    unfold mpHeader
    dsimp only
    split
    · rename_i h
      have := matchAt_len h.2
      simp at this
      refine ⟨⟨?_, ?_, ?_, ?_, ?_, ?_, ?_, ?_⟩, ?_⟩ <;> simp_all [mpMeasure] <;> omega
    split
    · rename_i h
      have := matchAt_len h.2
      simp at this
      refine ⟨⟨?_, ?_, ?_, ?_, ?_, ?_, ?_, ?_⟩, ?_⟩ <;> simp_all [mpMeasure] <;> omega
    split
    · rename_i h
      have := matchAt_len h.2
      simp at this
      refine ⟨⟨?_, ?_, ?_, ?_, ?_, ?_, ?_, ?_⟩, ?_⟩ <;> simp_all [mpMeasure] <;> omega
    split
    · rename_i h
      have := matchAt_len h.2
      simp at this
      refine ⟨⟨?_, ?_, ?_, ?_, ?_, ?_, ?_, ?_⟩, ?_⟩ <;> simp_all [mpMeasure] <;> omega
    · refine ⟨⟨?_, ?_, ?_, ?_, ?_, ?_, ?_, ?_⟩, ?_⟩ <;> simp_all [mpMeasure] <;> omega
  | name =>
    dsimp only
    rw [rd_ok hb]
    refine ⟨_, rfl, ?_⟩
    have := h2 hm
    split
    · refine ⟨⟨?_, ?_, ?_, ?_, ?_, ?_, ?_, ?_⟩, ?_⟩ <;> simp_all [mpMeasure] <;> omega
    · refine ⟨⟨?_, ?_, ?_, ?_, ?_, ?_, ?_, ?_⟩, ?_⟩ <;> simp_all [mpMeasure] <;> omega
  | filename =>
    dsimp only
    rw [rd_ok hb]
    refine ⟨_, rfl, ?_⟩
    have := h4 hm
    split
    · refine ⟨⟨?_, ?_, ?_, ?_, ?_, ?_, ?_, ?_⟩, ?_⟩ <;> simp_all [mpMeasure] <;> omega
    · refine ⟨⟨?_, ?_, ?_, ?_, ?_, ?_, ?_, ?_⟩, ?_⟩ <;> simp_all [mpMeasure] <;> omega
  | contentType =>
    dsimp only
    rw [rd_ok hb]
    refine ⟨_, rfl, ?_⟩
    have := h6 hm
    split
    · refine ⟨⟨?_, ?_, ?_, ?_, ?_, ?_, ?_, ?_⟩, ?_⟩ <;> simp_all [mpMeasure] <;> omega
    · refine ⟨⟨?_, ?_, ?_, ?_, ?_, ?_, ?_, ?_⟩, ?_⟩ <;> simp_all [mpMeasure] <;> omega
  | body =>
    dsimp only
    obtain ⟨h9, h10⟩ := h8 hm
    split
    · have hbe : ∃ e, mpBodyEnd b s = .ok e ∧ s.bodyStart ≤ e ∧ e ≤ b.length := by
        unfold mpBodyEnd
        rw [if_neg (by omega)]
        dsimp only
        split
        · exact ⟨_, rfl, by omega, by omega⟩
        split
        · rw [rd_ok (by omega), rd_ok (by omega)]
          refine ⟨_, rfl, ?_⟩
          split <;> omega
        · exact ⟨_, rfl, by omega, by omega⟩
      obtain ⟨e, he, he1, he2⟩ := hbe
      rw [he]
      have hpart : ∃ p f, mpPart b s e = .ok (.cleared b.length s.byte p f) := by
        unfold mpPart
        dsimp only
        split
        · rename_i hn
          have hr : range b s.nameStart s.nameEnd = .ok (slice b s.nameStart s.nameEnd) := by
            unfold range; rw [if_pos (by omega)]
          have hr2 : range b s.bodyStart e = .ok (slice b s.bodyStart e) := by
            unfold range; rw [if_pos (by omega)]
          rw [hr]
          simp only [Res.ok_bind]
          split
          · have hr3 : range b s.contentTypeStart s.contentTypeEnd = .ok (slice b s.contentTypeStart s.contentTypeEnd) := by
              unfold range; rw [if_pos (by omega)]
            rw [hr3, hr2]
            simp only [Res.ok_bind]
            split
            · have hr4 : range b s.filenameStart s.filenameEnd = .ok (slice b s.filenameStart s.filenameEnd) := by
                unfold range; rw [if_pos (by omega)]
              rw [hr4]
              exact ⟨_, _, rfl⟩
            · exact ⟨_, _, rfl⟩
          · rw [hr2]; exact ⟨_, _, rfl⟩
        · exact ⟨_, _, rfl⟩
      obtain ⟨p, f, hp⟩ := hpart
      simp only [Res.ok_bind, hp]
      refine ⟨_, rfl, MpInv.cleared b (s.byte + 1) (by omega) p f, ?_⟩
      simp [mpMeasure, MpState.cleared, hm]; omega
    · refine ⟨_, rfl, ⟨?_, ?_, ?_, ?_, ?_, ?_, ?_, ?_⟩, ?_⟩ <;> simp_all [mpMeasure] <;> omega

theorem mpLoop_total (b bd : Bytes) : ∀ (f : Nat) (s : MpState), MpInv b s → mpMeasure b s < f →
    ∃ r, mpLoop b bd f s = .ok r := by
  intro f
  induction f with
  | zero => intros; omega
  | succ f ih =>
    intro s hi hf
    unfold mpLoop
    split
    · rename_i hb
      obtain ⟨s', h1, h2, h3⟩ := mpStep_safe b bd s hi hb
      rw [h1]
      exact ih s' h2 (by omega)
    · exact ⟨_, rfl⟩

theorem parsePostsMultipart_total (env : Env) : ∃ env', parsePostsMultipart env = .ok env' := by
  unfold parsePostsMultipart
  obtain ⟨r, hr⟩ := mpLoop_total env.postBuffer env.boundary (2 * env.postBuffer.length + 2)
    (.cleared env.postBuffer.length 0 env.posts env.files) (MpInv.cleared _ _ (by omega) _ _) (by
      simp [mpMeasure, MpState.cleared])
  dsimp only
  rw [hr]
  exact ⟨_, rfl⟩

/-! ### round trip -/

/-- No header keyword still wanted starts here. -/
def NoHit (b : Bytes) (s : MpState) (suf : Bytes) : Prop :=
  (s.nameEnd = b.length → ¬ b!"name=\"" <+: suf) ∧ (s.filenameEnd = b.length → ¬ b!"filename=\"" <+: suf) ∧
  (s.contentTypeEnd = b.length → ¬ b!"Content-Type: " <+: suf) ∧ (s.bodyEnd = b.length → ¬ b!"\r\n\r\n" <+: suf)

theorem not_matchAt {b pre suf pat : Bytes} (hb : b = pre ++ suf) (h : ¬ pat <+: suf) : ¬ matchAt b pat pre.length = true := by
  rw [hb, matchAt_suffix]; exact h
theorem is_matchAt {b pre suf pat : Bytes} (hb : b = pre ++ suf) (h : pat <+: suf) : matchAt b pat pre.length = true := by
  rw [hb, matchAt_suffix]; exact h

theorem mp_scan_header (b bd : Bytes) : ∀ (t pre rest : Bytes) (s : MpState), b = pre ++ (t ++ rest) →
    s.byte = pre.length → s.mode = .header →
    (∀ t1 t2, t = t1 ++ t2 → t2 ≠ [] → NoHit b s (t2 ++ rest)) →
    MpReach b bd s { s with byte := (pre ++ t).length } := by
  intro t
  induction t with
  | nil => intro pre rest s hb hs hm h; simp only [List.append_nil, ← hs]; exact .refl
  | cons c t ih =>
    intro pre rest s hb hs hm h
    have hlt : s.byte < b.length := by rw [hs, hb]; simp
    have hn := h [] (c :: t) rfl (by simp)
    have hstep : mpStep b bd s = .ok { s with byte := s.byte + 1 } := by
      unfold mpStep
      rw [hm]
      dsimp only
      have : mpHeader b s = s := by
        unfold mpHeader
        rw [hs]
        dsimp only
        rw [if_neg (fun ⟨h1, h2⟩ => not_matchAt hb (hn.1 h1) h2), if_neg (fun ⟨h1, h2⟩ => not_matchAt hb (hn.2.1 h1) h2),
          if_neg (fun ⟨h1, h2⟩ => not_matchAt hb (hn.2.2.1 h1) h2), if_neg (fun ⟨h1, h2⟩ => not_matchAt hb (hn.2.2.2 h1) h2)]
      rw [this, hm]
    refine (MpReach.step hlt hstep).trans ?_
    have := ih (pre ++ [c]) rest { s with byte := s.byte + 1 } (by rw [hb]; simp) (by simp [hs]) hm
      (fun t1 t2 e hne => h (c :: t1) t2 (by simp [e]) hne)
    have e : pre ++ (c :: t) = pre ++ [c] ++ t := by simp
    rw [e]
    exact this

/-- Scanning a quoted name. -/
theorem mp_scan_name (b bd : Bytes) : ∀ (t pre rest : Bytes) (s : MpState), b = pre ++ (t ++ 34 :: rest) →
    s.byte = pre.length → s.mode = .name → 34 ∉ t →
    MpReach b bd s { s with byte := (pre ++ t).length + 1, nameEnd := (pre ++ t).length, mode := .header } := by
  intro t
  induction t with
  | nil =>
    intro pre rest s hb hs hm _
    have hlt : s.byte < b.length := by rw [hs, hb]; simp
    refine MpReach.step hlt ?_
    unfold mpStep
    rw [hm]
    dsimp only
    rw [show rd b s.byte = .ok 34 by rw [hs, hb]; exact rd_mid _ _ _]
    simp only [Res.ok_bind, List.append_nil, ← hs]
    rfl
  | cons c t ih =>
    intro pre rest s hb hs hm h
    have hc : c ≠ 34 := fun e => h (by simp [e])
    have hlt : s.byte < b.length := by rw [hs, hb]; simp
    refine (MpReach.step (s' := { s with byte := s.byte + 1 }) hlt ?_).trans ?_
    · unfold mpStep
      rw [hm]
      dsimp only
      rw [show rd b s.byte = .ok c by rw [hs, hb]; exact rd_mid _ _ _]
      simp only [Res.ok_bind]
      rw [if_neg hc, hm]
      rfl
    · have := ih (pre ++ [c]) rest { s with byte := s.byte + 1 } (by rw [hb]; simp) (by simp [hs]) hm
        (fun e => h (by simp [e]))
      have e : pre ++ (c :: t) = pre ++ [c] ++ t := by simp
      rw [e]
      exact this

theorem mp_scan_filename (b bd : Bytes) : ∀ (t pre rest : Bytes) (s : MpState), b = pre ++ (t ++ 34 :: rest) →
    s.byte = pre.length → s.mode = .filename → 34 ∉ t →
    MpReach b bd s { s with byte := (pre ++ t).length + 1, filenameEnd := (pre ++ t).length, mode := .header } := by
  intro t
  induction t with
  | nil =>
    intro pre rest s hb hs hm _
    have hlt : s.byte < b.length := by rw [hs, hb]; simp
    refine MpReach.step hlt ?_
    unfold mpStep
    rw [hm]
    dsimp only
    rw [show rd b s.byte = .ok 34 by rw [hs, hb]; exact rd_mid _ _ _]
    simp only [Res.ok_bind, List.append_nil, ← hs]
    rfl
  | cons c t ih =>
    intro pre rest s hb hs hm h
    have hc : c ≠ 34 := fun e => h (by simp [e])
    have hlt : s.byte < b.length := by rw [hs, hb]; simp
    refine (MpReach.step (s' := { s with byte := s.byte + 1 }) hlt ?_).trans ?_
    · unfold mpStep
      rw [hm]
      dsimp only
      rw [show rd b s.byte = .ok c by rw [hs, hb]; exact rd_mid _ _ _]
      simp only [Res.ok_bind]
      rw [if_neg hc, hm]
      rfl
    · have := ih (pre ++ [c]) rest { s with byte := s.byte + 1 } (by rw [hb]; simp) (by simp [hs]) hm
        (fun e => h (by simp [e]))
      have e : pre ++ (c :: t) = pre ++ [c] ++ t := by simp
      rw [e]
      exact this

theorem mp_scan_type (b bd : Bytes) : ∀ (t pre rest : Bytes) (s : MpState), b = pre ++ (t ++ 13 :: rest) →
    s.byte = pre.length → s.mode = .contentType → 13 ∉ t → 10 ∉ t →
    MpReach b bd s { s with byte := (pre ++ t).length, contentTypeEnd := (pre ++ t).length, mode := .header } := by
  intro t
  induction t with
  | nil =>
    intro pre rest s hb hs hm _ _
    have hlt : s.byte < b.length := by rw [hs, hb]; simp
    refine MpReach.step hlt ?_
    unfold mpStep
    rw [hm]
    dsimp only
    rw [show rd b s.byte = .ok 13 by rw [hs, hb]; exact rd_mid _ _ _]
    simp only [Res.ok_bind, List.append_nil, ← hs]
    rfl
  | cons c t ih =>
    intro pre rest s hb hs hm h h'
    have hc : ¬ (c = 13 ∨ c = 10) := by rintro (e | e); exact h (by simp [e]); exact h' (by simp [e])
    have hlt : s.byte < b.length := by rw [hs, hb]; simp
    refine (MpReach.step (s' := { s with byte := s.byte + 1 }) hlt ?_).trans ?_
    · unfold mpStep
      rw [hm]
      dsimp only
      rw [show rd b s.byte = .ok c by rw [hs, hb]; exact rd_mid _ _ _]
      simp only [Res.ok_bind]
      rw [if_neg hc]
      rw [hm]
      rfl
    · have := ih (pre ++ [c]) rest { s with byte := s.byte + 1 } (by rw [hb]; simp) (by simp [hs]) hm
        (fun e => h (by simp [e])) (fun e => h' (by simp [e]))
      have e : pre ++ (c :: t) = pre ++ [c] ++ t := by simp
      rw [e]
      exact this

theorem mp_scan_body (b bd : Bytes) : ∀ (t pre rest : Bytes) (s : MpState), b = pre ++ (t ++ rest) →
    s.byte = pre.length → s.mode = .body → (∀ t1 t2, t = t1 ++ t2 → t2 ≠ [] → ¬ bd <+: (t2 ++ rest)) →
    MpReach b bd s { s with byte := (pre ++ t).length } := by
  intro t
  induction t with
  | nil => intro pre rest s hb hs hm h; simp only [List.append_nil, ← hs]; exact .refl
  | cons c t ih =>
    intro pre rest s hb hs hm h
    have hlt : s.byte < b.length := by rw [hs, hb]; simp
    refine (MpReach.step (s' := { s with byte := s.byte + 1 }) hlt ?_).trans ?_
    · unfold mpStep
      rw [hm]
      dsimp only
      rw [if_neg (by rw [hs]; exact not_matchAt hb (h [] _ rfl (by simp))), hm]
    · have := ih (pre ++ [c]) rest { s with byte := s.byte + 1 } (by rw [hb]; simp) (by simp [hs]) hm
        (fun t1 t2 e hne => h (c :: t1) t2 (by simp [e]) hne)
      have e : pre ++ (c :: t) = pre ++ [c] ++ t := by simp
      rw [e]
      exact this

/-- The boundary does not occur before the place where it is expected. -/
theorem dashes_prefix (bd : Bytes) (m : Nat) (rest : Bytes) (hm : 1 ≤ m)
    (h : bd <+: List.replicate m 45 ++ (bd ++ rest)) : ∀ c ∈ bd, c = 45 := by
  obtain ⟨t, ht⟩ := h
  have key : ∀ i, ∀ hi : i < bd.length, bd[i] = 45 := by
    intro i
    induction i using Nat.strongRecOn with
    | ind i ih =>
      intro hi
      have e : (bd ++ t)[i]? = (List.replicate m 45 ++ (bd ++ rest))[i]? := by rw [ht]
      rw [List.getElem?_append_left hi, List.getElem?_eq_getElem hi] at e
      by_cases him : i < m
      · rw [List.getElem?_append_left (by simpa using him)] at e
        simp [him] at e
        exact e
      · rw [List.getElem?_append_right (by simp; omega), List.length_replicate,
          List.getElem?_append_left (by omega), List.getElem?_eq_getElem (by omega)] at e
        rw [Option.some.inj e]
        exact ih (i - m) (by omega) (by omega)
  intro c hc
  obtain ⟨i, hi, rfl⟩ := List.mem_iff_getElem.1 hc
  exact key i hi

theorem prefix_append_cases {p a c : Bytes} (h : p <+: a ++ c) : p <+: a ∨ ∃ d, p = a ++ d ∧ d <+: c := by
  rcases Nat.le_total p.length a.length with hl | hl
  · left
    exact List.prefix_of_prefix_length_le h (List.prefix_append a c) hl
  · right
    obtain ⟨d, hd⟩ := List.prefix_of_prefix_length_le (List.prefix_append a c) h hl
    refine ⟨d, hd.symm, ?_⟩
    rw [← hd] at h
    exact (List.prefix_append_right_inj a).1 h

theorem boundary_first {bd content : Bytes} (hb : BoundaryWF bd) (hc : ¬ bd <:+: content) (rest : Bytes) :
    ∀ t1 t2, content ++ b!"\r\n--" = t1 ++ t2 → t2 ≠ [] → ¬ bd <+: t2 ++ (bd ++ rest) := by
  obtain ⟨x, hx, hxd⟩ := hb.nondash
  obtain ⟨_, _, h13, h10⟩ := hb.chars
  intro t1 t2 e hne hp
  rcases List.append_eq_append_iff.1 e with ⟨as, h1, h2⟩ | ⟨bs, h1, h2⟩
  · -- t2 inside the literal
    have : t2 = b!"\r\n--" ∨ t2 = b!"\n--" ∨ t2 = b!"--" ∨ t2 = b!"-" := by
      match as, h2 with
      | [], h2 => left; simpa using h2.symm
      | [_], h2 => right; left; simp at h2; exact h2.2.symm
      | [_, _], h2 => right; right; left; simp at h2; exact h2.2.2.symm
      | [_, _, _], h2 => right; right; right; simp at h2; exact h2.2.2.2.symm
      | [_, _, _, _], h2 => simp at h2; exact absurd h2.2.2.2.2.symm (by simpa using hne)
      | _ :: _ :: _ :: _ :: _ :: _, h2 => simp at h2
    cases bd with
    | nil => simp at hx
    | cons c bd' =>
      rcases this with rfl | rfl | rfl | rfl
      · rw [List.cons_append, List.cons_prefix_cons] at hp; exact h13 (by simp [hp.1])
      · rw [List.cons_append, List.cons_prefix_cons] at hp; exact h10 (by simp [hp.1])
      · exact hxd (dashes_prefix _ 2 rest (by omega) hp x hx)
      · exact hxd (dashes_prefix _ 1 rest (by omega) hp x hx)
  · -- t2 starts in the content
    rw [h2, List.append_assoc] at hp
    rcases prefix_append_cases hp with hp | ⟨d, hd, hp⟩
    · apply hc
      rw [h1]
      obtain ⟨u, hu⟩ := hp
      exact ⟨t1, u, by rw [List.append_assoc, hu]⟩
    · cases d with
      | nil =>
        apply hc
        rw [h1, hd, List.append_nil]
        exact (List.suffix_append t1 bs).isInfix
      | cons c d =>
        simp only [List.cons_append] at hp
        rw [List.cons_prefix_cons] at hp
        exact h13 (by rw [hd]; simp [hp.1])

theorem mp_hit_name (b bd pre rest : Bytes) (s : MpState) (hb : b = pre ++ (b!"name=\"" ++ rest)) (hs : s.byte = pre.length)
    (hm : s.mode = .header) (h : s.nameEnd = b.length) :
    MpReach b bd s { s with byte := (pre ++ b!"name=\"").length, nameStart := (pre ++ b!"name=\"").length, mode := .name } := by
  refine MpReach.step (by rw [hs, hb]; simp) ?_
  unfold mpStep
  rw [hm]
  dsimp only
  unfold mpHeader
  dsimp only
  rw [if_pos ⟨h, by rw [hs]; exact is_matchAt hb (List.prefix_append _ _)⟩]
  simp [hs]

theorem mp_hit_filename (b bd pre rest : Bytes) (s : MpState) (hb : b = pre ++ (b!"filename=\"" ++ rest))
    (hs : s.byte = pre.length) (hm : s.mode = .header) (h : s.filenameEnd = b.length) :
    MpReach b bd s { s with
      byte := (pre ++ b!"filename=\"").length, filenameStart := (pre ++ b!"filename=\"").length, mode := .filename } := by
  refine MpReach.step (by rw [hs, hb]; simp) ?_
  unfold mpStep
  rw [hm]
  dsimp only
  unfold mpHeader
  dsimp only
  rw [if_neg (fun hh => not_matchAt hb (clash_noPrefix b!"name=\"" _ _ (by decide)) (by rw [← hs]; exact hh.2)),
    if_pos ⟨h, by rw [hs]; exact is_matchAt hb (List.prefix_append _ _)⟩]
  simp [hs]

theorem mp_hit_type (b bd pre rest : Bytes) (s : MpState) (hb : b = pre ++ (b!"Content-Type: " ++ rest))
    (hs : s.byte = pre.length) (hm : s.mode = .header) (h : s.contentTypeEnd = b.length) :
    MpReach b bd s { s with
      byte := (pre ++ b!"Content-Type: ").length, contentTypeStart := (pre ++ b!"Content-Type: ").length,
      mode := .contentType } := by
  refine MpReach.step (by rw [hs, hb]; simp) ?_
  unfold mpStep
  rw [hm]
  dsimp only
  unfold mpHeader
  dsimp only
  rw [if_neg (fun hh => not_matchAt hb (clash_noPrefix b!"name=\"" _ _ (by decide)) (by rw [← hs]; exact hh.2)),
    if_neg (fun hh => not_matchAt hb (clash_noPrefix b!"filename=\"" _ _ (by decide)) (by rw [← hs]; exact hh.2)),
    if_pos ⟨h, by rw [hs]; exact is_matchAt hb (List.prefix_append _ _)⟩]
  simp [hs]

theorem mp_hit_body (b bd pre rest : Bytes) (s : MpState) (hb : b = pre ++ (b!"\r\n\r\n" ++ rest))
    (hs : s.byte = pre.length) (hm : s.mode = .header) (h : s.bodyEnd = b.length) :
    MpReach b bd s { s with
      byte := (pre ++ b!"\r\n\r\n").length, bodyStart := (pre ++ b!"\r\n\r\n").length, mode := .body } := by
  refine MpReach.step (by rw [hs, hb]; simp) ?_
  unfold mpStep
  rw [hm]
  dsimp only
  unfold mpHeader
  dsimp only
  rw [if_neg (fun hh => not_matchAt hb (clash_noPrefix b!"name=\"" _ _ (by decide)) (by rw [← hs]; exact hh.2)),
    if_neg (fun hh => not_matchAt hb (clash_noPrefix b!"filename=\"" _ _ (by decide)) (by rw [← hs]; exact hh.2)),
    if_neg (fun hh => not_matchAt hb (clash_noPrefix b!"Content-Type: " _ _ (by decide)) (by rw [← hs]; exact hh.2)),
    if_pos ⟨h, by rw [hs]; exact is_matchAt hb (List.prefix_append _ _)⟩]
  simp [hs]

/-- All suffixes (except the empty one) of `lit` clash with the four keywords when followed by `more`. -/
def litClear (lit more : Bytes) : Bool :=
  (List.range lit.length).all fun k =>
    clash b!"name=\"" (lit.drop k ++ more) && clash b!"filename=\"" (lit.drop k ++ more) &&
    clash b!"Content-Type: " (lit.drop k ++ more) && clash b!"\r\n\r\n" (lit.drop k ++ more)

theorem litClear_noHit {b : Bytes} {s : MpState} {lit more : Bytes} (h : litClear lit more = true) (rest : Bytes) :
    ∀ t1 t2, lit = t1 ++ t2 → t2 ≠ [] → NoHit b s (t2 ++ (more ++ rest)) := by
  intro t1 t2 e hne
  unfold litClear at h
  rw [List.all_eq_true] at h
  have hpos := List.length_pos_iff.2 hne
  have := h t1.length (by rw [List.mem_range, e]; simp; omega)
  rw [show lit.drop t1.length = t2 by rw [e]; exact List.drop_left] at this
  simp only [Bool.and_eq_true] at this
  obtain ⟨⟨⟨h1, h2⟩, h3⟩, h4⟩ := this
  rw [← List.append_assoc]
  exact ⟨fun _ => clash_noPrefix _ _ _ h1, fun _ => clash_noPrefix _ _ _ h2, fun _ => clash_noPrefix _ _ _ h3,
    fun _ => clash_noPrefix _ _ _ h4⟩

/-- Text without quotes, colons and line breaks, in front of a line break. -/
theorem plain_noHit {b : Bytes} {s : MpState} {t : Bytes} (h : 34 ∉ t ∧ 58 ∉ t ∧ 13 ∉ t ∧ 10 ∉ t) (lit rest : Bytes)
    (hl : 13 ≤ lit.length) (hq : 34 ∉ lit.take 9) (hc : 58 ∉ lit.take 13) :
    ∀ t1 t2, t = t1 ++ t2 → t2 ≠ [] → NoHit b s (t2 ++ (lit ++ rest)) := by
  intro t1 t2 e hne
  have hsub : ∀ c, c ∈ t2 → c ∈ t := fun c hc => by rw [e]; simp [hc]
  have hpos := List.length_pos_iff.2 hne
  have tk : ∀ n (c : UInt8), n ≤ 13 → c ∉ t2 → c ∉ lit.take n → c ∉ (t2 ++ (lit ++ rest)).take (n+1) := by
    intro n c hn h1 h2 h3
    rw [List.take_append, List.mem_append] at h3
    rcases h3 with h3 | h3
    · exact h1 (List.mem_of_mem_take h3)
    · rw [List.take_append_of_le_length (by omega)] at h3
      apply h2
      have : (lit.take n).take (n + 1 - t2.length) = lit.take (n + 1 - t2.length) := by
        rw [List.take_take]; congr 1; omega
      rw [← this] at h3
      exact List.mem_of_mem_take h3
  have q9 := tk 9 34 (by omega) (fun h' => h.1 (hsub _ h')) hq
  have c13 := tk 13 58 (by omega) (fun h' => h.2.1 (hsub _ h')) hc
  refine ⟨fun _ => ?_, fun _ => ?_, fun _ => ?_, fun _ => ?_⟩
  · refine forbidden_noPrefix (q := 34) (by simp) ?_
    intro h'
    apply q9
    have : ((t2 ++ (lit ++ rest)).take 10).take 6 = (t2 ++ (lit ++ rest)).take 6 := by rw [List.take_take]; rfl
    exact List.mem_of_mem_take (this ▸ h')
  · exact forbidden_noPrefix (q := 34) (by simp) q9
  · exact forbidden_noPrefix (q := 58) (by simp) c13
  · cases t2 with
    | nil => exact absurd rfl hne
    | cons c t2 =>
      rw [List.cons_append, List.cons_prefix_cons]
      intro h'
      exact h.2.2.1 (hsub 13 (by simp [h'.1]))

/-- Put together: scanning plain text and then a clear literal. -/
theorem noHit_append {b : Bytes} {s : MpState} {t lit rest : Bytes}
    (h1 : ∀ t1 t2, t = t1 ++ t2 → t2 ≠ [] → NoHit b s (t2 ++ (lit ++ rest)))
    (h2 : ∀ t1 t2, lit = t1 ++ t2 → t2 ≠ [] → NoHit b s (t2 ++ rest)) :
    ∀ t1 t2, t ++ lit = t1 ++ t2 → t2 ≠ [] → NoHit b s (t2 ++ rest) := by
  intro t1 t2 e hne
  rcases List.append_eq_append_iff.1 e with ⟨as, h3, h4⟩ | ⟨bs, h3, h4⟩
  · exact h2 as t2 h4 hne
  · rw [h4]
    by_cases hb : bs = []
    · subst hb
      rw [List.nil_append] at h4 ⊢
      exact h2 [] lit rfl (by rwa [h4] at hne)
    · rw [List.append_assoc]; exact h1 t1 bs h3 hb

theorem mp_body_end (b bd pre content rest : Bytes) (s : MpState) (hbd : BoundaryWF bd) (hc : ¬ bd <:+: content)
    (hb : b = pre ++ (content ++ (b!"\r\n--" ++ (bd ++ rest)))) (hs : s.byte = pre.length) (hm : s.mode = .body)
    (hbs : s.bodyStart = pre.length) (s' : MpState)
    (hp : mpPart b { s with byte := (pre ++ (content ++ b!"\r\n--")).length } (pre ++ content).length = .ok s') :
    MpReach b bd s { s' with byte := s'.byte + 1 } := by
  obtain ⟨x, hx, _⟩ := hbd.nondash
  have hbpos : 0 < bd.length := List.length_pos_iff.2 (fun e => by simp [e] at hx)
  refine (mp_scan_body b bd (content ++ b!"\r\n--") pre (bd ++ rest) s (by rw [hb]; simp) hs hm
    (boundary_first hbd hc rest)).trans ?_
  refine MpReach.step ?_ ?_
  · dsimp only; rw [hb]; simp; omega
  · unfold mpStep
    dsimp only
    rw [hm]
    dsimp only
    have hb2 : b = (pre ++ (content ++ b!"\r\n--")) ++ (bd ++ rest) := by rw [hb]; simp
    rw [if_pos (is_matchAt hb2 (List.prefix_append _ _))]
    have hbe : mpBodyEnd b { s with byte := (pre ++ (content ++ b!"\r\n--")).length, mode := .body } =
        .ok (pre ++ content).length := by
      unfold mpBodyEnd
      dsimp only
      have e0 : (pre ++ (content ++ b!"\r\n--")).length = pre.length + content.length + 4 := by simp; omega
      rw [e0, hbs, if_neg (by omega), if_neg (by omega), if_pos (by omega)]
      have e1 : rd b (pre.length + content.length + 4 - 2 - 1) = .ok 10 := by
        have : b = (pre ++ content ++ [13]) ++ 10 :: (b!"--" ++ (bd ++ rest)) := by rw [hb]; simp
        rw [this, show pre.length + content.length + 4 - 2 - 1 = (pre ++ content ++ [13]).length by simp; omega]
        exact rd_mid _ _ _
      have e2 : rd b (pre.length + content.length + 4 - 2 - 2) = .ok 13 := by
        have : b = (pre ++ content) ++ 13 :: (b!"\n--" ++ (bd ++ rest)) := by rw [hb]; simp
        rw [this, show pre.length + content.length + 4 - 2 - 2 = (pre ++ content).length by simp]
        exact rd_mid _ _ _
      rw [e1, e2]
      simp
    rw [hm] at hp
    rw [hbe]
    simp only [Res.ok_bind]
    rw [hp]
    rfl

/-- The fields and files a list of parts denotes. -/
abbrev partPosts (ps : List Part) : List (Bytes × Bytes) := textFields ps
def partFiles (ps : List Part) : List (Bytes × File) :=
  (fileParts ps).map fun x => (x.1, ⟨x.2.1, x.2.2.1, x.2.2.2⟩)

/-- From the start of a part's header to just behind its quoted name. -/
theorem mp_part_name (b bd name t pre rest : Bytes) (posts files) (hname : 34 ∉ name)
    (ht : 34 ∉ t ∧ 58 ∉ t ∧ 13 ∉ t ∧ 10 ∉ t)
    (hb : b = pre ++ ((t ++ b!"\r\nContent-Disposition: form-data; ") ++ (b!"name=\"" ++ (name ++ 34 :: rest)))) :
    ∃ pre2, b = pre2 ++ (name ++ 34 :: rest) ∧
      MpReach b bd (.cleared b.length pre.length posts files)
        ⟨(pre2 ++ (name ++ [34])).length, .header, pre2.length, (pre2 ++ name).length, b.length, b.length, b.length,
          b.length, b.length, b.length, posts, files⟩ := by
  obtain ⟨pre1, hpre1⟩ : ∃ x, x = pre ++ (t ++ b!"\r\nContent-Disposition: form-data; ") := ⟨_, rfl⟩
  obtain ⟨pre2, hpre2⟩ : ∃ x, x = pre1 ++ b!"name=\"" := ⟨_, rfl⟩
  have hb1 : b = pre1 ++ (b!"name=\"" ++ (name ++ 34 :: rest)) := by rw [hpre1, hb]; simp
  have hb2 : b = pre2 ++ (name ++ 34 :: rest) := by rw [hpre2, hb1]; simp
  obtain ⟨L, hL⟩ : ∃ L, L = b.length := ⟨_, rfl⟩
  rw [← hL]
  refine ⟨pre2, hb2, ?_⟩
  have s1 : MpReach b bd (.cleared L pre.length posts files)
      ⟨pre1.length, .header, L, L, L, L, L, L, L, L, posts, files⟩ := by
    rw [hpre1]
    refine mp_scan_header b bd _ pre _ (.cleared L pre.length posts files) hb rfl rfl ?_
    refine noHit_append ?_ ?_
    · exact plain_noHit ht _ _ (by decide) (by decide) (by decide)
    · exact litClear_noHit (by decide +kernel) _
  have s2 : MpReach b bd ⟨pre1.length, .header, L, L, L, L, L, L, L, L, posts, files⟩
      ⟨pre2.length, .name, pre2.length, L, L, L, L, L, L, L, posts, files⟩ := by
    rw [hpre2]
    exact mp_hit_name b bd pre1 _ _ hb1 rfl rfl hL
  have s3 : MpReach b bd ⟨pre2.length, .name, pre2.length, L, L, L, L, L, L, L, posts, files⟩
      ⟨(pre2 ++ (name ++ [34])).length, .header, pre2.length, (pre2 ++ name).length, L, L, L, L, L, L, posts, files⟩ := by
    have e3 : (pre2 ++ (name ++ [34])).length = (pre2 ++ name).length + 1 := by simp; omega
    rw [e3]
    exact mp_scan_name b bd _ pre2 _ _ hb2 rfl rfl hname
  exact (s1.trans s2).trans s3

theorem range_mid {b pre x rest : Bytes} (hb : b = pre ++ (x ++ rest)) : range b pre.length (pre ++ x).length = .ok x := by
  unfold range
  rw [if_pos (by rw [hb]; simp), hb]
  congr 1
  rw [List.length_append]; exact slice_mid _ _ _ _ _ rfl rfl

theorem mp_part_text (b bd name content t pre rest : Bytes) (posts files) (hbd : BoundaryWF bd)
    (hname : 34 ∉ name) (hcontent : ¬ bd <:+: content) (ht : 34 ∉ t ∧ 58 ∉ t ∧ 13 ∉ t ∧ 10 ∉ t)
    (hb : b = pre ++ ((t ++ b!"\r\nContent-Disposition: form-data; ") ++ (b!"name=\"" ++
        (name ++ 34 :: (b!"\r\n\r\n" ++ (content ++ (b!"\r\n--" ++ (bd ++ rest)))))))) (q : Nat)
    (hq : q = b.length - (bd ++ rest).length) :
    MpReach b bd (.cleared b.length pre.length posts files)
      (.cleared b.length (q + 1) (posts ++ [(name, content)]) files) := by
  obtain ⟨pre2, hb2, s1⟩ := mp_part_name b bd name t pre _ posts files hname ht hb
  obtain ⟨pre3, hpre3⟩ : ∃ x, x = pre2 ++ (name ++ [34]) := ⟨_, rfl⟩
  have hb3 : b = pre3 ++ (b!"\r\n\r\n" ++ (content ++ (b!"\r\n--" ++ (bd ++ rest)))) := by rw [hpre3, hb2]; simp
  obtain ⟨pre4, hpre4⟩ : ∃ x, x = pre3 ++ b!"\r\n\r\n" := ⟨_, rfl⟩
  have hb4 : b = pre4 ++ (content ++ (b!"\r\n--" ++ (bd ++ rest))) := by rw [hpre4, hb3]; simp
  have hlen : b.length = pre4.length + content.length + 4 + bd.length + rest.length := by rw [hb4]; simp; omega
  have hlen4 : pre4.length = pre2.length + name.length + 5 := by rw [hpre4, hpre3]; simp; omega
  have hq' : q = (pre4 ++ (content ++ b!"\r\n--")).length := by rw [hq]; simp; omega
  rw [← hpre3] at s1
  obtain ⟨L, hL⟩ : ∃ L, L = b.length := ⟨_, rfl⟩
  rw [← hL] at s1 ⊢
  have s2 : MpReach b bd ⟨pre3.length, .header, pre2.length, (pre2 ++ name).length, L, L, L, L, L, L, posts, files⟩
      ⟨pre4.length, .body, pre2.length, (pre2 ++ name).length, L, L, L, L, pre4.length, L, posts, files⟩ := by
    rw [hpre4]
    exact mp_hit_body b bd _ _ _ hb3 rfl rfl hL
  refine (s1.trans s2).trans ?_
  refine mp_body_end b bd pre4 content rest ⟨pre4.length, .body, pre2.length, (pre2 ++ name).length, L, L, L, L,
    pre4.length, L, posts, files⟩ hbd hcontent hb4 rfl rfl rfl (.cleared L q (posts ++ [(name, content)]) files) ?_
  rw [← hq', hL]
  unfold mpPart
  dsimp only
  rw [if_pos (by simp; omega), range_mid hb2, range_mid hb4]
  simp

theorem mp_part_file (b bd name fn ty content t pre rest : Bytes) (posts files) (hbd : BoundaryWF bd)
    (hname : 34 ∉ name) (hfn : 34 ∉ fn) (hty1 : 13 ∉ ty) (hty2 : 10 ∉ ty)
    (hcontent : ¬ bd <:+: content) (ht : 34 ∉ t ∧ 58 ∉ t ∧ 13 ∉ t ∧ 10 ∉ t)
    (hb : b = pre ++ ((t ++ b!"\r\nContent-Disposition: form-data; ") ++ (b!"name=\"" ++
        (name ++ 34 :: (b!"; " ++ (b!"filename=\"" ++ (fn ++ 34 :: (b!"\r\n" ++ (b!"Content-Type: " ++
        (ty ++ (b!"\r\n\r\n" ++ (content ++ (b!"\r\n--" ++ (bd ++ rest)))))))))))))) (q : Nat)
    (hq : q = b.length - (bd ++ rest).length) :
    MpReach b bd (.cleared b.length pre.length posts files)
      (.cleared b.length (q + 1) posts (files ++ [(name, ⟨fn, ty, content⟩)])) := by
  obtain ⟨pre2, hb2, s1⟩ := mp_part_name b bd name t pre _ posts files hname ht hb
  clear hb
  obtain ⟨pre3, hpre3⟩ : ∃ x, x = pre2 ++ (name ++ [34]) := ⟨_, rfl⟩
  have hb3 : b = pre3 ++ (b!"; " ++ (b!"filename=\"" ++ (fn ++ 34 :: (b!"\r\n" ++ (b!"Content-Type: " ++
        (ty ++ (b!"\r\n\r\n" ++ (content ++ (b!"\r\n--" ++ (bd ++ rest)))))))))) := by
    rw [hpre3, hb2]; simp
  obtain ⟨pre4, hpre4⟩ : ∃ x, x = pre3 ++ b!"; " := ⟨_, rfl⟩
  have hb4 : b = pre4 ++ (b!"filename=\"" ++ (fn ++ 34 :: (b!"\r\n" ++ (b!"Content-Type: " ++
        (ty ++ (b!"\r\n\r\n" ++ (content ++ (b!"\r\n--" ++ (bd ++ rest))))))))) := by
    rw [hpre4, hb3]; simp
  obtain ⟨pre5, hpre5⟩ : ∃ x, x = pre4 ++ b!"filename=\"" := ⟨_, rfl⟩
  have hb5 : b = pre5 ++ (fn ++ 34 :: (b!"\r\n" ++ (b!"Content-Type: " ++
        (ty ++ (b!"\r\n\r\n" ++ (content ++ (b!"\r\n--" ++ (bd ++ rest)))))))) := by
    rw [hpre5, hb4]; simp
  obtain ⟨pre6, hpre6⟩ : ∃ x, x = pre5 ++ (fn ++ [34]) := ⟨_, rfl⟩
  have hb6 : b = pre6 ++ (b!"\r\n" ++ (b!"Content-Type: " ++
        (ty ++ (b!"\r\n\r\n" ++ (content ++ (b!"\r\n--" ++ (bd ++ rest))))))) := by
    rw [hpre6, hb5]; simp
  obtain ⟨pre7, hpre7⟩ : ∃ x, x = pre6 ++ b!"\r\n" := ⟨_, rfl⟩
  have hb7 : b = pre7 ++ (b!"Content-Type: " ++
        (ty ++ (b!"\r\n\r\n" ++ (content ++ (b!"\r\n--" ++ (bd ++ rest)))))) := by
    rw [hpre7, hb6]; simp
  obtain ⟨pre8, hpre8⟩ : ∃ x, x = pre7 ++ b!"Content-Type: " := ⟨_, rfl⟩
  have hb8 : b = pre8 ++ (ty ++ (b!"\r\n\r\n" ++ (content ++ (b!"\r\n--" ++ (bd ++ rest))))) := by
    rw [hpre8, hb7]; simp
  obtain ⟨pre9, hpre9⟩ : ∃ x, x = pre8 ++ ty := ⟨_, rfl⟩
  have hb9 : b = pre9 ++ (b!"\r\n\r\n" ++ (content ++ (b!"\r\n--" ++ (bd ++ rest)))) := by
    rw [hpre9, hb8]; simp
  obtain ⟨preA, hpreA⟩ : ∃ x, x = pre9 ++ b!"\r\n\r\n" := ⟨_, rfl⟩
  have hbA : b = preA ++ (content ++ (b!"\r\n--" ++ (bd ++ rest))) := by
    rw [hpreA, hb9]; simp
  have hlen : b.length = preA.length + content.length + 4 + bd.length + rest.length := by rw [hbA]; simp; omega
  have hlenA : preA.length = pre8.length + ty.length + 4 := by rw [hpreA, hpre9]; simp; try omega
  have hlen8 : pre8.length = pre5.length + fn.length + 17 := by rw [hpre8, hpre7, hpre6]; simp; try omega
  have hlen5 : pre5.length = pre2.length + name.length + 13 := by rw [hpre5, hpre4, hpre3]; simp; try omega
  have hq' : q = (preA ++ (content ++ b!"\r\n--")).length := by rw [hq]; simp; omega
  rw [← hpre3] at s1
  obtain ⟨L, hL⟩ : ∃ L, L = b.length := ⟨_, rfl⟩
  rw [← hL] at s1 ⊢
  obtain ⟨n1, hn1⟩ : ∃ x, x = (pre2 ++ name).length := ⟨_, rfl⟩
  obtain ⟨f1, hf1⟩ : ∃ x, x = (pre5 ++ fn).length := ⟨_, rfl⟩
  rw [← hn1] at s1
  have s2 : MpReach b bd ⟨pre3.length, .header, pre2.length, n1, L, L, L, L, L, L, posts, files⟩
      ⟨pre4.length, .header, pre2.length, n1, L, L, L, L, L, L, posts, files⟩ := by
    rw [hpre4]
    exact mp_scan_header b bd _ _ _ _ hb3 rfl rfl (litClear_noHit (by decide +kernel) _)
  have s3 : MpReach b bd ⟨pre4.length, .header, pre2.length, n1, L, L, L, L, L, L, posts, files⟩
      ⟨pre5.length, .filename, pre2.length, n1, pre5.length, L, L, L, L, L, posts, files⟩ := by
    rw [hpre5]
    exact mp_hit_filename b bd pre4 _ _ hb4 rfl rfl hL
  have s4 : MpReach b bd ⟨pre5.length, .filename, pre2.length, n1, pre5.length, L, L, L, L, L, posts, files⟩
      ⟨pre6.length, .header, pre2.length, n1, pre5.length, f1, L, L, L, L, posts, files⟩ := by
    have e3 : pre6.length = (pre5 ++ fn).length + 1 := by rw [hpre6]; simp; omega
    rw [e3, hf1]
    exact mp_scan_filename b bd _ pre5 _ _ hb5 rfl rfl hfn
  have s5 : MpReach b bd ⟨pre6.length, .header, pre2.length, n1, pre5.length, f1, L, L, L, L, posts, files⟩
      ⟨pre7.length, .header, pre2.length, n1, pre5.length, f1, L, L, L, L, posts, files⟩ := by
    rw [hpre7]
    exact mp_scan_header b bd _ _ _ _ hb6 rfl rfl (litClear_noHit (by decide +kernel) _)
  have s6 : MpReach b bd ⟨pre7.length, .header, pre2.length, n1, pre5.length, f1, L, L, L, L, posts, files⟩
      ⟨pre8.length, .contentType, pre2.length, n1, pre5.length, f1, pre8.length, L, L, L, posts, files⟩ := by
    rw [hpre8]
    exact mp_hit_type b bd pre7 _ _ hb7 rfl rfl hL
  have s7 : MpReach b bd ⟨pre8.length, .contentType, pre2.length, n1, pre5.length, f1, pre8.length, L, L, L, posts, files⟩
      ⟨pre9.length, .header, pre2.length, n1, pre5.length, f1, pre8.length, pre9.length, L, L, posts, files⟩ := by
    rw [hpre9]
    exact mp_scan_type b bd _ pre8 _ _ hb8 rfl rfl hty1 hty2
  have s8 : MpReach b bd ⟨pre9.length, .header, pre2.length, n1, pre5.length, f1, pre8.length, pre9.length, L, L, posts, files⟩
      ⟨preA.length, .body, pre2.length, n1, pre5.length, f1, pre8.length, pre9.length, preA.length, L, posts, files⟩ := by
    rw [hpreA]
    exact mp_hit_body b bd pre9 _ _ hb9 rfl rfl hL
  refine (((((((s1.trans s2).trans s3).trans s4).trans s5).trans s6).trans s7).trans s8).trans ?_
  refine mp_body_end b bd preA content rest ⟨preA.length, .body, pre2.length, n1, pre5.length, f1, pre8.length, pre9.length,
    preA.length, L, posts, files⟩ hbd hcontent hbA rfl rfl rfl (.cleared L q posts (files ++ [(name, ⟨fn, ty, content⟩)])) ?_
  have hl9 : pre9.length = pre8.length + ty.length := by rw [hpre9]; simp
  have hn1' : n1 = pre2.length + name.length := by rw [hn1]; simp
  have hf1' : f1 = pre5.length + fn.length := by rw [hf1]; simp
  have r1 : range b pre2.length n1 = .ok name := by rw [hn1]; exact range_mid hb2
  have r2 : range b pre5.length f1 = .ok fn := by rw [hf1]; exact range_mid hb5
  have r3 : range b pre8.length pre9.length = .ok ty := by rw [hpre9]; exact range_mid hb8
  have r4 := range_mid hbA
  rw [← hq', hL]
  unfold mpPart
  dsimp only
  rw [if_pos (by omega), r1]
  simp only [Res.ok_bind]
  rw [if_pos (by omega), r3]
  simp only [Res.ok_bind]
  rw [if_pos (by omega), r2]
  simp only [Res.ok_bind]
  rw [r4]
  rfl

theorem mp_part (b bd : Bytes) (p : Part) (t pre rest : Bytes) (posts files) (hbd : BoundaryWF bd) (hp : p.WF bd)
    (ht : 34 ∉ t ∧ 58 ∉ t ∧ 13 ∉ t ∧ 10 ∉ t)
    (hb : b = pre ++ (t ++ (b!"\r\n" ++ (p.header ++ (p.content ++ (b!"\r\n--" ++ (bd ++ rest))))))) :
    MpReach b bd (.cleared b.length pre.length posts files)
      (.cleared b.length ((pre ++ (t ++ (b!"\r\n" ++ (p.header ++ (p.content ++ b!"\r\n--"))))).length + 1)
        (posts ++ partPosts [p]) (files ++ partFiles [p])) := by
  have hq : (pre ++ (t ++ (b!"\r\n" ++ (p.header ++ (p.content ++ b!"\r\n--"))))).length = b.length - (bd ++ rest).length := by
    have : b.length = (pre ++ (t ++ (b!"\r\n" ++ (p.header ++ (p.content ++ b!"\r\n--")))) ++ (bd ++ rest)).length := by
      rw [hb]; simp
    rw [List.length_append] at this
    omega
  cases hf : p.file with
  | none =>
    simp only [partPosts, textFields, partFiles, fileParts, List.filterMap_cons, List.filterMap_nil, hf, List.append_nil, List.map_cons, List.map_nil]
    exact mp_part_text b bd p.name p.content t pre rest posts files hbd hp.name hp.content ht
      (by rw [hb]; simp [Part.header, hf]) _ hq
  | some ft =>
    obtain ⟨fn, ty⟩ := ft
    obtain ⟨hfn, hty1, hty2⟩ := hp.filename fn ty hf
    simp only [partPosts, textFields, partFiles, fileParts, List.filterMap_cons, List.filterMap_nil, hf, List.append_nil, List.map_cons, List.map_nil]
    exact mp_part_file b bd p.name fn ty p.content t pre rest posts files hbd hp.name hfn hty1 hty2 hp.content ht
      (by rw [hb]; simp [Part.header, hf]) _ hq

/-- All the parts: from inside a delimiter line to the end of the buffer. -/
theorem mp_parts (b bd : Bytes) (hbd : BoundaryWF bd) : ∀ (ps : List Part) (t pre : Bytes) (posts files),
    (∀ p ∈ ps, p.WF bd) → (34 ∉ t ∧ 58 ∉ t ∧ 13 ∉ t ∧ 10 ∉ t) →
    b = pre ++ (t ++ (multipart bd ps).drop (2 + bd.length)) →
    ∃ s', MpReach b bd (.cleared b.length pre.length posts files) s' ∧ b.length ≤ s'.byte ∧
      s'.posts = posts ++ partPosts ps ∧ s'.files = files ++ partFiles ps := by
  intro ps
  induction ps with
  | nil =>
    intro t pre posts files _ ht hb
    have e : (multipart bd []).drop (2 + bd.length) = b!"--\r\n" := by
      unfold multipart
      rw [show 2 + bd.length = (b!"--" ++ bd).length by simp; omega]
      exact List.drop_left
    rw [e] at hb
    refine ⟨_, mp_scan_header b bd (t ++ b!"--\r\n") pre [] _ (by rw [hb]; simp) rfl rfl ?_, ?_, ?_, ?_⟩
    · intro t1 t2 e hne
      have hsub : ∀ c, c ∈ t2 ++ [] → c ∈ t ++ b!"--\r\n" := fun c hc => by rw [e]; simpa using Or.inr hc
      have hq : 34 ∉ t ++ b!"--\r\n" := by simp [ht.1]
      have hc : 58 ∉ t ++ b!"--\r\n" := by simp [ht.2.1]
      refine ⟨fun _ => ?_, fun _ => ?_, fun _ => ?_, fun _ => ?_⟩
      · exact forbidden_noPrefix (q := 34) (by simp) (fun h => hq (hsub _ (List.mem_of_mem_take h)))
      · exact forbidden_noPrefix (q := 34) (by simp) (fun h => hq (hsub _ (List.mem_of_mem_take h)))
      · exact forbidden_noPrefix (q := 58) (by simp) (fun h => hc (hsub _ (List.mem_of_mem_take h)))
      · intro ⟨u, hu⟩
        have h2 : List.count 13 (t1 ++ t2) = 1 := by
          rw [← e, List.count_append, List.count_eq_zero.2 ht.2.2.1]; decide
        rw [List.append_nil] at hu
        rw [← hu] at h2
        simp only [List.count_append] at h2
        have h3 : List.count 13 b!"\r\n\r\n" = 2 := by decide
        omega
    · dsimp only; rw [hb]; simp
    · simp [MpState.cleared, partPosts, textFields]
    · simp [MpState.cleared, partFiles, fileParts]
  | cons p ps ih =>
    intro t pre posts files hps ht hb
    obtain ⟨x, hx, _⟩ := hbd.nondash
    have hm : ∃ r, multipart bd ps = b!"--" ++ (bd ++ r) ∧ (multipart bd ps).drop (2 + bd.length) = r := by
      have : ∃ r, multipart bd ps = b!"--" ++ (bd ++ r) := by
        cases ps with
        | nil => exact ⟨b!"--\r\n", by simp [multipart]⟩
        | cons q qs => exact ⟨b!"\r\n" ++ q.header ++ q.content ++ b!"\r\n" ++ multipart bd qs, by simp [multipart]⟩
      obtain ⟨r, hr⟩ := this
      refine ⟨r, hr, ?_⟩
      rw [hr, ← List.append_assoc, show 2 + bd.length = (b!"--" ++ bd).length by simp; omega]
      exact List.drop_left
    obtain ⟨r, hr1, hr2⟩ := hm
    have e : (multipart bd (p :: ps)).drop (2 + bd.length) =
        b!"\r\n" ++ (p.header ++ (p.content ++ (b!"\r\n--" ++ (bd ++ r)))) := by
      unfold multipart
      rw [hr1, show 2 + bd.length = (b!"--" ++ bd).length by simp; omega]
      simp only [List.append_assoc]
      rw [← List.append_assoc b!"--" bd, List.drop_left]
      simp
    rw [e] at hb
    have h1 := mp_part b bd p t pre r posts files hbd (hps p (by simp)) ht hb
    obtain ⟨c, bd', rfl⟩ : ∃ c bd', bd = c :: bd' := by
      cases bd with
      | nil => simp at hx
      | cons c bd' => exact ⟨c, bd', rfl⟩
    obtain ⟨hc1, hc2, hc3, hc4⟩ := hbd.chars
    have h2 := ih bd' (pre ++ (t ++ (b!"\r\n" ++ (p.header ++ (p.content ++ b!"\r\n--")))) ++ [c])
      (posts ++ partPosts [p]) (files ++ partFiles [p]) (fun q hq => hps q (by simp [hq]))
      ⟨fun h => hc1 (by simp [h]), fun h => hc2 (by simp [h]), fun h => hc3 (by simp [h]), fun h => hc4 (by simp [h])⟩
      (by rw [hr2]; rw [hb]; simp)
    obtain ⟨s', h3, h4, h5, h6⟩ := h2
    refine ⟨s', h1.trans ?_, h4, ?_, ?_⟩
    · rw [List.length_append, List.length_singleton] at h3; exact h3
    · rw [h5, List.append_assoc]; congr 1; simp only [partPosts, textFields, ← List.filterMap_append]; rfl
    · rw [h6, List.append_assoc]; congr 1; simp only [partFiles, fileParts, ← List.filterMap_append, ← List.map_append]; rfl

theorem parsePostsMultipart_parts (env : Env) (ps : List Part) (hbd : BoundaryWF env.boundary)
    (hps : ∀ p ∈ ps, p.WF env.boundary) (hb : env.postBuffer = multipart env.boundary ps) :
    parsePostsMultipart env = .ok { env with posts := env.posts ++ partPosts ps, files := env.files ++ partFiles ps } := by
  obtain ⟨r, hr⟩ := mpLoop_total env.postBuffer env.boundary (2 * env.postBuffer.length + 2)
    (.cleared env.postBuffer.length 0 env.posts env.files) (MpInv.cleared _ _ (by omega) _ _) (by
      simp [mpMeasure, MpState.cleared])
  have hm : env.postBuffer = [] ++ ((b!"--" ++ env.boundary) ++ (multipart env.boundary ps).drop (2 + env.boundary.length)) := by
    rw [hb]
    have : b!"--" ++ env.boundary = (multipart env.boundary ps).take (2 + env.boundary.length) := by
      rw [show 2 + env.boundary.length = (b!"--" ++ env.boundary).length by simp; omega]
      cases ps with
      | nil => unfold multipart; exact List.take_left.symm
      | cons q qs => unfold multipart; simp only [List.append_assoc]; rw [← List.append_assoc, List.take_left]
    rw [this, List.nil_append, List.take_append_drop]
  obtain ⟨h1, h2, h3, h4⟩ := hbd.chars
  obtain ⟨s', h5, h6, h7, h8⟩ := mp_parts env.postBuffer env.boundary hbd ps (b!"--" ++ env.boundary) [] env.posts env.files hps
    (by simp [h1, h2, h3, h4]) hm
  have := h5.final h6 hr
  subst this
  unfold parsePostsMultipart
  dsimp only
  rw [hr]
  simp only [Res.ok_bind, h7, h8]
  rfl

end Fcgi.Model
