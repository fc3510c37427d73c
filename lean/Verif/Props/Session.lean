import Verif.Lemmas.Session
/-! # Properties C31–C34, C61, C62: base64 and sessions -/
namespace Fcgi.Props
open Fcgi Fcgi.Model Fcgi.Spec

/-! ## C31 round trip -/

/-- `base64Encode` is the encoding of RFC 4648, for every input. -/
theorem C31_encode (data : Bytes) : base64Encode data = .ok (base64 data) := by
  unfold base64Encode
  rw [enc_spec data _ 0 0 [] (by omega), List.nil_append]

/-- Decoding an encoding returns the data: the returned iterator is past the last byte, and what was
written starts with the data (at most one scratch byte follows, inside the documented room). -/
theorem C31_roundtrip (data : Bytes) (cap : Nat) (hcap : (base64 data).length * 3 / 4 ≤ cap) :
    ∃ text written, base64Encode data = .ok text ∧ base64Decode cap (codes text) = .ok (data.length, written) ∧
      written.take data.length = data ∧ written.length ≤ (base64 data).length * 3 / 4 := by
  obtain ⟨extra, h1, h2⟩ := dec_base64 data (3 * (codes (base64 data)).length + 3) cap 0 0 [] (by simp [codes]) (by simpa using hcap)
  refine ⟨_, data ++ extra, C31_encode data, ?_, by simp, ?_⟩
  · unfold base64Decode; rw [h2]; simp
  · have hl := base64_length data
    have : extra.length = 0 ∨ (data.length % 3 ≠ 0) := by
      by_cases h : data.length % 3 = 0
      · left
        -- with whole groups the loop ends without a scratch byte
        obtain ⟨k, hk⟩ : ∃ k, data.length = 3 * k := ⟨data.length / 3, by omega⟩
        have : ∀ (k : Nat) (d : Bytes), d.length = 3 * k → ∃ vs : List Nat, codes (base64 d) = vs.map code64 ∧ vs.length = 4 * k ∧ ∀ v ∈ vs, v < 64 := by
          intro k
          induction k with
          | zero => intro d hd; exact ⟨[], by simp [List.length_eq_zero_iff.1 (show d.length = 0 by omega), base64, codes], rfl, by simp⟩
          | succ k ih =>
            intro d hd
            match d, hd with
            | a :: b :: c :: r, hd =>
              obtain ⟨vs, e1, e2, e3⟩ := ih r (by simp at hd; omega)
              have ht := triple_lt a b c
              refine ⟨[triple a b c / 64^3, triple a b c / 64^2 % 64, triple a b c / 64 % 64, triple a b c % 64] ++ vs, ?_, by simp; omega, ?_⟩
              · rw [List.map_append, ← e1]; rfl
              · intro v hv
                simp only [List.cons_append, List.nil_append, List.mem_cons] at hv
                rcases hv with rfl | rfl | rfl | rfl | hv
                · omega
                · omega
                · omega
                · omega
                · exact e3 v hv
        obtain ⟨vs, e1, e2, e3⟩ := this k data hk
        have hlen : (codes (base64 data)).length = 4 * k := by rw [e1]; simp [e2]
        have hlen' : (base64 data).length = 4 * k := by simpa [codes] using hlen
        obtain ⟨b', p', g1, g2⟩ := dec_groups cap vs k e2 e3 (3 * (codes (base64 data)).length + 3 - 3 * k) [] 0 0 [] (by simp; omega)
        rw [List.append_nil, ← e1, show 3 * (codes (base64 data)).length + 3 - 3 * k + 3 * k = 3 * (codes (base64 data)).length + 3 by omega, h2] at g1
        obtain ⟨f, hf⟩ : ∃ f, 3 * (codes (base64 data)).length + 3 - 3 * k = f + 1 := ⟨3 * (codes (base64 data)).length + 2 - 3 * k, by omega⟩
        rw [hf, dec_end] at g1
        simp only [Res.ok.injEq, Prod.mk.injEq] at g1
        have := congrArg List.length g1.2
        simp only [List.length_append, List.nil_append, List.length_nil, g2] at this
        omega
      · exact Or.inr h
    simp only [List.length_append]
    omega

/-- The length of the encoding, and the characters it uses. -/
theorem C31_length (data : Bytes) : (base64 data).length = 4 * ((data.length + 2) / 3) := base64_length data
theorem C31_characters (data : Bytes) : ∀ c ∈ base64 data, c ∈ alphabet ∨ c = 61 := by
  have hc : ∀ v, v < 64 → char64 v ∈ alphabet := by
    intro v hv
    have : ∀ i : Fin 64, char64 i.val ∈ alphabet := by decide +kernel
    exact this ⟨v, hv⟩
  induction data using base64.induct with
  | case1 => simp [base64]
  | case2 a =>
    have ht := triple_lt a 0 0
    intro c h
    simp only [base64, List.mem_cons, List.not_mem_nil, or_false] at h
    rcases h with rfl | rfl | rfl | rfl
    · exact Or.inl (hc _ (by omega))
    · exact Or.inl (hc _ (by omega))
    · exact Or.inr rfl
    · exact Or.inr rfl
  | case3 a b =>
    have ht := triple_lt a b 0
    intro c h
    simp only [base64, List.mem_cons, List.not_mem_nil, or_false] at h
    rcases h with rfl | rfl | rfl | rfl
    · exact Or.inl (hc _ (by omega))
    · exact Or.inl (hc _ (by omega))
    · exact Or.inl (hc _ (by omega))
    · exact Or.inr rfl
  | case4 a b c rest ih =>
    have ht := triple_lt a b c
    intro x h
    simp only [base64, List.mem_cons, List.cons_append, List.nil_append] at h
    rcases h with rfl | rfl | rfl | rfl | h
    · exact Or.inl (hc _ (by omega))
    · exact Or.inl (hc _ (by omega))
    · exact Or.inl (hc _ (by omega))
    · exact Or.inl (hc _ (by omega))
    · exact ih x h
example : base64 b!"Man" = b!"TWFu" ∧ base64 b!"Ma" = b!"TWE=" ∧ base64 b!"light work" = b!"bGlnaHQgd29yaw==" := by decide +kernel
example : base64Decode 12 (codes b!"bGlnaHQgd29yaw==") = .ok (10, b!"light work" ++ [0]) := by decide +kernel

/-! ## C32 arbitrary text -/

/-- The character is one of the 64 digits. -/
def IsDigit64 (c : Int) : Prop := ∃ d ∈ alphabet, c = (d.toNat : Int)

theorem isDigit64_value {c : Int} : IsDigit64 c ↔ ∃ v, b64Digit c = .value v := by
  constructor
  · rintro ⟨d, hd, rfl⟩
    have : ∀ d ∈ alphabet, ∃ v ∈ List.range 64, b64Digit (d.toNat : Int) = .value v := by decide +kernel
    obtain ⟨v, _, h⟩ := this d hd
    exact ⟨v, h⟩
  · rintro ⟨v, h⟩
    obtain ⟨h1, h2⟩ := digit_value h
    have : ∀ i : Fin 64, char64 i.val ∈ alphabet := by decide +kernel
    exact ⟨char64 v, this ⟨v, h1⟩, h2⟩

theorem isDigit64_vals : ∀ l : List Int, (∀ c ∈ l, IsDigit64 c) → ∃ vals : List Nat, l = vals.map code64 ∧ ∀ v ∈ vals, v < 64 := by
  intro l
  induction l with
  | nil => intro _; exact ⟨[], rfl, by simp⟩
  | cons c l ih =>
    intro h
    obtain ⟨vals, e1, e2⟩ := ih (fun c hc => h c (by simp [hc]))
    obtain ⟨v, hv⟩ := isDigit64_value.1 (h c (by simp))
    obtain ⟨h1, h2⟩ := digit_value hv
    refine ⟨v :: vals, by rw [e1, h2]; rfl, ?_⟩
    intro x hx
    rcases List.mem_cons.1 hx with rfl | hx
    · exact h1
    · exact e2 x hx

theorem decode_split (cap : Nat) (vals : List Nat) (hv : ∀ v ∈ vals, v < 64) (rest : List Int)
    (hcap : (vals.length + rest.length) * 3 / 4 ≤ cap) :
    ∃ full part buf ps f, vals = full ++ part ∧ part.length = vals.length % 4 ∧ (unbase64 full).length = 3 * (vals.length / 4) ∧
      (∀ v ∈ part, v < 64) ∧
      base64Decode cap (vals.map code64 ++ rest) = decLoop cap (f + 3) (part.map code64 ++ rest) buf (-8) ps (unbase64 full) := by
  obtain ⟨full, part, e, h1, h2⟩ := vals_split vals
  obtain ⟨buf, ps, g1, g2⟩ := dec_groups cap full (vals.length / 4) h1 (fun v h => hv v (by rw [e]; simp [h]))
    (3 * (vals.map code64 ++ rest).length - 3 * (vals.length / 4) + 3) (part.map code64 ++ rest) 0 0 [] (by simp; omega)
  refine ⟨full, part, buf, ps, 3 * (vals.map code64 ++ rest).length - 3 * (vals.length / 4), e, h2, g2,
    fun v h => hv v (by rw [e]; simp [h]), ?_⟩
  have hl : vals.length / 4 ≤ (vals.map code64 ++ rest).length := by simp; omega
  unfold base64Decode
  rw [List.nil_append] at g1
  rw [← g1]
  congr 1
  · omega
  · rw [← List.append_assoc, ← List.map_append, ← e]

/-- Decoding any text into the documented room (three quarters of its length) plus one byte is safe and
terminates; the returned length is within the documented bound. -/
theorem C32_safe_partial (text : List Int) (cap : Nat) (hcap : text.length * 3 / 4 + 1 ≤ cap) :
    ∃ n written, base64Decode cap text = .ok (n, written) ∧ n ≤ written.length ∧ n ≤ text.length * 3 / 4 ∧
      written.length ≤ text.length * 3 / 4 + 1 := by
  obtain ⟨vals, rest, rfl, hv, hr⟩ := digit_split text
  simp only [List.length_append, List.length_map] at hcap ⊢
  obtain ⟨full, part, buf, ps, f, e, hp, hu, hpv, hd⟩ := decode_split cap vals hv rest (by omega)
  rw [hd]
  have hpl : part.length < 4 := by omega
  rcases hr with rfl | ⟨c, t, rfl, hc | rfl⟩
  · rw [List.append_nil]
    by_cases hpe : part = []
    · subst hpe
      rw [List.map_nil, dec_end]
      exact ⟨_, _, rfl, by omega, by simp; omega, by simp; omega⟩
    · rw [dec_short cap _ part (by omega) hpe hpv]
      exact ⟨_, _, rfl, by omega, by omega, by simp; omega⟩
  · rw [dec_foreign cap _ part (by omega) hpv c hc]
    exact ⟨_, _, rfl, by omega, by omega, by simp; omega⟩
  · simp only [List.length_cons] at hcap ⊢
    match part, hpl, hp, hpv with
    | [], _, hp, _ =>
      simp only [List.length_nil] at hp
      rw [List.map_nil, List.nil_append, dec_pad0, if_neg (by omega)]
      exact ⟨_, _, rfl, by simp, by omega, by simp; omega⟩
    | [a], _, hp, hpv =>
      simp only [List.length_cons, List.length_nil] at hp
      simp only [List.map_cons, List.map_nil, List.cons_append, List.nil_append]
      rw [dec_pad1 cap _ a (hpv a (by simp)) t buf ps _ (by omega)]
      exact ⟨_, _, rfl, by simp, by omega, by simp; omega⟩
    | [a, b], _, hp, hpv =>
      simp only [List.length_cons, List.length_nil] at hp
      simp only [List.map_cons, List.map_nil, List.cons_append, List.nil_append]
      obtain ⟨x, hx⟩ := dec_pad2 cap (f + 1) a b (hpv a (by simp)) (hpv b (by simp)) t buf ps (unbase64 full) (by omega)
      rw [hx]
      exact ⟨_, _, rfl, by simp [lastBytes], by omega, by simp [lastBytes]; omega⟩
    | [a, b, c], _, hp, hpv =>
      simp only [List.length_cons, List.length_nil] at hp
      simp only [List.map_cons, List.map_nil, List.cons_append, List.nil_append]
      rw [dec_pad3 cap (f + 1) a b c (hpv a (by simp)) (hpv b (by simp)) (hpv c (by simp)) t buf ps (unbase64 full) (by omega)]
      exact ⟨_, _, rfl, by simp [lastBytes], by omega, by simp [lastBytes]; omega⟩

/-- Text of digits only is accepted exactly when its length is a multiple of four, and then decodes to
what it stands for. -/
theorem C32_digits (text : List Int) (h : ∀ c ∈ text, IsDigit64 c) (cap : Nat) (hcap : text.length * 3 / 4 ≤ cap) :
    (text.length % 4 = 0 → ∃ vals, text = vals.map code64 ∧ base64Decode cap text = .ok (text.length * 3 / 4, unbase64 vals)) ∧
    (text.length % 4 ≠ 0 → ∃ w, base64Decode cap text = .ok (0, w)) := by
  obtain ⟨vals, rfl, hv⟩ := isDigit64_vals text h
  simp only [List.length_map] at hcap ⊢
  obtain ⟨full, part, buf, ps, f, e, hp, hu, hpv, hd⟩ := decode_split cap vals hv [] (by simpa using hcap)
  rw [List.append_nil, List.append_nil] at hd
  refine ⟨fun h0 => ⟨vals, rfl, ?_⟩, fun h0 => ?_⟩
  · have : part = [] := List.length_eq_zero_iff.1 (by omega)
    subst this
    have hf : full = vals := by rw [e, List.append_nil]
    rw [hd, List.map_nil, dec_end, hu, hf, show 3 * (vals.length / 4) = vals.length * 3 / 4 by omega]
  · have : part ≠ [] := fun hh => h0 (by rw [← hp, hh]; rfl)
    rw [hd, dec_short cap _ part (by omega) this hpv]
    exact ⟨_, rfl⟩

/-- A character that is neither a digit nor '=', before any '=', makes the result "an error occurred". -/
theorem C32_foreign (digits : List Int) (h : ∀ c ∈ digits, IsDigit64 c) (c : Int) (hc : ¬ IsDigit64 c ∧ c ≠ 61) (t : List Int)
    (cap : Nat) (hcap : (digits ++ c :: t).length * 3 / 4 ≤ cap) : ∃ w, base64Decode cap (digits ++ c :: t) = .ok (0, w) := by
  obtain ⟨vals, rfl, hv⟩ := isDigit64_vals digits h
  obtain ⟨full, part, buf, ps, f, e, hp, hu, hpv, hd⟩ := decode_split cap vals hv (c :: t) (by simpa using hcap)
  have hf : b64Digit c = .foreign := by
    cases hh : b64Digit c with
    | value v => exact absurd (isDigit64_value.2 ⟨v, hh⟩) hc.1
    | pad => exact absurd (digit_pad.1 hh) hc.2
    | foreign => rfl
  rw [hd, dec_foreign cap _ part (by omega) hpv c hf]
  exact ⟨_, rfl⟩

/-- The documented room is not enough: whole groups followed by a single '=' make the decoder write one
byte beyond three quarters of the text's length. -/
theorem C32_violated_write (digits : List Int) (h : ∀ c ∈ digits, IsDigit64 c) (h4 : digits.length % 4 = 0) :
    base64Decode ((digits ++ [61]).length * 3 / 4) (digits ++ [61]) = .ub .oobWrite := by
  obtain ⟨vals, rfl, hv⟩ := isDigit64_vals digits h
  rw [List.length_map] at h4
  obtain ⟨full, part, buf, ps, f, e, hp, hu, hpv, hd⟩ := decode_split ((vals.map code64 ++ [61]).length * 3 / 4) vals hv [61] (Nat.le_of_eq (by simp))
  have : part = [] := List.length_eq_zero_iff.1 (by omega)
  subst this
  rw [hd, List.map_nil, List.nil_append, dec_pad0, if_pos (by rw [hu]; simp; omega)]

/-- Anything may follow a '=': it is not looked at, and the text is accepted. -/
theorem C32_violated_accept (a b : Int) (h : IsDigit64 a ∧ IsDigit64 b) (anything : List Int) (cap : Nat) (hcap : 2 ≤ cap) :
    ∃ w, base64Decode cap (a :: b :: 61 :: anything) = .ok (1, w) := by
  obtain ⟨va, ha⟩ := isDigit64_value.1 h.1
  obtain ⟨vb, hb⟩ := isDigit64_value.1 h.2
  obtain ⟨a1, rfl⟩ := digit_value ha
  obtain ⟨b1, rfl⟩ := digit_value hb
  unfold base64Decode
  simp only [List.length_cons]
  rw [show 3 * (anything.length + 1 + 1 + 1) + 3 = (3 * anything.length + 10) + 2 by omega]
  obtain ⟨x, hx⟩ := dec_pad2 cap (3 * anything.length + 10) va vb a1 b1 anything 0 0 [] (by simpa using hcap)
  exact ⟨_, hx⟩
example : base64Decode 3 (codes b!"TWFu=") = .ub .oobWrite := by decide +kernel
example : base64Decode 5 (codes b!"TWF~") = .ok (0, []) ∧ base64Decode 5 (codes b!"TQ=!~") = .ok (1, b!"M" ++ [0]) := by decide +kernel
example : IsDigit64 84 ∧ ¬ IsDigit64 (-61) := ⟨⟨84, by decide, rfl⟩, by rw [isDigit64_value]; rintro ⟨v, hv⟩; rw [show b64Digit (-61) = .foreign from by decide] at hv; cases hv⟩

/-! ## C33 session identifiers -/

/-- Printing an identifier and constructing one from the text (possibly with more text behind it) gives
the same bytes, whatever the memory of the new object held. -/
theorem C33_roundtrip (x : SessionId) (hx : x.data.length = 15) (garbage : Bytes) (hg : garbage.length = 15) (more : List Int) (now : Int) :
    ∃ text, showSessionId x = .ok text ∧ text.length = 20 ∧ sessionIdOfText garbage (codes text ++ more) now = .ok ⟨x.data, now⟩ := by
  have hl : (base64 x.data).length = 20 := by rw [base64_length, hx]
  obtain ⟨text, written, h1, h2, h3, h4⟩ := C31_roundtrip x.data 15 (by rw [hl]; decide)
  have ht : text = base64 x.data := by rw [C31_encode] at h1; cases h1; rfl
  subst ht
  refine ⟨_, h1, hl, ?_⟩
  have hc : (codes (base64 x.data)).length = 20 := by simp [codes, hl]
  have htake : (codes (base64 x.data) ++ more).take (min sessionIdStringLength (codes (base64 x.data) ++ more).length) = codes (base64 x.data) := by
    rw [List.length_append, hc, show min sessionIdStringLength (20 + more.length) = 20 by simp [sessionIdStringLength], ← hc, List.take_left]
  have hw : written.length = 15 := by
    have h5 := congrArg List.length h3
    simp only [List.length_take, hx] at h5
    rw [hl] at h4
    omega
  have hwd : written = x.data := by rw [← h3, hx, ← hw, List.take_length]
  unfold sessionIdOfText
  rw [htake, show base64Decode sessionIdSize (codes (base64 x.data)) = _ from h2]
  simp [hwd, hx, List.drop_eq_nil_of_le (Nat.le_of_eq hg)]

/-- Different identifiers print differently. -/
theorem C33_distinct (x y : SessionId) (hx : x.data.length = 15) (hy : y.data.length = 15) (h : showSessionId x = showSessionId y) :
    x.data = y.data := by
  obtain ⟨t, a1, _, a2⟩ := C33_roundtrip x hx (List.replicate 15 0) rfl [] 0
  obtain ⟨t', b1, _, b2⟩ := C33_roundtrip y hy (List.replicate 15 0) rfl [] 0
  rw [h, b1] at a1
  cases a1
  rw [a2] at b2
  simpa using b2
example : showSessionId ⟨List.replicate 15 255, 0⟩ = .ok (List.replicate 20 47) := by decide +kernel

/-! ## C61 identifiers from foreign text -/

/-- Constructing an identifier from any text is safe. -/
theorem C61_safe (garbage : Bytes) (hg : garbage.length = 15) (text : List Int) (now : Int) :
    ∃ x, sessionIdOfText garbage text now = .ok x ∧ x.data.length = 15 ∧ x.timestamp = now := by
  have hlen : (text.take (min sessionIdStringLength text.length)).length ≤ 20 := by simp [sessionIdStringLength]; omega
  unfold sessionIdOfText
  generalize text.take (min sessionIdStringLength text.length) = t at hlen ⊢
  have key : ∃ n w, base64Decode sessionIdSize t = .ok (n, w) ∧ w.length ≤ 15 := by
    by_cases h : t.length * 3 / 4 + 1 ≤ 15
    · obtain ⟨n, w, h1, _, _, h2⟩ := C32_safe_partial t 15 h
      exact ⟨n, w, h1, by omega⟩
    · have h20 : t.length = 20 := by omega
      obtain ⟨vals, rest, rfl, hv, hr⟩ := digit_split t
      simp only [List.length_append, List.length_map] at h20
      obtain ⟨full, part, buf, ps, f, e, hp, hu, hpv, hd⟩ := decode_split 15 vals hv rest (by omega)
      rw [show sessionIdSize = 15 from rfl, hd]
      have hpl : part.length < 4 := by omega
      rcases hr with rfl | ⟨c, t, rfl, hc | rfl⟩
      · rw [List.append_nil]
        have : part = [] := List.length_eq_zero_iff.1 (by simp at h20; omega)
        subst this
        rw [List.map_nil, dec_end]
        exact ⟨_, _, rfl, by omega⟩
      · rw [dec_foreign 15 _ part (by omega) hpv c hc]
        exact ⟨_, _, rfl, by omega⟩
      · simp only [List.length_cons] at h20
        match part, hpl, hp, hpv with
        | [], _, hp, _ =>
          simp only [List.length_nil] at hp
          rw [List.map_nil, List.nil_append, dec_pad0, if_neg (by omega)]
          exact ⟨_, _, rfl, by simp; omega⟩
        | [a], _, hp, hpv =>
          simp only [List.length_cons, List.length_nil] at hp
          simp only [List.map_cons, List.map_nil, List.cons_append, List.nil_append]
          rw [dec_pad1 15 _ a (hpv a (by simp)) t buf ps _ (by omega)]
          exact ⟨_, _, rfl, by simp; omega⟩
        | [a, b], _, hp, hpv =>
          simp only [List.length_cons, List.length_nil] at hp
          simp only [List.map_cons, List.map_nil, List.cons_append, List.nil_append]
          obtain ⟨x, hx⟩ := dec_pad2 15 (f + 1) a b (hpv a (by simp)) (hpv b (by simp)) t buf ps (unbase64 full) (by omega)
          rw [hx]
          exact ⟨_, _, rfl, by simp [lastBytes]; omega⟩
        | [a, b, c], _, hp, hpv =>
          simp only [List.length_cons, List.length_nil] at hp
          simp only [List.map_cons, List.map_nil, List.cons_append, List.nil_append]
          rw [dec_pad3 15 (f + 1) a b c (hpv a (by simp)) (hpv b (by simp)) (hpv c (by simp)) t buf ps (unbase64 full) (by omega)]
          exact ⟨_, _, rfl, by simp [lastBytes]; omega⟩
  obtain ⟨n, w, h1, h2⟩ := key
  refine ⟨⟨w ++ garbage.drop w.length, now⟩, ?_, by simp; omega, rfl⟩
  rw [h1]; rfl

/-- Twenty digits determine the identifier. -/
theorem C61_determined_partial (text : List Int) (h : ∀ c ∈ text.take 20, IsDigit64 c) (h20 : 20 ≤ text.length) (now : Int) :
    ∃ data, data.length = 15 ∧ ∀ garbage : Bytes, garbage.length = 15 → sessionIdOfText garbage text now = .ok ⟨data, now⟩ := by
  obtain ⟨vals, e, hv⟩ := isDigit64_vals _ h
  have hl : (text.take 20).length = 20 := by simp; omega
  obtain ⟨h1, _⟩ := C32_digits (text.take 20) h 15 (by rw [hl]; decide)
  obtain ⟨vals, e, hd⟩ := h1 (by rw [hl])
  have hul : (unbase64 vals).length = 15 := by
    have hvl : vals.length = 20 := by rw [e, List.length_map] at hl; exact hl
    match vals, hvl with
    | [_, _, _, _, _, _, _, _, _, _, _, _, _, _, _, _, _, _, _, _], _ => rfl
  refine ⟨unbase64 vals, hul, ?_⟩
  intro garbage hg
  unfold sessionIdOfText
  rw [show min sessionIdStringLength text.length = 20 by simp [sessionIdStringLength]; omega]
  rw [show base64Decode sessionIdSize (text.take 20) = _ from hd]
  simp [hul, List.drop_eq_nil_of_le (Nat.le_of_eq hg)]

/-- The empty text, and any text starting with a character that is not base64, leave the identifier as it
was found in memory: it may well be the identifier of somebody else's session. -/
theorem C61_violated (garbage : Bytes) (now : Int) :
    sessionIdOfText garbage [] now = .ok ⟨garbage, now⟩ ∧
    ∀ c t, ¬ IsDigit64 c → c ≠ 61 → sessionIdOfText garbage (c :: t) now = .ok ⟨garbage, now⟩ := by
  constructor
  · rfl
  · intro c t h1 h2
    have hf : b64Digit c = .foreign := by
      cases hh : b64Digit c with
      | value v => exact absurd (isDigit64_value.2 ⟨v, hh⟩) h1
      | pad => exact absurd (digit_pad.1 hh) h2
      | foreign => rfl
    unfold sessionIdOfText
    obtain ⟨m, hm⟩ : ∃ m, min sessionIdStringLength (c :: t).length = m + 1 :=
      ⟨min sessionIdStringLength (c :: t).length - 1, by simp [sessionIdStringLength]; omega⟩
    rw [hm, List.take_succ_cons]
    have := dec_foreign sessionIdSize (3 * (c :: t.take m).length + 2) [] (by simp) (by simp) c hf (t.take m) 0 0 []
    have this' : base64Decode sessionIdSize (c :: t.take m) = .ok (0, []) := this
    rw [this']
    rfl
example : ∀ c ∈ (codes b!"AAAAAAAAAAAAAAAAAAAAxyz").take 20, IsDigit64 c := by
  have : ∀ c ∈ (codes b!"AAAAAAAAAAAAAAAAAAAAxyz").take 20, c = ((65 : UInt8).toNat : Int) := by decide
  intro c hc
  exact ⟨65, by decide, this c hc⟩

/-! ## C34 the store -/

/-- In every history of calls, with a clock that does not go backwards, every `get` returns the session's
data exactly when it was generated, not erased and used within the keep-alive time, and renews it; and a
generated identifier is never that of a live session. -/
theorem C34_faithful {T} (keepAlive : Nat) (t0 : Int) (calls : List (SessionCall T))
    (clock : (t0 :: calls.flatMap clockReadings).Pairwise (· ≤ ·)) {s events}
    (h : sessionRun (newSessions keepAlive t0) calls = .ok (s, events)) : Faithful keepAlive (fun _ => none) events :=
  run_faithful calls (newSessions keepAlive t0) s events (fun _ => none) t0
    ⟨by simp [newSessions, Sessions.setExpiration], by simp [newSessions, Sessions.setExpiration], by simp⟩ clock h

/-- `generate` ends as soon as an unused identifier is drawn. -/
theorem C34_generates {T} (s : Sessions T) (d : T) (draws : List (Bytes × Int)) (p : Bytes × Int) (hp : p ∈ draws)
    (hn : ∀ e ∈ s.sessions, e.1 ≠ p.1) : ∃ x, s.generate d draws = .ok x := by
  induction draws with
  | nil => simp at hp
  | cons q draws ih =>
    obtain ⟨id, now⟩ := q
    simp only [Sessions.generate]
    by_cases hq : (s.sessions.lookup id).isSome
    · rw [if_pos hq]
      rcases List.mem_cons.1 hp with rfl | hp
      · exfalso
        have : s.sessions.lookup id = none := by
          rw [List.lookup_eq_none_iff]
          intro e he
          have := hn e he
          simpa using fun h => this h.symm
        rw [this] at hq; simp at hq
      · exact ih hp
    · rw [if_neg hq]; exact ⟨_, rfl⟩

def demoCalls : List (SessionCall Nat) :=
  [.generate 5 [([1], 10)], .get [1] 15 15 15, .generate 6 [([1], 16), ([2], 16)], .erase [2], .get [2] 17 17 17, .get [1] 26 26 26]
example : (10 :: demoCalls.flatMap clockReadings).Pairwise (· ≤ ·) := by decide
/-- The first session is found at 15 and has expired by 26; the draw [1] at 16 is refused. -/
example : (match sessionRun (newSessions 10 10) demoCalls with
    | .ok (_, [.generated [1] 5 10, .got [1] 15 15 (some 5), .generated [2] 6 16, .erased [2], .got [2] 17 17 none, .got [1] 26 26 none]) => true
    | _ => false) = true := by decide

/-! ## C62 the cookie's expiration -/

theorem get_times {T} (s : Sessions T) (id : Bytes) (now t1 t2 : Int) :
    (s.get id now t1 t2).1.expirationTime = (if now ≥ s.cleanupTime then s.cleanup (now - s.keepAlive) t1 else s).expirationTime ∧
    (s.get id now t1 t2).1.cleanupTime = (if now ≥ s.cleanupTime then s.cleanup (now - s.keepAlive) t1 else s).cleanupTime ∧
    (s.get id now t1 t2).1.keepAlive = s.keepAlive := by
  unfold Sessions.get
  dsimp only
  have hk : (if now ≥ s.cleanupTime then s.cleanup (now - s.keepAlive) t1 else s).keepAlive = s.keepAlive := by
    split <;> rfl
  generalize (if now ≥ s.cleanupTime then s.cleanup (now - s.keepAlive) t1 else s) = s1 at hk ⊢
  split
  · split <;> exact ⟨rfl, rfl, hk⟩
  · exact ⟨rfl, rfl, hk⟩

theorem generate_times {T} (d : T) (s s1 : Sessions T) (x : SessionId) : ∀ draws, s.generate d draws = .ok (s1, x) →
    s1.expirationTime = s.expirationTime ∧ s1.cleanupTime = s.cleanupTime ∧ s1.keepAlive = s.keepAlive := by
  intro draws
  induction draws with
  | nil => intro e1; simp [Sessions.generate] at e1
  | cons p draws ih =>
    intro e1
    simp only [Sessions.generate] at e1
    split at e1
    · exact ih e1
    · cases e1; exact ⟨rfl, rfl, rfl⟩

theorem run_cleanup {T} : ∀ (calls : List (SessionCall T)) (s s' : Sessions T) (es),
    s.expirationTime = s.cleanupTime + s.keepAlive → sessionRun s calls = .ok (s', es) →
    s'.expirationTime = s'.cleanupTime + s'.keepAlive ∧ s'.keepAlive = s.keepAlive := by
  intro calls
  induction calls with
  | nil => intro s s' es h e; simp [sessionRun] at e; obtain ⟨rfl, _⟩ := e; exact ⟨h, rfl⟩
  | cons c calls ih =>
    intro s s' es h e
    cases c with
    | generate d draws =>
      simp only [sessionRun] at e
      obtain ⟨⟨s1, x⟩, e1, e⟩ := Res.bind_eq_ok.1 e
      obtain ⟨⟨s2, es2⟩, e2, e⟩ := Res.bind_eq_ok.1 e
      cases e
      have key := generate_times d s s1 x draws e1
      obtain ⟨a, b⟩ := ih s1 s2 es2 (by rw [key.1, key.2.1, key.2.2]; exact h) e2
      exact ⟨a, b.trans key.2.2⟩
    | get id now t1 t2 =>
      simp only [sessionRun] at e
      obtain ⟨⟨s2, es2⟩, e2, e⟩ := Res.bind_eq_ok.1 e
      cases e
      obtain ⟨k1, k2, k3⟩ := get_times s id now t1 t2
      have hk : (s.get id now t1 t2).1.expirationTime = (s.get id now t1 t2).1.cleanupTime + (s.get id now t1 t2).1.keepAlive := by
        rw [k1, k2, k3]
        split
        · rfl
        · exact h
      obtain ⟨a, b⟩ := ih _ s2 es2 hk e2
      exact ⟨a, b.trans k3⟩
    | erase id =>
      simp only [sessionRun] at e
      obtain ⟨⟨s2, es2⟩, e2, e⟩ := Res.bind_eq_ok.1 e
      cases e
      exact ih (s.erase id) s2 es2 h e2

/-- After a `get`, in any history, the expiration offered for cookies is not before that of a session used
now. -/
theorem C62_get_partial {T} (keepAlive : Nat) (t0 : Int) (calls : List (SessionCall T)) {s events}
    (h : sessionRun (newSessions keepAlive t0) calls = .ok (s, events)) (id : Bytes) (now t1 t2 : Int) (ht : now ≤ t1) :
    now + keepAlive ≤ (s.get id now t1 t2).1.expirationTime := by
  obtain ⟨h1, h2⟩ := run_cleanup calls _ s events rfl h
  have h3 : s.keepAlive = keepAlive := h2
  rw [(get_times s id now t1 t2).1]
  split
  · show now + (keepAlive : Int) ≤ t1 + s.keepAlive + s.keepAlive; omega
  · omega

/-- But `generate` does not renew it: a session generated after a while without any `get` is given a cookie
that has already expired. -/
theorem C62_violated {T} (keepAlive : Nat) (t0 now : Int) (hlate : t0 + 2 * keepAlive < now) (d : T) (id : Bytes) :
    ∃ s, (newSessions keepAlive t0).generate d [(id, now)] = .ok (s, ⟨id, now⟩) ∧ s.expirationTime < now := by
  refine ⟨_, rfl, ?_⟩
  show t0 + (keepAlive : Int) + keepAlive < now
  omega
example : (0 : Int) + 2 * (100 : Nat) < 1000 := by decide

end Fcgi.Props
