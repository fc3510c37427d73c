import Verif.Model.Protocol
import Verif.Lemmas.Endian
namespace Fcgi.Model
open Fcgi.Spec

theorem beDigits2 (n : Nat) : beDigits 2 n = [UInt8.ofNat (n/256), UInt8.ofNat n] := by
  simp [beDigits]
theorem beDigits4 (n : Nat) : beDigits 4 n =
    [UInt8.ofNat (n/2^24), UInt8.ofNat (n/2^16), UInt8.ofNat (n/2^8), UInt8.ofNat n] := by
  simp [beDigits]

theorem highbit (b : UInt8) : (b &&& 0x80 ≠ 0) ↔ 128 ≤ b.toNat := by
  revert b
  apply byte_forall
  decide +kernel

theorem and31 (v : UInt32) : (v &&& 0x7fffffff).toNat = v.toNat % 2^31 := by
  have := Nat.and_two_pow_sub_one_eq_mod v.toNat 31
  simpa using this

/-- One length field at the start of the unread part `l`. -/
theorem paramLen_sound (pre l : Bytes) (n d : Nat)
    (h : paramLen (pre ++ l) pre.length = .ok (some (n, d))) :
    ∃ enc rest, EncLen n enc ∧ l = enc ++ rest ∧ d = (pre ++ enc).length := by
  unfold paramLen at h
  cases l with
  | nil => simp at h
  | cons b l =>
    simp only [List.length_append, List.length_cons] at h
    rw [if_neg (by omega)] at h
    simp only [rd, List.getElem?_append_right (Nat.le_refl _), Nat.sub_self, List.getElem?_cons_zero,
      Res.ok_bind] at h
    by_cases hb : 128 ≤ b.toNat
    · rw [if_pos ((highbit b).2 hb)] at h
      split at h
      · simp at h
      · match l with
        | c :: d' :: e :: rest =>
          have hr := read32_app pre rest b c d' e
          simp only [List.append_assoc, List.cons_append, List.nil_append] at hr
          simp only [hr, Res.ok_bind, Res.pure_eq, Res.ok.injEq, Option.some.injEq, Prod.mk.injEq] at h
          obtain ⟨h1, h2⟩ := h
          rw [and31, from32_toNat] at h1
          have hb2 := b.toNat_lt; have hc := c.toNat_lt; have hd := d'.toNat_lt; have he := e.toNat_lt
          refine ⟨[b, c, d', e], rest, ?_, by simp, by simp; omega⟩
          have : [b, c, d', e] = beDigits 4 (2^31 + n) := by
            rw [beDigits4]
            simp only [List.cons.injEq, and_true, ← UInt8.toNat_inj]
            refine ⟨?_, ?_, ?_, ?_⟩ <;> simp <;> omega
          rw [this]
          exact .long n (by omega)
        | [] => simp at *
        | [_] => simp at *
        | [_, _] => simp at *
    · rw [if_neg (fun h => hb ((highbit b).1 h))] at h
      simp only [Res.pure_eq, Res.ok.injEq, Option.some.injEq, Prod.mk.injEq] at h
      obtain ⟨h1, h2⟩ := h
      refine ⟨[b], l, ?_, by simp, by simp; omega⟩
      have : b = UInt8.ofNat n := by rw [← h1]; simp
      rw [this]
      exact .short n (by omega)

theorem paramLen_complete (pre enc rest : Bytes) (n : Nat) (h : EncLen n enc) :
    paramLen (pre ++ (enc ++ rest)) pre.length = .ok (some (n, (pre ++ enc).length)) := by
  unfold paramLen
  cases h with
  | short h =>
    simp only [List.length_append, List.length_cons, List.length_nil]
    rw [if_neg (by omega)]
    simp only [List.cons_append, List.nil_append, rd, List.getElem?_append_right (Nat.le_refl _),
      Nat.sub_self, List.getElem?_cons_zero, Res.ok_bind]
    rw [if_neg]
    · simp; omega
    · rw [highbit]; simp; omega
  | long h =>
    rw [beDigits4]
    simp only [List.length_append, List.length_cons, List.length_nil]
    rw [if_neg (by omega)]
    have hr := read32_app pre rest (UInt8.ofNat ((2^31+n)/2^24)) (UInt8.ofNat ((2^31+n)/2^16))
      (UInt8.ofNat ((2^31+n)/2^8)) (UInt8.ofNat (2^31+n))
    simp only [List.append_assoc] at hr
    simp only [hr]
    simp only [List.cons_append, List.nil_append, rd, List.getElem?_append_right (Nat.le_refl _),
      Nat.sub_self, List.getElem?_cons_zero, Res.ok_bind]
    have hhi : UInt8.ofNat ((2^31+n)/2^24) &&& 0x80 ≠ 0 := by
      rw [highbit, UInt8.toNat_ofNat']; omega
    rw [if_pos hhi, if_neg (by omega)]
    simp only [Res.pure_eq, Res.ok.injEq, Option.some.injEq, Prod.mk.injEq]
    refine ⟨?_, trivial⟩
    rw [and31, from32_toNat]
    simp only [UInt8.toNat_ofNat']
    omega

/-- The length decoder never reads outside its buffer. -/
theorem paramLen_safe (buf : Bytes) (d : Nat) : ∃ r, paramLen buf d = .ok r := by
  unfold paramLen
  split
  · exact ⟨_, rfl⟩
  · rename_i h
    rw [rd_ok (by omega)]
    simp only [Res.ok_bind]
    split
    · split
      · exact ⟨_, rfl⟩
      · simp [read32, rd_ok (show d < buf.length by omega), rd_ok (show d+1 < buf.length by omega),
          rd_ok (show d+2 < buf.length by omega), rd_ok (show d+3 < buf.length by omega)]
    · exact ⟨_, rfl⟩

theorem processParamHeader_safe (buf : Bytes) (d : Nat) : ∃ r, processParamHeader buf d = .ok r := by
  unfold processParamHeader
  obtain ⟨r, hr⟩ := paramLen_safe buf d
  rw [hr]
  cases r with
  | none => exact ⟨_, rfl⟩
  | some p =>
    obtain ⟨n, d⟩ := p
    simp only [Res.ok_bind]
    obtain ⟨r, hr⟩ := paramLen_safe buf d
    rw [hr]
    cases r with
    | none => exact ⟨_, rfl⟩
    | some p =>
      simp only [Res.ok_bind]
      split <;> exact ⟨_, rfl⟩

theorem processParamHeader_sound (pre l : Bytes) (n v e : Nat)
    (h : processParamHeader (pre ++ l) pre.length = .ok (some (n, v, e))) :
    ∃ nv enc rest, EncPair nv enc ∧ l = enc ++ rest ∧ e = pre.length + enc.length ∧
      v + nv.2.length = e ∧ n + nv.1.length = v ∧
      slice (pre ++ l) n v = nv.1 ∧ slice (pre ++ l) v e = nv.2 := by
  unfold processParamHeader at h
  obtain ⟨r, hr⟩ := paramLen_safe (pre ++ l) pre.length
  rw [hr] at h
  cases r with
  | none => simp at h
  | some p =>
    obtain ⟨ns, d⟩ := p
    obtain ⟨ln, l1, hln, rfl, rfl⟩ := paramLen_sound _ _ _ _ hr
    simp only [Res.ok_bind] at h
    rw [← List.append_assoc] at h
    obtain ⟨r, hr2⟩ := paramLen_safe (pre ++ ln ++ l1) (pre ++ ln).length
    rw [hr2] at h
    cases r with
    | none => simp at h
    | some p =>
      obtain ⟨vs, d⟩ := p
      obtain ⟨lv, l2, hlv, rfl, rfl⟩ := paramLen_sound _ _ _ _ hr2
      simp only [Res.ok_bind] at h
      split at h
      · simp at h
      · rename_i hle
        simp only [Res.pure_eq, Res.ok.injEq, Option.some.injEq, Prod.mk.injEq] at h
        obtain ⟨rfl, rfl, rfl⟩ := h
        simp only [List.length_append] at hle
        obtain ⟨N, V, R, rfl, rfl, rfl⟩ := split3 l2 ns vs (by omega)
        refine ⟨(N, V), ln ++ lv ++ N ++ V, R, ⟨ln, lv, hln, hlv, rfl⟩, by simp, ?_, rfl, rfl, ?_, ?_⟩
        · simp; omega
        · have := slice_mid (pre ++ ln ++ lv) N (V ++ R) _ _ rfl rfl
          simpa using this
        · have := slice_mid (pre ++ ln ++ lv ++ N) V R _ _ rfl rfl
          simpa [Nat.add_assoc] using this

theorem processParamHeader_complete (pre enc rest : Bytes) (nv : Bytes × Bytes) (h : EncPair nv enc) :
    ∃ n v, processParamHeader (pre ++ (enc ++ rest)) pre.length =
      .ok (some (n, v, (pre ++ enc).length)) ∧
      slice (pre ++ (enc ++ rest)) n v = nv.1 ∧
      slice (pre ++ (enc ++ rest)) v (pre ++ enc).length = nv.2 := by
  obtain ⟨ln, lv, hln, hlv, rfl⟩ := h
  have h1 := paramLen_complete pre ln (lv ++ (nv.1 ++ (nv.2 ++ rest))) _ hln
  have h2 := paramLen_complete (pre ++ ln) lv (nv.1 ++ (nv.2 ++ rest)) _ hlv
  refine ⟨(pre ++ ln ++ lv).length, (pre ++ ln ++ lv).length + nv.1.length, ?_, ?_, ?_⟩
  · unfold processParamHeader
    simp only [List.append_assoc] at h1 h2 ⊢
    simp only [h1, Res.ok_bind, h2]
    rw [if_neg (by simp; omega)]
    simp; omega
  · have := slice_mid (pre ++ ln ++ lv) nv.1 (nv.2 ++ rest) _ _ rfl rfl
    simpa using this
  · have := slice_mid (pre ++ ln ++ lv ++ nv.1) nv.2 rest _ _ rfl rfl
    simpa [Nat.add_assoc] using this

theorem _root_.Fcgi.Spec.EncLen.length_pos {n b} (h : EncLen n b) : 0 < b.length := by
  cases h <;> simp [beDigits4]

theorem _root_.Fcgi.Spec.EncPair.length_pos {nv b} (h : EncPair nv b) : 0 < b.length := by
  obtain ⟨ln, lv, hln, hlv, rfl⟩ := h
  have := hln.length_pos
  simp; omega

theorem paramLoop_pairs {σ} (step : σ → Bytes → Bytes → Res σ) (nvs : List (Bytes × Bytes)) :
    ∀ (fuel : Nat) (pre bs tail : Bytes) (s : σ), nvs.length < fuel → EncPairs nvs bs →
      paramLoop step fuel (pre ++ (bs ++ tail)) pre.length s =
        (nvs.foldlM (fun s nv => step s nv.1 nv.2) s >>= fun s' =>
          paramLoop step (fuel - nvs.length) (pre ++ (bs ++ tail)) (pre ++ bs).length s') := by
  induction nvs with
  | nil =>
    intro fuel pre bs tail s hf he
    cases he
    simp
  | cons nv nvs ih =>
    intro fuel pre bs tail s hf he
    cases he with
    | @cons _ b _ bs hb hbs =>
      obtain ⟨fuel, rfl⟩ : ∃ f, fuel = f + 1 := ⟨fuel - 1, by omega⟩
      obtain ⟨n, v, h1, h2, h3⟩ := processParamHeader_complete pre b (bs ++ tail) nv hb
      conv => lhs; unfold paramLoop
      simp only [List.append_assoc] at h1 h2 h3 ⊢
      rw [h1]
      simp only [Res.ok_bind, h2, h3, List.foldlM_cons]
      cases hs : step s nv.1 nv.2 with
      | ok s' =>
        simp only [Res.ok_bind]
        have := ih fuel (pre ++ b) bs tail s' (by simp at hf; omega) hbs
        simp only [List.append_assoc] at this
        rw [this]
        have e : fuel + 1 - (nv :: nvs).length = fuel - nvs.length := by simp
        rw [e]
      | ub k => simp
      | stuck => simp

theorem processParamHeader_end (buf : Bytes) (d : Nat) (h : buf.length ≤ d) :
    processParamHeader buf d = .ok none := by
  unfold processParamHeader paramLen
  simp [h]

theorem processParamHeader_progress {buf : Bytes} {d n v e : Nat}
    (h : processParamHeader buf d = .ok (some (n, v, e))) : d < e ∧ e ≤ buf.length := by
  rcases Nat.lt_or_ge d buf.length with hd | hd
  · have hb : buf = buf.take d ++ buf.drop d := by simp
    have hl : (buf.take d).length = d := by simp; omega
    rw [hb] at h
    conv at h => lhs; arg 2; rw [← hl]
    obtain ⟨nv, enc, rest, hp, hr, he, _⟩ := processParamHeader_sound _ _ _ _ _ h
    have := EncPair.length_pos hp
    have hl2 := congrArg List.length hr
    simp at hl2
    omega
  · rw [processParamHeader_end _ _ hd] at h; simp at h

/-- Termination: as many iterations as there are bytes are always enough. -/
theorem paramLoop_terminates {σ} (step : σ → Bytes → Bytes → Res σ)
    (hstep : ∀ s n v, step s n v ≠ .stuck) (buf : Bytes) :
    ∀ (fuel d : Nat) (s : σ), buf.length - d < fuel → paramLoop step fuel buf d s ≠ .stuck := by
  intro fuel
  induction fuel with
  | zero => intro d s h; omega
  | succ fuel ih =>
    intro d s hf
    unfold paramLoop
    obtain ⟨r, hr⟩ := processParamHeader_safe buf d
    rw [hr]
    match r, hr with
    | none, _ => simp
    | some (n, v, e), hr =>
      have := processParamHeader_progress hr
      simp only [Res.ok_bind]
      cases hs : step s (slice buf n v) (slice buf v e) with
      | ok s' => simp only [Res.ok_bind]; exact ih _ _ (by omega)
      | ub k => simp
      | stuck => exact absurd hs (hstep _ _ _)

theorem foldlM_ok {α β} (f : β → α → β) (l : List α) (b : β) :
    l.foldlM (m := Res) (fun b a => .ok (f b a)) b = .ok (l.foldl f b) := by
  induction l generalizing b with
  | nil => rfl
  | cons a l ih => simp [List.foldlM_cons, ih]

theorem foldl_snoc {α} (l acc : List α) : l.foldl (fun a x => a ++ [x]) acc = acc ++ l := by
  induction l generalizing acc with
  | nil => simp
  | cons a l ih => simp [ih]

theorem getValuesLoop_forever (msg : Bytes) (n v e : Nat)
    (h : processParamHeader msg 8 = .ok (some (n, v, e))) :
    ∀ fuel sent, getValuesLoop fuel msg sent = .running (sent ++
      (List.replicate fuel (managementAnswer (slice msg n v)).toList).flatten) := by
  intro fuel
  induction fuel with
  | zero => simp [getValuesLoop]
  | succ fuel ih =>
    intro sent
    simp only [getValuesLoop, h, ih]
    simp [List.replicate_succ]

end Fcgi.Model
