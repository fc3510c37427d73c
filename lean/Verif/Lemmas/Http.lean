import Verif.Model.Http
import Verif.Spec.Http
import Verif.Spec.Wire
import Verif.Lemmas.HttpText
import Verif.Lemmas.Protocol
namespace Fcgi.Model
open Fcgi Fcgi.Spec

/-! ### slices -/
theorem slice_append3 (a b c : Bytes) : slice (a ++ b ++ c) a.length (a.length + b.length) = b := by
  rw [List.append_assoc]; exact slice_mid a b c _ _ rfl rfl

/-! ### decodeUrlEncoded -/

theorem url_scan_name (s sep : Bytes) : ∀ (nm pre rest : Bytes) (f ns : Nat) out, s = pre ++ nm ++ rest → 61 ∉ nm →
    urlLoop s sep (f + nm.length) pre.length ns none out = urlLoop s sep f (pre.length + nm.length) ns none out := by
  intro nm
  induction nm with
  | nil => intros; simp
  | cons c nm ih =>
    intro pre rest f ns out hs hn
    have hc : c ≠ 61 := fun e => hn (by simp [e])
    have hd : s[pre.length]? = some c := by rw [hs]; simp
    have hl : pre.length ≤ s.length := by rw [hs]; simp
    rw [show f + (c :: nm).length = (f + nm.length) + 1 by simp; omega]
    conv => lhs; unfold urlLoop
    rw [if_pos hl]
    dsimp only
    rw [hd, if_neg (by simp [hc])]
    have := ih (pre ++ [c]) rest f ns out (by rw [hs]; simp) (fun h => hn (by simp [h]))
    rw [List.length_append, List.length_singleton] at this
    rw [this]
    simp; congr 1; omega

theorem url_scan_value (s sep : Bytes) (s0 : UInt8) (hsep : sep.head? = some s0) :
    ∀ (vl pre rest : Bytes) (f ns : Nat) (nv : Bytes × Nat) out, s = pre ++ vl ++ rest → s0 ∉ vl →
    urlLoop s sep (f + vl.length) pre.length ns (some nv) out =
      urlLoop s sep f (pre.length + vl.length) ns (some nv) out := by
  intro vl
  induction vl with
  | nil => intros; simp
  | cons c vl ih =>
    intro pre rest f ns nv out hs hn
    have hc : c ≠ s0 := fun e => hn (by simp [e])
    have hl : pre.length < s.length := by rw [hs]; simp
    rw [show f + (c :: vl).length = (f + vl.length) + 1 by simp; omega]
    conv => lhs; unfold urlLoop
    rw [if_pos (by omega)]
    obtain ⟨name, vs⟩ := nv
    dsimp only
    rw [if_neg]
    · have := ih (pre ++ [c]) rest f ns (name, vs) out (by rw [hs]; simp) (fun h => hn (by simp [h]))
      rw [List.length_append, List.length_singleton] at this
      rw [this]
      simp; congr 1; omega
    · rintro (h | ⟨h1, h2⟩)
      · omega
      · cases sep with
        | nil => simp at hsep
        | cons a sp =>
          simp at hsep; subst hsep
          rw [hs] at h2
          rw [List.append_assoc] at h2
          have : slice (pre ++ (c :: vl ++ rest)) pre.length (pre.length + (a :: sp).length) =
              (c :: vl ++ rest).take (a :: sp).length := by
            unfold slice; rw [List.take_length_add_append]; simp
          rw [this] at h2
          simp at h2
          exact hc h2.1

/-- One field, followed by the end or by a separator. -/
theorem url_field (s sep : Bytes) (s0 : UInt8) (hsep : sep.head? = some s0) (nm vl pre rest : Bytes) (f : Nat) (out)
    (hs : s = pre ++ (nm ++ 61 :: vl) ++ rest) (hn : 61 ∉ nm) (hv : s0 ∉ vl)
    (hrest : rest = [] ∨ ∃ r, rest = sep ++ r) :
    urlLoop s sep (f + nm.length + vl.length + 2) pre.length pre.length none out =
      urlLoop s sep f (pre.length + (nm ++ 61 :: vl).length + sep.length)
        (pre.length + (nm ++ 61 :: vl).length + sep.length) none
        (out ++ [(percentEscapedToRealBytes nm, percentEscapedToRealBytes vl)]) := by
  rw [show f + nm.length + vl.length + 2 = (f + vl.length + 2) + nm.length by omega]
  rw [url_scan_name s sep nm pre (61 :: vl ++ rest) _ _ _ (by rw [hs]; simp) hn]
  rw [show f + vl.length + 2 = (f + 1 + vl.length) + 1 by omega]
  conv => lhs; unfold urlLoop
  have hl : s.length = pre.length + nm.length + 1 + vl.length + rest.length := by rw [hs]; simp; omega
  rw [if_pos (by omega)]
  dsimp only
  have hd : s[pre.length + nm.length]? = some 61 := by
    rw [hs]; simp only [List.append_assoc]
    rw [← List.append_assoc, List.getElem?_append_right (by simp)]; simp
  rw [hd, if_pos rfl]
  have e1 : slice s pre.length (pre.length + nm.length) = nm := by
    rw [hs]; rw [show pre ++ (nm ++ 61 :: vl) ++ rest = pre ++ nm ++ (61 :: vl ++ rest) by simp]
    exact slice_append3 _ _ _
  rw [e1]
  have h3 := url_scan_value s sep s0 hsep vl (pre ++ nm ++ [61]) rest (f + 1) pre.length
    (percentEscapedToRealBytes nm, pre.length + nm.length + 1) out (by rw [hs]; simp) hv
  have hl3 : (pre ++ nm ++ [61]).length = pre.length + nm.length + 1 := by simp; omega
  rw [hl3] at h3
  rw [h3]
  conv => lhs; unfold urlLoop
  rw [if_pos (by omega)]
  dsimp only
  rw [if_pos]
  · have e2 : slice s (pre.length + nm.length + 1) (pre.length + nm.length + 1 + vl.length) = vl := by
      rw [hs]; rw [show pre ++ (nm ++ 61 :: vl) ++ rest = (pre ++ nm ++ [61]) ++ vl ++ rest by simp]
      have := slice_append3 (pre ++ nm ++ [61]) vl rest
      rw [hl3] at this
      exact this
    rw [e2]
    have e3 : pre.length + nm.length + 1 + vl.length + sep.length =
        pre.length + (nm ++ 61 :: vl).length + sep.length := by simp; omega
    rw [e3]
  · rcases hrest with rfl | ⟨r, rfl⟩
    · left; simp at hl; omega
    · right
      simp at hl
      refine ⟨by omega, ?_⟩
      rw [hs, show pre ++ (nm ++ 61 :: vl) ++ (sep ++ r) = (pre ++ nm ++ [61] ++ vl) ++ sep ++ r by simp]
      have := slice_append3 (pre ++ nm ++ [61] ++ vl) sep r
      have hl4 : (pre ++ nm ++ [61] ++ vl).length = pre.length + nm.length + 1 + vl.length := by simp; omega
      rw [hl4] at this
      exact this

/-- Raw fields `name=value`. -/
def rawField (p : Bytes × Bytes) : Bytes := p.1 ++ 61 :: p.2
/-- Both halves decoded. -/
def decodePair (p : Bytes × Bytes) : Bytes × Bytes := (percentEscapedToRealBytes p.1, percentEscapedToRealBytes p.2)

theorem url_fields (s sep : Bytes) (s0 : UInt8) (hsep : sep.head? = some s0) :
    ∀ (fs : List (Bytes × Bytes)) (pre : Bytes) (out) (f : Nat), fs ≠ [] →
    s = pre ++ joinWith sep (fs.map rawField) → (∀ p ∈ fs, 61 ∉ p.1 ∧ s0 ∉ p.2) →
    (joinWith sep (fs.map rawField)).length + 2 ≤ f →
    urlLoop s sep f pre.length pre.length none out = .ok (out ++ fs.map decodePair) := by
  intro fs
  have hsl : 1 ≤ sep.length := by cases sep <;> simp at hsep ⊢
  induction fs with
  | nil => intro _ _ _ h; exact absurd rfl h
  | cons p fs ih =>
    intro pre out f _ hs hp hf
    have hp0 := hp p (by simp)
    cases hfs : fs with
    | nil =>
      subst hfs
      simp only [List.map_cons, List.map_nil, joinWith] at hs hf
      have hlen : (rawField p).length = p.1.length + 1 + p.2.length := by simp [rawField]; omega
      obtain ⟨f', rfl⟩ : ∃ f', f = f' + 1 + p.1.length + p.2.length + 2 := ⟨f - (p.1.length + p.2.length + 3), by omega⟩
      rw [url_field s sep s0 hsep p.1 p.2 pre [] (f'+1) out (by rw [hs]; simp [rawField]) hp0.1 hp0.2 (Or.inl rfl)]
      unfold urlLoop
      rw [if_neg]
      · rfl
      · rw [hs]; simp [rawField]; omega
    | cons q qs =>
      rw [← hfs]
      have hj : joinWith sep ((p :: fs).map rawField) = rawField p ++ sep ++ joinWith sep (fs.map rawField) := by
        rw [hfs]; rfl
      rw [hj] at hs hf
      have hlen : (rawField p).length = p.1.length + 1 + p.2.length := by simp [rawField]; omega
      simp only [List.length_append] at hf
      obtain ⟨f', rfl⟩ : ∃ f', f = f' + p.1.length + p.2.length + 2 := ⟨f - (p.1.length + p.2.length + 2), by omega⟩
      rw [url_field s sep s0 hsep p.1 p.2 pre (sep ++ joinWith sep (fs.map rawField)) f' out
        (by rw [hs]; simp [rawField]) hp0.1 hp0.2 (Or.inr ⟨_, rfl⟩)]
      have := ih (pre ++ (rawField p ++ sep)) (out ++ [decodePair p]) f' (by simp [hfs]) (by rw [hs]; simp)
        (fun x hx => hp x (by simp [hx])) (by omega)
      rw [show (pre ++ (rawField p ++ sep)).length = pre.length + (p.1 ++ 61 :: p.2).length + sep.length by
        simp [rawField]; omega] at this
      simp only [decodePair] at this ⊢
      rw [this]
      simp [decodePair]

theorem decodeUrl_fields (sep : Bytes) (s0 : UInt8) (hsep : sep.head? = some s0) (fs : List (Bytes × Bytes))
    (hp : ∀ p ∈ fs, 61 ∉ p.1 ∧ s0 ∉ p.2) (out) :
    decodeUrlEncoded (joinWith sep (fs.map rawField)) sep out = .ok (out ++ fs.map decodePair) := by
  unfold decodeUrlEncoded
  cases fs with
  | nil => simp [joinWith, urlLoop]
  | cons p fs =>
    exact url_fields _ sep s0 hsep (p :: fs) [] out _ (by simp) (by simp) hp (by omega)

/-- The whole loop, however the text is cut. -/
theorem url_cut (s : Bytes) {t : Bytes} {ps : List (Bytes × Bytes)} (h : CutAtEquals t ps) :
    ∀ (pre : Bytes) (out) (f : Nat), s = pre ++ t → t.length + 2 ≤ f →
      urlLoop s [38] f pre.length pre.length none out = .ok (out ++ ps.map decodePair) := by
  induction h with
  | @rest t ht =>
    intro pre out f hs hf
    obtain ⟨f', rfl⟩ : ∃ f', f = (f' + 2) + t.length := ⟨f - t.length - 2, by omega⟩
    rw [url_scan_name s [38] t pre [] _ _ _ (by rw [hs]; simp) ht]
    have hl : s.length = pre.length + t.length := by rw [hs]; simp
    unfold urlLoop
    rw [if_pos (by omega)]
    dsimp only
    rw [if_neg (by rw [List.getElem?_eq_none (by omega)]; simp)]
    unfold urlLoop
    rw [if_neg (by omega)]
    simp
  | @last n v hn hv =>
    intro pre out f hs hf
    have := url_fields s [38] 38 rfl [(n, v)] pre out f (by simp) (by rw [hs]; simp [joinWith, rawField])
      (by intro p hp; rw [List.mem_singleton.1 hp]; exact ⟨hn, hv⟩) (by simpa [joinWith, rawField] using hf)
    exact this
  | @more n v t ps hn hv _ ih =>
    intro pre out f hs hf
    simp only [List.length_append, List.length_cons] at hf
    obtain ⟨f', rfl⟩ : ∃ f', f = f' + n.length + v.length + 2 := ⟨f - (n.length + v.length + 2), by omega⟩
    rw [url_field s [38] 38 rfl n v pre ([38] ++ t) f' out (by rw [hs]; simp) hn hv (Or.inr ⟨_, rfl⟩)]
    have := ih (pre ++ (n ++ 61 :: v) ++ [38]) (out ++ [decodePair (n, v)]) f' (by rw [hs]; simp) (by omega)
    rw [List.length_append (as := pre ++ (n ++ 61 :: v)), List.length_append (as := pre)] at this
    simp only [decodePair] at this ⊢
    rw [this]
    simp [decodePair]

/-- Every text is cut in some way. -/
theorem cut_exists (n : Nat) : ∀ s : Bytes, s.length ≤ n → ∃ ps, CutAtEquals s ps := by
  induction n with
  | zero => intro s h; cases s with
    | nil => exact ⟨[], .rest (by simp)⟩
    | cons => simp at h
  | succ k ih =>
    intro s h
    by_cases he : 61 ∈ s
    · obtain ⟨a, b, rfl, ha⟩ := List.eq_append_cons_of_mem he
      by_cases hs : 38 ∈ b
      · obtain ⟨v, r, rfl, hv⟩ := List.eq_append_cons_of_mem hs
        obtain ⟨ps, hp⟩ := ih r (by simp at h; omega)
        refine ⟨(a, v) :: ps, ?_⟩
        have := CutAtEquals.more ha hv hp
        simpa using this
      · exact ⟨_, .last ha hs⟩
    · exact ⟨[], .rest he⟩

theorem first_split {c : UInt8} : ∀ {a a' b b' : Bytes}, a ++ c :: b = a' ++ c :: b' → c ∉ a → c ∉ a' → a = a' ∧ b = b' := by
  intro a
  induction a with
  | nil =>
    intro a' b b' h _ h2
    cases a' with
    | nil => simpa using h
    | cons x a' => simp at h; exact absurd (by simp [h.1]) h2
  | cons y a ih =>
    intro a' b b' h h1 h2
    cases a' with
    | nil => simp at h; exact absurd (by simp [h.1]) h1
    | cons x a' =>
      simp only [List.cons_append, List.cons.injEq] at h
      obtain ⟨e1, e2⟩ := ih h.2 (fun m => h1 (by simp [m])) (fun m => h2 (by simp [m]))
      exact ⟨by rw [h.1, e1], e2⟩

theorem cutAtEquals_unique {s : Bytes} {ps qs : List (Bytes × Bytes)} (h : CutAtEquals s ps) (h' : CutAtEquals s qs) :
    ps = qs := by
  induction h generalizing qs with
  | @rest t ht =>
    cases h' with
    | rest _ => rfl
    | last _ _ => exact absurd (by simp) ht
    | more _ _ _ => exact absurd (by simp) ht
  | @last n v hn hv =>
    generalize hs : n ++ 61 :: v = s at h'
    cases h' with
    | rest ht => subst hs; exact absurd (by simp) ht
    | last h1 h2 => obtain ⟨e1, e2⟩ := first_split hs hn h1; rw [e1, e2]
    | more h1 h2 _ =>
      rw [List.append_assoc, List.cons_append] at hs
      obtain ⟨_, e2⟩ := first_split hs hn h1
      exact absurd (by rw [e2]; simp) hv
  | @more n v t ps hn hv _ ih =>
    generalize hs : n ++ 61 :: v ++ 38 :: t = s at h'
    rw [List.append_assoc, List.cons_append] at hs
    cases h' with
    | rest ht => subst hs; exact absurd (by simp) ht
    | last h1 h2 =>
      obtain ⟨_, e2⟩ := first_split hs hn h1
      exact absurd (by rw [← e2]; simp) h2
    | more h1 h2 h3 =>
      rw [List.append_assoc, List.cons_append] at hs
      obtain ⟨e1, e2⟩ := first_split hs hn h1
      obtain ⟨e3, e4⟩ := first_split e2 hv h2
      subst e4
      rw [e1, e3, ih h3]

theorem _root_.Fcgi.Spec.UrlText.append {r r' s s' : Bytes} (h : UrlText r s) (h' : UrlText r' s') :
    UrlText (r ++ r') (s ++ s') := by
  induction h with
  | nil => exact h'
  | plain c hc _ ih => exact .plain c hc ih
  | plus _ ih => exact .plus ih
  | esc x y hx hy _ ih => exact .esc x y hx hy ih

theorem urlLoop_total (s sep : Bytes) (hsl : 1 ≤ sep.length) : ∀ (f d ns : Nat) nv out, s.length + 2 ≤ f + d → 1 ≤ f →
    ∃ r, urlLoop s sep f d ns nv out = .ok r := by
  intro f
  induction f with
  | zero => intros; omega
  | succ f ih =>
    intro d ns nv out h _
    unfold urlLoop
    split
    · rename_i hd
      cases nv with
      | some p =>
        obtain ⟨n, v⟩ := p
        dsimp only
        split
        · exact ih _ _ _ _ (by omega) (by omega)
        · exact ih _ _ _ _ (by omega) (by omega)
      | none =>
        dsimp only
        split
        · exact ih _ _ _ _ (by omega) (by omega)
        · exact ih _ _ _ _ (by omega) (by omega)
    · exact ⟨_, rfl⟩

theorem urlLoop_out (s sep : Bytes) : ∀ (f d ns : Nat) nv out,
    urlLoop s sep f d ns nv out = (urlLoop s sep f d ns nv [] >>= fun r => .ok (out ++ r)) := by
  intro f
  induction f with
  | zero => intros; rfl
  | succ f ih =>
    intro d ns nv out
    unfold urlLoop
    split
    · cases nv with
      | some p =>
        obtain ⟨n, v⟩ := p
        dsimp only
        split
        · rw [ih, ih (out := [] ++ _)]
          cases urlLoop s sep f (d + sep.length) (d + sep.length) none [] <;> simp
        · exact ih _ _ _ _
      | none =>
        dsimp only
        split
        · exact ih _ _ _ _
        · exact ih _ _ _ _
    · simp

/-! ### atoi -/

theorem digit_char {c : UInt8} (h : IsDigit c) : (0x30 ≤ c ∧ c ≤ 0x39) ∧ ((c &&& 0x0f).toNat : Int) = (c.toNat - 48 : Nat) := by
  have key : ∀ c : UInt8, (48 ≤ c.toNat ∧ c.toNat ≤ 57) → (0x30 ≤ c ∧ c ≤ 0x39) ∧ (c &&& 0x0f).toNat = c.toNat - 48 :=
    byte_forall (by decide +kernel)
  obtain ⟨h1, h2⟩ := key c h
  exact ⟨h1, by rw [h2]⟩

theorem not_digit_char {c : UInt8} (h : ¬ IsDigit c) : ¬ (0x30 ≤ c ∧ c ≤ 0x39) := by
  have key : ∀ c : UInt8, ¬ (48 ≤ c.toNat ∧ c.toNat ≤ 57) → ¬ (0x30 ≤ c ∧ c ≤ 0x39) :=
    byte_forall (by decide +kernel)
  exact key c h

theorem decimalValue_acc (ds : Bytes) (n : Nat) :
    ds.foldl (fun n c => 10 * n + (c.toNat - 48)) n = n * 10 ^ ds.length + decimalValue ds := by
  induction ds generalizing n with
  | nil => simp [decimalValue]
  | cons c ds ih =>
    unfold decimalValue
    rw [List.foldl_cons, List.foldl_cons, ih, ih]
    simp only [List.length_cons, Nat.pow_succ]
    have e : (10 * n + (c.toNat - 48)) * 10 ^ ds.length = n * (10 ^ ds.length * 10) + (10 * 0 + (c.toNat - 48)) * 10 ^ ds.length := by
      rw [Nat.add_mul, Nat.mul_zero, Nat.zero_add]
      congr 1
      rw [Nat.mul_comm 10 n, Nat.mul_assoc, Nat.mul_comm 10]
    omega

theorem decimalValue_ge (c : UInt8) (ds : Bytes) (n : Nat) :
    10 * n + (c.toNat - 48) ≤ (c :: ds).foldl (fun n c => 10 * n + (c.toNat - 48)) n := by
  rw [List.foldl_cons, decimalValue_acc]
  have : 1 ≤ 10 ^ ds.length := Nat.pow_pos (by omega)
  have h := Nat.mul_le_mul_left (10 * n + (c.toNat - 48)) this
  omega

/-- Digits followed by something else inside the object. -/
theorem atoiDigits_ok : ∀ (ds rest : Bytes) (left n : Nat), (∀ c ∈ ds, IsDigit c) → ds.length ≤ left →
    (left = ds.length ∧ rest ≠ [] ∨ ∃ c r, rest = c :: r ∧ ¬ IsDigit c) →
    ds.foldl (fun n c => 10 * n + (c.toNat - 48)) n ≤ 2147483647 →
    atoiDigits (ds ++ rest) left n = .ok ((ds.foldl (fun n c => 10 * n + (c.toNat - 48)) n : Nat) : Int) := by
  intro ds
  induction ds with
  | nil =>
    intro rest left n _ _ h _
    rcases h with ⟨h1, h2⟩ | ⟨c, r, rfl, hc⟩
    · cases rest with
      | nil => exact absurd rfl h2
      | cons c r =>
        simp only [List.nil_append]
        unfold atoiDigits
        rw [if_neg (by rintro ⟨_, _, h⟩; simp at h1; omega)]; rfl
    · simp only [List.nil_append]
      unfold atoiDigits
      rw [if_neg (by rintro ⟨h1, h2, _⟩; exact not_digit_char hc ⟨h1, h2⟩)]; rfl
  | cons c ds ih =>
    intro rest left n hd hl h hmax
    obtain ⟨⟨h1, h2⟩, h3⟩ := digit_char (hd c (by simp))
    have hge := decimalValue_ge c ds n
    simp only [List.length_cons] at hl
    simp only [List.cons_append]
    unfold atoiDigits
    rw [if_pos ⟨h1, h2, by omega⟩]
    dsimp only
    rw [h3, if_neg (by simp only [intMax]; omega)]
    rw [show ((n : Int) * 10 + ((c.toNat - 48 : Nat) : Int)) = ((10 * n + (c.toNat - 48) : Nat) : Int) by omega]
    rw [ih rest (left - 1) _ (fun x hx => hd x (by simp [hx])) (by omega) (by
      rcases h with ⟨a, b⟩ | h
      · left; simp at a; exact ⟨by omega, b⟩
      · right; exact h) (by simpa using hmax)]
    rfl

/-- Digits to the very end of the object: the next character is read outside it. -/
theorem atoiDigits_oob : ∀ (ds : Bytes) (left n : Nat), (∀ c ∈ ds, IsDigit c) → ds.length ≤ left →
    ds.foldl (fun n c => 10 * n + (c.toNat - 48)) n ≤ 2147483647 → atoiDigits ds left n = .ub .oobRead := by
  intro ds
  induction ds with
  | nil => intros; rfl
  | cons c ds ih =>
    intro left n hd hl hmax
    obtain ⟨⟨h1, h2⟩, h3⟩ := digit_char (hd c (by simp))
    have hge := decimalValue_ge c ds n
    simp only [List.length_cons] at hl
    unfold atoiDigits
    rw [if_pos ⟨h1, h2, by omega⟩]
    dsimp only
    rw [h3, if_neg (by simp only [intMax]; omega)]
    rw [show ((n : Int) * 10 + ((c.toNat - 48 : Nat) : Int)) = ((10 * n + (c.toNat - 48) : Nat) : Int) by omega]
    exact ih (left - 1) _ (fun x hx => hd x (by simp [hx])) (by omega) (by simpa using hmax)

/-- Too large a number overflows, wherever it stands. -/
theorem atoiDigits_overflow : ∀ (ds rest : Bytes) (left n : Nat), (∀ c ∈ ds, IsDigit c) → ds.length ≤ left →
    n ≤ 2147483647 → 2147483647 < ds.foldl (fun n c => 10 * n + (c.toNat - 48)) n →
    atoiDigits (ds ++ rest) left n = .ub .signedOverflow := by
  intro ds
  induction ds with
  | nil => intro rest left n _ _ h h'; simp at h'; omega
  | cons c ds ih =>
    intro rest left n hd hl hn hmax
    obtain ⟨⟨h1, h2⟩, h3⟩ := digit_char (hd c (by simp))
    simp only [List.length_cons] at hl
    simp only [List.cons_append]
    unfold atoiDigits
    rw [if_pos ⟨h1, h2, by omega⟩]
    dsimp only
    rw [h3]
    rw [show ((n : Int) * 10 + ((c.toNat - 48 : Nat) : Int)) = ((10 * n + (c.toNat - 48) : Nat) : Int) by omega]
    by_cases hb : 10 * n + (c.toNat - 48) ≤ 2147483647
    · rw [if_neg (by simp only [intMax]; omega)]
      exact ih rest (left - 1) _ (fun x hx => hd x (by simp [hx])) (by omega) hb (by simpa using hmax)
    · rw [if_pos (by simp only [intMax]; omega)]

theorem digit_not_dash {c : UInt8} (h : IsDigit c) : c ≠ 45 := by
  intro e; subst e; simp [IsDigit] at h

theorem atoi_decimal {v after : Bytes} {n : Nat} (h : IsDecimal v n) (hn : n ≤ 2147483647) (ha : after ≠ []) :
    atoi v after = .ok (n : Int) := by
  obtain ⟨h1, h2, rfl⟩ := h
  unfold atoi
  cases v with
  | nil => exact absurd rfl h1
  | cons c v =>
    dsimp only
    rw [show rd (c :: v ++ after) 0 = .ok c from rfl]
    simp only [Res.ok_bind]
    rw [if_neg (digit_not_dash (h2 c (by simp)))]
    exact atoiDigits_ok (c :: v) after _ 0 h2 (Nat.le_refl _) (Or.inl ⟨rfl, ha⟩) hn

/-! ### PATH_INFO -/

theorem rd_mid (a : Bytes) (c : UInt8) (b : Bytes) : rd (a ++ c :: b) a.length = .ok c := by simp [rd]

theorem path_scan (obj : Bytes) (len : Nat) : ∀ (seg pre rest : Bytes) (f : Nat) (size : Int) acc,
    obj = pre ++ seg ++ rest → pre.length + seg.length ≤ len → 47 ∉ seg →
    pathLoop obj len (f + seg.length) pre.length size acc =
      pathLoop obj len f (pre.length + seg.length) (size + seg.length) acc := by
  intro seg
  induction seg with
  | nil => intros; simp
  | cons c seg ih =>
    intro pre rest f size acc ho hl hn
    have hc : c ≠ 47 := fun e => hn (by simp [e])
    simp only [List.length_cons] at hl
    rw [show f + (c :: seg).length = (f + seg.length) + 1 by simp; omega]
    conv => lhs; unfold pathLoop
    rw [if_pos (by omega)]
    have hr : rd obj pre.length = .ok c := by
      rw [ho]; simp [rd]
    rw [hr]
    simp only [Res.ok_bind]
    rw [if_neg (by rintro (h | h); exact hc h; omega)]
    have := ih (pre ++ [c]) rest f (size + 1) acc (by rw [ho]; simp) (by simp; omega) (fun h => hn (by simp [h]))
    rw [List.length_append, List.length_singleton] at this
    rw [this]
    simp only [List.length_cons]
    congr 1
    · omega
    · omega

/-- The encoded form of a path: each segment preceded by a slash. -/
def pathBytes (segs : List Bytes) : Bytes := segs.flatMap (fun s => 47 :: s)

theorem path_segments (obj : Bytes) (len : Nat) (a : UInt8) (after : Bytes) :
    ∀ (segs : List Bytes) (cur pre : Bytes) (f : Nat) acc,
    obj = pre ++ cur ++ pathBytes segs ++ (a :: after) → len = (pre ++ cur ++ pathBytes segs).length →
    (pathBytes segs).length + 2 ≤ f → 47 ∉ cur → (∀ s ∈ segs, 47 ∉ s) →
    pathLoop obj len f (pre.length + cur.length) (cur.length : Int) acc =
      .ok (acc ++ ((cur :: segs).filter (fun s => s ≠ [])).map percentEscapedToRealBytes) := by
  intro segs
  induction segs with
  | nil =>
    intro cur pre f acc ho hl hf hcur _
    simp only [pathBytes, List.flatMap_nil, List.append_nil] at ho hl hf
    obtain ⟨f, rfl⟩ : ∃ f', f = f' + 1 + 1 := ⟨f - 2, by simp at hf; omega⟩
    unfold pathLoop
    simp only [List.length_append] at hl
    rw [if_pos (by omega)]
    have hr : rd obj (pre.length + cur.length) = .ok a := by
      rw [ho, ← List.length_append]; exact rd_mid _ _ _
    rw [hr]
    simp only [Res.ok_bind]
    rw [if_pos (Or.inr hl.symm)]
    unfold pathLoop
    rw [if_neg (by omega)]
    congr 1
    cases cur with
    | nil => simp
    | cons c cs =>
      have : slice obj (pre.length + (c :: cs).length - ((c :: cs).length : Int).toNat) (pre.length + (c :: cs).length) = c :: cs := by
        rw [Int.toNat_natCast, Nat.add_sub_cancel, ho]; exact slice_append3 _ _ _
      rw [this, if_pos (by simp)]
      simp
  | cons seg segs ih =>
    intro cur pre f acc ho hl hf hcur hs
    have hb : pathBytes (seg :: segs) = 47 :: (seg ++ pathBytes segs) := by simp [pathBytes]
    rw [hb] at ho hl hf
    simp only [List.length_append, List.length_cons] at hl hf
    obtain ⟨f, rfl⟩ : ∃ f', f = f' + seg.length + 1 := ⟨f - (seg.length + 1), by omega⟩
    conv => lhs; unfold pathLoop
    rw [if_pos (by omega)]
    have hr : rd obj (pre.length + cur.length) = .ok 47 := by
      rw [ho, ← List.length_append, List.append_assoc (pre ++ cur)]; exact rd_mid _ _ _
    rw [hr]
    simp only [Res.ok_bind]
    rw [if_pos (Or.inl trivial)]
    have h1 := path_scan obj len seg (pre ++ cur ++ [47]) (pathBytes segs ++ a :: after) f 0
      (if (cur.length : Int) > 0 then acc ++ [percentEscapedToRealBytes
        (slice obj (pre.length + cur.length - (cur.length : Int).toNat) (pre.length + cur.length))] else acc)
      (by rw [ho]; simp) (by simp; omega) (hs seg (by simp))
    have hl5 : (pre ++ cur ++ [47]).length = pre.length + cur.length + 1 := by simp; omega
    rw [hl5] at h1
    rw [h1]
    have h2 := ih seg (pre ++ cur ++ [47]) f
      (if (cur.length : Int) > 0 then acc ++ [percentEscapedToRealBytes
        (slice obj (pre.length + cur.length - (cur.length : Int).toNat) (pre.length + cur.length))] else acc)
      (by rw [ho]; simp) (by simp; omega) (by omega) (hs seg (by simp)) (fun s h => hs s (by simp [h]))
    rw [hl5] at h2
    rw [Int.zero_add, h2]
    congr 1
    cases cur with
    | nil => simp
    | cons c cs =>
      have : slice obj (pre.length + (c :: cs).length - ((c :: cs).length : Int).toNat) (pre.length + (c :: cs).length) = c :: cs := by
        rw [Int.toNat_natCast, Nat.add_sub_cancel, ho]
        rw [show pre ++ (c :: cs) ++ 47 :: (seg ++ pathBytes segs) ++ a :: after = pre ++ (c :: cs) ++ (47 :: (seg ++ pathBytes segs) ++ a :: after) by simp]
        exact slice_append3 _ _ _
      rw [this, if_pos (by simp)]
      simp

theorem pathInfo_ok (segs : List Bytes) (hs : ∀ s ∈ segs, 47 ∉ s ∧ s ≠ []) (after : Bytes) (ha : after ≠ []) (acc) :
    pathInfoOf (pathBytes segs) after acc = .ok (acc ++ segs.map percentEscapedToRealBytes) := by
  cases after with
  | nil => exact absurd rfl ha
  | cons a after =>
  unfold pathInfoOf
  cases segs with
  | nil =>
    simp only [pathBytes, List.flatMap_nil, List.length_nil, List.nil_append]
    simp [pathLoop, rd]
  | cons seg segs =>
    have hb : pathBytes (seg :: segs) = 47 :: (seg ++ pathBytes segs) := by simp [pathBytes]
    rw [hb]
    generalize ho : 47 :: (seg ++ pathBytes segs) ++ a :: after = obj
    generalize hl : (47 :: (seg ++ pathBytes segs)).length = len
    have hl' : len = seg.length + (pathBytes segs).length + 1 := by rw [← hl]; simp
    rw [show len + 2 = ((pathBytes segs).length + 2 + seg.length) + 1 by omega]
    conv => lhs; unfold pathLoop
    rw [if_pos (by omega)]
    have hr : rd obj 0 = .ok 47 := by rw [← ho]; rfl
    rw [hr]
    simp only [Res.ok_bind]
    rw [if_pos (Or.inl trivial), if_neg (by decide)]
    have h1 := path_scan obj len seg [47] (pathBytes segs ++ a :: after) ((pathBytes segs).length + 2) 0 acc
      (by rw [← ho]; simp) (by simp; omega) (hs seg (by simp)).1
    simp only [List.length_singleton] at h1
    rw [show (0 + 1 : Nat) = 1 from rfl, h1]
    have h2 := path_segments obj len a after segs seg [47] ((pathBytes segs).length + 2) acc (by rw [← ho]; simp)
      (by simp; omega) (by omega) (hs seg (by simp)).1 (fun s h => (hs s (by simp [h])).1)
    simp only [List.length_singleton] at h2
    rw [Int.zero_add, h2]
    congr 3
    apply List.filter_eq_self.2
    intro s h
    simpa using (hs s h).2

theorem path_oob (v : Bytes) : ∀ (f i : Nat) (size : Int) acc, i ≤ v.length → v.length < f + i →
    pathLoop v v.length f i size acc = .ub .oobRead := by
  intro f
  induction f with
  | zero => intros; omega
  | succ f ih =>
    intro i size acc hi hf
    unfold pathLoop
    rw [if_pos hi]
    by_cases h : i = v.length
    · rw [rd_oob (by omega)]; rfl
    · rw [rd_ok (by omega)]
      simp only [Res.ok_bind]
      split
      · exact ih _ _ _ (by omega) (by omega)
      · exact ih _ _ _ (by omega) (by omega)

/-! ### Accept-Language -/

theorem takeWhile_stop {p : UInt8 → Bool} (a : Bytes) (c : UInt8) (b : Bytes) (ha : ∀ x ∈ a, p x = true) (hc : p c = false) :
    (a ++ c :: b).takeWhile p = a := by
  induction a with
  | nil => simp [hc]
  | cons x a ih => simp [ha x (by simp), ih (fun y hy => ha y (by simp [hy]))]

theorem takeWhile_all {p : UInt8 → Bool} (a : Bytes) (ha : ∀ x ∈ a, p x = true) : a.takeWhile p = a := by
  induction a with
  | nil => rfl
  | cons x a ih => simp [ha x (by simp), ih (fun y hy => ha y (by simp [hy]))]

theorem dropWhile_replicate (n : Nat) (t : Bytes) (h : t.head? ≠ some 32) :
    (List.replicate n 32 ++ t).dropWhile (· = 32) = t := by
  induction n with
  | zero =>
    cases t with
    | nil => rfl
    | cons c t => simp at h ⊢; simp [h]
  | succ n ih => simp [List.replicate_succ, ih]

theorem trim_ok (a b : Nat) (t : Bytes) (h1 : t.head? ≠ some 32) (h2 : t.getLast? ≠ some 32) (h0 : t ≠ []) :
    trimSpaces (List.replicate a 32 ++ t ++ List.replicate b 32) = t := by
  unfold trimSpaces
  rw [List.append_assoc, dropWhile_replicate _ _ (by cases t with | nil => exact absurd rfl h0 | cons c t => simpa using h1)]
  rw [List.reverse_append, List.reverse_replicate, dropWhile_replicate _ _ (by rwa [List.head?_reverse]), List.reverse_reverse]

theorem dash_localeTag {t l : Bytes} (h : LocaleTag t l) : dashToUnderscore t = l := by
  cases h with
  | plain h =>
    induction t with
    | nil => rfl
    | cons c t ih =>
      simp at h
      unfold dashToUnderscore
      rw [if_neg (fun e => h.1 e.symm), ih h.2]
  | @dash a b h =>
    induction a with
    | nil => simp [dashToUnderscore]
    | cons c a ih =>
      simp at h
      rw [List.cons_append]
      unfold dashToUnderscore
      rw [if_neg (fun e => h.1 e.symm), ih h.2]
      rfl

theorem langItem_sub (i : LangItem) (h : i.WF) :
    trimSpaces (i.bytes.takeWhile (· ≠ 59)) = i.tag ∧ 44 ∉ i.bytes ∧ i.bytes ≠ [] := by
  have hne : ∀ x ∈ List.replicate i.before 32 ++ i.tag ++ List.replicate i.behind 32, (decide (x ≠ 59)) = true := by
    intro x hx
    simp only [List.mem_append, List.mem_replicate] at hx
    rcases hx with (⟨_, rfl⟩ | hx) | ⟨_, rfl⟩
    · decide
    · have := h.tag.2.2; simp; intro e; subst e; exact this hx
    · decide
  have hc : 44 ∉ List.replicate i.before 32 ++ i.tag ++ List.replicate i.behind 32 := by
    simp only [List.mem_append, List.mem_replicate]
    rintro ((⟨_, hx⟩ | hx) | ⟨_, hx⟩)
    · exact absurd hx (by decide)
    · exact h.tag.2.1 hx
    · exact absurd hx (by decide)
  refine ⟨?_, ?_, ?_⟩
  · unfold LangItem.bytes
    cases hp : i.params with
    | none =>
      simp only [List.append_nil]
      rw [takeWhile_all _ hne]
      exact trim_ok _ _ _ h.first h.last h.tag.1
    | some p =>
      simp only
      rw [takeWhile_stop _ _ _ hne (by decide)]
      exact trim_ok _ _ _ h.first h.last h.tag.1
  · unfold LangItem.bytes
    cases hp : i.params with
    | none => simpa using hc
    | some p =>
      have := h.params p hp
      simp only
      intro hx
      rcases List.mem_append.1 hx with hx | hx
      · exact hc hx
      · simp at hx; exact this hx
  · unfold LangItem.bytes
    have := h.tag.1
    intro e
    simp at e
    exact this e.2.1

theorem lang_items : ∀ (items : List LangItem) (f : Nat) acc, (∀ i ∈ items, i.WF) →
    (joinWith [44] (items.map LangItem.bytes)).length < f →
    langLoop f (joinWith [44] (items.map LangItem.bytes)) acc =
      .ok (acc ++ items.map (fun i => dashToUnderscore i.tag)) := by
  intro items
  induction items with
  | nil =>
    intro f acc _ hf
    obtain ⟨f, rfl⟩ : ∃ f', f = f' + 1 := ⟨f - 1, by omega⟩
    simp [joinWith, langLoop]
  | cons i items ih =>
    intro f acc hw hf
    obtain ⟨f, rfl⟩ : ∃ f', f = f' + 1 := ⟨f - 1, by omega⟩
    obtain ⟨h1, h2, h3⟩ := langItem_sub i (hw i (by simp))
    have hni : ∀ x ∈ i.bytes, (decide (x ≠ 44)) = true := by
      intro x hx; simp; intro e; subst e; exact h2 hx
    have hpos : 0 < i.bytes.length := List.length_pos_iff.2 h3
    cases hi : items with
    | nil =>
      subst hi
      simp only [List.map_cons, List.map_nil, joinWith] at hf ⊢
      unfold langLoop
      rw [if_pos hpos]
      dsimp only
      rw [takeWhile_all _ hni, h1]
      rw [List.drop_eq_nil_of_le (by omega)]
      obtain ⟨f, rfl⟩ : ∃ f', f = f' + 1 := ⟨f - 1, by omega⟩
      simp [langLoop]
    | cons j js =>
      rw [← hi]
      have hj : joinWith [44] ((i :: items).map LangItem.bytes) = i.bytes ++ 44 :: joinWith [44] (items.map LangItem.bytes) := by
        rw [hi]; simp [joinWith]
      rw [hj] at hf ⊢
      unfold langLoop
      rw [if_pos (by simp; omega)]
      dsimp only
      rw [takeWhile_stop _ _ _ hni (by decide), h1]
      rw [show (i.bytes ++ 44 :: joinWith [44] (items.map LangItem.bytes)).drop (i.bytes.length + 1) = joinWith [44] (items.map LangItem.bytes) by
        rw [show i.bytes ++ 44 :: joinWith [44] (items.map LangItem.bytes) = (i.bytes ++ [44]) ++ joinWith [44] (items.map LangItem.bytes) by simp]
        rw [show i.bytes.length + 1 = (i.bytes ++ [44]).length by simp]
        exact List.drop_left]
      rw [ih f _ (fun x hx => hw x (by simp [hx])) (by simp at hf; omega)]
      simp

theorem langLoop_total : ∀ (f : Nat) (v : Bytes) acc, v.length < f → ∃ r, langLoop f v acc = .ok r := by
  intro f
  induction f with
  | zero => intros; omega
  | succ f ih =>
    intro v acc h
    unfold langLoop
    split
    · exact ih _ _ (by simp; omega)
    · exact ⟨_, rfl⟩

end Fcgi.Model
