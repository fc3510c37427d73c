import Verif.Lemmas.HttpMore
/-! # Properties C20–C27, C29, C30: decoding HTTP data -/
namespace Fcgi.Props
open Fcgi Fcgi.Model Fcgi.Spec

/-! ## C20 percent decoding -/

/-- Decoding never grows: the destination needs no more room than the source. -/
theorem C20_length (s : Bytes) : (percentEscapedToRealBytes s).length ≤ s.length := pctDecode_length .normal s
/-- Any correct encoding of `s` decodes to `s`. -/
theorem C20_decodes {out s : Bytes} (h : UrlText out s) : percentEscapedToRealBytes out = s := pctDecode_urlText h
/-- Every byte string has a correct encoding, so decoding is onto. -/
theorem C20_onto (s : Bytes) : percentEscapedToRealBytes (pctEncode s) = s := pctDecode_urlText (pctEncode_text s)
example : UrlText b!"a+%2F%c3" (b!"a /" ++ [0xc3]) :=
  .plain _ (by decide) (.plus (.esc _ _ (h := 2) (l := 15) rfl rfl (.esc _ _ (h := 12) (l := 3) rfl rfl .nil)))

/-! ## C21 forms, queries and cookies -/

/-- A query string or urlencoded form holding `ps` decodes to exactly `ps`, in order. -/
theorem C21_form {raw : Bytes} {ps : List (Bytes × Bytes)} (h : FormText raw ps) :
    decodeUrlEncoded raw b!"&" [] = .ok ps := by
  simpa using decodeUrl_form h []
theorem C21_cookie {raw : Bytes} {ps : List (Bytes × Bytes)} (h : CookieText raw ps) :
    decodeUrlEncoded raw b!"; " [] = .ok ps := by
  simpa using decodeUrl_cookie h []
/-- Every list of pairs of arbitrary bytes can be written as a form and as a cookie header. -/
theorem C21_encodable (ps : List (Bytes × Bytes)) :
    FormText (joinWith [38] (ps.map fun p => pctEncode p.1 ++ 61 :: pctEncode p.2)) ps ∧
    CookieText (joinWith [59, 32] (ps.map fun p => pctEncode p.1 ++ 61 :: pctEncode p.2)) ps := by
  constructor
  · refine ⟨_, ?_, rfl⟩
    induction ps with
    | nil => exact .nil
    | cons p ps ih =>
      have h1 := pctEncode_clean p.1; have h2 := pctEncode_clean p.2
      exact .cons (pctEncode_text _) (pctEncode_text _) h1.1 h1.2.1 h2.2.1 ih
  · refine ⟨_, ?_, rfl⟩
    induction ps with
    | nil => exact .nil
    | cons p ps ih =>
      have h1 := pctEncode_clean p.1; have h2 := pctEncode_clean p.2
      exact .cons (pctEncode_text _) (pctEncode_text _) h1.1 h1.2.2.1 h2.2.2.1 ih
/-- So encoding and decoding any pairs is the identity. -/
theorem C21_roundtrip (ps : List (Bytes × Bytes)) :
    decodeUrlEncoded (joinWith [38] (ps.map fun p => pctEncode p.1 ++ 61 :: pctEncode p.2)) b!"&" [] = .ok ps ∧
    decodeUrlEncoded (joinWith [59, 32] (ps.map fun p => pctEncode p.1 ++ 61 :: pctEncode p.2)) b!"; " [] = .ok ps :=
  ⟨C21_form (C21_encodable ps).1, C21_cookie (C21_encodable ps).2⟩
example : FormText b!"a=1&b=x+y" [(b!"a", b!"1"), (b!"b", b!"x y")] :=
  ⟨[b!"a=1", b!"b=x+y"],
    .cons (rn := b!"a") (rv := b!"1") (.plain _ (by decide) .nil) (.plain _ (by decide) .nil) (by decide) (by decide) (by decide)
      (.cons (rn := b!"b") (rv := b!"x+y") (.plain _ (by decide) .nil)
        (.plain _ (by decide) (.plus (.plain _ (by decide) .nil))) (by decide) (by decide) (by decide) .nil), rfl⟩

/-! ## C22 fields are independent -/

/-- Decoding terminates, without undefined behaviour, on every input. -/
theorem C22_total (s : Bytes) (sep : Bytes) (h : sep ≠ []) (out : List (Bytes × Bytes)) :
    ∃ r, decodeUrlEncoded s sep out = .ok r :=
  urlLoop_total s sep (List.length_pos_iff.2 h) _ _ _ _ _ (by omega) (by omega)
/-- When every field contains `=`, decoding the whole is decoding each field on its own (the values may
contain further `=` and be encoded in any way, well-formed or not).  Missing: fields without `=`. -/
theorem C22_partial (fields : List Bytes) (h : ∀ f ∈ fields, 61 ∈ f ∧ 38 ∉ f) :
    ∃ parts : List (Bytes × List (Bytes × Bytes)), parts.map Prod.fst = fields ∧
      (∀ p ∈ parts, decodeUrlEncoded p.1 b!"&" [] = .ok p.2) ∧
      decodeUrlEncoded (joinWith [38] fields) b!"&" [] = .ok (parts.flatMap Prod.snd) := by
  have hex : ∃ fs : List (Bytes × Bytes), fields = fs.map rawField ∧ ∀ p ∈ fs, 61 ∉ p.1 ∧ 38 ∉ p.2 := by
    induction fields with
    | nil => exact ⟨[], rfl, by simp⟩
    | cons f fields ih =>
      obtain ⟨fs, h1, h2⟩ := ih (fun g hg => h g (by simp [hg]))
      obtain ⟨he, hs⟩ := h f (by simp)
      obtain ⟨a, b, rfl, ha⟩ := List.eq_append_cons_of_mem he
      refine ⟨(a, b) :: fs, by simp [rawField, h1], ?_⟩
      intro p hp
      rcases List.mem_cons.1 hp with rfl | hp
      · exact ⟨ha, fun hb => hs (by simp [hb])⟩
      · exact h2 p hp
  obtain ⟨fs, rfl, h2⟩ := hex
  refine ⟨fs.map fun p => (rawField p, [decodePair p]), by simp [Function.comp_def], ?_, ?_⟩
  · intro p hp
    obtain ⟨q, hq, rfl⟩ := List.mem_map.1 hp
    have := decodeUrl_fields b!"&" 38 rfl [q] (fun p hp => h2 p (by rw [List.mem_singleton.1 hp]; exact hq)) []
    simpa [joinWith] using this
  · rw [decodeUrl_fields b!"&" 38 rfl fs h2 [], List.nil_append]
    congr 1
    clear h h2
    induction fs with
    | nil => rfl
    | cons p fs ih => simpa using ih
example : ∀ f ∈ [b!"a=1=2", b!"=%", b!"c="], 61 ∈ f ∧ 38 ∉ f := by decide
/-- What decoding does with any text: every text is cut into names and values in exactly one way, each half is
decoded on its own, and the rest is dropped. -/
theorem C22_exact (s : Bytes) :
    ∃ ps, CutAtEquals s ps ∧ (∀ qs, CutAtEquals s qs → qs = ps) ∧
      decodeUrlEncoded s b!"&" [] =
        .ok (ps.map fun p => (percentEscapedToRealBytes p.1, percentEscapedToRealBytes p.2)) := by
  obtain ⟨ps, h⟩ := cut_exists s.length s (Nat.le_refl _)
  refine ⟨ps, h, fun qs hq => cutAtEquals_unique hq h, ?_⟩
  have := url_cut s h [] [] (s.length + 2) (by simp) (by omega)
  exact this
example : CutAtEquals b!"a&b=c&d=&e" [(b!"a&b", b!"c"), (b!"d", [])] :=
  .more (n := b!"a&b") (v := b!"c") (by decide) (by decide)
    (.more (n := b!"d") (v := []) (s := b!"e") (by decide) (by decide) (.rest (by decide)))
/-- A field without `=`, whatever it and its neighbours are: it swallows the next field's name, so the neighbour
is not found under its own name; on its own it gives nothing, and so it does at the end. -/
theorem C22_violated {ra rb rc a b c : Bytes} (ha : UrlText ra a) (hb : UrlText rb b) (hc : UrlText rc c)
    (ha1 : 61 ∉ ra) (hb1 : 61 ∉ rb) (hb2 : 38 ∉ rb) (hc2 : 38 ∉ rc) :
    decodeUrlEncoded ra b!"&" [] = .ok [] ∧
    decodeUrlEncoded (rb ++ b!"=" ++ rc) b!"&" [] = .ok [(b, c)] ∧
    decodeUrlEncoded (ra ++ b!"&" ++ rb ++ b!"=" ++ rc) b!"&" [] = .ok [(a ++ b!"&" ++ b, c)] ∧
    a ++ b!"&" ++ b ≠ b ∧
    decodeUrlEncoded (rb ++ b!"=" ++ rc ++ b!"&" ++ ra) b!"&" [] = .ok [(b, c)] := by
  have run : ∀ {s : Bytes} {ps}, CutAtEquals s ps → decodeUrlEncoded s b!"&" [] = .ok (ps.map decodePair) := by
    intro s ps h
    exact url_cut s h [] [] (s.length + 2) (by simp) (by omega)
  have hb3 : percentEscapedToRealBytes rb = b := pctDecode_urlText hb
  have hc3 : percentEscapedToRealBytes rc = c := pctDecode_urlText hc
  have hab : UrlText (ra ++ b!"&" ++ rb) (a ++ b!"&" ++ b) := by
    rw [List.append_assoc, List.append_assoc]
    exact ha.append (.plain 38 (by decide) hb)
  refine ⟨run (.rest ha1), ?_, ?_, ?_, ?_⟩
  · have := run (CutAtEquals.last hb1 hc2)
    simpa [decodePair, hb3, hc3] using this
  · have := run (CutAtEquals.last (n := ra ++ b!"&" ++ rb) (v := rc)
      (by simp only [List.mem_append, not_or]; exact ⟨⟨ha1, by decide⟩, hb1⟩) hc2)
    rw [List.map_cons, decodePair, pctDecode_urlText hab, hc3] at this
    simpa using this
  · intro h
    have := congrArg List.length h
    simp only [List.length_append] at this
    have : (b!"&").length = 1 := rfl
    omega
  · have := run (CutAtEquals.more hb1 hc2 (CutAtEquals.rest ha1))
    simpa [decodePair, hb3, hc3] using this
example : decodeUrlEncoded b!"a&b=c" b!"&" [] = .ok [(b!"a&b", b!"c")] ∧
    decodeUrlEncoded b!"a=1&b" b!"&" [] = .ok [(b!"a", b!"1")] := by decide +kernel

/-! ## C23 decimal integers -/

/-- The decimal representation of a number that fits is parsed exactly — provided some byte of the same
object follows the value.  Missing: values at the very end of the object, and `INT_MIN`. -/
theorem C23_exact_partial {v after : Bytes} {n : Nat} (h : IsDecimal v n) (hn : n ≤ 2147483647) (ha : after ≠ []) :
    atoi v after = .ok n ∧ atoi (45 :: v) after = .ok (-n) := by
  refine ⟨atoi_decimal h hn ha, ?_⟩
  obtain ⟨h1, h2, rfl⟩ := h
  unfold atoi
  dsimp only
  rw [show rd (45 :: v ++ after) 0 = .ok 45 from rfl]
  simp only [Res.ok_bind, if_true]
  rw [show (45 :: v ++ after).drop 1 = v ++ after from rfl, show (45 :: v).length - 1 = v.length by simp]
  rw [show (0 : Int) = ((0 : Nat) : Int) from rfl, atoiDigits_ok v after v.length 0 h2 (Nat.le_refl _) (Or.inl ⟨rfl, ha⟩) hn]
  rfl
/-- Parsing stops at the first character that is not a digit (no byte need follow then). -/
theorem C23_stops (ds : Bytes) (c : UInt8) (rest after : Bytes) (n : Nat) (h : IsDecimal ds n) (hn : n ≤ 2147483647)
    (hc : ¬ IsDigit c) : atoi (ds ++ c :: rest) after = .ok n := by
  obtain ⟨h1, h2, rfl⟩ := h
  cases ds with
  | nil => exact absurd rfl h1
  | cons d ds =>
    unfold atoi
    dsimp only
    rw [show rd (d :: ds ++ c :: rest ++ after) 0 = .ok d from rfl]
    simp only [Res.ok_bind]
    rw [if_neg (digit_not_dash (h2 d (by simp)))]
    have := atoiDigits_ok (d :: ds) (c :: rest ++ after) (d :: ds ++ c :: rest).length 0 h2 (by simp) (Or.inr ⟨c, _, rfl, hc⟩) hn
    rw [List.append_assoc]
    exact this
/-- Whatever the value, nothing outside the object is read when a byte follows it. -/
theorem C23_safe_partial (v after : Bytes) (ha : after ≠ []) (hv : v ≠ []) :
    atoi v after = .ub .signedOverflow ∨ ∃ x, atoi v after = .ok x := atoi_safe v after ha hv
/-- A value of digits ending where its object ends: one byte beyond the object is read. -/
theorem C23_violated_oob {v : Bytes} {n : Nat} (h : IsDecimal v n) (hn : n ≤ 2147483647) : atoi v [] = .ub .oobRead := by
  obtain ⟨h1, h2, rfl⟩ := h
  cases v with
  | nil => exact absurd rfl h1
  | cons c v =>
    unfold atoi
    dsimp only
    rw [List.append_nil, show rd (c :: v) 0 = .ok c from rfl]
    simp only [Res.ok_bind]
    rw [if_neg (digit_not_dash (h2 c (by simp)))]
    exact atoiDigits_oob (c :: v) _ 0 h2 (Nat.le_refl _) hn
/-- Larger numbers are signed overflow, and so is the smallest `int`, written `-2147483648`. -/
theorem C23_violated_overflow {v : Bytes} {n : Nat} (after : Bytes) (h : IsDecimal v n) (hn : 2147483647 < n) :
    atoi v after = .ub .signedOverflow ∧ atoi (45 :: v) after = .ub .signedOverflow := by
  obtain ⟨h1, h2, rfl⟩ := h
  constructor
  · cases v with
    | nil => exact absurd rfl h1
    | cons c v =>
      unfold atoi
      dsimp only
      rw [show rd (c :: v ++ after) 0 = .ok c from rfl]
      simp only [Res.ok_bind]
      rw [if_neg (digit_not_dash (h2 c (by simp)))]
      exact atoiDigits_overflow (c :: v) after _ 0 h2 (Nat.le_refl _) (by omega) hn
  · unfold atoi
    dsimp only
    rw [show rd (45 :: v ++ after) 0 = .ok 45 from rfl]
    simp only [Res.ok_bind, if_true]
    rw [show (45 :: v ++ after).drop 1 = v ++ after from rfl, show (45 :: v).length - 1 = v.length by simp]
    rw [show (0 : Int) = ((0 : Nat) : Int) from rfl, atoiDigits_overflow v after v.length 0 h2 (Nat.le_refl _) (by omega) hn]
    rfl
example : IsDecimal b!"0080" 80 := by refine ⟨by decide, ?_, rfl⟩; simp [IsDigit]
example : IsDecimal b!"2147483648" 2147483648 := by refine ⟨by decide, ?_, rfl⟩; simp [IsDigit]

/-! ## C24 dispatch by name

`fill` runs on the content `bs` of a record; `pre` is the record's header, `tail` what follows. -/

section
variable {nvs : List (Bytes × Bytes)} {bs : Bytes} (he : EncPairs nvs bs) (pre tail : Bytes) (env env' : Env)

/-- Whenever the numeric variables hold numbers, the addresses are texts of addresses, and a byte other than a colon follows, filling
succeeds. -/
theorem C24_succeeds (he : EncPairs nvs bs) (ht : EndsColons tail)
    (hok : ∀ nv ∈ nvs, nv.1 ∈ [b!"SERVER_PORT", b!"REMOTE_PORT", b!"CONTENT_LENGTH", b!"HTTP_KEEP_ALIVE", b!"HTTP_IF_NONE_MATCH"] →
      ∃ n ≤ 2147483647, IsDecimal nv.2 n)
    (had : ∀ nv ∈ nvs, nv.1 ∈ [b!"SERVER_ADDR", b!"REMOTE_ADDR"] → ∃ a, AddrText nv.2 a) :
    ∃ env', fill (pre ++ bs ++ tail) pre.length (pre ++ bs).length env = .ok env' :=
  fill_ok he pre tail ht (fun nv h => ⟨hok nv h, had nv h⟩) env

/-- The text variables: the last value given under the name, otherwise unchanged. -/
theorem C24_text (he : EncPairs nvs bs)
    (hf : fill (pre ++ bs ++ tail) pre.length (pre ++ bs).length env = .ok env') :
    env'.host = (lastValue b!"HTTP_HOST" nvs).getD env.host ∧
    env'.origin = (lastValue b!"HTTP_ORIGIN" nvs).getD env.origin ∧
    env'.userAgent = (lastValue b!"HTTP_USER_AGENT" nvs).getD env.userAgent ∧
    env'.acceptContentTypes = (lastValue b!"HTTP_ACCEPT" nvs).getD env.acceptContentTypes ∧
    env'.acceptCharsets = (lastValue b!"HTTP_ACCEPT_CHARSET" nvs).getD env.acceptCharsets ∧
    env'.authorization = (lastValue b!"HTTP_AUTHORIZATION" nvs).getD env.authorization ∧
    env'.referer = (lastValue b!"HTTP_REFERER" nvs).getD env.referer ∧
    env'.root = (lastValue b!"DOCUMENT_ROOT" nvs).getD env.root ∧
    env'.scriptName = (lastValue b!"SCRIPT_NAME" nvs).getD env.scriptName ∧
    env'.requestUri = (lastValue b!"REQUEST_URI" nvs).getD env.requestUri := by
  obtain ⟨items, rfl, h⟩ := fill_pairs he pre tail env env' hf
  have key : ∀ (π : Env → Bytes) (k : Bytes)
      (_ : ∀ env v a env', FillEffect env k v a env' → π env' = v)
      (_ : ∀ env n v a env', n ≠ k → FillEffect env n v a env' → π env' = π env),
      π env' = (lastValue k (items.map Prod.fst)).getD (π env) := by
    intro π k h1 h2
    have := fillPairs_last π k (fun v x => x = v) h1 h2 tail items env env' h
    cases hl : lastValue k (items.map Prod.fst) <;> rw [hl] at this <;> exact this
  refine ⟨key (·.host) _ ?_ ?_, key (·.origin) _ ?_ ?_, key (·.userAgent) _ ?_ ?_, key (·.acceptContentTypes) _ ?_ ?_,
    key (·.acceptCharsets) _ ?_ ?_, key (·.authorization) _ ?_ ?_, key (·.referer) _ ?_ ?_, key (·.root) _ ?_ ?_,
    key (·.scriptName) _ ?_ ?_, key (·.requestUri) _ ?_ ?_⟩
  all_goals first
    | (intro env v a env' h; cases h <;> first | rfl | (rename_i hh; exact absurd hh (by decide)) | (rename_i hh _ ; exact absurd hh (by decide)) | (rename_i hh _ _; exact absurd hh (by decide)))
    | (intro env n v a env' hn h; cases h <;> first | rfl | exact absurd ‹_› hn)

/-- Addresses: the one that the last value given is the text of (RFC 4291 section 2.2, see `AddrText`), otherwise unchanged. -/
theorem C24_addresses (he : EncPairs nvs bs)
    (hf : fill (pre ++ bs ++ tail) pre.length (pre ++ bs).length env = .ok env') :
    (∀ v a, lastValue b!"SERVER_ADDR" nvs = some v → AddrText v a → env'.serverAddress.toList = a) ∧
    (∀ v a, lastValue b!"REMOTE_ADDR" nvs = some v → AddrText v a → env'.remoteAddress.toList = a) ∧
    (lastValue b!"SERVER_ADDR" nvs = none → env'.serverAddress = env.serverAddress) ∧
    (lastValue b!"REMOTE_ADDR" nvs = none → env'.remoteAddress = env.remoteAddress) := by
  obtain ⟨items, rfl, h⟩ := fill_pairs he pre tail env env' hf
  have key : ∀ (π : Env → Vector Byte 16) (k : Bytes)
      (_ : ∀ env v a env', FillEffect env k v a env' → assignTo (π env) v a = .ok (π env'))
      (_ : ∀ env n v a env', n ≠ k → FillEffect env n v a env' → π env' = π env),
      (∀ v a, lastValue k (items.map Prod.fst) = some v → AddrText v a → (π env').toList = a) ∧
      (lastValue k (items.map Prod.fst) = none → π env' = π env) := by
    intro π k h1 h2
    have := fillPairs_last π k (fun v x => ∃ old after, assignTo old v after = .ok x)
      (fun env v a env' h => ⟨_, a, h1 env v a env' h⟩) h2 tail items env env' h
    constructor
    · intro v a hl ht
      rw [hl] at this
      obtain ⟨old, after, h3⟩ := this
      exact assignTo_any ht h3
    · intro hl; rw [hl] at this; exact this
  have k1 := key (·.serverAddress) b!"SERVER_ADDR" ?_ ?_
  have k2 := key (·.remoteAddress) b!"REMOTE_ADDR" ?_ ?_
  · exact ⟨k1.1, k2.1, k1.2, k2.2⟩
  all_goals first
    | (intro env v a env' h; cases h <;> first | assumption | (rename_i hh; exact absurd hh (by decide)) | (rename_i hh _ ; exact absurd hh (by decide)) | (rename_i hh _ _; exact absurd hh (by decide)))
    | (intro env n v a env' hn h; cases h <;> first | rfl | exact absurd ‹_› hn)

/-- The date (its text) and the method. -/
theorem C24_parsed (he : EncPairs nvs bs)
    (hf : fill (pre ++ bs ++ tail) pre.length (pre ++ bs).length env = .ok env') :
    env'.ifModifiedSince = (lastValue b!"HTTP_IF_MODIFIED_SINCE" nvs).or env.ifModifiedSince ∧
    env'.requestMethod = ((lastValue b!"REQUEST_METHOD" nvs).map parseMethod).getD env.requestMethod ∧
    env'.contentType = ((lastValue b!"CONTENT_TYPE" nvs).map (fun v => v.takeWhile (· ≠ 59))).getD env.contentType := by
  obtain ⟨items, rfl, h⟩ := fill_pairs he pre tail env env' hf
  have key : ∀ (π : Env → Option Bytes) (k : Bytes)
      (_ : ∀ env v a env', FillEffect env k v a env' → π env' = some v)
      (_ : ∀ env n v a env', n ≠ k → FillEffect env n v a env' → π env' = π env),
      π env' = (lastValue k (items.map Prod.fst)).or (π env) := by
    intro π k h1 h2
    have := fillPairs_last π k (fun v x => x = some v) h1 h2 tail items env env' h
    cases hl : lastValue k (items.map Prod.fst) <;> rw [hl] at this <;> simpa using this
  refine ⟨key (·.ifModifiedSince) _ ?_ ?_, ?_, ?_⟩
  case refine_3 =>
    have := fillPairs_last (·.requestMethod) b!"REQUEST_METHOD" (fun v x => x = parseMethod v)
      (by intro env v a env' h; cases h <;> first | rfl | (rename_i hh; exact absurd hh (by decide)) | (rename_i hh _ ; exact absurd hh (by decide)) | (rename_i hh _ _; exact absurd hh (by decide)))
      (by intro env n v a env' hn h; cases h <;> first | rfl | exact absurd ‹_› hn)
      tail items env env' h
    cases hl : lastValue b!"REQUEST_METHOD" (items.map Prod.fst) <;> rw [hl] at this <;> exact this
  case refine_4 =>
    have := fillPairs_last (·.contentType) b!"CONTENT_TYPE" (fun v x => x = v.takeWhile (· ≠ 59))
      (by intro env v a env' h; cases h <;> first | rfl | (rename_i hh; exact absurd hh (by decide)) | (rename_i hh _ ; exact absurd hh (by decide)) | (rename_i hh _ _; exact absurd hh (by decide)))
      (by intro env n v a env' hn h; cases h <;> first | rfl | exact absurd ‹_› hn)
      tail items env env' h
    cases hl : lastValue b!"CONTENT_TYPE" (items.map Prod.fst) <;> rw [hl] at this <;> exact this
  all_goals first
    | (intro env v a env' h; cases h <;> first | rfl | (rename_i hh; exact absurd hh (by decide)) | (rename_i hh _ ; exact absurd hh (by decide)) | (rename_i hh _ _; exact absurd hh (by decide)))
    | (intro env n v a env' hn h; cases h <;> first | rfl | exact absurd ‹_› hn)

/-- The numeric variables: if the last value given is a decimal number (in the range of `int`, and of the
variable), the variable is that number; if none was given it is unchanged. -/
theorem C24_numbers (he : EncPairs nvs bs)
    (hf : fill (pre ++ bs ++ tail) pre.length (pre ++ bs).length env = .ok env') :
    (∀ v n, lastValue b!"CONTENT_LENGTH" nvs = some v → IsDecimal v n → n ≤ 2147483647 → env'.contentLength.toNat = n) ∧
    (∀ v n, lastValue b!"HTTP_KEEP_ALIVE" nvs = some v → IsDecimal v n → n ≤ 2147483647 → env'.keepAlive.toNat = n) ∧
    (∀ v n, lastValue b!"HTTP_IF_NONE_MATCH" nvs = some v → IsDecimal v n → n ≤ 2147483647 → env'.etag.toNat = n) ∧
    (∀ v n, lastValue b!"SERVER_PORT" nvs = some v → IsDecimal v n → n ≤ 65535 → env'.serverPort.toNat = n) ∧
    (∀ v n, lastValue b!"REMOTE_PORT" nvs = some v → IsDecimal v n → n ≤ 65535 → env'.remotePort.toNat = n) ∧
    (lastValue b!"CONTENT_LENGTH" nvs = none → env'.contentLength = env.contentLength) ∧
    (lastValue b!"HTTP_KEEP_ALIVE" nvs = none → env'.keepAlive = env.keepAlive) ∧
    (lastValue b!"HTTP_IF_NONE_MATCH" nvs = none → env'.etag = env.etag) ∧
    (lastValue b!"SERVER_PORT" nvs = none → env'.serverPort = env.serverPort) ∧
    (lastValue b!"REMOTE_PORT" nvs = none → env'.remotePort = env.remotePort) := by
  obtain ⟨items, rfl, h⟩ := fill_pairs he pre tail env env' hf
  have num : ∀ v a p n, atoi v a = .ok p → IsDecimal v n → n ≤ 2147483647 → p = (n : Int) := by
    intro v a p n h1 h2 h3
    by_cases ha : a = []
    · subst ha; rw [C23_violated_oob h2 h3] at h1; cases h1
    · rw [atoi_decimal h2 h3 ha] at h1; cases h1; rfl
  have u32 : ∀ n : Nat, n ≤ 2147483647 → (toU32 (n : Int)).toNat = n := by
    intro n hn
    simp [toU32, UInt32.ofInt]; omega
  have u16 : ∀ n : Nat, n ≤ 65535 → (toU16 (n : Int)).toNat = n := by
    intro n hn
    simp [toU16, UInt16.ofInt]; omega
  have key32 : ∀ (π : Env → UInt32) (k : Bytes)
      (_ : ∀ env v a env', FillEffect env k v a env' → ∃ p, atoi v a = .ok p ∧ π env' = toU32 p)
      (_ : ∀ env n v a env', n ≠ k → FillEffect env n v a env' → π env' = π env),
      (∀ v n, lastValue k (items.map Prod.fst) = some v → IsDecimal v n → n ≤ 2147483647 → (π env').toNat = n) ∧
      (lastValue k (items.map Prod.fst) = none → π env' = π env) := by
    intro π k h1 h2
    have := fillPairs_last π k (fun v x => ∃ a p, atoi v a = .ok p ∧ x = toU32 p)
      (fun env v a env' h => ⟨a, h1 env v a env' h⟩) h2 tail items env env' h
    constructor
    · intro v n hl hd hn
      rw [hl] at this
      obtain ⟨a, p, h3, h4⟩ := this
      rw [h4, num v a p n h3 hd hn, u32 n hn]
    · intro hl; rw [hl] at this; exact this
  have key16 : ∀ (π : Env → UInt16) (k : Bytes)
      (_ : ∀ env v a env', FillEffect env k v a env' → ∃ p, atoi v a = .ok p ∧ π env' = toU16 p)
      (_ : ∀ env n v a env', n ≠ k → FillEffect env n v a env' → π env' = π env),
      (∀ v n, lastValue k (items.map Prod.fst) = some v → IsDecimal v n → n ≤ 65535 → (π env').toNat = n) ∧
      (lastValue k (items.map Prod.fst) = none → π env' = π env) := by
    intro π k h1 h2
    have := fillPairs_last π k (fun v x => ∃ a p, atoi v a = .ok p ∧ x = toU16 p)
      (fun env v a env' h => ⟨a, h1 env v a env' h⟩) h2 tail items env env' h
    constructor
    · intro v n hl hd hn
      rw [hl] at this
      obtain ⟨a, p, h3, h4⟩ := this
      rw [h4, num v a p n h3 hd (by omega), u16 n hn]
    · intro hl; rw [hl] at this; exact this
  have k1 := key32 (·.contentLength) b!"CONTENT_LENGTH" ?_ ?_
  have k2 := key32 (·.keepAlive) b!"HTTP_KEEP_ALIVE" ?_ ?_
  have k3 := key32 (·.etag) b!"HTTP_IF_NONE_MATCH" ?_ ?_
  have k4 := key16 (·.serverPort) b!"SERVER_PORT" ?_ ?_
  have k5 := key16 (·.remotePort) b!"REMOTE_PORT" ?_ ?_
  · exact ⟨k1.1, k2.1, k3.1, k4.1, k5.1, k1.2, k2.2, k3.2, k4.2, k5.2⟩
  all_goals first
    | (intro env v a env' h; cases h <;> first | exact ⟨_, ‹_›, rfl⟩ | (rename_i hh; exact absurd hh (by decide)) | (rename_i hh _ ; exact absurd hh (by decide)) | (rename_i hh _ _; exact absurd hh (by decide)))
    | (intro env n v a env' hn h; cases h <;> first | rfl | exact absurd ‹_› hn)

/-- A negative length is a huge one (beyond every limit below 2^31, see C40), not a small one. -/
theorem C24_negative (he : EncPairs nvs bs)
    (hf : fill (pre ++ bs ++ tail) pre.length (pre ++ bs).length env = .ok env') (v : Bytes) (n : Nat)
    (hl : lastValue b!"CONTENT_LENGTH" nvs = some (45 :: v)) (hd : IsDecimal v n) (hn : 1 ≤ n ∧ n ≤ 2147483647) :
    env'.contentLength.toNat = 4294967296 - n := by
  obtain ⟨items, rfl, h⟩ := fill_pairs he pre tail env env' hf
  have := fillPairs_last (·.contentLength) b!"CONTENT_LENGTH" (fun v x => ∃ a p, atoi v a = .ok p ∧ x = toU32 p) (by
    intro env v a env' h
    cases h <;> first | exact ⟨_, _, ‹_›, rfl⟩ | (rename_i hh; exact absurd hh (by decide)) | (rename_i hh _ ; exact absurd hh (by decide)) | (rename_i hh _ _; exact absurd hh (by decide)))
    (by intro env n v a env' hn h; cases h <;> first | rfl | exact absurd ‹_› hn) tail items env env' h
  rw [hl] at this
  obtain ⟨a, p, h3, h4⟩ := this
  have h5 := atoi_mono (ext := [0]) h3
  rw [(C23_exact_partial hd hn.2 (by simp)).2] at h5
  cases h5
  rw [h4]
  simp [toU32, UInt32.ofInt]; omega
example : lastValue b!"CONTENT_LENGTH" [(b!"CONTENT_LENGTH", b!"-1")] = some (45 :: b!"1") ∧ IsDecimal b!"1" 1 :=
  ⟨by decide, by decide, by unfold IsDigit; decide, by decide⟩

/-- The variables that collect: query fields, cookies, path segments and languages of every occurrence, in order. -/
theorem C24_lists (he : EncPairs nvs bs)
    (hf : fill (pre ++ bs ++ tail) pre.length (pre ++ bs).length env = .ok env') :
    (∀ ds : List (Bytes × List (Bytes × Bytes)), ds.map Prod.fst = allValues b!"QUERY_STRING" nvs →
      (∀ d ∈ ds, FormText d.1 d.2) → env'.gets = env.gets ++ ds.flatMap Prod.snd) ∧
    (∀ ds : List (Bytes × List (Bytes × Bytes)), ds.map Prod.fst = allValues b!"HTTP_COOKIE" nvs →
      (∀ d ∈ ds, CookieText d.1 d.2) → env'.cookies = env.cookies ++ ds.flatMap Prod.snd) ∧
    (∀ ds : List (Bytes × List Bytes), ds.map Prod.fst = allValues b!"PATH_INFO" nvs →
      (∀ d ∈ ds, PathText d.1 d.2) → env'.pathInfo = env.pathInfo ++ ds.flatMap Prod.snd) ∧
    (∀ ds : List (Bytes × List Bytes), ds.map Prod.fst = allValues b!"HTTP_ACCEPT_LANGUAGE" nvs →
      (∀ d ∈ ds, LangText d.1 d.2) → env'.acceptLanguages = env.acceptLanguages ++ ds.flatMap Prod.snd) := by
  obtain ⟨items, rfl, h⟩ := fill_pairs he pre tail env env' hf
  have key : ∀ {α : Type} (π : Env → List α) (k : Bytes) (T : Bytes → List α → Prop)
      (_ : ∀ env v a env' c, T v c → FillEffect env k v a env' → π env' = π env ++ c)
      (_ : ∀ env v a env', FillEffect env k v a env' → ∃ c, π env' = π env ++ c)
      (_ : ∀ env n v a env', n ≠ k → FillEffect env n v a env' → π env' = π env)
      (ds : List (Bytes × List α)), ds.map Prod.fst = allValues k (items.map Prod.fst) → (∀ d ∈ ds, T d.1 d.2) →
      π env' = π env ++ ds.flatMap Prod.snd := by
    intro α π k T h1 h1' h2 ds hds hT
    obtain ⟨es, h3, h4, h5⟩ := fillPairs_append π k (fun v c => ∀ c', T v c' → c = c')
      (fun env v a env' he => by
        obtain ⟨c, hc⟩ := h1' env v a env' he
        exact ⟨c, fun c' hc' => List.append_cancel_left (hc.symm.trans (h1 env v a env' c' hc' he)), hc⟩) h2 tail items env env' h
    rw [h5]
    congr 1
    rw [← hds] at h3
    clear h5 hds
    induction es generalizing ds with
    | nil =>
      cases ds with
      | nil => rfl
      | cons d ds => simp at h3
    | cons e es ih =>
      cases ds with
      | nil => simp at h3
      | cons d ds =>
        simp only [List.map_cons, List.cons.injEq] at h3
        have h6 := h4 e (by simp) d.2 (by rw [h3.1]; exact hT d (by simp))
        have h7 := ih ds (fun x hx => hT x (by simp [hx])) h3.2 (fun x hx => h4 x (by simp [hx]))
        simp [h6, h7]
  have app : ∀ {α : Type} {out p : List α} {r : Res (List α)}, (r >>= fun x => Res.ok (out ++ x)) = .ok p → ∃ c, p = out ++ c := by
    intro α out p r hr
    rw [Res.bind_eq_ok] at hr
    obtain ⟨c, _, hc⟩ := hr
    cases hc; exact ⟨c, rfl⟩
  refine ⟨key (·.gets) _ FormText ?_ ?_ ?_, key (·.cookies) _ CookieText ?_ ?_ ?_, key (·.pathInfo) _ PathText ?_ ?_ ?_,
    key (·.acceptLanguages) _ LangText ?_ ?_ ?_⟩
  case refine_1 =>
    intro env v a env' c hT h
    cases h <;> first
      | (rename_i hp; rw [decodeUrl_form hT] at hp; cases hp; rfl)
      | (rename_i hh; exact absurd hh (by decide)) | (rename_i hh _ ; exact absurd hh (by decide)) | (rename_i hh _ _; exact absurd hh (by decide))
  case refine_4 =>
    intro env v a env' c hT h
    cases h <;> first
      | (rename_i hp; rw [decodeUrl_cookie hT] at hp; cases hp; rfl)
      | (rename_i hh; exact absurd hh (by decide)) | (rename_i hh _ ; exact absurd hh (by decide)) | (rename_i hh _ _; exact absurd hh (by decide))
  case refine_7 =>
    intro env v a env' c hT h
    cases h <;> first
      | (rename_i hp
         by_cases ha : a = []
         · subst ha
           unfold pathInfoOf at hp
           rw [List.append_nil, path_oob v _ _ _ _ (by omega) (by omega)] at hp
           cases hp
         · rw [pathInfo_text hT a ha] at hp; cases hp; rfl)
      | (rename_i hh; exact absurd hh (by decide)) | (rename_i hh _ ; exact absurd hh (by decide)) | (rename_i hh _ _; exact absurd hh (by decide))
  case refine_10 =>
    intro env v a env' c hT h
    cases h <;> first
      | (rename_i hp; rw [langText_ok hT] at hp; cases hp; rfl)
      | (rename_i hh; exact absurd hh (by decide)) | (rename_i hh _ ; exact absurd hh (by decide)) | (rename_i hh _ _; exact absurd hh (by decide))
  case refine_2 =>
    intro env v a env' h
    cases h <;> first
      | (rename_i hp; unfold decodeUrlEncoded at hp; rw [urlLoop_out] at hp; exact app hp)
      | (rename_i hh; exact absurd hh (by decide)) | (rename_i hh _ ; exact absurd hh (by decide)) | (rename_i hh _ _; exact absurd hh (by decide))
  case refine_5 =>
    intro env v a env' h
    cases h <;> first
      | (rename_i hp; unfold decodeUrlEncoded at hp; rw [urlLoop_out] at hp; exact app hp)
      | (rename_i hh; exact absurd hh (by decide)) | (rename_i hh _ ; exact absurd hh (by decide)) | (rename_i hh _ _; exact absurd hh (by decide))
  case refine_8 =>
    intro env v a env' h
    cases h <;> first
      | (rename_i hp; unfold pathInfoOf at hp; rw [pathLoop_acc] at hp; exact app hp)
      | (rename_i hh; exact absurd hh (by decide)) | (rename_i hh _ ; exact absurd hh (by decide)) | (rename_i hh _ _; exact absurd hh (by decide))
  case refine_11 =>
    intro env v a env' h
    cases h <;> first
      | (rename_i hp; rw [langLoop_acc] at hp; exact app hp)
      | (rename_i hh; exact absurd hh (by decide)) | (rename_i hh _ ; exact absurd hh (by decide)) | (rename_i hh _ _; exact absurd hh (by decide))
  all_goals (intro env n v a env' hn h; cases h <;> first | rfl | exact absurd ‹_› hn)

/-- Every parameter with another name is kept unchanged under its own name. -/
theorem C24_others (he : EncPairs nvs bs)
    (hf : fill (pre ++ bs ++ tail) pre.length (pre ++ bs).length env = .ok env') (key : Bytes) (hk : key ∉ wellKnown) :
    env'.others.lookup key = (lastValue key nvs).or (env.others.lookup key) := by
  obtain ⟨items, rfl, h⟩ := fill_pairs he pre tail env env' hf
  exact fillPairs_others tail key items env env' h hk
end
/-- A record's content with a repeated, a numeric and an unknown parameter, and what filling makes of it. -/
example : EncPairs [(b!"HTTP_HOST", b!"a"), (b!"CONTENT_LENGTH", b!"12"), (b!"X", b!"y"), (b!"HTTP_HOST", b!"b")]
    ([9, 1] ++ b!"HTTP_HOSTa" ++ ([14, 2] ++ b!"CONTENT_LENGTH12" ++ ([1, 1] ++ b!"Xy" ++ ([9, 1] ++ b!"HTTP_HOSTb" ++ [])))) := by
  refine .cons ⟨[9], [1], .short 9 (by decide), .short 1 (by decide), rfl⟩ (.cons ⟨[14], [2], .short 14 (by decide), .short 2 (by decide), rfl⟩
    (.cons ⟨[1], [1], .short 1 (by decide), .short 1 (by decide), rfl⟩ (.cons ⟨[9], [1], .short 9 (by decide), .short 1 (by decide), rfl⟩ .nil)))
example : fill ([9, 1] ++ b!"HTTP_HOSTa" ++ [14, 2] ++ b!"CONTENT_LENGTH12" ++ [1, 1] ++ b!"Xy" ++ [9, 1] ++ b!"HTTP_HOSTb" ++ [0]) 0 46 {} =
    .ok { host := b!"b", contentLength := 12, others := [(b!"X", b!"y")] } := by decide +kernel
/-- An address: what filling makes of it, also if the next name has 58 characters (its length is a colon). -/
example : fill ([11, 11] ++ b!"REMOTE_ADDR192.168.0.1" ++ [11, 2] ++ b!"SERVER_ADDR::" ++ [58, 1] ++ List.replicate 58 88 ++ b!"y" ++ [0]) 0 100 {} =
    .ok { remoteAddress := #v[0, 0, 0, 0, 0, 0, 0, 0, 0, 0, 255, 255, 192, 168, 0, 1], others := [(List.replicate 58 88, b!"y")] } := by decide +kernel
/-- A text that is no address and makes filling undefined: the hypothesis of `C24_succeeds` about addresses is needed. -/
example : fill ([11, 17] ++ b!"REMOTE_ADDR1.2.3.99999999999" ++ [0]) 0 30 {} = .ub .signedOverflow := by decide +kernel

/-! ## C25 path info -/

/-- The vector is exactly the decoded segments, provided a byte of the object follows the value. -/
theorem C25_segments_partial {raw : Bytes} {segs : List Bytes} (h : PathText raw segs) (after : Bytes) (ha : after ≠ []) :
    pathInfoOf raw after [] = .ok segs := by
  simpa using pathInfo_text h after ha []
/-- Any list of non-empty segments of arbitrary bytes can be written. -/
theorem C25_encodable (segs : List Bytes) (h : ∀ s ∈ segs, s ≠ []) :
    PathText (segs.flatMap fun s => 47 :: pctEncode s) segs := by
  induction segs with
  | nil => exact .nil
  | cons s segs ih =>
    have := PathText.cons (pctEncode_text s) (pctEncode_clean s).2.2.2 (by
      cases s with
      | nil => exact absurd rfl (h [] (by simp))
      | cons c s => simp [pctEncode]) (ih (fun x hx => h x (by simp [hx])))
    simpa using this
theorem C25_total_partial (v after : Bytes) (ha : after ≠ []) : ∃ r, pathInfoOf v after [] = .ok r :=
  pathInfoOf_total v after ha []
/-- Every PATH_INFO value ending where its object ends makes the parser read one byte beyond it. -/
theorem C25_violated_oob (v : Bytes) : pathInfoOf v [] [] = .ub .oobRead := by
  unfold pathInfoOf
  rw [List.append_nil]
  exact path_oob v _ _ _ _ (by omega) (by omega)
example : PathText b!"/a/b%20c" [b!"a", b!"b c"] :=
  .cons (rs := b!"a") (raw := b!"/b%20c") (.plain _ (by decide) .nil) (by decide) (by decide)
    (.cons (rs := b!"b%20c") (raw := []) (.plain _ (by decide) (.esc _ _ (h := 2) (l := 0) rfl rfl (.plain _ (by decide) .nil)))
      (by decide) (by decide) .nil)

/-! ## C26 languages -/

theorem C26_tags {raw : Bytes} {ls : List Bytes} (h : LangText raw ls) (env : Env) (after : Bytes) :
    fillStep env b!"HTTP_ACCEPT_LANGUAGE" raw after = .ok { env with acceptLanguages := env.acceptLanguages ++ ls } := by
  simp only [fillStep]
  rw [langText_ok h]
  rfl
theorem C26_total (v : Bytes) : ∃ r, langLoop (v.length + 1) v [] = .ok r := langLoop_total _ v [] (by omega)
example : LangText b!"en-CA, fr;q=0.5" [b!"en_CA", b!"fr"] := by
  refine ⟨[(⟨0, b!"en-CA", 0, none⟩, b!"en_CA"), (⟨1, b!"fr", 0, some b!"q=0.5"⟩, b!"fr")], ?_, by decide, rfl⟩
  intro i hi
  simp only [List.mem_cons, List.not_mem_nil, or_false] at hi
  rcases hi with rfl | rfl
  · exact ⟨⟨by decide, by decide, by decide, by simp⟩, .dash (a := b!"en") (b := b!"CA") (by decide)⟩
  · exact ⟨⟨by decide, by decide, by decide, by simp⟩, .plain (by decide)⟩

/-! ## C27 methods -/

theorem C27_exact (v : Bytes) (m : RequestMethod) (hm : m ≠ .error) :
    parseMethod v = m ↔ v = requestMethodLabel m := by
  constructor
  · intro h
    unfold parseMethod at h
    split at h <;> (repeat' split at h) <;> first | (subst h; assumption) | exact absurd h.symm hm
  · rintro rfl
    cases m <;> first | rfl | exact absurd rfl hm
/-- The labels are the nine HTTP method names, and one for errors. -/
theorem C27_labels : [RequestMethod.error, .head, .get, .post, .put, .delete, .trace, .options, .connect, .patch].map requestMethodLabel =
    [b!"ERROR", b!"HEAD", b!"GET", b!"POST", b!"PUT", b!"DELETE", b!"TRACE", b!"OPTIONS", b!"CONNECT", b!"PATCH"] := rfl
/-- What is written for a method with `<<` differs from method to method, that for an error included. -/
theorem C27_written (m m' : RequestMethod) : requestMethodLabel m = requestMethodLabel m' ↔ m = m' := by
  cases m <;> cases m' <;> decide
theorem C27_error (v : Bytes) : parseMethod v = .error ↔ ∀ m, m ≠ .error → v ≠ requestMethodLabel m := by
  constructor
  · intro h m hm hv
    rw [(C27_exact v m hm).2 hv] at h
    exact hm h
  · intro h
    apply Classical.byContradiction
    intro hne
    exact h _ hne ((C27_exact v _ hne).1 rfl)
example : parseMethod b!"PATCH" = .patch ∧ parseMethod b!"get" = .error := by decide

/-! ## C29, C30 multipart -/

/-- A body built from any list of parts parses to exactly those fields and files. -/
theorem C29_roundtrip (env : Env) (ps : List Part) (hb : BoundaryWF env.boundary) (hps : ∀ p ∈ ps, p.WF env.boundary)
    (ht : env.contentType = b!"multipart/form-data") (h : env.postBuffer = multipart env.boundary ps) :
    parsePostBuffer env = .ok ({ env with
      posts := env.posts ++ textFields ps,
      files := env.files ++ (fileParts ps).map fun x => (x.1, ⟨x.2.1, x.2.2.1, x.2.2.2⟩) }, true) := by
  unfold parsePostBuffer
  rw [if_neg (by rw [h]; cases ps <;> simp [multipart]), if_pos ht, parsePostsMultipart_parts env ps hb hps h]
  rfl
example : BoundaryWF b!"--X1" ∧
    Part.WF b!"--X1" ⟨b!"f", some (b!"a.txt", b!"text/plain"), b!"one\r\n--X two"⟩ ∧ Part.WF b!"--X1" ⟨b!"t", none, []⟩ := by
  refine ⟨⟨by decide, ⟨88, by decide, by decide⟩⟩, ⟨by decide, ?_, by decide⟩, ⟨by decide, by simp, by decide⟩⟩
  intro f t h
  cases h
  decide
/-- Parsing any body against any boundary terminates without reading outside the body or forming a bad range. -/
theorem C30_total (env : Env) : ∃ env', parsePostsMultipart env = .ok env' := parsePostsMultipart_total env
theorem C30_postBuffer (env : Env) : ∃ r, parsePostBuffer env = .ok r := by
  unfold parsePostBuffer
  split
  · exact ⟨_, rfl⟩
  split
  · obtain ⟨e, he⟩ := parsePostsMultipart_total env
    rw [he]; exact ⟨_, rfl⟩
  split
  · obtain ⟨r, hr⟩ := urlLoop_total env.postBuffer b!"&" (by decide) (env.postBuffer.length + 2) 0 0 none env.posts (by omega) (by omega)
    unfold decodeUrlEncoded
    rw [hr]; exact ⟨_, rfl⟩
  · exact ⟨_, rfl⟩
/-- Urlencoded bodies. -/
theorem C21_post {raw : Bytes} {ps : List (Bytes × Bytes)} (h : FormText raw ps) (env : Env)
    (ht : env.contentType = b!"application/x-www-form-urlencoded") (hb : env.postBuffer = raw) :
    parsePostBuffer env = .ok ({ env with posts := env.posts ++ ps }, true) := by
  unfold parsePostBuffer
  by_cases h0 : env.postBuffer.length = 0
  · rw [if_pos h0]
    have : ps = [] := by
      have h1 := C21_form h
      rw [← hb, List.length_eq_zero_iff.1 h0] at h1
      simp [decodeUrlEncoded, urlLoop] at h1
      exact h1
    subst this
    simp
  · rw [if_neg h0, if_neg (by rw [ht]; decide), if_pos ht, hb, decodeUrl_form h]
    rfl

end Fcgi.Props
