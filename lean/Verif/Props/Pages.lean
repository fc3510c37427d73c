import Verif.Spec.Pages
import Verif.Props.Ostream
/-! # Property C144: data in a page -/
namespace Fcgi.Props
open Fcgi Fcgi.Model Fcgi.Spec

theorem filter_encoded (e : Enc) (P : UInt8 → Bool) (h : ∀ c, (encode1 charTable e c).filter P = []) (s : Bytes) : (s.flatMap (encode1 charTable e)).filter P = [] := by
  induction s with
  | nil => rfl
  | cons c s ih => rw [List.flatMap_cons, List.filter_append, ih, h, List.append_nil]

theorem samePage_filter {α} {C : Coding → Prop} {G : List α → Prop} {P : UInt8 → Bool} {rend : Item α → Bytes} (hr : ∀ e s, C e → G s → (rend (.text e s)).filter P = [])
    (hnil : rend (.text .plain []) = [])
    {f : OFmt α} {ops ops' : List (OOp α)} (h : SamePage C f ops ops') (hg : ∀ s, .insert s ∈ ops → G s) (hg' : ∀ s, .insert s ∈ ops' → G s) :
    ((f.said ops).flatMap rend).filter P = ((f.said ops').flatMap rend).filter P := by
  induction h with
  | nil => rfl
  | fixed _ ih => simp only [OFmt.said, List.flatMap_append, List.filter_append, ih (fun s hs => hg s (by simp [hs])) (fun s hs => hg' s (by simp [hs]))]
  | @data f s s' ops ops' h1 h2 _ ih =>
    simp only [OFmt.said, List.flatMap_append, List.filter_append]
    have key : ∀ t : List α, G t → ((f.says (.insert t)).flatMap rend).filter P = [] := by
      intro t ht
      have hw : (f.width - t.length).toNat = 0 := by omega
      simp only [OFmt.says]
      split
      · simp only [OFmt.padded, hw, List.replicate_zero]
        split <;> simp only [List.flatMap_cons, List.flatMap_nil, List.append_nil, hnil, List.nil_append] <;> exact hr _ _ h1 ht
      · rfl
    rw [key s (hg s (by simp)), key s' (hg' s' (by simp)), show f.next (.insert s') = f.next (.insert s) from rfl,
      ih (fun s hs => hg s (by simp [hs])) (fun s hs => hg' s (by simp [hs]))]

theorem html_no_markup : ∀ c : UInt8, (encode1 charTable .html c).filter isMarkup = [] := byte_forall (by decide +kernel)
theorem url_no_markup : ∀ c : UInt8, (encode1 charTable .url c).filter isMarkup = [] := byte_forall (by decide +kernel)
theorem url_no_reserved : ∀ c : UInt8, (encode1 charTable .url c).filter (fun b => decide (b ∈ urlReserved)) = [] := byte_forall (by decide +kernel)

/-- Two lives of a request that differ only in the data, inserted as strings under one of the encodings: the markup the peer sees is the
same, on both streams, whatever the data. -/
theorem C144_partial (sentry : Bool) (g : Nat → Nat → Nat → UInt8) (h : Nat → UInt8) (sock : Nat) (id : UInt16) (status : UInt8) (kill : Bool)
    (ops ops' : List (Bool × OOp UInt8)) (hs : ∀ err, SamePage (· ≠ .plain) (OFmt.fresh 32) (opsOn err ops) (opsOn err ops')) :
    ∃ r d before after r' d' before' after', wholeLife (narrowOs sentry g) h 32 sock id status kill ops = .ok (r, d) ∧ Handed r d h sock id status kill before after ∧
      wholeLife (narrowOs sentry g) h 32 sock id status kill ops' = .ok (r', d') ∧ Handed r' d' h sock id status kill before' after' ∧
      markup (contents 6 (before ++ after)) = markup (contents 6 (before' ++ after')) ∧ markup (contents 7 (before ++ after)) = markup (contents 7 (before' ++ after')) := by
  have run := fun ops => rs_life (E := narrowOs sentry g) (table := charTable) (good := fun _ => True)
    (fun _ => rfl) (fun _ => flushOk_char _) tableOk_char h 32 trivial sock id status kill ops
    (by intro p _; obtain ⟨_, op⟩ := p; cases op <;> simp [OOpGood])
  have hr : ∀ (e : Coding) (s : Bytes), e ≠ .plain → (rendItem charTable (fun c => [c]) (.text e s)).filter isMarkup = [] := by
    intro e s he
    simp only [rendItem, C12_flatMap_single]
    cases e with
    | plain => exact absurd rfl he
    | html => exact filter_encoded _ _ html_no_markup s
    | url => exact filter_encoded _ _ url_no_markup s
  obtain ⟨r, d, before, after, e1, e2, e3, e4, e5, e6, _⟩ := run ops
  obtain ⟨r', d', before', after', f1, f2, f3, f4, f5, f6, _⟩ := run ops'
  refine ⟨r, d, before, after, r', d', before', after', e1, ⟨e2, e3, fun q hq => (e4 q hq).imp goodRecord_of goodRecord_of⟩,
    f1, ⟨f2, f3, fun q hq => (f4 q hq).imp goodRecord_of goodRecord_of⟩, ?_, ?_⟩
  · rw [e5, f5]; exact samePage_filter (G := fun _ => True) (fun e s he _ => hr e s he) rfl (hs false) (fun _ _ => trivial) (fun _ _ => trivial)
  · rw [e6, f6]; exact samePage_filter (G := fun _ => True) (fun e s he _ => hr e s he) rfl (hs true) (fun _ _ => trivial) (fun _ _ => trivial)

/-- Data inserted under the URL encoding: the characters that are reserved in URLs (`&`, `=`, `?`, `#`, `/` and so on, and the space) are the same, whatever
the data. -/
theorem C144_url_partial (sentry : Bool) (g : Nat → Nat → Nat → UInt8) (h : Nat → UInt8) (sock : Nat) (id : UInt16) (status : UInt8) (kill : Bool)
    (ops ops' : List (Bool × OOp UInt8)) (hs : ∀ err, SamePage (· = .url) (OFmt.fresh 32) (opsOn err ops) (opsOn err ops')) :
    ∃ r d before after r' d' before' after', wholeLife (narrowOs sentry g) h 32 sock id status kill ops = .ok (r, d) ∧ Handed r d h sock id status kill before after ∧
      wholeLife (narrowOs sentry g) h 32 sock id status kill ops' = .ok (r', d') ∧ Handed r' d' h sock id status kill before' after' ∧
      reservedPart (contents 6 (before ++ after)) = reservedPart (contents 6 (before' ++ after')) ∧
      reservedPart (contents 7 (before ++ after)) = reservedPart (contents 7 (before' ++ after')) := by
  have run := fun ops => rs_life (E := narrowOs sentry g) (table := charTable) (good := fun _ => True)
    (fun _ => rfl) (fun _ => flushOk_char _) tableOk_char h 32 trivial sock id status kill ops
    (by intro p _; obtain ⟨_, op⟩ := p; cases op <;> simp [OOpGood])
  have hr : ∀ (e : Coding) (s : Bytes), e = .url → (rendItem charTable (fun c => [c]) (.text e s)).filter (fun b => decide (b ∈ urlReserved)) = [] := by
    intro e s he
    subst he
    simp only [rendItem, C12_flatMap_single]
    exact filter_encoded _ _ url_no_reserved s
  obtain ⟨r, d, before, after, e1, e2, e3, e4, e5, e6, _⟩ := run ops
  obtain ⟨r', d', before', after', f1, f2, f3, f4, f5, f6, _⟩ := run ops'
  refine ⟨r, d, before, after, r', d', before', after', e1, ⟨e2, e3, fun q hq => (e4 q hq).imp goodRecord_of goodRecord_of⟩,
    f1, ⟨f2, f3, fun q hq => (f4 q hq).imp goodRecord_of goodRecord_of⟩, ?_, ?_⟩
  · rw [e5, f5]; exact samePage_filter (G := fun _ => True) (fun e s he _ => hr e s he) rfl (hs false) (fun _ _ => trivial) (fun _ _ => trivial)
  · rw [e6, f6]; exact samePage_filter (G := fun _ => True) (fun e s he _ => hr e s he) rfl (hs true) (fun _ _ => trivial) (fun _ _ => trivial)

theorem markup_scalar (e : Coding) (s : List UInt32) (he : e ≠ .plain) (hs : ∀ c ∈ s, isScalar c) : (rendItem wideTable cv8 (.text e s)).filter isMarkup = [] := by
  have key : (s.flatMap (encode1 wideTable (encOf e))).flatMap cv8 = (utf8Text s).flatMap (encode1 charTable (encOf e)) := by
    induction s with
    | nil => rfl
    | cons c s ih =>
      have h1 := encode1_port (encOf e) c (hs c (by simp))
      have h2 := ih fun x hx => hs x (by simp [hx])
      simp only [utf8Text, List.flatMap_cons, List.flatMap_append] at h2 ⊢
      rw [h1, h2]
  simp only [rendItem, key]
  cases e with
  | plain => exact absurd rfl he
  | html => exact filter_encoded _ _ html_no_markup _
  | url => exact filter_encoded _ _ url_no_markup _

/-- The same for wide streams and Unicode text. -/
theorem C144_wide_partial (sentry : Bool) (g : Nat → Nat → Nat → UInt8) (h : Nat → UInt8) (sock : Nat) (id : UInt16) (status : UInt8) (kill : Bool)
    (ops ops' : List (Bool × OOp UInt32)) (ho : ∀ p ∈ ops, OOpScalar p.2) (ho' : ∀ p ∈ ops', OOpScalar p.2)
    (hs : ∀ err, SamePage (· ≠ .plain) (OFmt.fresh 32) (opsOn err ops) (opsOn err ops')) :
    ∃ r d before after r' d' before' after', wholeLife (wideOs sentry g) h 32 sock id status kill ops = .ok (r, d) ∧ Handed r d h sock id status kill before after ∧
      wholeLife (wideOs sentry g) h 32 sock id status kill ops' = .ok (r', d') ∧ Handed r' d' h sock id status kill before' after' ∧
      markup (contents 6 (before ++ after)) = markup (contents 6 (before' ++ after')) ∧ markup (contents 7 (before ++ after)) = markup (contents 7 (before' ++ after')) := by
  have hsp : isScalar 32 := by left; decide
  have run := fun ops (ho : ∀ p ∈ ops, OOpScalar p.2) => rs_life (E := wideOs sentry g) (table := wideTable) (good := goodW) (cv := cv8)
    (fun _ => rfl) (fun _ => flushOk_wide _ utf8Put cv8) tableOk_wide h 32 ((goodW_iff 32).2 hsp) sock id status kill ops
    (by
      intro p hp
      have := ho p hp
      obtain ⟨_, op⟩ := p
      cases op <;> simp only [OOpGood, OOpScalar] at this ⊢
      all_goals first
        | exact (goodW_iff _).2 this
        | exact fun c hc => (goodW_iff c).2 (this c hc)
        | exact fun q hq c hc => (goodW_iff c).2 (this q hq c hc))
  have hon : ∀ (ops : List (Bool × OOp UInt32)), (∀ p ∈ ops, OOpScalar p.2) → ∀ e s, .insert s ∈ opsOn e ops → ∀ c ∈ s, isScalar c := by
    intro ops ho e s hs
    obtain ⟨p, hp, h⟩ := List.mem_map.1 hs
    have := ho p (List.mem_filter.1 hp).1
    rw [h] at this
    exact this
  obtain ⟨r, d, before, after, e1, e2, e3, e4, e5, e6, _⟩ := run ops ho
  obtain ⟨r', d', before', after', f1, f2, f3, f4, f5, f6, _⟩ := run ops' ho'
  refine ⟨r, d, before, after, r', d', before', after', e1, ⟨e2, e3, fun q hq => (e4 q hq).imp goodRecord_of goodRecord_of⟩,
    f1, ⟨f2, f3, fun q hq => (f4 q hq).imp goodRecord_of goodRecord_of⟩, ?_, ?_⟩
  · rw [e5, f5]; exact samePage_filter (G := fun s => ∀ c ∈ s, isScalar c) markup_scalar rfl (hs false) (hon ops ho false) (hon ops' ho' false)
  · rw [e6, f6]; exact samePage_filter (G := fun s => ∀ c ∈ s, isScalar c) markup_scalar rfl (hs true) (hon ops ho true) (hon ops' ho' true)

theorem headPart_prefix : ∀ (p q : Bytes), headPart (p ++ 10 :: 10 :: q) <+: p := by
  intro p
  induction p with
  | nil => intro q; exact List.prefix_refl _
  | cons b p ih =>
    intro q
    have hc : headPart (b :: (p ++ 10 :: 10 :: q)) = [] ∨ headPart (b :: (p ++ 10 :: 10 :: q)) = b :: headPart (p ++ 10 :: 10 :: q) := by
      cases p with
      | nil =>
        by_cases hb : b = 10
        · subst hb; left; rfl
        · right; simp [headPart, hb]
      | cons a p =>
        by_cases hb : b = 10 ∧ a = 10
        · left; obtain ⟨rfl, rfl⟩ := hb; rfl
        · right; simp only [List.cons_append]; rw [headPart]; intro r h1 h2; simp at h2; exact hb ⟨h1, h2.1⟩
    rcases hc with h | h
    · rw [List.cons_append, h]; exact List.nil_prefix
    · rw [List.cons_append, h, List.cons_prefix_cons]; exact ⟨rfl, ih q⟩

/-- Line ends are not encoded: an application that writes data into a header under the URL encoding lets them end the header part.  All
that it writes afterwards, its other headers among it, is content. -/
theorem C144_header_violated (sentry : Bool) (g : Nat → Nat → Nat → UInt8) (h : Nat → UInt8) (sock : Nat) (id : UInt16) (status : UInt8) (kill : Bool)
    (header a b rest : Bytes) :
    ∃ r d before after x, wholeLife (narrowOs sentry g) h 32 sock id status kill
        [(false, .insert header), (false, .coding .url), (false, .insert (a ++ [10, 10] ++ b)), (false, .coding .plain), (false, .insert rest)] = .ok (r, d) ∧
      Handed r d h sock id status kill before after ∧ UrlText x a ∧ headPart (contents 6 (before ++ after)) <+: header ++ x := by
  obtain ⟨r, d, before, after, e1, e2, e3, e4, e5, e6, _⟩ := rs_life (E := narrowOs sentry g) (table := charTable) (good := fun _ => True)
    (fun _ => rfl) (fun _ => flushOk_char _) tableOk_char h 32 trivial sock id status kill
    [(false, .insert header), (false, .coding .url), (false, .insert (a ++ [10, 10] ++ b)), (false, .coding .plain), (false, .insert rest)]
    (by intro p _; obtain ⟨_, op⟩ := p; cases op <;> simp [OOpGood])
  refine ⟨r, d, before, after, a.flatMap (encode1 charTable .url), e1, ⟨e2, e3, fun q hq => (e4 q hq).imp goodRecord_of goodRecord_of⟩, C15_encode_url a, ?_⟩
  have hc : contents 6 (before ++ after) = (header ++ a.flatMap (encode1 charTable .url)) ++ 10 :: 10 :: (b.flatMap (encode1 charTable .url) ++ rest) := by
    rw [e5]
    have h10 : encode1 charTable .url 10 = [10] := by decide +kernel
    have hnn : ∀ s : Bytes, s.flatMap (encode1 charTable .none) = s := fun s => by
      rw [show encode1 charTable .none = fun c => [c] from by funext c; simp [encode1]]; exact C12_flatMap_single s
    simp [opsOn, OFmt.said, OFmt.says, OFmt.next, OFmt.fresh, OFmt.padded, rendItem, encOf, h10, hnn]
    omega
  rw [hc]
  exact headPart_prefix _ _

/-- Characters are not encoded either, if they are inserted one at a time. -/
theorem C144_char_violated (sentry : Bool) (g : Nat → Nat → Nat → UInt8) (h : Nat → UInt8) (sock : Nat) (id : UInt16) (status : UInt8) (kill : Bool) (s : Bytes) :
    ∃ r d before after, wholeLife (narrowOs sentry g) h 32 sock id status kill ((false, .coding .html) :: s.map fun c => (false, .char c)) = .ok (r, d) ∧
      Handed r d h sock id status kill before after ∧ contents 6 (before ++ after) = s := by
  obtain ⟨r, d, before, after, e1, e2, e3, e4, e5, e6, _⟩ := rs_life (E := narrowOs sentry g) (table := charTable) (good := fun _ => True)
    (fun _ => rfl) (fun _ => flushOk_char _) tableOk_char h 32 trivial sock id status kill ((false, .coding .html) :: s.map fun c => (false, .char c))
    (by intro p _; obtain ⟨_, op⟩ := p; cases op <;> simp [OOpGood])
  refine ⟨r, d, before, after, e1, ⟨e2, e3, fun q hq => (e4 q hq).imp goodRecord_of goodRecord_of⟩, ?_⟩
  rw [e5]
  have hops : opsOn false ((false, OOp.coding Coding.html) :: s.map fun c => (false, OOp.char c)) = .coding .html :: s.map fun c => OOp.char c := by
    simp only [opsOn]
    rw [List.filter_eq_self.2 (by 
      intro p hp
      rcases List.mem_cons.1 hp with rfl | hp
      · rfl
      · obtain ⟨c, _, rfl⟩ := List.mem_map.1 hp; rfl)]
    simp
  rw [hops]
  simp only [OFmt.said, OFmt.says, List.nil_append]
  have key : ∀ (s : Bytes) (f : OFmt UInt8), f.good = true → f.width = 0 → (f.said (s.map fun c => OOp.char c)).flatMap (rendItem charTable fun c => [c]) = s := by
    intro s
    induction s with
    | nil => intro f _ _; rfl
    | cons c s ih =>
      intro f hg hw
      have h1 := ih (f.next (.char c)) (by simp [OFmt.next, hg]) (by simp [OFmt.next, hg])
      simp only [List.map_cons, OFmt.said, List.flatMap_append, h1]
      simp [OFmt.says, hg, hw, rendItem, encOf, encode1]
  exact key s _ rfl rfl

/-- A page with a name and a link, for an honest and for another client. -/
def C144_page (name link : Bytes) : List (Bool × OOp UInt8) :=
  [(false, .insert b!"Content-Type: text/html\r\n\r\n<p>"), (false, .coding .html), (false, .insert name), (false, .coding .plain), (false, .insert b!"</p><a href='/?q="),
   (false, .coding .url), (false, .insert link), (false, .coding .plain), (false, .insert b!"'>")]

example : ∀ err, SamePage (· ≠ .plain) (OFmt.fresh 32) (opsOn err (C144_page b!"Ann" b!"x")) (opsOn err (C144_page b!"<script>" b!"'><script>")) := by
  intro err
  cases err
  · exact .fixed (.fixed (.data (by decide) (by decide) (.fixed (.fixed (.fixed (.data (by decide) (by decide) (.fixed (.fixed .nil))))))))
  · exact .nil

end Fcgi.Props
