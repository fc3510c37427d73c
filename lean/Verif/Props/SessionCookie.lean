import Verif.Props.Ostream
import Verif.Props.Session
import Verif.Props.Http
/-! # Property C146: the cookie of a session

The whole way of a session's identifier, as in examples/sessions.cpp 24-69: `out << "Set-Cookie: sid=" << Encoding::URL << id << Encoding::NONE << "; path=/..."`,
the client's storing and returning the value as it is (RFC 6265), `environment().cookies`, `SessionId(text)`, `Sessions::get`. -/
namespace Fcgi.Props
open Fcgi Fcgi.Model Fcgi.Spec

/-- What the application does with its stream; `print` are the operations that `<< id` comes to. -/
def setCookie (print : List (OOp UInt8)) (rest : Bytes) : List (Bool × OOp UInt8) :=
  (([.insert b!"Set-Cookie: sid=", .coding .url] : List (OOp UInt8)) ++ print ++ ([.coding .plain, .insert (b!"; path=/" ++ rest)] : List (OOp UInt8))).map fun o => (false, o)

/-- http.hpp 494-503: `std::ostream_iterator` inserts the characters one by one, as characters. -/
def printChars (text : Bytes) : List (OOp UInt8) := text.map .char

/-- The same with older versions of libstdc++, where a character is inserted like a string of one. -/
def printStrings (text : Bytes) : List (OOp UInt8) := text.map fun c => .insert [c]

theorem said_two {α} : ∀ (a b : List (OOp α)) (f : OFmt α), f.said (a ++ b) = f.said a ++ (f.after a).said b := by
  intro a
  induction a with
  | nil => intro b f; rfl
  | cons o a ih => intro b f; simp only [List.cons_append, OFmt.said, ih, List.append_assoc]; rfl

theorem chars_said (s : Bytes) : ∀ (f : OFmt UInt8), f.good = true → f.width = 0 →
    (f.said (printChars s)).flatMap (rendItem charTable fun c => [c]) = s ∧ (f.after (printChars s)).good = true ∧ (f.after (printChars s)).width = 0 := by
  induction s with
  | nil => intro f h1 h2; exact ⟨rfl, h1, h2⟩
  | cons c s ih =>
    intro f hg hw
    obtain ⟨h1, h2, h3⟩ := ih (f.next (.char c)) (by simp [OFmt.next, hg]) (by simp [OFmt.next, hg])
    refine ⟨?_, h2, h3⟩
    simp only [printChars, List.map_cons, OFmt.said, List.flatMap_append] at h1 ⊢
    rw [h1]
    simp [OFmt.says, hg, hw, rendItem, encOf, encode1]

theorem strings_said (s : Bytes) : ∀ (f : OFmt UInt8), f.good = true → f.width = 0 → f.coding = .url →
    (f.said (printStrings s)).flatMap (rendItem charTable fun c => [c]) = s.flatMap (encode1 charTable .url) ∧
      (f.after (printStrings s)).good = true ∧ (f.after (printStrings s)).width = 0 := by
  induction s with
  | nil => intro f h1 h2 _; exact ⟨rfl, h1, h2⟩
  | cons c s ih =>
    intro f hg hw he
    obtain ⟨h1, h2, h3⟩ := ih (f.next (.insert [c])) (by simp [OFmt.next, hg]) (by simp [OFmt.next, hg]) (by simp [OFmt.next, hg, he])
    refine ⟨?_, h2, h3⟩
    simp only [printStrings, List.map_cons, OFmt.said, List.flatMap_append, List.flatMap_cons] at h1 ⊢
    rw [h1]
    have hz : ((0 : Int) - (([c] : Bytes).length : Nat)).toNat = 0 := by simp
    simp only [OFmt.says, hg, if_true, OFmt.padded, hw, hz, he, List.replicate_zero]
    split <;> simp [rendItem, encOf]

theorem setCookie_contents (sentry : Bool) (g : Nat → Nat → Nat → UInt8) (h : Nat → UInt8) (sock : Nat) (id : UInt16) (status : UInt8) (kill : Bool)
    (print : List (OOp UInt8)) (cookie rest : Bytes)
    (hp : ∀ f : OFmt UInt8, f.good = true → f.width = 0 → f.coding = .url → (f.said print).flatMap (rendItem charTable fun c => [c]) = cookie ∧ (f.after print).good = true ∧ (f.after print).width = 0) :
    ∃ r d before after, wholeLife (narrowOs sentry g) h 32 sock id status kill (setCookie print rest) = .ok (r, d) ∧ Handed r d h sock id status kill before after ∧
      contents 6 (before ++ after) = b!"Set-Cookie: sid=" ++ cookie ++ (b!"; path=/" ++ rest) := by
  obtain ⟨r, d, before, after, e1, e2, e3, e4, e5, e6, _⟩ := rs_life (E := narrowOs sentry g) (table := charTable) (good := fun _ => True)
    (fun _ => rfl) (fun _ => flushOk_char _) tableOk_char h 32 trivial sock id status kill (setCookie print rest)
    (by intro p _; obtain ⟨_, op⟩ := p; cases op <;> simp [OOpGood])
  refine ⟨r, d, before, after, e1, ⟨e2, e3, fun q hq => (e4 q hq).imp goodRecord_of goodRecord_of⟩, ?_⟩
  rw [e5]
  have ho : opsOn false (setCookie print rest) = [.insert b!"Set-Cookie: sid=", .coding .url] ++ print ++ [.coding .plain, .insert (b!"; path=/" ++ rest)] := by
    simp only [opsOn, setCookie]
    rw [List.filter_eq_self.2 (by intro p hp; obtain ⟨q, _, rfl⟩ := List.mem_map.1 hp; simp), List.map_map]
    exact List.map_id _
  rw [ho, said_two, said_two, List.flatMap_append, List.flatMap_append]
  obtain ⟨h1, h2, h3⟩ := hp ((OFmt.fresh 32).after [.insert b!"Set-Cookie: sid=", .coding .url]) rfl rfl rfl
  rw [h1]
  have hf : ∀ f : OFmt UInt8, f = (OFmt.fresh 32).after ([.insert b!"Set-Cookie: sid=", .coding .url] ++ print) → f.good = true ∧ f.width = 0 := by
    intro f hf
    have : f = ((OFmt.fresh 32).after [.insert b!"Set-Cookie: sid=", .coding .url]).after print := by rw [hf]; simp only [OFmt.after, List.foldl_append]
    rw [this]; exact ⟨h2, h3⟩
  generalize hF : (OFmt.fresh (32 : UInt8)).after ([.insert b!"Set-Cookie: sid=", .coding .url] ++ print) = F
  obtain ⟨k1, k2⟩ := hf F hF.symm
  have hnn : ∀ s : Bytes, s.flatMap (encode1 charTable .none) = s := fun s => by
    rw [show encode1 charTable .none = fun c => [c] from by funext c; simp [encode1]]; exact C12_flatMap_single s
  have hw : ∀ n : Nat, ((0 : Int) - n).toNat = 0 := by omega
  congr 1
  · have hw' : ((0 : Int) - ((b!"; path=/" ++ rest).length : Nat)).toNat = 0 := hw _
    simp only [OFmt.said, OFmt.says, OFmt.next, OFmt.padded, k1, k2, if_true, hw', List.replicate_zero, List.nil_append, List.append_nil]
    split <;> simp only [List.flatMap_cons, List.flatMap_nil, rendItem, encOf, hnn, C12_flatMap_single, List.flatMap_nil, List.append_nil, List.nil_append]


/-- The text of an identifier: twenty digits of base64, no padding. -/
theorem text_digits : ∀ (k : Nat) (d : Bytes), d.length = 3 * k → ∃ vs : List Nat, base64 d = vs.map char64 ∧ vs.length = 4 * k ∧ ∀ v ∈ vs, v < 64 := by
  intro k
  induction k with
  | zero => intro d hd; exact ⟨[], by simp [List.length_eq_zero_iff.1 (show d.length = 0 by omega), base64], rfl, by simp⟩
  | succ k ih =>
    intro d hd
    match d, hd with
    | a :: b :: c :: r, hd =>
      obtain ⟨vs, e1, e2, e3⟩ := ih r (by simp at hd; omega)
      have ht := triple_lt a b c
      refine ⟨[triple a b c / 64^3, triple a b c / 64^2 % 64, triple a b c / 64 % 64, triple a b c % 64] ++ vs, ?_, by simp; omega, ?_⟩
      · rw [List.map_append, ← e1]; rfl
      · intro v hv
        simp only [List.cons_append, List.nil_append, List.mem_cons] at hv
        rcases hv with rfl | rfl | rfl | rfl | hv
        · omega
        · omega
        · omega
        · omega
        · exact e3 v hv

/-- What reading the returned value makes of a '+' sent as it is. -/
def plusLost (text : Bytes) : Bytes := text.map fun c => if c = 43 then 32 else c

theorem plusLost_text : ∀ (t : Bytes), 37 ∉ t → UrlText t (plusLost t) := by
  intro t
  induction t with
  | nil => intro _; exact .nil
  | cons c t ih =>
    intro h
    simp only [List.mem_cons, not_or] at h
    simp only [plusLost, List.map_cons]
    by_cases hc : c = 43
    · subst hc; rw [if_pos rfl]; exact .plus (ih h.2)
    · rw [if_neg hc]; exact .plain c ⟨fun e => h.1 e.symm, hc⟩ (ih h.2)

theorem plusLost_same (t : Bytes) (h : 43 ∉ t) : plusLost t = t := by
  unfold plusLost
  induction t with
  | nil => rfl
  | cons c t ih =>
    simp only [List.mem_cons, not_or] at h
    rw [List.map_cons, if_neg (fun e => h.1 e.symm), ih h.2]

theorem base64_clean (d : Bytes) : 37 ∉ base64 d ∧ 59 ∉ base64 d := by
  have ha : 37 ∉ alphabet ∧ 59 ∉ alphabet := by decide
  exact ⟨fun h => (C31_characters d _ h).elim ha.1 (by decide), fun h => (C31_characters d _ h).elim ha.2 (by decide)⟩

/-- The cookie that comes back. -/
theorem cookie_back (raw value : Bytes) (hv : UrlText raw value) (hs : 59 ∉ raw) :
    decodeUrlEncoded (b!"sid=" ++ raw) b!"; " [] = .ok [(b!"sid", value)] :=
  C21_cookie ⟨[b!"sid" ++ 61 :: raw], .cons (.plain _ (by decide) (.plain _ (by decide) (.plain _ (by decide) .nil))) hv (by decide) (by decide) hs .nil, rfl⟩

theorem generate_get {T} (d : T) (draws : List (Bytes × Int)) : ∀ (s s' : Sessions T) (x : SessionId), s.generate d draws = .ok (s', x) →
    ∀ (now t1 t2 : Int), now - s.keepAlive ≤ x.timestamp → (s'.get x.data now t1 t2).2 = some d := by
  induction draws with
  | nil => intro s s' x e; cases e
  | cons p draws ih =>
    intro s s' x e now t1 t2 ht
    obtain ⟨i, n⟩ := p
    simp only [Sessions.generate] at e
    split at e
    · exact ih s s' x e now t1 t2 ht
    · simp only [Res.ok.injEq, Prod.mk.injEq] at e
      obtain ⟨rfl, rfl⟩ := e
      dsimp only at ht ⊢
      have hn : ¬ n < now - (s.keepAlive : Int) := by omega
      unfold Sessions.get
      by_cases hc : now ≥ s.cleanupTime
      · simp [hc, Sessions.cleanup, Sessions.setExpiration, hn, List.filter_cons, ht]
      · simp [hc, hn]

/-- A session is found again by its cookie, for every identifier whose text has no '+'. -/
theorem C146_partial {T} (sentry : Bool) (g : Nat → Nat → Nat → UInt8) (h : Nat → UInt8) (sock : Nat) (rid : UInt16) (status : UInt8) (kill : Bool) (rest : Bytes)
    (s s' : Sessions T) (d : T) (draws : List (Bytes × Int)) (x : SessionId) (e : s.generate d draws = .ok (s', x)) (hx : x.data.length = 15)
    (hplus : 43 ∉ base64 x.data) (garbage : Bytes) (hg : garbage.length = 15) (now t1 t2 : Int) (ht : now - s.keepAlive ≤ x.timestamp) :
    ∃ text cookie value y r u before after, showSessionId x = .ok text ∧
      wholeLife (narrowOs sentry g) h 32 sock rid status kill (setCookie (printChars text) rest) = .ok (r, u) ∧ Handed r u h sock rid status kill before after ∧
      contents 6 (before ++ after) = b!"Set-Cookie: sid=" ++ cookie ++ (b!"; path=/" ++ rest) ∧ 59 ∉ cookie ∧
      decodeUrlEncoded (b!"sid=" ++ cookie) b!"; " [] = .ok [(b!"sid", value)] ∧
      sessionIdOfText garbage (codes value) now = .ok y ∧ (s'.get y.data now t1 t2).2 = some d := by
  obtain ⟨text, t1', _, t3⟩ := C33_roundtrip x hx garbage hg [] now
  have hte : text = base64 x.data := by rw [showSessionId, C31_encode] at t1'; cases t1'; rfl
  subst hte
  obtain ⟨r, u, before, after, a1, a2, a3⟩ := setCookie_contents sentry g h sock rid status kill (printChars (base64 x.data)) (base64 x.data) rest
    (fun f h1 h2 _ => chars_said _ f h1 h2)
  refine ⟨_, base64 x.data, base64 x.data, ⟨x.data, now⟩, r, u, before, after, t1', a1, a2, a3, (base64_clean _).2, ?_, by rw [List.append_nil] at t3; exact t3, generate_get d draws s s' x e now t1 t2 ht⟩
  have := cookie_back _ _ (plusLost_text _ (base64_clean x.data).1) (base64_clean x.data).2
  rwa [plusLost_same _ hplus] at this

theorem url_no_semicolon : ∀ (t : Bytes), 59 ∉ t.flatMap (encode1 charTable .url) := by
  intro t ht
  obtain ⟨c, _, hc⟩ := List.mem_flatMap.1 ht
  have : ∀ c : UInt8, 59 ∉ encode1 charTable .url c := by
    have : ∀ i : Fin 256, 59 ∉ encode1 charTable .url (UInt8.ofNat i.val) := by decide +kernel
    intro c
    have := this ⟨c.toNat, c.toNat_lt⟩
    simpa using this
  exact this c hc

/-- With a standard library that inserts a character like a string of one (as the code expects), every identifier's session is found again. -/
theorem C146_strings_partial {T} (sentry : Bool) (g : Nat → Nat → Nat → UInt8) (h : Nat → UInt8) (sock : Nat) (rid : UInt16) (status : UInt8) (kill : Bool) (rest : Bytes)
    (s s' : Sessions T) (d : T) (draws : List (Bytes × Int)) (x : SessionId) (e : s.generate d draws = .ok (s', x)) (hx : x.data.length = 15)
    (garbage : Bytes) (hg : garbage.length = 15) (now t1 t2 : Int) (ht : now - s.keepAlive ≤ x.timestamp) :
    ∃ text cookie value y r u before after, showSessionId x = .ok text ∧
      wholeLife (narrowOs sentry g) h 32 sock rid status kill (setCookie (printStrings text) rest) = .ok (r, u) ∧ Handed r u h sock rid status kill before after ∧
      contents 6 (before ++ after) = b!"Set-Cookie: sid=" ++ cookie ++ (b!"; path=/" ++ rest) ∧ 59 ∉ cookie ∧
      decodeUrlEncoded (b!"sid=" ++ cookie) b!"; " [] = .ok [(b!"sid", value)] ∧
      sessionIdOfText garbage (codes value) now = .ok y ∧ (s'.get y.data now t1 t2).2 = some d := by
  obtain ⟨text, t1', _, t3⟩ := C33_roundtrip x hx garbage hg [] now
  obtain ⟨r, u, before, after, a1, a2, a3⟩ := setCookie_contents sentry g h sock rid status kill (printStrings text) _ rest
    (fun f h1 h2 h3 => strings_said text f h1 h2 h3)
  exact ⟨text, _, text, ⟨x.data, now⟩, r, u, before, after, t1', a1, a2, a3, url_no_semicolon _, cookie_back _ _ (C15_encode_url _) (url_no_semicolon _),
    by rw [List.append_nil] at t3; exact t3, generate_get d draws s s' x e now t1 t2 ht⟩

/-- An identifier whose text has a '+' does not come back: the '+' is sent as it is and read as a space, and at least the last three bytes
of what the application reads are whatever its memory held. -/
theorem C146_violated (sentry : Bool) (g : Nat → Nat → Nat → UInt8) (h : Nat → UInt8) (sock : Nat) (rid : UInt16) (status : UInt8) (kill : Bool) (rest : Bytes)
    (x : SessionId) (hx : x.data.length = 15) (hplus : 43 ∈ base64 x.data) (now : Int) :
    ∃ text value r u before after, showSessionId x = .ok text ∧
      wholeLife (narrowOs sentry g) h 32 sock rid status kill (setCookie (printChars text) rest) = .ok (r, u) ∧ Handed r u h sock rid status kill before after ∧
      contents 6 (before ++ after) = b!"Set-Cookie: sid=" ++ text ++ (b!"; path=/" ++ rest) ∧
      decodeUrlEncoded (b!"sid=" ++ text) b!"; " [] = .ok [(b!"sid", value)] ∧
      ∀ garbage : Bytes, garbage.length = 15 → ∃ y, sessionIdOfText garbage (codes value) now = .ok y ∧ y.data.drop 12 = garbage.drop 12 ∧
        (garbage.drop 12 ≠ x.data.drop 12 → y.data ≠ x.data) := by
  obtain ⟨r, u, before, after, a1, a2, a3⟩ := setCookie_contents sentry g h sock rid status kill (printChars (base64 x.data)) (base64 x.data) rest
    (fun f h1 h2 _ => chars_said _ f h1 h2)
  refine ⟨base64 x.data, plusLost (base64 x.data), r, u, before, after, C31_encode _, a1, a2, a3,
    cookie_back _ _ (plusLost_text _ (base64_clean x.data).1) (base64_clean x.data).2, ?_⟩
  intro garbage hg
  have key : ∃ y, sessionIdOfText garbage (codes (plusLost (base64 x.data))) now = .ok y ∧ y.data.drop 12 = garbage.drop 12 := by
    obtain ⟨vs, e1, e2, e3⟩ := text_digits 5 x.data (by omega)
    obtain ⟨v, hv, hc⟩ := List.mem_map.1 (e1 ▸ hplus)
    have he : ∃ pre post : List Nat, vs = pre ++ 62 :: post ∧ 62 ∉ pre := by
      have h62 : v = 62 := by
        have : ∀ i : Fin 64, char64 i.val = 43 → i.val = 62 := by decide +kernel
        exact this ⟨v, e3 v hv⟩ hc
      subst h62
      exact List.eq_append_cons_of_mem hv
    obtain ⟨pre, post, rfl, hpre⟩ := he
    have hpl : plusLost (base64 x.data) = pre.map char64 ++ 32 :: plusLost (post.map char64) := by
      rw [e1, plusLost, List.map_append, List.map_append, List.map_cons, List.map_cons]
      congr 1
      exact plusLost_same _ (fun hm => by
        obtain ⟨w, hw, hw'⟩ := List.mem_map.1 hm
        have : ∀ i : Fin 64, char64 i.val = 43 → i.val = 62 := by decide +kernel
        have := this ⟨w, e3 w (by simp [hw])⟩ hw'
        exact hpre (this ▸ hw))
    have hcd : codes (plusLost (base64 x.data)) = pre.map code64 ++ 32 :: codes (plusLost (post.map char64)) := by
      rw [hpl]; simp only [codes, List.map_append, List.map_cons, List.map_map]; rfl
    have hlen : pre.length + (post.length + 1) = 20 := by simpa using e2
    have hl2 : (codes (plusLost (post.map char64))).length = post.length := by simp [codes, plusLost]
    unfold sessionIdOfText
    rw [hcd, List.take_of_length_le (by simp only [List.length_append, List.length_cons, List.length_map, hl2, sessionIdStringLength]; omega)]
    obtain ⟨full, part, buf, ps, f, e, hp, hu, hpv, hd⟩ := decode_split sessionIdSize pre (fun v h => e3 v (by simp [h])) (32 :: codes (plusLost (post.map char64)))
      (by simp only [List.length_cons, hl2, hlen, sessionIdSize]; omega)
    rw [hd, dec_foreign sessionIdSize _ part (by omega) hpv 32 (by decide +kernel)]
    refine ⟨_, rfl, ?_⟩
    dsimp only
    rw [List.drop_append, List.drop_of_length_le (by omega), List.nil_append, List.drop_drop]
    congr 1
    omega
  obtain ⟨y, h1, h2⟩ := key
  exact ⟨y, h1, h2, fun hne he => hne (by rw [← h2, he])⟩

/-! A concrete identifier of each kind. -/
example : base64 (b!"fifteen bytes!!") = b!"ZmlmdGVlbiBieXRlcyEh" ∧ 43 ∉ base64 (b!"fifteen bytes!!") := by decide +kernel
example : base64 (251 :: List.replicate 14 0) = b!"+wAAAAAAAAAAAAAAAAAA" := by decide +kernel
example : sessionIdOfText (List.replicate 15 7) (codes (plusLost (base64 (251 :: List.replicate 14 0)))) 5 = .ok ⟨List.replicate 15 7, 5⟩ := by decide +kernel
example : (⟨600, 700, 0, []⟩ : Sessions Nat).generate 9 [(b!"fifteen bytes!!", 120)] =
    .ok (⟨600, 700, 0, [(b!"fifteen bytes!!", 120, 9)]⟩, ⟨b!"fifteen bytes!!", 120⟩) := rfl
end Fcgi.Props
