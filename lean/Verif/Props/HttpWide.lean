import Verif.Lemmas.HttpWideTexts
import Verif.Lemmas.HttpMore
/-! # C108: applications with wide characters (`Request<wchar_t>`) -/
namespace Fcgi.Props
open Fcgi.Spec Fcgi.Model

/-- What a request feeds its environment with: the content of a PARAMS record (`from` and `to` are its bounds in the object that holds the
record) or a piece of the request's body. -/
inductive Fed where
  | params (obj : Bytes) («from» to : Nat)
  | body (d : Bytes)

/-- The environment with narrow characters after that. -/
def feed : Env → List Fed → Res Env
  | e, [] => .ok e
  | e, .params obj a b :: l => do feed (← fill obj a b e) l
  | e, .body d :: l => feed (fillPostBuffer e d) l

/-- The environment with wide characters after that. -/
def feedW : EnvW → List Fed → Res EnvW
  | w, [] => .ok w
  | w, .params obj a b :: l => do feedW (← fillW obj a b w) l
  | w, .body d :: l => feedW (fillPostBufferW w d) l

theorem feed_wide (l : List Fed) : ∀ {e : Env} {w : EnvW}, SameEnv e w → SameRes SameEnv (feed e l) (feedW w l) := by
  induction l with
  | nil => intro e w h; exact h
  | cons x l ih =>
    intro e w h
    cases x with
    | params obj a b => exact sameRes_bind (fill_wide obj a b h) fun _ _ hr => ih hr
    | body d => exact ih { h with postBuffer := by show _ ++ d = _ ++ d; rw [h.postBuffer] }

/-- Whatever is received, the wide environment holds the same as the narrow one, each text decoded from UTF-8 - whichever other texts are
malformed; also after the body has been parsed, provided the content type is text.  (The narrow one is the subject of C20 to C30.) -/
theorem C108_partial (l : List Fed) :
    SameRes (fun e w => SameEnv e w ∧
        ((∃ t, IsText t ∧ e.contentType = utf8Text t) →
          SameRes (fun a b => SameEnv a.1 b.1 ∧ a.2 = b.2) (parsePostBuffer e) (parsePostBufferW w)))
      (feed {} l) (feedW {} l) := by
  have h := feed_wide l sameEnv_fresh
  revert h
  generalize feed {} l = x
  generalize feedW {} l = y
  intro h
  cases x <;> cases y <;> first | exact h.elim | exact h | exact ⟨h, fun hc => parsePost_wide h (.inr hc)⟩

/-- "é" and "€" in a parameter, in a query string and in a form: what the wide environment holds. -/
example : feedW {} [.params ([9, 3] ++ b!"HTTP_HOST" ++ [0xc3, 0xa9, 0x61] ++ [12, 11] ++ b!"QUERY_STRINGk=%E2%82%AC" ++ [12, 33] ++
      b!"CONTENT_TYPEapplication/x-www-form-urlencoded" ++ [0]) 0 86, .body b!"a=", .body [0xc3], .body [0xa9]] =
    .ok { host := [0xe9, 0x61], gets := [([0x6b], [0x20ac])],
          contentType := b!"application/x-www-form-urlencoded".map UInt8.toUInt32, postBuffer := [0x61, 0x3d, 0xc3, 0xa9] } := by
  decide +kernel
example : parsePostBufferW { contentType := b!"application/x-www-form-urlencoded".map UInt8.toUInt32, postBuffer := [0x61, 0x3d, 0xc3, 0xa9] } =
    .ok ({ contentType := b!"application/x-www-form-urlencoded".map UInt8.toUInt32, postBuffer := [0x61, 0x3d, 0xc3, 0xa9],
           posts := [([0x61], [0xe9])] }, true) := by decide +kernel
/-- A file in a multipart body. -/
def upload : Bytes :=
  b!"--XX\r\nContent-Disposition: form-data; name=\"f\"; filename=\"é\"\r\nContent-Type: text/plain\r\n\r\nd\r\n--XX--"
example : parsePostBufferW { contentType := b!"multipart/form-data".map UInt8.toUInt32, boundary := b!"XX", postBuffer := upload } =
    .ok ({ contentType := b!"multipart/form-data".map UInt8.toUInt32, boundary := b!"XX", postBuffer := upload,
           files := [([0x66], ⟨[0xe9], b!"text/plain".map UInt8.toUInt32, b!"d"⟩)] }, true) := by decide +kernel

/-- The content of a PARAMS record in the object that holds it. -/
structure ParamsIn where
  before : Bytes
  pairs : List (Bytes × Bytes)
  content : Bytes
  after : Bytes
  enc : EncPairs pairs content

/-- That record as a request feeds it to its environment. -/
def ParamsIn.fed (r : ParamsIn) : Fed := .params (r.before ++ r.content ++ r.after) r.before.length (r.before ++ r.content).length

/-- Whichever parameters are received in whichever records, well formed or not: each text of the environment is what the values given for it
show one after the other - a malformed value leaves it as it was, a last character that is cut short is left out. -/
theorem C108_texts (l : List ParamsIn) (w : EnvW) (h : feedW {} (l.map ParamsIn.fed) = .ok w) : TextsOf (l.flatMap (·.pairs)) w := by
  suffices H : ∀ (l : List ParamsIn) (ps : List (Bytes × Bytes)) (w0 w : EnvW), TextsOf ps w0 → feedW w0 (l.map ParamsIn.fed) = .ok w →
      TextsOf (ps ++ l.flatMap (·.pairs)) w by
    simpa using H l [] {} w texts_fresh h
  intro l
  induction l with
  | nil =>
    intro ps w0 w h0 h
    injection h with h
    subst h
    simpa using h0
  | cons r l ih =>
    intro ps w0 w h0 h
    simp only [List.map_cons, ParamsIn.fed, feedW] at h
    obtain ⟨w1, e1, h⟩ := Res.bind_eq_ok.1 h
    have := ih _ _ _ (texts_fill r.before r.content r.after h0 r.enc e1) h
    simpa using this

/-- Two values for a member, the second malformed; a value whose last character is cut short; a malformed value of another parameter. -/
example : fillW ([9, 1] ++ b!"HTTP_HOSTa" ++ [9, 2] ++ b!"HTTP_HOSTb" ++ [0xff] ++ [12, 3] ++ b!"HTTP_REFERERé" ++ [0xc3] ++
      [1, 2] ++ b!"Xy" ++ [0xff]) 0 47 {} =
    .ok { host := [0x61], referer := [0xe9], others := [([0x58], [])] } := by decide +kernel
/-- What `Shows` says of these values. -/
example : Shows [0x61] [0x62, 0xff] [0x61] ∧ Shows [] [0xc3, 0xa9, 0xc3] [0xe9] ∧ Shows [] [0x79, 0xff] [] := by
  refine ⟨?_, ?_, ?_⟩
  · have := shows_vec [0x62, 0xff] [0x61]; rwa [show vecToStringW [0x62, 0xff] [0x61] = [0x61] by decide] at this
  · have := shows_vec [0xc3, 0xa9, 0xc3] []; rwa [show vecToStringW [0xc3, 0xa9, 0xc3] [] = [0xe9] by decide] at this
  · have := shows_vec [0x79, 0xff] []; rwa [show vecToStringW [0x79, 0xff] [] = [] by decide] at this
/-- There is only one text a string can show. -/
theorem shows_unique {old : List UInt32} {n : Bytes} {a b : List UInt32} (ha : Shows old n a) (hb : Shows old n b) : a = b :=
  (shows_fun ha).trans (shows_fun hb).symm

/-- Violated: a parameter whose name ends in an incomplete character replaces the parameter whose name is what precedes it, whatever that
is; the narrow environment keeps both. -/
theorem C108_cut_violated (t : List UInt32) (ht : IsText t) (c : UInt32) (hc : isScalar c) (p : Bytes) (hp : p <+: utf8Encode c.toNat)
    (hl : p.length < (utf8Encode c.toNat).length) (hne : p ≠ []) (v1 v2 : List UInt32) (h1 : IsText v1) (h2 : IsText v2) (bs tail : Bytes)
    (hk1 : utf8Text t ∉ wellKnown) (hk2 : utf8Text t ++ p ∉ wellKnown)
    (he : EncPairs [(utf8Text t, utf8Text v1), (utf8Text t ++ p, utf8Text v2)] bs) :
    (∃ w, fillW (bs ++ tail) 0 bs.length {} = .ok w ∧ w.others.lookup t = some v2) ∧
    (∃ e, fill (bs ++ tail) 0 bs.length {} = .ok e ∧ e.others.lookup (utf8Text t) = some (utf8Text v1)) := by
  obtain ⟨items, hi, rfl, hall⟩ := encPairs_items he
  have hw := fill_itemsW items [] tail {} hall
  have hn := fill_items items [] tail {} hall
  simp only [List.nil_append, List.length_nil] at hw hn
  rw [hw, hn]
  match items, hi with
  | [(_, b1), (_, b2)], hi =>
    simp only [List.map_cons, List.map_nil, List.cons.injEq, and_true] at hi
    obtain ⟨rfl, rfl⟩ := hi
    constructor
    · refine ⟨_, by simp only [fillPairsW, fillStepW_other hk1, fillStepW_other hk2, Res.ok_bind]; rfl, ?_⟩
      unfold otherStepW
      dsimp only
      rw [vec_cut t ht c hc p hp hl, reads_vec _ _ v2 h2 rfl]
      simp
    · refine ⟨_, by simp only [fillPairs, fillStep_other hk1, fillStep_other hk2, Res.ok_bind]; rfl, ?_⟩
      unfold otherStep
      dsimp only
      have hx : utf8Text t ≠ utf8Text t ++ p := by simpa using fun x => hne x
      rw [List.lookup_cons]
      have : (utf8Text t == utf8Text t ++ p) = false := by simpa using hx
      rw [this]
      dsimp only
      have := wide_filter_ne _ _ ((utf8Text t, utf8Text v1) :: List.filter (fun x => decide (x.1 ≠ utf8Text t)) ([] : List (Bytes × Bytes))) hx
      rw [this]
      simp

/-- Violated: of the parameters with malformed names only the last is kept, under the empty name. -/
theorem C108_violated (n1 n2 : List UInt32) (ht1 : IsText n1) (ht2 : IsText n2) (m1 m2 : Bytes) (hm1 : utf8Decode1 m1 = .invalid)
    (hm2 : utf8Decode1 m2 = .invalid) (v1 v2 : List UInt32) (h1 : IsText v1) (h2 : IsText v2) (bs tail : Bytes)
    (hk1 : utf8Text n1 ++ m1 ∉ wellKnown) (hk2 : utf8Text n2 ++ m2 ∉ wellKnown)
    (he : EncPairs [(utf8Text n1 ++ m1, utf8Text v1), (utf8Text n2 ++ m2, utf8Text v2)] bs) :
    ∃ w, fillW (bs ++ tail) 0 bs.length {} = .ok w ∧ w.others = [([], v2)] := by
  obtain ⟨items, hi, rfl, hall⟩ := encPairs_items he
  have hw := fill_itemsW items [] tail {} hall
  simp only [List.nil_append, List.length_nil] at hw
  rw [hw]
  match items, hi with
  | [(_, b1), (_, b2)], hi =>
    simp only [List.map_cons, List.map_nil, List.cons.injEq, and_true] at hi
    obtain ⟨rfl, rfl⟩ := hi
    refine ⟨_, by simp only [fillPairsW, fillStepW_other hk1, fillStepW_other hk2, Res.ok_bind]; rfl, ?_⟩
    unfold otherStepW
    dsimp only
    rw [vec_invalid n1 ht1 m1 hm1, vec_invalid n2 ht2 m2 hm2, reads_vec _ _ v2 h2 rfl]
    simp

/-- Their hypotheses are met: X and X with half an é; A and B with a byte that is in no UTF-8 text. -/
example : isScalar 0xe9 ∧ utf8Encode 0xe9 = [0xc3, 0xa9] ∧ utf8Text [0x58] = [0x58] ∧ [0x58] ∉ wellKnown ∧ [0x58, 0xc3] ∉ wellKnown ∧
    utf8Decode1 [0xff] = .invalid ∧
    fillW ([1, 1] ++ b!"X1" ++ [2, 1, 0x58, 0xc3] ++ b!"2" ++ [0]) 0 9 {} = .ok { others := [([0x58], [0x32])] } ∧
    fillW ([2, 1, 0x41, 0xff] ++ b!"1" ++ [2, 1, 0x42, 0xff] ++ b!"2" ++ [0]) 0 10 {} = .ok { others := [([], [0x32])] } := by
  refine ⟨Or.inl (by decide), ?_⟩
  decide +kernel

end Fcgi.Props
