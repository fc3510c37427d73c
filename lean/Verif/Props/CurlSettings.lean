import Verif.Props.Sql
import Verif.Model.CurlSettings
/-! # C137: the request of the HTTP client is the one asked for -/
namespace Fcgi.Props
open Fcgi Fcgi.Model Fcgi.Spec

theorem cstr_plain {t : Bytes} (h : (0 : Byte) ∉ t) : cstr t = t := by
  unfold cstr
  induction t with
  | nil => rfl
  | cons b t ih =>
    have hb : b ≠ 0 := by rintro rfl; exact h (by simp)
    rw [List.takeWhile_cons_of_pos (by simpa using hb), ih (by intro hm; exact h (by simp [hm]))]

theorem zero_encode {c : UInt32} (hs : isScalar c) (h : (0 : Byte) ∈ utf8Encode c.toNat) : c = 0 := by
  have hb : c.toNat < 0x110000 := by
    rcases hs with h | ⟨_, h⟩ <;> have := UInt32.lt_iff_toNat_lt.1 h <;> simp at this <;> omega
  have key : ∀ n, n < 256 → 0 = UInt8.ofNat n → n = 0 := by
    intro n hn e
    have := congrArg UInt8.toNat e
    simp only [UInt8.toNat_ofNat'] at this
    have h0 : (0 : UInt8).toNat = 0 := rfl
    omega
  have : c.toNat = 0 := by
    unfold utf8Encode at h
    split at h
    · simp only [List.mem_singleton] at h; exact key _ (by omega) h
    · split at h
      · simp only [List.mem_cons, List.not_mem_nil, or_false] at h
        rcases h with h | h <;> have := key _ (by omega) h <;> omega
      · split at h
        · simp only [List.mem_cons, List.not_mem_nil, or_false] at h
          rcases h with h | h | h <;> have := key _ (by omega) h <;> omega
        · simp only [List.mem_cons, List.not_mem_nil, or_false] at h
          rcases h with h | h | h | h <;> have := key _ (by omega) h <;> omega
  exact UInt32.toNat_inj.1 this

theorem zero_text {t : List UInt32} (hs : IsText t) (h : (0 : UInt32) ∉ t) : (0 : Byte) ∉ utf8Text t := by
  intro hm
  obtain ⟨c, hc, hz⟩ := List.mem_flatMap.1 hm
  exact h (zero_encode (hs c hc) hz ▸ hc)

/-- What the object remembers of its calls. -/
theorem conf_calls (h : List CurlCall) (hp : ∀ c ∈ h, c.Plain) : ∃ l, CurlConf.fresh.calls true h =
    ⟨urlWanted h.reverse, verifyWanted h.reverse, verifyWanted h.reverse, l, headersWanted h.reverse⟩ := by
  suffices key : ∀ r : List CurlCall, (∀ c ∈ r, c.Plain) → ∃ l, CurlConf.fresh.calls true r.reverse = ⟨urlWanted r, verifyWanted r, verifyWanted r, l, headersWanted r⟩ by
    simpa using key h.reverse (by simpa using hp)
  intro r
  induction r with
  | nil => exact fun _ => ⟨false, rfl⟩
  | cons c r ih =>
    intro hp
    obtain ⟨l, hl⟩ := ih fun d hd => hp d (by simp [hd])
    have hc := hp c (by simp)
    rw [List.reverse_cons, CurlConf.calls, List.foldl_append]
    unfold CurlConf.calls at hl
    rw [hl]
    cases c with
    | url t => exact ⟨l, by simp [CurlConf.call, CurlConf.setUrl, cstr_plain hc, urlWanted, verifyWanted, headersWanted]⟩
    | wideUrl t =>
      have ho := (utf8Out_iff t _).2 ⟨hc.1, rfl⟩
      exact ⟨l, by simp [CurlConf.call, ho, CurlConf.setUrl, cstr_plain (zero_text hc.1 hc.2), urlWanted, verifyWanted, headersWanted]⟩
    | header t => exact ⟨l, by simp [CurlConf.call, CurlConf.addHeader, cstr_plain hc, urlWanted, verifyWanted, headersWanted]⟩
    | wideHeader t =>
      have ho := (utf8Out_iff t _).2 ⟨hc.1, rfl⟩
      exact ⟨l, by simp [CurlConf.call, ho, CurlConf.addHeader, cstr_plain (zero_text hc.1 hc.2), urlWanted, verifyWanted, headersWanted]⟩
    | verifySSL on => exact ⟨l, by cases on <;> simp [CurlConf.call, CurlConf.verifySSL, urlWanted, verifyWanted, headersWanted]⟩
    | reset => exact ⟨false, by simp [CurlConf.call, CurlConf.reset, CurlConf.fresh, urlWanted, verifyWanted, headersWanted]⟩
    | queued =>
      refine ⟨if headersWanted r = [] then l else true, ?_⟩
      simp only [List.foldl_cons, List.foldl_nil, CurlConf.call, CurlConf.prepare]
      split <;> simp_all [urlWanted, verifyWanted, headersWanted]

/-- **C137** When it is queued, a `Curl` object asks for the URL set last since the last `reset()`, with the header fields added to it, in order, and with verification of the
server's certificate and name unless `verifySSL(false)` was the last word.
Missing: texts that are not Unicode or contain a 0 (`C137_url_violated`, `C137_zero_violated`), versions of libcurl with another meaning of 1 (`C137_verify_violated`), and that
`reset()` keeps the header fields (`C92_violated`). -/
theorem C137_partial (h : List CurlCall) (hp : ∀ c ∈ h, c.Plain) :
    (CurlConf.fresh.calls true (h ++ [.queued])).request =
      ⟨urlWanted h.reverse, headersWanted h.reverse, verifyWanted h.reverse, verifyWanted h.reverse⟩ := by
  obtain ⟨l, hl⟩ := conf_calls h hp
  rw [CurlConf.calls, List.foldl_append]
  unfold CurlConf.calls at hl
  rw [hl]
  simp only [List.foldl_cons, List.foldl_nil, CurlConf.call, CurlConf.prepare, CurlConf.request]
  split
  · rename_i e; rw [e]; cases l <;> rfl
  · rfl

/-- With any version of libcurl the certificate is verified as asked, whatever the other calls were. -/
theorem C137_peer (one : Bool) (h : List CurlCall) : (CurlConf.fresh.calls one h).request.peer = verifyWanted h.reverse := by
  suffices key : ∀ r : List CurlCall, (CurlConf.fresh.calls one r.reverse).peer = verifyWanted r by
    simpa [CurlConf.request] using key h.reverse
  intro r
  induction r with
  | nil => rfl
  | cons c r ih =>
    rw [List.reverse_cons, CurlConf.calls, List.foldl_append]
    unfold CurlConf.calls at ih
    generalize r.reverse.foldl (·.call one) CurlConf.fresh = s at ih
    simp only [List.foldl_cons, List.foldl_nil]
    cases c with
    | url t => exact ih
    | wideUrl t => simp only [CurlConf.call]; split <;> exact ih
    | header t => exact ih
    | wideHeader t => simp only [CurlConf.call]; split <;> exact ih
    | verifySSL on => cases on <;> rfl
    | reset => rfl
    | queued => simp only [CurlConf.call, CurlConf.prepare]; split <;> exact ih

/-- **C137 fails** for a wide URL that is not Unicode text: it is ignored, and the request goes to the URL set before; a header field is lost. -/
theorem C137_url_violated (one : Bool) (h : List CurlCall) (t : List UInt32) (ht : ¬ IsText t) :
    CurlConf.fresh.calls one (h ++ [.wideUrl t]) = CurlConf.fresh.calls one h ∧ CurlConf.fresh.calls one (h ++ [.wideHeader t]) = CurlConf.fresh.calls one h := by
  have hn : utf8Out t = none := by
    cases hx : utf8Out t with
    | none => rfl
    | some b => exact absurd ((utf8Out_iff t b).1 hx).1 ht
  constructor <;> simp [CurlConf.calls, List.foldl_append, CurlConf.call, hn]

/-- **C137 fails** for texts with a 0, which are cut there. -/
theorem C137_zero_violated (one : Bool) (h : List CurlCall) (a b : Bytes) (ha : (0 : Byte) ∉ a) :
    (CurlConf.fresh.calls one (h ++ [.url (a ++ 0 :: b)])).request.url = some a := by
  have : cstr (a ++ 0 :: b) = a := by
    unfold cstr
    rw [List.takeWhile_append]
    have := cstr_plain ha
    unfold cstr at this
    rw [this]
    simp
  simp [CurlConf.calls, List.foldl_append, CurlConf.call, CurlConf.setUrl, CurlConf.request, this]

/-- **C137 fails** with libcurl 7.28.1 to 7.65.3: after `verifySSL(false)`, `verifySSL(true)` does not bring back the verification of the server's name. -/
theorem C137_verify_violated (h : List CurlCall) : (CurlConf.fresh.calls false (h ++ [.verifySSL false, .verifySSL true])).request.host = false := by
  simp [CurlConf.calls, List.foldl_append, CurlConf.call, CurlConf.verifySSL, CurlConf.request]

/-- A history with two URLs, two header fields and a `reset()`. -/
example : (CurlConf.fresh.calls true ([.url b!"http://a/", .wideHeader [0x58, 0x3a, 0x20, 0xe9], .verifySSL false, .reset, .wideUrl [0x68, 0xe9], .header b!"Y: 1"] ++ [.queued])).request =
    ⟨some [0x68, 0xc3, 0xa9], [[0x58, 0x3a, 0x20, 0xc3, 0xa9], b!"Y: 1"], true, true⟩ := by decide +kernel
example : ∀ c ∈ ([.url b!"http://a/", .wideHeader [0x58, 0x3a, 0x20, 0xe9], .verifySSL false, .reset, .wideUrl [0x68, 0xe9], .header b!"Y: 1"] : List CurlCall), c.Plain := by
  simp [CurlCall.Plain, IsText, isScalar]
example : ¬ IsText [0x68, 0xd800] := by simp [IsText, isScalar]

end Fcgi.Props
