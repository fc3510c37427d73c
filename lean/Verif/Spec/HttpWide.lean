import Verif.Spec.Curl
import Verif.Spec.Http
import Verif.Model.HttpWide
/-! # What an environment with wide characters should hold: the same as one with narrow characters, decoded from UTF-8 -/
namespace Fcgi.Spec
open Fcgi.Model

/-- Unicode text. -/
def IsText (t : List UInt32) : Prop := ∀ c ∈ t, isScalar c

/-- `w` is the text of which `n` is the UTF-8 form, if there is one. -/
def Reads (n : Bytes) (w : List UInt32) : Prop := ∀ t, IsText t → n = utf8Text t → w = t

/-- The beginning of a character, cut short (or nothing). -/
def Cut (p : Bytes) : Prop := ∃ c, isScalar c ∧ p <+: utf8Encode c.toNat ∧ p.length < (utf8Encode c.toNat).length

/-- `n` is the UTF-8 form of `t`, except that the last character may be followed by one that is cut short. -/
def Utf8Of (n : Bytes) (t : List UInt32) : Prop := IsText t ∧ ∃ p, Cut p ∧ n = utf8Text t ++ p

/-- What a string that held `old` shows after `n` has been decoded into it: the text, or `old` if the bytes are malformed. -/
def Shows (old : List UInt32) (n : Bytes) (w : List UInt32) : Prop := Utf8Of n w ∨ (∀ t, ¬ Utf8Of n t) ∧ w = old

/-- Two lists of the same length with related elements. -/
inductive Each {α β} (R : α → β → Prop) : List α → List β → Prop where
  | nil : Each R [] []
  | cons {a b l m} (h : R a b) (t : Each R l m) : Each R (a :: l) (b :: m)

/-- A name and a value, if `R` relates texts. -/
def ReadsPair (R : Bytes → List UInt32 → Prop) (p : Bytes × Bytes) (q : List UInt32 × List UInt32) : Prop := R p.1 q.1 ∧ R p.2 q.2

/-- A name and an uploaded file; its content is not text and stays as it is. -/
def ReadsFile (R : Bytes → List UInt32 → Prop) (p : Bytes × File) (q : List UInt32 × FileW) : Prop :=
  R p.1 q.1 ∧ R p.2.filename q.2.filename ∧ R p.2.contentType q.2.contentType ∧ p.2.data = q.2.data

/-- The value found under a name. -/
def ReadsFound (R : Bytes → List UInt32 → Prop) : Option Bytes → Option (List UInt32) → Prop
  | some v, some w => R v w
  | none, none => True
  | _, _ => False

/-- Two environments that hold the same, where `R` relates the texts in the containers. -/
structure SameEnvBy (R : Bytes → List UInt32 → Prop) (e : Env) (w : EnvW) : Prop where
  host : Reads e.host w.host
  origin : Reads e.origin w.origin
  userAgent : Reads e.userAgent w.userAgent
  acceptContentTypes : Reads e.acceptContentTypes w.acceptContentTypes
  acceptLanguages : e.acceptLanguages = w.acceptLanguages
  acceptCharsets : Reads e.acceptCharsets w.acceptCharsets
  authorization : Reads e.authorization w.authorization
  referer : Reads e.referer w.referer
  contentType : Reads e.contentType w.contentType
  root : Reads e.root w.root
  scriptName : Reads e.scriptName w.scriptName
  requestMethod : e.requestMethod = w.requestMethod
  requestUri : Reads e.requestUri w.requestUri
  pathInfo : Each R e.pathInfo w.pathInfo
  etag : e.etag = w.etag
  keepAlive : e.keepAlive = w.keepAlive
  contentLength : e.contentLength = w.contentLength
  serverAddress : e.serverAddress = w.serverAddress
  remoteAddress : e.remoteAddress = w.remoteAddress
  serverPort : e.serverPort = w.serverPort
  remotePort : e.remotePort = w.remotePort
  ifModifiedSince : e.ifModifiedSince = w.ifModifiedSince
  /-- the parameters without a member of their own are found under the same names, if all these names are text -/
  others : (∀ p ∈ e.others, ∃ t, IsText t ∧ p.1 = utf8Text t) →
    ∀ t, IsText t → ReadsFound R (e.others.lookup (utf8Text t)) (w.others.lookup t)
  cookies : Each (ReadsPair R) e.cookies w.cookies
  gets : Each (ReadsPair R) e.gets w.gets
  posts : Each (ReadsPair R) e.posts w.posts
  files : Each (ReadsFile R) e.files w.files
  boundary : e.boundary = w.boundary
  postBuffer : e.postBuffer = w.postBuffer

/-- Two environments that hold the same; what is malformed in a container is empty. -/
abbrev SameEnv := SameEnvBy (Shows [])

/-- Both end normally with related results, or both end with the same kind of undefined behaviour, or neither ends. -/
def SameRes {α β} (R : α → β → Prop) : Res α → Res β → Prop
  | .ok a, .ok b => R a b
  | .ub k, .ub k' => k = k'
  | .stuck, .stuck => True
  | _, _ => False

/-- What a string shows, that was empty, after these values have been decoded into it one after the other. -/
inductive TextAfter : List Bytes → List UInt32 → Prop where
  | start : TextAfter [] []
  | next {vs v w w'} (h : TextAfter vs w) (hv : Shows w v w') : TextAfter (vs ++ [v]) w'

/-- The texts of a wide environment after these parameters have been received, well formed or not. -/
structure TextsOf (ps : List (Bytes × Bytes)) (w : EnvW) : Prop where
  host : TextAfter (allValues b!"HTTP_HOST" ps) w.host
  origin : TextAfter (allValues b!"HTTP_ORIGIN" ps) w.origin
  userAgent : TextAfter (allValues b!"HTTP_USER_AGENT" ps) w.userAgent
  acceptContentTypes : TextAfter (allValues b!"HTTP_ACCEPT" ps) w.acceptContentTypes
  acceptCharsets : TextAfter (allValues b!"HTTP_ACCEPT_CHARSET" ps) w.acceptCharsets
  authorization : TextAfter (allValues b!"HTTP_AUTHORIZATION" ps) w.authorization
  referer : TextAfter (allValues b!"HTTP_REFERER" ps) w.referer
  /-- up to the semicolon -/
  contentType : TextAfter ((allValues b!"CONTENT_TYPE" ps).map fun v => v.takeWhile (· ≠ 59)) w.contentType
  root : TextAfter (allValues b!"DOCUMENT_ROOT" ps) w.root
  scriptName : TextAfter (allValues b!"SCRIPT_NAME" ps) w.scriptName
  requestUri : TextAfter (allValues b!"REQUEST_URI" ps) w.requestUri
  /-- under a name is the value of the last parameter whose name shows as this name -/
  others : ∀ k v, w.others.lookup k = some v ↔
    ∃ l n b r, ps = l ++ (n, b) :: r ∧ n ∉ wellKnown ∧ Shows [] n k ∧ Shows [] b v ∧ ∀ p ∈ r, p.1 ∉ wellKnown → ¬ Shows [] p.1 k

end Fcgi.Spec
