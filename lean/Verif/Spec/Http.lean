import Verif.Spec.Text
/-! # Specification: HTTP values, forms and multipart bodies -/
namespace Fcgi.Spec

/-- Items separated by `sep`. -/
def joinWith (sep : Bytes) : List Bytes → Bytes
  | [] => []
  | [x] => x
  | x :: y :: xs => x ++ sep ++ joinWith sep (y :: xs)

/-- A raw text `name=value` for each pair, both halves form-encoded and free of the separator's first
character `s0`, the name free of `=`. -/
inductive FormFields (s0 : UInt8) : List Bytes → List (Bytes × Bytes) → Prop
  | nil : FormFields s0 [] []
  | cons {rn rv n v raws ps} (hn : UrlText rn n) (hv : UrlText rv v) (h1 : 61 ∉ rn) (h2 : s0 ∉ rn) (h3 : s0 ∉ rv) :
      FormFields s0 raws ps → FormFields s0 ((rn ++ 61 :: rv) :: raws) ((n, v) :: ps)

/-- How a query string is actually cut: up to the next `=`, whatever stands there, is the name; from there to
the next `&` is the value; text after the last value that has no `=` belongs to nothing. -/
inductive CutAtEquals : Bytes → List (Bytes × Bytes) → Prop
  | rest {t} : 61 ∉ t → CutAtEquals t []
  | last {n v} : 61 ∉ n → 38 ∉ v → CutAtEquals (n ++ 61 :: v) [(n, v)]
  | more {n v s ps} : 61 ∉ n → 38 ∉ v → CutAtEquals s ps → CutAtEquals (n ++ 61 :: v ++ 38 :: s) ((n, v) :: ps)

/-- `raw` is a query string or urlencoded form holding `ps`. -/
def FormText (raw : Bytes) (ps : List (Bytes × Bytes)) : Prop :=
  ∃ raws, FormFields 38 raws ps ∧ raw = joinWith [38] raws
/-- `raw` is a cookie header holding `ps`. -/
def CookieText (raw : Bytes) (ps : List (Bytes × Bytes)) : Prop :=
  ∃ raws, FormFields 59 raws ps ∧ raw = joinWith [59, 32] raws
/-- `raw` is a path made of non-empty segments, each preceded by `/`. -/
inductive PathText : Bytes → List Bytes → Prop
  | nil : PathText [] []
  | cons {rs s raw segs} (hs : UrlText rs s) (h1 : 47 ∉ rs) (h2 : rs ≠ []) : PathText raw segs →
      PathText (47 :: (rs ++ raw)) (s :: segs)
/-- One way to encode: every byte as `%XY`. -/
def hexDigit (n : Nat) : UInt8 := UInt8.ofNat (if n < 10 then 48 + n else 55 + n)
def pctEncode (s : Bytes) : Bytes := s.flatMap fun c => [37, hexDigit (c.toNat / 16), hexDigit (c.toNat % 16)]

/-- A decimal digit and the number a digit string denotes. -/
def IsDigit (c : UInt8) : Prop := 48 ≤ c.toNat ∧ c.toNat ≤ 57
def decimalValue (ds : Bytes) : Nat := ds.foldl (fun n c => 10 * n + (c.toNat - 48)) 0

/-- `v` is a decimal representation of `n`. -/
def IsDecimal (v : Bytes) (n : Nat) : Prop := v ≠ [] ∧ (∀ c ∈ v, IsDigit c) ∧ decimalValue v = n

/-- The last value given for `key`. -/
def lastValue (key : Bytes) : List (Bytes × Bytes) → Option Bytes
  | [] => none
  | (k, v) :: rest => match lastValue key rest with
    | some w => some w
    | none => if k = key then some v else none

/-- All values given for `key`, in order. -/
def allValues (key : Bytes) (nvs : List (Bytes × Bytes)) : List Bytes :=
  (nvs.filter (fun p => p.1 = key)).map Prod.snd

/-- The CGI variable names with a member of their own. -/
def wellKnown : List Bytes :=
  [b!"HTTP_HOST", b!"PATH_INFO", b!"HTTP_ACCEPT", b!"HTTP_COOKIE", b!"SERVER_ADDR", b!"REMOTE_ADDR",
   b!"SERVER_PORT", b!"REMOTE_PORT", b!"SCRIPT_NAME", b!"REQUEST_URI", b!"HTTP_ORIGIN", b!"HTTP_REFERER",
   b!"CONTENT_TYPE", b!"QUERY_STRING", b!"DOCUMENT_ROOT", b!"REQUEST_METHOD", b!"CONTENT_LENGTH",
   b!"HTTP_USER_AGENT", b!"HTTP_KEEP_ALIVE", b!"HTTP_IF_NONE_MATCH", b!"HTTP_AUTHORIZATION",
   b!"HTTP_ACCEPT_CHARSET", b!"HTTP_ACCEPT_LANGUAGE", b!"HTTP_IF_MODIFIED_SINCE"]

/-- `LocaleTag tag loc`: `loc` is the language tag with its first dash turned into an underscore. -/
inductive LocaleTag : Bytes → Bytes → Prop
  | plain {t} (h : 45 ∉ t) : LocaleTag t t
  | dash {a b} (h : 45 ∉ a) : LocaleTag (a ++ 45 :: b) (a ++ 95 :: b)

/-- One element of an Accept-Language value: `tag` with spaces around and optional parameters. -/
structure LangItem where
  before : Nat
  tag : Bytes
  behind : Nat
  params : Option Bytes
  deriving DecidableEq, Repr

def LangItem.bytes (i : LangItem) : Bytes :=
  List.replicate i.before 32 ++ i.tag ++ List.replicate i.behind 32 ++
    (match i.params with | none => [] | some p => 59 :: p)

structure LangItem.WF (i : LangItem) : Prop where
  tag : i.tag ≠ [] ∧ 44 ∉ i.tag ∧ 59 ∉ i.tag
  first : i.tag.head? ≠ some 32
  last : i.tag.getLast? ≠ some 32
  params : ∀ p, i.params = some p → 44 ∉ p

/-- `raw` is an Accept-Language value whose tags give the locales `ls`. -/
def LangText (raw : Bytes) (ls : List Bytes) : Prop :=
  ∃ items : List (LangItem × Bytes), (∀ i ∈ items, i.1.WF ∧ LocaleTag i.1.tag i.2) ∧
    raw = joinWith [44] (items.map (fun i => i.1.bytes)) ∧ ls = items.map Prod.snd

/-! ### multipart/form-data (RFC 7578) -/

/-- A part: a text field, or a file with its name and content type. -/
structure Part where
  name : Bytes
  file : Option (Bytes × Bytes)
  content : Bytes
  deriving DecidableEq, Repr

def Part.header (p : Part) : Bytes :=
  b!"Content-Disposition: form-data; name=\"" ++ p.name ++
    (match p.file with
      | none => b!"\""
      | some (filename, type) => b!"\"; filename=\"" ++ filename ++ b!"\"\r\nContent-Type: " ++ type)
    ++ b!"\r\n\r\n"

/-- A complete body. -/
def multipart (boundary : Bytes) : List Part → Bytes
  | [] => b!"--" ++ boundary ++ b!"--\r\n"
  | p :: ps => b!"--" ++ boundary ++ b!"\r\n" ++ p.header ++ p.content ++ b!"\r\n" ++ multipart boundary ps

/-- The text fields and the files among the parts, in order. -/
def textFields (ps : List Part) : List (Bytes × Bytes) :=
  ps.filterMap fun p => match p.file with | none => some (p.name, p.content) | some _ => none
def fileParts (ps : List Part) : List (Bytes × Bytes × Bytes × Bytes) :=
  ps.filterMap fun p => match p.file with
    | none => none
    | some (filename, type) => some (p.name, filename, type, p.content)

/-- Names and types must not contain their delimiters, the content must not contain the boundary. -/
structure Part.WF (boundary : Bytes) (p : Part) : Prop where
  name : 34 ∉ p.name
  filename : ∀ f t, p.file = some (f, t) → 34 ∉ f ∧ 13 ∉ t ∧ 10 ∉ t
  content : ¬ boundary <:+: p.content

/-- A usable boundary: no quote, colon or line break, not made of dashes only. -/
structure BoundaryWF (boundary : Bytes) : Prop where
  chars : 34 ∉ boundary ∧ 58 ∉ boundary ∧ 13 ∉ boundary ∧ 10 ∉ boundary
  nondash : ∃ c ∈ boundary, c ≠ 45

end Fcgi.Spec
