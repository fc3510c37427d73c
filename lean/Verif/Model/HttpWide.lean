import Verif.Model.Http
import Verif.Model.Utf8
/-! # Model of `Environment<wchar_t>` (src/http.cpp)

The code is a template; what depends on the character type is the conversion `vecToString` and the types of the strings.  The parts that
do not depend on it are those of Model/Http. -/
namespace Fcgi.Model

/-- `std::wstring`. -/
abbrev WText := List UInt32

/-- http.cpp 39-52 `vecToString` for a `std::wstring` that holds `old`: if the conversion throws, it stays as it is (and a warning is
logged). -/
def vecToStringW (v : Bytes) (old : WText) : WText := (utf8All v).getD old

/-- http.hpp 60-80 `File<wchar_t>`. -/
structure FileW where
  filename : WText
  contentType : WText
  data : Bytes
  deriving DecidableEq, Repr

/-- http.hpp 112-270 `Environment<wchar_t>`; see `Env` for the containers. -/
structure EnvW where
  host : WText := []
  origin : WText := []
  userAgent : WText := []
  acceptContentTypes : WText := []
  acceptLanguages : List Bytes := []
  acceptCharsets : WText := []
  authorization : WText := []
  referer : WText := []
  contentType : WText := []
  root : WText := []
  scriptName : WText := []
  requestMethod : RequestMethod := .error
  requestUri : WText := []
  pathInfo : List WText := []
  etag : UInt32 := 0
  keepAlive : UInt32 := 0
  contentLength : UInt32 := 0
  serverAddress : Vector Byte 16 := .replicate 16 0
  remoteAddress : Vector Byte 16 := .replicate 16 0
  serverPort : UInt16 := 0
  remotePort : UInt16 := 0
  ifModifiedSince : Option Bytes := none
  others : List (WText × WText) := []
  cookies : List (WText × WText) := []
  gets : List (WText × WText) := []
  posts : List (WText × WText) := []
  files : List (WText × FileW) := []
  boundary : Bytes := []
  postBuffer : Bytes := []
  deriving DecidableEq, Repr

/-- http.cpp 191-218: the PATH_INFO loop; a segment is converted into a new, empty string. -/
def pathLoopW (obj : Bytes) (len : Nat) : (fuel : Nat) → (source : Nat) → (size : Int) → (acc : List WText) → Res (List WText)
  | 0, _, _, _ => .stuck
  | fuel+1, source, size, acc =>
    if source ≤ len then do
      let c ← rd obj source
      if c = 47 ∨ source = len then
        pathLoopW obj len fuel (source + 1) 0
          (if size > 0 then acc ++ [vecToStringW (percentEscapedToRealBytes (slice obj (source - size.toNat) source)) []] else acc)
      else pathLoopW obj len fuel (source + 1) (size + 1) acc
    else .ok acc

/-- http.cpp 191-218. -/
def pathInfoOfW (value after : Bytes) (acc : List WText) : Res (List WText) :=
  pathLoopW (value ++ after) value.length (value.length + 2) 0 (-1) acc

/-- http.cpp 727-767: the loop of `decodeUrlEncoded<wchar_t>`.  `name` and `value` are empty before each conversion: they are new or have
been moved from (a string that was moved from is empty in libstdc++). -/
def urlLoopW (s sep : Bytes) : (fuel : Nat) → (data nameStart : Nat) → (named : Option (WText × Nat)) →
    (out : List (WText × WText)) → Res (List (WText × WText))
  | 0, _, _, _, _ => .stuck
  | fuel+1, data, nameStart, named, out =>
    if data ≤ s.length then
      match named with
      | some (name, valueStart) =>
        if data = s.length ∨ (data + sep.length ≤ s.length ∧ slice s data (data + sep.length) = sep) then
          urlLoopW s sep fuel (data + sep.length) (data + sep.length) none
            (out ++ [(name, vecToStringW (percentEscapedToRealBytes (slice s valueStart data)) [])])
        else urlLoopW s sep fuel (data + 1) nameStart named out
      | none =>
        if s[data]? = some 61 then
          urlLoopW s sep fuel (data + 1) nameStart
            (some (vecToStringW (percentEscapedToRealBytes (slice s nameStart data)) [], data + 1)) out
        else urlLoopW s sep fuel (data + 1) nameStart none out
    else .ok out

/-- http.cpp 714-767 `decodeUrlEncoded<wchar_t>`. -/
def decodeUrlEncodedW (s sep : Bytes) (out : List (WText × WText)) : Res (List (WText × WText)) :=
  urlLoopW s sep (s.length + 2) 0 0 none out

/-- http.cpp 247-262: CONTENT_TYPE; the boundary is a `std::vector<char>`. -/
def contentTypeStepW (env : EnvW) (v : Bytes) : EnvW :=
  let semicolon := (v.takeWhile (· ≠ 59)).length
  let env := { env with contentType := vecToStringW (v.take semicolon) env.contentType }
  if semicolon ≠ v.length then
    let equals := semicolon + ((v.drop semicolon).takeWhile (· ≠ 61)).length
    if equals ≠ v.length then { env with boundary := v.drop (equals + 1) } else env
  else env

/-- http.cpp 428-435: everything else; `nameString` and `valueString` are new. -/
def otherStepW (env : EnvW) (name v : Bytes) : EnvW :=
  { env with others := (vecToStringW name [], vecToStringW v []) :: env.others.filter (fun p => p.1 ≠ vecToStringW name []) }

/-- http.cpp 185-436: the body of the loop of `fill`, for one parameter. -/
def fillStepW (env : EnvW) (name v after : Bytes) : Res EnvW :=
  match name.length with
  | 9 =>
    if name = b!"HTTP_HOST" then .ok { env with host := vecToStringW v env.host }
    else if name = b!"PATH_INFO" then do return { env with pathInfo := ← pathInfoOfW v after env.pathInfo }
    else .ok (otherStepW env name v)
  | 11 =>
    if name = b!"HTTP_ACCEPT" then .ok { env with acceptContentTypes := vecToStringW v env.acceptContentTypes }
    else if name = b!"HTTP_COOKIE" then do return { env with cookies := ← decodeUrlEncodedW v b!"; " env.cookies }
    else if name = b!"SERVER_ADDR" then do return { env with serverAddress := ← assignTo env.serverAddress v after }
    else if name = b!"REMOTE_ADDR" then do return { env with remoteAddress := ← assignTo env.remoteAddress v after }
    else if name = b!"SERVER_PORT" then do return { env with serverPort := toU16 (← atoi v after) }
    else if name = b!"REMOTE_PORT" then do return { env with remotePort := toU16 (← atoi v after) }
    else if name = b!"SCRIPT_NAME" then .ok { env with scriptName := vecToStringW v env.scriptName }
    else if name = b!"REQUEST_URI" then .ok { env with requestUri := vecToStringW v env.requestUri }
    else if name = b!"HTTP_ORIGIN" then .ok { env with origin := vecToStringW v env.origin }
    else .ok (otherStepW env name v)
  | 12 =>
    if name = b!"HTTP_REFERER" then .ok { env with referer := vecToStringW v env.referer }
    else if name = b!"CONTENT_TYPE" then .ok (contentTypeStepW env v)
    else if name = b!"QUERY_STRING" then do return { env with gets := ← decodeUrlEncodedW v b!"&" env.gets }
    else .ok (otherStepW env name v)
  | 13 =>
    if name = b!"DOCUMENT_ROOT" then .ok { env with root := vecToStringW v env.root }
    else .ok (otherStepW env name v)
  | 14 =>
    if name = b!"REQUEST_METHOD" then .ok { env with requestMethod := parseMethod v }
    else if name = b!"CONTENT_LENGTH" then do return { env with contentLength := toU32 (← atoi v after) }
    else .ok (otherStepW env name v)
  | 15 =>
    if name = b!"HTTP_USER_AGENT" then .ok { env with userAgent := vecToStringW v env.userAgent }
    else if name = b!"HTTP_KEEP_ALIVE" then do return { env with keepAlive := toU32 (← atoi v after) }
    else .ok (otherStepW env name v)
  | 18 =>
    if name = b!"HTTP_IF_NONE_MATCH" then do return { env with etag := toU32 (← atoi v after) }
    else if name = b!"HTTP_AUTHORIZATION" then .ok { env with authorization := vecToStringW v env.authorization }
    else .ok (otherStepW env name v)
  | 19 =>
    if name = b!"HTTP_ACCEPT_CHARSET" then .ok { env with acceptCharsets := vecToStringW v env.acceptCharsets }
    else .ok (otherStepW env name v)
  | 20 =>
    if name = b!"HTTP_ACCEPT_LANGUAGE" then do
      return { env with acceptLanguages := ← langLoop (v.length + 1) v env.acceptLanguages }
    else .ok (otherStepW env name v)
  | 22 =>
    if name = b!"HTTP_IF_MODIFIED_SINCE" then .ok { env with ifModifiedSince := some v }
    else .ok (otherStepW env name v)
  | _ => .ok (otherStepW env name v)

/-- http.cpp 169-439 `Environment<wchar_t>::fill(data, dataEnd)`, as `fillLoop`. -/
def fillLoopW (obj : Bytes) (dataEnd : Nat) : (fuel : Nat) → (data : Nat) → EnvW → Res EnvW
  | 0, _, _ => .stuck
  | fuel+1, data, env => do
    match ← processParamHeader (obj.take dataEnd) data with
    | none => return env
    | some (name, value, end_) =>
      let env ← fillStepW env (slice obj name value) (slice obj value end_) (obj.drop end_)
      fillLoopW obj dataEnd fuel end_ env

/-- http.cpp 169-439. -/
def fillW (obj : Bytes) (data dataEnd : Nat) (env : EnvW) : Res EnvW :=
  fillLoopW obj dataEnd (dataEnd + 1) data env

/-- http.cpp 442-449 `fillPostBuffer`. -/
def fillPostBufferW (env : EnvW) (d : Bytes) : EnvW := { env with postBuffer := env.postBuffer ++ d }

/-- http.cpp 495-502: the parser's variables; of `pos` the members `posts` and `files` are not used. -/
structure MpStateW where
  pos : MpState
  posts : List (WText × WText)
  files : List (WText × FileW)
  deriving DecidableEq, Repr

/-- http.cpp 611-638: a part is complete; the strings are new. -/
def mpPartW (b : Bytes) (s : MpStateW) (bodyEnd : Nat) : Res MpStateW :=
  let len := b.length
  let p := s.pos
  if p.nameEnd ≠ len then do
    let name ← range b p.nameStart p.nameEnd
    if p.contentTypeEnd ≠ len then
      let contentType ← range b p.contentTypeStart p.contentTypeEnd
      let filename ← if p.filenameEnd ≠ len then range b p.filenameStart p.filenameEnd else .ok []
      let data ← range b p.bodyStart bodyEnd
      return ⟨.cleared len p.byte [] [], s.posts,
        s.files ++ [(vecToStringW name [], ⟨vecToStringW filename [], vecToStringW contentType [], data⟩)]⟩
    else
      let value ← range b p.bodyStart bodyEnd
      return ⟨.cleared len p.byte [] [], s.posts ++ [(vecToStringW name [], vecToStringW value [])], s.files⟩
  else .ok ⟨.cleared len p.byte [] [], s.posts, s.files⟩

/-- http.cpp 516-656: one iteration; only the last state depends on the character type. -/
def mpStepW (b boundary : Bytes) (s : MpStateW) : Res MpStateW :=
  if s.pos.mode = .body ∧ matchAt b boundary s.pos.byte then do
    let bodyEnd ← mpBodyEnd b s.pos
    let r ← mpPartW b s bodyEnd
    return { r with pos := { r.pos with byte := r.pos.byte + 1 } }
  else do
    let p ← mpStep b boundary s.pos
    return { s with pos := p }

/-- http.cpp 514-657: the loop. -/
def mpLoopW (b boundary : Bytes) : (fuel : Nat) → MpStateW → Res MpStateW
  | 0, _ => .stuck
  | fuel+1, s =>
    if s.pos.byte < b.length then do mpLoopW b boundary fuel (← mpStepW b boundary s)
    else .ok s

/-- http.cpp 485-659 `parsePostsMultipart`. -/
def parsePostsMultipartW (env : EnvW) : Res EnvW := do
  let b := env.postBuffer
  let s ← mpLoopW b env.boundary (2 * b.length + 2) ⟨.cleared b.length 0 [] [], env.posts, env.files⟩
  return { env with posts := s.posts, files := s.files }

/-- http.cpp 452-482 `parsePostBuffer`: the characters of the content type are compared with those of a `std::string` (both ASCII). -/
def parsePostBufferW (env : EnvW) : Res (EnvW × Bool) :=
  if env.postBuffer.length = 0 then .ok (env, true)
  else if env.contentType = b!"multipart/form-data".map UInt8.toUInt32 then do return (← parsePostsMultipartW env, true)
  else if env.contentType = b!"application/x-www-form-urlencoded".map UInt8.toUInt32 then do
    return ({ env with posts := ← decodeUrlEncodedW env.postBuffer b!"&" env.posts }, true)
  else .ok (env, false)

end Fcgi.Model
