import Verif.Model.Address
import Verif.Model.Protocol
/-! # Model of src/http.cpp: the request environment (narrow characters, `Environment<char>`) -/
namespace Fcgi.Model

/-- http.hpp 84-97 `RequestMethod`. -/
inductive RequestMethod where
  | error | head | get | post | put | delete | trace | options | connect | patch
  deriving DecidableEq, Repr

/-- http.cpp 777-789 `requestMethodLabels`. -/
def requestMethodLabel : RequestMethod → Bytes
  | .error => b!"ERROR" | .head => b!"HEAD" | .get => b!"GET" | .post => b!"POST" | .put => b!"PUT"
  | .delete => b!"DELETE" | .trace => b!"TRACE" | .options => b!"OPTIONS" | .connect => b!"CONNECT"
  | .patch => b!"PATCH"

/-- http.hpp 60-80 `File`. -/
structure File where
  filename : Bytes
  contentType : Bytes
  data : Bytes
  deriving DecidableEq, Repr

/-- http.hpp 112-270 `Environment`.  The multimaps are the lists of pairs inserted, oldest first (a
multimap keeps equal keys in insertion order); `others` is an association list with unique keys.
For the modification date the text given to the parser is kept (the date parser is not modelled). -/
structure Env where
  host : Bytes := []
  origin : Bytes := []
  userAgent : Bytes := []
  acceptContentTypes : Bytes := []
  acceptLanguages : List Bytes := []
  acceptCharsets : Bytes := []
  authorization : Bytes := []
  referer : Bytes := []
  contentType : Bytes := []
  root : Bytes := []
  scriptName : Bytes := []
  requestMethod : RequestMethod := .error
  requestUri : Bytes := []
  pathInfo : List Bytes := []
  etag : UInt32 := 0
  keepAlive : UInt32 := 0
  contentLength : UInt32 := 0
  serverAddress : Vector Byte 16 := .replicate 16 0
  remoteAddress : Vector Byte 16 := .replicate 16 0
  serverPort : UInt16 := 0
  remotePort : UInt16 := 0
  ifModifiedSince : Option Bytes := none
  others : List (Bytes × Bytes) := []
  cookies : List (Bytes × Bytes) := []
  gets : List (Bytes × Bytes) := []
  posts : List (Bytes × Bytes) := []
  files : List (Bytes × File) := []
  boundary : Bytes := []
  postBuffer : Bytes := []
  deriving DecidableEq, Repr

/-- Conversion of an `int` to `unsigned`/`uint16_t`. -/
def toU32 (x : Int) : UInt32 := UInt32.ofInt x
def toU16 (x : Int) : UInt16 := UInt16.ofInt x

/-- http.cpp 191-218: the PATH_INFO loop, `source` and `end` as offsets from `value`, `obj` the memory
from `value` on. -/
def pathLoop (obj : Bytes) (len : Nat) : (fuel : Nat) → (source : Nat) → (size : Int) → (acc : List Bytes) →
    Res (List Bytes)
  | 0, _, _, _ => .stuck
  | fuel+1, source, size, acc =>
    if source ≤ len then do
      let c ← rd obj source
      if c = 47 ∨ source = len then
        pathLoop obj len fuel (source + 1) 0
          (if size > 0 then acc ++ [percentEscapedToRealBytes (slice obj (source - size.toNat) source)] else acc)
      else pathLoop obj len fuel (source + 1) (size + 1) acc
    else .ok acc

def pathInfoOf (value after : Bytes) (acc : List Bytes) : Res (List Bytes) :=
  pathLoop (value ++ after) value.length (value.length + 2) 0 (-1) acc

/-- http.cpp 727-767: the loop of `decodeUrlEncoded`.  `named` is the decoded name and `valueStart`
once `=` has been seen; the code recognises that situation by `nameEnd != dataEnd`, where `nameEnd`
then points into the scratch buffer (assumed different from `dataEnd`). -/
def urlLoop (s sep : Bytes) : (fuel : Nat) → (data nameStart : Nat) → (named : Option (Bytes × Nat)) →
    (out : List (Bytes × Bytes)) → Res (List (Bytes × Bytes))
  | 0, _, _, _, _ => .stuck
  | fuel+1, data, nameStart, named, out =>
    if data ≤ s.length then
      match named with
      | some (name, valueStart) =>
        if data = s.length ∨ (data + sep.length ≤ s.length ∧ slice s data (data + sep.length) = sep) then
          urlLoop s sep fuel (data + sep.length) (data + sep.length) none
            (out ++ [(name, percentEscapedToRealBytes (slice s valueStart data))])
        else urlLoop s sep fuel (data + 1) nameStart named out
      | none =>
        if s[data]? = some 61 then
          urlLoop s sep fuel (data + 1) nameStart
            (some (percentEscapedToRealBytes (slice s nameStart data), data + 1)) out
        else urlLoop s sep fuel (data + 1) nameStart none out
    else .ok out

/-- http.cpp 714-767 `decodeUrlEncoded`, inserting into `out`. -/
def decodeUrlEncoded (s sep : Bytes) (out : List (Bytes × Bytes)) : Res (List (Bytes × Bytes)) :=
  urlLoop s sep (s.length + 2) 0 0 none out

/-- Trim spaces at both ends (http.cpp 388-391). -/
def trimSpaces (s : Bytes) : Bytes := ((s.dropWhile (· = 32)).reverse.dropWhile (· = 32)).reverse

/-- http.cpp 394-396: the first `-` becomes `_`. -/
def dashToUnderscore : Bytes → Bytes
  | [] => []
  | c :: s => if c = 45 then 95 :: s else c :: dashToUnderscore s

/-- http.cpp 380-399: the ACCEPT_LANGUAGE loop; `rest` is `[groupStart, end)`. -/
def langLoop : (fuel : Nat) → (rest : Bytes) → (acc : List Bytes) → Res (List Bytes)
  | 0, _, _ => .stuck
  | fuel+1, rest, acc =>
    if rest.length > 0 then
      let group := rest.takeWhile (· ≠ 44)
      let sub := group.takeWhile (· ≠ 59)
      langLoop fuel (rest.drop (group.length + 1)) (acc ++ [dashToUnderscore (trimSpaces sub)])
    else .ok acc

/-- http.cpp 277-343: REQUEST_METHOD. -/
def parseMethod (v : Bytes) : RequestMethod :=
  match v.length with
  | 3 => if v = requestMethodLabel .get then .get else if v = requestMethodLabel .put then .put else .error
  | 4 => if v = requestMethodLabel .head then .head else if v = requestMethodLabel .post then .post else .error
  | 5 => if v = requestMethodLabel .trace then .trace else if v = requestMethodLabel .patch then .patch else .error
  | 6 => if v = requestMethodLabel .delete then .delete else .error
  | 7 => if v = requestMethodLabel .options then .options
         else if v = requestMethodLabel .connect then .connect else .error
  | _ => .error

/-- http.cpp 247-262: CONTENT_TYPE. -/
def contentTypeStep (env : Env) (v : Bytes) : Env :=
  let semicolon := (v.takeWhile (· ≠ 59)).length
  let env := { env with contentType := v.take semicolon }
  if semicolon ≠ v.length then
    let equals := semicolon + ((v.drop semicolon).takeWhile (· ≠ 61)).length
    if equals ≠ v.length then { env with boundary := v.drop (equals + 1) } else env
  else env

/-- http.cpp 428-435: everything else. -/
def otherStep (env : Env) (name v : Bytes) : Env :=
  { env with others := (name, v) :: env.others.filter (fun p => p.1 ≠ name) }

/-- http.cpp 227-230 `serverAddress.assign(value, end)`: `after` follows the value in memory, `old` is the address before. -/
def assignTo (old : Vector Byte 16) (v after : Bytes) : Res (Vector Byte 16) := do
  let b ← assign v after old.toList
  return Vector.ofFn fun i => b.getD i.val 0

/-- http.cpp 185-436: the body of the loop of `fill`, for one parameter. -/
def fillStep (env : Env) (name v after : Bytes) : Res Env :=
  match name.length with
  | 9 =>
    if name = b!"HTTP_HOST" then .ok { env with host := v }
    else if name = b!"PATH_INFO" then do return { env with pathInfo := ← pathInfoOf v after env.pathInfo }
    else .ok (otherStep env name v)
  | 11 =>
    if name = b!"HTTP_ACCEPT" then .ok { env with acceptContentTypes := v }
    else if name = b!"HTTP_COOKIE" then do return { env with cookies := ← decodeUrlEncoded v b!"; " env.cookies }
    else if name = b!"SERVER_ADDR" then do return { env with serverAddress := ← assignTo env.serverAddress v after }
    else if name = b!"REMOTE_ADDR" then do return { env with remoteAddress := ← assignTo env.remoteAddress v after }
    else if name = b!"SERVER_PORT" then do return { env with serverPort := toU16 (← atoi v after) }
    else if name = b!"REMOTE_PORT" then do return { env with remotePort := toU16 (← atoi v after) }
    else if name = b!"SCRIPT_NAME" then .ok { env with scriptName := v }
    else if name = b!"REQUEST_URI" then .ok { env with requestUri := v }
    else if name = b!"HTTP_ORIGIN" then .ok { env with origin := v }
    else .ok (otherStep env name v)
  | 12 =>
    if name = b!"HTTP_REFERER" then .ok { env with referer := v }
    else if name = b!"CONTENT_TYPE" then .ok (contentTypeStep env v)
    else if name = b!"QUERY_STRING" then do return { env with gets := ← decodeUrlEncoded v b!"&" env.gets }
    else .ok (otherStep env name v)
  | 13 =>
    if name = b!"DOCUMENT_ROOT" then .ok { env with root := v }
    else .ok (otherStep env name v)
  | 14 =>
    if name = b!"REQUEST_METHOD" then .ok { env with requestMethod := parseMethod v }
    else if name = b!"CONTENT_LENGTH" then do return { env with contentLength := toU32 (← atoi v after) }
    else .ok (otherStep env name v)
  | 15 =>
    if name = b!"HTTP_USER_AGENT" then .ok { env with userAgent := v }
    else if name = b!"HTTP_KEEP_ALIVE" then do return { env with keepAlive := toU32 (← atoi v after) }
    else .ok (otherStep env name v)
  | 18 =>
    if name = b!"HTTP_IF_NONE_MATCH" then do return { env with etag := toU32 (← atoi v after) }
    else if name = b!"HTTP_AUTHORIZATION" then .ok { env with authorization := v }
    else .ok (otherStep env name v)
  | 19 =>
    if name = b!"HTTP_ACCEPT_CHARSET" then .ok { env with acceptCharsets := v }
    else .ok (otherStep env name v)
  | 20 =>
    if name = b!"HTTP_ACCEPT_LANGUAGE" then do
      return { env with acceptLanguages := ← langLoop (v.length + 1) v env.acceptLanguages }
    else .ok (otherStep env name v)
  | 22 =>
    if name = b!"HTTP_IF_MODIFIED_SINCE" then .ok { env with ifModifiedSince := some v }
    else .ok (otherStep env name v)
  | _ => .ok (otherStep env name v)

/-- http.cpp 169-439 `Environment::fill(data, dataEnd)`: `obj` is the object `data` points into,
`dataEnd` an offset in it (the record's padding follows). -/
def fillLoop (obj : Bytes) (dataEnd : Nat) : (fuel : Nat) → (data : Nat) → Env → Res Env
  | 0, _, _ => .stuck
  | fuel+1, data, env => do
    match ← processParamHeader (obj.take dataEnd) data with
    | none => return env
    | some (name, value, end_) =>
      let env ← fillStep env (slice obj name value) (slice obj value end_) (obj.drop end_)
      fillLoop obj dataEnd fuel end_ env

def fill (obj : Bytes) (data dataEnd : Nat) (env : Env) : Res Env :=
  fillLoop obj dataEnd (dataEnd + 1) data env

/-- http.cpp 442-449 `fillPostBuffer` (the `reserve` is not represented). -/
def fillPostBuffer (env : Env) (d : Bytes) : Env := { env with postBuffer := env.postBuffer ++ d }

/-! ## Multipart -/

/-- http.cpp 505-512. -/
inductive MpMode where
  | header | name | filename | contentType | body
  deriving DecidableEq, Repr

/-- http.cpp 495-502: the parser's variables; positions equal to the buffer's length mean "unset". -/
structure MpState where
  byte : Nat
  mode : MpMode
  nameStart : Nat
  nameEnd : Nat
  filenameStart : Nat
  filenameEnd : Nat
  contentTypeStart : Nat
  contentTypeEnd : Nat
  bodyStart : Nat
  bodyEnd : Nat
  posts : List (Bytes × Bytes)
  files : List (Bytes × File)
  deriving DecidableEq, Repr

/-- The cleared positions (http.cpp 495-502 and 630-638). -/
def MpState.cleared (len byte : Nat) (posts : List (Bytes × Bytes)) (files : List (Bytes × File)) : MpState :=
  ⟨byte, .header, len, len, len, len, len, len, len, len, posts, files⟩

/-- `bytesLeft >= pat.size() && std::equal(pat.begin(), pat.end(), byte)` (http.cpp 520-553, 597-600);
`std::equal` reads at most `pat.size()` bytes, all inside the buffer. -/
def matchAt (b pat : Bytes) (i : Nat) : Bool :=
  decide (pat.length ≤ b.length - i) && (slice b i (i + pat.length) == pat)

/-- http.cpp 516-559, state HEADER (without the final `++byte`). -/
def mpHeader (b : Bytes) (s : MpState) : MpState :=
  let len := b.length
  if s.nameEnd = len ∧ matchAt b b!"name=\"" s.byte then
    { s with byte := s.byte + 5, nameStart := s.byte + 6, mode := .name }
  else if s.filenameEnd = len ∧ matchAt b b!"filename=\"" s.byte then
    { s with byte := s.byte + 9, filenameStart := s.byte + 10, mode := .filename }
  else if s.contentTypeEnd = len ∧ matchAt b b!"Content-Type: " s.byte then
    { s with byte := s.byte + 13, contentTypeStart := s.byte + 14, mode := .contentType }
  else if s.bodyEnd = len ∧ matchAt b b!"\r\n\r\n" s.byte then
    { s with byte := s.byte + 3, bodyStart := s.byte + 4, mode := .body }
  else s

/-- http.cpp 601-609: where the body ends. -/
def mpBodyEnd (b : Bytes) (s : MpState) : Res Nat :=
  if s.byte < 2 then .ub .badRange
  else
    let bodyEnd := s.byte - 2
    if bodyEnd < s.bodyStart then .ok s.bodyStart
    else if bodyEnd - s.bodyStart ≥ 2 then do
      let c1 ← rd b (bodyEnd - 1)
      let c2 ← rd b (bodyEnd - 2)
      return (if c1 = 10 ∧ c2 = 13 then bodyEnd - 2 else bodyEnd)
    else .ok bodyEnd

/-- A string copied from `[i, j)`; a reversed range is undefined. -/
def range (b : Bytes) (i j : Nat) : Res Bytes :=
  if i ≤ j ∧ j ≤ b.length then .ok (slice b i j) else .ub .badRange

/-- http.cpp 611-638: a part is complete. -/
def mpPart (b : Bytes) (s : MpState) (bodyEnd : Nat) : Res MpState :=
  let len := b.length
  if s.nameEnd ≠ len then do
    let name ← range b s.nameStart s.nameEnd
    if s.contentTypeEnd ≠ len then
      let contentType ← range b s.contentTypeStart s.contentTypeEnd
      let filename ← if s.filenameEnd ≠ len then range b s.filenameStart s.filenameEnd else .ok []
      let data ← range b s.bodyStart bodyEnd
      return .cleared len s.byte s.posts (s.files ++ [(name, ⟨filename, contentType, data⟩)])
    else
      let value ← range b s.bodyStart bodyEnd
      return .cleared len s.byte (s.posts ++ [(name, value)]) s.files
  else .ok (.cleared len s.byte s.posts s.files)

/-- http.cpp 516-656: one iteration, including the `++byte`. -/
def mpStep (b boundary : Bytes) (s : MpState) : Res MpState :=
  let next (s : MpState) : MpState := { s with byte := s.byte + 1 }
  match s.mode with
  | .header => .ok (next (mpHeader b s))
  | .name => do
    let c ← rd b s.byte
    return next (if c = 34 then { s with nameEnd := s.byte, mode := .header } else s)
  | .filename => do
    let c ← rd b s.byte
    return next (if c = 34 then { s with filenameEnd := s.byte, mode := .header } else s)
  | .contentType => do
    let c ← rd b s.byte
    -- `byte--` and the loop's `++byte` cancel
    return (if c = 13 ∨ c = 10 then { s with contentTypeEnd := s.byte, mode := .header } else next s)
  | .body =>
    if matchAt b boundary s.byte then do
      let bodyEnd ← mpBodyEnd b s
      return next (← mpPart b s bodyEnd)
    else .ok (next s)

/-- http.cpp 514-657: the loop. -/
def mpLoop (b boundary : Bytes) : (fuel : Nat) → MpState → Res MpState
  | 0, _ => .stuck
  | fuel+1, s =>
    if s.byte < b.length then do mpLoop b boundary fuel (← mpStep b boundary s)
    else .ok s

/-- http.cpp 485-659 `parsePostsMultipart`. -/
def parsePostsMultipart (env : Env) : Res Env := do
  let b := env.postBuffer
  let s ← mpLoop b env.boundary (2 * b.length + 2) (.cleared b.length 0 env.posts env.files)
  return { env with posts := s.posts, files := s.files }

/-- http.cpp 452-482 `parsePostBuffer`, with 661-668 `parsePostsUrlEncoded`. -/
def parsePostBuffer (env : Env) : Res (Env × Bool) :=
  if env.postBuffer.length = 0 then .ok (env, true)
  else if env.contentType = b!"multipart/form-data" then do return (← parsePostsMultipart env, true)
  else if env.contentType = b!"application/x-www-form-urlencoded" then do
    return ({ env with posts := ← decodeUrlEncoded env.postBuffer b!"&" env.posts }, true)
  else .ok (env, false)

end Fcgi.Model
