import Verif.Model.Email
import Verif.Spec.CurlSettings
/-! # Model of the settings of a `Curl` object (include/fastcgi++/curl.hpp 187-213, src/curl.cpp 97-196)

Of libcurl: `curl_easy_setopt` copies the URL; `CURLOPT_HTTPHEADER` keeps the pointer to the list; `curl_easy_reset` sets everything to its default (both verifications on, no
URL, no headers); `CURLOPT_SSL_VERIFYHOST` with the value 1 means full verification since version 7.66.0, and from 7.28.1 to 7.65.3 it is an error that leaves the setting alone. -/
namespace Fcgi.Model
open Fcgi.Spec

/-- What a C function takes from `c_str()`. -/
def cstr (t : Bytes) : Bytes := t.takeWhile (· ≠ 0)

/-- `m_handle` and `m_headers` (curl.hpp 112-116). `list`: the option `CURLOPT_HTTPHEADER` is set (to `m_headers`, whose head never changes). -/
structure CurlConf where
  url : Option Bytes
  peer : Bool
  host : Bool
  list : Bool
  headers : List Bytes
  deriving DecidableEq

/-- curl.cpp 198-205: `curl_easy_init`. -/
def CurlConf.fresh : CurlConf := ⟨none, true, true, false, []⟩

/-- curl.cpp 97-102 -/
def CurlConf.setUrl (c : CurlConf) (t : Bytes) : CurlConf := { c with url := some (cstr t) }
/-- curl.cpp 140-144 -/
def CurlConf.addHeader (c : CurlConf) (t : Bytes) : CurlConf := { c with headers := c.headers ++ [cstr t] }
/-- curl.cpp 112-125. `one`: whether this libcurl takes 1 for `CURLOPT_SSL_VERIFYHOST`. -/
def CurlConf.verifySSL (one : Bool) (c : CurlConf) (on : Bool) : CurlConf :=
  if on then { c with peer := true, host := if one then true else c.host } else { c with peer := false, host := false }
/-- curl.cpp 191-196 -/
def CurlConf.reset (c : CurlConf) : CurlConf := { CurlConf.fresh with headers := c.headers }
/-- curl.cpp 178-181, of `prepare` -/
def CurlConf.prepare (c : CurlConf) : CurlConf := if c.headers = [] then c else { c with list := true }

/-- The calls; curl.cpp 127-138 and 146-157 for wide strings: one that cannot be converted is a warning in the log. -/
def CurlConf.call (one : Bool) (c : CurlConf) : CurlCall → CurlConf
  | .url t => c.setUrl t
  | .wideUrl t => match utf8Out t with | some b => c.setUrl b | none => c
  | .header t => c.addHeader t
  | .wideHeader t => match utf8Out t with | some b => c.addHeader b | none => c
  | .verifySSL on => c.verifySSL one on
  | .reset => c.reset
  | .queued => c.prepare

def CurlConf.calls (one : Bool) (c : CurlConf) (h : List CurlCall) : CurlConf := h.foldl (·.call one) c

/-- What libcurl does with the handle. -/
def CurlConf.request (c : CurlConf) : CurlRequest := ⟨c.url, if c.list then c.headers else [], c.peer, c.host⟩

end Fcgi.Model
