import Verif.Spec.HttpWide
/-! # What a program asks of the HTTP client, before the request is sent -/
namespace Fcgi.Spec

/-- Calls on a `Curl` object. -/
inductive CurlCall where
  | url (t : Bytes)
  | wideUrl (t : List UInt32)
  | header (t : Bytes)
  | wideHeader (t : List UInt32)
  | verifySSL (on : Bool)
  | reset
  /-- given to a `Curler` -/
  | queued
  deriving DecidableEq

/-- What libcurl is to do: the URL, the additional header fields, whether the certificate of the server is to be verified, and whether its name is compared with that of the host. -/
structure CurlRequest where
  url : Option Bytes
  headers : List Bytes
  peer : Bool
  host : Bool
  deriving DecidableEq

/-- The URL set last, if any since the last `reset()`. The history is given latest call first. -/
def urlWanted : List CurlCall → Option Bytes
  | [] => none
  | .url t :: _ => some t
  | .wideUrl t :: _ => some (utf8Text t)
  | .reset :: _ => none
  | _ :: h => urlWanted h

/-- Servers are verified unless the last word was `verifySSL(false)`. -/
def verifyWanted : List CurlCall → Bool
  | [] => true
  | .verifySSL on :: _ => on
  | .reset :: _ => true
  | _ :: h => verifyWanted h

/-- The header fields added, in order. -/
def headersWanted (h : List CurlCall) : List Bytes :=
  h.reverse.filterMap fun c => match c with | .header t => some t | .wideHeader t => some (utf8Text t) | _ => none

/-- Texts that can be given to C functions: Unicode, and without the character 0. -/
def CurlCall.Plain : CurlCall → Prop
  | .url t | .header t => (0 : Byte) ∉ t
  | .wideUrl t | .wideHeader t => IsText t ∧ (0 : UInt32) ∉ t
  | _ => True

end Fcgi.Spec
