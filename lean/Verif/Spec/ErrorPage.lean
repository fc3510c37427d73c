import Verif.Spec.Request
/-! # Specification: the answer to a request that is refused (RFC 3875 section 6: header fields, a blank line, the body) -/
namespace Fcgi.Spec

/-- The end of a line. -/
def Eol (e : Bytes) : Prop := e = [10] ∨ e = [13, 10]

/-- `IsResponse fields body b`: the bytes are a CGI response with these header fields and this body. -/
inductive IsResponse : List (Bytes × Bytes) → Bytes → Bytes → Prop where
  | blank (eol body : Bytes) : Eol eol → IsResponse [] body (eol ++ body)
  | field (name value eol rest : Bytes) (fields : List (Bytes × Bytes)) (body : Bytes) :
      name ≠ [] → (∀ c ∈ name, c ≠ 10 ∧ c ≠ 13 ∧ c ≠ 58) → (∀ c ∈ value, c ≠ 10 ∧ c ≠ 13) → Eol eol → IsResponse fields body rest →
      IsResponse ((name, value) :: fields) body (name ++ [58, 32] ++ value ++ eol ++ rest)

/-- An HTML element. -/
def element (tag attributes inner : Bytes) : Bytes := b!"<" ++ tag ++ attributes ++ b!">" ++ inner ++ b!"</" ++ tag ++ b!">"

/-- A page that says one thing. -/
def shortPage (text : Bytes) : Bytes :=
  b!"<!DOCTYPE html>" ++ element b!"html" b!" lang='en'"
    (element b!"head" [] (element b!"title" [] text) ++ element b!"body" [] (element b!"h1" [] text))

/-- A response with this status, and a page saying so. -/
def ErrorAnswer (status content : Bytes) : Prop :=
  IsResponse [(b!"Status", status), (b!"Content-Type", b!"text/html; charset=utf-8")] (shortPage status) content

/-- What the web server is sent for a request that is refused (each entry: connection, record, whether to close the connection): records of
standard output whose contents make an `ErrorAnswer`, and the END_REQUEST record.  Nothing on standard error. -/
def RefusedAnswer (sock id : Nat) (kill : Bool) (protocolStatus : UInt8) (status : Bytes) (sent : List (Nat × Bytes × Bool)) : Prop :=
  ∃ rs : List Record, ∃ end_ : Bytes, sent = rs.map (fun x => (sock, x.bytes, false)) ++ [(sock, end_, kill)] ∧
    (∀ x ∈ rs, x.version = 1 ∧ x.type = 6 ∧ x.id = id ∧ x.WF ∧ x.content ≠ []) ∧
    ErrorAnswer status (rs.flatMap Record.content) ∧ IsEndRequest id protocolStatus end_

end Fcgi.Spec
