import Verif.Spec.EndToEnd
/-! # Specification: requests that the library refuses by itself (for C151) -/
namespace Fcgi.Spec
open Fcgi.Model

/-- The request that BEGIN_REQUEST record `b`, the variables `nvs` and the bytes `body` make is refused with the status line `page` and the
protocol status `status`, where `max` is the greatest size of a body that the application allows. -/
inductive Refusal (max : Nat) (b : Record) (nvs : List (Bytes × Bytes)) (body : Bytes) : Bytes → UInt8 → Prop
  /-- neither a responder nor an authorizer is asked for -/
  | role (h : b.role ≠ 1 ∧ b.role ≠ 2) : Refusal max b nvs body b!"500 Internal Server Error" 3
  /-- the length announced is above the limit -/
  | announced {v n} (h : b.role = 1 ∨ b.role = 2) (told : lastValue b!"CONTENT_LENGTH" nvs = some v) (num : IsDecimal v n) (int : n ≤ 2147483647)
      (big : max < n) : Refusal max b nvs body b!"413 Request Entity Too Large" 0
  /-- more comes than was announced -/
  | excess {n} (h : b.role = 1 ∨ b.role = 2) (told : LengthTold nvs n) (int : n ≤ 2147483647) (ok : n ≤ max) (more : n < body.length) :
      Refusal max b nvs body b!"413 Request Entity Too Large" 0
  /-- a body that is not a form -/
  | content (h : b.role = 1 ∨ b.role = 2) (told : LengthTold nvs body.length) (int : body.length ≤ 2147483647) (ok : body.length ≤ max) (some_ : body ≠ [])
      (type : ∀ t, lastValue b!"CONTENT_TYPE" nvs = some t → t.takeWhile (· ≠ 59) ≠ b!"multipart/form-data" ∧
        t.takeWhile (· ≠ 59) ≠ b!"application/x-www-form-urlencoded") : Refusal max b nvs body b!"415 Unsupported Media Type" 0

end Fcgi.Spec
