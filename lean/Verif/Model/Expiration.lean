import Verif.Model.Session
/-! # Model of the expiration text of a session store (include/fastcgi++/http.hpp 535-541, 596-599, 735-747)

The library: `gmtime` of POSIX, and `strftime` with the names of the global C locale. -/
namespace Fcgi.Model

/-- The abbreviated names of the global C locale (`LC_TIME`): days from Sunday, months. -/
structure TimeNames where
  days : List Bytes
  months : List Bytes

/-- `struct tm`; the year in full, the month from 0, days of the week from Sunday. -/
structure BrokenTime where
  sec : Nat
  min : Nat
  hour : Nat
  mday : Nat
  mon : Nat
  year : Nat
  wday : Nat
  deriving DecidableEq, Repr

def yearLength (y : Nat) : Nat := if y % 4 = 0 ∧ (y % 100 ≠ 0 ∨ y % 400 = 0) then 366 else 365

/-- The year and the day in it, counting days from the beginning of year `y`.  (The library counts faster.) -/
def yearOfDay : (fuel : Nat) → (days y : Nat) → Nat × Nat
  | 0, days, y => (y, days)
  | fuel + 1, days, y => if days < yearLength y then (y, days) else yearOfDay fuel (days - yearLength y) (y + 1)

/-- The month and the day in it (from 1). -/
def monthOfDay : (lengths : List Nat) → (days mon : Nat) → Nat × Nat
  | [], days, mon => (mon, days + 1)
  | n :: ls, days, mon => if days < n then (mon, days + 1) else monthOfDay ls (days - n) (mon + 1)

/-- `gmtime`, for times since 1970. -/
def gmtime (t : Nat) : BrokenTime :=
  let days := t / 86400
  let rest := t % 86400
  let y := yearOfDay (days + 1) days 1970
  let m := monthOfDay [31, yearLength y.1 - 337, 31, 30, 31, 30, 31, 31, 30, 31, 30, 31] y.2 0
  ⟨rest % 60, rest / 60 % 60, rest / 3600, m.2, m.1, y.1, (4 + days) % 7⟩

/-- A number in decimal. -/
def decimalText : (fuel : Nat) → Nat → Bytes
  | 0, _ => []
  | fuel + 1, n => if n < 10 then [UInt8.ofNat (48 + n)] else decimalText fuel (n / 10) ++ [UInt8.ofNat (48 + n % 10)]

/-- `%d`, `%H`, `%M`, `%S`: two digits. -/
def twoDigits (n : Nat) : Bytes := [UInt8.ofNat (48 + n / 10), UInt8.ofNat (48 + n % 10)]

/-- `strftime(s, max, "%a, %d %b %Y %H:%M:%S GMT", tm)`: the characters counted by the result, which is 0 if they and the
terminating zero do not fit. -/
def strftime (names : TimeNames) (max : Nat) (tm : BrokenTime) : Bytes :=
  let text := names.days.getD tm.wday [] ++ b!", " ++ twoDigits tm.mday ++ b!" " ++ names.months.getD tm.mon [] ++ b!" " ++
    decimalText 20 tm.year ++ b!" " ++ twoDigits tm.hour ++ b!":" ++ twoDigits tm.min ++ b!":" ++ twoDigits tm.sec ++ b!" GMT"
  if text.length + 1 ≤ max then text else []

/-- http.hpp 535-541: the two texts and which of them the pointer points to; `none` before it is set. -/
structure ExpText where
  first : Bytes
  second : Bytes
  atFirst : Option Bool

/-- http.hpp 536 `expirationLength` -/
def expirationLength : Nat := 30

/-- http.hpp 735-747 `setExpiration`: into the other text.  `junk`: what comparing the pointer with the first text gives before it has been
set (http.hpp 553-558 do not initialise it). -/
def ExpText.set (names : TimeNames) (junk : Bool) (x : ExpText) (expirationTime : Int) : ExpText :=
  let text := strftime names expirationLength (gmtime expirationTime.toNat)
  let buffer := text ++ List.replicate (expirationLength - text.length) 0
  if x.atFirst.getD junk then { x with second := buffer, atFirst := some false } else { x with first := buffer, atFirst := some true }

/-- http.hpp 596-599 `expiration()`, as the text up to the terminating zero. -/
def ExpText.offered (x : ExpText) : Option Bytes :=
  match x.atFirst with
  | none => none
  | some b =>
    let buffer := if b then x.first else x.second
    if (0 : UInt8) ∈ buffer then some (buffer.takeWhile (· ≠ 0)) else none

/-- http.hpp 553-558: the constructor; the memory of the texts is uninitialised. -/
def newStore {T} (names : TimeNames) (junk : Bool) (first second : Bytes) (keepAlive : Nat) (now : Int) : Sessions T × ExpText :=
  let s : Sessions T := newSessions keepAlive now
  (s, ExpText.set names junk ⟨first, second, none⟩ (s.cleanupTime + s.keepAlive))

/-- A call on the store with its texts; http.hpp 707-719: `get` sets the text when it cleans up. -/
def storeCall {T} (names : TimeNames) (junk : Bool) (st : Sessions T × ExpText) : SessionCall T → Res (Sessions T × ExpText)
  | .generate d draws => do
    let r ← st.1.generate d draws
    return (r.1, st.2)
  | .get id now t1 t2 =>
    .ok ((st.1.get id now t1 t2).1, if now ≥ st.1.cleanupTime then st.2.set names junk (t1 + st.1.keepAlive + st.1.keepAlive) else st.2)
  | .erase id => .ok (st.1.erase id, st.2)

/-- Any calls, one after the other (all but `size` and `expiration` hold the mutex). -/
def storeRun {T} (names : TimeNames) (junk : Bool) : Sessions T × ExpText → List (SessionCall T) → Res (Sessions T × ExpText)
  | st, [] => .ok st
  | st, c :: cs => do storeRun names junk (← storeCall names junk st c) cs

end Fcgi.Model
