import Verif.Model.Http
/-! # Model of the date of If-Modified-Since (src/http.cpp 407-421)

The library: `std::get_time` in the C locale and `mktime` of POSIX. -/
namespace Fcgi.Model

/-- `struct tm`, as far as `mktime` looks at it; `year` from 1900, `mon` from 0. -/
structure Tm where
  sec : Int := 0
  min : Int := 0
  hour : Int := 0
  mday : Int := 0
  mon : Int := 0
  year : Int := 0
  deriving DecidableEq, Repr

def dayNames : List Bytes := [b!"Sun", b!"Mon", b!"Tue", b!"Wed", b!"Thu", b!"Fri", b!"Sat"]

def monthNames : List Bytes :=
  [b!"Jan", b!"Feb", b!"Mar", b!"Apr", b!"May", b!"Jun", b!"Jul", b!"Aug", b!"Sep", b!"Oct", b!"Nov", b!"Dec"]

/-- One of the names: which, and the rest.  (Simplified: as it is, not in full and not in other cases.) -/
def readName (names : List Bytes) (s : Bytes) : Option (Nat × Bytes) :=
  if s.take 3 ∈ names then some (names.idxOf (s.take 3), s.drop 3) else none

/-- A number of `len` digits from `lo` to `hi`.  (Simplified: with fewer digits it fails.) -/
def readNum (len lo hi : Nat) (s : Bytes) : Option (Nat × Bytes) :=
  let d := s.take len
  if d.length = len ∧ d.all (fun c => 48 ≤ c ∧ c ≤ 57) then
    let n := d.foldl (fun n c => 10 * n + (c.toNat - 48)) 0
    if lo ≤ n ∧ n ≤ hi then some (n, s.drop len) else none
  else none

/-- A blank in the format: any number of them in the text. -/
def skipSpaces (s : Bytes) : Bytes := s.dropWhile (fun c => c = 32 ∨ (9 ≤ c ∧ c ≤ 13))

/-- Any other character in the format. -/
def readChar (c : Byte) : Bytes → Option Bytes
  | x :: s => if x = c then some s else none
  | [] => none

/-- `>> std::get_time(&time, "%a, %d %b %Y %H:%M:%S GMT")`: what has been read when something does not fit stays. -/
def getTime (t : Tm) (s : Bytes) : Tm :=
  match readName dayNames s with
  | none => t
  | some (_, s) =>
  match readChar 44 s with
  | none => t
  | some s =>
  match readNum 2 1 31 (skipSpaces s) with
  | none => t
  | some (d, s) =>
  let t := { t with mday := d }
  match readName monthNames (skipSpaces s) with
  | none => t
  | some (m, s) =>
  let t := { t with mon := m }
  match readNum 4 0 9999 (skipSpaces s) with
  | none => t
  | some (y, s) =>
  let t := { t with year := (y : Int) - 1900 }
  match readNum 2 0 23 (skipSpaces s) with
  | none => t
  | some (h, s) =>
  let t := { t with hour := h }
  match readChar 58 s with
  | none => t
  | some s =>
  match readNum 2 0 59 s with
  | none => t
  | some (m, s) =>
  let t := { t with min := m }
  match readChar 58 s with
  | none => t
  | some s =>
  match readNum 2 0 60 s with
  | none => t
  | some (n, _) => { t with sec := n }

/-- The day of the year on which a month begins. -/
def monYday (year : Int) (mon : Int) : Int :=
  let y := year + 1900
  let leap := if y % 4 = 0 ∧ (y % 100 ≠ 0 ∨ y % 400 = 0) then 1 else 0
  match mon with
  | 0 => 0 | 1 => 31 | 2 => 59 + leap | 3 => 90 + leap | 4 => 120 + leap | 5 => 151 + leap | 6 => 181 + leap
  | 7 => 212 + leap | 8 => 243 + leap | 9 => 273 + leap | 10 => 304 + leap | _ => 334 + leap

/-- Seconds since the Epoch (POSIX 4.16), for months 0 to 11; `/` rounds down. -/
def epochSeconds (t : Tm) : Int :=
  let yday := monYday t.year t.mon + t.mday - 1
  t.sec + t.min * 60 + t.hour * 3600 + yday * 86400 + (t.year - 70) * 31536000 +
    ((t.year - 69) / 4) * 86400 - ((t.year - 1) / 100) * 86400 + ((t.year + 299) / 400) * 86400

/-- The time zone of the program: how many seconds west of Greenwich its standard time is at a given time (`tm_isdst` is zero), what the
variable `timezone` contains, and what it contains before the first call that sets it (if there has been none); whether
`timezone` is read before the call of `mktime` in the same expression. -/
structure Zone where
  west : Int → Int
  timezone : Int
  isSet : Bool := true
  readFirst : Bool := false

/-- `mktime` -/
def mktime (z : Zone) (t : Tm) : Int := epochSeconds t + z.west (epochSeconds t)

/-- http.cpp 410-420: `std::mktime(&time) - timezone` -/
def ifModifiedOf (z : Zone) (value : Bytes) : Int :=
  mktime z (getTime {} value) - (if z.readFirst ∧ ¬ z.isSet then 0 else z.timezone)

/-- The member `ifModifiedSince` (http.hpp 189, 272): the environment keeps the text of the parameter (Model/Http). -/
def Env.modifiedSince (z : Zone) (env : Env) : Int :=
  match env.ifModifiedSince with
  | none => 0
  | some v => ifModifiedOf z v

end Fcgi.Model
