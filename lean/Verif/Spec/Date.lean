import Verif.Base
/-! # Dates and times of the Gregorian calendar, and their text in HTTP (RFC 7231 section 7.1.1.1) -/
namespace Fcgi.Spec

def isLeap (y : Nat) : Bool := y % 4 = 0 ∧ (y % 100 ≠ 0 ∨ y % 400 = 0)

/-- How long the months of a year are. -/
def monthDays (y : Nat) : List Nat := [31, if isLeap y then 29 else 28, 31, 30, 31, 30, 31, 31, 30, 31, 30, 31]

/-- The days from the beginning of the year 0 to the beginning of the year `y`, year by year. -/
def daysBefore : Nat → Nat
  | 0 => 0
  | y + 1 => daysBefore y + (monthDays y).sum

/-- A point in time, in UTC; months and days count from 1. -/
structure Date where
  year : Nat
  month : Nat
  day : Nat
  hour : Nat
  minute : Nat
  second : Nat

/-- The day's number, the first day of the year 0 being 0. -/
def dayNumber (y m d : Nat) : Nat := daysBefore y + ((monthDays y).take (m - 1)).sum + (d - 1)

/-- Seconds since 1 January 1970. -/
def Date.stamp (d : Date) : Int :=
  ((dayNumber d.year d.month d.day : Nat) - (dayNumber 1970 1 1 : Nat) : Int) * 86400 + d.hour * 3600 + d.minute * 60 + d.second

/-- A date that exists, with a year of four digits; a minute may have a leap second. -/
structure Date.Valid (d : Date) : Prop where
  year : d.year ≤ 9999
  month : 1 ≤ d.month ∧ d.month ≤ 12
  day : 1 ≤ d.day ∧ ∃ n, (monthDays d.year)[d.month - 1]? = some n ∧ d.day ≤ n
  hour : d.hour < 24
  minute : d.minute < 60
  second : d.second ≤ 60

/-- A number in so many decimal digits. -/
def digits (len n : Nat) : Bytes := (List.range len).map fun i => UInt8.ofNat (48 + n / 10 ^ (len - 1 - i) % 10)

def months : List Bytes :=
  [b!"Jan", b!"Feb", b!"Mar", b!"Apr", b!"May", b!"Jun", b!"Jul", b!"Aug", b!"Sep", b!"Oct", b!"Nov", b!"Dec"]

def weekdays : List Bytes := [b!"Sat", b!"Sun", b!"Mon", b!"Tue", b!"Wed", b!"Thu", b!"Fri"]

/-- The name of the day of the week (1 January of the year 0 was a Saturday). -/
def Date.weekday (d : Date) : Bytes := weekdays.getD (dayNumber d.year d.month d.day % 7) []

/-- `Sun, 06 Nov 1994 08:49:37 GMT` -/
def Date.text (d : Date) : Bytes :=
  d.weekday ++ b!", " ++ digits 2 d.day ++ b!" " ++ months.getD (d.month - 1) [] ++ b!" " ++ digits 4 d.year ++ b!" " ++
    digits 2 d.hour ++ b!":" ++ digits 2 d.minute ++ b!":" ++ digits 2 d.second ++ b!" GMT"

end Fcgi.Spec
