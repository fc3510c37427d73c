import Verif.Spec.SqlStatus
/-! # Model of what `Results_base` tells about a result (src/results.cpp 430-512)

`m_res` is the result or a null pointer.  Of libpq: with a null pointer `PQntuples` and `PQnfields` are 0, `PQcmdTuples` is "", `PQgetisnull` is 1;
`PQcmdTuples` is the decimal count, or "" if the command does not count rows; `PQgetisnull` is 1 for a row or column the result does not have. -/
namespace Fcgi.Model
open Fcgi.Spec

/-- results.cpp 432-443: the map `statuses`. -/
def statusTable : List (PgStatus × SqlStatus) :=
  [(.emptyQuery, .emptyQuery), (.commandOk, .commandOk), (.tuplesOk, .rowsOk), (.copyOut, .copyOut), (.copyIn, .copyIn),
   (.badResponse, .badResponse), (.nonfatalError, .nonfatalError), (.copyBoth, .copyBoth), (.singleTuple, .singleTuple)]

/-- results.cpp 430-455 `status()` -/
def sqlStatus (res : Option PgResult) : SqlStatus :=
  match res with
  | none => .noResult
  | some r => (statusTable.lookup r.status).getD .fatalError

/-- libpq `PQcmdTuples` -/
def cmdTuples : Option PgResult → Bytes
  | some r => match r.affected with
    | some n => countText n
    | none => []
  | none => []

/-- `std::atoi` of a text of digits (library): the value so far; the behaviour is undefined if the result is no `int` (C11 7.22.1). -/
def atoiCount (text : Bytes) : Res Int :=
  let n : Nat := text.foldl (fun n c => n * 10 + (c.toNat - 48)) 0
  if n < 2^31 then .ok (n : Int) else .ub .signedOverflow

/-- results.cpp 457-460 `affectedRows()`: the `int` is converted to `unsigned`. -/
def affectedRows (res : Option PgResult) : Res Nat := do
  let n ← atoiCount (cmdTuples res)
  return (n % 2^32).toNat

/-- libpq `PQntuples` -/
def ntuples : Option PgResult → Int
  | some r => r.rows
  | none => 0
/-- libpq `PQnfields` -/
def nfields : Option PgResult → Int
  | some r => r.columns
  | none => 0

/-- results.cpp 473-476 `rows()`: an `int` converted to `unsigned`. -/
def sqlRows (res : Option PgResult) : Nat := (ntuples res % 2^32).toNat
/-- results.cpp 486-489 `columns()` -/
def sqlColumns (res : Option PgResult) : Int := nfields res

/-- libpq `PQgetisnull` -/
def getisnull (res : Option PgResult) (row column : Int) : Int :=
  match res with
  | none => 1
  | some r =>
    if 0 ≤ row ∧ row < r.rows ∧ 0 ≤ column ∧ column < r.columns then
      match r.cell row.toNat column.toNat with
      | none => 1
      | some _ => 0
    else 1

/-- results.cpp 478-484 `null(row, column)` -/
def sqlNull (res : Option PgResult) (row column : Int) : Bool := getisnull res row column ≠ 0

/-- results.hpp 240-252 `verify()` of `Results<>` -/
def verifyNone (res : Option PgResult) : Int := if sqlColumns res = 0 ∧ sqlRows res = 0 then 0 else -1

/-- results.cpp 491-512 `statusString`: the map and the look-up. -/
def statusNames : List (SqlStatus × Bytes) :=
  [(.noResult, b!"No Result"), (.emptyQuery, b!"Empty Query"), (.commandOk, b!"Command OK"), (.rowsOk, b!"Rows OK"), (.copyOut, b!"Copy Out"),
   (.copyIn, b!"Copy In"), (.badResponse, b!"Bad Response"), (.nonfatalError, b!"Non-fatal Error"), (.copyBoth, b!"Copy Both"),
   (.singleTuple, b!"Single Tuple"), (.fatalError, b!"Fatal Error")]

def statusString (s : SqlStatus) : Bytes := (statusNames.lookup s).getD ((statusNames.lookup .fatalError).getD [])

end Fcgi.Model
