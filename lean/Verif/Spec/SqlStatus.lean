import Verif.Base
/-! # What a result says about itself, as PostgreSQL's client library has it -/
namespace Fcgi.Spec

/-- `ExecStatusType` of libpq-fe.h, in order (0 to 12). -/
inductive PgStatus where
  | emptyQuery | commandOk | tuplesOk | copyOut | copyIn | badResponse | nonfatalError | fatalError | copyBoth | singleTuple
  | pipelineSync | pipelineAborted | tuplesChunk
  deriving DecidableEq

/-- A cell of a result is a value or NULL. -/
abbrev PgCell := Option Bytes

/-- A result: `PQresultStatus`, the number of rows and columns, the cells, and for a command that counts rows (INSERT, UPDATE, ...), the number of rows affected;
the server counts with 64 bits. -/
structure PgResult where
  status : PgStatus
  rows : Nat
  columns : Nat
  cell : Nat → Nat → PgCell
  affected : Option Nat

/-- libpq counts rows and columns with an `int`. -/
def PgResult.Valid (r : PgResult) : Prop := r.rows < 2^31 ∧ r.columns < 2^31 ∧ ∀ n, r.affected = some n → n < 2^64

/-- `Status` of results.hpp 45-58: the names. -/
inductive SqlStatus where
  | noResult | emptyQuery | commandOk | rowsOk | copyOut | copyIn | badResponse | nonfatalError | fatalError | copyBoth | singleTuple
  deriving DecidableEq

/-- The name that means the same. The modes that came with PostgreSQL 14 and 17 have none. -/
def SqlStatus.means : SqlStatus → Option PgStatus
  | .noResult => none
  | .emptyQuery => some .emptyQuery
  | .commandOk => some .commandOk
  | .rowsOk => some .tuplesOk
  | .copyOut => some .copyOut
  | .copyIn => some .copyIn
  | .badResponse => some .badResponse
  | .nonfatalError => some .nonfatalError
  | .fatalError => some .fatalError
  | .copyBoth => some .copyBoth
  | .singleTuple => some .singleTuple

def PgStatus.later : PgStatus → Bool
  | .pipelineSync | .pipelineAborted | .tuplesChunk => true
  | _ => false

/-- Decimal digits of a number, without leading zeros. -/
def countText (n : Nat) : Bytes :=
  if n < 10 then [UInt8.ofNat (48 + n)] else countText (n / 10) ++ [UInt8.ofNat (48 + n % 10)]

end Fcgi.Spec
