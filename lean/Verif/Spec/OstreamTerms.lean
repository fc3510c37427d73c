import Verif.Model.Ostream
import Verif.Spec.Wire
/-! # Specification: the words of the theorems about whole output streams -/
namespace Fcgi.Model
open Fcgi Fcgi.Spec
variable {α : Type}

/-- The contents of the records of one type. -/
def contents (t : UInt8) (rs : List Record) : Bytes := (rs.filter (·.type = t)).flatMap Record.content

/-- The operations on one of the two streams. -/
def opsOn (err : Bool) (ops : List (Bool × OOp α)) : List (OOp α) := (ops.filter (·.1 = err)).map Prod.snd

/-- The stream that is used. -/
def ReqStreams.which {α} (r : ReqStreams α) (err : Bool) : Ostr α := if err then r.err else r.out

end Fcgi.Model
