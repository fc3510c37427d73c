import Verif.Model.Address
import Verif.Spec.Address
/-! # Specification: the words of the theorems about printed addresses -/
namespace Fcgi.Model
open Fcgi Fcgi.Spec

/-- The format has neither a base prefix nor thousands separators. -/
def NumFmt.plain (f : NumFmt) : Prop := f.showbase = false ∧ f.sep = none

end Fcgi.Model
