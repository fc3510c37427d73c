import Verif.Model.Sockets
/-! # Specification: the words of the theorems about sockets -/
namespace Fcgi.Model
open Fcgi.Spec

/-- Not an operation in which `m_poll.add` fails. -/
def SkOp.fine : SkOp → Prop
  | .accept _ added => added = true
  | .connect _ added _ => added = true
  | _ => True

inductive SkRunF : SkSt → List SEvent → SkSt → Prop where
  | refl (s) : SkRunF s [] s
  | step {s tr s' es v s''} (run : SkRunF s tr s') (o : SkOp) (ho : o.fine) (h : skStep o s' = some (es, v, s'')) : SkRunF s (tr ++ es) s''

end Fcgi.Model
