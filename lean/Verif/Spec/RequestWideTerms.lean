import Verif.Model.RequestWide
import Verif.Spec.RequestPort
import Verif.Spec.RequestTerms
/-! # Specification: the words of the theorems about a request (Request<wchar_t>) -/
namespace Fcgi.Model
open Fcgi Fcgi.Spec

def writesW (err : Bool) : List EvW → List (SOp UInt32)
  | [] => []
  | .write e op :: l => if e = err then op :: writesW err l else writesW err l
  | _ :: l => writesW err l

def sentOfW : List EvW → List (Nat × Bytes × Bool)
  | [] => []
  | .sent s r k :: l => (s, r, k) :: sentOfW l
  | _ :: l => sentOfW l

def callsOfW : List EvW → List CallW
  | [] => []
  | .call c :: l => c :: callsOfW l
  | _ :: l => callsOfW l

/-- HandlersW that leave the announced length and the raw data alone. -/
structure TameW {U} (h : HandlersW U) : Prop where
  inHandler : ∀ u e n, (h.inHandler u e n).env.contentLength = e.contentLength ∧ (h.inHandler u e n).env.postBuffer = e.postBuffer
  response : ∀ u e m, (h.response u e m).1.env.contentLength = e.contentLength ∧ (h.response u e m).1.env.postBuffer = e.postBuffer

structure SameReq {U V} (R : U → V → Prop) (r : Req U) (w : ReqW V) : Prop where
  sock : r.sock = w.sock
  id : r.id = w.id
  role : r.role = w.role
  kill : r.kill = w.kill
  maxPostSize : r.maxPostSize = w.maxPostSize
  state : r.state = w.state
  status : r.status = w.status
  env : SameEnv r.env w.env
  user : R r.user w.user
  calls : Each SameCall (callsOf r.log) (callsOfW w.log)
  out : writes false r.log = (writesW false w.log).flatMap narrowOp
  err : writes true r.log = (writesW true w.log).flatMap narrowOp
  outText : ∀ op ∈ writesW false w.log, WritesText op
  errText : ∀ op ∈ writesW true w.log, WritesText op

end Fcgi.Model
