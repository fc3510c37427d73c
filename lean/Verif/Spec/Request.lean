import Verif.Spec.Wire
/-! # Specification: the life of a FastCGI request (FastCGI 1.0, section 6) -/
namespace Fcgi.Spec

/-- What the application is waiting for. -/
inductive Phase where
  | params   -- PARAMS records, ended by an empty one
  | stdin    -- STDIN records, ended by an empty one
  | output   -- nothing more
  deriving DecidableEq, Repr

/-- The record type a phase accepts. -/
def Phase.accepts : Phase → Option UInt8
  | .params => some 4
  | .stdin => some 5
  | .output => none

def Phase.next : Phase → Record → Phase
  | .params, r => if r.content = [] then .stdin else .params
  | .stdin, r => if r.content = [] then .output else .stdin
  | .output, _ => .output

/-- The phase after some records. -/
def phaseAfter (rs : List Record) : Phase := rs.foldl Phase.next .params

/-- Every record has the type its phase calls for. -/
def InOrder : Phase → List Record → Prop
  | _, [] => True
  | p, r :: rs => p.accepts = some r.type ∧ InOrder (p.next r) rs

/-- Complete input: parameters, an empty PARAMS record, data, an empty STDIN record. -/
def InputComplete (rs : List Record) : Prop :=
  ∃ ps p0 is i0, rs = ps ++ [p0] ++ is ++ [i0] ∧ (∀ p ∈ ps, p.type = 4 ∧ p.content ≠ []) ∧ (p0.type = 4 ∧ p0.content = []) ∧
    (∀ i ∈ is, i.type = 5 ∧ i.content ≠ []) ∧ (i0.type = 5 ∧ i0.content = [])

/-- An END_REQUEST record: application status 0 and the given protocol status. -/
def IsEndRequest (id : Nat) (status : UInt8) (b : Bytes) : Prop :=
  ∃ r : Record, r.version = 1 ∧ r.type = 3 ∧ r.id = id ∧ r.content.length = 8 ∧ r.content.take 5 = [0, 0, 0, 0, status] ∧
    r.padding = [] ∧ b = r.bytes

/-- Something a request is told: a FastCGI record, or a message through its callback. -/
inductive Input where
  | record (r : Record)
  | callback (type : Int) (data : Bytes)
  deriving DecidableEq, Repr

def Input.WF : Input → Prop
  | .record r => r.WF
  | .callback t _ => t ≠ 0

/-- The records among the inputs. -/
def records : List Input → List Record
  | [] => []
  | .record r :: l => r :: records l
  | .callback _ _ :: l => records l

end Fcgi.Spec
