import Verif.Spec.Manager
/-! # Specification vocabulary: messages given to requests -/
namespace Fcgi.Spec
open Fcgi.Model

/-- The id of a request, not of management records (0) nor of the loss of a connection (0xffff). -/
def Ordinary (k : RequestId) : Prop := k.id ≠ 0 ∧ k.id ≠ 0xffff

/-- A message of the application (a type other than 0), or a FastCGI record that has a type. -/
def Sound (m : Message) : Prop := m.type ≠ 0 ∨ 2 ≤ m.data.length

/-- The messages given for a request id, in the order of the calls. -/
def callsFor (k : RequestId) (calls : List (RequestId × Message)) : List Message :=
  calls.filterMap fun c => if c.1 = k then some c.2 else none

/-- The messages for a request id that made a request, were put in the queue of one, or were thrown away, in order. -/
def takenFor (k : RequestId) (tr : List MEvent) : List Message :=
  tr.filterMap fun e => match e with
    | .created _ k' m => if k' = k then some m else none
    | .accepted _ k' m => if k' = k then some m else none
    | .dropped k' m => if k' = k then some m else none
    | _ => none

/-- Those thrown away. -/
def droppedFor (k : RequestId) (tr : List MEvent) : List Message :=
  tr.filterMap fun e => match e with
    | .dropped k' m => if k' = k then some m else none
    | _ => none

end Fcgi.Spec
