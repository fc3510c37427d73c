import Verif.Model.Manager
/-! # Specification: the words of the theorems about the manager -/
namespace Fcgi.Model
open Fcgi.Spec
variable {σ : Type}

/-- The thread holds m_tasksMutex. -/
def HPC.holdsT : HPC → Bool
  | .top | .test | .drain | .check | .judge => true
  | _ => false

/-- The thread holds m_requestsMutex, shared. -/
def HPC.holdsR : HPC → Bool
  | .test | .find _ | .judge => true
  | _ => false

/-- The request whose `m_messagesMutex` the thread holds. -/
def HPC.msgsOf : HPC → Option Nat
  | .look _ r | .kept _ r | .stay _ r | .part _ r => some r
  | _ => none

def HPC.erasing : HPC → Bool
  | .erase _ _ => true
  | _ => false

/-- The call holds m_requestsMutex. -/
def PPC.holdsW : PPC → Bool
  | .sweep _ _ | .route _ _ => true
  | _ => false

/-- The request id a thread is about to look at, or is looking at. -/
def HPC.attends : HPC → Option RequestId
  | .popped k | .find k | .enter k _ | .look k _ | .work k _ _ | .over k _ | .erase k _ => some k
  | _ => none

/-- A step of the threads and calls that are there, without anything new from outside. -/
def Inner (P : Prog σ) (s s' : MSt σ) : Prop :=
  (∃ t es, hstep P t s = some (es, s')) ∨ ∃ p w es, pstep P p w s = some (es, s')

/-- No thread and no call can move. -/
def Still (P : Prog σ) (s : MSt σ) : Prop := (∀ t, hstep P t s = none) ∧ ∀ p w, pstep P p w s = none

/-- A record that is not too short for what `push` reads of it. -/
def Whole (m : Message) : Prop := m.type = 0 → ∃ b, m.data[1]? = some b ∧ (b = 1 → 11 ≤ m.data.length)

/-- What is allowed to arrive: no loss of a connection, and no record too short for what is read of it. -/
def Mild : Outer → Prop
  | .push _ k m => k.id ≠ 0xffff ∧ Whole m
  | _ => True

/-- No BEGIN_REQUEST record came for `k` while there was a request for it. -/
def Apart (k : RequestId) (tr : List MEvent) : Prop := ∀ r m, .accepted r k m ∈ tr → isBegin m = false

end Fcgi.Model
