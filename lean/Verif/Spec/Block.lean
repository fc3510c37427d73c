import Verif.Model.Block
/-! # What a block is documented to be: a vector that does not initialise its elements

A value per block: its bytes, `none` where nothing has been said about them, and how much is reserved.  Only the list of the calls
(`BlkOp`) is taken from the model. -/
namespace Fcgi.Spec
open Fcgi.Model

structure Vec where
  bytes : List (Option Byte)
  cap : Nat

/-- Set the length: what is there stays, anything may follow. -/
def Vec.resize (v : Vec) (n : Nat) : List (Option Byte) := v.bytes.take n ++ List.replicate (n - v.bytes.length) none

def vecPut (s : Nat → Vec) (k : Nat) (v : Vec) : Nat → Vec := fun i => if i = k then v else s i

/-- The value of each block after a call. -/
def vecStep (s : Nat → Vec) : BlkOp → Nat → Vec
  | .make k => vecPut s k ⟨[], 0⟩
  | .makeSize k n => vecPut s k ⟨List.replicate n none, n⟩
  | .makeData k d => vecPut s k ⟨d.map some, d.length⟩
  | .assign k d => vecPut s k ⟨d.map some, max (s k).cap d.length⟩
  | .assignFrom k j off n => vecPut s k ⟨((s j).bytes.drop off).take n, max (s k).cap n⟩
  | .reserve k x => vecPut s k ⟨(s k).bytes.take x, x⟩
  | .size k x => vecPut s k ⟨(s k).resize x, max (s k).cap x⟩
  | .clear k => vecPut s k ⟨[], 0⟩
  | .moveMake k j => vecPut (vecPut s k (s j)) j ⟨[], 0⟩
  | .moveAssign k j => if k = j then s else vecPut (vecPut s k (s j)) j ⟨[], 0⟩
  | .put k i b => vecPut s k ⟨(s k).bytes.set i (some b), (s k).cap⟩

/-- What the caller has to see to: stay within the block, do not make a block from itself. -/
def vecValid (s : Nat → Vec) : BlkOp → Prop
  | .assignFrom _ j off n => off + n ≤ (s j).bytes.length
  | .put k i _ => i < (s k).bytes.length
  | .moveMake k j => k ≠ j
  | _ => True

def vecRun : (Nat → Vec) → List BlkOp → Nat → Vec
  | s, [] => s
  | s, op :: ops => vecRun (vecStep s op) ops

def vecAllValid : (Nat → Vec) → List BlkOp → Prop
  | _, [] => True
  | s, op :: ops => vecValid s op ∧ vecAllValid (vecStep s op) ops

/-- No block yet. -/
def vecInit : Nat → Vec := fun _ => ⟨[], 0⟩

/-- The bytes are as said, wherever something has been said. -/
def Agree (said real : List (Option Byte)) : Prop :=
  said.length = real.length ∧ ∀ (i : Nat) (b : Byte), said[i]? = some (some b) → real[i]? = some (some b)

end Fcgi.Spec
