import Verif.Model.Transceiver
import Verif.Spec.Framing
/-! # Specification: the words of the theorems about the transceiver -/
namespace Fcgi.Model
open Fcgi.Spec

/-- Bytes the peer of socket `s` sent during a history. -/
def arrived (s : Nat) (ops : List TOp) : Bytes :=
  ops.flatMap fun | .arrive t d => if t = s then d else [] | _ => []

/-- Records queued for socket `s` during a history, with their kill flags. -/
def sentTo (s : Nat) (ops : List TOp) : List (Bytes × Bool) :=
  ops.flatMap fun | .send t d k => if t = s then [(d, k)] else [] | _ => []

/-- Messages delivered for socket `s`. -/
def msgsOf (s : Nat) (st : TSt) : List Msg := st.msgs.filter (fun m => m.id.socket = s)

def goneMsg (s : Nat) : Msg := ⟨⟨s, badFcgiId⟩, []⟩

def recMsg (s : Nat) (d : Bytes) : Msg := ⟨⟨s, UInt16.ofNat (frameId d)⟩, d⟩

/-- Records not completely written yet, next one first. -/
def pending (st : TSt) : List SRec :=
  match st.pc with
  | .loop => st.queue
  | .popped r => r :: st.queue
  | .partly r => r :: st.queue

def pendingOf (s : Nat) (st : TSt) : List SRec := (pending st).filter (fun r => r.sock = s)

/-- A transceiver with fresh connections and nothing queued. -/
def TSt.init : TSt := { conns := fun _ => {} }

/-- The receive-side operations on socket `s`. -/
def concerns (s : Nat) : TOp → Bool
  | .hangup t => t = s
  | .arrive t _ => t = s
  | .receive t _ _ => t = s
  | _ => false

def recvSide : TOp → Bool
  | .hangup _ => true
  | .arrive _ _ => true
  | .receive _ _ _ => true
  | _ => false

end Fcgi.Model
