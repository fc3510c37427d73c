import Verif.Base
/-! # Model of `Poll` with `poll(2)` (src/poll.cpp, the variant for Unix systems other than Linux) -/
namespace Fcgi.Model

/-- poll.hpp 55-61 `m_poll`: the descriptors, in the order of the vector.  (`events` is the same for all of them.) -/
abbrev PollSet := List Nat

/-- What the kernel says about a descriptor: the event bits pending, 0 for none (`revents`). -/
abbrev Pending := Nat → UInt32

/-- poll.cpp 118-131 `add`. -/
def PollSet.add (p : PollSet) (s : Nat) : PollSet × Bool := if s ∈ p then (p, false) else (p ++ [s], true)

/-- poll.cpp 141-153 `del`: `erase` of the first with that descriptor. -/
def PollSet.del (p : PollSet) (s : Nat) : PollSet × Bool := if s ∈ p then (p.erase s, true) else (p, false)

/-- poll.cpp 70-107 `poll`: `none` if nothing is pending (then `poll(2)` waits until the timeout or a signal and `m_data` stays false),
otherwise descriptor and events of the first in the vector with something pending. -/
def PollSet.poll (p : PollSet) (k : Pending) : Option (Nat × UInt32) :=
  (p.find? fun s => k s ≠ 0).map fun s => (s, k s)

/-- A call of `add` or `del`. -/
inductive PollOp where
  | add (s : Nat)
  | del (s : Nat)
  deriving DecidableEq, Repr

/-- One call: what is returned. -/
def PollOp.step (p : PollSet) : PollOp → PollSet × Bool
  | .add s => p.add s
  | .del s => p.del s

/-- Successive calls: what each returned. -/
def pollRun : PollSet → List PollOp → PollSet × List Bool
  | p, [] => (p, [])
  | p, o :: l => let r := pollRun (o.step p).1 l; (r.1, (o.step p).2 :: r.2)

end Fcgi.Model
