import Verif.Base
/-! # Model of the life of a manager's threads (src/manager.cpp 33-97, 420-435, src/transceiver.cpp 89-121, 224-226)

What the threads do is the subject of Model/Manager and Model/Transceiver; here there is only whether a `std::thread` object has no
thread, one that runs, or one that has ended and has not been joined (it is joinable in both cases).  Calls are made by one thread. -/
namespace Fcgi.Model

inductive ThreadObj where
  | none      -- not joinable
  | runs
  | ended
  deriving DecidableEq, Repr

/-- manager.hpp 215-290: m_stop, m_terminate, m_threads and the thread of m_transceiver. -/
structure MLife where
  stop : Bool
  term : Bool
  pool : List ThreadObj
  trans : ThreadObj
  deriving DecidableEq, Repr

inductive LifeOp where
  | start | stop | terminate | join
  | resize (n : Nat)
  | destroy
  | ends (i : Nat)          -- (not a call) thread i of the pool ends
  | transEnds               -- (not a call) the thread of the transceiver ends
  deriving DecidableEq, Repr

/-- What becomes of a call: it returns; it does not return (yet); `std::terminate` is called; the object is gone. -/
inductive LifeRes where
  | ok (l : MLife)
  | blocked
  | aborts
  | gone
  deriving DecidableEq, Repr

/-- manager.cpp 33-57 -/
def MLife.init (threads : Nat) : MLife := ⟨true, true, List.replicate threads .none, .none⟩

/-- `std::thread` assigned a new thread if it is not joinable (manager.cpp 83-88, transceiver.cpp 116-120). -/
def ThreadObj.startIf : ThreadObj → ThreadObj
  | .none => .runs
  | x => x

def MLife.step (l : MLife) : LifeOp → LifeRes
  -- manager.cpp 76-89
  | .start => .ok { stop := false, term := false, pool := l.pool.map .startIf, trans := l.trans.startIf }
  -- manager.cpp 68-74, 60-66
  | .stop => .ok { l with stop := true }
  | .terminate => .ok { l with term := true }
  -- manager.cpp 91-97
  | .join =>
    if (l.trans :: l.pool).any (· = .runs) then .blocked
    else .ok { l with pool := l.pool.map fun _ => .none, trans := .none }
  -- manager.cpp 420-429; ~thread of a joinable thread calls std::terminate
  | .resize n =>
    if l.stop then
      if (l.pool.drop n).any (· ≠ .none) then .aborts
      else .ok { l with pool := l.pool.take n ++ List.replicate (n - l.pool.length) .none }
    else .ok l
  -- manager.cpp 431-434 `terminate()` and the destructors of m_threads and m_transceiver
  | .destroy => if (l.trans :: l.pool).any (· ≠ .none) then .aborts else .gone
  -- manager.cpp 188-199, transceiver.cpp 77: loops end only if asked to (C42)
  | .ends i => if (l.stop || l.term) && l.pool[i]? = some .runs then .ok { l with pool := l.pool.set i .ended } else .blocked
  | .transEnds => if (l.stop || l.term) && l.trans = .runs then .ok { l with trans := .ended } else .blocked

def MLife.run : MLife → List LifeOp → LifeRes
  | l, [] => .ok l
  | l, op :: ops => match l.step op with
    | .ok l => l.run ops
    | r => r

end Fcgi.Model
