import Verif.Model.Life
/-! # Model of the lives of the HTTP client, the mailer and SQL connections (src/curler.cpp 125-200, src/mailer.cpp 324-381,
src/connection.cpp 207-288, and the constructors in their headers)

What their threads do is the subject of Model/Curler, Model/Mail and Model/SqlConn; here there is only the `std::thread` object and
which variables have a value.  Calls are made by one thread.  Simplified: what a call does with a variable that has no value yet is
undefined behaviour as soon as it is called (for `start()`: as soon as the thread runs). -/
namespace Fcgi.Model

inductive Helper where
  | curler | mailer | sql
  deriving DecidableEq, Repr

/-- A variable without a value is `none`. -/
structure HLife where
  inited : Bool             -- mailer and sql: m_initialized, and with it m_retry, m_concurrency, m_wakeSockets
  waking : Bool             -- curler: m_waking has a value
  stop : Option Bool
  term : Option Bool
  thread : ThreadObj
  deriving DecidableEq, Repr

inductive HelperOp where
  | init
  | start | stop | terminate | join
  | queue
  | destroy
  | ends                    -- (not a call) the thread ends
  deriving DecidableEq, Repr

inductive HelperRes where
  | ok (l : HLife)
  | blocked
  | aborts
  | gone
  | undefined
  deriving DecidableEq, Repr

/-- curler.cpp 125-141 (all that init() of the others does is done by the constructor), mailer.hpp 111-114, connection.hpp 132-134:
`std::atomic_bool` is without a value. -/
def HLife.fresh : Helper → HLife
  | .curler => ⟨true, false, none, none, .none⟩
  | .mailer => ⟨false, true, none, none, .none⟩
  | .sql => ⟨false, true, none, none, .none⟩

/-- `wake()`: curler.cpp 190-200 reads m_waking; the mailer's is that of its SocketGroup; connection.cpp 241-247 writes to m_wakeSockets. -/
def HLife.canWake (k : Helper) (l : HLife) : Bool :=
  match k with
  | .curler => l.waking
  | .mailer => true
  | .sql => l.inited

def HLife.step (k : Helper) (l : HLife) : HelperOp → HelperRes
  -- mailer.cpp 361-375, connection.cpp 249-273; there is none in the HTTP client
  | .init => .ok { l with inited := true }
  -- curler.cpp 164-174, mailer.cpp 340-349, connection.cpp 219-228
  | .start =>
    if l.thread ≠ .none then .ok l
    else if l.inited then .ok { l with stop := some false, term := some false, waking := true, thread := .runs }
    else .undefined
  -- curler.cpp 152-162, mailer.cpp 324-338, connection.cpp 207-217
  | .stop => if l.canWake k then .ok { l with stop := some true } else .undefined
  | .terminate => if l.canWake k then .ok { l with term := some true } else .undefined
  -- curler.cpp 176-180, mailer.cpp 351-355, connection.cpp 230-234
  | .join => if l.thread = .runs then .blocked else .ok { l with thread := .none }
  -- curler.cpp 182-188; mailer.cpp 377-381; connection.cpp 275-288 reads m_stop and, in connected(), m_concurrency
  | .queue => match k with
    | .curler | .mailer => if l.canWake k then .ok l else .undefined
    | .sql => if l.stop = none ∨ l.inited = false then .undefined else .ok l
  -- curler.cpp 143-150, mailer.cpp 357-359, connection.cpp 236-239 and the destructor of m_thread
  | .destroy => if l.thread = .none then .gone else .aborts
  -- the loops end only if asked to (C81, C85, C98)
  | .ends => if l.thread = .runs ∧ (l.stop = some true ∨ l.term = some true) then .ok { l with thread := .ended } else .blocked

def HLife.run (k : Helper) : HLife → List HelperOp → HelperRes
  | l, [] => .ok l
  | l, op :: ops => match l.step k op with
    | .ok l => l.run k ops
    | r => r

end Fcgi.Model
