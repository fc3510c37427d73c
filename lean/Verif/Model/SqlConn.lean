import Verif.Spec.SqlConn
/-! # Model of the database connections (src/connection.cpp, include/fastcgi++/sql/connection.hpp)

One thread runs `handler()`, any number call `queue()`, `stop()` and `terminate()`; `start()` is called when the thread
does not run (before the first start, or after `join()`).  Every access to something shared is a step of its own;
work on what belongs to the handler alone is joined to the step before.  `conc` is `m_concurrency`, `cap` the number
of bytes the wake-up socket takes before a write waits.  The data races on `m_connections.size()` (in `queue()`)
and `m_queue.empty()` (in `handler()`) are taken as atomic reads.  Queries are known by their number in the order of
acceptance; parameters and results are modelled in `Model/Sql.lean`. -/
namespace Fcgi.Model
open Fcgi.Spec

/-- connection.hpp 164-169 `Conn`: the socket, the query in progress (`none` if idle), and whether a part of it has not
been written to the socket yet (libpq keeps it). -/
structure QConn where
  sock : Nat
  query : Option Nat
  unsent : Bool
  deriving DecidableEq

/-- Where the thread is. -/
inductive QPC where
  | off                       -- not started
  | begin0                    -- connection.cpp 44, 346-351
  | begin1                    -- connection.cpp 44, 352-353
  | test                      -- connection.cpp 45
  | connect                   -- connection.cpp 48, 290-330
  | scan (rest : List Nat)    -- connection.cpp 51-105; the sockets of the connections from the iterator on
  | poll                      -- connection.cpp 109
  | end0                      -- connection.cpp 204, 346-351
  | end1                      -- connection.cpp 204, 352-353
  | done                      -- the thread has ended
  | ub                        -- undefined behaviour
  | exit                      -- FAIL_LOG has ended the process
  deriving DecidableEq

structure SqSt where
  queue : List Nat            -- m_queue
  conns : List QConn          -- m_connections, in the order of the sockets
  stop : Bool
  term : Bool
  pc : QPC
  wake : Nat                  -- bytes in the wake-up socket
  saw : Nat                   -- calls of queue() that have found m_stop false
  passed : Nat                -- ... and all connections made
  held : Bool                 -- a call of queue() has put its query and holds m_mutex
  waking : Nat                -- calls of stop() and terminate() about to write to the wake-up socket
  next : Nat                  -- queries accepted
  runs : Nat → Nat            -- how often each query has been given to a connection
  res : Nat → Option Nat      -- which of these times the result in its `Results` object is from (m_res)

/-- The queries in progress. -/
def SqSt.busy (s : SqSt) : List Nat := s.conns.filterMap QConn.query

def qInit (stop term : Bool) : SqSt where
  queue := []
  conns := []
  stop := stop
  term := term
  pc := .off
  wake := 0
  saw := 0
  passed := 0
  held := false
  waking := 0
  next := 0
  runs := fun _ => 0
  res := fun _ => none

/-- The choices not made by the program in a step of the thread. -/
inductive QFate where
  /-- connection.cpp 294-303, 325-328: a connection is made, with this socket. -/
  | connected (sock : Nat)
  /-- connection.cpp 304-323: it is not. -/
  | failed
  /-- connection.cpp 71-102: `PQsendQueryParams` succeeds; `PQflush` writes the whole query or not. -/
  | sent (whole : Bool)
  /-- connection.cpp 93-98: it does not. -/
  | refused
  /-- What the poll reports (poll.cpp 68-104): the wake-up socket, nothing within the time, a signal, ... -/
  | wakeup | timeout | signal
  /-- ... or the events of a connection's socket; if there is input, whether `PQconsumeInput` succeeds, whether `PQflush`
  then has written everything, how many results there are, and whether the query is complete. -/
  | event (sock : Nat) (inp rdHup hup err : Bool) (consume whole : Bool) (results : Nat) (complete : Bool)
  deriving DecidableEq

/-- connection.cpp 328 `m_connections[socket] = conn` for a new socket. -/
def addConn (c : QConn) : List QConn → List QConn
  | [] => [c]
  | d :: ds => if c.sock < d.sock then c :: d :: ds else d :: addConn c ds

/-- Assignment to the members of `m_connections` with this socket. -/
def setConn (sock : Nat) (f : QConn → QConn) (cs : List QConn) : List QConn := cs.map fun c => if c.sock = sock then f c else c
/-- connection.cpp 341 `m_connections.erase` -/
def dropConn (sock : Nat) (cs : List QConn) : List QConn := cs.filter fun c => c.sock ≠ sock
/-- connection.cpp 130 `m_connections.find` -/
def findConn (sock : Nat) (cs : List QConn) : Option QConn := cs.find? fun c => c.sock = sock

/-- Assignment to one member of a family. -/
def qset {α : Type} (f : Nat → α) (i : Nat) (x : α) : Nat → α := fun j => if j = i then x else f j

/-- connection.cpp 332-342 `kill` -/
def SqSt.kill (s : SqSt) (c : QConn) : Option (List QEvent × SqSt) :=
  match c.query with
  | none => some ([.dropped c.sock], { s with conns := dropConn c.sock s.conns, pc := .test })
  | some q =>
    if s.held then none
    else some ([.dropped c.sock], { s with queue := q :: s.queue, conns := dropConn c.sock s.conns, pc := .test })

/-- connection.cpp 186-200: what happens after the input was dealt with, or if there is none. -/
def SqSt.hangup (s : SqSt) (c : QConn) (rdHup hup err : Bool) : Option (List QEvent × SqSt) :=
  if rdHup || hup || err then s.kill c else some ([], { s with pc := .exit })

/-- connection.cpp 152-183: input on a connection with a query in progress. (A query that has not been sent completely is
not completed by the server.) -/
def SqSt.input (s : SqSt) (c : QConn) (q : Nat) (whole : Bool) (results : Nat) (complete : Bool) : Option (List QEvent × SqSt) :=
  let res := if results > 0 ∧ s.res q = none then qset s.res q (some (s.runs q)) else s.res
  if complete then
    if c.unsent then none
    else some ([.called q (res q)], { s with conns := setConn c.sock (fun c => { c with query := none }) s.conns, res := res, pc := .test })
  else some ([], { s with conns := setConn c.sock (fun c => { c with unsent := c.unsent && !whole }) s.conns, res := res, pc := .test })

/-- A step of `handler()`, connection.cpp 42-205. -/
def qstep (conc : Nat) (f : QFate) (s : SqSt) : Option (List QEvent × SqSt) :=
  match s.pc with
  | .off | .done | .ub | .exit => none
  | .begin0 => some ([], { s with conns := [], pc := .begin1 })
  | .begin1 => if s.held then none else some ([], { s with queue := [], pc := .test })
  | .test => some ([], { s with pc := if !s.term && !(s.stop && s.queue.isEmpty) then .connect else .end0 })
  | .connect =>
    if s.conns.length = conc then some ([], { s with pc := .scan (s.conns.map QConn.sock) })
    else match f with
      | .connected sock =>
        if sock ∈ s.conns.map QConn.sock then none
        else some ([], { s with conns := addConn ⟨sock, none, false⟩ s.conns })
      | .failed => some ([], { s with pc := .scan (s.conns.map QConn.sock) })
      | _ => none
  | .scan [] => some ([], { s with pc := .poll })
  | .scan (sock :: rest) =>
    match findConn sock s.conns with
    | none => some ([], { s with pc := .ub })
    | some c =>
      if c.query.isSome then some ([], { s with pc := .scan rest })
      else if s.held then none
      else match s.queue with
        | [] => some ([], { s with pc := .poll })
        | q :: queue =>
          match f with
          | .sent whole =>
            some ([.sent q sock], { s with
              queue := queue
              conns := setConn sock (fun c => { c with query := some q, unsent := !whole }) s.conns
              runs := qset s.runs q (s.runs q + 1)
              pc := .scan rest })
          -- `kill(connection)` erases what the iterator points to, `++connection` follows; the connection is idle, so
          -- the query is not put back
          | .refused => some ([.refused q], { s with queue := queue, conns := dropConn sock s.conns, pc := .ub })
          | _ => none
  | .poll =>
    match f with
    | .wakeup => if s.wake > 0 then some ([], { s with wake := s.wake - min s.wake 256, pc := .test }) else none
    | .timeout => if s.conns.length = conc then none else some ([], { s with pc := .test })
    | .signal => some ([], { s with pc := .test })
    | .event sock inp rdHup hup err consume whole results complete =>
      match findConn sock s.conns with
      | none => none
      | some c =>
        if inp then
          match c.query with
          | some q => if consume then s.input c q whole results complete else s.hangup c rdHup hup err
          | none => s.hangup c rdHup hup err
        else s.hangup c rdHup hup err
    | _ => none
  | .end0 => some ([], { s with conns := [], pc := .end1 })
  | .end1 => if s.held then none else some ([.ended], { s with queue := [], pc := .done })

/-- The steps of the calls. -/
inductive QCall where
  | enter       -- queue(): 277, m_stop
  | look        -- queue(): 277, connected()
  | push        -- queue(): 282-283
  | wake        -- queue(): 284-285, 241-247
  | stop        -- 207-211
  | terminate   -- 213-217
  | signal      -- stop(), terminate(): wake()
  | start       -- 219-228
  deriving DecidableEq

def qcall (conc cap : Nat) (c : QCall) (s : SqSt) : Option (List QEvent × SqSt) :=
  match c with
  | .enter => if s.stop then none else some ([], { s with saw := s.saw + 1 })
  | .look =>
    if s.saw = 0 then none
    else if s.conns.length = conc then some ([], { s with saw := s.saw - 1, passed := s.passed + 1 })
    else some ([], { s with saw := s.saw - 1 })
  | .push =>
    if s.passed = 0 ∨ s.held then none
    else some ([.accepted s.next], { s with passed := s.passed - 1, held := true, queue := s.queue ++ [s.next], next := s.next + 1 })
  | .wake => if s.held ∧ s.wake < cap then some ([], { s with held := false, wake := s.wake + 1 }) else none
  | .stop => some ([.stopped], { s with stop := true, waking := s.waking + 1 })
  | .terminate => some ([.terminated], { s with term := true, waking := s.waking + 1 })
  | .signal => if s.waking > 0 ∧ s.wake < cap then some ([], { s with waking := s.waking - 1, wake := s.wake + 1 }) else none
  | .start =>
    if s.pc = .off ∨ s.pc = .done then some ([.started], { s with stop := false, term := false, pc := .begin0 }) else none

inductive QStep (conc cap : Nat) : SqSt → List QEvent → SqSt → Prop where
  | handler {s es s'} (f : QFate) (h : qstep conc f s = some (es, s')) : QStep conc cap s es s'
  | call {s es s'} (c : QCall) (h : qcall conc cap c s = some (es, s')) : QStep conc cap s es s'

inductive QRun (conc cap : Nat) : SqSt → List QEvent → SqSt → Prop where
  | refl (s) : QRun conc cap s [] s
  | step {s tr s' es s''} (run : QRun conc cap s tr s') (h : QStep conc cap s' es s'') : QRun conc cap s (tr ++ es) s''

end Fcgi.Model
