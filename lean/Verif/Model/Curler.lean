import Verif.Spec.Curler
/-! # Model of the HTTP client's thread (src/curler.cpp 35-200, include/fastcgi++/curler.hpp, include/fastcgi++/curl.hpp 86-93)

The threads interleave at the accesses to shared variables.  Simplified: `m_waking`, an ordinary `bool` that `stop()` and
`terminate()` use without the lock (a data race, which has no defined meaning), is sequentially consistent; and so is
`m_callback`.  The transfer library (libcurl) is not modelled further than this: in each call of `curl_multi_socket_action` any of the
transfers in progress complete; its messages are read in the order of completion.  The parts of `prepare()` are in
Verif.Model.Curl. -/
namespace Fcgi.Model
open Fcgi.Spec

/-- Where the handler's thread is. -/
inductive CurlerPC where
  /-- there is no thread (not joinable) -/
  | off
  /-- lines 38 and 107: about to lock -/
  | relock
  /-- line 42, locked -/
  | test
  /-- lines 44-60, locked -/
  | fill
  /-- lines 63-67 -/
  | poll
  /-- line 72: about to lock -/
  | wakeLock
  /-- line 77, locked -/
  | reset
  /-- line 86 -/
  | action
  /-- lines 91-102 -/
  | info
  /-- line 103, in curl.hpp 88-90; `more` tells whether `messages` is not zero -/
  | callback (r : Nat) (more : Bool)
  /-- curl.hpp 91: about to clear -/
  | clear (r : Nat) (more : Bool)
  /-- ended, not joined -/
  | done
  /-- `FAIL_LOG` ended the program -/
  | crashed
  deriving DecidableEq, Repr

/-- Where a call of `wake()` is (curler.cpp 190-200): at the test, at the assignment, at `write`. -/
inductive WakeStage where
  | read | set | write
  deriving DecidableEq, Repr

/-- curler.hpp 102-136 and the variables of `handler()`. -/
structure CurlerSt where
  conc : Nat                 -- m_concurrency
  queue : List Nat           -- m_queue
  handles : List Nat         -- m_handles
  running : List Nat         -- the transfers in progress, in the library
  msgs : List Nat            -- the library's messages
  count : Nat                -- `handles`
  stop : Bool
  term : Bool
  waking : Bool
  bytes : Nat                -- in the wake-up socket
  lock : Option WakeStage    -- `queue()` holds the lock
  asked : Nat                -- calls of stop() and terminate() about to test m_waking
  saw : Nat                  -- ... that have found it false
  writing : Nat              -- ... about to write
  cb : Nat → Option Nat      -- m_callback of each request
  pc : CurlerPC

/-- curler.cpp 125-141: a new object; `a`, `b` and `c` are indeterminate values. -/
def curlerInit (conc : Nat) (a b c : Bool) : CurlerSt := ⟨conc, [], [], [], [], 0, a, b, c, 0, none, 0, 0, 0, fun _ => none, .off⟩

/-- The handler's thread holds the lock. -/
def CurlerPC.holds : CurlerPC → Bool
  | .test | .fill | .reset => true
  | _ => false

/-- curler.cpp 42 (negated) -/
def CurlerSt.ends (s : CurlerSt) : Bool := s.term || (s.stop && s.queue.isEmpty && s.handles.isEmpty)

/-- curler.cpp 44, 46 -/
def CurlerSt.mayFill (s : CurlerSt) : Bool := !s.queue.isEmpty && decide (s.handles.length < s.conc)

/-- What happens that the thread does not control. -/
inductive KFate where
  | go
  /-- `curl_multi_socket_action` completes these transfers. -/
  | complete (rs : List Nat)
  /-- `epoll_wait` reports the wake-up socket, its timeout, a signal, another socket. -/
  | wake | timeout | signal | socket
  deriving DecidableEq

/-- `curl_multi_socket_action` -/
def CurlerSt.act (s : CurlerSt) (rs : List Nat) (pc : CurlerPC) : Option CurlerSt :=
  if rs.Nodup ∧ ∀ r ∈ rs, r ∈ s.running then
    let running := s.running.filter fun r => r ∉ rs
    some { s with running := running, msgs := s.msgs ++ rs, count := running.length, pc := pc }
  else none

/-- curler.cpp 92: the loop goes on while there are messages. -/
def nextMessage (more : Bool) : CurlerPC := if more then .info else .relock

/-- curler.cpp 48-53 (`exit()` ends the program if the library has the handle already) -/
def CurlerSt.take (s : CurlerSt) : List CurlerEvent × CurlerSt :=
  match s.queue with
  | [] => ([], s)
  | r :: q =>
    if r ∈ s.handles then ([.crashed], { s with pc := .crashed })
    else ([.began r], { s with queue := q, handles := s.handles ++ [r], running := s.running ++ [r] })

/-- curler.cpp 94-102 -/
def CurlerSt.note (s : CurlerSt) : List CurlerEvent × CurlerSt :=
  match s.msgs with
  | [] => ([], { s with pc := .relock })
  | r :: ms =>
    if r ∈ s.handles then ([.finished r], { s with msgs := ms, handles := s.handles.erase r, pc := .callback r !ms.isEmpty })
    else ([.crashed], { s with pc := .crashed })

/-- curler.cpp 35-109 `handler`, with curl.hpp 86-93 `callback`. -/
def kstep (f : KFate) (s : CurlerSt) : Option (List CurlerEvent × CurlerSt) :=
  match s.pc, f with
  | .relock, .go => if s.lock = none then some ([], { s with pc := .test }) else none
  | .test, .go =>
    if s.ends then some ([.ended], { s with pc := .done })
    else if s.mayFill then some ([], { s with pc := .fill })
    else some ([], { s with pc := .poll })
  | .fill, .go => if s.mayFill then some s.take else none
  | .fill, .complete rs => if s.mayFill then none else (s.act rs .poll).map fun s => ([], s)
  | .poll, .wake => if 0 < s.bytes then some ([], { s with pc := .wakeLock }) else none
  | .poll, .timeout => if 0 < s.count then some ([], { s with pc := .action }) else none
  | .poll, .signal => some ([.interrupted], { s with pc := .action })
  | .poll, .socket => some (if s.running = [] then [.stray] else [], { s with pc := .action })
  | .wakeLock, .go => if s.lock = none then some ([], { s with bytes := s.bytes - 256, pc := .reset }) else none
  | .reset, .go => some ([], { s with waking := false, pc := .test })
  | .action, .complete rs => (s.act rs .info).map fun s => ([], s)
  | .info, .go => some s.note
  | .callback r more, .go => match s.cb r with
    | none => some ([], { s with pc := nextMessage more })
    | some k => some ([.called r k], { s with pc := .clear r more })
  | .clear r more, .go => some ([.dropped r], { s with cb := fun x => if x = r then none else s.cb x, pc := nextMessage more })
  | _, _ => none

/-- The calls of users, in any thread. -/
inductive KCall where
  /-- curl.hpp 181-184 -/
  | setCb (r k : Nat)
  /-- curler.cpp 182-187 (after prepare()), up to the call of wake() -/
  | queue (r : Nat)
  /-- one step of a call of wake() by queue() -/
  | locked
  /-- curler.cpp 152-162, up to the call of wake() -/
  | stop | terminate
  /-- the steps of wake() called by those -/
  | read | set | write
  /-- curler.cpp 164-174; does nothing if the thread is joinable -/
  | start
  /-- curler.cpp 176-180 (returns when the thread has ended) -/
  | join
  deriving DecidableEq

def kcall (c : KCall) (s : CurlerSt) : Option (List CurlerEvent × CurlerSt) :=
  if s.pc = .crashed then none
  else match c with
    | .setCb r k => some ([.setCb r k], { s with cb := fun x => if x = r then some k else s.cb x })
    | .queue r => if s.lock = none ∧ s.pc.holds = false then some ([.queued r], { s with queue := s.queue ++ [r], lock := some .read }) else none
    | .locked => match s.lock with
      | none => none
      | some .read => some ([], { s with lock := if s.waking then none else some .set })
      | some .set => some ([], { s with waking := true, lock := some .write })
      | some .write => some ([], { s with bytes := s.bytes + 1, lock := none })
    | .stop => some ([.stopped], { s with stop := true, asked := s.asked + 1 })
    | .terminate => some ([.terminated], { s with term := true, asked := s.asked + 1 })
    | .read => if 0 < s.asked then some ([], { s with asked := s.asked - 1, saw := if s.waking then s.saw else s.saw + 1 }) else none
    | .set => if 0 < s.saw then some ([], { s with saw := s.saw - 1, waking := true, writing := s.writing + 1 }) else none
    | .write => if 0 < s.writing then some ([], { s with writing := s.writing - 1, bytes := s.bytes + 1 }) else none
    | .start => if s.pc = .off then some ([.started], { s with stop := false, term := false, waking := false, count := 0, pc := .relock }) else none
    | .join => if s.pc = .done then some ([], { s with pc := .off }) else none

inductive CurlerStep : CurlerSt → List CurlerEvent → CurlerSt → Prop where
  | handler {s es s'} (f : KFate) (h : kstep f s = some (es, s')) : CurlerStep s es s'
  | call {s es s'} (c : KCall) (h : kcall c s = some (es, s')) : CurlerStep s es s'

inductive CurlerRun : CurlerSt → List CurlerEvent → CurlerSt → Prop where
  | refl (s) : CurlerRun s [] s
  | step {s tr s' es s''} (run : CurlerRun s tr s') (h : CurlerStep s' es s'') : CurlerRun s (tr ++ es) s''

/-! ### The sockets of the transfer library -/

/-- poll.cpp 114-121 `Poll::add`, on Linux: fails if the socket is there; always the same events (with errors and hang-ups, which are
reported anyway). -/
def pollAdd (m : List (Nat × Interest)) (socket : Nat) : List (Nat × Interest) := if (m.lookup socket).isSome then m else (socket, ⟨true, false⟩) :: m

/-- poll.cpp 139-142 `Poll::del` -/
def pollDel (m : List (Nat × Interest)) (socket : Nat) : List (Nat × Interest) := m.filter fun x => x.1 ≠ socket

/-- curler.cpp 110-123 `socketCallback` -/
def socketCallback (m : List (Nat × Interest)) (socket : Nat) (action : CurlWait) : List (Nat × Interest) :=
  if action = .remove then pollDel m socket else pollAdd m socket

def socketCallbacks (m : List (Nat × Interest)) : List (Nat × CurlWait) → List (Nat × Interest)
  | [] => m
  | (socket, action) :: rest => socketCallbacks (socketCallback m socket action) rest

end Fcgi.Model
