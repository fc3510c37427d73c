import Verif.Spec.Wake
/-! # Model of the transceiver's thread and of waking it (src/sockets.cpp 453-566, 585-593; src/transceiver.cpp 32-118, 205-222)

The thread runs `Transceiver::handler()`; any number of threads call `Transceiver::send()`; one thread at a time
calls `start`, `stop`, `terminate` and `join` (manager.cpp 60-96 does it with m_tasksMutex held).  Every access
to something shared is a step of its own; critical sections that take one mutex and do not wait are one step.
Of the sockets only their number is kept, of the records only their names (`Model/Transceiver.lean` has their
contents), of the listeners only whether there are any and whether they are in the poll set.  `FAIL_LOG`
(which ends the process) is left out: its causes, errors of the listeners and of the wake-up channel, do not occur. -/
namespace Fcgi.Model
open Fcgi.Spec

/-- Where the thread is. `b` is the value of `flushed`/`block`: whether it may sleep. -/
inductive RPC where
  | off                     -- not started, or joined
  | test (b : Bool)         -- transceiver.cpp 78
  | look (b : Bool)         -- sockets.cpp 455
  | refresh (b : Bool)      -- sockets.cpp 457
  | readd (b : Bool)        -- sockets.cpp 459-465
  | clear (b : Bool)        -- sockets.cpp 466
  | wait (b : Bool)         -- sockets.cpp 469, poll.cpp 68-78
  | asleep                  -- in epoll_wait, with nothing ready
  | drain                   -- sockets.cpp 504-514
  | admit (b : Bool)        -- sockets.cpp 568-602
  | back                    -- transceiver.cpp 80-81
  | tx                      -- transceiver.cpp 36
  | write (r : Nat)         -- transceiver.cpp 44
  | putback (r : Nat)       -- transceiver.cpp 53
  | finished
  deriving DecidableEq

/-- Where the thread calling start, stop and terminate is. -/
inductive CPC where
  | idle
  | stop0                            -- transceiver.cpp 90
  | term0                            -- transceiver.cpp 96
  | start0                           -- transceiver.cpp 102
  | start1                           -- transceiver.cpp 103
  | acc0 (v : Bool) (sp : Bool)      -- sockets.cpp 587; `sp`: start, so a thread is to be made afterwards
  | acc1 (v : Bool) (sp : Bool)      -- sockets.cpp 589
  | acc2 (v : Bool) (sp : Bool)      -- sockets.cpp 590
  | wake (sp : Bool)                 -- sockets.cpp 555-566
  | spawn                            -- transceiver.cpp 105
  deriving DecidableEq

/-- Where a call of `send` is. -/
inductive SPC where
  | idle
  | push (r : Nat)                   -- transceiver.cpp 214
  | wake                             -- transceiver.cpp 218
  deriving DecidableEq

structure WSt where
  queue : List Nat          -- m_sendBuffer
  bytes : Nat               -- bytes in the wake-up channel
  waking : Bool             -- m_waking
  stop : Bool
  term : Bool
  accept : Bool             -- m_accept
  refresh : Bool            -- m_refreshListeners
  listeners : Bool          -- m_listeners is not empty
  polled : Bool             -- the listeners are in the poll set
  sockets : Nat             -- m_sockets.size()
  rx : RPC
  ctl : CPC
  tx : Nat → SPC
  stuck : Bool              -- the thread has tried to read from the empty wake-up channel (it would wait for ever, holding m_wakingMutex)

/-- sockets.cpp 140-158, transceiver.cpp 121-133, and `listen` (206-375) called before the start: the flags
m_stop and m_terminate may have any value. -/
def wInit (stop term : Bool) (listeners : Bool) (sockets : Nat) : WSt where
  queue := []
  bytes := 0
  waking := false
  stop := stop
  term := term
  accept := true
  refresh := listeners
  listeners := listeners
  polled := false
  sockets := sockets
  rx := .off
  ctl := .idle
  tx := fun _ => .idle
  stuck := false

/-- sockets.cpp 555-566 `wake`. -/
def WSt.wake (s : WSt) : WSt := if s.waking then s else { s with waking := true, bytes := s.bytes + 1 }

/-- What `epoll_wait` reports. -/
inductive Ready where
  | wakeup | listener | socket
  | nothing                 -- nothing is ready: the wait ends if it has no time to wait
  | signal                  -- `EINTR`
  deriving DecidableEq

/-- poll.cpp 64-104: what the wait can report. It reports the wake-up channel only if there is something in it, a
listener only if it is in the poll set, a socket only if there is one, and that nothing is ready only if there is
nothing in the wake-up channel. -/
def WSt.reports (s : WSt) : Ready → Bool
  | .wakeup => s.bytes > 0
  | .listener => s.polled
  | .socket => s.sockets > 0
  | .nothing => s.bytes == 0
  | .signal => true

/-- How a write goes: all written, in part, or refused (transceiver.cpp 44-69); `kill` closes the socket. -/
inductive Wrote where
  | all (kill : Bool) | part | refused (closed : Bool)
  deriving DecidableEq

/-- The choices not made by the program in a step of the thread. -/
structure Fate where
  ready : Ready
  wrote : Wrote
  closes : Bool             -- receive() closes the socket (transceiver.cpp 134-202)
  deriving DecidableEq

/-- sockets.cpp 471-552: what is done with the result of the wait. -/
def WSt.got (s : WSt) (b : Bool) : Ready → List WEvent × WSt
  | .wakeup => ([], { s with rx := .drain })
  | .listener => ([], { s with rx := .admit b })
  | .socket => ([.returned], { s with rx := .back })
  | .nothing => ([.returned], { s with rx := .back })
  | .signal => ([.returned], { s with rx := .back })

/-- A step of the thread. -/
def rstep (f : Fate) (s : WSt) : Option (List WEvent × WSt) :=
  match s.rx with
  | .off => none
  | .finished => none
  | .test b =>
    if !s.term && !(s.stop && s.sockets == 0) then some ([], { s with rx := .look b })
    else some ([.ended], { s with rx := .finished })
  | .look b =>
    if s.listeners || s.sockets > 0 then some ([], { s with rx := .refresh b })
    else some ([.returned], { s with rx := .back })
  | .refresh b => some ([], { s with rx := if s.refresh then .readd b else .wait b })
  | .readd b => some ([], { s with polled := s.listeners && s.accept, rx := .clear b })
  | .clear b => some ([], { s with refresh := false, rx := .wait b })
  | .wait b =>
    if s.reports f.ready = true then
      if f.ready = .nothing ∧ b = true then some ([.slept], { s with rx := .asleep })
      else some (s.got b f.ready)
    else none
  | .asleep =>
    if f.ready ≠ .nothing ∧ s.reports f.ready = true then some (s.got true f.ready) else none
  | .drain =>
    if s.bytes = 0 then some ([], { s with stuck := true })
    else some ([], { s with bytes := s.bytes - 256, waking := false, rx := .look false })
  | .admit b =>
    if s.accept then some ([.admitted], { s with sockets := s.sockets + 1, rx := .look b })
    else some ([.refused], { s with rx := .look b })
  | .back => some ([], { s with sockets := if f.closes then s.sockets - 1 else s.sockets, rx := .tx })
  | .tx =>
    match s.queue with
    | [] => some ([], { s with rx := .test true })
    | r :: q => some ([], { s with queue := q, rx := .write r })
  | .write r =>
    match f.wrote with
    | .all kill => some ([.written r], { s with sockets := if kill then s.sockets - 1 else s.sockets, rx := .tx })
    | .refused closed => some ([.written r], { s with sockets := if closed then s.sockets - 1 else s.sockets, rx := .tx })
    | .part => some ([], { s with rx := .putback r })
  | .putback r => some ([], { s with queue := r :: s.queue, rx := .test false })

/-- A step of the controlling thread. -/
def cstep (s : WSt) : Option (List WEvent × WSt) :=
  match s.ctl with
  | .idle => none
  | .stop0 => some ([], { s with stop := true, ctl := .acc0 false false })
  | .term0 => some ([], { s with term := true, ctl := .wake false })
  | .start0 => some ([], { s with stop := false, ctl := .start1 })
  | .start1 => some ([], { s with term := false, ctl := .acc0 true true })
  | .acc0 v sp => some ([], { s with ctl := if v != s.accept then .acc1 v sp else if sp then .spawn else .idle })
  | .acc1 v sp => some ([], { s with refresh := true, ctl := .acc2 v sp })
  | .acc2 v sp => some ([], { s with accept := v, ctl := .wake sp })
  | .wake sp => some ([.woke], { s.wake with ctl := if sp then .spawn else .idle })
  | .spawn => some ([], { s with rx := if s.rx = .off then .test false else s.rx, ctl := .idle })

/-- A step of sender `i`. -/
def sstep (i : Nat) (s : WSt) : Option (List WEvent × WSt) :=
  match s.tx i with
  | .idle => none
  | .push r => some ([.queued r], { s with queue := s.queue ++ [r], tx := fun j => if j = i then .wake else s.tx j })
  | .wake => some ([.woke], { s.wake with tx := fun j => if j = i then .idle else s.tx j })

/-- What is called. -/
inductive WCall where
  | start | stop | terminate | join
  | send (i r : Nat)
  deriving DecidableEq

def wcall (c : WCall) (s : WSt) : Option WSt :=
  match c with
  | .start => if s.ctl = .idle then some { s with ctl := .start0 } else none
  | .stop => if s.ctl = .idle then some { s with ctl := .stop0 } else none
  | .terminate => if s.ctl = .idle then some { s with ctl := .term0 } else none
  | .join => if s.ctl = .idle ∧ s.rx = .finished then some { s with rx := .off } else none
  | .send i r => if s.tx i = .idle then some { s with tx := fun j => if j = i then .push r else s.tx j } else none

inductive WStep : WSt → List WEvent → WSt → Prop where
  | rx {s es s'} (f : Fate) (h : rstep f s = some (es, s')) : WStep s es s'
  | ctl {s es s'} (h : cstep s = some (es, s')) : WStep s es s'
  | tx {s es s'} (i : Nat) (h : sstep i s = some (es, s')) : WStep s es s'
  | call {s s'} (c : WCall) (h : wcall c s = some s') : WStep s [] s'

inductive WRun : WSt → List WEvent → WSt → Prop where
  | refl (s) : WRun s [] s
  | step {s tr s' es s''} (run : WRun s tr s') (h : WStep s' es s'') : WRun s (tr ++ es) s''

end Fcgi.Model
