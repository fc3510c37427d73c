import Verif.Spec.Manager
/-! # Model of the manager's threads (src/manager.cpp 58-96, 254-418; include/fastcgi++/request.hpp 60-80)

Any number of handler threads run `handler()`, any number of other threads (the transceiver's, and those
calling a request's callback) run `push()`; `start`, `stop`, `terminate`, `join` and the closing of sockets
happen at any moment.  A step of a thread reaches from one point where it can be preempted with effect to
the next: every acquisition of a mutex is a step of its own that is impossible while the mutex is taken,
and so is the end of the user's code.  Releases are joined to the accesses before them, and a critical
section that takes only one mutex and does not wait is one step (both are the usual reductions: nothing
another thread does in between can depend on them).  `std::mutex::try_lock` is taken not to fail
spuriously.  The events emitted are for the specification only: nothing depends on them. -/
namespace Fcgi.Model
open Fcgi.Spec

/-- What the manager is used with: the number of threads, the construction of a request from its
BEGIN_REQUEST record, and the handling of one message, which says whether the request is complete
(request.cpp 63-156, in detail in `Model/Request.lean`). -/
structure Prog (σ : Type) where
  threads : Nat
  make : RequestId → Bytes → σ
  handle : σ → Message → σ × Bool

/-- request.hpp 45-80 `Request_base`: its `mutex` (the handler thread holding it), `m_messagesMutex` (the
handler thread holding it; `push` takes it for the duration of a step only), `m_messages`, and whether the
object exists. -/
structure Obj (σ : Type) where
  state : σ
  mutex : Option Nat
  msgs : Option Nat
  queue : List Message
  alive : Bool

/-- Where a handler thread is (manager.cpp 254-333, request.cpp 57-162). -/
inductive HPC where
  | off                              -- no such thread
  | boot                             -- 259: to lock m_tasksMutex
  | top                              -- 260, 331: has m_tasksMutex, to lock m_requestsMutex (shared)
  | test                             -- 262: has both
  | drain                            -- 265: has m_tasksMutex
  | popped (k : RequestId)           -- 271: has nothing
  | find (k : RequestId)             -- 276: has m_requestsMutex (shared)
  | enter (k : RequestId) (r : Nat)  -- request.cpp 58, 104, 111, 142, 158: has mutex, to lock m_messagesMutex
  | look (k : RequestId) (r : Nat)   -- request.cpp 59: has mutex and m_messagesMutex
  | work (k : RequestId) (r : Nat) (m : Message)  -- request.cpp 64-153: has mutex
  | kept (k : RequestId) (r : Nat)   -- 287: has mutex and m_messagesMutex
  | stay (k : RequestId) (r : Nat)   -- 302: has mutex and m_messagesMutex
  | part (k : RequestId) (r : Nat)   -- 303: has m_messagesMutex
  | over (k : RequestId) (r : Nat)   -- 295: has mutex, to lock m_requestsMutex
  | erase (k : RequestId) (r : Nat)  -- 296: has mutex and m_requestsMutex
  | relock                           -- 310: to lock m_tasksMutex
  | check                            -- 313: has m_tasksMutex, to lock m_requestsMutex (shared)
  | judge                            -- 314: has both
  | waiting                          -- 323: waiting to be notified
  | woken                            -- 323: notified, to lock m_tasksMutex
  | finished
  deriving DecidableEq

/-- Where a call of `push` is (manager.cpp 335-418). -/
inductive PPC where
  | idle
  | note (k : RequestId) (m : Message)   -- 342: to lock the manager's m_messagesMutex
  | lost (socket : Nat)                  -- 350: to lock m_requestsMutex
  | sweep (socket : Nat) (todo : List (RequestId × Nat))  -- 353: has m_requestsMutex
  | call (k : RequestId) (m : Message)   -- 376: to lock m_requestsMutex
  | route (k : RequestId) (m : Message)  -- 377: has m_requestsMutex
  | task (k : RequestId)                 -- 415: to lock m_tasksMutex
  deriving DecidableEq

/-- A thread that holds m_requestsMutex exclusively. -/
inductive Who where
  | handler (t : Nat)
  | pusher (p : Nat)
  deriving DecidableEq

/-- manager.hpp 195-246 `Manager_base`, its threads and the requests.  The map `m_requests` is a list of
keys and names of objects (only search, insertion and removal by key and iteration over a connection are
used of it). -/
structure MSt (σ : Type) where
  tasks : List RequestId
  messages : List (Message × Nat)
  table : List (RequestId × Nat)
  objs : Nat → Obj σ
  next : Nat
  terminate : Bool
  stop : Bool
  invalid : Nat → Bool          -- Socket::valid() is false (sockets.hpp 201-204)
  tlock : Option Nat            -- m_tasksMutex
  writer : Option Who           -- m_requestsMutex, exclusive
  readers : List Nat            -- m_requestsMutex, shared
  th : Nat → HPC
  pu : Nat → PPC
  ub : Bool                     -- undefined behaviour has occurred

def put {α} (f : Nat → α) (i : Nat) (v : α) : Nat → α := fun j => if j = i then v else f j

/-- manager.cpp 34-60: the constructor. -/
def mInit {σ} (init : σ) : MSt σ where
  tasks := []
  messages := []
  table := []
  objs := fun _ => ⟨init, none, none, [], false⟩
  next := 0
  terminate := true
  stop := true
  invalid := fun _ => false
  tlock := none
  writer := none
  readers := []
  th := fun _ => .off
  pu := fun _ => .idle
  ub := false

variable {σ : Type}

def MSt.goto (s : MSt σ) (t : Nat) (pc : HPC) : MSt σ := { s with th := put s.th t pc }
def MSt.pgoto (s : MSt σ) (p : Nat) (pc : PPC) : MSt σ := { s with pu := put s.pu p pc }
def MSt.setObj (s : MSt σ) (r : Nat) (o : Obj σ) : MSt σ := { s with objs := put s.objs r o }

/-- Using a request object: undefined if it does not exist any more. -/
def MSt.touch (s : MSt σ) (r : Nat) : MSt σ := { s with ub := s.ub || !(s.objs r).alive }

/-- manager.cpp 297, 361: destruction of a request and removal from the map.  Destroying a locked mutex is
undefined. -/
def MSt.destroy (s : MSt σ) (k : RequestId) (r : Nat) : MSt σ :=
  { s with
    ub := s.ub || !(s.objs r).alive || (s.objs r).msgs.isSome
    table := s.table.filter (fun e => e.1 ≠ k)
    objs := put s.objs r { s.objs r with alive := false } }

/-- manager.cpp 65, 73, 316: `m_wake.notify_all()`. -/
def MSt.notifyAll (s : MSt σ) : MSt σ :=
  { s with th := fun t => if s.th t = .waiting then .woken else s.th t }

/-- manager.cpp 314: the condition under which a thread ends. -/
def MSt.leave (s : MSt σ) : Bool := s.terminate || (s.stop && s.table.isEmpty)

/-- manager.cpp 254-333 `handler`, and request.cpp 57-162 `Request::handler`: one step of handler thread
`t`; `none` if it cannot move. -/
def hstep (P : Prog σ) (t : Nat) (s : MSt σ) : Option (List MEvent × MSt σ) :=
  match s.th t with
  | .off => none
  | .waiting => none
  | .finished => none
  | .boot => if s.tlock = none then some ([], { s with tlock := some t }.goto t .top) else none
  | .top => if s.writer = none then some ([], { s with readers := t :: s.readers }.goto t .test) else none
  | .test =>
    if !s.terminate && !(s.stop && s.table.isEmpty) then
      some ([], { s with readers := s.readers.filter (· ≠ t) }.goto t .drain)
    else
      some ([.finished t], { s with readers := s.readers.filter (· ≠ t), tlock := none }.goto t .finished)
  | .drain =>
    match s.tasks with
    | k :: rest => some ([], { s with tasks := rest, tlock := none }.goto t (.popped k))
    | [] => some ([], s.goto t .check)
  | .popped k =>
    if k.id = 0 then
      match s.messages with
      | (m, socket) :: rest => some ([.managed m socket], { s with messages := rest }.goto t .relock)
      | [] => some ([], { s with ub := true }.goto t .relock)
    else if s.writer = none then some ([], { s with readers := t :: s.readers }.goto t (.find k)) else none
  | .find k =>
    match s.table.lookup k with
    | none => some ([], { s with readers := s.readers.filter (· ≠ t) }.goto t .relock)
    | some r =>
      if (s.objs r).mutex = none then
        some ([], ({ s.touch r with readers := s.readers.filter (· ≠ t) }.setObj r
          { s.objs r with mutex := some t }).goto t (.enter k r))
      else some ([], { s.touch r with readers := s.readers.filter (· ≠ t) }.goto t .relock)
  | .enter k r =>
    if (s.objs r).msgs = none then
      some ([], ((s.touch r).setObj r { s.objs r with msgs := some t }).goto t (.look k r))
    else none
  | .look k r =>
    match (s.objs r).queue with
    | [] => some ([], (s.touch r).goto t (.kept k r))
    | m :: q =>
      some ([.began r t m], ((s.touch r).setObj r { s.objs r with queue := q, msgs := none }).goto t (.work k r m))
  | .work k r m =>
    let x := P.handle (s.objs r).state m
    some ([.ended r t m x.2],
      ((s.touch r).setObj r { s.objs r with state := x.1 }).goto t (if x.2 then .over k r else .enter k r))
  | .kept k r =>
    if s.invalid k.socket then
      some ([], ((s.touch r).setObj r { s.objs r with msgs := none }).goto t (.over k r))
    else some ([], s.goto t (.stay k r))
  | .stay k r => some ([], ((s.touch r).setObj r { s.objs r with mutex := none }).goto t (.part k r))
  | .part _ r => some ([], ((s.touch r).setObj r { s.objs r with msgs := none }).goto t .relock)
  | .over k r =>
    if s.writer = none ∧ s.readers = [] then some ([], { s with writer := some (.handler t) }.goto t (.erase k r))
    else none
  | .erase k r =>
    some ([.removed r], { ((s.touch r).setObj r { s.objs r with mutex := none }).destroy k r with
      writer := none }.goto t .relock)
  | .relock => if s.tlock = none then some ([], { s with tlock := some t }.goto t .drain) else none
  | .check => if s.writer = none then some ([], { s with readers := t :: s.readers }.goto t .judge) else none
  | .judge =>
    if s.leave then
      some ([.finished t], { s.notifyAll with readers := s.readers.filter (· ≠ t), tlock := none }.goto t .finished)
    else some ([], { s with readers := s.readers.filter (· ≠ t), tlock := none }.goto t .waiting)
  | .woken => if s.tlock = none then some ([], { s with tlock := some t }.goto t .top) else none

/-- manager.cpp 335-418 `push`: one step of the call `p`; `none` if it cannot move.  `w` is the thread
`notify_one` (417) picks, if one is waiting. -/
def pstep (P : Prog σ) (p w : Nat) (s : MSt σ) : Option (List MEvent × MSt σ) :=
  match s.pu p with
  | .idle => none
  | .note k m => some ([.noted m k.socket], { s with messages := s.messages ++ [(m, k.socket)] }.pgoto p (.task k))
  | .lost socket =>
    if s.writer = none ∧ s.readers = [] then
      some ([], { s with writer := some (.pusher p) }.pgoto p
        (.sweep socket (s.table.filter (fun e => e.1.socket = socket))))
    else none
  | .sweep socket ((k, r) :: todo) =>
    if (s.objs r).mutex = none then some ([.removed r], ((s.touch r).destroy k r).pgoto p (.sweep socket todo))
    else some ([.spared r], (s.touch r).pgoto p (.sweep socket todo))
  | .sweep _ [] => some ([], { s with writer := none }.pgoto p .idle)
  | .call k m =>
    if s.writer = none ∧ s.readers = [] then some ([], { s with writer := some (.pusher p) }.pgoto p (.route k m))
    else none
  | .route k m =>
    match s.table.lookup k with
    | none =>
      if m.type = 0 then
        match m.data[1]? with
        | none => some ([], { s with ub := true, writer := none }.pgoto p .idle)
        | some type =>
          if type = 1 then
            some ([.created s.next k m],
              { s with
                ub := s.ub || decide (m.data.length < 11)
                table := (k, s.next) :: s.table
                objs := put s.objs s.next ⟨P.make k m.data, none, none, [], true⟩
                next := s.next + 1
                writer := none }.pgoto p .idle)
          else some ([.dropped k m], { s with writer := none }.pgoto p .idle)
      else some ([.dropped k m], { s with writer := none }.pgoto p .idle)
    | some r =>
      if (s.objs r).msgs = none then
        some ([.accepted r k m], { (s.touch r).setObj r { s.objs r with queue := (s.objs r).queue ++ [m] } with
          writer := none }.pgoto p (.task k))
      else none
  | .task k =>
    if s.tlock = none then
      if s.th w = .waiting then some ([], { s with tasks := s.tasks ++ [k] }.goto w .woken |>.pgoto p .idle)
      else if ∀ t ∈ List.range P.threads, s.th t ≠ .waiting then some ([], { s with tasks := s.tasks ++ [k] }.pgoto p .idle)
      else none
    else none

/-- What the surroundings do. -/
inductive Outer where
  | start                                     -- manager.cpp 76-89
  | stop                                      -- manager.cpp 68-74
  | terminate                                 -- manager.cpp 60-66
  | join                                      -- manager.cpp 91-97 (the transceiver is not part of the model)
  | close (socket : Nat)                      -- sockets.cpp 112-122
  | spurious (t : Nat)                        -- a wait may end without a notification
  | push (p : Nat) (k : RequestId) (m : Message)  -- a call of push: by the transceiver or a callback
  deriving DecidableEq

def estep (P : Prog σ) (e : Outer) (s : MSt σ) : Option (List MEvent × MSt σ) :=
  match e with
  | .start =>
    if s.tlock = none then
      some ([], { s with stop := false, terminate := false,
                         th := fun t => if t < P.threads ∧ s.th t = .off then .boot else s.th t })
    else none
  | .stop => if s.tlock = none then some ([], { s with stop := true }.notifyAll) else none
  | .terminate => if s.tlock = none then some ([], { s with terminate := true }.notifyAll) else none
  | .join =>
    if ∀ t ∈ List.range P.threads, s.th t = .off ∨ s.th t = .finished then some ([], { s with th := fun _ => .off })
    else none
  | .close socket => some ([], { s with invalid := fun x => if x = socket then true else s.invalid x })
  | .spurious t => if s.th t = .waiting then some ([], s.goto t .woken) else none
  | .push p k m =>
    if s.pu p = .idle then
      some (if k.id = 0xffff then [.lost k.socket] else [],
        s.pgoto p (if k.id = 0 then .note k m else if k.id = 0xffff then .lost k.socket else .call k m))
    else none

/-- A step of the whole. -/
inductive MStep (P : Prog σ) : MSt σ → List MEvent → MSt σ → Prop where
  | handler {s es s'} (t : Nat) (h : hstep P t s = some (es, s')) : MStep P s es s'
  | pusher {s es s'} (p w : Nat) (h : pstep P p w s = some (es, s')) : MStep P s es s'
  | env {s es s'} (e : Outer) (h : estep P e s = some (es, s')) : MStep P s es s'

/-- A run: any interleaving of any length. -/
inductive MRun (P : Prog σ) : MSt σ → List MEvent → MSt σ → Prop where
  | refl (s) : MRun P s [] s
  | step {s tr s' es s''} (run : MRun P s tr s') (h : MStep P s' es s'') : MRun P s (tr ++ es) s''

/-- A run in which all that the surroundings do is allowed by `ok`. -/
inductive MRunW (P : Prog σ) (ok : Outer → Prop) : MSt σ → List MEvent → MSt σ → Prop where
  | refl (s) : MRunW P ok s [] s
  | handler {s tr s' es s''} (run : MRunW P ok s tr s') (t : Nat) (h : hstep P t s' = some (es, s'')) : MRunW P ok s (tr ++ es) s''
  | pusher {s tr s' es s''} (run : MRunW P ok s tr s') (p w : Nat) (h : pstep P p w s' = some (es, s'')) : MRunW P ok s (tr ++ es) s''
  | env {s tr s' es s''} (run : MRunW P ok s tr s') (e : Outer) (he : ok e) (h : estep P e s' = some (es, s'')) : MRunW P ok s (tr ++ es) s''

end Fcgi.Model
