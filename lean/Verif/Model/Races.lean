import Verif.Spec.Race
/-! # Which thread accesses what under which locks

The functions of the library that run while several threads exist, reduced to their lock operations and their accesses to objects that more than one thread knows.
Conditions are left open (both branches, any number of rounds), so every behaviour of the code is among the runs; accesses to local objects, to `std::atomic` members, to
constants and system calls are left out. `try_lock` is the branch with `tryAcq`, and its failure the other one; waiting for a condition variable is `rel` and `acq`.
One process with one `Manager`, `Mailer`, `Curler` and `SQL::Connection` each and any number of session stores. -/
namespace Fcgi.Model
open Fcgi.Spec

/-- The two objects of class `SocketGroup`: the transceiver's and the mailer's. -/
inductive SGroup where
  | fcgi | mail
  deriving DecidableEq

/-- The mutexes: manager.hpp 212, 218, 224, request.hpp 65, 79 (of each request), transceiver.hpp 213, sockets.hpp 433, log.hpp 49, http.hpp 535 (of each store),
mailer.hpp 137, curler.hpp 118, sql/connection.hpp 193. -/
inductive Lock where
  | tasks | requests | messages | request (i : Nat) | requestMessages (i : Nat) | sendBuffer | waking (g : SGroup) | log | store (k : Nat) | mailer | curler | sql
  deriving DecidableEq

/-- The objects known to several threads. `slot i` is the pointer to request `i` in `m_requests`, `request i` the request itself, `tm` the buffer inside the C library that
`std::gmtime` and `std::localtime` return, `expiration k b` the two texts of http.hpp 541, `poll g` the members `m_sockets`, `m_poll` and `m_listeners` of a group. -/
inductive Var where
  | tasks | stopFlags | activeThreads | threads | requests | maxRequests | slot (i : Nat) | request (i : Nat) | requestMessages (i : Nat) | messages
  | sendBuffer | receiveBuffers | poll (g : SGroup) | waking (g : SGroup) | valid (g : SGroup) (s : Nat) | closing (g : SGroup) (s : Nat)
  | logstream | suppress | tm
  | sessions (k : Nat) | cleanupTime (k : Nat) | expiration (k b : Nat)
  | mailQueue | mailState | mailThread
  | curlQueue | curlHandles | curlWaking | curlThread
  | sqlQueue | sqlConnections | sqlThread
  deriving DecidableEq

abbrev Code := TProg Lock Var

abbrev rdV (v : Var) : Code := .act (.rd v)
abbrev wrV (v : Var) : Code := .act (.wr v)
abbrev acq (l : Lock) : Code := .act (.acq l)
abbrev rel (l : Lock) : Code := .act (.rel l)
infixr:60 " ;; " => TProg.seq
abbrev opt (p : Code) : Code := .alt .skip p
/-- `std::lock_guard` around a block -/
abbrev locked (l : Lock) (p : Code) : Code := acq l ;; p ;; rel l
def oneOf : List Code → Code
  | [] => .skip
  | [p] => p
  | p :: ps => .alt p (oneOf ps)
/-- code compiled only with `FASTCGIPP_LOG_LEVEL > 3` -/
abbrev whenDiag (diag : Bool) (p : Code) : Code := if diag then p else .skip

/-! ## log.hpp, log.cpp -/

/-- log.hpp 71-160, log.cpp 107-113: an entry; some look at `suppress` first. -/
def logEntry : Code := opt (rdV .suppress) ;; opt (locked .log (wrV .tm ;; rdV .tm ;; wrV .logstream))

/-! ## sockets.cpp -/

/-- sockets.cpp 555-566 -/
def groupWake (g : SGroup) : Code := locked (.waking g) (rdV (.waking g) ;; opt (wrV (.waking g) ;; logEntry))
/-- sockets.cpp 610-618 -/
def groupAccept (g : SGroup) : Code := opt (groupWake g)
/-- sockets.cpp 112-126 -/
def socketClose (diag : Bool) (g : SGroup) (s : Nat) : Code :=
  rdV (.valid g s) ;; opt (wrV (.poll g) ;; wrV (.valid g s) ;; wrV (.poll g) ;; whenDiag diag (rdV (.closing g s)))
/-- sockets.cpp 59-87 -/
def socketRead (diag : Bool) (g : SGroup) (s : Nat) : Code :=
  rdV (.valid g s) ;; opt (oneOf [logEntry ;; opt (socketClose diag g s), rdV (.closing g s) ;; opt (socketClose diag g s)])
/-- sockets.cpp 89-110 -/
def socketWrite (diag : Bool) (g : SGroup) (s : Nat) : Code :=
  rdV (.valid g s) ;; opt (rdV (.closing g s) ;; opt (logEntry ;; socketClose diag g s))
/-- sockets.cpp 392-468: the members changed by `connect` -/
def groupConnect (g : SGroup) : Code := logEntry ;; opt (wrV (.poll g))
/-- sockets.cpp 470-553, 568-603 -/
def groupPoll (g : SGroup) : Code :=
  .star (rdV (.poll g) ;; .star (rdV (.poll g) ;; wrV (.poll g) ;; logEntry) ;; rdV (.poll g) ;;
    oneOf [logEntry ;; wrV (.poll g), locked (.waking g) (logEntry ;; wrV (.waking g)), rdV (.poll g) ;; logEntry ;; wrV (.poll g), logEntry]) ;;
  opt (rdV (.poll g) ;; .any fun s => opt (logEntry ;; wrV (.closing g s)))

/-! ## transceiver.cpp -/

/-- transceiver.cpp 205-222 -/
def transSend : Code := locked .sendBuffer (wrV .sendBuffer) ;; groupWake .fcgi
/-- transceiver.cpp 32-73; `m_sendBuffer.empty()` is called without the lock -/
def transTransmit (diag : Bool) : Code :=
  rdV .sendBuffer ;; .star (locked .sendBuffer (rdV .sendBuffer ;; wrV .sendBuffer) ;;
    (.any fun s => socketWrite diag .fcgi s ;; oneOf [.skip, locked .sendBuffer (wrV .sendBuffer), socketClose diag .fcgi s ;; wrV .receiveBuffers]) ;; rdV .sendBuffer)

/-! ## request.cpp, request.hpp -/

/-- request.hpp 68-72 -/
def requestPush (i : Nat) : Code := locked (.requestMessages i) (wrV (.requestMessages i))

/-! ## manager.cpp -/

/-- manager.cpp 413-417 -/
def queueTask : Code := locked .tasks (wrV .tasks)
/-- manager.cpp 337-344 with 413-417: a management record -/
def pushLocal : Code := locked .messages (wrV .messages) ;; queueTask
/-- The end of a request: its entry in the map is removed, and its destructor sends what is left in its streams. -/
def eraseRequest (i : Nat) : Code := wrV .requests ;; wrV (.slot i) ;; wrV (.request i) ;; .star transSend ;; wrV (.requestMessages i)
/-- manager.cpp 346-370: the loss of a connection -/
def pushLost : Code :=
  acq .requests ;; rdV .requests ;; .star (.any fun i => rdV (.slot i) ;; opt (.act (.tryAcq (.request i)) ;; rel (.request i) ;; eraseRequest i)) ;; rel .requests
/-- manager.cpp 371-417: a record or a message for a request. A new request is known to no other thread while it is being made; what its constructor, a part of the
application, calls is `ctor`. -/
def pushMaking (diag : Bool) (ctor : Code) : Code :=
  acq .requests ;; rdV .requests ;;
  oneOf [(.any fun i => rdV (.slot i) ;; requestPush i) ;; rel .requests ;; queueTask,
    logEntry ;; rel .requests,
    ctor ;; wrV .requests ;; rel .requests ;; whenDiag diag (rdV .maxRequests ;; rdV .requests ;; wrV .maxRequests)]
/-- The same with a constructor that calls nothing. -/
def pushRecord (diag : Bool) : Code := pushMaking diag .skip
/-- manager.cpp 60-74 -/
def managerStop : Code := locked .tasks (wrV .stopFlags ;; groupAccept .fcgi)
def managerTerminate : Code := locked .tasks (wrV .stopFlags ;; groupWake .fcgi)
/-- manager.cpp 76-89, transceiver.cpp 100-110 -/
def managerStart : Code := locked .tasks (logEntry ;; wrV .stopFlags ;; groupAccept .fcgi ;; wrV .threads)
/-- manager.cpp 91-97, transceiver.cpp 112-118 -/
def managerJoin : Code := rdV .threads ;; wrV .threads
/-- manager.cpp 420-429; `m_stop` is read without the lock -/
def managerResize (diag : Bool) : Code := rdV .stopFlags ;; opt (wrV .threads ;; whenDiag diag (wrV .activeThreads))

/-! ## http.hpp: sessions -/

/-- http.hpp 735-748 -/
def setExpiration (k : Nat) : Code := rdV (.cleanupTime k) ;; wrV .tm ;; rdV .tm ;; .any fun b => wrV (.expiration k b)
/-- http.hpp 699-733 -/
def sessionGet (k : Nat) : Code :=
  locked (.store k) (opt (wrV (.sessions k) ;; wrV (.cleanupTime k) ;; setExpiration k) ;; rdV (.sessions k) ;; opt (wrV (.sessions k)))
/-- http.hpp 683-697, 590-594 -/
def sessionChange (k : Nat) : Code := locked (.store k) (wrV (.sessions k))
/-- http.hpp 571-575 -/
def sessionSize (k : Nat) : Code := locked (.store k) (rdV (.sessions k))
/-- http.hpp 597-600 and the use of the text it returns -/
def sessionExpiration (k : Nat) : Code := .any fun b => rdV (.expiration k b)

/-! ## mailer.cpp -/

/-- mailer.cpp 324-338 -/
def mailerStop : Code := locked .mailer (groupWake .mail)
/-- mailer.cpp 377-382 -/
def mailerQueue : Code := locked .mailer (wrV .mailQueue ;; groupWake .mail)
/-- mailer.cpp 55-319: the dialogue with the server -/
def mailerTalk (diag : Bool) : Code :=
  rdV .mailState ;; .star (oneOf [wrV .mailState, rdV .mailState, logEntry, groupConnect .mail, groupPoll .mail,
    .any fun s => oneOf [rdV (.valid .mail s), socketRead diag .mail s, socketWrite diag .mail s, socketClose diag .mail s]])
/-- mailer.cpp 33-322 -/
def mailerHandler (diag : Bool) : Code :=
  acq .mailer ;; rdV .mailQueue ;; rdV .mailState ;;
  .star (rdV .mailState ;; opt (rel .mailer ;; acq .mailer ;; wrV .mailState ;; rdV .mailQueue ;; rdV .mailState) ;;
    rdV .mailState ;; rdV .mailQueue ;; opt (rdV .mailQueue ;; wrV .mailState ;; wrV .mailQueue) ;;
    rel .mailer ;; mailerTalk diag ;; acq .mailer ;; rdV .mailQueue ;; rdV .mailState) ;;
  opt (rdV .mailState ;; rel .mailer ;; acq .mailer ;; wrV .mailState ;; rdV .mailQueue ;; rdV .mailState) ;; rel .mailer

/-! ## curler.cpp -/

/-- curler.cpp 190-200 -/
def curlerWake : Code := rdV .curlWaking ;; opt (wrV .curlWaking ;; logEntry)
/-- curler.cpp 152-162; no lock is taken -/
def curlerStop : Code := curlerWake
/-- curler.cpp 182-188 -/
def curlerQueue : Code := locked .curler (wrV .curlQueue ;; curlerWake)
/-- curler.cpp 164-174 -/
def curlerStart : Code := rdV .curlThread ;; opt (wrV .curlWaking ;; wrV .curlThread)
/-- curler.cpp 35-108; the callback of a request is `Manager_base::push` -/
def curlerHandler (diag : Bool) : Code :=
  acq .curler ;; rdV .curlQueue ;; rdV .curlHandles ;;
  .star (rdV .curlQueue ;; rdV .curlHandles ;; .star (rdV .curlQueue ;; wrV .curlHandles ;; wrV .curlQueue ;; logEntry) ;; rel .curler ;; wrV .curlHandles ;;
    oneOf [acq .curler ;; logEntry ;; wrV .curlWaking,
      logEntry ;; wrV .curlHandles ;; .star (rdV .curlHandles ;; logEntry ;; wrV .curlHandles ;; opt (pushRecord diag)) ;; acq .curler] ;;
    rdV .curlQueue ;; rdV .curlHandles) ;;
  rel .curler

/-! ## sql/connection.cpp -/

/-- connection.cpp 332-342 -/
def sqlKill : Code := wrV .sqlConnections ;; opt (locked .sql (wrV .sqlQueue)) ;; wrV .sqlConnections
/-- connection.cpp 344-354 -/
def sqlKillAll : Code := wrV .sqlConnections ;; locked .sql (wrV .sqlQueue)
/-- connection.cpp 42-205; `m_queue.empty()` at 45 is called without the lock. The callback of a query is `Manager_base::push`. -/
def sqlHandler (diag : Bool) : Code :=
  sqlKillAll ;; rdV .sqlQueue ;;
  .star (rdV .sqlConnections ;; .star (logEntry ;; wrV .sqlConnections) ;;
    .star (rdV .sqlConnections ;; locked .sql (rdV .sqlQueue ;; opt (wrV .sqlQueue)) ;; wrV .sqlConnections ;; opt (logEntry ;; sqlKill)) ;;
    rdV .sqlConnections ;; oneOf [logEntry, rdV .sqlConnections ;; logEntry ;; wrV .sqlConnections ;; opt (pushRecord diag), rdV .sqlConnections ;; logEntry ;; sqlKill] ;;
    rdV .sqlQueue) ;;
  sqlKillAll
/-- connection.cpp 275-288; `connected()` at 277 is called without the lock -/
def sqlQueue : Code := rdV .sqlConnections ;; opt (locked .sql (wrV .sqlQueue ;; logEntry))
/-- connection.cpp 207-217, 241-247 -/
def sqlStop : Code := logEntry

/-! ## The threads -/

/-- What any thread, and a request in its handlers, may call. -/
def userCall (diag : Bool) : Code := oneOf
  [logEntry, pushRecord diag, managerStop, managerTerminate,
   .any fun k => oneOf [sessionGet k, sessionChange k, sessionSize k, sessionExpiration k],
   mailerQueue, mailerStop, curlerQueue, curlerStop, sqlQueue, sqlStop]

/-- request.cpp 66-182: one message, with all that the application does in its handlers -/
def requestMessage (diag : Bool) (i : Nat) : Code :=
  rdV (.request i) ;; .star (oneOf [rdV (.request i), wrV (.request i), transSend, userCall diag])
/-- request.cpp 56-65: the loop, from taking the lock to the next empty queue -/
def requestLoop (diag : Bool) (i : Nat) : Code :=
  acq (.requestMessages i) ;; rdV (.requestMessages i) ;;
  .star (wrV (.requestMessages i) ;; rel (.requestMessages i) ;; requestMessage diag i ;; acq (.requestMessages i) ;; rdV (.requestMessages i))
/-- manager.cpp 290-307, request.cpp 56-182: the request is handled and is over (its `handler` returns without the lock), or its connection is lost, or it waits -/
def requestTurn (diag : Bool) (i : Nat) : Code :=
  requestLoop diag i ;;
  oneOf [wrV (.requestMessages i) ;; rel (.requestMessages i) ;; requestMessage diag i ;; whenDiag diag (.any fun s => rdV (.valid .fcgi s)) ;;
      acq .requests ;; rel (.request i) ;; eraseRequest i ;; rel .requests,
    (.any fun s => rdV (.valid .fcgi s)) ;;
      oneOf [rel (.requestMessages i) ;; acq .requests ;; rel (.request i) ;; eraseRequest i ;; rel .requests,
        rel (.request i) ;; rel (.requestMessages i)]]
/-- manager.cpp 141-252 -/
def localTurn : Code := locked .messages (rdV .messages ;; wrV .messages) ;; .star transSend ;; logEntry
/-- manager.cpp 265-314: the tasks -/
def workerTasks (diag : Bool) : Code :=
  .act (.relS .requests) ;; rdV .tasks ;;
  .star (rdV .tasks ;; wrV .tasks ;; rel .tasks ;;
    oneOf [localTurn,
      .any fun i => .act (.acqS .requests) ;; rdV .requests ;;
        oneOf [.act (.relS .requests), rdV (.slot i) ;; .act (.relS .requests),
          rdV (.slot i) ;; .act (.tryAcq (.request i)) ;; .act (.relS .requests) ;; rdV (.slot i) ;; requestTurn diag i]] ;;
    acq .tasks ;; rdV .tasks) ;;
  .act (.acqS .requests) ;; rdV .stopFlags ;; rdV .requests
/-- manager.cpp 254-333 -/
def workerHandler (diag : Bool) : Code :=
  acq .tasks ;; .act (.acqS .requests) ;; rdV .stopFlags ;; rdV .requests ;;
  .star (workerTasks diag ;; .act (.relS .requests) ;; whenDiag diag (wrV .activeThreads) ;; rel .tasks ;; acq .tasks ;;
    whenDiag diag (rdV .stopFlags ;; wrV .activeThreads) ;; .act (.acqS .requests) ;; rdV .stopFlags ;; rdV .requests) ;;
  opt (workerTasks diag) ;; .act (.relS .requests) ;; rel .tasks

/-- transceiver.cpp 193-203 -/
def transCleanup (diag : Bool) (s : Nat) : Code := wrV .receiveBuffers ;; pushLost ;; socketClose diag .fcgi s
/-- transceiver.cpp 134-191 -/
def transReceive (diag : Bool) : Code := .any fun s =>
  rdV (.valid .fcgi s) ;; opt (wrV .receiveBuffers ;; opt (socketRead diag .fcgi s ;; opt (transCleanup diag s) ;; wrV .receiveBuffers) ;;
    opt (socketRead diag .fcgi s ;; oneOf [transCleanup diag s, wrV .receiveBuffers, wrV .receiveBuffers ;; pushLocal, wrV .receiveBuffers ;; pushRecord diag]))
/-- transceiver.cpp 75-86 -/
def transHandler (diag : Bool) : Code :=
  rdV (.poll .fcgi) ;; .star (groupPoll .fcgi ;; transReceive diag ;; transTransmit diag ;; rdV (.poll .fcgi))

/-- The threads of a process: those of the library, one that starts them and waits for their end, and any number of others. -/
inductive Role where
  | transceiver | worker | mailer | curler | sql | control | user
  deriving DecidableEq

/-- Of these there is only one. -/
def Role.solo : Role → Prop
  | .worker | .user => False
  | _ => True

def Role.code (diag : Bool) : Role → Code
  | .transceiver => transHandler diag
  | .worker => workerHandler diag
  | .mailer => mailerHandler diag
  | .curler => curlerHandler diag
  | .sql => sqlHandler diag
  | .control => .star (oneOf [managerStart, managerJoin, curlerStart, rdV .curlThread ;; wrV .curlThread, rdV .mailThread ;; wrV .mailThread, rdV .sqlThread ;; wrV .sqlThread, userCall diag])
  | .user => .star (userCall diag)

end Fcgi.Model
