import Verif.Spec.Mail
/-! # Model of the mailer (src/mailer.cpp, include/fastcgi++/mailer.hpp)

One thread runs `handler()`; any threads call `queue()`, `stop()` and `terminate()`; `start()` is called while the thread
does not run.  All these take `m_mutex`, which the handler holds from the end of one round to the beginning of the
network part of the next: that is one step here.  The socket belongs to the handler alone.  It is a blocking socket
(sockets.cpp 404-465 does not set O_NONBLOCK): `read` waits for a byte, the end of the stream or an error. -/
namespace Fcgi.Model
open Fcgi.Spec

/-- mailer.hpp 178-190 -/
inductive MState where
  | disconnected | connected | ehlo | eightbit | mail | rcpt | data | dump | quit | error
  deriving DecidableEq

/-- Where the thread is. -/
inductive MPC where
  | off
  | test                          -- mailer.cpp 36-52
  | wait                          -- mailer.cpp 41
  | connect                       -- mailer.cpp 56-70
  | poll                          -- mailer.cpp 72
  | read (buffer : Option Byte)   -- mailer.cpp 75-80; `none`: the variable `buffer` has not been set in this round
  | done
  | ub
  deriving DecidableEq

structure MlSt where
  queue : List Email
  cur : Email                     -- m_email
  state : MState
  valid : Bool                    -- m_socket.valid()
  null : Bool                     -- m_socket refers to no connection at all
  line : Bytes                    -- m_line
  stop : Bool
  term : Bool
  pc : MPC
  waking : Bool                   -- SocketGroup::m_waking: a byte is in the wake-up socket
  bad : Bool                      -- (not in the program) an indeterminate value or the last byte of an empty string was used

/-- mailer.hpp 164-167 `inEmail` -/
def MlSt.inEmail (s : MlSt) : Bool := !s.cur.to_.isEmpty

/-- mailer.hpp 170-175 `purgeEmail` -/
def MlSt.purge (s : MlSt) : MlSt := { s with cur := ⟨[], [], []⟩ }

def mailInit (stop term : Bool) : MlSt where
  queue := []
  cur := ⟨[], [], []⟩
  state := .disconnected
  valid := false
  null := true
  line := []
  stop := stop
  term := term
  pc := .off
  waking := false
  bad := false

/-- The choices not made by the program. -/
inductive MFate where
  | go                                    -- none to make
  | connected | failed                    -- mailer.cpp 59
  /-- `poll`: the wake-up socket (then perhaps also the connection), a signal, the connection -/
  | woken (ready : Bool) | signal | ready
  /-- `read` yields a byte; if that completes a line, how many of the bytes then written go out -/
  | byte (b : Byte) (room : Nat)
  /-- `read` does not yield a byte, the connection being closed by it or not (sockets.cpp 60-87); if `buffer` has not been set,
  whether it happens to be a newline. -/
  | eof (closed stale : Bool)
  deriving DecidableEq

/-- Closing the socket and going to the state ERROR. -/
def MlSt.fail (s : MlSt) : MlSt := { s with valid := false, state := .error }

/-- `m_socket.write` of a whole command, with the consequences: mailer.cpp 93-116 and so on.  Simplified: nothing goes out if
the other side has hung up, which is one of the choices here. -/
def MlSt.write (s : MlSt) (command : Bytes) (room : Nat) (next : MState) : Bytes × MlSt :=
  if command.length ≤ room then (command, { s with state := next }) else (command.take room, s.fail)

/-- mailer.cpp 237-247: what goes out of the chunks, and the room left if all of them did. -/
def writeChunks : List Bytes → Nat → Bytes × Option Nat
  | [], room => ([], some room)
  | c :: cs, room =>
    if c.length ≤ room then
      let (out, left) := writeChunks cs (room - c.length)
      (c ++ out, left)
    else (c.take room, none)

/-- mailer.cpp 84-85 -/
def stripCr (line : Bytes) : Bytes := if line.getLast? = some c!"\r" then line.dropLast else line

/-- mailer.cpp 84-316: a line has been read; what is sent.  (84: `back()` of an empty line looks at the byte before the
string, in libstdc++ a byte of its length and never a CR.) -/
def MlSt.reply (origin : Bytes) (s : MlSt) (room : Nat) : Bytes × MlSt :=
  let line := stripCr s.line
  let (out, s') := match s.state with
    | .connected =>
      if line.length ≥ 4 ∧ line.take 4 = b!"220 " then s.write (b!"EHLO " ++ origin ++ b!"\n") room .ehlo else ([], s.fail)
    | .ehlo =>
      if line = b!"250-8BITMIME" then ([], { s with state := .eightbit })
      else if line.length ≥ 4 ∧ line.take 3 = b!"250" then
        if line[3]? = some c!" " then ([], s.fail) else if line[3]? = some c!"-" then ([], s) else ([], s.fail)
      else ([], s.fail)
    | .eightbit =>
      if line.length ≥ 4 ∧ line.take 3 = b!"250" then
        if line[3]? = some c!" " then s.write (b!"MAIL FROM: <" ++ s.cur.sender ++ b!">\n") room .mail
        else if line[3]? = some c!"-" then ([], s) else ([], s.fail)
      else ([], s.fail)
    | .mail =>
      if line.length ≥ 4 ∧ line.take 4 = b!"250 " then s.write (b!"RCPT TO: <" ++ s.cur.to_ ++ b!">\n") room .rcpt else ([], s.fail)
    | .rcpt =>
      if line.length ≥ 4 ∧ line.take 4 = b!"250 " then s.write b!"DATA\n" room .data else ([], s.fail)
    | .data =>
      if line.length ≥ 4 ∧ line.take 4 = b!"354 " then
        match writeChunks s.cur.body room with
        | (out, none) => (out, s.fail)
        | (out, some left) =>
          let (out', s') := s.write b!"\r\n.\r\n" left .dump
          (out ++ out', s')
      else ([], s.fail)
    | .dump =>
      if line.length ≥ 4 ∧ line.take 4 = b!"250 " then s.purge.write b!"QUIT\n" room .quit else ([], s.fail)
    | .quit => ([], { s with valid := false, state := if line.length ≥ 4 ∧ line.take 4 = b!"221 " then .disconnected else .error })
    | .error | .disconnected => ([], s)
  (out, { s' with line := [], bad := s'.bad || s.line.isEmpty, pc := .test })

/-- The condition of mailer.cpp 36 and 44, not to go on. -/
def MlSt.ends (s : MlSt) : Bool := s.term || (s.stop && s.queue.isEmpty && !s.inEmail)

/-- mailer.cpp 48-52 -/
def MlSt.take (s : MlSt) : MlSt :=
  if s.inEmail then s else match s.queue with
    | [] => s
    | e :: queue => { s with cur := e, queue := queue }

/-- A step of `handler()`, mailer.cpp 33-322. -/
def mstep (origin : Bytes) (f : MFate) (s : MlSt) : Option (List MailEvent × MlSt) :=
  match s.pc with
  | .off | .done | .ub => none
  | .test =>
    if s.ends then some ([.ended], { s with pc := .done })
    else if s.state = .error then some ([], { s with pc := .wait })
    else some ([], { s.take with pc := .connect })
  | .wait =>
    let s := { s with state := .disconnected }
    if s.ends then some ([.ended], { s with pc := .done }) else some ([], { s.take with pc := .connect })
  | .connect =>
    if s.inEmail ∧ !s.valid then
      match f with
      | .connected => some ([.connected], { s with line := [], valid := true, null := false, state := .connected, pc := .poll })
      | .failed => some ([], { s with line := [], null := true, state := .error, pc := .test })
      | _ => none
    else some ([], { s with pc := .poll })
  | .poll =>
    if s.valid then
      match f with
      | .woken ready => if s.waking then some ([], { s with waking := false, pc := if ready then .read none else .test }) else none
      | .signal => some ([], { s with pc := .test })
      | .ready => some ([], { s with pc := .read none })
      | _ => none
    -- no connection: `poll` returns a null socket at once (sockets.cpp 469).  If `m_socket` is one, too, then `read` fails and
    -- `buffer` is used unset; a newline there would have no effect in the state DISCONNECTED, which it is then.
    else some ([], { s with bad := s.bad || s.null, pc := .test })
  | .read buffer =>
    match f with
    | .byte b room =>
      if b = c!"\n" then
        let (out, s') := s.reply origin room
        some (.talk (.heard b) :: (said out).map .talk, s')
      else some ([.talk (.heard b)], { s with line := s.line ++ [b], pc := .read (some b) })
    | .eof closed stale =>
      let s := { s with valid := s.valid && !closed }
      match buffer with
      | some _ => some ([], { s with pc := .test })
      -- `buffer` is used unset.  What it holds is what it held in the last round: a newline only if a line was completed.
      | none =>
        if stale then
          if s.line.isEmpty then some ([], { (s.reply origin 0).2 with bad := true }) else some ([], { s with bad := true, pc := .ub })
        else some ([], { s with bad := true, pc := .test })
    | _ => none

inductive MCall where
  | queue (e : Email)   -- mailer.cpp 377-382
  | stop                -- 324-330
  | terminate           -- 332-338
  | start               -- 340-349, after join()
  deriving DecidableEq

def mcall (c : MCall) (s : MlSt) : Option (List MailEvent × MlSt) :=
  match c with
  | .queue e => some ([.queued e], { s with queue := s.queue ++ [e], waking := true })
  | .stop => some ([.stopped], { s with stop := true, waking := true })
  | .terminate => some ([.terminated], { s with term := true, waking := true })
  | .start => if s.pc = .off ∨ s.pc = .done then some ([.started], { s with stop := false, term := false, pc := .test }) else none

inductive MailStep (origin : Bytes) : MlSt → List MailEvent → MlSt → Prop where
  | handler {s es s'} (f : MFate) (h : mstep origin f s = some (es, s')) : MailStep origin s es s'
  | call {s es s'} (c : MCall) (h : mcall c s = some (es, s')) : MailStep origin s es s'

inductive MailRun (origin : Bytes) : MlSt → List MailEvent → MlSt → Prop where
  | refl (s) : MailRun origin s [] s
  | step {s tr s' es s''} (run : MailRun origin s tr s') (h : MailStep origin s' es s'') : MailRun origin s (tr ++ es) s''

end Fcgi.Model
