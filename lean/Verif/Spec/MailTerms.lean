import Verif.Model.Mail
/-! # Specification: the words of the theorems about the mailer -/
namespace Fcgi.Model
open Fcgi.Spec

/-- The bytes sent. -/
def saidOf (c : List Talk) : Bytes := c.filterMap fun t => match t with | .said b => some b | .heard _ => none

/-- The emails not acknowledged: the one being worked on, and those waiting. -/
def MlSt.waiting (s : MlSt) : List Email := (if s.inEmail then [s.cur] else []) ++ s.queue.filter fun e => !e.to_.isEmpty

/-- A run of the thread made by choices. -/
def mrun (o : Bytes) : List MFate → MlSt → Option (List MailEvent × MlSt)
  | [], s => some ([], s)
  | f :: fs, s => (mstep o f s).bind fun (es, s') => (mrun o fs s').map fun (tr, s'') => (es ++ tr, s'')

/-- The server sends these lines, each when the thread waits for it; the socket takes `room` bytes each time. -/
def serve (room : Nat) (lines : List Bytes) : List MFate := lines.flatMap fun raw => [.go, .go, .ready] ++ raw.map fun b => .byte b room

/-- The thread is at the top of its loop, in the middle of a conversation in this state. -/
structure Talking (s : MlSt) (e : Email) (st : MState) : Prop where
  pc : s.pc = .test
  valid : s.valid = true
  state : s.state = st
  line : s.line = []
  cur : s.cur = e
  term : s.term = false

/-- The replies of a willing server in one session. -/
structure Willing where
  greet : Bytes
  ext1 : List Bytes
  eight : Bytes
  ext2 : List Bytes
  last : Bytes
  r1 : Bytes
  r2 : Bytes
  r3 : Bytes
  r4 : Bytes
  bye : Bytes

structure Willing.Good (w : Willing) : Prop where
  greet : Reply b!"220 " w.greet
  ext1 : ∀ x ∈ w.ext1, Reply b!"250-" x
  eight : IsLine w.eight b!"250-8BITMIME"
  ext2 : ∀ x ∈ w.ext2, Reply b!"250-" x
  last : Reply b!"250 " w.last
  r1 : Reply b!"250 " w.r1
  r2 : Reply b!"250 " w.r2
  r3 : Reply b!"354 " w.r3
  r4 : Reply b!"250 " w.r4
  bye : Reply b!"221 " w.bye

/-- What happens in a session with such a server: the connection is made, and each line arrives when it is waited for. -/
def session (room : Nat) (w : Willing) : List MFate :=
  [.go, .connected, .signal] ++ serve room ([w.greet] ++ w.ext1 ++ [w.eight] ++ w.ext2 ++ [w.last, w.r1, w.r2, w.r3, w.r4, w.bye])

def Fits (o : Bytes) (room : Nat) (e : Email) : Prop :=
  (b!"EHLO " ++ o ++ b!"\n").length ≤ room ∧ (mailCommand e).length ≤ room ∧ (rcptCommand e).length ≤ room ∧ (e.body.flatten ++ dataMark).length ≤ room

/-- The thread is at the top of its loop, not connected, with these emails to send. -/
structure ToSend (s : MlSt) (es : List Email) : Prop where
  pc : s.pc = .test
  valid : s.valid = false
  state : s.state = .disconnected
  term : s.term = false
  stop : s.stop = false
  todo : s.inEmail = true ∧ s.cur :: s.queue = es ∨ s.inEmail = false ∧ s.queue = es

end Fcgi.Model
