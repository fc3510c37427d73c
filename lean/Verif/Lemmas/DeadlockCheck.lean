import Verif.Lemmas.Deadlock
import Verif.Model.Races
/-! # The library takes its locks in one order -/
namespace Fcgi.Lemmas
open Fcgi.Spec Fcgi.Model

/-- The order in which locks are taken. -/
def lockRank : Lock → Nat
  | .request _ => 0
  | .tasks => 1
  | .requests => 2
  | .requestMessages _ => 3
  | .mailer => 4
  | .messages | .sendBuffer | .store _ | .curler | .sql => 4
  | .waking _ => 5
  | .log => 6

theorem lockRank_lt (l : Lock) : lockRank l < 7 := by cases l <;> simp [lockRank]

/-- A piece of code that waits for locks in the order, and ends with the locks it began with. -/
def Ordered (p : Code) (h : List (Lock × Bool)) : Prop := OrderCheck lockRank p h ∧ heldPost p h = h

macro "ord" "[" ls:Lean.Parser.Tactic.simpLemma,* "]" : tactic =>
  `(tactic| simp [Ordered, OrderCheck, heldPost, heldAfter, orderly, SameHeld, lockRank, oneOf, whenDiag, logEntry, groupWake, groupAccept, requestPush, queueTask, pushRecord, pushMaking, $ls,*])

theorem ordered_user (diag : Bool) : Ordered (Role.code diag .user) [] := by
  cases diag <;> ord [Role.code, userCall, managerStop, managerTerminate, sessionGet, sessionChange, sessionSize, sessionExpiration, setExpiration, mailerQueue, mailerStop, curlerQueue, curlerStop, curlerWake, sqlQueue, sqlStop]
theorem ordered_control (diag : Bool) : Ordered (Role.code diag .control) [] := by
  cases diag <;> ord [Role.code, managerStart, managerJoin, curlerStart, userCall, managerStop, managerTerminate, sessionGet, sessionChange, sessionSize, sessionExpiration, setExpiration, mailerQueue, mailerStop, curlerQueue, curlerStop, curlerWake, sqlQueue, sqlStop]
theorem ordered_mailer (diag : Bool) : Ordered (Role.code diag .mailer) [] := by
  cases diag <;> ord [Role.code, mailerHandler, mailerTalk, groupConnect, groupPoll, socketRead, socketWrite, socketClose]
theorem ordered_curler (diag : Bool) : Ordered (Role.code diag .curler) [] := by
  cases diag <;> ord [Role.code, curlerHandler]
theorem ordered_sql (diag : Bool) : Ordered (Role.code diag .sql) [] := by
  cases diag <;> ord [Role.code, sqlHandler, sqlKill, sqlKillAll]
theorem ordered_transceiver (diag : Bool) : Ordered (Role.code diag .transceiver) [] := by
  cases diag <;> ord [Role.code, transHandler, transReceive, transTransmit, transCleanup, transSend, pushLost, pushLocal, eraseRequest, groupPoll, socketRead, socketWrite, socketClose]
theorem ordered_worker (diag : Bool) : Ordered (Role.code diag .worker) [] := by
  cases diag <;> ord [Role.code, workerHandler, workerTasks, localTurn, requestTurn, requestLoop, requestMessage, transSend, eraseRequest, userCall, managerStop, managerTerminate, sessionGet, sessionChange, sessionSize, sessionExpiration, setExpiration, mailerQueue, mailerStop, curlerQueue, curlerStop, curlerWake, sqlQueue, sqlStop]

theorem ordered_role (diag : Bool) (r : Role) : Ordered (Role.code diag r) [] := by
  cases r
  · exact ordered_transceiver diag
  · exact ordered_worker diag
  · exact ordered_mailer diag
  · exact ordered_curler diag
  · exact ordered_sql diag
  · exact ordered_control diag
  · exact ordered_user diag

end Fcgi.Lemmas
