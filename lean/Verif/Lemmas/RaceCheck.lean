import Verif.Lemmas.Race
import Verif.Model.Races
/-! # The library obeys the lock discipline -/
namespace Fcgi.Lemmas
open Fcgi.Spec Fcgi.Model

/-- What protects what. The variables with `none` are not protected. -/
def guardOf (diag : Bool) : Var → Option (Guard Lock Role)
  | .tasks => some (.locks [[.tasks]] [[.tasks]])
  | .stopFlags => some (.locks [[.tasks]] [[.tasks]])
  | .activeThreads => some (.locks [[.tasks]] [[.tasks]])
  | .threads => some (.owner .control)
  | .requests => if diag then none else some (.locks [[.requests]] [[.requests]])
  | .maxRequests => if diag then none else some .const
  | .slot i => some (.locks [[.requests, .request i]] [[.requests], [.request i]])
  | .request i => some (.locks [[.request i]] [[.request i]])
  | .requestMessages i => some (.locks [[.requests, .requestMessages i], [.request i, .requestMessages i], [.requests, .request i]]
      [[.requests, .requestMessages i], [.request i, .requestMessages i], [.requests, .request i]])
  | .messages => some (.locks [[.messages]] [[.messages]])
  | .sendBuffer => none
  | .receiveBuffers => some (.owner .transceiver)
  | .poll .fcgi => some (.owner .transceiver)
  | .poll .mail => some (.owner .mailer)
  | .waking g => some (.locks [[.waking g]] [[.waking g]])
  | .valid .fcgi _ => none
  | .valid .mail _ => some (.owner .mailer)
  | .closing .fcgi _ => some (.owner .transceiver)
  | .closing .mail _ => some (.owner .mailer)
  | .logstream => some (.locks [[.log]] [[.log]])
  | .suppress => some .const
  | .tm => none
  | .sessions k => some (.locks [[.store k]] [[.store k]])
  | .cleanupTime k => some (.locks [[.store k]] [[.store k]])
  | .expiration _ _ => none
  | .mailQueue => some (.locks [[.mailer]] [[.mailer]])
  | .mailState => some (.owner .mailer)
  | .mailThread => some (.owner .control)
  | .curlQueue => some (.locks [[.curler]] [[.curler]])
  | .curlHandles => some (.owner .curler)
  | .curlWaking => none
  | .curlThread => some (.owner .control)
  | .sqlQueue => none
  | .sqlConnections => none
  | .sqlThread => some (.owner .control)

/-- The mutex of a request is taken only by who holds the lock of the map. -/
def underOf : Lock → Option Lock
  | .request _ => some .requests
  | _ => none

def libRules (diag : Bool) : Rules Lock Var Role := ⟨guardOf diag, underOf⟩

theorem libRules_sound (diag : Bool) : (libRules diag).Sound Role.solo := by
  constructor
  · intro v w rs h
    cases diag <;> cases v <;> (try cases ‹SGroup›) <;> simp [libRules, guardOf] at h <;> obtain ⟨rfl, rfl⟩ := h <;> simp
  · intro v r h
    cases diag <;> cases v <;> (try cases ‹SGroup›) <;> simp [libRules, guardOf] at h <;> subst h <;> trivial

/-- A piece of code that obeys the rules and ends with the locks it began with. -/
def Keeps (diag : Bool) (r : Role) (p : Code) (A : Had Lock) : Prop := (libRules diag).Check r p A ∧ ∀ x ∈ A, x ∈ (libRules diag).post p A

macro "chk" "[" ls:Lean.Parser.Tactic.simpLemma,* "]" : tactic =>
  `(tactic| simp [Keeps, Rules.Check, Rules.post, Rules.ok, Rules.after, libRules, guardOf, underOf, Had.some_, Had.own, oneOf, whenDiag, logEntry, groupWake, groupAccept, requestPush, queueTask, pushRecord, pushMaking, $ls,*])

/-- The calls open to everybody obey the rules, made by any thread and made by a request. -/
theorem keeps_user (diag : Bool) (r : Role) : Keeps diag r (userCall diag) [] := by cases diag <;> chk [userCall, managerStop, managerTerminate, sessionGet, sessionChange, sessionSize, sessionExpiration, setExpiration, mailerQueue, mailerStop, curlerQueue, curlerStop, curlerWake, sqlQueue, sqlStop]
theorem keeps_user_request (diag : Bool) (r : Role) (i : Nat) : Keeps diag r (userCall diag) [(.request i, .excl)] := by cases diag <;> chk [userCall, managerStop, managerTerminate, sessionGet, sessionChange, sessionSize, sessionExpiration, setExpiration, mailerQueue, mailerStop, curlerQueue, curlerStop, curlerWake, sqlQueue, sqlStop]

theorem check_user (diag : Bool) : (libRules diag).Check .user (Role.code diag .user) [] := keeps_user diag .user
theorem check_control (diag : Bool) : (libRules diag).Check .control (Role.code diag .control) [] := by
  cases diag <;> chk [Role.code, managerStart, managerJoin, curlerStart, userCall, managerStop, managerTerminate, sessionGet, sessionChange, sessionSize, sessionExpiration, setExpiration, mailerQueue, mailerStop, curlerQueue, curlerStop, curlerWake, sqlQueue, sqlStop]
theorem check_mailer (diag : Bool) : (libRules diag).Check .mailer (Role.code diag .mailer) [] := by
  cases diag <;> chk [Role.code, mailerHandler, mailerTalk, groupConnect, groupPoll, socketRead, socketWrite, socketClose]
theorem check_curler (diag : Bool) : (libRules diag).Check .curler (Role.code diag .curler) [] := by
  cases diag <;> chk [Role.code, curlerHandler]
theorem check_sql (diag : Bool) : (libRules diag).Check .sql (Role.code diag .sql) [] := by
  cases diag <;> chk [Role.code, sqlHandler, sqlKill, sqlKillAll]
theorem check_transceiver (diag : Bool) : (libRules diag).Check .transceiver (Role.code diag .transceiver) [] := by
  cases diag <;> chk [Role.code, transHandler, transReceive, transTransmit, transCleanup, transSend, pushLost, pushLocal, eraseRequest, groupPoll, socketRead, socketWrite, socketClose]
theorem check_worker (diag : Bool) : (libRules diag).Check .worker (Role.code diag .worker) [] := by
  cases diag <;> chk [Role.code, workerHandler, workerTasks, localTurn, requestTurn, requestLoop, requestMessage, transSend, eraseRequest, userCall, managerStop, managerTerminate, sessionGet, sessionChange, sessionSize, sessionExpiration, setExpiration, mailerQueue, mailerStop, curlerQueue, curlerStop, curlerWake, sqlQueue, sqlStop]

end Fcgi.Lemmas
