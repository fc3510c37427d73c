import Verif.Lemmas.RaceCheck
import Verif.Lemmas.RacePlay
/-! # C135: data races -/
namespace Fcgi.Props
open Fcgi.Spec Fcgi.Model Fcgi.Lemmas

/-- The objects on which there are races (shown below). -/
def Raced (diag : Bool) : Var → Prop
  | .sendBuffer | .valid .fcgi _ | .tm | .expiration _ _ | .curlWaking | .sqlQueue | .sqlConnections => True
  | .requests | .maxRequests => diag = true
  | _ => False

/-- **C135** In a process with one manager (any number of handler threads), a mailer, an HTTP client, an SQL connection, session stores and the log, where any number of
threads and all requests in their handlers call what they like, no two threads are ever about to access the same object with one of them changing it.
Missing: the objects of `Raced`; `resizeThreads()` (`C135_resize_violated`). -/
theorem C135_partial (diag : Bool) (role : Nat → Role) (one : ∀ i j, (role i).solo → role i = role j → i = j) {s t : Threads Lock Var}
    (start : Starting (Role.code diag) role s) (run : ThreadsReach s t) (v : Var) (hv : ¬ Raced diag v) : ¬ Race t v := by
  have hc : ∀ r, (libRules diag).Check r (Role.code diag r) [] := by
    intro r
    cases r
    · exact check_transceiver diag
    · exact check_worker diag
    · exact check_mailer diag
    · exact check_curler diag
    · exact check_sql diag
    · exact check_control diag
    · exact check_user diag
  have : ∃ g, (libRules diag).guard v = some g := by
    cases v <;> (try cases ‹SGroup›) <;> simp [Raced, libRules, guardOf] at hv ⊢ <;> simp [hv]
  obtain ⟨g, hg⟩ := this
  exact no_race (libRules diag) (libRules_sound diag) _ hc role one start run v hg

/-! The races. In each of them both threads are on a path that they take in ordinary operation. -/

/-- The last of a sequence after `n` others, one in the middle, and a call out of `userCall`. -/
def nthS : Nat → Script → Script
  | 0, x => .pair x .done
  | n+1, x => .pair .done (nthS n x)
def lstS : Nat → Script → Script
  | 0, x => x
  | n+1, x => .pair .done (lstS n x)
def rightS : Nat → Script → Script
  | 0, x => x
  | n+1, x => .right (rightS n x)
/-- A handler thread with a task. -/
def workS (x : Script) : Script := nthS 4 (.rounds 1 (.pair (nthS 2 (.rounds 1 (nthS 3 x))) .done))

/-- **C135 fails** for the queue of records: `transmit` tests it for emptiness without the lock while a handler thread queues a record. -/
theorem C135_send_violated : Racy Role.solo (Role.code false) .sendBuffer :=
  racy_of .transceiver .worker .user (fun h => h) (.inl (by decide)) (.inl (by decide)) (.inl (by decide)) .stop
    (lstS 1 (.rounds 1 .done)) (workS (.pair .done (.pair (.rounds 1 .done) .done))) 2 14 (by decide +kernel)

/-- **C135 fails** for the state of a connection: a handler thread asks `valid()` while the transceiver closes it. (The documentation of `Socket` says `valid()` can be used across threads.) -/
theorem C135_valid_violated : Racy Role.solo (Role.code false) (.valid .fcgi 5) :=
  racy_of .transceiver .worker .user (fun h => h) (.inl (by decide)) (.inl (by decide)) (.inl (by decide)) .stop
    (lstS 1 (.rounds 1 (nthS 2 (lstS 1 (.rounds 1 (nthS 1 (.pick 5 (lstS 1 (.right (.right (.pair (lstS 1 (.right .done)) .done))))))))))) 
    (workS (.right (.pick 7 (lstS 2 (.right (.right (lstS 4 (lstS 1 (.right (.pair (.pick 5 .done) .done))))))))))
    10 17 (by decide +kernel)

/-- **C135 fails** for the time buffer of the C library: a log entry calls `localtime` while a session store calls `gmtime`; each holds its own lock. -/
theorem C135_time_violated : Racy Role.solo (Role.code false) .tm :=
  racy_of .user .user .user (fun h => h) (.inr fun h => h) (.inr fun h => h) (.inr fun h => h) .stop
    (.rounds 1 (lstS 1 (.right .done))) (.rounds 1 (rightS 4 (.pick 3 (nthS 1 (.pair (.right .done) .done))))) 1 4 (by decide +kernel)

/-- **C135 fails** for the text of `expiration()`: a request is using it while the second cleanup after that writes over it. -/
theorem C135_expiration_violated (k : Nat) : Racy Role.solo (Role.code false) (.expiration k 0) :=
  racy_of .user .user .user (fun h => h) (.inr fun h => h) (.inr fun h => h) (.inr fun h => h) .stop
    (.rounds 1 (rightS 4 (.pick k (nthS 1 (.pair (.right .done) .done))))) (.rounds 1 (rightS 4 (.pick k (.right (.right (.right .done)))))) 6 0
    (by simp [raceAt, playCode, Role.code, userCall, rightS, nthS, oneOf, sessionGet, sessionExpiration, setExpiration, goOn, freeOf, heldAfter])

/-- **C135 fails** for the wake-up flag of the HTTP client: `stop()` and `terminate()` change it without the lock. -/
theorem C135_curl_violated : Racy Role.solo (Role.code false) .curlWaking :=
  racy_of .user .user .user (fun h => h) (.inr fun h => h) (.inr fun h => h) (.inr fun h => h) .stop
    (.rounds 1 (rightS 8 (lstS 1 (.right .done)))) (.rounds 1 (rightS 8 (lstS 1 (.right .done)))) 1 0 (by decide +kernel)

/-- **C135 fails** for the queue of an SQL connection: its thread tests it for emptiness without the lock while a query is queued. -/
theorem C135_queue_violated : Racy Role.solo (Role.code false) .sqlQueue :=
  racy_of .sql .user .user (fun h => h) (.inl (by decide)) (.inl (by decide)) (.inr fun h => h) .stop
    .done (.rounds 1 (rightS 9 (lstS 1 (.right .done)))) 4 2 (by decide +kernel)

/-- **C135 fails** for the table of SQL connections: `queue()` looks at its size while the thread changes it. -/
theorem C135_connected_violated : Racy Role.solo (Role.code false) .sqlConnections :=
  racy_of .sql .user .user (fun h => h) (.inl (by decide)) (.inl (by decide)) (.inr fun h => h) .stop
    .done (.rounds 1 (rightS 9 (lstS 1 (.right .done)))) 0 0 (by decide +kernel)

/-- **C135 fails** with `FASTCGIPP_LOG_LEVEL > 3` for the table of requests and its largest size: `push` looks at them after giving back the lock. -/
theorem C135_requests_violated : Racy Role.solo (Role.code true) .requests ∧ Racy Role.solo (Role.code true) .maxRequests :=
  ⟨racy_of .user .user .user (fun h => h) (.inr fun h => h) (.inr fun h => h) (.inr fun h => h) .stop
    (.rounds 1 (rightS 1 (lstS 2 (.right (.right .done))))) (.rounds 1 (rightS 1 (lstS 2 (.right (.right .done))))) 5 2 (by decide +kernel),
   racy_of .user .user .user (fun h => h) (.inr fun h => h) (.inr fun h => h) (.inr fun h => h) .stop
    (.rounds 1 (rightS 1 (lstS 2 (.right (.right .done))))) (.rounds 1 (rightS 1 (lstS 2 (.right (.right .done))))) 6 4 (by decide +kernel)⟩

/-- **C135 fails** for `resizeThreads()`, which looks at the flag of `stop()` without the lock. -/
theorem C135_resize_violated : Racy Role.solo (fun r => if r = .control then managerResize false else r.code false) .stopFlags :=
  racy_of .control .user .user (fun h => h) (.inl (by decide)) (.inl (by decide)) (.inr fun h => h) .stop
    .done (.rounds 1 (rightS 2 .done)) 0 1 (by decide +kernel)

/-- A process with five handler threads and all the others, and a schedule of it in which a request is handled and removed: the theorem speaks of it. -/
def C135_roles (i : Nat) : Role := if i = 0 then .transceiver else if i = 1 then .mailer else if i = 2 then .curler else if i = 3 then .sql else if i = 4 then .control else
  if i < 10 then .worker else .user
example : ∀ i j, (C135_roles i).solo → C135_roles i = C135_roles j → i = j := by
  intro i j
  simp only [C135_roles]
  repeat' split
  all_goals simp_all [Role.solo]
example : ∃ t, Runs (Role.code false .worker) t ∧ TAct.wr (.request 7) ∈ t ∧ goOn [] t [] = some ([] : List (Lock × Bool)) :=
  ⟨_, playCode_runs _ (workS (.right (.pick 7 (lstS 2 (.right (.right (lstS 4 (lstS 1 (.right (.pair (.pick 5 .done) .done)))))))))), by decide +kernel, by decide +kernel⟩
example : ¬ Raced false (.request 7) := fun h => h

end Fcgi.Props
