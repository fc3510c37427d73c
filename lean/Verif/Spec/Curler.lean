import Verif.Base
/-! # Specification vocabulary for the HTTP client's thread (`Curler`)

A request object (`Curl`) and all its copies are one number. -/
namespace Fcgi.Spec

inductive CurlerEvent where
  /-- `setCallback()` of a request: which function. -/
  | setCb (r k : Nat)
  /-- A call of `queue()`. -/
  | queued (r : Nat)
  /-- The transfer starts. -/
  | began (r : Nat)
  /-- The thread takes note that the transfer is complete. -/
  | finished (r : Nat)
  /-- The function is called. -/
  | called (r k : Nat)
  /-- The request's function is destroyed. -/
  | dropped (r : Nat)
  | started | stopped | terminated
  /-- A signal interrupts the thread's sleep. -/
  | interrupted
  /-- The transfer library's sockets awake the thread although no transfer is in progress. -/
  | stray
  /-- The thread ends. -/
  | ended
  /-- The whole program is ended. -/
  | crashed
  deriving DecidableEq

/-- What the thread does to requests, or to itself. -/
def CurlerEvent.ofThread : CurlerEvent → Bool
  | .began _ | .finished _ | .called .. | .dropped _ | .ended | .crashed | .interrupted | .stray => true
  | _ => false

def queuedRs (tr : List CurlerEvent) : List Nat := tr.filterMap fun e => match e with | .queued r => some r | _ => none
def begunRs (tr : List CurlerEvent) : List Nat := tr.filterMap fun e => match e with | .began r => some r | _ => none
def finishedRs (tr : List CurlerEvent) : List Nat := tr.filterMap fun e => match e with | .finished r => some r | _ => none
def calledRs (tr : List CurlerEvent) : List Nat := tr.filterMap fun e => match e with | .called r _ => some r | _ => none

/-- What happened since the thread was started (last). -/
def sinceStart (tr : List CurlerEvent) : List CurlerEvent := (tr.reverse.takeWhile fun e => e ≠ .started).reverse

/-- How one event changes the function of a request. -/
def cbAfter (r : Nat) (k : Option Nat) : CurlerEvent → Option Nat
  | .setCb r' k' => if r' = r then some k' else k
  | .dropped r' => if r' = r then none else k
  | _ => k

/-- The function a request has after this history. -/
def callbackOf (r : Nat) (tr : List CurlerEvent) : Option Nat := tr.foldl (cbAfter r) none

/-! ### The sockets of the transfer library -/

/-- What the library asks to wait for on a socket (`CURL_POLL_*`). -/
inductive CurlWait where
  | none | in_ | out | inout | remove
  deriving DecidableEq

/-- What a socket is polled for. -/
structure Interest where
  input : Bool
  output : Bool
  deriving DecidableEq

/-- What it should be polled for. -/
def CurlWait.interest : CurlWait → Option Interest
  | .none => some ⟨false, false⟩
  | .in_ => some ⟨true, false⟩
  | .out => some ⟨false, true⟩
  | .inout => some ⟨true, true⟩
  | .remove => Option.none

/-- The last request of the library for a socket. -/
def lastWait (socket : Nat) (h : List (Nat × CurlWait)) : Option CurlWait := (h.reverse.find? fun x => x.1 = socket).map Prod.snd

end Fcgi.Spec
