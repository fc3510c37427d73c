import Verif.Model.Log
import Verif.Model.Utf8
/-! # Model of how the names in the log come about (src/log.cpp 47-82, 102-106)

The variables are initialised in the order `levels`, `logstream`, `mutex`, `suppress`, `hostname`, `program`, all but the first and the last two before anything runs. -/
namespace Fcgi.Model

/-- The outcome of the initialisation of `hostname` and `program`. -/
inductive LogStart where
  | ok (host prog : List Nat)
  /-- `strlen` of an array nothing was written to. -/
  | indeterminate
  /-- `header()` (log.cpp 113-131) uses a `std::wstring` whose constructor has not run. -/
  | early
  deriving DecidableEq

/-- The characters of a wide text, and of `std::wostringstream << pid` in the locale "C" (library). -/
def wideChars (t : List UInt32) : List Nat := t.map UInt32.toNat
def pidText (pid : Nat) : List Nat := (Nat.toDigits 10 pid).map Char.toNat

/-- log.cpp 47-64 `getHostname`; `host` is what `gethostname` writes, up to the 0; `none` if it fails.  On Linux the name has at most `HOST_NAME_MAX` bytes, so that there is a 0 within the
`HOST_NAME_MAX`+2 of the buffer.  The inner `none` is the use of `WARNING_LOG`. -/
def getHostname (level : Nat) (host : Option Bytes) : Except LogStart (List Nat) :=
  match host with
  | none => .error .indeterminate
  | some h => match utf8All h with
    | some t => .ok (wideChars t)
    | none => if 1 < level then .error .early else .ok (ascii "localhost")

/-- log.cpp 66-84 `getProgram` -/
def getProgram (level : Nat) (name : Bytes) (pid : Nat) : Except LogStart (List Nat) :=
  match utf8All name with
  | some t => .ok (wideChars t ++ ascii "[" ++ pidText pid ++ ascii "]")
  | none => if 1 < level then .error .early else .ok (ascii "unknown" ++ ascii "[" ++ pidText pid ++ ascii "]")

/-- log.cpp 105-106 -/
def logStart (level : Nat) (host : Option Bytes) (name : Bytes) (pid : Nat) : LogStart :=
  match getHostname level host with
  | .error e => e
  | .ok h => match getProgram level name pid with
    | .error e => e
    | .ok p => .ok h p

end Fcgi.Model
