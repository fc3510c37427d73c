import Verif.Model.Log
/-! # What the log is to look like -/
namespace Fcgi.Spec
open Fcgi.Model

/-- How the level of an entry is shown. -/
def levelMark : LogLevel → List Nat
  | .info => ascii "[info]: "
  | .fail => ascii "[fail]: "
  | .error => ascii "[error]: "
  | .warning => ascii "[warning]: "
  | .debug => ascii "[debug]: "
  | .diag => ascii "[diagnostic]: "

/-- The line of one entry: time, host, program, level, message, end of line. -/
def entryLine (host prog stamp : List Nat) (c : LogCall) : List Nat :=
  stamp ++ host ++ [32] ++ prog ++ [32] ++ levelMark c.level ++ c.data.flatten ++ [10]

/-- The least FASTCGIPP_LOG_LEVEL with which entries of a level are logged. -/
def needs : LogLevel → Nat
  | .info => 0
  | .fail => 0
  | .error => 1
  | .warning => 2
  | .debug => 3
  | .diag => 4

/-- The entries that are to be logged: those of a level that is compiled in; if the log is suppressed, only errors. -/
def Wanted (level : Nat) (hush : Bool) (c : LogCall) : Prop := needs c.level ≤ level ∧ (hush = true → c.level = .error)

instance (level : Nat) (hush : Bool) : DecidablePred (Wanted level hush) := fun c => inferInstanceAs (Decidable (_ ∧ _))

/-- Every character of a text can be written. -/
def Writable (enc : Nat → Bool) (s : List Nat) : Prop := ∀ c ∈ s, enc c = true

/-- The entries of one thread. -/
def ofThread (t : Nat) (entries : List (Nat × List Nat × LogCall)) : List LogCall :=
  (entries.filter fun e => e.1 = t).map fun e => e.2.2

end Fcgi.Spec
