import Verif.Base
/-! # Specification vocabulary for socket handles: the system calls made for each connection -/
namespace Fcgi.Spec

/-- `c` is a connection, named by a number given when it is established. -/
inductive SEvent where
  /-- The operating system has established the connection and gave it this descriptor. -/
  | opened (c fd : Nat)
  /-- `close(fd)` for a handle of `c`; `owner` is the connection that has the descriptor in the operating system. -/
  | closed (c fd : Nat) (owner : Option Nat)
  /-- `read` or `send` on `fd` for a handle of `c`. -/
  | io (c fd : Nat) (owner : Option Nat)
  deriving DecidableEq

/-- The life of a connection. -/
inductive Life where
  | unborn
  | live (fd : Nat)
  | shut
  /-- A second `close`, a system call after `close`, or one with somebody else's descriptor. -/
  | wrong
  deriving DecidableEq

def Life.see (c : Nat) (l : Life) : SEvent → Life
  | .opened c' fd => if c' = c then (if l = .unborn then .live fd else .wrong) else l
  | .closed c' fd owner => if c' = c then (if l = .live fd ∧ owner = some c then .shut else .wrong) else l
  | .io c' fd owner => if c' = c then (if l = .live fd ∧ owner = some c then l else .wrong) else l

def life (c : Nat) (tr : List SEvent) : Life := tr.foldl (Life.see c) .unborn

end Fcgi.Spec
