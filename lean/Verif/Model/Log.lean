import Verif.Model.Group
import Verif.Model.Transceiver
/-! # Model of the log (include/fastcgi++/log.hpp, src/log.cpp)

Any number of threads log; the lock, every insertion into the stream and the unlock are separate steps. -/
namespace Fcgi.Model

/-- log.hpp 60-68 `Logging::Level`. -/
inductive LogLevel where
  | info | fail | error | warning | debug | diag
  deriving DecidableEq, Repr

/-- The characters of an ASCII text. -/
def ascii (s : String) : List Nat := s.toList.map Char.toNat

/-- log.cpp 93-101 `Logging::levels`. -/
def LogLevel.text : LogLevel → List Nat
  | .info => ascii "[info]: "
  | .fail => ascii "[fail]: "
  | .error => ascii "[error]: "
  | .warning => ascii "[warning]: "
  | .debug => ascii "[debug]: "
  | .diag => ascii "[diagnostic]: "

/-- What does not change while the program runs: log.cpp 106-110 `hostname` and `program`, FASTCGIPP_LOG_LEVEL of config.hpp, and which
characters the locale of the stream can encode. -/
structure LogCfg where
  host : List Nat
  prog : List Nat
  level : Nat
  enc : Nat → Bool

/-- log.hpp 75-151: which of the macros are not empty. -/
def LogCfg.compiled (cfg : LogCfg) : LogLevel → Bool
  | .info => true
  | .fail => true
  | .error => 0 < cfg.level
  | .warning => 1 < cfg.level
  | .debug => 2 < cfg.level
  | .diag => 3 < cfg.level

/-- log.hpp 75-151: `ERROR_LOG` does not look at `suppress`. -/
def LogLevel.hushed : LogLevel → Bool
  | .error => false
  | _ => true

/-- One use of a macro: its level and the operands of `<<` in its argument, each as the characters it inserts. -/
structure LogCall where
  level : LogLevel
  data : List (List Nat)
  deriving DecidableEq, Repr

/-- The stream `*logstream`: what has been written and whether it has failed. -/
structure WOut where
  text : List Nat
  bad : Bool
  deriving DecidableEq, Repr

/-- One insertion into a `std::wostream` over stdio (libstdc++ ostream_insert.h, ext/stdio_sync_filebuf.h): nothing if the stream has
failed before; otherwise character after character until one that cannot be encoded, which is a failure (`putwc` gives WEOF). -/
def WOut.put (enc : Nat → Bool) (o : WOut) (s : List Nat) : WOut :=
  if o.bad then o
  else { text := o.text ++ s.takeWhile enc, bad := !s.all enc }

/-- log.cpp 112-118 `header`, then the data and `std::endl`: what one use of a macro inserts, in this order.  `stamp` is the time of day as
`put_time` writes it. -/
def LogCfg.pieces (cfg : LogCfg) (stamp : List Nat) (c : LogCall) : List (List Nat) :=
  [stamp, cfg.host, [32], cfg.prog, [32], c.level.text] ++ c.data ++ [[10]]

/-- Where a thread is. -/
inductive LogPc where
  | idle
  | wants (c : LogCall)                                              -- before lock_guard
  | writes (stamp : List Nat) (c : LogCall) (rest : List (List Nat)) -- with the mutex
  | exits (stamp : List Nat) (c : LogCall)                           -- in std::exit, still with the mutex
  deriving DecidableEq, Repr

structure LogThread where
  todo : List LogCall       -- the uses of macros the thread will come to
  pc : LogPc

/-- `entries` is history: what has been logged to its end, with its thread and time. -/
structure LogSys where
  out : WOut
  holder : Option Nat       -- Logging::mutex
  hush : Bool               -- Logging::suppress
  th : Nat → LogThread
  entries : List (Nat × List Nat × LogCall)

inductive LogAct where
  | step (t : Nat) (stamp : List Nat)     -- thread t makes its next step, at this time of day
  | suppress (b : Bool)                   -- somebody sets the public variable

/-- log.hpp 75-151, step by step. -/
def logStep (cfg : LogCfg) (s : LogSys) : LogAct → Option LogSys
  | .suppress b => some { s with hush := b }
  | .step t stamp => match (s.th t).pc with
    | .idle => match (s.th t).todo with
      | [] => none
      | c :: cs =>
        if cfg.compiled c.level && !(s.hush && c.level.hushed)
        then some { s with th := upd s.th t { todo := cs, pc := .wants c } }
        else some { s with th := upd s.th t { todo := cs, pc := .idle } }
    | .wants c => match s.holder with
      | some _ => none
      | none => some { s with holder := some t, th := upd s.th t { s.th t with pc := .writes stamp c (cfg.pieces stamp c) } }
    | .writes st c (p :: ps) =>
      some { s with out := s.out.put cfg.enc p, th := upd s.th t { s.th t with pc := .writes st c ps } }
    | .writes st c [] =>
      if c.level = .fail then
        some { s with th := upd s.th t { s.th t with pc := .exits st c }, entries := s.entries ++ [(t, st, c)] }
      else
        some { s with holder := none, th := upd s.th t { s.th t with pc := .idle }, entries := s.entries ++ [(t, st, c)] }
    | .exits _ _ => none

def logRun (cfg : LogCfg) : LogSys → List LogAct → Option LogSys
  | s, [] => some s
  | s, a :: as => (logStep cfg s a).bind fun s' => logRun cfg s' as

/-- The program at its start: each thread with the uses of macros it will come to. -/
def LogSys.init (hush : Bool) (progs : Nat → List LogCall) : LogSys :=
  { out := { text := [], bad := false }, holder := none, hush, th := fun t => { todo := progs t, pc := .idle }, entries := [] }

/-! ## What `FAIL_LOG` does to the caller -/

/-- sockets.cpp 453-553 with `Logging::suppress` as `hush` (log.hpp 85-93: then `FAIL_LOG` neither logs nor exits and the code goes on
after it): a listener that cannot be added is left out of the poll set; `createSocket` goes on with the descriptor −1, on which `fcntl`
fails; the other places come to the `break` or the `return` that follows them.  Simplified: `polled` is one flag for all listeners. -/
def Group.pollHush (hush : Bool) (g : Group) (block : Bool) : List Turn → Polled × Group
  | [] => if g.listeners.length + g.socks.length > 0 then (.waiting, g) else (.nothing, g)
  | t :: ts =>
    if g.listeners.length + g.socks.length > 0 then
      let lost := g.refresh && g.accept && !g.listeners.isEmpty && !t.relisted
      if lost && !hush then (.exit, g)
      else
        let g := if lost then { g with polled := false, refresh := false } else g.relist
        match t.poll with
        | .failed => if hush then (.nothing, g) else (.exit, g)
        | .timeout => if block then g.pollHush hush block ts else (.nothing, g)
        | .signal => (.nothing, g)
        | .event fd b =>
          if fd ∈ g.listeners then
            if b.onlyIn then
              match t.accepted with
              | none => if hush then g.pollHush hush block ts else (.exit, g)
              | some new => (g.create t new).pollHush hush block ts
            else if hush then (.nothing, g) else (.exit, g)
          else if fd = g.wakeFd then
            if b.onlyIn then
              if t.drained || hush then Group.pollHush hush { g with waking := false } false ts else (.exit, g)
            else if b.hup || b.rdHup then if hush then (.nothing, g) else (.exit, g)
            else if b.err then if hush then (.nothing, g) else (.exit, g)
            else (.nothing, g)
          else match g.socks.lookup fd with
            | none => Group.pollHush hush { g with closed := g.closed ++ [fd] } block ts
            | some _ =>
              if b.rdHup || b.hup || b.err then
                (.socket fd, { g with socks := g.socks.map fun s => if s.1 = fd then (fd, true, s.2.2) else s })
              else if !b.inn then if hush then (.socket fd, g) else (.exit, g)
              else (.socket fd, g)
    else (.nothing, g)

/-- manager.cpp 33-57, the end of `Manager_base::Manager_base`: `instance` before and the address of the new manager; `none` is the end of
the program, otherwise `instance` after. -/
def newManager (hush : Bool) (inst : Option Nat) (this : Nat) : Option (Option Nat) :=
  if inst.isSome && !hush then none else some (some this)

end Fcgi.Model
