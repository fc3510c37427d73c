import Verif.Base
/-! # Model of one call of `SocketGroup::poll` (src/sockets.cpp 453-553, 568-604)

One thread; what other threads may do meanwhile (waking, `accept(bool)`) is the subject of Model/Wake, the handles are that of
Model/Sockets.  Here the errors that end the program (`FAIL_LOG`) are kept, and the operating system answers anything. -/
namespace Fcgi.Model

/-- poll.hpp 104-152: the events of a result. -/
structure PBits where
  inn : Bool := false
  err : Bool := false
  hup : Bool := false
  rdHup : Bool := false
  other : Bool := false
  deriving DecidableEq, Repr

/-- poll.hpp 148-151 `onlyIn`. -/
def PBits.onlyIn (b : PBits) : Bool := b.inn && !b.err && !b.hup && !b.rdHup && !b.other

/-- What `Poll::poll` is told (poll.cpp 70-107): nothing in time, interrupted by a signal, an error, events. -/
inductive PollAns where
  | timeout
  | signal
  | failed
  | event (fd : Nat) (b : PBits)
  deriving DecidableEq, Repr

/-- The answers of the operating system during one turn of the loop. -/
structure Turn where
  relisted : Bool := true         -- every m_poll.add of line 460 succeeds
  poll : PollAns
  drained : Bool := true          -- line 507: read() from the wake-up socket
  accepted : Option Nat := none   -- line 572: accept()
  nonblock : Bool := true         -- line 582: fcntl()
  added : Bool := true            -- line 51: m_poll.add of the new descriptor
  deriving DecidableEq, Repr

/-- sockets.hpp 400-466: the members concerned.  `socks` are the keys of m_sockets, each with `m_closing` and whether it is in the poll
set; `closed` are the descriptors closed so far, in order. -/
structure Group where
  listeners : List Nat
  wakeFd : Nat
  accept : Bool
  refresh : Bool
  polled : Bool                             -- the listeners are in the poll set
  waking : Bool
  socks : List (Nat × Bool × Bool)
  closed : List Nat
  deriving DecidableEq, Repr

/-- How the call ends. -/
inductive Polled where
  | socket (fd : Nat)     -- line 545
  | nothing               -- line 552: an invalid socket
  | exit                  -- FAIL_LOG
  | waiting               -- it has not ended yet
  deriving DecidableEq, Repr

/-- sockets.cpp 457-467. -/
def Group.relist (g : Group) : Group := if g.refresh then { g with polled := g.accept, refresh := false } else g

/-- sockets.cpp 568-604 `createSocket` after a successful accept() of `fd`; if `m_poll.add` fails the new handle closes the descriptor
and becomes a dead entry of the map (C70). -/
def Group.create (g : Group) (t : Turn) (fd : Nat) : Group :=
  if !t.nonblock then { g with closed := g.closed ++ [fd] }
  else if g.accept then
    if t.added then { g with socks := g.socks ++ [(fd, false, true)] }
    else { g with socks := g.socks ++ [(fd, false, false)], closed := g.closed ++ [fd] }
  else { g with closed := g.closed ++ [fd] }

/-- sockets.cpp 453-553: `block` says whether the call may sleep (with no limit: then there is no timeout and it goes on sleeping). -/
def Group.poll (g : Group) (block : Bool) : List Turn → Polled × Group
  | [] => if g.listeners.length + g.socks.length > 0 then (.waiting, g) else (.nothing, g)
  | t :: ts =>
    if g.listeners.length + g.socks.length > 0 then
      if g.refresh && g.accept && !g.listeners.isEmpty && !t.relisted then (.exit, g)
      else
        let g := g.relist
        match t.poll with
        | .failed => (.exit, g)
        | .timeout => if block then g.poll block ts else (.nothing, g)
        | .signal => (.nothing, g)
        | .event fd b =>
          if fd ∈ g.listeners then
            if b.onlyIn then
              match t.accepted with
              | none => (.exit, g)
              | some new => (g.create t new).poll block ts
            else (.exit, g)
          else if fd = g.wakeFd then
            if b.onlyIn then
              if t.drained then Group.poll { g with waking := false } false ts else (.exit, g)
            else if b.hup || b.rdHup then (.exit, g)
            else if b.err then (.exit, g)
            else (.nothing, g)
          else match g.socks.lookup fd with
            | none => Group.poll { g with closed := g.closed ++ [fd] } block ts
            | some _ =>
              if b.rdHup || b.hup || b.err then
                (.socket fd, { g with socks := g.socks.map fun s => if s.1 = fd then (fd, true, s.2.2) else s })
              else if !b.inn then (.exit, g)
              else (.socket fd, g)
    else (.nothing, g)

end Fcgi.Model
