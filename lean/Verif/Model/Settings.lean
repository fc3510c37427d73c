import Verif.Spec.Settings
/-! # Model of the settings of the SQL connection and of the mailer (src/connection.cpp, src/mailer.cpp) -/
namespace Fcgi.Model
open Fcgi.Spec

/-- `std::to_string(unsigned short)` -/
def portText (port : UInt16) : Bytes := (Nat.toDigits 10 port.toNat).map fun c => UInt8.ofNat c.toNat

/-- An `unsigned` converted to `int`. -/
def toInt (u : UInt32) : Int := if u.toNat < 2 ^ 31 then u.toNat else (u.toNat : Int) - 2 ^ 32

/-- connection.hpp 198-221: the members set by `init()`. -/
structure SqlConf where
  host : Bytes
  db : Bytes
  user : Bytes
  password : Bytes
  concurrency : UInt32
  port : Bytes
  messageType : UInt32      -- m_messageType: `unsigned`
  retry : UInt32            -- m_retry: milliseconds, `unsigned`
  deriving DecidableEq

/-- connection.cpp 249-273 `init`: nothing if it has been called before (`m_initialized`). -/
def sqlInit (c : Option SqlConf) (i : SqlInit) : Option SqlConf :=
  match c with
  | some c => some c
  | none => some ⟨i.host, i.db, i.user, i.password, i.concurrency, portText i.port, UInt32.ofNat (i.messageType % 2 ^ 32).toNat, i.retry * 1000⟩

/-- connection.cpp 295-302 in `connect`: the arguments, in the order of the call. -/
def SqlConf.connect (c : SqlConf) : DbTarget := setdbLogin c.host c.port c.db c.user c.password

/-- connection.cpp 109: `connected()?-1:m_retry`, of type `unsigned`, given to a parameter of type `int` (poll.cpp 69). -/
def SqlConf.timeout (c : SqlConf) (connected : Bool) : Int :=
  toInt (if connected then 4294967295 else c.retry)

/-- connection.cpp 167: `query.callback(m_messageType)`; the type of a message is an `int`. -/
def SqlConf.messageOf (c : SqlConf) : Int := toInt c.messageType

/-- connection.hpp 156-159 `connected()` -/
def SqlConf.connected (c : SqlConf) (connections : Nat) : Bool := decide (connections = c.concurrency.toNat)

/-- mailer.hpp 142-152: the members set by `init()`. -/
structure MailConf where
  host : Bytes
  origin : Bytes
  port : Bytes
  retry : UInt32
  deriving DecidableEq

/-- mailer.cpp 361-375 `init` -/
def mailerInit (c : Option MailConf) (i : MailInit) : Option MailConf :=
  match c with
  | some c => some c
  | none => some ⟨i.host, i.origin, portText i.port, i.retry⟩

/-- mailer.cpp 41: `m_retry*1s`, in milliseconds; the type is `std::chrono::duration<long>`, which holds it. -/
def MailConf.wait (c : MailConf) : Nat := c.retry.toNat * 1000

end Fcgi.Model
