import Verif.Spec.Http
/-! # Specification: where helpers connect to

What `PQsetdbLogin` does with its arguments (PostgreSQL documentation, "Database Connection Control Functions", and fe-connect.c
`recognized_connection_string`), and the time `epoll_wait` waits. -/
namespace Fcgi.Spec

/-- The database asked for: by name, or by a connection string, which is parsed. -/
inductive DbName where
  | default
  | name (s : Bytes)
  | connString (s : Bytes)
  deriving DecidableEq, Repr

/-- The library takes a name for a connection string if it begins like a URI or contains an equals sign. -/
def looksLikeConnString (db : Bytes) : Bool :=
  b!"postgresql://".isPrefixOf db || b!"postgres://".isPrefixOf db || decide ((61 : UInt8) ∈ db)

/-- What a connection is made with; `none` stands for the library's default. -/
structure DbTarget where
  host : Option Bytes
  port : Option Bytes
  db : DbName
  user : Option Bytes
  password : Option Bytes
  deriving DecidableEq, Repr

/-- An argument of `PQsetdbLogin`: empty ones count as missing. -/
def argument (s : Bytes) : Option Bytes := if s = [] then none else some s

/-- `PQsetdbLogin(host, port, nullptr, nullptr, db, user, password)` -/
def setdbLogin (host port db user password : Bytes) : DbTarget :=
  ⟨argument host, argument port, if db = [] then .default else if looksLikeConnString db then .connString db else .name db, argument user, argument password⟩

/-- How long a wait with a timeout (of type `int`, in milliseconds) takes if nothing happens; `none`: for ever. -/
def waits (timeout : Int) : Option Nat := if timeout < 0 then none else some timeout.toNat

/-- What the user told `init()`. -/
structure SqlInit where
  host : Bytes
  db : Bytes
  user : Bytes
  password : Bytes
  concurrency : UInt32
  port : UInt16
  messageType : Int
  retry : UInt32
  deriving DecidableEq

/-- What the user told the mailer's `init()`. -/
structure MailInit where
  host : Bytes
  origin : Bytes
  port : UInt16
  retry : UInt32
  deriving DecidableEq

end Fcgi.Spec
