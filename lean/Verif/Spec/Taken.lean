import Verif.Spec.EndToEnd
import Verif.Model.RequestWide
/-! # Specification: an application that takes the body of a request itself (for C152) -/
namespace Fcgi.Spec
open Fcgi.Model

/-- The pieces of the body as they came: the contents of the records of STDIN that have any. -/
def bodyPieces (ins : List Record) : List Bytes := ((ins.filter fun r => r.type = 5).map Record.content).filter fun p => p ≠ []

/-- What an application writes while the body comes in, and its own state then: with each piece it is told how long the piece was, and can
see what has come so far. -/
def whileComing {U : Type} (inHandler : U → Env → Nat → Act U) : U → Env → List Bytes → List (Bool × SOp UInt8) × U
  | u, _, [] => ([], u)
  | u, env, p :: ps =>
    let now := { env with postBuffer := env.postBuffer ++ p }
    let a := inHandler u now p.length
    (a.ops ++ (whileComing inHandler a.user now ps).1, (whileComing inHandler a.user now ps).2)

/-- All that such an application writes: while the body comes in, when it takes it, and in its response. -/
def takenWrites {U : Type} (hd : Handlers U) (app : U → Env → List (Bool × SOp UInt8)) (u : U) (env : Env) (pieces : List Bytes) :
    List (Bool × SOp UInt8) :=
  let w := whileComing hd.inHandler u env pieces
  let i := (hd.inProcessor w.2 { env with postBuffer := pieces.flatten }).1
  w.1 ++ i.ops ++ app i.user { i.env with postBuffer := [] }

/-- For an application with wide characters.  What it writes while the body comes in, and its own state then: with each piece it is told how long the piece was, and can
see what has come so far. -/
def whileComingW {U : Type} (inHandler : U → EnvW → Nat → ActW U) : U → EnvW → List Bytes → List (Bool × SOp UInt32) × U
  | u, _, [] => ([], u)
  | u, env, p :: ps =>
    let now := { env with postBuffer := env.postBuffer ++ p }
    let a := inHandler u now p.length
    (a.ops ++ (whileComingW inHandler a.user now ps).1, (whileComingW inHandler a.user now ps).2)

/-- All that it writes: while the body comes in, when it takes it, and in its response. -/
def takenWritesW {U : Type} (hd : HandlersW U) (app : U → EnvW → List (Bool × SOp UInt32)) (u : U) (env : EnvW) (pieces : List Bytes) :
    List (Bool × SOp UInt32) :=
  let w := whileComingW hd.inHandler u env pieces
  let i := (hd.inProcessor w.2 { env with postBuffer := pieces.flatten }).1
  w.1 ++ i.ops ++ app i.user { i.env with postBuffer := [] }

end Fcgi.Spec
