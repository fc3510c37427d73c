import Verif.Spec.Wire
/-! # Specification: cutting a byte stream into FastCGI records -/
namespace Fcgi.Spec

/-- The request id field of a record. -/
def frameId (h : Bytes) : Nat := beValue ((h.drop 2).take 2)

/-- A byte string that is exactly one record according to its own header. -/
def Complete (b : Bytes) : Prop := 8 ≤ b.length ∧ b.length = framedLength b

/-- A byte string that is the strict beginning of a record. -/
def Incomplete (b : Bytes) : Prop := b.length < 8 ∨ b.length < framedLength b

/-- The bytes a peer sends for a list of records. -/
def stream (rs : List Record) : Bytes := rs.flatMap Record.bytes

end Fcgi.Spec
