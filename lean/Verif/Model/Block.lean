import Verif.Base
/-! # Model of Block (include/fastcgi++/block.hpp, src/block.cpp)

Any number of blocks.  A byte of allocated memory is `none` before it is written. -/
namespace Fcgi.Model

/-- block.hpp 52-58.  `data`: the allocated memory, with the number of its allocation (`none` is a null pointer). -/
structure Blk where
  reserve : Nat := 0
  size : Nat := 0
  data : Option (Nat × List (Option Byte)) := none

/-- The allocated bytes. -/
def Blk.bytes (b : Blk) : List (Option Byte) :=
  match b.data with
  | some (_, l) => l
  | none => []

/-- `std::copy(first, last, out)` into allocated memory, from its beginning.  (A source in the same memory is read before it is
written, which is right for every source behind `out`, and in practice for `out` itself.) -/
def blkCopy (src dst : List (Option Byte)) : Res (List (Option Byte)) :=
  if src.length ≤ dst.length then .ok (src ++ dst.drop src.length) else .ub .oobWrite

/-- A pointer into the memory of a block, and a length: the bytes there. -/
def blkRead (b : Blk) (off n : Nat) : Res (List (Option Byte)) :=
  if n = 0 then .ok [] else if off + n ≤ b.bytes.length then .ok ((b.bytes.drop off).take n) else .ub .oobRead

/-- `new char[n]` -/
def blkNew (id n : Nat) : Option (Nat × List (Option Byte)) := some (id, List.replicate n none)

/-- block.cpp 61-67: the constructor with data. -/
def Blk.ofData (id : Nat) (src : List (Option Byte)) : Res Blk := do
  let l ← blkCopy src (List.replicate src.length none)
  return { reserve := src.length, size := src.length, data := some (id, l) }

/-- block.cpp 32-48 `reserve(x)` -/
def Blk.setReserve (b : Blk) (id x : Nat) : Res Blk :=
  if x ≠ b.reserve then do
    let newSize := min b.size x
    let src ← blkRead b 0 newSize
    let l ← blkCopy src (List.replicate x none)
    return { reserve := x, size := newSize, data := some (id, l) }
  else .ok b

/-- block.cpp 88-96 `size(x)` -/
def Blk.setSize (b : Blk) (id x : Nat) : Res Blk := do
  let b ← (if x > b.reserve then ({ b with size := b.reserve } : Blk).setReserve id x else .ok b)
  return { b with size := x }

/-- block.cpp 105-114 `assign(data, size)` -/
def Blk.assign (b : Blk) (id : Nat) (src : List (Option Byte)) : Res Blk := do
  let b : Blk := if src.length > b.reserve then { b with data := blkNew id src.length, reserve := src.length } else b
  let b := { b with size := src.length }
  match b.data with
  | some (a, l) => do
    let l ← blkCopy src l
    return { b with data := some (a, l) }
  | none => if src = [] then .ok b else .ub .oobWrite

/-- What a program can do with its blocks. -/
inductive BlkOp where
  | make (k : Nat)                              -- a new block
  | makeSize (k n : Nat)
  | makeData (k : Nat) (d : Bytes)
  | assign (k : Nat) (d : Bytes)
  | assignFrom (k j off n : Nat)                -- assign(j.begin()+off, n), also with j = k
  | reserve (k x : Nat)
  | size (k x : Nat)
  | clear (k : Nat)
  | moveMake (k j : Nat)                        -- a new block, from another
  | moveAssign (k j : Nat)
  | put (k i : Nat) (b : Byte)                  -- *(begin()+i) = b

/-- The blocks of a program, and the number of the next allocation. -/
structure BlkWorld where
  blk : Nat → Blk := fun _ => {}
  next : Nat := 0

def BlkWorld.set (w : BlkWorld) (k : Nat) (b : Blk) : BlkWorld := { blk := fun i => if i = k then b else w.blk i, next := w.next + 1 }

/-- block.cpp 69-86: both ways of moving.  The members are assigned one after the other, `x.m_reserve = 0` in between: if both are the
same block, the sizes are lost (and the memory is kept by the self-assignment of `unique_ptr`). -/
def BlkWorld.move (w : BlkWorld) (k j : Nat) : BlkWorld :=
  if k = j then w.set k { w.blk k with reserve := 0, size := 0 }
  else (w.set k (w.blk j)).set j { reserve := 0, size := 0, data := none }

def BlkOp.step (w : BlkWorld) : BlkOp → Res BlkWorld
  | .make k => .ok (w.set k {})                                                                      -- block.cpp 50-53
  | .makeSize k n => .ok (w.set k { reserve := n, size := n, data := blkNew w.next n })               -- block.cpp 55-59
  | .makeData k d => do let b ← Blk.ofData w.next (d.map some); return w.set k b
  | .assign k d => do let b ← (w.blk k).assign w.next (d.map some); return w.set k b
  | .assignFrom k j off n => do
    let src ← (if j = k ∧ n > (w.blk k).reserve then .ub .oobRead else blkRead (w.blk j) off n)   -- the memory was freed before the copy
    let b ← (w.blk k).assign w.next src
    return w.set k b
  | .reserve k x => do let b ← (w.blk k).setReserve w.next x; return w.set k b
  | .size k x => do let b ← (w.blk k).setSize w.next x; return w.set k b
  | .clear k => .ok (w.set k { reserve := 0, size := 0, data := none })                              -- block.cpp 98-103
  | .moveMake k j => .ok (w.move k j)
  | .moveAssign k j => .ok (w.move k j)
  | .put k i b =>
    match (w.blk k).data with
    | some (a, l) => if i < l.length then .ok (w.set k { w.blk k with data := some (a, l.set i (some b)) }) else .ub .oobWrite
    | none => .ub .oobWrite

def blkRun : BlkWorld → List BlkOp → Res BlkWorld
  | w, [] => .ok w
  | w, op :: ops => do let w ← op.step w; blkRun w ops

/-- What `begin()` to `end()` shows. -/
def Blk.content (b : Blk) : List (Option Byte) := b.bytes.take b.size

end Fcgi.Model
