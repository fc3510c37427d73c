/-! # Threads, locks and data races

What it means that a program with several threads has a data race. `L` are the names of the locks, `V` the names of the variables shared by threads. -/
namespace Fcgi.Spec

/-- What a thread can do, as far as other threads are concerned. -/
inductive TAct (L V : Type) where
  /-- lock a mutex -/
  | acq (l : L)
  /-- succeed in `try_lock` -/
  | tryAcq (l : L)
  /-- lock a shared mutex for reading -/
  | acqS (l : L)
  | rel (l : L)
  | relS (l : L)
  /-- read an ordinary variable or object -/
  | rd (v : V)
  /-- change an ordinary variable or object -/
  | wr (v : V)
  deriving DecidableEq

/-- The order in which a piece of code does such things; conditions are left open. -/
inductive TProg (L V : Type) where
  | skip
  | act (a : TAct L V)
  | seq (p q : TProg L V)
  /-- one of two branches -/
  | alt (p q : TProg L V)
  /-- a loop -/
  | star (p : TProg L V)
  /-- code working on the object with some number -/
  | any (f : Nat → TProg L V)

/-- The sequences of actions of a piece of code. -/
inductive Runs {L V : Type} : TProg L V → List (TAct L V) → Prop where
  | skip : Runs .skip []
  | act (a) : Runs (.act a) [a]
  | seq {p q t u} : Runs p t → Runs q u → Runs (.seq p q) (t ++ u)
  | left {p q t} : Runs p t → Runs (.alt p q) t
  | right {p q t} : Runs q t → Runs (.alt p q) t
  | stop {p} : Runs (.star p) []
  | again {p t u} : Runs p t → Runs (.star p) u → Runs (.star p) (t ++ u)
  | any {f t} (i : Nat) : Runs (f i) t → Runs (.any f) t

/-- A thread: what it is still going to do, and the locks it holds (`true`: exclusively, `false`: shared with other readers). -/
structure Thread (L V : Type) where
  rest : List (TAct L V)
  held : List (L × Bool) := []
  deriving DecidableEq

/-- The threads of a process, by number. -/
abbrev Threads (L V : Type) := Nat → Thread L V

variable {L V : Type} [DecidableEq L]

/-- Whether an action can be done now: locks exclude each other. -/
def Free (s : Threads L V) : TAct L V → Prop
  | .acq l => ∀ j b, (l, b) ∉ (s j).held
  | .tryAcq l => ∀ j b, (l, b) ∉ (s j).held
  | .acqS l => ∀ j, (l, true) ∉ (s j).held
  | _ => True

/-- The locks held after an action. -/
def heldAfter (h : List (L × Bool)) : TAct L V → List (L × Bool)
  | .acq l => (l, true) :: h
  | .tryAcq l => (l, true) :: h
  | .acqS l => (l, false) :: h
  | .rel l => h.filter (· ≠ (l, true))
  | .relS l => h.filter (· ≠ (l, false))
  | _ => h

/-- One thread does its next action. -/
inductive ThreadStep : Threads L V → Threads L V → Prop where
  | mk (s : Threads L V) (i : Nat) (a : TAct L V) (rest : List (TAct L V)) (h : (s i).rest = a :: rest) (free : Free s a) :
      ThreadStep s (fun j => if j = i then ⟨rest, heldAfter (s i).held a⟩ else s j)

/-- Every schedule. -/
inductive ThreadsReach : Threads L V → Threads L V → Prop where
  | refl (s) : ThreadsReach s s
  | step {s t u} : ThreadsReach s t → ThreadStep t u → ThreadsReach s u

/-- Two threads are both about to access the variable, and one of them is going to change it. -/
def Race (s : Threads L V) (v : V) : Prop :=
  ∃ i j, i ≠ j ∧ ((s i).rest.head? = some (.wr v)) ∧ ((s j).rest.head? = some (.wr v) ∨ (s j).rest.head? = some (.rd v))

/-- All threads are at the beginning of the code of their role. -/
def Starting {R : Type} (code : R → TProg L V) (role : Nat → R) (s : Threads L V) : Prop :=
  ∀ i, (s i).held = [] ∧ Runs (code (role i)) (s i).rest

/-- Some schedule of a process with this code, and at most one thread of each solo role, has a race on the variable. -/
def Racy {R : Type} (solo : R → Prop) (code : R → TProg L V) (v : V) : Prop :=
  ∃ (role : Nat → R) (s t : Threads L V), (∀ i j, solo (role i) → role i = role j → i = j) ∧ Starting code role s ∧ ThreadsReach s t ∧ Race t v

end Fcgi.Spec

/-! ## Deadlocks -/
namespace Fcgi.Spec
variable {L V : Type} [DecidableEq L]

/-- A thread cannot go on before another one has given back a lock (or, if it wants to read, before a waiting writer had its turn). -/
def WaitsFor (s : Threads L V) (i j : Nat) : Prop :=
  (∃ l b, (s i).rest.head? = some (.acq l) ∧ (l, b) ∈ (s j).held) ∨
  (∃ l, (s i).rest.head? = some (.acqS l) ∧ ((l, true) ∈ (s j).held ∨ (s j).rest.head? = some (.acq l)))

/-- Following who waits for whom one always comes to threads that wait for nobody. -/
inductive Resolves (s : Threads L V) : Nat → Prop where
  | mk (i : Nat) : (∀ j, WaitsFor s i j → Resolves s j) → Resolves s i

/-- No thread waits for ever for locks: there is no circle of waiting threads, and no thread has ended with a lock. -/
def NoDeadlock (s : Threads L V) : Prop := (∀ i, Resolves s i) ∧ ∀ i, (s i).rest = [] → (s i).held = []

end Fcgi.Spec
