/-
Model of `floating_ref_generator` and `floating_ref` (src/core/FloatingRef.hpp, FloatingRef.inl), by which objects
that refer to each other (domain, grids, components, event handles) keep doing so when they are moved.

Objects are identified by the address of their generator.  `ReferenceLoc_` is a heap cell; cells are numbered in
the order of allocation and a freed cell is not used again, so that its use is seen.  Following a null pointer or
a freed cell has no result (`none`), neither has an operation on an object that does not exist or a construction
where one exists.  The conversions between base and derived classes (44-60, 97-113) are not modelled.
-/
import Mathlib.Data.Int.Notation
import Mathlib.Data.List.Basic

namespace Ovk.Float

/-- A `floating_ref` (FloatingRef.hpp:89-90). -/
structure Ref where
  loc : Nat
  offset : Int
  deriving DecidableEq

structure State where
  /-- `ReferenceLoc_` of the generator at an address: `none` if there is none, `some none` if it is null -/
  gen : Int → Option (Option Nat)
  /-- contents of the heap cells -/
  cell : Nat → Option Int
  next : Nat
  /-- references made so far -/
  refs : List Ref

def initial : State := ⟨fun _ => none, fun _ => none, 0, []⟩

inductive Event
  | construct (a : Int)
  | copyConstruct (a b : Int)
  | moveConstruct (a b : Int)
  | copyAssign (a b : Int)
  | moveAssign (a b : Int)
  | destroy (a : Int)
  /-- a reference to what is `off` behind the generator at `a` -/
  | generate (a off : Int)
  deriving DecidableEq

def setGen (x : State) (a : Int) (l : Option (Option Nat)) : State :=
  { x with gen := fun b => if b = a then l else x.gen b }

def setCell (x : State) (l : Nat) (v : Option Int) : State :=
  { x with cell := fun m => if m = l then v else x.cell m }

/-- `delete` of a cell, or of null. -/
def free (x : State) : Option Nat → State
  | none => x
  | some l => setCell x l none

/-- `new void *(this)` (FloatingRef.inl:7, 11). -/
def alloc (x : State) (a : Int) : State :=
  { setCell (setGen x a (some (some x.next))) x.next (some a) with next := x.next + 1 }

/-- `*ReferenceLoc_ = this` (FloatingRef.inl:17, 32). -/
def store (x : State) (a : Int) : Option Nat → Option State
  | none => none
  | some l => if (x.cell l).isSome then some (setCell x l (some a)) else none

def step (x : State) : Event → Option State
  -- FloatingRef.inl:6-8
  | .construct a => if x.gen a = none then some (alloc x a) else none
  -- FloatingRef.inl:10-12
  | .copyConstruct a b => if x.gen a = none ∧ x.gen b ≠ none then some (alloc x a) else none
  -- FloatingRef.inl:14-18
  | .moveConstruct a b =>
    if x.gen a = none then (x.gen b).bind fun l => store (setGen (setGen x b (some none)) a (some l)) a l else none
  -- FloatingRef.inl:20-25
  | .copyAssign a b => if x.gen a ≠ none ∧ x.gen b ≠ none then some x else none
  -- FloatingRef.inl:27-36; `unique_ptr` releases the source before it deletes the old cell
  | .moveAssign a b =>
    (x.gen b).bind fun l =>
      let x := setGen x b (some none)
      (x.gen a).bind fun old => store (free (setGen x a (some l)) old) a l
  -- `~unique_ptr`
  | .destroy a => (x.gen a).map fun l => setGen (free x l) a none
  -- FloatingRef.inl:38-49
  | .generate a off =>
    (x.gen a).bind fun l => l.bind fun l => (x.cell l).map fun v =>
      { x with refs := x.refs ++ [⟨l, a + off - v⟩] }

def run : State → List Event → Option State
  | x, [] => some x
  | x, e :: es => (step x e).bind fun y => run y es

/-- `operator*` (FloatingRef.inl:79-83), giving the address. -/
def deref (x : State) (r : Ref) : Option Int := (x.cell r.loc).map fun v => v + r.offset

end Ovk.Float
