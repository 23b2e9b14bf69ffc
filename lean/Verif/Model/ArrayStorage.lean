/-
Model of where `array` keeps its elements (src/core/Array.hpp:29-260, 277-365): a vector owns a block of memory, which is
replaced when it becomes too small, and the view of the array points to the block.

Simplified: what the elements are after each operation is taken from Verif/Model/Array.lean; a moved-from vector is empty
(the standard guarantees this for construction, and all implementations do so for assignment); assigning an array to itself by
moving is unspecified.
-/
import Verif.Model.Array

namespace Ovk.Store

variable {α : Type}

/-- The memory: the blocks that are allocated, with the elements in them, and the next address. -/
structure Mem (α : Type) where
  heap : Nat → Option (List α)
  next : Nat

/-- `std::vector`: its block, if it has one, and its capacity. -/
structure Vec where
  buf : Option Nat
  cap : Nat

/-- `array`: `Values_` and `View_` (Array.hpp:46-47), the latter a pointer and the extents. -/
structure Obj where
  vec : Vec
  ptr : Option Nat
  ext : List (Int × Int)

/-- The arrays of a program, by their names. -/
structure State (α : Type) where
  mem : Mem α
  objs : Nat → Option Obj

def State.init : State α := ⟨⟨fun _ => none, 0⟩, fun _ => none⟩

def State.set (s : State α) (x : Nat) (o : Option Obj) : State α :=
  { s with objs := fun y => if y = x then o else s.objs y }

/-- What a vector contains. -/
def contents (m : Mem α) (v : Vec) : Option (List α) :=
  match v.buf with
  | none => some []
  | some b => m.heap b

/-- Deallocation. -/
def Mem.free (m : Mem α) (v : Vec) : Mem α :=
  match v.buf with
  | none => m
  | some b => { m with heap := fun c => if c = b then none else m.heap c }

/-- Allocation of a block for `cap` elements that holds `vals`; none for no elements at all. -/
def Mem.alloc (m : Mem α) (cap : Nat) (vals : List α) : Mem α × Vec :=
  if cap = 0 then (m, ⟨none, 0⟩)
  else (⟨fun c => if c = m.next then some vals else m.heap c, m.next + 1⟩, ⟨some m.next, cap⟩)

/-- Any operation of `std::vector` that changes the elements to `vals`: in place if they fit, otherwise in a new block, at
least twice as large. -/
def Mem.store (m : Mem α) (v : Vec) (vals : List α) : Mem α × Vec :=
  if vals.length ≤ v.cap then
    match v.buf with
    | none => (m, v)
    | some b => ({ m with heap := fun c => if c = b then some vals else m.heap c }, v)
  else (m.free v).alloc (max vals.length (2 * v.cap)) vals

/-- `reserve`. -/
def Mem.reserve (m : Mem α) (v : Vec) (vals : List α) (n : Nat) : Mem α × Vec :=
  if n ≤ v.cap then (m, v) else (m.free v).alloc n vals

/-- The extents of `view_type()`. -/
def emptyExt (ext : List (Int × Int)) : List (Int × Int) := ext.map fun _ => (0, 0)

/-- `Values_ = …; View_ = view_type(Values_.Data(), Extents);` -/
def State.become (s : State α) (x : Nat) (o : Obj) (vals : List α) (ext : List (Int × Int)) : State α :=
  let (m, v) := s.mem.store o.vec vals
  { s with mem := m }.set x (some ⟨v, v.buf, ext⟩)

inductive Op (α : Type)
  | make (x : Nat) (ext : List (Int × Int)) (v : α)
  | copyNew (x y : Nat)
  | moveNew (x y : Nat)
  | copyTo (x y : Nat)
  | moveTo (x y : Nat)
  | fill (x : Nat) (ext : List (Int × Int)) (v : α)
  | reserve (x n : Nat)
  | resize (x : Nat) (ext : List (Int × Int)) (v : α)
  | append (x : Nat) (v : α)
  | insert (x i : Nat) (v : α)
  | erase (x i : Nat)
  | clear (x : Nat)
  | write (x i : Nat) (v : α)
  | destroy (x : Nat)

/-- Reading an element with `operator[]` or `operator()`, through the view. -/
def State.read (s : State α) (x i : Nat) : Option α :=
  (s.objs x).bind fun o => o.ptr.bind fun b => (s.mem.heap b).bind fun l => l[i]?

/-- One operation; `none` if it is undefined or names arrays wrongly. -/
def step (l : Indexer.Layout) (s : State α) : Op α → Option (State α)
  /- Array.hpp:67-71 -/
  | .make x ext v => if (s.objs x).isSome then none else
      let (m, w) := s.mem.alloc (Arr.count ext) (List.replicate (Arr.count ext) v)
      some ({ s with mem := m }.set x (some ⟨w, w.buf, ext⟩))
  /- Array.hpp:92-95 -/
  | .copyNew x y => if (s.objs x).isSome then none else (s.objs y).bind fun o => (contents s.mem o.vec).map fun vals =>
      let (m, w) := s.mem.alloc vals.length vals
      { s with mem := m }.set x (some ⟨w, w.buf, o.ext⟩)
  /- Array.hpp:102-107 -/
  | .moveNew x y => if (s.objs x).isSome then none else (s.objs y).map fun o =>
      (s.set x (some ⟨o.vec, o.ptr, o.ext⟩)).set y (some ⟨⟨none, 0⟩, none, emptyExt o.ext⟩)
  /- Array.hpp:155-159 -/
  | .copyTo x y => (s.objs x).bind fun o => (s.objs y).bind fun q => (contents s.mem q.vec).map fun vals =>
      s.become x o vals q.ext
  /- Array.hpp:167-172 -/
  | .moveTo x y => if x = y then none else (s.objs x).bind fun o => (s.objs y).map fun q =>
      ({ s with mem := s.mem.free o.vec }.set x (some ⟨q.vec, q.ptr, q.ext⟩)).set y
        (some ⟨⟨none, 0⟩, none, emptyExt q.ext⟩)
  /- Array.hpp:125-129 -/
  | .fill x ext v => (s.objs x).map fun o => s.become x o (List.replicate (Arr.count ext) v) ext
  /- Array.hpp:181-185 -/
  | .reserve x n => (s.objs x).bind fun o => (contents s.mem o.vec).map fun vals =>
      let (m, w) := s.mem.reserve o.vec vals n
      { s with mem := m }.set x (some ⟨w, w.buf, o.ext⟩)
  /- Array.hpp:187-235 -/
  | .resize x ext v => (s.objs x).bind fun o => (contents s.mem o.vec).bind fun vals =>
      (Arr.Arr.resize l v ⟨vals, o.ext⟩ ext).map fun a => s.become x o a.values a.ext
  /- Array.hpp:290-308 -/
  | .append x v => (s.objs x).bind fun o => (contents s.mem o.vec).map fun vals =>
      s.become x o (vals ++ [v]) (Arr.grow o.ext 1)
  /- Array.hpp:310-351 -/
  | .insert x i v => (s.objs x).bind fun o => (contents s.mem o.vec).bind fun vals =>
      (Arr.Arr.insert ⟨vals, o.ext⟩ i v).map fun a => s.become x o a.values a.ext
  /- Array.hpp:353-363 -/
  | .erase x i => (s.objs x).bind fun o => (contents s.mem o.vec).bind fun vals =>
      (Arr.Arr.erase ⟨vals, o.ext⟩ i).map fun a => s.become x o a.values a.ext
  /- Array.hpp:237-241 -/
  | .clear x => (s.objs x).map fun o =>
      let (m, w) := s.mem.store o.vec []
      { s with mem := m }.set x (some ⟨w, none, emptyExt o.ext⟩)
  /- assignment to `operator()`, Array.hpp:246-248 -/
  | .write x i v => (s.objs x).bind fun o => o.ptr.bind fun b => (s.mem.heap b).bind fun vals =>
      if i < vals.length then
        some { s with mem := { s.mem with heap := fun c => if c = b then some (vals.set i v) else s.mem.heap c } }
      else none
  /- destructor -/
  | .destroy x => (s.objs x).map fun o => { s with mem := s.mem.free o.vec }.set x none

def run (l : Indexer.Layout) : List (Op α) → State α → Option (State α)
  | [], s => some s
  | o :: os, s => (step l s o).bind (run l os)

end Ovk.Store
