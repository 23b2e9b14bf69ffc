/-
Model of views of arrays (src/core/ArrayView.hpp:66-370), on top of the storage of arrays
(Verif/Model/ArrayStorage.lean): a view is a pointer into the memory of an array and extents, and nothing tells it when the
array gets other memory.

Simplified: elements are accessed by their number as with `operator[]`, since going from a tuple to a number is the matter of
the indexer (Verif/Model/Indexer.lean); const views are views that are not written; `Fill(Interval, Value)` is left out.
-/
import Verif.Model.ArrayStorage

namespace Ovk.Views

open Store

variable {α : Type}

/-- `Ptr_` and `Extents_` of `array_view` (ArrayView.hpp:81-82): a block of memory and how far into it, or null. -/
structure View where
  ptr : Option (Nat × Nat)
  ext : List (Int × Int)

/-- `NumValues_` (ArrayView.hpp:99). -/
def View.count (w : View) : Nat := Arr.count w.ext

/-- `array_view()` (ArrayView.hpp:88-93), here for rank 1. -/
def View.null : View := ⟨none, [(0, 0)]⟩

/-- The arrays and the views of a program. -/
structure State (α : Type) where
  arrays : Store.State α
  views : Nat → View

def State.init : State α := ⟨Store.State.init, fun _ => View.null⟩

def State.setView (s : State α) (v : Nat) (w : View) : State α :=
  { s with views := fun u => if u = v then w else s.views u }

/-- Reading `View[i]` (ArrayView.hpp:333), `Ptr_[i]`. -/
def load (m : Mem α) (w : View) (i : Nat) : Option α :=
  w.ptr.bind fun p => (m.heap p.1).bind fun l => l[p.2 + i]?

/-- Assigning to `View[i]` (ArrayView.hpp:333). -/
def save (m : Mem α) (w : View) (i : Nat) (a : α) : Option (Mem α) :=
  w.ptr.bind fun p => (m.heap p.1).bind fun l =>
    if p.2 + i < l.length then
      some { m with heap := fun c => if c = p.1 then some (l.set (p.2 + i) a) else m.heap c }
    else none

/-- `for (index_type i = 0; i < NumValues_; ++i) Ptr_[i] = …` (ArrayView.hpp:140-192); `src` is evaluated in each iteration. -/
def fillLoop (src : Mem α → Nat → Option α) (w : View) : Nat → Nat → Mem α → Option (Mem α)
  | _, 0, m => some m
  | i, n + 1, m => (src m i).bind fun a => (save m w i a).bind (fillLoop src w (i + 1) n)

def State.withMem (s : State α) (m : Mem α) : State α := { s with arrays := { s.arrays with mem := m } }

inductive Op (α : Type)
  | array (o : Store.Op α)
  | view (v x : Nat)
  | viewAt (v x k : Nat) (ext : List (Int × Int))
  | copy (v w : Nat)
  | reshape (v w : Nat) (ext : List (Int × Int))
  | reset (v : Nat)
  | put (v i : Nat) (a : α)
  | fill (v : Nat) (a : α)
  | fillList (v : Nat) (l : List α)
  | fillView (v w : Nat)
  | fillArray (v x : Nat)

/-- One operation; `none` if it is undefined. -/
def step (l : Indexer.Layout) (s : State α) : Op α → Option (State α)
  | .array o => (Store.step l s.arrays o).map fun t => { s with arrays := t }
  /- `array_view(Array)` (ArrayView.hpp:261-266), with `ArrayData` being `View_.Data()` (Array.hpp:777-778) -/
  | .view v x => (s.arrays.objs x).map fun o => s.setView v ⟨o.ptr.map fun b => (b, 0), o.ext⟩
  /- `array_view(Array.Data()+k, Extents)` (ArrayView.hpp:95-100, 256-258); the pointer has to stay in the block -/
  | .viewAt v x k ext => (s.arrays.objs x).bind fun o =>
      match o.ptr with
      | none => if k = 0 then some (s.setView v ⟨none, ext⟩) else none
      | some b => (s.arrays.mem.heap b).bind fun q =>
          if k ≤ q.length then some (s.setView v ⟨some (b, k), ext⟩) else none
  /- ArrayView.hpp:287, 293-296 -/
  | .copy v w => some (s.setView v (s.views w))
  /- ArrayView.hpp:289-291 -/
  | .reshape v w ext => some (s.setView v ⟨(s.views w).ptr, ext⟩)
  /- ArrayView.hpp:298 -/
  | .reset v => some (s.setView v View.null)
  | .put v i a => (save s.arrays.mem (s.views v) i a).map s.withMem
  /- ArrayView.hpp:140-145 -/
  | .fill v a => (fillLoop (fun _ _ => some a) (s.views v) 0 (s.views v).count s.arrays.mem).map s.withMem
  /- ArrayView.hpp:155-161 and, with an iterator, 163-171 -/
  | .fillList v q => (fillLoop (fun _ i => q[i]?) (s.views v) 0 (s.views v).count s.arrays.mem).map s.withMem
  /- ArrayView.hpp:173-179 -/
  | .fillView v w => (fillLoop (fun m i => load m (s.views w) i) (s.views v) 0 (s.views v).count s.arrays.mem).map s.withMem
  /- ArrayView.hpp:181-191 -/
  | .fillArray v x => (fillLoop (fun m i => Store.State.read { s.arrays with mem := m } x i) (s.views v) 0 (s.views v).count
      s.arrays.mem).map s.withMem

def run (l : Indexer.Layout) : List (Op α) → State α → Option (State α)
  | [], s => some s
  | o :: os, s => (step l s o).bind (run l os)

/-- Reading an element through a view. -/
def State.read (s : State α) (v i : Nat) : Option α := load s.arrays.mem (s.views v) i

end Ovk.Views
