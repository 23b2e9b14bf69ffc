import Verif.Model.Indexer

/-
Model of `array` (src/core/Array.hpp): a vector of values (src/core/Vector.hpp) seen through extents and a layout
(src/core/ArrayView.hpp).

Simplified: element types are plain values (copying and moving coincide, and a value-initialised element is the
parameter `v` of `resize`); memory is never exhausted.  `none` is an access outside the vector or behind the end of the
source.
-/
namespace Ovk.Arr
open Indexer (Layout toIndex strides)

/-- `interval::Count` for integers (src/core/Interval.hpp 63-78, 118-120); a `Size` is never negative. -/
def count : List (Int × Int) → Nat
  | [] => 1
  | x :: xs => (x.2 - x.1).toNat * count xs

/-- `interval::Contains` (src/core/Interval.hpp 133-135). -/
def contains : List (Int × Int) → List Int → Bool
  | [], [] => true
  | x :: xs, t :: ts => decide (x.1 ≤ t) && decide (t < x.2) && contains xs ts
  | _, _ => false

/-- `for (T i = Begin; i < End; ++i)`. -/
def ints (x : Int × Int) : List Int := (List.range (x.2 - x.1).toNat).map fun k : Nat => x.1 + (k : Int)

/-- The order of visits of `core::ForEach<Layout>` (src/core/ForEach.hpp 32-85): the last dimension runs fastest in
row-major layout, the first one in column-major layout. -/
def tuples : Layout → List (Int × Int) → List (List Int)
  | _, [] => [[]]
  | .row, x :: xs => (ints x).flatMap fun i => (tuples .row xs).map (i :: ·)
  | .col, x :: xs => (tuples .col xs).flatMap fun ts => (ints x).map (· :: ts)

/-- `Values_` and `View_.Extents()` (Array.hpp:45-47). -/
structure Arr (α : Type) where
  values : List α
  ext : List (Int × Int)

/-- `array_view::operator()` read (src/core/ArrayView.hpp 102-104, 315-331). -/
def cell (l : Layout) (ext : List (Int × Int)) (values : List α) (t : List Int) : Option α :=
  if 0 ≤ toIndex l ext t then values[(toIndex l ext t).toNat]? else none

/-- `array_view::operator()` written. -/
def put (l : Layout) (ext : List (Int × Int)) (values : List α) (t : List Int) (x : α) : Option (List α) :=
  if 0 ≤ toIndex l ext t ∧ (toIndex l ext t).toNat < values.length then some (values.set (toIndex l ext t).toNat x)
  else none

/-- `array::operator()` (Array.hpp:243-248, 678-708). -/
def Arr.get (l : Layout) (a : Arr α) (t : List Int) : Option α := cell l a.ext a.values t

/-- `vector::Resize` (src/core/Vector.hpp 168-174). -/
def resizeVec (n : Nat) (v : α) (l : List α) : List α := l.take n ++ List.replicate (n - l.length) v

/-- `indexer::operator==` (src/core/Indexer.hpp 413-416): begins and strides. -/
def sameIndexer (l : Layout) (x y : List (Int × Int)) : Bool :=
  decide (x.map Prod.fst = y.map Prod.fst) && decide (strides l x = strides l y)

/-- `Resize(Extents, Value)` (Array.hpp:212-235) and, with `v` the value-initialised element, `Resize(Extents)`
(Array.hpp:187-210). -/
def Arr.resize (l : Layout) (v : α) (a : Arr α) (ext : List (Int × Int)) : Option (Arr α) :=
  if sameIndexer l ext a.ext then
    some ⟨resizeVec (count ext) v a.values, ext⟩
  else if a.values.length < count a.ext then none
  else
    let old := a.values.take (count a.ext)
    let fresh := resizeVec (count ext) v (List.replicate (count a.ext) v ++ a.values.drop (count a.ext))
    ((tuples l a.ext).foldlM (fun vals t =>
      if contains ext t then (cell l a.ext old t).bind (put l ext vals t) else some vals) fresh).map (⟨·, ext⟩)

/-- `Assign(Extents, First)` with an iterator (Array.hpp:139-153), also used for assigning a view or another array
type (Array.hpp:519-534, 553-586); `src` lists the values that can be read. -/
def Arr.assignIter (a : Arr α) (ext : List (Int × Int)) (src : List α) : Option (Arr α) :=
  let n := a.values.length
  let more := ((count ext : Int) - (count a.ext : Int)).toNat
  if src.length < n + more then none
  else some ⟨src.take n ++ (src.drop n).take more, ext⟩

/-- `Assign(Extents, Value)` (Array.hpp:125-129). -/
def Arr.assignFill (_ : Arr α) (ext : List (Int × Int)) (v : α) : Arr α := ⟨List.replicate (count ext) v, ext⟩

/-- `Clear` (Array.hpp:237-241) for rank 1. -/
def Arr.clear (_ : Arr α) : Arr α := ⟨[], [(0, 0)]⟩

/-- `{View_.Extents().Begin(0), View_.Extents().End(0)+d}`. -/
def grow (ext : List (Int × Int)) (d : Int) : List (Int × Int) :=
  match ext with
  | [x] => [(x.1, x.2 + d)]
  | _ => ext

/-- `Append` (Array.hpp:290-308), rank 1. -/
def Arr.append (a : Arr α) (v : α) : Arr α := ⟨a.values ++ [v], grow a.ext 1⟩

/-- `Insert(iValue, Value)` (Array.hpp:310-328), rank 1; the position is an offset. -/
def Arr.insert (a : Arr α) (i : Nat) (v : α) : Option (Arr α) :=
  if i ≤ a.values.length then some ⟨a.values.take i ++ v :: a.values.drop i, grow a.ext 1⟩ else none

/-- `Erase(iValue)` (Array.hpp:353-356), rank 1. -/
def Arr.erase (a : Arr α) (i : Nat) : Option (Arr α) :=
  if i < a.values.length then some ⟨a.values.take i ++ a.values.drop (i + 1), grow a.ext (-1)⟩ else none

/-- Calls on a one-dimensional array. -/
inductive Op (α : Type)
  | append (v : α)
  | insert (i : Nat) (v : α)
  | erase (i : Nat)
  | clear
  | fill (b e : Int) (v : α)
  | resize (b e : Int) (v : α)

def step (a : Arr α) : Op α → Option (Arr α)
  | .append v => some (a.append v)
  | .insert i v => a.insert i v
  | .erase i => a.erase i
  | .clear => some a.clear
  | .fill b e v => some (a.assignFill [(b, e)] v)
  | .resize b e v => a.resize .row v [(b, e)]

end Ovk.Arr
