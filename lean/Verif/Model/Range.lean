/-
Model of integer intervals/ranges and of index-space arithmetic on them.

Sources: src/core/Interval.hpp, src/core/Range.inl, src/core/Math.inl, src/core/Cart.inl.

Simplification: the code has a fixed number `MAX_DIMS = 3` of dimensions and pads unused ones with
`[0,1)`; the model has an arbitrary number `d` of dimensions and no padding.  `int` is `Int`.
-/
import Mathlib.Algebra.BigOperators.Group.Finset.Basic
import Mathlib.Data.Fintype.Basic
import Mathlib.Algebra.Ring.Int.Defs

namespace Ovk

/-- `tuple<int>` (Tuple.hpp); `elem<int,N>` (Elem.hpp). -/
abbrev Tup (d : Nat) := Fin d → Int

/-- `interval<int,N>` (Interval.hpp:16-93, 234-259); `range` (Range.hpp). -/
structure Rng (d : Nat) where
  b : Tup d
  e : Tup d

instance {d : Nat} : DecidableEq (Rng d) := fun x y =>
  decidable_of_iff (x.b = y.b ∧ x.e = y.e)
    ⟨fun h => by cases x; cases y; simp_all, fun h => by subst h; exact ⟨rfl, rfl⟩⟩

namespace Rng
variable {d : Nat}

/-- `interval::Size(iDim)` (Interval.hpp:63-65). -/
def size (r : Rng d) (i : Fin d) : Int := max (r.e i - r.b i) 0

/-- `interval::Count` (Interval.hpp:69-78, 118-120). -/
def count (r : Rng d) : Int := ∏ i, r.size i

/-- `interval::Empty` for integers (Interval.hpp:129-131, 143-150). -/
def empty (r : Rng d) : Bool := decide (∃ i, r.e i ≤ r.b i)

/-- `interval::Contains` for integers (Interval.hpp:133-135, 152-161). -/
def contains (r : Rng d) (p : Tup d) : Bool := decide (∀ i, p i ≥ r.b i ∧ p i < r.e i)

/-- `interval::Includes` (Interval.hpp:80-89, 137-139). -/
def includes (r o : Rng d) : Bool := o.empty || decide (∀ i, r.b i ≤ o.b i ∧ r.e i ≥ o.e i)

end Rng

variable {d : Nat}

/-- `MakeEmptyRange` (Range.inl:6-21). -/
def makeEmptyRange (d : Nat) : Rng d := ⟨fun _ => 0, fun _ => 0⟩

/-- `ExtendRange` (Range.inl:23-41). -/
def extendRange (r : Rng d) (p : Tup d) : Rng d :=
  if !r.empty then ⟨fun i => min (r.b i) (p i), fun i => max (r.e i) (p i + 1)⟩
  else ⟨fun i => p i, fun i => p i + 1⟩

/-- `RangesOverlap` (Range.inl:43-50). -/
def rangesOverlap (l r : Rng d) : Bool :=
  !l.empty && !r.empty && decide (∀ i, r.e i > l.b i ∧ l.e i > r.b i)

/-- `UnionRanges` (Range.inl:52-69). -/
def unionRanges (l r : Rng d) : Rng d :=
  if l.empty then r
  else if r.empty then l
  else ⟨fun i => min (l.b i) (r.b i), fun i => max (l.e i) (r.e i)⟩

/-- `IntersectRanges` (Range.inl:71-82). -/
def intersectRanges (l r : Rng d) : Rng d :=
  ⟨fun i => max (l.b i) (r.b i), fun i => min (l.e i) (r.e i)⟩

/-- `ClampToRange` (Range.inl:84-100). -/
def clampToRange (r : Rng d) (p : Tup d) : Tup d := fun i =>
  if p i < r.b i then r.b i
  else if p i ≥ r.e i then r.e i - 1
  else p i

/-- One dimension of the integer `MapToUniformGridCell` (Math.inl:123-136).  C++ `/` and `%`
truncate toward zero; division by zero is undefined behaviour, modelled as `none`. -/
def cellOf? (origin cellSize point : Int) : Option Int :=
  if cellSize = 0 then none
  else
    let offset := point - origin
    some (offset.tdiv cellSize - (if offset.tmod cellSize < 0 then 1 else 0))

/-- The defined branch of `cellOf?`, used by callers that guarantee a non-zero bin size. -/
def cellOf (origin cellSize point : Int) : Int :=
  let offset := point - origin
  offset.tdiv cellSize - (if offset.tmod cellSize < 0 then 1 else 0)

/-- The values of `for (int i = Begin; i < End; ++i)`. -/
def intRange (b e : Int) : List Int := (List.range (e - b).toNat).map fun (n : Nat) => b + (n : Int)

/-- The triple loop `for k ... for j ... for i ...` over a range, first dimension fastest (used
throughout the code, e.g. Decomp.cpp:46-48); any number of dimensions. -/
def Rng.points : {d : Nat} → Rng d → List (Tup d)
  | 0, _ => [fun i => i.elim0]
  | d + 1, r =>
    (intRange (r.b (Fin.last d)) (r.e (Fin.last d))).flatMap fun k =>
      (Rng.points (d := d) ⟨fun i => r.b i.castSucc, fun i => r.e i.castSucc⟩).map fun t =>
        Fin.snoc (α := fun _ => Int) t k

end Ovk
