/-
Model of `region_hash<box>` (src/core/RegionHash.hpp, RegionHash.inl) and of the box operations it
uses (src/core/Box.inl, Box.hpp, Interval.hpp).

`double` is modelled by rationals together with a rounding function `rnd` that is applied to the result
of every arithmetic operation; `rnd = id` is exact arithmetic, and the theorems only ask `rnd` to be
monotone (which IEEE rounding is; overflow and NaN inputs are not modelled).  Converting a NaN or
infinity to `int` is undefined behaviour, so a zero bin size gives `none`.
-/
import Verif.Model.FieldIndex
import Verif.Model.Csr
import Mathlib.Algebra.Order.Field.Rat
import Mathlib.Data.Rat.Floor

namespace Ovk

/-- `tuple<double>`. -/
abbrev Pt (d : Nat) := Fin d → Rat

/-- `box = interval<double,MAX_DIMS>` (Interval.hpp:234-259). -/
structure Box (d : Nat) where
  b : Pt d
  e : Pt d

namespace Box
variable {d : Nat}

/-- `interval::Empty` for floating point (Interval.hpp:198-200, 212-219). -/
def empty (r : Box d) : Bool := decide (∃ i, r.e i < r.b i)

/-- `interval::Contains` for floating point (Interval.hpp:202-204, 221-230). -/
def contains (r : Box d) (p : Pt d) : Bool := decide (∀ i, p i ≥ r.b i ∧ p i ≤ r.e i)

/-- `interval::Size` (Interval.hpp:63-65). -/
def size (rnd : Rat → Rat) (r : Box d) (i : Fin d) : Rat := max (rnd (r.e i - r.b i)) 0

end Box

variable {d : Nat}

/-- `MakeEmptyBox` (Box.inl:6-21). -/
def makeEmptyBox (d : Nat) : Box d := ⟨fun _ => 0, fun _ => -1⟩

/-- `UnionBoxes` (Box.inl:52-69). -/
def unionBoxes (l r : Box d) : Box d :=
  if l.empty then r
  else if r.empty then l
  else ⟨fun i => min (l.b i) (r.b i), fun i => max (l.e i) (r.e i)⟩

/-- One dimension of the floating-point `MapToUniformGridCell` (Math.inl:138-151). -/
def cellOfQ? (rnd : Rat → Rat) (origin cellSize point : Rat) : Option Int :=
  if cellSize = 0 then none
  else some ⌊rnd (rnd (point - origin) / cellSize)⌋

/-- `MapToUniformGridCell` (Math.inl:138-151), all dimensions; undefined if any of them is. -/
def cellsQ? (rnd : Rat → Rat) (origin size p : Pt d) : Option (Tup d) :=
  if ∀ i, size i ≠ 0 then some fun i => (cellOfQ? rnd (origin i) (size i) (p i)).getD 0 else none

/-- `range(NumBins)`: `[0,NumBins)` (Interval.hpp, size constructor). -/
def binRangeOf (nb : Tup d) : Rng d := ⟨fun _ => 0, nb⟩

namespace RegionHash

/-- The members of `region_hash<box>` (RegionHash.hpp:54-62). -/
structure Hash (d : Nat) where
  binRange : Rng d
  extents : Box d
  binSize : Pt d
  table : Csr.Table

/-- `GetBinSize_` (RegionHash.inl:202-213). -/
def binSizeOf (rnd : Rat → Rat) (ext : Box d) (nb : Tup d) : Pt d :=
  fun i => rnd (ext.size rnd i / (nb i : Rat))

/-- Union of the extents of all regions (RegionHash.inl:24-27; Box.hpp:36). -/
def extentsOf (regions : List (Box d)) : Box d := regions.foldl unionBoxes (makeEmptyBox d)

/-- `hashable_region_traits<box>::MapToBins` (Box.hpp:37-47). -/
def mapToBins (rnd : Rat → Rat) (binRange : Rng d) (lower size : Pt d) (region : Box d) :
    Option (Rng d) := do
  let lo ← cellsQ? rnd lower size region.b
  let up ← cellsQ? rnd lower size region.e
  pure (extendRange (extendRange (makeEmptyRange d) (clampToRange binRange lo))
    (clampToRange binRange up))

/-- Linear indices of the bins of a range, in loop order (RegionHash.inl:117-125, 144-153). -/
def binIndices (binRange bins : Rng d) : List Nat :=
  bins.points.map fun p => (binRange.colIndex p).toNat

/-- Constructor (RegionHash.inl:16-70). -/
def make (rnd : Rat → Rat) (nb : Tup d) (regions : List (Box d)) : Option (Hash d) := do
  let binRange := binRangeOf nb
  let ext := extentsOf regions
  let size := binSizeOf rnd ext nb
  let bins ← regions.mapM fun r => mapToBins rnd binRange ext.b size r
  let t ← Csr.build binRange.count.toNat (binIndices binRange binRange)
    (bins.map (binIndices binRange))
  pure ⟨binRange, ext, size, t⟩

/-- `MapToBin` (RegionHash.inl:72-85): `some (-1)` outside the extents. -/
def mapToBin (rnd : Rat → Rat) (h : Hash d) (p : Pt d) : Option Int :=
  if h.extents.contains p then do
    let c ← cellsQ? rnd h.extents.b h.binSize p
    pure (h.binRange.colIndex (clampToRange h.binRange c))
  else some (-1)

/-- `RetrieveBin` (RegionHash.inl:87-95); a negative index reads out of bounds. -/
def retrieveBin (h : Hash d) (iBin : Int) : Option (List Nat) :=
  if 0 ≤ iBin then Csr.retrieve h.table iBin.toNat else none

end RegionHash
end Ovk
