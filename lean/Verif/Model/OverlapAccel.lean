/-
Model of `overlap_accel` (src/core/OverlapAccel.hpp, OverlapAccel.cpp): a k-d tree of cell bounding boxes
with a hash of boxes in every leaf.

Cells are named by their index in the cell range.  Geometry enters through the bounds of the cells and the
local coordinates of the query point (`none` if the overlap test rejects the point or no coordinates are
found).  Whether a node becomes a leaf before the maximal depth depends on cell counts and volumes and is
left arbitrary, as are the split position and the desired bin size (`meanCenter`, `desiredBinSize` are the
ones computed); so every rounding error in them is covered.  `d + 2` dimensions: the initial split
dimension is 1.  Not modelled: overflow of the number of bins.
-/
import Verif.Model.RegionHash
import Mathlib.Data.List.FinRange

namespace Ovk
namespace Accel
variable {d : Nat}

/-- `ScaleBox` (Box.inl:132-145). -/
def scaleBox (r : Box d) (factor : Rat) : Box d :=
  ⟨fun i => (r.b i + r.e i) / 2 - factor * (r.e i - r.b i) / 2,
   fun i => (r.b i + r.e i) / 2 + factor * (r.e i - r.b i) / 2⟩

/-- `compute_cell_bounds` (OverlapAccel.cpp:25-45). -/
def cellBounds (mask : Nat → Bool) (bounds : Nat → Box d) (maxTol : Rat) (k : Nat) : Box d :=
  if mask k then scaleBox (bounds k) (1 + 2 * maxTol) else makeEmptyBox d

/-- `node` (OverlapAccel.hpp:43-50). -/
inductive Tree (d : Nat)
  | leaf (cells : List Nat) (hash : RegionHash.Hash d)
  | node (dim : Fin d) (split : Rat) (l r : Tree d)

/-- Split dimension (OverlapAccel.cpp:198-203). -/
def splitDim (nodeBounds : Box (d + 2)) : Fin (d + 2) :=
  (List.finRange (d + 2)).foldl (fun best i =>
    if nodeBounds.size id i > nodeBounds.size id best then i else best) 1

/-- Split position (OverlapAccel.cpp:205-210). -/
def meanCenter (box : Nat → Box d) (i : Fin d) (cells : List Nat) : Rat :=
  (cells.map fun k => ((box k).b i + (box k).e i) / 2).sum / max (cells.length : Rat) 1

/-- Desired bin size (OverlapAccel.cpp:244-257). -/
def desiredBinSize (binScale : Rat) (box : Nat → Box d) (cells : List Nat) : Pt d := fun i =>
  binScale * ((cells.map fun k => (box k).size id i).sum / max (cells.length : Rat) 1)

/-- Number of bins (OverlapAccel.cpp:259-264); `none` is the conversion of an infinity or NaN. -/
def numBins (nodeBounds : Box d) (desired : Pt d) (n : Nat) : Option (Tup d) :=
  if n > 1 then
    if ∀ i, desired i ≠ 0 then some fun i => max ⌈nodeBounds.size id i / desired i⌉ 1 else none
  else some fun _ => 1

/-- The leaf branch of `CreateNode_` (OverlapAccel.cpp:242-276). -/
def makeLeaf (rnd : Rat → Rat) (box : Nat → Box d) (desired : List Nat → Pt d) (cells : List Nat) :
    Option (Tree d) := do
  let nb ← numBins (RegionHash.extentsOf (cells.map box)) (desired cells) cells.length
  let h ← RegionHash.make rnd nb (cells.map box)
  pure (.leaf cells h)

/-- `CreateNode_` (OverlapAccel.cpp:138-280); the first argument is `MaxDepth - Depth`. -/
def createNode (rnd : Rat → Rat) (box : Nat → Box (d + 2)) (desired : List Nat → Pt (d + 2))
    (split : Fin (d + 2) → List Nat → Rat) (isLeaf : List Nat → Bool) : Nat → List Nat →
    Option (Tree (d + 2))
  | 0, cells => makeLeaf rnd box desired cells
  | fuel + 1, cells =>
    if isLeaf cells then makeLeaf rnd box desired cells
    else do
      let i := splitDim (RegionHash.extentsOf (cells.map box))
      let s := split i cells
      let l ← createNode rnd box desired split isLeaf fuel (cells.filter fun k => decide ((box k).b i ≤ s))
      let r ← createNode rnd box desired split isLeaf fuel (cells.filter fun k => decide (s ≤ (box k).e i))
      pure (.node i s l r)

/-- Constructor (OverlapAccel.cpp:77-136): overall bounds and root, if the bounds are not empty. -/
def make (rnd : Rat → Rat) (n : Nat) (mask : Nat → Bool) (box : Nat → Box (d + 2))
    (desired : List Nat → Pt (d + 2)) (split : Fin (d + 2) → List Nat → Rat) (isLeaf : List Nat → Bool)
    (maxDepth : Nat) : Option (Box (d + 2) × Option (Tree (d + 2))) :=
  let bounds := RegionHash.extentsOf ((List.range n).map box)
  if bounds.empty then some (bounds, none)
  else do
    let root ← createNode rnd box desired split isLeaf maxDepth ((List.range n).filter mask)
    pure (bounds, some root)

/-- The cells looked at by `FindCellInNode_` (OverlapAccel.cpp:382-409), in order. -/
def candidates (rnd : Rat → Rat) : Tree d → Pt d → Option (List Nat)
  | .node i s l r, p => if p i ≤ s then candidates rnd l p else candidates rnd r p
  | .leaf cells h, p => do
    let iBin ← RegionHash.mapToBin rnd h p
    if iBin ≥ 0 then
      let bin ← RegionHash.retrieveBin h iBin
      bin.mapM fun k => cells[k]?
    else pure []

/-- Local state of `find_cell_in_bin`; `none` stands for `numeric_limits::max()`. -/
structure Best (d : Nat) where
  inside : Bool := false
  center : Option Rat := none
  outside : Option Rat := none
  res : Option (Nat × Pt d) := none

def isInside (u : Pt d) : Bool := !decide (∃ i, u i < 0 ∨ u i > 1)

/-- Maximal distance from the center (OverlapAccel.cpp:331-334, 348-351). -/
def centerDist (u : Pt d) : Rat := (List.finRange d).foldl (fun m i => max m |u i - 1 / 2|) 0

/-- Squared distance from the unit cube (OverlapAccel.cpp:355-364). -/
def outsideDist (u : Pt d) : Rat := ((List.finRange d).map fun i =>
  (if u i > 1 then 1 - u i else if u i < 0 then -u i else 0) ^ 2).sum

def below (x : Rat) : Option Rat → Bool
  | none => true
  | some y => decide (x < y)

/-- One iteration of `find_cell_in_bin` (OverlapAccel.cpp:310-376). -/
def consider (coords : Nat → Option (Pt d)) (s : Best d) (k : Nat) : Best d :=
  match coords k with
  | none => s
  | some u =>
    if s.inside then
      if isInside u then
        if below (centerDist u) s.center then { s with res := some (k, u), center := some (centerDist u) }
        else s
      else s
    else if isInside u then { s with res := some (k, u), inside := true, center := some (centerDist u) }
    else if below (outsideDist u) s.outside then
      { s with res := some (k, u), outside := some (outsideDist u) }
    else s

/-- `FindCell` (OverlapAccel.cpp:282-289); `none` is undefined behaviour. -/
def findCell (rnd : Rat → Rat) (a : Box d × Option (Tree d)) (coords : Nat → Option (Pt d)) (p : Pt d) :
    Option (Option (Nat × Pt d)) :=
  if a.1.contains p then do
    let root ← a.2
    let bin ← candidates rnd root p
    pure (bin.foldl (consider coords) {}).res
  else pure none

end Accel
end Ovk
