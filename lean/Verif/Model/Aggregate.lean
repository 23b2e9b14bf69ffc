/-
Model of the aggregation of the cells found in different fragments (src/core/AssemblerAssembly.cpp,
`assembler::DetectOverlap_`).

For one pair of grids (M, N) the loops over ranks, fragments and query points visit one list of query
results; the list order is the visiting order.  `Cells`, `Coords`, `Points` and `Filled` of one overlapping
point are one optional entry here.  Coordinates are rationals.
-/
import Verif.Model.OverlapAccel
import Verif.Model.Indexer

namespace Ovk
namespace Accel
variable {d : Nat}

/-- `BetterCell` (AssemblerAssembly.cpp:1669-1733). -/
def betterCell (old new : Pt d) (iOld iNew : Int) : Bool :=
  if isInside old then
    if isInside new then
      decide (centerDist new < centerDist old ∨ (centerDist new = centerDist old ∧ iNew < iOld))
    else false
  else if isInside new then true
  else decide (outsideDist new < outsideDist old ∨ (outsideDist new = outsideDist old ∧ iNew < iOld))

/-- One query result: local index of the point, global index of the cell found (`none` is `NO_CELL`), local
coordinates (`fragment_overlap_data`, AssemblerAssembly.cpp:1345-1349). -/
structure Query (d : Nat) where
  point : Nat
  cell : Option Int
  coords : Pt d

/-- One column of the aggregated `overlap_data` (AssemblerAssembly.cpp:1651-1662). -/
structure Entry (d : Nat) where
  cell : List Int
  coords : Pt d
  point : List Int

/-- First pass (AssemblerAssembly.cpp:1751-1764). -/
def overlapMask (qs : List (Query d)) : Nat → Bool :=
  qs.foldl (fun m q => if !m q.point && q.cell.isSome then Function.update m q.point true else m)
    fun _ => false

/-- `NumOverlappingBefore` and `NumOverlapping` for `n` local points (AssemblerAssembly.cpp:1752,
1765-1772). -/
def numBefore (mask : Nat → Bool) (n : Nat) : (Nat → Int) × Nat :=
  (List.range n).foldl (fun s l => if mask l then (Function.update s.1 l (s.2 : Int), s.2 + 1) else s)
    (fun _ => -1, 0)

/-- Second pass, one query result (AssemblerAssembly.cpp:1778-1828); `none` is an access out of bounds. -/
def place (pointExt cellExt : List (Int × Int)) (before : Nat → Int) (s : List (Option (Entry d)))
    (q : Query d) : Option (List (Option (Entry d))) :=
  match q.cell with
  | none => some s
  | some k =>
    let i := before q.point
    if i < 0 then none
    else match s[i.toNat]? with
      | none => none
      | some none => some (s.set i.toNat (some ⟨Indexer.toTuple .col cellExt k, q.coords,
          Indexer.toTuple .col pointExt q.point⟩))
      | some (some e) =>
        if betterCell e.coords q.coords (Indexer.toIndex .col cellExt e.cell) k then
          some (s.set i.toNat (some { e with cell := Indexer.toTuple .col cellExt k, coords := q.coords }))
        else some s

/-- Aggregation for one pair of grids (AssemblerAssembly.cpp:1751-1830): `n` local points, extents of the
local range and of the cells of grid M. -/
def aggregate (n : Nat) (pointExt cellExt : List (Int × Int)) (qs : List (Query d)) :
    Option (List (Option (Entry d))) :=
  let b := numBefore (overlapMask qs) n
  if b.2 = 0 then some []
  else qs.foldlM (place pointExt cellExt b.1) (List.replicate b.2 none)

end Accel
end Ovk
