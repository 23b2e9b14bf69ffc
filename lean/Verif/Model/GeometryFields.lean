/-
Model of src/core/Geometry.cpp: what happens to the coordinate and volume fields when an edit of the
coordinates ends (`OnCoordsEndEdit_`, 193-279), and `SetPeriodicLength` (122-137).  The exchanges are those
of `Verif.Model.Halo`.  The formula of the cell volume (`geometry_manipulator::CellVolume`) is a parameter
`V` of the coordinates of the corners.  Not modelled: events, logging, barriers, dimensions beyond `d`.
-/
import Verif.Model.Halo
import Verif.Model.Decomp
import Mathlib.Algebra.Order.Ring.Rat

namespace Ovk
namespace GeoF
variable {d : Nat}

/-- Adding the periodic length to the coordinate `e` of the points outside the index space
(Geometry.cpp:214-226). -/
def addPeriods (c : Cart d) (ext : Rng d) (L : Fin d → Rat) (e : Fin d) (m : Int → Rat) : Int → Rat :=
  ext.points.foldl (fun m p =>
    if c.range.contains p then m
    else Halo.write m (ext.colIndex p) (m (ext.colIndex p) + (c.period p e : Rat) * L e)) m

/-- A corner of a cell. -/
def corner (cell : Tup d) (o : Fin d → Bool) : Tup d := fun i => cell i + if o i then 1 else 0

/-- `compute_cell_volumes` up to the exchange (Geometry.cpp:171-187); `X e` is the array of coordinate `e` on
the point range `ext`. -/
def cellVolumes (V : ((Fin d → Bool) → Fin d → Rat) → Rat) (ext cellLoc cellExt : Rng d)
    (X : Fin d → Int → Rat) (m : Int → Rat) : Int → Rat :=
  Halo.unpack m (cellLoc.points.map fun cell =>
    (cellExt.colIndex cell, V fun o e => X e (ext.colIndex (corner cell o))))

/-- `NeighborCellRange` (Geometry.cpp:244-253). -/
def neighborCells (cellExt : Rng d) (p : Tup d) : Rng d :=
  intersectRanges cellExt ⟨fun i => p i - 1, fun i => p i + 1⟩

/-- Volume of a point: mean over the neighbouring cells (Geometry.cpp:254-263). -/
def pointVolume (cellExt : Rng d) (cv : Int → Rat) (p : Tup d) : Rat :=
  (((neighborCells cellExt p).points.map fun cell => cv (cellExt.colIndex cell)).sum) /
    ((neighborCells cellExt p).count : Rat)

/-- The loop over local points (Geometry.cpp:240-266). -/
def pointVolumes (loc ext cellExt : Rng d) (cv : Int → Rat) (m : Int → Rat) : Int → Rat :=
  Halo.unpack m (loc.points.map fun p => (ext.colIndex p, pointVolume cellExt cv p))

/-- The exchange of point fields of a grid (Grid.cpp:53-89). -/
def pointSetup {n : Nat} (c : Cart d) (loc : Fin n → Rng d) (nbrs : Fin n → List (Fin n)) :
    Halo.Setup d n := ⟨c, loc, fun k => gridExtendedRange c (loc k), nbrs⟩

/-- The exchange of cell fields of a grid, with the same neighbours (Grid.cpp:53-89). -/
def cellSetup {n : Nat} (c : Cart d) (loc : Fin n → Rng d) (nbrs : Fin n → List (Fin n)) :
    Halo.Setup d n :=
  ⟨cartPointToCell c, fun k => cellLocalRange c (loc k), fun k => cellExtendedRange c (loc k), nbrs⟩

/-- Coordinates and periodic length. -/
structure Geom (d n : Nat) where
  coords : Fin n → Fin d → Int → Rat
  length : Fin d → Rat

/-- `SetPeriodicLength` (Geometry.cpp:122-137). -/
def Geom.setPeriodicLength {n : Nat} (g : Geom d n) (L : Fin d → Rat) : Geom d n := { g with length := L }

end GeoF
end Ovk
