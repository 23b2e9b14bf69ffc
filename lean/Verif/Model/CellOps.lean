import Verif.Model.FieldIndex
import Verif.Model.Geometry

/-!
# Cells of coordinate fields

`OverlapsCell` and `CellBounds` of src/core/GeometryOps.inl for every geometry type and number of
dimensions, on coordinate fields in memory, and the choice among them by `geometry_manipulator`
(src/core/GeometryManipulator.hpp).  The tests on coordinates themselves are those of
`Verif.Model.Geometry`.

A `none` is an access outside of a field.  Entries of a box that are never written are `none` in the
box.  Loops over the corners of a cell are written out.
-/

namespace Ovk.CellOps

open Geo

/-- `geometry_type` (src/core/Geometry.h:15-21). -/
inductive GeoType | uniform | orientedUniform | rectilinear | orientedRectilinear | curvilinear
  deriving DecidableEq

variable {K : Type} [Field K] [LinearOrder K]

/-- `array_view<const field_view<const double>>`: the range of the fields, and the memory of each
coordinate (src/core/Field.hpp:13-16). -/
structure Coords (K : Type) where
  ext : Rng 3
  mem : Fin 3 → List K

/-- `Coords(c)[Indexer().ToIndex(p)]`, `Coords(c)(p)`: column-major (src/core/Field.hpp:13-16). -/
def Coords.at (X : Coords K) (c : Fin 3) (p : Tup 3) : Option K :=
  if 0 ≤ X.ext.colIndex p then (X.mem c)[(X.ext.colIndex p).toNat]? else none

/-- Two coordinates of a point (src/core/GeometryOps.inl:45-52, 125-128). -/
def Coords.node2 (X : Coords K) (p : Tup 3) : Option (Fin 2 → K) := do
  let a ← X.at 0 p
  let b ← X.at 1 p
  some ![a, b]

/-- Three coordinates of a point (src/core/GeometryOps.inl:69-78, 149-153). -/
def Coords.node3 (X : Coords K) (p : Tup 3) : Option (Fin 3 → K) := do
  let a ← X.at 0 p
  let b ← X.at 1 p
  let c ← X.at 2 p
  some ![a, b, c]

/-- The loops over corners in two dimensions (src/core/GeometryOps.inl:120-131). -/
def Coords.corners2 (X : Coords K) (cell : Tup 3) : Option (Fin 4 → Fin 2 → K) := do
  let n0 ← X.node2 ![cell 0, cell 1, 0]
  let n1 ← X.node2 ![cell 0 + 1, cell 1, 0]
  let n2 ← X.node2 ![cell 0, cell 1 + 1, 0]
  let n3 ← X.node2 ![cell 0 + 1, cell 1 + 1, 0]
  some ![n0, n1, n2, n3]

/-- The loops over corners in three dimensions (src/core/GeometryOps.inl:143-157). -/
def Coords.corners3 (X : Coords K) (cell : Tup 3) : Option (Fin 8 → Fin 3 → K) := do
  let n0 ← X.node3 ![cell 0, cell 1, cell 2]
  let n1 ← X.node3 ![cell 0 + 1, cell 1, cell 2]
  let n2 ← X.node3 ![cell 0, cell 1 + 1, cell 2]
  let n3 ← X.node3 ![cell 0 + 1, cell 1 + 1, cell 2]
  let n4 ← X.node3 ![cell 0, cell 1, cell 2 + 1]
  let n5 ← X.node3 ![cell 0 + 1, cell 1, cell 2 + 1]
  let n6 ← X.node3 ![cell 0, cell 1 + 1, cell 2 + 1]
  let n7 ← X.node3 ![cell 0 + 1, cell 1 + 1, cell 2 + 1]
  some ![n0, n1, n2, n3, n4, n5, n6, n7]

/-- `OverlapsCell<UNIFORM,1>` (src/core/GeometryOps.inl:23-34). -/
def overlapsUniform1 (X : Coords K) (tol : K) (cell : Tup 3) (x : Fin 3 → K) : Option Bool := do
  let lo ← X.at 0 cell
  let up ← X.at 0 ![cell 0 + 1, 0, 0]
  some (overlapsLocal tol (isoUniformInv ![lo] ![up] ![x 0]))

/-- `OverlapsCell<UNIFORM,2>` (src/core/GeometryOps.inl:36-58). -/
def overlapsUniform2 (X : Coords K) (tol : K) (cell : Tup 3) (x : Fin 3 → K) : Option Bool := do
  let lo ← X.node2 cell
  let up ← X.node2 fun i => cell i + ![1, 1, 0] i
  some (overlapsLocal tol (isoUniformInv lo up ![x 0, x 1]))

/-- `OverlapsCell<UNIFORM,3>` (src/core/GeometryOps.inl:60-82). -/
def overlapsUniform3 (X : Coords K) (tol : K) (cell : Tup 3) (x : Fin 3 → K) : Option Bool := do
  let lo ← X.node3 cell
  let up ← X.node3 fun i => cell i + ![1, 1, 1] i
  some (overlapsLocal tol (isoUniformInv lo up x))

/-- `OverlapsCell<ORIENTED_UNIFORM,2>` (src/core/GeometryOps.inl:116-137). -/
def overlapsOriented2 (X : Coords K) (tol : K) (cell : Tup 3) (x : Fin 3 → K) : Option Bool := do
  let v ← X.corners2 cell
  some (overlapsLocal tol (isoOrientedInv (v 0) ![v 1, v 2] ![x 0, x 1]))

/-- `OverlapsCell<ORIENTED_UNIFORM,3>` (src/core/GeometryOps.inl:139-161). -/
def overlapsOriented3 (X : Coords K) (tol : K) (cell : Tup 3) (x : Fin 3 → K) : Option Bool := do
  let v ← X.corners3 cell
  some (overlapsLocal tol (isoOrientedInv (v 0) ![v 1, v 2, v 4] x))

/-- `OverlapsCell<CURVILINEAR,2>` (src/core/GeometryOps.inl:195-216). -/
def overlapsCurvilinear2 (X : Coords K) (tol : K) (cell : Tup 3) (x : Fin 3 → K) : Option Bool := do
  let v ← X.corners2 cell
  some (overlapsQuad v ![x 0, x 1] tol)

/-- `OverlapsCell<CURVILINEAR,3>` (src/core/GeometryOps.inl:218-240). -/
def overlapsCurvilinear3 (X : Coords K) (tol : K) (cell : Tup 3) (x : Fin 3 → K) : Option Bool := do
  let v ← X.corners3 cell
  some (overlapsHex v x tol)

/-- `OverlapsCell<Type,1>` (src/core/GeometryOps.inl:23-34, 84-90, 108-114, 163-169, 187-193). -/
def overlapsCell1 : GeoType → Coords K → K → Tup 3 → (Fin 3 → K) → Option Bool
  | .uniform => overlapsUniform1
  | .rectilinear => overlapsUniform1
  | .orientedUniform => overlapsUniform1
  | .orientedRectilinear => overlapsUniform1
  | .curvilinear => overlapsUniform1

/-- `OverlapsCell<Type,2>` (src/core/GeometryOps.inl:36-58, 92-98, 116-137, 171-177, 195-216). -/
def overlapsCell2 : GeoType → Coords K → K → Tup 3 → (Fin 3 → K) → Option Bool
  | .uniform => overlapsUniform2
  | .rectilinear => overlapsUniform2
  | .orientedUniform => overlapsOriented2
  | .orientedRectilinear => overlapsOriented2
  | .curvilinear => overlapsCurvilinear2

/-- `OverlapsCell<Type,3>` (src/core/GeometryOps.inl:60-82, 100-106, 139-161, 179-185, 218-240). -/
def overlapsCell3 : GeoType → Coords K → K → Tup 3 → (Fin 3 → K) → Option Bool
  | .uniform => overlapsUniform3
  | .rectilinear => overlapsUniform3
  | .orientedUniform => overlapsOriented3
  | .orientedRectilinear => overlapsOriented3
  | .curvilinear => overlapsCurvilinear3

/-- `geometry_manipulator::Apply` with `OverlapsCell` (src/core/GeometryManipulator.hpp:55-123). -/
def overlapsCell (T : GeoType) (dims : Nat) : Coords K → K → Tup 3 → (Fin 3 → K) → Option Bool :=
  match dims with
  | 1 => overlapsCell1 T
  | 2 => overlapsCell2 T
  | _ => overlapsCell3 T

/-- `box` (src/core/Box.hpp:20), an entry is `none` if it was never written. -/
structure Box3 (K : Type) where
  b : Fin 3 → Option K
  e : Fin 3 → Option K

/-- A box all entries of which were written. -/
def full (B : KBox K 3) : Box3 K := ⟨fun i => some (B.b i), fun i => some (B.e i)⟩

/-- `CellBounds<UNIFORM,1>` (src/core/GeometryOps.inl:770-780).  `box Bounds` writes nothing
(src/core/Interval.hpp:26-31, src/core/Elem.hpp:87-91). -/
def boundsUniform1 (X : Coords K) (cell : Tup 3) : Option (Box3 K) := do
  let lo ← X.at 0 ![cell 0, 0, 0]
  let up ← X.at 0 ![cell 0 + 1, 0, 0]
  some ⟨![some lo, none, none], ![some up, none, none]⟩

/-- `CellBounds<UNIFORM,2>` (src/core/GeometryOps.inl:782-805). -/
def boundsUniform2 (X : Coords K) (cell : Tup 3) : Option (Box3 K) := do
  let lo ← X.node2 cell
  let up ← X.node2 fun i => cell i + ![1, 1, 0] i
  some (full ⟨![lo 0, lo 1, 0], ![up 0, up 1, 0]⟩)

/-- `CellBounds<UNIFORM,3>` (src/core/GeometryOps.inl:807-830). -/
def boundsUniform3 (X : Coords K) (cell : Tup 3) : Option (Box3 K) := do
  let lo ← X.node3 cell
  let up ← X.node3 fun i => cell i + ![1, 1, 1] i
  some (full ⟨![lo 0, lo 1, lo 2], ![up 0, up 1, up 2]⟩)

/-- `MakeEmptyBox` (src/core/Box.inl:6-21). -/
def emptyBox (dims : Nat) : KBox K 3 := ⟨fun _ => 0, fun i => if i.val < dims then -1 else 0⟩

/-- `CellBounds<CURVILINEAR,2>` (src/core/GeometryOps.inl:902-921). -/
def boundsCurvilinear2 (X : Coords K) (cell : Tup 3) : Option (Box3 K) := do
  let v ← X.corners2 cell
  some (full ([v 0, v 1, v 2, v 3].foldl (fun r n => r.extend ![n 0, n 1, 0]) (emptyBox 2)))

/-- `CellBounds<CURVILINEAR,3>` (src/core/GeometryOps.inl:923-944). -/
def boundsCurvilinear3 (X : Coords K) (cell : Tup 3) : Option (Box3 K) := do
  let v ← X.corners3 cell
  some (full ([v 0, v 1, v 2, v 3, v 4, v 5, v 6, v 7].foldl (fun r n => r.extend n) (emptyBox 3)))

/-- `CellBounds<Type,1>` (src/core/GeometryOps.inl:770-780, 832-837, 853-858, 874-879, 895-900). -/
def cellBounds1 : GeoType → Coords K → Tup 3 → Option (Box3 K)
  | .uniform => boundsUniform1
  | .rectilinear => boundsUniform1
  | .orientedUniform => boundsUniform1
  | .orientedRectilinear => boundsUniform1
  | .curvilinear => boundsUniform1

/-- `CellBounds<Type,2>` (src/core/GeometryOps.inl:782-805, 839-844, 860-865, 881-886, 902-921). -/
def cellBounds2 : GeoType → Coords K → Tup 3 → Option (Box3 K)
  | .uniform => boundsUniform2
  | .rectilinear => boundsUniform2
  | .orientedUniform => boundsCurvilinear2
  | .orientedRectilinear => boundsCurvilinear2
  | .curvilinear => boundsCurvilinear2

/-- `CellBounds<Type,3>` (src/core/GeometryOps.inl:807-830, 846-851, 867-872, 888-893, 923-944). -/
def cellBounds3 : GeoType → Coords K → Tup 3 → Option (Box3 K)
  | .uniform => boundsUniform3
  | .rectilinear => boundsUniform3
  | .orientedUniform => boundsCurvilinear3
  | .orientedRectilinear => boundsCurvilinear3
  | .curvilinear => boundsCurvilinear3

/-- `geometry_manipulator::Apply` with `CellBounds` (src/core/GeometryManipulator.hpp:55-123). -/
def cellBounds (T : GeoType) (dims : Nat) : Coords K → Tup 3 → Option (Box3 K) :=
  match dims with
  | 1 => cellBounds1 T
  | 2 => cellBounds2 T
  | _ => cellBounds3 T

end Ovk.CellOps
