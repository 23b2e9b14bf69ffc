/-
Model of the geometric primitives: src/core/Math.inl, src/core/GeometricPrimitiveOpsLine.inl,
src/core/GeometricPrimitiveOpsQuad.inl, src/core/GeometricPrimitiveOpsHex.inl and the cell functions of
src/core/GeometryOps.inl.  `Line.inl`, `Quad.inl`, `Hex.inl` below stand for GeometricPrimitiveOps<...>.inl.

`double` is an ordered field `K` with exact arithmetic.  Where the code divides by a quantity that can be
zero and then compares the quotient, the quotient is a value of `Quot K` (finite, infinite or NaN), with
the IEEE comparison rules; the zero divisor is taken to be positive zero.  In the iterative inversions a
zero determinant makes every later iterate NaN or infinite, the convergence test fails for such values, and
no result is returned; this is the outcome `none` of the solver.

The nodes of an iterative inversion are indexed by a multi-index (`Fin d → Fin m`); the code numbers the
same nodes consecutively, first dimension fastest, in the loops that fill the array and in the loops that
read it.
-/
import Mathlib.Data.Fin.VecNotation
import Mathlib.Algebra.Order.Field.Basic
import Mathlib.Algebra.BigOperators.Ring.Finset
import Mathlib.Algebra.BigOperators.Fin
import Mathlib.Data.Fintype.BigOperators
import Verif.Model.Range

namespace Ovk.Geo

section Field
variable {K : Type} [Field K]

/-- `ColumnDeterminant2D` (Math.inl:30-34). -/
def det2 (a b : Fin 2 → K) : K := a 0 * b 1 - a 1 * b 0

/-- `ColumnDeterminant3D` (Math.inl:36-44). -/
def det3 (a b c : Fin 3 → K) : K :=
  a 0 * (b 1 * c 2 - b 2 * c 1) + b 0 * (c 1 * a 2 - c 2 * a 1) + c 0 * (a 1 * b 2 - a 2 * b 1)

/-- `ColumnSolve2D` (Math.inl:46-58). -/
def solve2 (a b r : Fin 2 → K) : Fin 2 → K := ![det2 r b / det2 a b, det2 a r / det2 a b]

/-- `ColumnSolve3D` (Math.inl:60-73). -/
def solve3 (a b c r : Fin 3 → K) : Fin 3 → K :=
  ![det3 r b c / det3 a b c, det3 a r c / det3 a b c, det3 a b r / det3 a b c]

/-- `LagrangeInterpLinear` (Math.inl:75-79). -/
def lin (u : K) : Fin 2 → K := ![1 - u, u]

/-- `LagrangeInterpLinearDeriv` (Math.inl:81-85). -/
def linDeriv (_u : K) : Fin 2 → K := ![-1, 1]

/-- `LagrangeInterpCubic` (Math.inl:87-96). -/
def cubic (u : K) : Fin 4 → K :=
  ![-(u * (u - 1) * (u - 2)) / 6, ((u + 1) * (u - 1) * (u - 2)) / 2, -((u + 1) * u * (u - 2)) / 2,
    ((u + 1) * u * (u - 1)) / 6]

/-- `LagrangeInterpCubicDeriv` (Math.inl:98-121); `s3` and `s7` are the constants `Sqrt3`, `Sqrt7`. -/
def cubicDeriv (s3 s7 u : K) : Fin 4 → K :=
  ![-((u - (1 + 1 / s3)) * (u - (1 - 1 / s3))) / 2,
    (3 * (u - (2 + s7) / 3) * (u - (2 - s7) / 3)) / 2,
    -(3 * (u - (1 + s7) / 3) * (u - (1 - s7) / 3)) / 2,
    ((u - 1 / s3) * (u - (-1 / s3))) / 2]

/-- `IsoLine2Node`, `IsoQuad4NodeUniform`, `IsoHex8NodeUniform` (Line.inl:7-13, Quad.inl:7-18,
Hex.inl:7-20). -/
def isoUniform {d : Nat} (lo up u : Fin d → K) : Fin d → K := fun i => (1 - u i) * lo i + u i * up i

/-- `IsoLine2NodeInverse`, `IsoQuad4NodeUniformInverse`, `IsoHex8NodeUniformInverse` (Line.inl:15-21,
Quad.inl:20-28, Hex.inl:22-31). -/
def isoUniformInv {d : Nat} (lo up x : Fin d → K) : Fin d → K := fun i => (x i - lo i) / (up i - lo i)

/-- `IsoQuad4NodeOrientedUniform`, `IsoHex8NodeOrientedUniform` (Quad.inl:30-41, Hex.inl:33-46): `corner` is
node 0 and `edge e` is the neighbouring node in dimension `e` (node 1, 2, 4). -/
def isoOriented {d : Nat} (corner : Fin d → K) (edge : Fin d → Fin d → K) (u : Fin d → K) :
    Fin d → K :=
  fun i => (1 - ∑ e, u e) * corner i + ∑ e, u e * edge e i

/-- `Dot` (Quad.inl:61-63, Hex.inl:74-76). -/
def dot {d : Nat} (a b : Fin d → K) : K := ∑ i, a i * b i

/-- `IsoQuad4NodeOrientedUniformInverse`, `IsoHex8NodeOrientedUniformInverse` (Quad.inl:43-73,
Hex.inl:48-88): projection on each edge. -/
def isoOrientedInv {d : Nat} (corner : Fin d → K) (edge : Fin d → Fin d → K) (x : Fin d → K) :
    Fin d → K :=
  fun e => dot (fun i => x i - corner i) (fun i => edge e i - corner i) /
    dot (fun i => edge e i - corner i) (fun i => edge e i - corner i)

/-- Nested loops over the nodes: the sum of shape products times node coordinates. -/
def tensor {d m : Nat} (s : Fin d → Fin m → K) (nodes : (Fin d → Fin m) → Fin d → K) : Fin d → K :=
  fun c => ∑ n : Fin d → Fin m, (∏ e, s e (n e)) * nodes n c

/-- `IsoLine4Node`, `IsoQuad4NodeNonUniform`, `IsoQuad16Node`, `IsoHex8NodeNonUniform`, `IsoHex64Node`
(Line.inl:23-35, Quad.inl:75-105, 160-187, Hex.inl:90-120, 183-213). -/
def iso {d m : Nat} (shape : K → Fin m → K) (nodes : (Fin d → Fin m) → Fin d → K) (u : Fin d → K) :
    Fin d → K := tensor (fun e => shape (u e)) nodes

/-- `JacobianI`, `JacobianJ`, `JacobianK`: column `e` (Line.inl:48-52, Quad.inl:126-140, 208-222,
Hex.inl:143-162, 236-255). -/
def jac {d m : Nat} (shape deriv : K → Fin m → K) (nodes : (Fin d → Fin m) → Fin d → K)
    (u : Fin d → K) (e : Fin d) : Fin d → K :=
  tensor (fun e' => if e' = e then deriv (u e') else shape (u e')) nodes

end Field

section Ordered
variable {K : Type} [Field K] [LinearOrder K]

/-- A solver for the columns of a square system; `none` if a division by zero occurs. -/
abbrev Solver (K : Type) (d : Nat) := (Fin d → Fin d → K) → (Fin d → K) → Option (Fin d → K)

/-- `Error/Deriv` (Line.inl:53). -/
def solver1 : Solver K 1 := fun a r => if a 0 0 = 0 then none else some ![r 0 / a 0 0]

/-- `ColumnSolve2D(JacobianI, JacobianJ, Error)` (Quad.inl:141, 223). -/
def solver2 : Solver K 2 := fun a r =>
  if det2 (a 0) (a 1) = 0 then none else some (solve2 (a 0) (a 1) r)

/-- `ColumnSolve3D(JacobianI, JacobianJ, JacobianK, Error)` (Hex.inl:163, 256). -/
def solver3 : Solver K 3 := fun a r =>
  if det3 (a 0) (a 1) (a 2) = 0 then none else some (solve3 (a 0) (a 1) (a 2) r)

/-- `SmallEnough` (Quad.inl:110-114, 192-196; Hex.inl:125-130, 218-223; Line.inl:46). -/
def small {d : Nat} (tol : K) (v : Fin d → K) : Prop := ∀ i, |v i| ≤ tol

instance {d : Nat} (tol : K) (v : Fin d → K) : Decidable (small tol v) := by
  unfold small; infer_instance

/-- The Newton loop with `k` steps left, current local coordinates `u` (Line.inl:37-68, Quad.inl:107-158,
189-240, Hex.inl:122-181, 215-274). -/
def newton {d m : Nat} (solve : Solver K d) (shape deriv : K → Fin m → K)
    (nodes : (Fin d → Fin m) → Fin d → K) (x : Fin d → K) (tol : K) :
    Nat → (Fin d → K) → Option (Fin d → K)
  | 0, u => if small tol (fun i => x i - iso shape nodes u i) then some u else none
  | k + 1, u =>
    if small tol (fun i => x i - iso shape nodes u i) then some u
    else (solve (jac shape deriv nodes u) (fun i => x i - iso shape nodes u i)).bind fun s =>
      newton solve shape deriv nodes x tol k (fun i => u i + s i)

/-- `Iso...Inverse` with `MaxSteps` steps: start from the centre. -/
def isoInv {d m : Nat} (solve : Solver K d) (shape deriv : K → Fin m → K)
    (nodes : (Fin d → Fin m) → Fin d → K) (x : Fin d → K) (tol : K) (steps : Nat) :
    Option (Fin d → K) :=
  newton solve shape deriv nodes x tol steps fun _ => 1 / 2

/-! ### Overlap tests -/

/-- `OverlapsLine`, `OverlapsQuadUniform`, `OverlapsHexUniform`, `Overlaps...OrientedUniform`: the test on
local coordinates (Line.inl:70-83, Quad.inl:242-274, Hex.inl:276-308). -/
def overlapsLocal {d : Nat} (tol : K) (u : Fin d → K) : Bool :=
  decide (∀ i, ¬ (u i < -tol) ∧ ¬ (u i > 1 + tol))

/-- A floating point quotient. -/
inductive Quot (K : Type) | fin (x : K) | inf (neg : Bool) | nan

namespace Quot

/-- IEEE division; the zero divisor is positive zero. -/
def div (x y : K) : Quot K :=
  if y ≠ 0 then fin (x / y) else if x = 0 then nan else inf (decide (x < 0))

/-- IEEE addition. -/
def add : Quot K → Quot K → Quot K
  | fin x, fin y => fin (x + y)
  | nan, _ => nan
  | _, nan => nan
  | inf s, fin _ => inf s
  | fin _, inf s => inf s
  | inf s, inf t => if s = t then inf s else nan

/-- `x < y` with a finite right-hand side; false on NaN. -/
def lt : Quot K → K → Bool
  | fin x, y => decide (x < y)
  | inf s, _ => s
  | nan, _ => false

/-- `x > y` with a finite right-hand side; false on NaN. -/
def gt : Quot K → K → Bool
  | fin x, y => decide (x > y)
  | inf s, _ => !s
  | nan, _ => false

end Quot

/-- The loop over the dimensions of a simplex (Quad.inl:302-310, Hex.inl:349-357). -/
def insideLoop (tol : K) : List (Quot K) → Quot K → Bool
  | [], _ => true
  | u :: us, sum =>
    let sum := sum.add u
    if u.lt (-tol) || sum.gt (1 + tol) then false else insideLoop tol us sum

def sub {d : Nat} (a b : Fin d → K) : Fin d → K := fun i => a i - b i

/-- One triangle (Quad.inl:285-311). -/
def insideTri (tol : K) (p q r x : Fin 2 → K) : Bool :=
  let i := sub q p; let j := sub r p; let b := sub x p
  insideLoop tol [Quot.div (det2 b j) (det2 i j), Quot.div (det2 i b) (det2 i j)] (.fin 0)

/-- One tetrahedron (Hex.inl:323-358). -/
def insideTet (tol : K) (p q r s x : Fin 3 → K) : Bool :=
  let i := sub q p; let j := sub r p; let k := sub s p; let b := sub x p
  insideLoop tol [Quot.div (det3 b j k) (det3 i j k), Quot.div (det3 i b k) (det3 i j k),
    Quot.div (det3 i j b) (det3 i j k)] (.fin 0)

/-- `Triangles` (Quad.inl:280-283, 346-349). -/
def triangles : List (Fin 3 → Fin 4) := [![0, 1, 2], ![3, 2, 1]]

/-- `Tetrahedra` (Hex.inl:314-321, 402-409). -/
def tetrahedra : List (Fin 4 → Fin 8) :=
  [![0, 1, 2, 4], ![1, 2, 4, 5], ![2, 4, 5, 6], ![1, 2, 5, 3], ![2, 5, 3, 6], ![3, 6, 5, 7]]

/-- `OverlapsQuadNonUniform` (Quad.inl:276-316). -/
def overlapsQuad (nodes : Fin 4 → Fin 2 → K) (x : Fin 2 → K) (tol : K) : Bool :=
  triangles.any fun t => insideTri tol (nodes (t 0)) (nodes (t 1)) (nodes (t 2)) x

/-- `OverlapsHexNonUniform` (Hex.inl:310-363). -/
def overlapsHex (nodes : Fin 8 → Fin 3 → K) (x : Fin 3 → K) (tol : K) : Bool :=
  tetrahedra.any fun t =>
    insideTet tol (nodes (t 0)) (nodes (t 1)) (nodes (t 2)) (nodes (t 3)) x

/-! ### Volumes -/

/-- `VolumeLine`, `VolumeQuadUniform`, `VolumeHexUniform` (Line.inl:85-89, Quad.inl:318-325,
Hex.inl:365-373). -/
def volUniform {d : Nat} (lo up : Fin d → K) : K := ∏ i, (up i - lo i)

/-- `VolumeQuadOrientedUniform` (Quad.inl:327-341). -/
def volQuadOriented (nodes : Fin 4 → Fin 2 → K) : K :=
  |det2 (sub (nodes 1) (nodes 0)) (sub (nodes 2) (nodes 0))|

/-- `VolumeHexOrientedUniform` (Hex.inl:375-397). -/
def volHexOriented (nodes : Fin 8 → Fin 3 → K) : K :=
  |det3 (sub (nodes 1) (nodes 0)) (sub (nodes 2) (nodes 0)) (sub (nodes 4) (nodes 0))|

/-- `VolumeQuadNonUniform` (Quad.inl:343-370). -/
def volQuad (nodes : Fin 4 → Fin 2 → K) : K :=
  triangles.foldl (fun v t =>
    v + 1 / 2 * |det2 (sub (nodes (t 1)) (nodes (t 0))) (sub (nodes (t 2)) (nodes (t 0)))|) 0

/-- `VolumeHexNonUniform` (Hex.inl:399-438). -/
def volHex (nodes : Fin 8 → Fin 3 → K) : K :=
  tetrahedra.foldl (fun v t =>
    v + |det3 (sub (nodes (t 1)) (nodes (t 0))) (sub (nodes (t 2)) (nodes (t 0)))
      (sub (nodes (t 3)) (nodes (t 0)))| / 6) 0

/-! ### Cells of a grid -/

/-- The `Max`/`Min` of the stencil shift (GeometryOps.inl:438-439, 481-482, 534-535). -/
def shiftedCell {d : Nat} (ext : Rng d) (cell : Tup d) : Tup d :=
  fun i => min (max (cell i) (ext.b i + 1)) (ext.e i - 3)

/-- `StencilFits` in two and three dimensions (GeometryOps.inl:483-487, 536-540). -/
def stencilFits {d : Nat} (ext : Rng d) (cell : Tup d) : Bool :=
  decide (∀ i, ¬ (shiftedCell ext cell i - 1 < ext.b i ∨ shiftedCell ext cell i + 2 ≥ ext.e i))

/-- `StencilFits` in one dimension (GeometryOps.inl:441-442). -/
def stencilFits1 (ext : Rng 1) (cell : Tup 1) : Bool :=
  decide (shiftedCell ext cell 0 - 1 < ext.b 0 ∧ shiftedCell ext cell 0 + 2 ≥ ext.e 0)

/-- `NodeCoords` of the cubic stencil (GeometryOps.inl:492-503, 545-559). -/
def stencilNodes {d : Nat} (coords : Tup d → Fin d → K) (s : Tup d) : (Fin d → Fin 4) → Fin d → K :=
  fun n => coords fun i => s i - 1 + ((n i : Nat) : Int)

/-- `CoordsInCell` for `CURVILINEAR` (also `RECTILINEAR`, `ORIENTED_RECTILINEAR`) with a given test
(GeometryOps.inl:431-572). -/
def coordsInCellWith {d : Nat} (solve : Solver K d) (s3 s7 : K) (fits : Bool) (ext : Rng d)
    (coords : Tup d → Fin d → K) (cell : Tup d) (x : Fin d → K) (tol : K) (steps : Nat) :
    Option (Fin d → K) :=
  if fits then
    (isoInv solve cubic (cubicDeriv s3 s7) (stencilNodes coords (shiftedCell ext cell)) x tol
      steps).map fun u i => u i + ((shiftedCell ext cell i - cell i : Int) : K)
  else none

/-- `CoordsInCell<CURVILINEAR,1>` (GeometryOps.inl:431-470). -/
def coordsInCell1 (s3 s7 : K) (ext : Rng 1) (coords : Tup 1 → Fin 1 → K) (cell : Tup 1)
    (x : Fin 1 → K) (tol : K) (steps : Nat) : Option (Fin 1 → K) :=
  coordsInCellWith solver1 s3 s7 (stencilFits1 ext cell) ext coords cell x tol steps

/-- `CoordsInCell<CURVILINEAR,2>` (GeometryOps.inl:472-523). -/
def coordsInCell2 (s3 s7 : K) (ext : Rng 2) (coords : Tup 2 → Fin 2 → K) (cell : Tup 2)
    (x : Fin 2 → K) (tol : K) (steps : Nat) : Option (Fin 2 → K) :=
  coordsInCellWith solver2 s3 s7 (stencilFits ext cell) ext coords cell x tol steps

/-- `CoordsInCell<CURVILINEAR,3>` (GeometryOps.inl:525-572). -/
def coordsInCell3 (s3 s7 : K) (ext : Rng 3) (coords : Tup 3 → Fin 3 → K) (cell : Tup 3)
    (x : Fin 3 → K) (tol : K) (steps : Nat) : Option (Fin 3 → K) :=
  coordsInCellWith solver3 s3 s7 (stencilFits ext cell) ext coords cell x tol steps

/-- `box` over `K`. -/
structure KBox (K : Type) (d : Nat) where
  b : Fin d → K
  e : Fin d → K

/-- `interval::Empty` for floating point (Interval.hpp:205-213). -/
def KBox.empty {d : Nat} (r : KBox K d) : Bool := decide (∃ i, r.e i < r.b i)

/-- `interval::Contains` for floating point (Interval.hpp:215-224). -/
def KBox.contains {d : Nat} (r : KBox K d) (x : Fin d → K) : Bool :=
  decide (∀ i, x i ≥ r.b i ∧ x i ≤ r.e i)

/-- `MakeEmptyBox` (Box.inl:6-21). -/
def KBox.mkEmpty (d : Nat) : KBox K d := ⟨fun _ => 0, fun _ => -1⟩

/-- `ExtendBox` (Box.inl:23-41). -/
def KBox.extend {d : Nat} (r : KBox K d) (x : Fin d → K) : KBox K d :=
  if r.empty then ⟨x, x⟩ else ⟨fun i => min (r.b i) (x i), fun i => max (r.e i) (x i)⟩

/-- `CellBounds<UNIFORM>` (GeometryOps.inl:770-829): the two extreme corners. -/
def boundsUniform {d : Nat} (lo up : Fin d → K) : KBox K d := ⟨lo, up⟩

/-- `CellBounds<CURVILINEAR>` in two and three dimensions (GeometryOps.inl:902-944): all corners. -/
def boundsCurvilinear {d : Nat} (nodes : List (Fin d → K)) : KBox K d :=
  nodes.foldl KBox.extend (KBox.mkEmpty d)

end Ordered
end Ovk.Geo
