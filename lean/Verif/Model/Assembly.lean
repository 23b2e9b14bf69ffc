import Verif.Model.Masks
import Verif.Model.Components
import Mathlib.Algebra.Order.Ring.Abs
import Mathlib.Algebra.Order.Ring.Rat
/-!
# Assembly of masks and flags (src/core/AssemblerAssembly.cpp 82-203, 2534-5334)

The stages of `assembler::Assemble` after the search for overlapping cells, for all grids and all
processes.  A distributed mask is a function on the points of the index space (see
`Verif/Model/Masks.lean`): the value a process holds for a point of another process is the one the halo
exchange copies (`Verif/Model/Halo.lean`).  Simplified:

* grids are numbered `0 … n-1` in the order of their ids;
* what the search finds is the arbitrary function `found`, volumes are arbitrary rationals;
* a value sent from the overlapping cells of one grid to the overlapped points of another (collect, send,
  receive, disperse) is the reduction over the vertices of the cell (C21, C22, C23 are about these parts);
* the sweeps over cells next to a point use the cells that exist instead of the extended cell range;
* logging, profiling and the second half of the fill of the donor data are left out.

`none` is undefined behaviour (a read outside an array, a missing key of a map) or, for the only unbounded
loop, running out of `fuel`.
-/
namespace Ovk.Asm
variable {d n : Nat}

abbrev Mask (d : Nat) := Tup d → Bool

/-- `state_flags` (State.hpp:28-49). -/
inductive Flag
  | active | domainBoundary | internalBoundary | overlapped | inferredDomainBoundary | boundaryHole
  | occluded | fringe | outerFringe | innerFringe | overlapMinimized | receiver | orphan
  | debug (k : Fin 5)
  deriving DecidableEq

abbrev Flags := Flag → Bool

/-- `Flags | mask` -/
def Flags.or (f : Flags) (l : List Flag) : Flags := fun x => f x || l.contains x

/-- `Flags & ~mask` -/
def Flags.andNot (f : Flags) (l : List Flag) : Flags := fun x => f x && !l.contains x

/-- `AllAssemblyFlags` (AssemblerAssembly.cpp:155-165). -/
def assemblyFlags : List Flag :=
  [.overlapped, .inferredDomainBoundary, .boundaryHole, .occluded, .fringe, .outerFringe, .innerFringe,
    .overlapMinimized, .receiver, .orphan]

/-- Body of the loop at AssemblerAssembly.cpp:177-186. -/
def resetFlags (f : Flags) : Flags :=
  let f := if f .boundaryHole || f .overlapMinimized then f.or [.active] else f
  let f := if f .inferredDomainBoundary then f.andNot [.domainBoundary] else f
  f.andNot assemblyFlags

/-- A grid on `np` processes with their local and extended ranges. -/
structure Grid (d : Nat) where
  cart : Cart d
  np : Nat
  loc : Fin np → Rng d
  ext : Fin np → Rng d

/-- Ranges of the processes, as used by the mask operations. -/
def Grid.ranges (g : Grid d) : List (Rng d × Rng d) := (List.finRange g.np).map fun k => (g.loc k, g.ext k)

/-- All owned points. -/
def Grid.points (g : Grid d) : List (Tup d) := (List.finRange g.np).flatMap fun k => (g.loc k).points

/-- `DetectEdge` without exterior points. -/
def Grid.edge (g : Grid d) (bc : MaskBC) (inner : Bool) (m : Mask d) : Option (Mask d) :=
  detectEdge g.cart bc inner Bool.false m g.ranges

/-- `CountDistributedMask`. -/
def Grid.count (g : Grid d) (m : Mask d) : Nat := countDistributedMask g.ranges m

/-- Ranges of the partition of the masks that include exterior points (DistributedFieldOps.cpp:62-79). -/
def Grid.edgeRanges (g : Grid d) : List (Rng d × Rng d) :=
  (List.finRange g.np).map fun k =>
    (rangeIncludeExterior g.cart (g.loc k), rangeIncludeExterior g.cart (g.ext k))

/-- Vertices of a cell, under the names of the owned points. -/
def Grid.verts (g : Grid d) (cell : Tup d) : List (Tup d) :=
  (Rng.points ⟨cell, fun i => cell i + 2⟩).map g.cart.periodicAdjust

/-- Existing cells with the given vertex (`NeighborCellRange`, lines 2961-2970). -/
def Grid.cellsAround (g : Grid d) (p : Tup d) : List (Tup d) :=
  ((Rng.points ⟨fun i => p i - 1, fun i => p i + 1⟩).filter fun x => decide (∀ i, g.cart.periodic i = false →
    (cartPointToCell g.cart).range.b i ≤ x i ∧ x i < (cartPointToCell g.cart).range.e i)).map
      g.cart.periodicAdjust

/-- All results, if every one is defined. -/
def forAll {α : Type} (f : Fin n → Option α) : Option (Fin n → α) :=
  if h : ∀ g, (f g).isSome = true then some fun g => (f g).get (h g) else none

/-- `occludes` (Assembler.hpp). -/
inductive Occl | none | all | coarse
  deriving DecidableEq

/-- Options of the assembler (Assembler.hpp), grids, and the data assembly works on. -/
structure Problem (d n : Nat) where
  grid : Fin n → Grid d
  group : Rng d → List (List (Tup d))
  inferBoundaries : Fin n → Bool
  cutBoundaryHoles : Fin n → Fin n → Bool
  fringeSize : Fin n → Nat
  occludes : Fin n → Fin n → Occl
  edgePadding : Fin n → Fin n → Nat
  edgeSmoothing : Fin n → Nat
  minimizeOverlap : Fin n → Fin n → Bool
  connected : Fin n → Fin n → Bool
  disjoint : Fin n → Fin n → Bool
  /-- cell of the first grid the search finds for a point of the second -/
  found : Fin n → Fin n → Tup d → Option (Tup d)
  /-- `Geometry.Volumes()` -/
  vol : Fin n → Tup d → Rat
  /-- `OverlapVolumes`: volume interpolated from the overlapping cell -/
  ovVol : Fin n → Fin n → Tup d → Rat
  fuel : Nat

/-- What assembly keeps: `assembly_data` and the flags of the state component. -/
structure St (d n : Nat) where
  flags : Fin n → Tup d → Flags
  active : Fin n → Mask d := fun _ _ => false
  domBdry : Fin n → Mask d := fun _ _ => false
  intBdry : Fin n → Mask d := fun _ _ => false
  /-- overlap component: the overlapping cell of a point -/
  ov : Fin n → Fin n → Tup d → Option (Tup d) := fun _ _ _ => none
  /-- `LocalOverlapNAuxData(OverlapID).OverlapMask` -/
  overlap : Fin n → Fin n → Mask d := fun _ _ _ => false
  outer : Fin n → Mask d := fun _ _ => false
  pairOccl : Fin n → Fin n → Mask d := fun _ _ _ => false
  occl : Fin n → Mask d := fun _ _ => false
  minim : Fin n → Mask d := fun _ _ => false
  inner : Fin n → Mask d := fun _ _ => false

/-- `GenerateActiveMask` (5244-5255). -/
def activeMask (fl : Tup d → Flags) : Mask d := fun p => fl p .active
/-- `GenerateDomainBoundaryMask` (5296-5312). -/
def domainBoundaryMask (fl : Tup d → Flags) : Mask d := fun p => fl p .active && fl p .domainBoundary
/-- `GenerateInternalBoundaryMask` (5314-5330). -/
def internalBoundaryMask (fl : Tup d → Flags) : Mask d := fun p => fl p .active && fl p .internalBoundary

/-- Regenerating the masks of the grids selected by `sel` (e.g. 3285-3289). -/
def St.regenerate (s : St d n) (sel : Fin n → Bool) : St d n :=
  { s with
    active := fun g => if sel g then activeMask (s.flags g) else s.active g
    domBdry := fun g => if sel g then domainBoundaryMask (s.flags g) else s.domBdry g
    intBdry := fun g => if sel g then internalBoundaryMask (s.flags g) else s.intBdry g }

/-- `Flags[l] = …` for the points of a mask, for the grids selected by `sel`. -/
def St.write (s : St d n) (sel : Fin n → Bool) (m : Fin n → Mask d) (f : Flags → Flags) : St d n :=
  { s with flags := fun g p => if sel g && m g p then f (s.flags g p) else s.flags g p }

/-- `InitializeAssembly_` (121-203). -/
def initAssembly (flags : Fin n → Tup d → Flags) : St d n :=
  St.regenerate { flags := fun g p => resetFlags (flags g p) } fun _ => true

namespace Problem
variable (P : Problem d n)

/-- Whether an overlap was created for a pair of grids (2053-2111). -/
def ovExists (s : St d n) (m k : Fin n) : Bool := (P.grid k).points.any fun p => (s.ov m k p).isSome

/-- End of `DetectOverlap_`: the overlap data (only active points are searched for, e.g. 806, 864),
`OverlapMask` (2534-2551) and the flags (2556-2587). -/
def detectOverlap (s : St d n) : St d n :=
  let ov := fun m k p => if s.active k p then P.found m k p else none
  let s := { s with ov := ov, overlap := fun m k p => (ov m k p).isSome }
  s.write (fun _ => true) (fun g p => decide (∃ m, s.overlap m g p = true)) (·.or [.overlapped])

/-- `InferBoundaries_` (2694-2791). -/
def inferBoundaries_ (s : St d n) : Option (St d n) := do
  let edge ← forAll fun g => (P.grid g).edge .false true (s.active g)
  let inferred : Fin n → Mask d := fun g p => edge g p && !s.domBdry g p &&
    !decide (∃ m, P.ovExists s m g = true ∧ (s.ov m g p).isSome = true)
  let s' := s.write P.inferBoundaries inferred (·.or [.domainBoundary, .inferredDomainBoundary])
  some { s' with domBdry := fun g p => if P.inferBoundaries g then s.domBdry g p || inferred g p
    else s.domBdry g p }

/-- Membership in `LocalCutNPairIDs` (2819-2834). -/
def cut (s : St d n) (m k : Fin n) : Bool :=
  P.cutBoundaryHoles m k && P.ovExists s m k && P.ovExists s k m

/-- Membership in `LocalCutNGridIDs`. -/
def cutN (s : St d n) (k : Fin n) : Bool := decide (∃ m, P.cut s m k = true)

/-- `CellCoverMask` (2945-2954, 3070-3079) on grid `a`: cells overlapping a point of grid `b` in `mask`. -/
def cellCover (s : St d n) (a b : Fin n) (mask : Mask d) : Mask d := fun x =>
  (P.grid b).points.any fun q => decide ((s.ov a b q).map (P.grid a).cart.periodicAdjust = some x) && mask q

/-- `CoverMask` (2955-2982, 3080-3107). -/
def cover (s : St d n) (a b : Fin n) (mask : Mask d) : Mask d := fun p =>
  ((P.grid a).cellsAround p).any (P.cellCover s a b mask)

/-- The loop at 3008-3014. -/
def coverLoop (g : Grid d) : Nat → Mask d → Mask d → Nat → Option Nat
  | fuel, uncovered, cov, k =>
    if g.points.any uncovered = false then some k
    else match fuel with
      | 0 => none
      | fuel + 1 => do
        let cov ← dilateMask g.cart g.ranges cov 1 .false
        coverLoop g fuel (fun p => uncovered p && !cov p) cov (k + 1)

/-- The boundary of grid `m` projected onto grid `k` (2900-3138). -/
def projected (s : St d n) (m k : Fin n) : Option (Mask d) := do
  let g := P.grid k
  let overlapEdge ← (P.grid m).edge .false true (s.overlap k m)
  let cov := P.cover s k m overlapEdge
  let uncovered ← g.edge .mirror false (s.overlap m k)
  let k' ← coverLoop g P.fuel (fun p => uncovered p && !cov p) cov 0
  let cov ← dilateMask g.cart g.ranges (P.cover s k m (s.domBdry m)) k' .false
  let edge ← g.edge .false false fun p => cov p && !s.overlap m k p
  some fun p => edge p && s.overlap m k p

/-- `BoundaryHoleMasks(GridID)` (3159-3227), given the projected boundaries. -/
def holes (s : St d n) (proj : Fin n → Fin n → Mask d) (k : Fin n) : Option (Mask d) := do
  let g := P.grid k
  let boundary : Mask d := fun p => s.domBdry k p || decide (∃ m, P.cut s m k = true ∧ proj m k p = true)
  let projEdge ← forAll fun m => if P.cut s m k then g.edge .false false (proj m k)
    else some fun _ => false
  let interior : Mask d := fun p => decide (∃ m, P.cut s m k = true ∧ (projEdge m p && s.overlap m k p) = true)
  if g.count interior > 0 then do
    let interior ← CC.floodMask interior boundary
      ((List.finRange g.np).map fun r => CC.gridProc P.group g.cart (g.loc r) (g.ext r))
    let activeEdge ← g.edge .false true (s.active k)
    let interiorEdge ← g.edge .false false interior
    let boundary : Mask d := fun p =>
      if s.domBdry k p && activeEdge p && !interiorEdge p then false else boundary p
    some fun p => s.active k p && !interior p && !boundary p
  else some fun _ => false

/-- The update of `OverlapMask` after points were removed (3297-3388, 4135-4227).  `sel` selects the pairs
whose mask is first restricted to active points. -/
def updateOverlap (s : St d n) (sel : Fin n → Fin n → Bool) : St d n :=
  let ovl : Fin n → Fin n → Mask d := fun m k p =>
    if sel m k then s.overlap m k p && s.active k p else s.overlap m k p
  { s with overlap := fun m k p => match s.ov m k p with
      | some cell => ((P.grid m).verts cell).all (s.active m)
      | none => ovl m k p }

/-- `CutBoundaryHoles_` (2793-3401). -/
def cutBoundaryHoles_ (s : St d n) : Option (St d n) := do
  let proj ← forAll fun m => forAll fun k => if P.cut s m k then P.projected s m k
    else some fun _ => false
  let hole ← forAll fun k => if P.cutN s k then P.holes s proj k else some fun _ => false
  let sel := fun k => P.cutN s k && decide ((P.grid k).count (hole k) ≠ 0)
  let s' := (s.write sel hole fun f => (f.andNot [.active]).or [.boundaryHole]).regenerate sel
  some (P.updateOverlap s' (P.cut s))

/-- `OuterFringeMask` of a grid (3428-3468). -/
def outerMask (s : St d n) (k : Fin n) : Option (Mask d) := do
  let g := P.grid k
  let boundary : Mask d := fun p => s.domBdry k p || s.intBdry k p
  let boundaryEdge ← detectEdge g.cart .false false true boundary g.ranges
  let nonBoundaryEdge ← detectEdge g.cart .false false true
    (fun p => s.active k p && !boundary p) g.ranges
  let cov ← detectEdge g.cart .false false true (s.active k) g.ranges
  let cov ← dilateMask (cartIncludeExterior g.cart) g.edgeRanges
    (fun p => cov p && (nonBoundaryEdge p || !boundaryEdge p)) (P.fringeSize k) .false
  some fun p => s.active k p && cov p

/-- `LocateOuterFringe_` (3403-3520). -/
def locateOuterFringe_ (s : St d n) : Option (St d n) := do
  let outer ← forAll fun k => if P.fringeSize k = 0 then some fun _ => false else P.outerMask s k
  let sel := fun k => decide (P.fringeSize k ≠ 0) && decide ((P.grid k).count (outer k) ≠ 0)
  some { s.write sel outer (·.or [.fringe, .outerFringe]) with outer := outer }

/-- `PairwiseOcclusionMask` (3552-3594). -/
def pairwise (s : St d n) (m k : Fin n) : Mask d := fun p =>
  match P.occludes m k with
  | .coarse => (s.ov m k p).isSome && (s.overlap m k p &&
      decide (P.vol k p > (1 + 1 / 10000000000) * P.ovVol m k p))
  | .all => s.overlap m k p
  | .none => false

/-- `MutuallyOccludes` (3613-3616). -/
def mutually (m k : Fin n) : Bool := decide (P.occludes m k = .coarse) && decide (P.occludes k m = .coarse)

/-- One of the two passes that exclude points overlapped by occluded points (3648-3690, 3692-3734); `sel`
selects the order of the ids.  Reading `PairwiseOcclusionMasks({NGridID,MGridID})` when there is no such
overlap is undefined (3668, 3712). -/
def mutualPass (s : St d n) (sel : Fin n → Fin n → Bool) (po : Fin n → Fin n → Mask d) :
    Option (Fin n → Fin n → Mask d) :=
  if ∃ m k, P.ovExists s m k = true ∧ P.mutually m k = true ∧ sel m k = true ∧ P.ovExists s k m = false then
    none
  else some fun m k p =>
    if P.ovExists s m k && P.mutually m k && sel m k then
      match s.ov m k p with
      | some cell => ((P.grid m).verts cell).all fun q => !po k m q
      | none => po m k p
    else po m k p

/-- `DisallowMask` (3775-3799) on grid `m`. -/
def disallow (s : St d n) (po : Fin n → Fin n → Mask d) (m k : Fin n) : Option (Mask d) :=
  if P.occludes k m ≠ .none ∧ P.ovExists s k m = false then none
  else dilateMask (P.grid m).cart (P.grid m).ranges
    (fun p => s.flags m p .outerFringe ||
      (decide (P.occludes k m ≠ .none) && (po k m p || !s.active m p)))
    (P.edgePadding m k) .mirror

/-- Smoothing of the occlusion mask (3866-3877). -/
def smooth (k : Fin n) (base occ : Mask d) : Option (Mask d) :=
  if P.edgeSmoothing k = 0 then some occ
  else do
    let occ ← dilateMask (P.grid k).cart (P.grid k).ranges occ (P.edgeSmoothing k) .mirror
    let occ ← erodeMask (P.grid k).cart (P.grid k).ranges occ (P.edgeSmoothing k) .mirror
    some fun p => occ p && base p

/-- Pairs with an overlap and occlusion enabled. -/
def occPair (s : St d n) (m k : Fin n) : Bool := P.ovExists s m k && decide (P.occludes m k ≠ .none)

/-- `DetectOccluded_` (3522-4007). -/
def detectOccluded_ (s : St d n) : Option (St d n) := do
  let po := P.pairwise s
  let po ← P.mutualPass s (fun m k => decide (m ≤ k)) po
  let po ← P.mutualPass s (fun m k => decide (k ≤ m)) po
  let dis ← forAll fun m => forAll fun k => if P.occPair s m k then P.disallow s po m k
    else some fun _ => false
  let padding : Fin n → Fin n → Mask d := fun m k p => po m k p && !(match s.ov m k p with
    | some cell => ((P.grid m).verts cell).all fun q => !dis m k q
    | none => false)
  let base : Fin n → Mask d := fun k p => decide (∃ m, P.occPair s m k = true ∧ po m k p = true)
  let occ : Fin n → Mask d := fun k p =>
    decide (∃ m, P.occPair s m k = true ∧ (po m k p && !padding m k p) = true)
  let occ ← forAll fun k => P.smooth k (base k) (occ k)
  let po' : Fin n → Fin n → Mask d := fun m k p =>
    if P.occPair s m k then po m k p && !(padding m k p && !occ k p) else po m k p
  let occ : Fin n → Mask d := fun k p => decide (∃ m, P.occPair s m k = true ∧ po' m k p = true)
  let s' := s.write (fun k => decide ((P.grid k).count (occ k) ≠ 0)) occ (·.or [.occluded])
  some { s' with pairOccl := po', occl := occ }

/-- The masks of `MinimizeOverlap_` for one grid (4043-4085): `OverlapMinimizationMask` and
`InnerFringeMask`. -/
def minimizeMasks (s : St d n) (k : Fin n) : Option (Mask d × Mask d) := do
  let g := P.grid k
  let mi : Mask d := fun p =>
    decide (∃ m, P.occPair s m k = true ∧ P.minimizeOverlap m k = true ∧ s.pairOccl m k p = true)
  if P.fringeSize k > 0 then do
    let removable ← erodeMask g.cart g.ranges (fun p => s.occl k p || !s.active k p) (P.fringeSize k) .true
    let mi : Mask d := fun p => mi p && (removable p && s.active k p)
    let inn ← dilateMask g.cart g.ranges mi (P.fringeSize k) .false
    some (mi, fun p => inn p && (s.active k p && !mi p))
  else some (mi, fun _ => false)

/-- The body of the loop at 4110-4117. -/
def minimizeFlags (mi inn : Bool) (f : Flags) : Flags :=
  if mi then (f.andNot [.active, .outerFringe]).or [.overlapMinimized]
  else if inn then f.or [.fringe, .innerFringe] else f

/-- `MinimizeOverlap_` (4009-4252). -/
def minimizeOverlap_ (s : St d n) : Option (St d n) := do
  let mk ← forAll fun k => P.minimizeMasks s k
  let removed := fun k => (P.grid k).count (mk k).1
  let fringe := fun k => (P.grid k).count (mk k).2
  let s' : St d n := { s with
    flags := fun k p => if removed k = 0 ∧ fringe k = 0 then s.flags k p
      else minimizeFlags ((mk k).1 p) ((mk k).2 p) (s.flags k p)
    minim := fun k => (mk k).1
    inner := fun k => (mk k).2 }
  let s' := s'.regenerate fun k => decide (removed k > 0)
  let s' := { s' with
    outer := fun k p => if removed k > 0 then s'.outer k p && s'.flags k p .active else s'.outer k p }
  some (P.updateOverlap s' fun _ _ => true)

/-! ### Connectivity (4254-5240) -/

/-- `ReceiverMask` (4292-4304). -/
def _root_.Ovk.Asm.receivers (s : St d n) (k : Fin n) : Mask d := fun p =>
  s.outer k p || s.inner k p || (s.occl k p && s.active k p)

/-- `MaxReceiverDistances` (4343-4353). -/
def maxDistance (s : St d n) (m : Fin n) : Nat :=
  (List.finRange n).foldl (fun a k => if P.ovExists s m k then max a (1 + P.edgePadding m k) else a) 1

/-- The loop at 4367-4374; `k` is `Distance`. -/
def distLoop (g : Grid d) (recv : Mask d) (maxD : Nat) : Nat → Nat → Mask d → (Tup d → Int) →
    Option (Tup d → Int)
  | 0, _, _, dist => some dist
  | r + 1, k, cov, dist => do
    let dist := fun p => if dist p = maxD ∧ cov p = true then (if recv p then -(k : Int) else k) else dist p
    let cov ← dilateMask g.cart g.ranges cov 1 .false
    distLoop g recv maxD r (k + 1) cov dist

/-- `ReceiverDistances` of a grid (4357-4375). -/
def receiverDistances (g : Grid d) (recv : Mask d) (maxD : Nat) : Option (Tup d → Int) := do
  let cov ← g.edge .false true recv
  distLoop g recv maxD maxD 0 cov fun _ => maxD

/-- `ReceiverDistances(iOverlapping)` as received by the overlapped points: minimum over the vertices
(`CreateCollectMin`, 4393-4445). -/
def cellDistance (g : Grid d) (dist : Tup d → Int) (cell : Tup d) : Int :=
  match g.verts cell with
  | [] => 0
  | v :: vs => vs.foldl (fun a q => min a (dist q)) (dist v)

/-- A donor choice: grid, normalized distance, volume. -/
structure Choice (n : Nat) where
  grid : Fin n
  dist : Rat
  vol : Rat

/-- `BetterDonor` (4514-4534). -/
def betterDonor (occ : Occl) (old : Choice n) (dist vol : Rat) : Bool :=
  if |dist - old.dist| > 1 / 1000000000000 then decide (dist > old.dist)
  else match occ with
    | .all => false
    | .none => true
    | .coarse => decide (vol < old.vol)

/-- Processing one overlapping grid for one point (4503-4542). -/
def chooseStep (disjoint : Bool) (occ : Fin n → Occl) (m : Fin n) (dist vol : Rat)
    (acc : Option (Choice n)) : Option (Choice n) :=
  let ok := !disjoint || decide (dist > 0)
  match acc with
  | none => if ok then some ⟨m, dist, vol⟩ else none
  | some old => if betterDonor (occ old.grid) old dist vol && ok then some ⟨m, dist, vol⟩ else some old

/-- `NormalizedDistance` (4503-4505). -/
def normalized (dist : Int) (padding : Nat) : Rat := min ((dist : Rat) / (1 + padding : Nat)) 1

/-- The body of the loop over the donor grids at one point (4466-4549). -/
def donorStep (s : St d n) (recv : Mask d) (dist : Fin n → Tup d → Int) (k : Fin n) (p : Tup d)
    (acc : Option (Choice n)) (m : Fin n) : Option (Choice n) :=
  if P.ovExists s m k && P.connected m k then
    match s.ov m k p with
    | some cell =>
      if recv p && s.overlap m k p then
        chooseStep (P.disjoint m k) (fun o => P.occludes o m) m
          (normalized (cellDistance (P.grid m) (dist m) cell) (P.edgePadding m k)) (P.ovVol m k p) acc
      else acc
    | none => acc
  else acc

/-- The donor grid chosen for a point (4466-4549). -/
def chooseDonor (s : St d n) (recv : Mask d) (dist : Fin n → Tup d → Int) (k : Fin n) (p : Tup d) :
    Option (Choice n) :=
  (List.finRange n).foldl (P.donorStep s recv dist k p) none

/-- Result of `GenerateConnectivityData_`. -/
structure Conn (d n : Nat) where
  receiver : Fin n → Mask d
  orphan : Fin n → Mask d
  donor : Fin n → Tup d → Option (Fin n)
  /-- created connectivities (4687-4768) -/
  exists_ : Fin n → Fin n → Bool
  /-- receiver points and source cells of a connectivity (5188-5220) -/
  entries : Fin n → Fin n → List (Tup d × Tup d)

/-- `GenerateConnectivityData_` (4254-5240). -/
def generate_ (s : St d n) : Option (St d n × Conn d n) := do
  let recv := fun k => receivers s k
  let dist ← forAll fun k => receiverDistances (P.grid k) (recv k) (P.maxDistance s k)
  let donor : Fin n → Tup d → Option (Fin n) := fun k p =>
    (P.chooseDonor s (recv k) dist k p).map Choice.grid
  let orphan : Fin n → Mask d := fun k p => recv k p && (donor k p).isNone
  let sel := fun k => !(decide ((P.grid k).count (recv k) = 0) && decide ((P.grid k).count (orphan k) = 0))
  let s' := (s.write sel recv (·.or [.receiver])).write sel orphan (·.or [.orphan])
  let created : Fin n → Fin n → Bool := fun m k => P.connected m k && P.ovExists s m k &&
    (P.grid k).points.any fun p => (s.ov m k p).isSome && decide (donor k p = some m)
  some (s', {
    receiver := recv
    orphan := orphan
    donor := donor
    exists_ := created
    entries := fun m k => if created m k then
        (P.grid k).points.filterMap fun p => match s.ov m k p with
          | some cell => if recv k p && decide (donor k p = some m) then some (p, cell) else none
          | none => none
      else [] })

/-- `Assemble` (82-115) on the flags of all grids. -/
def assemble (flags : Fin n → Tup d → Flags) : Option (St d n × Conn d n) := do
  let s ← P.inferBoundaries_ (P.detectOverlap (initAssembly flags))
  let s ← P.cutBoundaryHoles_ s
  let s ← P.locateOuterFringe_ s
  let s ← P.detectOccluded_ s
  let s ← P.minimizeOverlap_ s
  P.generate_ s

end Problem
end Ovk.Asm
