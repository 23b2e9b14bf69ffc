/-
Model of overlap detection as a whole (src/core/AssemblerAssembly.cpp, `assembler::DetectOverlap_`, lines
689-2680): from the grids' index spaces, active points and coordinates to the overlap data on both sides and
to the first collect operation on them.

All processes are modelled at once.  The steps that have models of their own are used here: `subdivide` and
`makeCellCoverRange` (Decomp), the distributed hash of fragments (DistHash), the search structure of a fragment
(OverlapAccel), the aggregation over fragments (Aggregate), the collect map (Collect).

Simplifications.  A process that does not hold a grid has an empty range of it.  Geometry enters through the
bounds of cells and the local coordinates of points in cells; a cell's local coordinates of a point do not
depend on the frame in which both are given.  Data sent between processes arrives as sent (C42 is about the
transfer of fragments); sets and maps are lists in increasing order of their keys (C10, C11).  With duplicated
periodic storage both copies of a point have the same flags.  `double` is `Rat`.
-/
import Verif.Model.Aggregate
import Verif.Model.Decomp
import Verif.Model.DistHash
import Verif.Model.Collect
import Verif.Model.Exchanger

namespace Ovk.Ovl
variable {d n : Nat}

/-- What overlap detection starts from; `n` processes, `d + 2` dimensions. -/
structure World (d n : Nat) where
  /-- `Domain.GridIDs()`, in increasing order. -/
  grids : List Nat
  /-- `Grid.Cart()`. -/
  cart : Nat → Cart (d + 2)
  /-- `Grid.LocalRange()`. -/
  loc : Nat → Fin n → Rng (d + 2)
  /-- `ActiveMask`. -/
  active : Nat → Tup (d + 2) → Bool
  /-- `Geometry.Coords()` at the points of the grid. -/
  coord : Nat → Tup (d + 2) → Pt (d + 2)
  /-- `Options_.Overlappable({M,N})`. -/
  overlappable : Nat → Nat → Bool
  /-- `Options_.OverlapTolerance({M,N})`. -/
  tol : Nat → Nat → Rat
  /-- `Fragment.Orientation` of the fragment of a grid with given cells. -/
  orient : Nat → Rng (d + 2) → Fin (d + 2) → Fin (d + 2) → Rat
  /-- `Manipulator.CellBounds` of a cell in the frame of a fragment, from the coordinates in the halo if the
  cell is there. -/
  bounds : Nat → Rng (d + 2) → Tup (d + 2) → Box (d + 2)
  /-- Local coordinates of a point in a cell, if the point is accepted with the given tolerance
  (`find_cell_in_bin`, OverlapAccel.cpp:310-326). -/
  coordsIn : Nat → Tup (d + 2) → Rat → Pt (d + 2) → Option (Pt (d + 2))
  /-- Heuristics of `subdivide`. -/
  compact : Nat → Fin n → Rng (d + 2) → Bool
  depth : Nat → Fin n → Nat
  /-- Parameters of the hash of fragments. -/
  nb : Tup (d + 2)
  mult : Nat → Int
  order : Nat → List Nat
  tiny : Rat
  big : Rat
  axes : DHash.Fragment (d + 2) → List (Pt (d + 2))
  /-- Heuristics of the search structure of a fragment. -/
  binScale : Nat → Rng (d + 2) → Rat
  isLeaf : Nat → Rng (d + 2) → List Nat → Bool
  maxDepth : Nat → Rng (d + 2) → Nat
  /-- `ArrayOrder` (ArrayOps.hpp:715-734). -/
  sort : List Int → List Nat

variable (W : World d n)

/-- The points of the cell with the given lower corner. -/
def vertices (c : Tup (d + 2)) : Rng (d + 2) := ⟨c, fun i => c i + 2⟩

/-- `CellActiveMask` (`GenerateCellActiveMask`, AssemblerAssembly.cpp:5257-5294): all vertices are active; in
the halo it is the value of the periodic image. -/
def cellActive (g : Nat) (c : Tup (d + 2)) : Bool :=
  (vertices c).points.all fun v => W.active g ((W.cart g).periodicAdjust v)

/-- `Grid.CellLocalRange()`. -/
def own (g : Nat) (r : Fin n) : Rng (d + 2) := cellLocalRange (W.cart g) (W.loc g r)

/-- `MaxOverlapTolerances` (734-741). -/
def maxTol (m : Nat) : Rat := W.grids.foldl (fun t k => max t (W.tol m k)) 0

/-- `SubdivisionRanges` of a grid on a process (716-731). -/
def subRanges (g : Nat) (r : Fin n) : List (Rng (d + 2)) :=
  subdivide (cellActive W g) (W.compact g r) (W.depth g r) (own W g r)

/-- `fragment` (Assembler.hpp:71-79). -/
structure Frag (d : Nat) where
  grid : Nat
  id : Nat
  cells : Rng d
  geo : DHash.Fragment d

/-- Bounds of a cell, enlarged by the tolerance (594-620, 645-648). -/
def cellBox (g : Nat) (f : Rng (d + 2)) (c : Tup (d + 2)) : Box (d + 2) :=
  Accel.scaleBox (W.bounds g f c) (1 + 2 * maxTol W g)

/-- `generate_fragments` for one fragment (368-655): its box contains the enlarged active cells that have a
vertex which is a lower corner of a cell of the fragment. -/
def fragment (g id : Nat) (f : Rng (d + 2)) : Frag (d + 2) :=
  ⟨g, id, f, W.orient g f,
    (((makeCellCoverRange (cartPointToCell (W.cart g)) f).points.filter (cellActive W g)).map
      (cellBox W g f)).foldl unionBoxes (makeEmptyBox (d + 2))⟩

/-- Fragments of a grid on a process, numbered from 1 (744-760). -/
def fragments (g : Nat) (r : Fin n) : List (Frag (d + 2)) :=
  (subRanges W g r).zipIdx.map fun x => fragment W g (x.2 + 1) x.1

/-- `LocalFragments` (743-762). -/
def localFragments (r : Fin n) : List (Frag (d + 2)) := W.grids.flatMap fun g => fragments W g r

/-- `hashable_region_traits<fragment>` looks at the box and its orientation only. -/
def fragOps : DHash.RegionOps (d + 2) Rat (Frag (d + 2)) where
  ext f := (DHash.fragmentOps W.tiny W.big W.axes).ext f.geo
  mapToBins nb lower size f := (DHash.fragmentOps W.tiny W.big W.axes).mapToBins nb lower size f.geo

/-- `FragmentHash` (772-776). -/
def hash : Option (DHash.Hash (d + 2) Rat (Frag (d + 2))) :=
  DHash.make DHash.ratOps (fragOps W) W.nb W.mult W.order ((List.finRange n).map (localFragments W))

/-- Active points of a grid on a process, in loop order. -/
def activePoints (g : Nat) (s : Fin n) : List (Tup (d + 2)) := (W.loc g s).points.filter (W.active g)

/-- Order of `elem<int,2>`. -/
def idLess (a b : Nat × Nat) : Bool := decide (a.1 < b.1 ∨ (a.1 = b.1 ∧ a.2 < b.2))

variable (h : DHash.Hash (d + 2) Rat (Frag (d + 2)))

/-- `UniqueOverlappingBinIDs` (787-820). -/
def binIDs (s : Fin n) : Option (List (Nat × Nat)) := do
  let ids ← (W.grids.flatMap fun g => (activePoints W g s).map (W.coord g)).mapM
    (DHash.mapToBin DHash.ratOps h)
  pure (ids.foldl (OSet.insert idLess) [])

/-- `TransformedCoords` (881-887). -/
def transform (f : DHash.Fragment d) (x : Pt d) : Pt d := fun i => ∑ j, f.orient j i * x j

/-- The retrieved fragments that contain a point and may overlap its grid, with their ranks (867-893). -/
def hits (ids : List (Nat × Nat)) (g : Nat) (p : Tup (d + 2)) : Option (List (Nat × Frag (d + 2))) := do
  let id ← DHash.mapToBin DHash.ratOps h (W.coord g p)
  let regions ← DHash.retrieve h ids id
  pure (regions.filter fun y => W.overlappable y.2.grid g &&
    y.2.geo.box.contains (transform y.2.geo (W.coord g p)))

/-- The loop over the active points of a grid (850-893, 1310-1340, 1382-1417). -/
def candidates (g : Nat) (s : Fin n) : Option (List (Tup (d + 2) × List (Nat × Frag (d + 2)))) := do
  let ids ← binIDs W h s
  (activePoints W g s).mapM fun p => (hits W h ids g p).map fun l => (p, l)

/-- A retrieved region is fragment `id` of grid `m` on process `r`. -/
def isFor (m : Nat) (r : Fin n) (id : Nat) (y : Nat × Frag (d + 2)) : Bool :=
  y.1 == r.val && y.2.grid == m && y.2.id == id

/-- `MGridRanks` (896-906). -/
def ranksOf (cand : List (Tup (d + 2) × List (Nat × Frag (d + 2)))) (m : Nat) : List (Fin n) :=
  (List.finRange n).filter fun r => cand.any fun x => x.2.any fun y => y.1 == r.val && y.2.grid == m

/-- The fragments of grid `m` requested from process `r`, in the order of their IDs (1045-1190). -/
def requested (cand : List (Tup (d + 2) × List (Nat × Frag (d + 2)))) (m : Nat) (r : Fin n) :
    List (Frag (d + 2)) :=
  (fragments W m r).filter fun f => cand.any fun x => x.2.any (isFor m r f.id)

/-- Query points of a fragment (1382-1417). -/
def queryPoints (cand : List (Tup (d + 2) × List (Nat × Frag (d + 2)))) (m : Nat) (r : Fin n) (id : Nat) :
    List (Tup (d + 2)) :=
  cand.flatMap fun x => (x.2.filter (isFor m r id)).map fun _ => x.1

/-- `Grid.CellGlobalRange()`. -/
def cellRange (g : Nat) : Rng (d + 2) := (cartPointToCell (W.cart g)).range

/-- Mask and boxes of the cells of a fragment, by their index in it. -/
def fragMask (m : Nat) (f : Rng (d + 2)) (k : Nat) : Bool := cellActive W m (f.tuple .col k)
def fragBox (m : Nat) (f : Rng (d + 2)) : Nat → Box (d + 2) :=
  Accel.cellBounds (fragMask W m f) (fun k => W.bounds m f (f.tuple .col k)) (maxTol W m)

/-- `OverlapAccel` of a fragment (1586-1589). -/
def accel (m : Nat) (f : Rng (d + 2)) : Option (Box (d + 2) × Option (Accel.Tree (d + 2))) :=
  Accel.make id f.count.toNat (fragMask W m f) (fragBox W m f)
    (Accel.desiredBinSize (W.binScale m f) (fragBox W m f)) (Accel.meanCenter (fragBox W m f))
    (W.isLeaf m f) (W.maxDepth m f)

/-- `generate_overlap_data` for one query point (657-685). -/
def query (m k : Nat) (s : Fin n) (f : Frag (d + 2)) (a : Box (d + 2) × Option (Accel.Tree (d + 2)))
    (p : Tup (d + 2)) : Option (Accel.Query (d + 2)) := do
  let res ← Accel.findCell id a (fun j => W.coordsIn m (f.cells.tuple .col j) (W.tol m k) (W.coord k p))
    (transform f.geo (W.coord k p))
  pure ⟨((W.loc k s).colIndex p).toNat,
    res.map fun x => (cellRange W m).colIndex (f.cells.tuple .col x.1),
    (res.map Prod.snd).getD (transform f.geo (W.coord k p))⟩

/-- The search in one fragment (1586-1606). -/
def search (m k : Nat) (s : Fin n) (f : Frag (d + 2)) (pts : List (Tup (d + 2))) :
    Option (List (Accel.Query (d + 2))) := do
  let a ← accel W m f.cells
  pts.mapM (query W m k s f a)

/-- All query results for a pair of grids, in the order of the aggregation loops (1754-1762, 1781-1784). -/
def queries (m k : Nat) (s : Fin n) (cand : List (Tup (d + 2) × List (Nat × Frag (d + 2)))) :
    Option (List (Accel.Query (d + 2))) := do
  let l ← (ranksOf (n := n) cand m).mapM fun r => (requested W cand m r).mapM fun f =>
    search W m k s f (queryPoints cand m r f.id)
  pure (l.map List.flatten).flatten

/-- One column of `overlap_data` (1651-1662). -/
structure Item (d : Nat) where
  point : Tup d
  cell : Tup d
  coords : Pt d

/-- A tuple from a list. -/
def tupOf (l : List Int) : Tup d := fun i => l[(i : Nat)]?.getD 0

/-- `OverlapDataForGridPair({M,N})` on a process (1738-1832); reading an entry that was never written is
undefined. -/
def items (m k : Nat) (s : Fin n) : Option (List (Item (d + 2))) := do
  let cand ← candidates W h k s
  let qs ← queries W m k s cand
  let es ← Accel.aggregate (W.loc k s).count.toNat (W.loc k s).ext (cellRange W m).ext qs
  es.mapM fun e => e.map fun e => ⟨tupOf e.point, tupOf e.cell, e.coords⟩

/-- `CellCoverRange` (1843-1848). -/
def cover (g : Nat) (r : Fin n) : Rng (d + 2) := makeCellCoverRange (W.cart g) (own W g r)

/-- The data for process `r` (2184-2290): cells with an image in its cover range, given by the image in its
own cells if there is one. -/
def sent (m : Nat) (r : Fin n) (l : List (Item (d + 2))) : List (Item (d + 2)) :=
  l.filterMap fun x => ((W.cart m).mapTupleToRange (cover W m r) x.cell).map fun c =>
    { x with cell := ((W.cart m).mapTupleToRange (own W m r) x.cell).getD c }

/-- `MGridRanks` after the removal of processes without data (1908-2003), with the data. -/
def sources (m k : Nat) (s : Fin n) : Option (List (Item (d + 2)) × List (Fin n)) := do
  let cand ← candidates W h k s
  let l ← items W h m k s
  pure (l, (ranksOf cand m).filter fun r => !(sent W m r l).isEmpty)

/-- One column of `overlap_n`. -/
structure NEntry (d : Nat) where
  point : Tup d
  source : Tup d
  rank : Int

/-- The data of `overlap_n` on a process (2432-2465). -/
def overlapN (m k : Nat) (s : Fin n) : Option (List (NEntry (d + 2))) := do
  let x ← sources W h m k s
  pure (x.1.map fun e => ⟨e.point, e.cell,
    ((x.2.find? fun r => (own W m r).contains e.cell).map fun r => (r.val : Int)).getD (-1)⟩)

/-- One column of `overlap_m`. -/
structure MEntry (d : Nat) where
  cell : Tup d
  coords : Pt d
  dest : Tup d
  rank : Int

/-- The data received by process `r`, in the order of the sending processes (2387-2399, 2407-2416). -/
def incoming (m k : Nat) (r : Fin n) : Option (List (Fin n × Item (d + 2))) := do
  let l ← (List.finRange n).mapM fun s => (sources W h m k s).map fun x =>
    if x.2.contains r then (sent W m r x.1).map fun e => (s, e) else []
  pure l.flatten

/-- `LOrder` (2400-2405). -/
def leftOrder (o : List Nat) : List Nat :=
  o.zipIdx.foldl (fun a x => a.set x.1 x.2) (List.replicate o.length 0)

/-- The data of `overlap_m` on a process (2365-2430), sorted by the index of the destination in its grid. -/
def overlapM (m k : Nat) (r : Fin n) : Option (List (MEntry (d + 2))) := do
  let l ← incoming W h m k r
  let o := W.sort (l.map fun x => (W.cart k).range.colIndex x.2.point)
  let out := l.zipIdx.foldl (fun (a : List (Option (MEntry (d + 2)))) x =>
    a.set ((leftOrder o).getD x.2 0) (some ⟨x.1.2.cell, x.1.2.coords, x.1.2.point,
      if (own W m r).contains x.1.2.cell then (x.1.1.val : Int) else -1⟩)) (List.replicate l.length none)
  out.mapM id

/-- The set-up of the collect operation for a pair of grids (2494-2514, 2609-2611). -/
def collectSetup (nbrs : Fin n → List (Fin n)) (field : Fin n → Rng (d + 2)) (m k : Nat) :
    Option (Coll.Setup (d + 2) n) :=
  (DHash.allDims (overlapM W h m k)).map fun M => ⟨W.cart m, W.loc m, nbrs, field, fun r => (M r).map fun e => vertices e.cell, .col⟩

end Ovk.Ovl
