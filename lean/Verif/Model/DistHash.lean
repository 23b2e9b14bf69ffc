/-
Model of `distributed_region_hash` (src/core/DistributedRegionHash.hpp, DistributedRegionHash.inl) for
the two region types the library uses: `range` (`decomp_hash`, Decomp.hpp:21) and oriented fragment boxes
(`fragment_hash`, Assembler.hpp:576).

All processes are modelled at once: `ranks[k]` is the list of regions given by rank `k`.  Messages
between two ranks arrive in the order sent, so "the j-th receive from a rank" is "the j-th send of that
rank to me"; the order in which a rank discovers its senders is a parameter (`order`).  The number of
bins per process (`ProcToBinMultiplier`, a floating-point heuristic) and the numbers of processes per
dimension (`BinDecomp_`) are parameters; `binDecomp` below models the latter up to its
floating-point power.
-/
import Verif.Model.RegionHash
import Verif.Model.Container

namespace Ovk.DHash
variable {d : Nat} {K R : Type}

/-- `extents_type = interval<coord_type,MAX_DIMS>`. -/
structure Ext (d : Nat) (K : Type) where
  b : Fin d → K
  e : Fin d → K

/-- Operations that differ between integer and floating-point coordinates. -/
structure CoordOps (K : Type) where
  /-- `Empty` in one dimension (begin, end). -/
  emptyAt : K → K → Bool
  /-- `MakeEmptyExtents_`: begin and end. -/
  emptyB : K
  emptyE : K
  /-- one dimension of `GetBinSize_`: size, number of bins. -/
  binSize1 : K → Int → Option K
  /-- one dimension of `MapToUniformGridCell`: origin, cell size, point. -/
  cell1 : K → K → K → Option Int

/-- Integer coordinates: Interval.hpp:143-150, Range.inl:6-21, DistributedRegionHash.inl:728-739,
Math.inl:123-136. -/
def intOps : CoordOps Int where
  emptyAt b e := decide (e ≤ b)
  emptyB := 0
  emptyE := 0
  binSize1 size n := if n = 0 then none else some ((size + n - 1).tdiv n)
  cell1 := cellOf?

/-- Floating-point coordinates in exact arithmetic: Interval.hpp:205-213, Box.inl:6-21,
DistributedRegionHash.inl:741-752, Math.inl:138-151. -/
def ratOps : CoordOps Rat where
  emptyAt b e := decide (e < b)
  emptyB := 0
  emptyE := -1
  binSize1 size n := if n = 0 then none else some (size / (n : Rat))
  cell1 := cellOfQ? id

/-- All dimensions defined, or undefined. -/
def allDims {α : Type} (f : Fin d → Option α) : Option (Fin d → α) :=
  if h : ∀ i, (f i).isSome then some fun i => (f i).get (h i) else none

/-- `hashable_region_traits`: extents of a region, and the bins it overlaps in loop order, for bins
`[0,nb)` with the given lower corner and bin size. -/
structure RegionOps (d : Nat) (K R : Type) where
  ext : R → Ext d K
  mapToBins : Tup d → (Fin d → K) → (Fin d → K) → R → Option (List (Tup d))

section
variable [LinearOrder K] [Ring K] (co : CoordOps K)

/-- `UnionExtents_` (DistributedRegionHash.inl:655-667; Range.inl:52-69, Box.inl:52-69). -/
def unionExt (l r : Ext d K) : Ext d K :=
  if ∃ i, co.emptyAt (l.b i) (l.e i) then r
  else if ∃ i, co.emptyAt (r.b i) (r.e i) then l
  else ⟨fun i => min (l.b i) (r.b i), fun i => max (l.e i) (r.e i)⟩

/-- Local extents (DistributedRegionHash.inl:27-30). -/
def localExt (ro : RegionOps d K R) (rs : List R) : Ext d K :=
  (rs.map ro.ext).foldl (unionExt co) ⟨fun _ => co.emptyB, fun _ => co.emptyE⟩

/-- Reduction over ranks (`MPI_MIN` on begins, `MPI_MAX` on ends; DistributedRegionHash.inl:32-33). -/
def reduceExt : List (Ext d K) → Ext d K → Ext d K
  | [], acc => acc
  | x :: xs, acc => reduceExt xs ⟨fun i => min (acc.b i) (x.b i), fun i => max (acc.e i) (x.e i)⟩

/-- `GlobalExtents_`. -/
def globalExt (ro : RegionOps d K R) (ranks : List (List R)) : Ext d K :=
  match ranks.map (localExt co ro) with
  | [] => ⟨fun _ => co.emptyB, fun _ => co.emptyE⟩
  | x :: xs => reduceExt xs x

/-- `GetBinSize_` (DistributedRegionHash.inl:728-752). -/
def binSizeOf (x : Ext d K) (nb : Tup d) : Option (Fin d → K) :=
  allDims fun i => co.binSize1 (max (x.e i - x.b i) 0) (nb i)

/-- `MapToUniformGridCell`. -/
def cells (o s p : Fin d → K) : Option (Tup d) := allDims fun i => co.cell1 (o i) (s i) (p i)

/-- The parts of the object every rank knows. -/
structure Geo (d : Nat) (K : Type) where
  gext : Ext d K
  nb : Tup d
  psize : Fin d → K
  mult : Nat → Int

/-- Extents of one process (DistributedRegionHash.inl:200-206, 315-321). -/
def procExt (g : Geo d K) (loc : Tup d) : Ext d K :=
  ⟨fun i => g.gext.b i + (loc i : K) * g.psize i,
   fun i => min (g.gext.b i + ((loc i + 1 : Int) : K) * g.psize i) (g.gext.e i)⟩

/-- Number of bins of a process in each dimension (DistributedRegionHash.inl:194-199, 308-312). -/
def procBins (g : Geo d K) (iProc : Nat) : Tup d := fun _ => g.mult iProc

/-- Ranks whose part of space a region overlaps (DistributedRegionHash.inl:42-48); `range_indexer<int>`
is row-major. -/
def overlappedProcs (ro : RegionOps d K R) (g : Geo d K) (r : R) : Option (List Nat) := do
  let bins ← ro.mapToBins g.nb g.gext.b g.psize r
  pure (bins.map fun p => ((binRangeOf g.nb).index .row p).toNat)

/-- Bins of a process a region overlaps (DistributedRegionHash.inl:192-212); column-major indices. -/
def overlappedBins (ro : RegionOps d K R) (g : Geo d K) (r : R) (iProc : Nat) : Option (List Nat) := do
  let pe := procExt g ((binRangeOf g.nb).tuple .row iProc)
  let s ← binSizeOf co pe (procBins g iProc)
  let bins ← ro.mapToBins (procBins g iProc) pe.b s r
  pure (bins.map fun p => ((binRangeOf (procBins g iProc)).colIndex p).toNat)

/-- What one rank stores: `RegionData_` (owner rank and region) and, if there are any regions, the bin
table (DistributedRegionHash.inl:130-143, 244-293). -/
structure Store (R : Type) where
  data : List (Nat × R)
  table : Option Csr.Table

/-- Regions received by `dst`: for every sender in the order discovered, its regions overlapping `dst`
in their local order (DistributedRegionHash.inl:103-143). -/
def received (procsOf : List (List (R × List Nat))) (order : List Nat) (dst : Nat) : List (Nat × R) :=
  order.flatMap fun src =>
    (((procsOf[src]?).getD []).filter fun x => x.2.contains dst).map fun x => (src, x.1)

/-- Storage of rank `dst` (DistributedRegionHash.inl:130-293). -/
def makeStore (ro : RegionOps d K R) (g : Geo d K) (procsOf : List (List (R × List Nat)))
    (order : List Nat) (dst : Nat) : Option (Store R) := do
  let data := received procsOf order dst
  let bins ← data.mapM fun x => overlappedBins co ro g x.2 dst
  if data.isEmpty then pure ⟨data, none⟩
  else
    let br := binRangeOf (procBins g dst)
    let t ← Csr.build br.count.toNat (RegionHash.binIndices br br) bins
    pure ⟨data, some t⟩

/-- The distributed object. -/
structure Hash (d : Nat) (K R : Type) where
  geo : Geo d K
  stores : List (Store R)

/-- Constructor (DistributedRegionHash.inl:18-297).  `order dst` is the list of senders to `dst` as
returned by `DynamicHandshake`. -/
def make (ro : RegionOps d K R) (nb : Tup d) (mult : Nat → Int) (order : Nat → List Nat)
    (ranks : List (List R)) : Option (Hash d K R) := do
  let gext := globalExt co ro ranks
  let psize ← binSizeOf co gext nb
  let g : Geo d K := ⟨gext, nb, psize, mult⟩
  let procsOf ← ranks.mapM fun rs => rs.mapM fun r => do
    let ps ← overlappedProcs ro g r
    pure (r, ps)
  let stores ← (List.range ranks.length).mapM fun dst => makeStore co ro g procsOf (order dst) dst
  pure ⟨g, stores⟩

/-- `MapToBin` (DistributedRegionHash.inl:299-332): the rank and the bin number. -/
def mapToBin (h : Hash d K R) (p : Fin d → K) : Option (Nat × Nat) := do
  let g := h.geo
  let c ← cells co g.gext.b g.psize p
  let loc := clampToRange (binRangeOf g.nb) c
  let rank := ((binRangeOf g.nb).index .row loc).toNat
  let pe := procExt g loc
  let s ← binSizeOf co pe (procBins g rank)
  let c2 ← cells co pe.b s p
  let br := binRangeOf (procBins g rank)
  pure (rank, (br.colIndex (clampToRange br c2)).toNat)

end

/-- What the owner sends back for a list of bins: regions with their ranks, number of regions per bin, and
for each bin the positions of its regions in the list sent. -/
structure Answer (R : Type) where
  regions : List (Nat × R)
  counts : List Nat
  indices : List Int

/-- `BinRegionIndexToSendRegionIndex` (DistributedRegionHash.inl:530-534): initially -1. -/
def remap (n : Nat) (sent : List Nat) : List Int :=
  (sent.zipIdx).foldl (fun a x => a.set x.1 (x.2 : Int)) (List.replicate n (-1))

/-- The owner's side of `RetrieveBins` (DistributedRegionHash.inl:406-424, 459-475, 497-552).  A rank
without regions has no bin table, and indexing it is out of bounds. -/
def answer (s : Store R) (bins : List Nat) : Option (Answer R) := do
  let t ← s.table
  let lists ← bins.mapM (Csr.retrieveN t)
  let sent := lists.flatten.foldl (fun acc k => OSet.insert (fun a b => decide (a < b)) acc k) []
  let regions ← sent.mapM fun k => s.data[k]?
  let indices ← lists.flatten.mapM fun k => (remap s.data.length sent)[k]?
  pure ⟨regions, lists.map List.length, indices⟩

/-- `BinRegionIndicesIntervals_` (DistributedRegionHash.inl:575-583): bin, start, stop. -/
def intervals : List Nat → List Nat → Nat → List (Nat × Nat × Nat)
  | b :: bs, n :: ns, pos => (b, pos, pos + n) :: intervals bs ns (pos + n)
  | _, _, _ => []

/-- Reading one bin of the retrieved data: `BinRegionIndices(iBin)`, then `RegionData(iRegion)`
(DistributedRegionHash.hpp:37-58). -/
def readBin (bins : List Nat) (a : Answer R) (b : Nat) : Option (List (Nat × R)) := do
  let iv ← (intervals bins a.counts 0).find? fun x => x.1 == b
  if iv.2.2 ≤ a.indices.length then
    ((a.indices.drop iv.2.1).take (iv.2.2 - iv.2.1)).mapM fun k =>
      if 0 ≤ k then a.regions[k.toNat]? else none
  else none

/-- `RetrieveBins` for a batch of bin IDs followed by reading one of them
(DistributedRegionHash.inl:334-590). -/
def retrieve (h : Hash d K R) (ids : List (Nat × Nat)) (id : Nat × Nat) : Option (List (Nat × R)) := do
  let bins := (ids.filter fun x => x.1 == id.1).map Prod.snd
  let s ← h.stores[id.1]?
  let a ← answer s bins
  readBin bins a id.2

/-! ### Region types -/

/-- `hashable_region_traits<range>` (Range.hpp:36-56). -/
def rangeOps : RegionOps d Int (Rng d) where
  ext r := ⟨r.b, r.e⟩
  mapToBins nb lower size r := do
    let lo ← cells intOps lower size r.b
    let up ← cells intOps lower size fun i => r.e i - 1
    let br := binRangeOf nb
    pure (extendRange (extendRange (makeEmptyRange d) (clampToRange br lo)) (clampToRange br up)).points

/-- `fragment` (Assembler.hpp:71-79): a box in a rotated frame.  `orient i j = Orientation(i)(j)`. -/
structure Fragment (d : Nat) where
  orient : Fin d → Fin d → Rat
  box : Box d

/-- `OrientInv` (Assembler.hpp:108-114, 127-134). -/
def Fragment.orientInv (f : Fragment d) (v : Pt d) : Pt d := fun i => ∑ j, f.orient i j * v j

/-- Corners of a box (Assembler.hpp:115-120, 135-144, 219-224): every choice of begin or end per
dimension. -/
def boxCorners : {d : Nat} → Box d → List (Pt d)
  | 0, _ => [fun i => i.elim0]
  | d + 1, x =>
    (boxCorners (d := d) ⟨fun i => x.b i.castSucc, fun i => x.e i.castSucc⟩).flatMap fun v =>
      [Fin.snoc (α := fun _ => Rat) v (x.b (Fin.last d)),
       Fin.snoc (α := fun _ => Rat) v (x.e (Fin.last d))]

/-- `RegionCorners`. -/
def Fragment.corners (f : Fragment d) : List (Pt d) := (boxCorners f.box).map f.orientInv

/-- `ExtendBox` (Box.inl:23-43). -/
def extendBox (x : Box d) (p : Pt d) : Box d :=
  if !x.empty then ⟨fun i => min (x.b i) (p i), fun i => max (x.e i) (p i)⟩ else ⟨p, p⟩

/-- `ComputeExtents2D/3D` (Assembler.hpp:107-150). -/
def Fragment.extents (f : Fragment d) : Box d := f.corners.foldl extendBox (makeEmptyBox d)

/-- `IntervalAlongAxis` (Assembler.hpp:212-223, 304-315).  The end starts from
`numeric_limits<double>::min()`, the smallest *positive* normal number `tiny`, and the begin from the
largest finite number `big`. -/
def intervalAlong (tiny big : Rat) (corners : List (Pt d)) (axis : Pt d) : Rat × Rat :=
  corners.foldl (fun acc c => (min acc.1 (∑ i, c i * axis i), max acc.2 (∑ i, c i * axis i))) (big, tiny)

/-- `OverlapsAlongAxis` (Assembler.hpp:210-227, 302-319). -/
def overlapsAlong (tiny big : Rat) (c1 c2 : List (Pt d)) (axis : Pt d) : Bool :=
  let i1 := intervalAlong tiny big c1 axis
  let i2 := intervalAlong tiny big c2 axis
  decide (i2.2 ≥ i1.1) && decide (i1.2 ≥ i2.1)

/-- Extents of a bin (Assembler.hpp:231-235, 324-328). -/
def binBox (lower size : Pt d) (loc : Tup d) : Box d :=
  ⟨fun i => lower i + (loc i : Rat) * size i, fun i => lower i + ((loc i + 1 : Int) : Rat) * size i⟩

/-- `hashable_region_traits<fragment>` (Assembler.hpp:82-350), for any list of separating axes: candidate
bins from the extents, keep those not separated along any axis.  The code uses four axes in 2D and
fifteen in 3D (one of them mistyped, Assembler.hpp:300); the theorems hold for every choice. -/
def fragmentOps (tiny big : Rat) (axes : Fragment d → List (Pt d)) : RegionOps d Rat (Fragment d) where
  ext f := ⟨f.extents.b, f.extents.e⟩
  mapToBins nb lower size f := do
    let bins ← RegionHash.mapToBins id (binRangeOf nb) lower size f.extents
    pure (bins.points.filter fun loc =>
      (axes f).all fun a => overlapsAlong tiny big f.corners (boxCorners (binBox lower size loc)) a)

/-! ### Numbers of processes per dimension -/

/-- `BinDecomp_` (DistributedRegionHash.inl:669-726) on the list of lengths.  `share` stands for
`int(Length(iMinLengthDim)*Base)` where `Base = pow(MaxBins/Volume, 1/NumDims)`.  The last dimension of
minimal length gets its share, the rest is distributed over the other dimensions. -/
def binDecomp (share : List Rat → Nat → Nat) : Nat → List Rat → Nat → List Nat
  | 0, _, _ => []
  | fuel + 1, lengths, maxBins =>
    if lengths.length ≤ 1 then [maxBins]
    else
      let k := (lengths.zipIdx.foldl (fun (acc : Nat × Option Rat) x =>
        match acc.2 with
        | none => (x.2, some x.1)
        | some m => if x.1 ≤ m then (x.2, some x.1) else acc) (0, none)).1
      let n := max (share lengths maxBins) 1
      (binDecomp share fuel (lengths.eraseIdx k) (maxBins / n)).insertIdx k n

end Ovk.DHash
