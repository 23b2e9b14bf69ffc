import Verif.Model.UnionFind
import Verif.Model.Decomp
/-!
# `core::ConnectedComponents` and `core::FloodMask` (src/core/DistributedFieldOps.cpp 204-500)

Every process runs the same code on its part of the field.  A process is described by the points it
loops over and the neighbours its loops visit; points of its extended range are named by the owned
point whose value the halo exchange copies there (see `Verif/Model/Halo.lean`), so a global mask or
label field is a function on owned points.  Simplified: `MPI_Scan`, `MPI_Allgather(v)` and
`MPI_Allreduce` are their mathematical results.  `none` is undefined behaviour or non-termination.
-/
namespace Ovk.CC

/-- What one process visits. -/
structure Proc (P : Type) where
  /-- points of `LocalRange`, in loop order (lines 220-222) -/
  loc : List P
  /-- neighbours inside `LocalRange`, grouped by the outermost neighbour loop (lines 226-238) -/
  slabs : P → List (List P)
  /-- neighbours in `ExtendedRange` outside `LocalRange` (lines 349-363) -/
  enbrs : P → List P

/-- Neighbours inside `LocalRange`, in loop order (lines 267-279). -/
def Proc.lnbrs (pr : Proc P) (p : P) : List P := (pr.slabs p).flatten

/-- `NeighborRange` before intersection (lines 226-234). -/
def box {d : Nat} (p : Tup d) : Rng d := ⟨fun i => p i - 1, fun i => p i + 2⟩

/-- The points and neighbours visited on a grid by the process with ranges `loc`, `ext`.  `group` says
how the loop over a range is cut into passes of the outermost loop: three loops always exist, and the
outermost one is a single pass for grids of dimension below three.  Points of `ext` beyond a periodic
end are renamed as described above. -/
def gridProc {d : Nat} (group : Rng d → List (List (Tup d))) (c : Cart d) (loc ext : Rng d) :
    Proc (Tup d) where
  loc := loc.points
  slabs p := group (intersectRanges (box p) loc)
  enbrs p := ((intersectRanges (box p) ext).points.filter fun q => !loc.contains q).map c.periodicAdjust

/-- Passes of the outermost loop when it belongs to the last dimension (lines 236-238, `NumDims = 3`). -/
def groupLast {d : Nat} (r : Rng (d + 1)) : List (List (Tup (d + 1))) :=
  (intRange (r.b (Fin.last d)) (r.e (Fin.last d))).map fun k =>
    (Rng.points (d := d) ⟨fun i => r.b i.castSucc, fun i => r.e i.castSucc⟩).map fun t =>
      Fin.snoc (α := fun _ => Int) t k

/-- A single pass of the outermost loop (`NumDims < 3`). -/
def groupOne {d : Nat} (r : Rng d) : List (List (Tup d)) := [r.points]

/-- State of the first sweep: `ComponentLabels`, `NumLocalComponents`, `LocalComponentSets`. -/
structure Sweep (P : Type) where
  label : P → Int
  next : Int
  uf : UF

/-- Assignment to one entry of a field. -/
def upd [DecidableEq P] (f : P → α) (p : P) (v : α) : P → α := fun q => if q = p then v else f q

/-- One pass of the outermost neighbour loop for `p` (lines 236-256).  The jump target
`done_looping_over_neighbors` is inside that loop, so the label is (re)assigned once per slab. -/
def scanSlab [DecidableEq P] (mask : P → Bool) (p : P) (st : Sweep P) (slab : List P) : Sweep P :=
  let st := match slab.find? (fun q => decide (mask q = mask p) && decide (st.label q ≥ 0)) with
    | some q => { st with label := upd st.label p (st.label q) }
    | none => st
  if st.label p < 0 then ⟨upd st.label p st.next, st.next + 1, st.uf.insert st.next⟩ else st

/-- First sweep (lines 215-259). -/
def sweep [DecidableEq P] (mask : P → Bool) (pr : Proc P) : Sweep P :=
  pr.loc.foldl (fun st p => (pr.slabs p).foldl (scanSlab mask p) st) ⟨fun _ => -1, 0, UF.empty⟩

/-- A sequence of unions. -/
def unions : List (Int × Int) → UF → Option UF
  | [], s => some s
  | (a, b) :: l, s => (s.union a b).bind fun r => unions l r.1

/-- The unions made by the second sweep (lines 261-293). -/
def localPairs (mask : P → Bool) (pr : Proc P) (label : P → Int) : List (Int × Int) :=
  pr.loc.flatMap fun p => (pr.lnbrs p).filterMap fun q =>
    if mask q = mask p ∧ label q ≥ 0 then some (label p, label q) else none

/-- Building `LocalRootToContiguous` (lines 299-302). -/
def rootMap : List Int → UF × OMap Int Int → Option (UF × OMap Int Int)
  | [], st => some st
  | e :: es, (s, m) => do
    let (s, r) ← s.find e
    rootMap es (s, m.fetch UF.less r (-1))

/-- Numbering the entries of `LocalRootToContiguous` (lines 304-306). -/
def number (m : OMap Int Int) : OMap Int Int :=
  ⟨m.keys, m.entries.mapIdx fun i e => (e.1, (i : Int))⟩

/-- Replacing labels by contiguous ones (lines 308-317). -/
def contiguous [DecidableEq P] (m : OMap Int Int) : List P → UF × (P → Int) → Option (UF × (P → Int))
  | [], st => some st
  | p :: ps, (s, lab) => do
    let (s, r) ← s.find (lab p)
    let v ← m.get? UF.less r
    contiguous m ps (s, upd lab p v)

/-- Everything before the labels of different processes meet (lines 215-317): local labels and
`NumLocalComponents`. -/
def localLabels [DecidableEq P] (mask : P → Bool) (pr : Proc P) : Option ((P → Int) × Int) := do
  let st := sweep mask pr
  let s ← unions (localPairs mask pr st.label) st.uf
  let s ← s.relabel
  let (s, m) ← rootMap s.elems (s, ⟨[], []⟩)
  let (_, lab) ← contiguous (number m) pr.loc (s, st.label)
  some (lab, st.next)

/-- `NumComponentsBeforeRank` of rank `r` (lines 321-323). -/
def before (counts : List Int) (r : Nat) : Int := (counts.take r).sum

/-- Order of `elem_set<int,2>`. -/
def pairLess (a b : Int × Int) : Bool :=
  decide (a.1 < b.1) || (a.1 == b.1 && decide (a.2 < b.2))

/-- `ExtendedUnions` of one process (lines 341-375), with the labels after the exchange. -/
def extUnions (mask : P → Bool) (pr : Proc P) (label : P → Int) : List (Int × Int) :=
  (pr.loc.flatMap fun p => (pr.enbrs p).filterMap fun q =>
    if mask q = mask p then some (label p, label q) else none).foldl (OSet.insert pairLess) []

/-- Insertion of the own labels (line 331). -/
def insertLabels : List Int → UF → UF := fun es s => es.foldl UF.insert s

/-- Replaying the gathered unions (lines 405-409). -/
def replay : List (Int × Int) → UF → Option UF
  | [], s => some s
  | (a, b) :: l, s => (((s.insert a).insert b).union a b).bind fun r => replay l r.1

/-- Looking up the labels of the own points (lines 413-421). -/
def globalRoots [DecidableEq P] : List P → UF × (P → Int) → Option (UF × (P → Int))
  | [], st => some st
  | p :: ps, (s, lab) => do
    let (s, r) ← s.find (lab p)
    globalRoots ps (s, upd lab p r)

/-- Merging on one process (lines 319-334, 405-421), given its labels after offsetting and all
gathered unions. -/
def mergeProc [DecidableEq P] (us : List (Int × Int)) (pr : Proc P) (label : P → Int) :
    Option (P → Int) := do
  let s := insertLabels (pr.loc.map label) UF.empty
  let s ← replay us s
  let s ← s.relabel
  let (_, lab) ← globalRoots pr.loc (s, label)
  some lab

/-- The value of a field after `Exchange` (lines 336, 423): that of the process whose local points
contain the point. -/
def exchange [DecidableEq P] : List (Proc P × (P → Int)) → P → Int
  | [], _ => -1
  | (pr, lab) :: rest, p => if p ∈ pr.loc then lab p else exchange rest p

/-- `GlobalRootToContiguous` (lines 443-451): number of existing labels in `[0, Label)`. -/
def rankOf (roots : List Int) (x : Int) : Int :=
  (((List.range x.toNat).filter fun (k : Nat) => decide ((k : Int) ∈ roots)).length : Int)

/-- `ConnectedComponents` (lines 204-458): the component label of every owned point and
`NumComponents`. -/
def connectedComponents [DecidableEq P] (mask : P → Bool) (procs : List (Proc P)) :
    Option ((P → Int) × Int) := do
  let locs ← procs.mapM (localLabels mask)
  let counts := locs.map Prod.snd
  let shifted := (procs.zip locs).mapIdx fun r x => (x.1, fun p => x.2.1 p + before counts r)
  let glob := exchange shifted
  let us := procs.flatMap fun pr => extUnions mask pr glob
  let merged ← shifted.mapM fun x => mergeProc us x.1 x.2
  let roots := exchange (procs.zip merged)
  let all := (procs.flatMap Proc.loc).map roots
  let maxLabel := all.foldl max (-1)
  some (fun p => rankOf all (roots p), rankOf all (maxLabel + 1))

/-- `FloodMask` (lines 460-500).  `IsFloodComponent` is the maximum over processes (line 484). -/
def floodMask [DecidableEq P] (mask barrier : P → Bool) (procs : List (Proc P)) :
    Option (P → Bool) := do
  let (lab, _) ← connectedComponents barrier procs
  let seeds := (procs.flatMap Proc.loc).filter fun p => mask p && !barrier p
  let isFlood := fun (l : Int) => seeds.any fun p => decide (lab p = l)
  some fun p => if !barrier p && isFlood (lab p) then true else mask p

end Ovk.CC
