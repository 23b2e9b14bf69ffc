/-
Model of `ImportXINTOUT` (src/extras/XINTOUT.cpp:222-295): from the records of the files to the donors and
receivers of the connectivities on every process.

Simplified: the records are given as lists (for the bytes of the files see the comments at `File`); what the
processes send is a function of sender and destination (the counters `Send.Count` only append); messages are
delivered; failing to open or read a file is not modelled.
-/
import Verif.Model.Xintout
import Verif.Model.Cart
import Verif.Model.DistHash
import Verif.Model.Container
import Mathlib.Algebra.BigOperators.Fin

namespace Ovk
namespace Xintout

/-- One donor: `Extents(:,:,iDonor)` (already zero-based, XINTOUT.cpp:1164-1170), and its coordinates and
interpolation coefficients. -/
structure DonorRec (d : Nat) (δ : Type) where
  ext : Rng d
  data : δ

/-- Contents of the HO and X files, zero-based: for every grid the donors, the connection id of the first one
(XINTOUT.cpp:873-875), and the receivers with their connection ids (XINTOUT.cpp:1426-1431, 1460-1475). -/
structure File (d n : Nat) (δ : Type) where
  donors : Fin n → List (DonorRec d δ)
  start : Fin n → Nat
  receivers : Fin n → List (Tup d × Nat)

/-- The domain: communicators of the grids (the `r`-th process of grid `g` is `comm g [r]`), their carts and
local ranges; `nb`, `mult`, `order` are parameters of the hash made by `CreateDecompHash` (Decomp.cpp:24-26),
see `DHash`.  Grid IDs are `1, ..., NumGrids`, as `ImportXINTOUT` assumes (XINTOUT.cpp:244-256). -/
structure Setup (d n P : Nat) where
  comm : Fin n → List (Fin P)
  cart : Fin n → Cart d
  range : Fin n → Nat → Rng d
  nb : Fin n → Tup d
  mult : Fin n → Nat → Int
  order : Fin n → Nat → List Nat
  /-- `ReadGranularityAdjust` -/
  adjust : Int

variable {d n P : Nat} {δ α β : Type}

/-- `Comm.Size()` of a grid. -/
def Setup.size (S : Setup d n P) (g : Fin n) : Nat := (S.comm g).length

/-- `NumPoints` of a grid (XINTOUT.cpp:988-991). -/
def Setup.points (S : Setup d n P) (g : Fin n) : Nat := (S.cart g).range.count.toNat

/-! ### Reading -/

/-- The records `[LocalBegin, LocalEnd)` on the processes that read (XINTOUT.cpp:1015-1036). -/
def chunkOf (c : Chunks) (l : List α) (r : Nat) : List α :=
  if c.has r then (l.drop (c.lo r).toNat).take (c.hi l.length r - c.lo r).toNat else []

/-- The division of `count` records of a grid (XINTOUT.cpp:988-996, 1023-1032); `none` is an error. -/
def Setup.chunks (S : Setup d n P) (g : Fin n) (count : Nat) : Option Chunks := do
  let c ← chunkify count (S.size g) (binDivide (S.points g) (S.size g)) S.adjust
  if sizeError c count (S.size g) then none else some c

/-- Donors read by process `r` of the grid, with their connection ids (XINTOUT.cpp:1036, 1572). -/
def readDonors (F : File d n δ) (g : Fin n) (c : Chunks) (r : Nat) : List (Nat × DonorRec d δ) :=
  (chunkOf c (F.donors g) r).zipIdx.map fun x => (F.start g + (c.lo r).toNat + x.2, x.1)

/-- Receivers read by process `r` of the grid. -/
def readReceivers (F : File d n δ) (g : Fin n) (c : Chunks) (r : Nat) : List (Nat × Tup d) :=
  (chunkOf c (F.receivers g) r).map fun x => (x.2, x.1)

/-! ### Matching -/

/-- `LocalGrids` of a process (XINTOUT.cpp:237-256). -/
def Setup.local (S : Setup d n P) (p : Fin P) : List (Fin n) :=
  (List.finRange n).filter fun g => (S.comm g).contains p

/-- Rank of a process of the domain in a grid. -/
def Setup.rankIn (S : Setup d n P) (g : Fin n) (p : Fin P) : Nat := (S.comm g).idxOf p

/-- The loops over local grids and their records (XINTOUT.cpp:1604-1640). -/
def localEntries (S : Setup d n P) (read : Fin n → Nat → List (Nat × α)) (p : Fin P) : List (Nat × (Fin n × α)) :=
  (S.local p).flatMap fun g => (read g (S.rankIn g p)).map fun e => (e.1, (g, e.2))

/-- The same loops when the data found is stored (XINTOUT.cpp:1847-1881): the part of `found` belonging to
grid `g`. -/
def segment (len : Fin n → Nat) (g : Fin n) : List (Fin n) → List β → List β
  | [], _ => []
  | h :: hs, found => if h = g then found.take (len h) else segment len g hs (found.drop (len h))

/-- `NumConnections` (XINTOUT.cpp:1525-1529). -/
def File.connections (F : File d n δ) : Nat := ∑ g, (F.receivers g).length

/-- One side of `MatchDonorsAndReceivers`; using data that was not found is undefined. -/
def matchGrids (S : Setup d n P) (total : Nat) (mine : Fin n → Nat → List (Nat × α))
    (other : Fin n → Nat → List (Nat × β)) : Option (Fin P → List (Fin n × β)) := do
  let found ← matchSide (∑ g, S.points g) total (localEntries S mine) (localEntries S other)
  procs fun p => (found p).mapM id

/-- Data found for the records of process `r` of grid `g`, beside the records. -/
def withPartner (S : Setup d n P) (mine : Fin n → Nat → List (Nat × α)) (found : Fin P → List (Fin n × β))
    (g : Fin n) (r : Nat) : List (α × (Fin n × β)) :=
  match (S.comm g)[r]? with
  | none => []
  | some p => ((mine g r).map Prod.snd).zip
      (segment (fun h => (mine h (S.rankIn h p)).length) g (S.local p) (found p))

/-! ### Distribution -/

/-- `ChunkDonorPoints` of one donor (XINTOUT.cpp:1954-1984). -/
def donorPoints (c : Cart d) (r : Rng d) : List (Tup d) :=
  if c.range.includes r then r.points else r.points.map c.periodicAdjust

/-- The order of `elem<int,2>` keys (`elem_less`, row major). -/
def idLess (a b : Nat × Nat) : Bool := decide (a.1 < b.1 ∨ a.1 = b.1 ∧ a.2 < b.2)

/-- `CreateDecompHash` (Decomp.cpp:24-26) on all processes of a grid. -/
def Setup.hash (S : Setup d n P) (g : Fin n) : Option (DHash.Hash d Int (Rng d)) :=
  DHash.make DHash.intOps DHash.rangeOps (S.nb g) (S.mult g) (S.order g)
    ((List.range (S.size g)).map fun r => [S.range g r])

/-- `UniqueBinIDs` (XINTOUT.cpp:1986-1996, 1999-2015) for all the points a process asks about. -/
def uniqueBins (h : DHash.Hash d Int (Rng d)) (pts : List (Tup d)) : Option (List (Nat × Nat)) := do
  let ids ← pts.mapM (DHash.mapToBin DHash.intOps h)
  some (ids.foldl (OSet.insert idLess) [])

/-- The rank owning a point (XINTOUT.cpp:2033-2051, 2085-2103); it remains uninitialized, if there is none. -/
def owner (h : DHash.Hash d Int (Rng d)) (bins : List (Nat × Nat)) (p : Tup d) : Option Nat := do
  let id ← DHash.mapToBin DHash.intOps h p
  let regions ← DHash.retrieve h bins id
  let x ← regions.find? fun x => x.2.contains p
  some x.1

/-- `ChunkDonorRanks(iDonor)`: ranks in increasing order, each once (XINTOUT.cpp:2057-2076). -/
def uniqueRanks (ranks : List Nat) : List Nat := ranks.foldl (OSet.insert fun a b => decide (a < b)) []

/-- Donors and receivers of process `s` of a grid together with the ranks they are sent to
(XINTOUT.cpp:1925-2107). -/
def addressed (S : Setup d n P) (g : Fin n) (h : DHash.Hash d Int (Rng d))
    (donors : List (DonorRec d δ × (Fin n × Tup d))) (receivers : List (Tup d × (Fin n × Tup d))) :
    Option (List ((DonorRec d δ × (Fin n × Tup d)) × List Nat) × List ((Tup d × (Fin n × Tup d)) × List Nat)) := do
  let bins ← uniqueBins h (donors.flatMap (fun x => donorPoints (S.cart g) x.1.ext) ++ receivers.map Prod.fst)
  let ds ← donors.mapM fun x => do
    let ranks ← (donorPoints (S.cart g) x.1.ext).mapM (owner h bins)
    some (x, uniqueRanks ranks)
  let rs ← receivers.mapM fun x => do
    let r ← owner h bins x.1
    some (x, [r])
  some (ds, rs)

/-- What process `q` gets, from the senders in the order of their ranks (XINTOUT.cpp:2127-2405). -/
def gather (size : Nat) (sent : Nat → List (α × List Nat)) (q : Nat) : List α :=
  (List.range size).flatMap fun s => ((sent s).filter fun x => x.2.contains q).map Prod.fst

/-- All the processes of a grid, if every one does something defined. -/
def ranksAll (size : Nat) {γ : Type} (f : Nat → Option γ) (dflt : γ) : Option (Nat → γ) :=
  if (List.range size).all fun r => (f r).isSome then some fun r => (f r).getD dflt else none

/-- The processes of all grids. -/
def gridsAll {γ : Fin n → Type} (f : (g : Fin n) → Option (γ g)) : Option ((g : Fin n) → γ g) :=
  if h : ∀ g, (f g).isSome = true then some fun g => (f g).get (h g) else none

/-- `DistributeGridConnectivityData` (XINTOUT.cpp:1918-2411). -/
def distribute (S : Setup d n P) (g : Fin n) (donors : Nat → List (DonorRec d δ × (Fin n × Tup d)))
    (receivers : Nat → List (Tup d × (Fin n × Tup d))) :
    Option ((Nat → List (DonorRec d δ × (Fin n × Tup d))) × (Nat → List (Tup d × (Fin n × Tup d)))) := do
  let h ← S.hash g
  let sent ← ranksAll (S.size g) (fun s => addressed S g h (donors s) (receivers s)) ([], [])
  some (gather (S.size g) fun s => (sent s).1, gather (S.size g) fun s => (sent s).2)

/-! ### Connectivities -/

/-- What is imported: which connectivities are created, the donors with destinations of `ConnectivityM` and the
receivers with sources of `ConnectivityN` on the processes of the M grid and of the N grid. -/
structure Imported (d n : Nat) (δ : Type) where
  created : Fin n → Fin n → Bool
  donors : Fin n → Fin n → Nat → List (DonorRec d δ × Tup d)
  receivers : Fin n → Fin n → Nat → List (Tup d × Tup d)

/-- `NumConnections(iGrid,jGrid)` (XINTOUT.cpp:2431-2442). -/
def numConnections (S : Setup d n P) (rs : Fin n → Nat → List (Tup d × (Fin n × Tup d))) (m k : Fin n) : Nat :=
  ((List.range (S.size k)).map fun q => ((rs k q).filter fun x => x.2.1 == m).length).sum

/-- `ImportDonors`, `ImportReceivers` (XINTOUT.cpp:2517-2650): records by the grid of the partner, for the grids
in `others`; a grid that is not there is an error, unless there are none. -/
def splitByGrid (others : Fin n → Bool) (l : List (α × (Fin n × β))) : Option (Fin n → List (α × β)) :=
  if (List.finRange n).all fun g => !others g then some fun _ => []
  else if l.all fun x => others x.2.1 then
    some fun g => (l.filter fun x => x.2.1 == g).map fun x => (x.1, x.2.2)
  else none

/-- `ImportConnectivityData` (XINTOUT.cpp:2413-2515). -/
def importData (S : Setup d n P) (ds : Fin n → Nat → List (DonorRec d δ × (Fin n × Tup d)))
    (rs : Fin n → Nat → List (Tup d × (Fin n × Tup d))) : Option (Imported d n δ) := do
  let created : Fin n → Fin n → Bool := fun m k => decide (numConnections S rs m k > 0)
  let dm ← gridsAll fun g => ranksAll (S.size g) (fun q => splitByGrid (created g) (ds g q)) fun _ => []
  let rn ← gridsAll fun g => ranksAll (S.size g) (fun q => splitByGrid (fun m => created m g) (rs g q)) fun _ => []
  some ⟨created, fun m k q => dm m q k, fun m k q => rn k q m⟩

/-- `ImportXINTOUT` (XINTOUT.cpp:222-295). -/
def importXintout (S : Setup d n P) (F : File d n δ) : Option (Imported d n δ) := do
  let dc ← gridsAll fun g => S.chunks g (F.donors g).length
  let rc ← gridsAll fun g => S.chunks g (F.receivers g).length
  let donors : Fin n → Nat → List (Nat × DonorRec d δ) := fun g r => readDonors F g (dc g) r
  let receivers : Fin n → Nat → List (Nat × Tup d) := fun g r => readReceivers F g (rc g) r
  let cells : Fin n → Nat → List (Nat × Tup d) := fun g r => (donors g r).map fun e => (e.1, e.2.ext.b)
  let dest ← matchGrids S F.connections cells receivers
  let src ← matchGrids S F.connections receivers cells
  let parts ← gridsAll fun g => distribute S g (withPartner S donors dest g) (withPartner S receivers src g)
  importData S (fun g => (parts g).1) (fun g => (parts g).2)

end Xintout
end Ovk
