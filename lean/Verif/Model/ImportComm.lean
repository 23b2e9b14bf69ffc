/-
Model of the messages with which XINTOUT connectivity data gets from the processes that read it to those that need it:
src/extras/XINTOUT.cpp `MatchDonorsAndReceivers` (1492-1890), `DistributeConnectivityData` (1892-1916),
`DistributeGridConnectivityData` (1918-2411), and in it the construction of a distributed region hash and the retrieval
of bins (src/core/DistributedRegionHash.inl:18-297, 334-608).

Who has what comes from `Verif.Model.Xintout`, `Verif.Model.XintoutImport` and `Verif.Model.DistHash`; here only the
messages and the waiting are modelled, with the execution of `Verif.Model.Schedule`.  Simplified: messages with
different tags are on different communicators, which is what tags mean; processes are numbered as in the domain
communicator also on grid communicators; a handshake is a collective operation that delivers the ranks that named the
caller in some order (C28).  Numbers of messages that are known from an earlier message are taken from its sender.
-/
import Verif.Model.Schedule
import Verif.Model.Xintout

namespace Ovk.ImpComm
open Sched (Cmd Swap Comm peers messages)
variable {n : Nat}

/-- A communicator: that of the domain (`none`) or of a grid, and its processes. -/
structure Group (n : Nat) where
  id : Option Nat
  mem : Fin n → Bool

/-- Messages with a tag (0 or 1). -/
def Group.tag (G : Group n) (t : Nat) : Comm :=
  .grid (2 * (match G.id with | none => 0 | some g => g + 1) + t)

def Group.members (G : Group n) : List (Fin n) := (List.finRange n).filter G.mem

/-- A collective operation; `s` is the number of the step. -/
def Group.coll (G : Group n) (s : Nat) : Swap n := ⟨.all G.id, G.mem, fun _ => G.members, fun _ => G.members, (s, (9, 0), 0)⟩

/-- `Profiler.StartSync` (Profiler.inl:63-70, Profiler.cpp:137-147). -/
def Group.sync (G : Group n) (on : Bool) (s : Nat) : List (Swap n) := if on then [G.coll s] else []

/-- Messages of one kind. -/
structure Part (n : Nat) where
  tag : Nat
  /-- number of messages to each peer -/
  copies : Nat
  from_ : Fin n → List (Fin n)
  to_ : Fin n → List (Fin n)

/-- Receives of all kinds, other operations, sends of all kinds, `MPI_Waitall`. -/
def exchange (G : Group n) (s : Nat) (parts : List (Part n)) (between : List (Swap n)) (p : Fin n) : List (Cmd n) :=
  if G.mem p then
    parts.flatMap (fun x => messages (G.tag x.tag) false s (x.tag, 0) x.copies (x.from_ p)) ++
      between.flatMap (·.prog p) ++
      parts.flatMap (fun x => messages (G.tag x.tag) true s (x.tag, 0) x.copies (x.to_ p)) ++
      [.wait (parts.map fun x => G.tag x.tag)]
  else []

/-! ### Distributed region hash -/

/-- What the messages of a hash depend on. -/
structure Hash (n : Nat) where
  /-- `LocalRegionOverlappedProcs` (DistributedRegionHash.inl:42-48) -/
  regions : Fin n → List (List Int)
  /-- `RecvFromRanks` (57) -/
  recvFrom : Fin n → List (Fin n)
  /-- first components of `BinIDs` (334) -/
  bins : Fin n → List Int
  /-- `RetrievingRanks` (343) -/
  retrieving : Fin n → List (Fin n)

/-- `LocalRegionOverlappedProcs` as sets. -/
def Hash.sets (H : Hash n) (p : Fin n) : List (List (Fin n)) := (H.regions p).map peers

/-- `SendToRanks` (49-55). -/
def Hash.sendTo (H : Hash n) (p : Fin n) : List (Fin n) := peers (H.regions p).flatten

/-- `BinRanks` (337-341). -/
def Hash.binRanks (H : Hash n) (p : Fin n) : List (Fin n) := peers (H.bins p)

/-- The regions of `q` that overlap the part of `p`; their number is `NumRegionsFromRank` (59-84). -/
def Hash.indices (H : Hash n) (q p : Fin n) : List Nat :=
  ((H.sets q).zipIdx.filter fun x => x.1.contains p).map Prod.snd

/-- One message for each region and process that it overlaps: regions (105-125), numbers of bins (176-219), bins
(224-245).  Receives are posted process by process, sends region by region. -/
def Hash.deal (H : Hash n) (G : Group n) (s : Nat) (p : Fin n) : List (Cmd n) :=
  if G.mem p then
    ((H.recvFrom p).flatMap fun q => (H.indices q p).map fun i => .op ⟨G.tag 0, false, q, (s, (0, 0), i)⟩) ++
      ((H.sets p).zipIdx.flatMap fun x => x.1.map fun q => .op ⟨G.tag 0, true, q, (s, (0, 0), x.2)⟩) ++
      [.wait [G.tag 0]]
  else []

/-- The constructor (18-297): two reductions (31-32), a handshake (57), counts (76-84), regions, `MPI_Allgather` (167),
numbers of bins, bins. -/
def Hash.construct (H : Hash n) (G : Group n) (s : Nat) (p : Fin n) : List (Cmd n) :=
  [G.coll s, G.coll (s + 1), G.coll (s + 2)].flatMap (·.prog p) ++
    exchange G (s + 3) [⟨0, 1, H.recvFrom, H.sendTo⟩] [] p ++ H.deal G (s + 4) p ++ (G.coll (s + 5)).prog p ++
    H.deal G (s + 6) p ++ H.deal G (s + 7) p

/-- `RetrieveBins` (334-608): a handshake (343), numbers of bins (352-370), bins (378-406), numbers of regions (430-444),
regions and ranks (461-491), numbers of regions per bin (504-528), indices (533-573). -/
def Hash.retrieve (H : Hash n) (G : Group n) (s : Nat) (p : Fin n) : List (Cmd n) :=
  (G.coll s).prog p ++ exchange G (s + 1) [⟨0, 1, H.retrieving, H.binRanks⟩] [] p ++
    exchange G (s + 2) [⟨0, 1, H.retrieving, H.binRanks⟩] [] p ++
    exchange G (s + 3) [⟨0, 1, H.binRanks, H.retrieving⟩] [] p ++
    exchange G (s + 4) [⟨0, 2, H.binRanks, H.retrieving⟩] [] p ++
    exchange G (s + 5) [⟨0, 1, H.binRanks, H.retrieving⟩] [] p ++
    exchange G (s + 6) [⟨0, 1, H.binRanks, H.retrieving⟩] [] p

/-! ### Matching and distribution -/

/-- What the messages of an import depend on. -/
structure Import (n : Nat) where
  /-- `Profiler` is enabled -/
  sync : Bool
  /-- `BinSize` (1536) -/
  binSize : Nat
  /-- connection IDs of the donors and receivers of a process, from all its grids (1564-1588) -/
  donors : Fin n → List Nat
  receivers : Fin n → List Nat
  /-- the grids in the order of their IDs (241-253) -/
  grids : List Nat
  /-- `Domain.GridIsLocal` -/
  loc : Nat → Fin n → Bool
  hash : Nat → Hash n
  /-- `ChunkDonorRanks` (2025-2079) and `ChunkReceiverRanks` (2081-2105) of a grid -/
  donorRanks : Nat → Fin n → List Int
  receiverRanks : Nat → Fin n → List Int

def world : Group n := ⟨none, fun _ => true⟩

/-- Keys of `DonorSends` or `ReceiverSends` (1573-1574, 1583-1584; 2135, 2145). -/
def Import.bins (I : Import n) (ids : List Nat) : List (Fin n) := peers (ids.map fun c => (Xintout.binOf I.binSize c : Int))

/-- Keys of `DonorRecvs` or `ReceiverRecvs` (1645-1659; 2225-2239). -/
def asking (G : Group n) (to_ : Fin n → List (Fin n)) (p : Fin n) : List (Fin n) :=
  G.members.filter fun q => decide (p ∈ to_ q)

/-- Messages of tags 0 and 1 to those who are asked, or back. -/
def parts (G : Group n) (to₀ to₁ : Fin n → List (Fin n)) (k k' : Nat) (back : Bool) : List (Part n) :=
  if back then [⟨0, k, to₀, asking G to₀⟩, ⟨1, k', to₁, asking G to₁⟩] else
    [⟨0, k, asking G to₀, to₀⟩, ⟨1, k', asking G to₁, to₁⟩]

/-- `MatchDonorsAndReceivers` (1492-1890): a barrier (1496), reductions (1521-1522), handshakes (1645-1646), counts
(1689-1713), three messages each (1717-1751), answers of two messages each (1758-1828), between whose receives and sends
are two points of synchronization (1773, 1798), a barrier (1885). -/
def Import.match (I : Import n) (p : Fin n) : List (Cmd n) :=
  let G : Group n := world
  let D := fun q => I.bins (I.donors q)
  let R := fun q => I.bins (I.receivers q)
  ([G.coll 0, G.coll 1, G.coll 2] ++ G.sync I.sync 3 ++ G.sync I.sync 4 ++ [G.coll 5, G.coll 6] ++
      G.sync I.sync 7).flatMap (·.prog p) ++
    exchange G 8 (parts G D R 1 1 false) [] p ++ exchange G 9 (parts G D R 3 3 false) [] p ++
    (G.sync I.sync 10).flatMap (·.prog p) ++
    exchange G 11 (parts G D R 2 2 true) (G.sync I.sync 12 ++ G.sync I.sync 13) p ++
    (G.sync I.sync 14 ++ [G.coll 15]).flatMap (·.prog p)

def Import.group (I : Import n) (g : Nat) : Group n := ⟨some g, I.loc g⟩

/-- `DistributeGridConnectivityData` (1918-2411): a hash (1930), retrieval of bins (2020), handshakes (2225-2226), counts
(2271-2297), five messages each for donors and three for receivers (2301-2341). -/
def Import.distributeGrid (I : Import n) (g : Nat) (p : Fin n) : List (Cmd n) :=
  let G := I.group g
  let D := fun q => peers (I.donorRanks g q)
  let R := fun q => peers (I.receiverRanks g q)
  (I.hash g).construct G 0 p ++ (G.sync I.sync 8 ++ G.sync I.sync 9).flatMap (·.prog p) ++ (I.hash g).retrieve G 10 p ++
    (G.sync I.sync 17 ++ G.sync I.sync 18 ++ [G.coll 19, G.coll 20] ++ G.sync I.sync 21).flatMap (·.prog p) ++
    exchange G 22 (parts G D R 2 1 false) [] p ++ exchange G 23 (parts G D R 5 3 false) [] p

/-- `DistributeConnectivityData` (1892-1916): a barrier (1897), the local grids (1904-1909), a barrier (1911). -/
def Import.distribute (I : Import n) (p : Fin n) : List (Cmd n) :=
  ((world : Group n).coll 17).prog p ++ (I.grids.filter fun g => I.loc g p).flatMap (fun g => I.distributeGrid g p) ++
    ((world : Group n).coll 18).prog p

/-- `ImportXINTOUT` between reading and calls of the component (276-286). -/
def Import.prog (I : Import n) (p : Fin n) : List (Cmd n) :=
  ((world : Group n).sync I.sync 20).flatMap (·.prog p) ++ I.match p ++
    ((world : Group n).sync I.sync 16).flatMap (·.prog p) ++ I.distribute p ++
    ((world : Group n).sync I.sync 19).flatMap (·.prog p)

end Ovk.ImpComm
