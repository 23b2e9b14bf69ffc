/-
Model of the messages of overlap detection (src/core/AssemblerAssembly.cpp, `assembler::DetectOverlap_`, 689-2289):
the hash of fragments, who may overlap whom (847-1036), which fragments are needed (1045-1290), ranges of cells, numbers
of overlapping points, the common set of overlaps, and the overlap data (1835-2289).

What is found comes from `Verif.Model.Overlap`; here it is given, and the maps of ranks that both sides build from it are
modelled, with the execution of `Verif.Model.Schedule`.  Left out: the loop that transfers fragments (1422-1645, C42),
which is followed by a reduction over all processes (1649); creating the overlaps (2103-2112).  Simplified: sets and maps
are lists in increasing order of their keys (C10, C11); messages with different tags are on different communicators;
processes are numbered as in the domain communicator also on grid communicators; handshakes (C28) and broadcasts from an
unknown source (C78) are collective operations.
-/
import Verif.Model.ImportComm

namespace Ovk.OvlComm
open Sched (Cmd Swap Comm Pair)
open ImpComm (Group Hash world exchange)
variable {n : Nat}

/-- Messages of one loop that are about the same thing. -/
structure Slot (n : Nat) where
  tag : Nat
  /-- the processes that send to a process, and those it sends to -/
  from_ : Fin n → List (Fin n)
  to_ : Fin n → List (Fin n)
  /-- the messages from a process to another, in order -/
  labels : Fin n → Fin n → List (Pair × Nat)

def Slot.msgs (x : Slot n) (send : Bool) (s : Nat) (p : Fin n) : List (Cmd n) :=
  if send then (x.to_ p).flatMap fun q => (x.labels p q).map fun l => .op ⟨.grid x.tag, true, q, (s, l)⟩
  else (x.from_ p).flatMap fun q => (x.labels q p).map fun l => .op ⟨.grid x.tag, false, q, (s, l)⟩

/-- A loop that posts receives, one that posts sends, `MPI_Waitall`. -/
def round (s : Nat) (recvs sends : List (Slot n)) (p : Fin n) : List (Cmd n) :=
  recvs.flatMap (·.msgs false s p) ++ sends.flatMap (·.msgs true s p) ++
    [.wait ((recvs ++ sends).map fun x => .grid x.tag)]

/-- What the messages of overlap detection depend on. -/
structure Search (n : Nat) where
  /-- `Profiler` is enabled -/
  sync : Bool
  /-- `Logger.LoggingStatus()` -/
  status : Bool
  /-- `Domain.GridIDs()`, in increasing order -/
  grids : List Nat
  /-- `Domain.GridIsLocal` -/
  loc : Nat → Fin n → Bool
  /-- `Options_.Overlappable({M,N})` -/
  overlappable : Nat → Nat → Bool
  /-- `FragmentHash` -/
  hash : Hash n
  /-- `OverlappingFragmentsForLocalNGrid(N)({M,Rank})` of a process (849-897); `[]` if there is no such entry -/
  found : Fin n → Nat → Nat → Fin n → List Nat
  /-- the number that a process sends (1936-1957) about a pair of grids N, M to a process -/
  count : Fin n → Nat → Nat → Fin n → Nat

namespace Search
variable (W : Search n)

/-- `OverlappingMGridIDsAndRanksForLocalNGrid(N)(M)` of process `s` (899-910). -/
def mRanks (s : Fin n) (k m : Nat) : List (Fin n) :=
  if W.loc k s then (List.finRange n).filter fun r => !(W.found s k m r).isEmpty else []

/-- `RemoteMRanks` (912-924). -/
def remoteM (s : Fin n) : List (Fin n) :=
  (List.finRange n).filter fun r => decide (r ≠ s) && W.grids.any fun k => W.grids.any fun m => decide (r ∈ W.mRanks s k m)

/-- `RemoteNRanks`, the result of the handshake (926). -/
def remoteN (r : Fin n) : List (Fin n) := ImpComm.asking world W.remoteM r

/-- `GridIDPairSendData(Rank)` (970-994). -/
def pairsTo (s r : Fin n) : List Pair :=
  W.grids.flatMap fun k => W.grids.flatMap fun m => if r ∈ W.mRanks s k m then [(m, k)] else []

/-- `OverlappingNGridIDsAndRanksForLocalMGrid(M)(N)` of process `r` (1004-1035), from its own pairs and from those received
(`pairsTo`).  Only entries of local grids can be accessed (1020, 1033). -/
def nRanks (r : Fin n) (m k : Nat) : List (Fin n) :=
  if W.loc m r then
    (List.finRange n).filter fun s =>
      if s = r then decide (r ∈ W.mRanks r k m) else decide (s ∈ W.remoteN r) && decide ((m, k) ∈ W.pairsTo s r)
  else []

/-- Pairs in `MGridSends` with a grid (1047-1058). -/
def gridSends (r : Fin n) (m : Nat) : List (Fin n) :=
  (List.finRange n).filter fun s => decide (s ≠ r) && W.grids.any fun k => decide (s ∈ W.nRanks r m k)

/-- Pairs in `MGridRecvs` with a grid (1060-1073). -/
def gridRecvs (s : Fin n) (m : Nat) : List (Fin n) :=
  (List.finRange n).filter fun r => decide (r ≠ s) && W.grids.any fun k => decide (r ∈ W.mRanks s k m)

/-- `MGridFragmentsReceiving({M,Rank})` (1090-1105), which is also what the other side gets as
`MGridFragmentsSending({M,Rank})` (1118-1141). -/
def needed (s : Fin n) (m : Nat) (r : Fin n) : List Nat :=
  (W.grids.filter fun k => W.loc k s).foldl (fun a k => (W.found s k m r).foldl (OSet.insert fun x y => decide (x < y)) a) []

/-- From the N side to the M side about a grid (1084-1113, 1122-1138). -/
def toM (m : Nat) : Slot n := ⟨0, fun r => W.gridSends r m, fun s => W.gridRecvs s m, fun _ _ => [((m, 0), 0)]⟩

/-- Cell ranges of fragments (1271-1288); `FragmentSends` and `FragmentRecvs` (1157-1175) are ordered by grid, rank and
fragment. -/
def cells (m : Nat) : Slot n :=
  ⟨0, fun s => W.gridRecvs s m, fun r => W.gridSends r m,
    fun r s => (W.needed s m r).flatMap fun i => [((m, i), 0), ((m, i), 1)]⟩

/-- Ranges of grids (1854-1879). -/
def ranges (m : Nat) : Slot n :=
  ⟨0, fun s => W.gridRecvs s m, fun r => W.gridSends r m, fun _ _ => (List.range 4).map fun j => ((m, 0), j)⟩

/-- Numbers of overlapping points (1917-1962); the tag is the M grid. -/
def numbers (m k : Nat) : Slot n := ⟨m, fun r => W.nRanks r m k, fun s => W.mRanks s k m, fun _ _ => [((m, k), 0)]⟩

/-- Overlap data (2135-2241), for the pairs and processes whose number is not 0 (1967-2001). -/
def entries (m k : Nat) : Slot n :=
  ⟨m, fun r => (W.nRanks r m k).filter fun s => decide (s ≠ r) && decide (W.count s k m r ≠ 0),
    fun s => (W.mRanks s k m).filter fun r => decide (r ≠ s) && decide (W.count s k m r ≠ 0),
    fun _ _ => (List.range 3).map fun j => ((m, k), j)⟩

/-- Pairs of grids in the order of the loops over M grids, or over N grids. -/
def byM {α : Type} (f : Nat → Nat → α) : List α := W.grids.flatMap fun m => W.grids.map fun k => f m k
def byN {α : Type} (f : Nat → Nat → α) : List α := W.grids.flatMap fun k => W.grids.map fun m => f m k

def group (g : Nat) : Group n := ⟨some g, W.loc g⟩

/-- Barriers before messages to the user. -/
def said (s : Nat) : List (Swap n) := if W.status then [(world : Group n).coll s] else []

def synced (s : Nat) : List (Swap n) := (world : Group n).sync W.sync s

/-- A reduction on the N grid for each pair that may overlap (2008-2024, 2055-2077). -/
def reductions (s : Nat) : List (Swap n) :=
  W.grids.flatMap fun k => (W.grids.filter fun m => W.overlappable m k).map fun m => (W.group k).coll (s + 2 * m)

/-- Collective operations one after the other. -/
def talk (l : List (Swap n)) (p : Fin n) : List (Cmd n) := l.flatMap (·.prog p)

/-- Up to the transfer of fragments (695-1290). -/
def before (p : Fin n) : List (Cmd n) :=
  talk ([world.coll 0] ++ W.synced 1 ++ W.synced 2 ++ W.said 3 ++ W.synced 4) p ++ W.hash.construct world 5 p ++
    talk (W.said 13 ++ W.said 14 ++ W.synced 15) p ++ W.hash.retrieve world 16 p ++
    talk (W.said 23 ++ W.synced 24 ++ [world.coll 25]) p ++
    exchange world 26 [⟨0, 1, W.remoteN, W.remoteM⟩] [] p ++ exchange world 27 [⟨0, 1, W.remoteN, W.remoteM⟩] [] p ++
    talk (W.said 28 ++ W.synced 29) p ++
    round 30 (W.grids.map W.toM) (W.grids.map W.toM) p ++ round 31 (W.grids.map W.toM) (W.grids.map W.toM) p ++
    round 32 (W.grids.map W.cells) (W.grids.map W.cells) p

/-- After the transfer of fragments (1649-2289). -/
def after (p : Fin n) : List (Cmd n) :=
  talk [world.coll 40] p ++ round 41 (W.grids.map W.ranges) (W.grids.map W.ranges) p ++
    round 42 (W.byM W.numbers) (W.byN W.numbers) p ++
    talk (W.said 43 ++ (if W.status then W.reductions 0 ++ W.byM (fun _ _ => world.coll 44) else []) ++ W.said 45 ++
      W.synced 46) p ++
    talk (W.reductions 1 ++ W.grids.flatMap fun k => world.coll 47 ::
      (W.grids.filter fun m => W.overlappable m k).map fun _ => world.coll 48) p ++
    talk (W.synced 49 ++ W.synced 50) p ++ round 51 (W.byM W.entries) (W.byN W.entries) p

end Search

end Ovk.OvlComm
