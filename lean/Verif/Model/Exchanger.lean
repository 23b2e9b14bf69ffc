/-
Model of src/core/Exchanger.cpp: how donors and receivers of all connectivities find each other's ranks
(`UpdateSourceDestRanks_`), the order in which a pair of processes exchanges values (`GetSendRecvOrder`),
and message tags (`CreateSend`, `CreateReceive`).

All processes are modelled at once.  `none` is undefined behaviour (division by zero, access outside an
array, a message to a rank that does not exist, a key that is not in a map).

Simplified: the counting passes (381-432) are merged with the passes that append (445-496);
`DynamicHandshake` is taken to return the ranks that named the caller (C28); messages are delivered
unchanged; integers are unbounded; barriers, logging and debug assertions are left out.
-/
import Verif.Model.Container
import Verif.Model.FieldIndex
import Verif.Model.SendRecv

namespace Ovk.Xch
variable {d n : Nat}

/-- One donor of a `connectivity_m`. -/
structure Donor (d : Nat) where
  /-- `Extents(0,:,iDonor)` -/
  lower : Tup d
  /-- `Destinations(:,iDonor)` -/
  dest : Tup d
  /-- `DestinationRanks(iDonor)`; negative: not known -/
  rank : Int

/-- One receiver of a `connectivity_n`. -/
structure Receiver (d : Nat) where
  /-- `Points(:,iReceiver)` -/
  pt : Tup d
  /-- `SourceRanks(iReceiver)`; negative: not known -/
  rank : Int

/-- A connectivity in `ConnectivityMIDs` (294-303), as one process of its M grid sees it. -/
structure ConnM (d : Nat) where
  mGrid : Int
  nGrid : Int
  /-- `MGrid.LocalRange()` -/
  localRange : Rng d
  donors : List (Donor d)

/-- A connectivity in `ConnectivityNIDs` (294-303), as one process of its N grid sees it. -/
structure ConnN (d : Nat) where
  mGrid : Int
  nGrid : Int
  receivers : List (Receiver d)

structure World (d n : Nat) where
  /-- `Domain.GridIDs()` and `GridInfo.Cart().Range()` -/
  grids : List (Int × Rng d)
  ms : Fin n → List (ConnM d)
  ns : Fin n → List (ConnN d)

/-- `TotalPoints` (331-335). -/
def totalPoints (grids : List (Int × Rng d)) : Int := grids.foldl (fun t g => t + g.2.count) 0

/-- `BinDivide` (1555-1561). -/
def binDivide (N numBins : Int) : Int := (N + numBins - 1).tdiv numBins

/-- `LinearPartitionSize` (345). -/
def World.size (w : World d n) : Int := binDivide (totalPoints w.grids) n

/-- `NumPointsBeforeGrid` (351-357) at a grid, and the range of that grid. -/
def before : Int → List (Int × Rng d) → Int → Option (Int × Rng d)
  | _, [], _ => none
  | acc, g :: gs, id => if g.1 = id then some (acc, g.2) else before (acc + g.2.count) gs id

/-- `iLinearPoint` (393, 416). -/
def World.linear (w : World d n) (g : Int) (x : Tup d) : Option Int :=
  (before 0 w.grids g).map fun o => o.1 + o.2.index .col x

/-- `iLinearPartition` (394, 417). -/
def part (size L : Int) : Option Int := if size = 0 then none else some (L.tdiv size)

/-- A donor or receiver: the linear point it has to ask about, if any, and its rank before that. -/
structure Slot where
  ask : Option Int
  rank : Int

/-- A donor (305-323, 387-393). -/
def mSlot (w : World d n) (c : ConnM d) (x : Donor d) : Option Slot :=
  let rank := if c.localRange.contains x.lower then x.rank else -1
  if c.localRange.contains x.lower ∧ rank < 0 then
    (w.linear c.nGrid x.dest).map fun L => ⟨some L, rank⟩
  else some ⟨none, rank⟩

/-- A receiver (325-329, 410-416). -/
def nSlot (w : World d n) (c : ConnN d) (x : Receiver d) : Option Slot :=
  if x.rank < 0 then (w.linear c.nGrid x.pt).map fun L => ⟨some L, x.rank⟩ else some ⟨none, x.rank⟩

/-- The loops over connectivities and donors (370-399, 434-463). -/
def mSlots (w : World d n) (p : Fin n) : Option (List (List Slot)) :=
  (w.ms p).mapM fun c => c.donors.mapM (mSlot w c)

/-- The loops over connectivities and receivers (401-422, 465-486). -/
def nSlots (w : World d n) (p : Fin n) : Option (List (List Slot)) :=
  (w.ns p).mapM fun c => c.receivers.mapM (nSlot w c)

/-- Points a process asks about, in order. -/
def asks (s : List (List Slot)) : List Int := s.flatten.filterMap Slot.ask

/-- `MSends`, `NSends`: the points by partition (395-396, 459-460). -/
def group (size : Int) : OMap Int (List Int) → List Int → Option (OMap Int (List Int))
  | m, [] => some m
  | m, L :: Ls =>
    match part size L with
    | none => none
    | some k => group size ((m.fetch intLess k []).modify intLess k (· ++ [L])) Ls

/-- All keys are ranks of the communicator. -/
def keysOk (n : Nat) (m : OMap Int (List Int)) : Bool := m.keys.all fun k => decide (0 ≤ k ∧ k < n)

/-- `MRecvs`, `NRecvs` of a process after the handshake and the exchange of points (498-604), in the key
order of the map. -/
def recvs (groups : Fin n → OMap Int (List Int)) (q : Fin n) : List (Fin n × List Int) :=
  (List.finRange n).filterMap fun p =>
    if (groups p).contains intLess q then ((groups p).get? intLess q).map fun l => (p, l) else none

/-- `MRanks(iLinearPoint) = Rank` (611, 620) on an array of interval `[lo, hi)`. -/
def putRank (lo hi r : Int) (a : Int → Int) (L : Int) : Option (Int → Int) :=
  if lo ≤ L ∧ L < hi then some fun j => if j = L then r else a j else none

/-- `LinearPartition.MRanks`, `LinearPartition.NRanks` of process `q` (343-349, 606-622). -/
def table (size total : Int) (groups : Fin n → OMap Int (List Int)) (q : Fin n) : Option (Int → Int) :=
  (recvs groups q).foldlM
    (fun a (x : Fin n × List Int) => x.2.foldlM (putRank (size * q) (min (size * (q + 1)) total) x.1) a)
    fun _ => -1

/-- The answer of process `q` to a list of points (624-638). -/
def reply (size total : Int) (q : Fin n) (a : Int → Int) (pts : List Int) : Option (List Int) :=
  pts.mapM fun L => if size * q ≤ L ∧ L < min (size * (q + 1)) total then some (a L) else none

/-- Storing the answers in one array (696-714, 725-738); `next` is `Send.Count`, `got` is `Send.Ranks`. -/
def unpackSlots (size : Int) (got : Int → Option (List Int)) : (Int → Nat) → List Slot →
    Option (List Int × (Int → Nat))
  | next, [] => some ([], next)
  | next, s :: ss =>
    match s.ask with
    | none => (unpackSlots size got next ss).map fun r => (s.rank :: r.1, r.2)
    | some L =>
      match part size L with
      | none => none
      | some k =>
        match got k with
        | none => none
        | some l =>
          match l[next k]? with
          | none => none
          | some v =>
            (unpackSlots size got (fun j => if j = k then next j + 1 else next j) ss).map fun r =>
              (v :: r.1, r.2)

/-- Storing the answers in the arrays of all connectivities (685-715, 717-739). -/
def unpackConns (size : Int) (got : Int → Option (List Int)) : (Int → Nat) → List (List Slot) →
    Option (List (List Int))
  | _, [] => some []
  | next, c :: cs =>
    match unpackSlots size got next c with
    | none => none
    | some (l, next') => (unpackConns size got next' cs).map (l :: ·)

/-- All processes did something without undefined behaviour. -/
def allSome {α : Type} (f : Fin n → Option α) : Option (Fin n → α) :=
  if h : ∀ i, (f i).isSome then some fun i => (f i).get (h i) else none

/-- The message of process `q` to a process with questions `m` (640-664); `some none`: no message. -/
def answer (size total : Int) (q : Fin n) (a : Int → Int) (m : OMap Int (List Int)) :
    Option (Option (List Int)) :=
  match m.find? intLess q with
  | none => some none
  | some e => (reply size total q a e.2).map some

/-- What the asking side gets: `groups` are its own questions, `tab` the tables filled by the other
side. -/
def resolve (size total : Int) (slots : Fin n → List (List Slot)) (groups : Fin n → OMap Int (List Int))
    (tab : Fin n → Int → Int) : Option (Fin n → List (List Int)) :=
  (allSome fun q : Fin n => allSome fun p : Fin n => answer size total q (tab q) (groups p)).bind fun answers =>
  allSome fun p => unpackConns size
    (fun k => if h : 0 ≤ k ∧ k.toNat < n then answers ⟨k.toNat, h.2⟩ p else none) (fun _ => 0) (slots p)

/-- `exchanger::UpdateSourceDestRanks_` (282-777): the arrays `LocalM.DestinationRanks` and
`LocalN.SourceRanks` of all connectivities on all processes. -/
def update (w : World d n) : Option ((Fin n → List (List Int)) × (Fin n → List (List Int))) :=
  let size := w.size
  let total := totalPoints w.grids
  (allSome (mSlots w)).bind fun ms =>
  (allSome (nSlots w)).bind fun ns =>
  (allSome fun p => group size ⟨[], []⟩ (asks (ms p))).bind fun mg =>
  (allSome fun p => group size ⟨[], []⟩ (asks (ns p))).bind fun ng =>
  if (∀ p, keysOk n (mg p) = true) ∧ (∀ p, keysOk n (ng p) = true) then
    (allSome (table size total mg)).bind fun mt =>
    (allSome (table size total ng)).bind fun nt =>
    (resolve size total ms mg nt).bind fun dest =>
    (resolve size total ns ng mt).map fun src => (dest, src)
  else none

/-- The check for sorted input in `GetSendRecvOrder` (1581-1590); the first argument is `PrevIndex`. -/
def sortedFrom : Int → List Int → Bool
  | _, [] => true
  | prev, k :: ks => if k < prev then false else sortedFrom k ks

/-- What `std::sort` may leave in `Order` (`ArrayOrder`, ArrayOps.hpp:715-734): a permutation of the
positions without a later element that compares less than an earlier one.  The order of equal elements is
unspecified. -/
def StdSorted (ks : List Int) (o : List Nat) : Prop :=
  o.Perm (List.range ks.length) ∧ o.Pairwise fun i j => ¬ ks.getD j 0 < ks.getD i 0

/-- `o` is a possible result of `GetSendRecvOrder` (1563-1605). -/
def IsOrder (r : Rng d) (pts : List (Tup d)) (o : List Nat) : Prop :=
  if sortedFrom 0 (pts.map (r.index .col)) then o = List.range pts.length
  else StdSorted (pts.map (r.index .col)) o

/-- `LocalMs_(ConnectivityID)` with its destination ranks; `none`: the M grid is not on this process. -/
def mEntry (w : World d n) (D : Fin n → List (List Int)) (m g : Int) (p : Fin n) :
    Option (ConnM d × List Int) :=
  ((w.ms p).zip (D p)).find? fun x => decide (x.1.mGrid = m ∧ x.1.nGrid = g)

/-- `LocalNs_(ConnectivityID)` with its source ranks. -/
def nEntry (w : World d n) (S : Fin n → List (List Int)) (m g : Int) (q : Fin n) :
    Option (ConnN d × List Int) :=
  ((w.ns q).zip (S q)).find? fun x => decide (x.1.mGrid = m ∧ x.1.nGrid = g)

def mDonors (e : Option (ConnM d × List Int)) : List (Donor d) := (e.map fun x => x.1.donors).getD []
def nReceivers (e : Option (ConnN d × List Int)) : List (Receiver d) := (e.map fun x => x.1.receivers).getD []
def mRanks (e : Option (ConnM d × List Int)) : List Int := (e.map Prod.snd).getD []
def nRanks (e : Option (ConnN d × List Int)) : List Int := (e.map Prod.snd).getD []

/-- `s` are send and receive maps that `ResetExchanges_` (779-813) may build for connectivity `(m, g)`; `R`
is the range of grid `g`.  A process without the grid takes part with empty maps. -/
structure MapsFor (w : World d n) (D S : Fin n → List (List Int)) (m g : Int) (R : Rng d) (s : SR.Setup n) :
    Prop where
  send : ∀ p, ∃ o, IsOrder R ((mDonors (mEntry w D m g p)).map Donor.dest) o ∧
    SR.build (mRanks (mEntry w D m g p)) o = some (s.send p)
  recv : ∀ q, ∃ o, IsOrder R ((nReceivers (nEntry w S m g q)).map Receiver.pt) o ∧
    SR.build (nRanks (nEntry w S m g q)) o = some (s.recv q)

/-- `GlobalTag` (1118-1121, 1280-1283); `ids` is the sorted set of connectivity IDs. -/
def globalTag (ids : List (Elem 2)) (id : Elem 2) (tag : Int) : Int :=
  (ids.length : Int) * tag + (OSet.find elemLess ids id : Nat)

end Ovk.Xch
