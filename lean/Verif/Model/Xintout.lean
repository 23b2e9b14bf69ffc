/-
Model of reading XINTOUT connectivity files (src/extras/XINTOUT.cpp): division of the records among the
processes that read, and matching of donors and receivers.
-/
import Mathlib.Data.List.Basic
import Mathlib.Data.Nat.Basic
import Mathlib.Data.Int.Basic
import Mathlib.Data.Fin.Basic

namespace Ovk
namespace Xintout

/-! ### Chunks -/

/-- `BinDivide` (XINTOUT.cpp:2687-2693). -/
def binDivide (n k : Nat) : Nat := (n + k - 1) / k

/-- Doubling of `ChunkRankInterval` (XINTOUT.cpp:2702, 2716). -/
def widen (maxChunks interval : Nat) : Nat := min (interval * 2) maxChunks

/-- Halving of `ChunkRankInterval` (XINTOUT.cpp:2709). -/
def narrow (interval : Nat) : Nat := max (interval / 2) 1

/-- The loop at XINTOUT.cpp:2701-2704; `NumChunks` is `binDivide maxChunks interval`.  Without end: `none`. -/
def fitLoop (count maxChunks target : Nat) : Nat → Nat → Option Nat
  | fuel, interval =>
    let chunks := binDivide maxChunks interval
    if binDivide count chunks < target ∧ chunks > 1 then
      match fuel with
      | 0 => none
      | fuel + 1 => fitLoop count maxChunks target fuel (widen maxChunks interval)
    else some interval

/-- The loop at XINTOUT.cpp:2707-2711. -/
def adjustUp (maxChunks : Nat) : Nat → Nat → Nat
  | 0, interval => interval
  | a + 1, interval =>
    if binDivide maxChunks interval < maxChunks then adjustUp maxChunks a (narrow interval) else interval

/-- The loop at XINTOUT.cpp:2714-2718. -/
def adjustDown (maxChunks : Nat) : Nat → Nat → Nat
  | 0, interval => interval
  | a + 1, interval =>
    if binDivide maxChunks interval > 1 then adjustDown maxChunks a (widen maxChunks interval) else interval

/-- Results of `Chunkify`. -/
structure Chunks where
  /-- `ChunkRankInterval` -/
  interval : Nat
  /-- `NumChunks` -/
  num : Nat
  /-- `ChunkSize` -/
  size : Nat
  deriving DecidableEq

/-- `Chunkify` (XINTOUT.cpp:2695-2724). -/
def chunkify (count maxChunks target : Nat) (adjust : Int) : Option Chunks := do
  let interval ← fitLoop count maxChunks target maxChunks 1
  let interval := if adjust > 0 then adjustUp maxChunks adjust.toNat interval
    else if adjust < 0 then adjustDown maxChunks (-adjust).toNat interval else interval
  let num := binDivide maxChunks interval
  some ⟨interval, num, binDivide count num⟩

/-- `HasChunk` (XINTOUT.cpp:997, 1321). -/
def Chunks.has (c : Chunks) (rank : Nat) : Bool := rank % c.interval == 0

/-- `ChunkComm.Rank()`: `CreateSubsetComm` (Comm.cpp:30-39) keeps the order of the ranks. -/
def Chunks.rank (c : Chunks) (rank : Nat) : Nat := ((List.range rank).filter c.has).length

/-- `LocalBegin` (XINTOUT.cpp:1019, 1343). -/
def Chunks.lo (c : Chunks) (rank : Nat) : Int := c.size * c.rank rank

/-- `LocalEnd` (XINTOUT.cpp:1020, 1344). -/
def Chunks.hi (c : Chunks) (count rank : Nat) : Int := min (c.size * (c.rank rank + 1)) (count : Int)

/-- The test `NumLocalDonors*sizeof(double) > std::numeric_limits<int>::max()` (XINTOUT.cpp:1024, 1348;
`sizeof(long long)` for receivers); the product is an unsigned 64 bit number. -/
def tooBig (n : Int) : Bool := decide (((n % 2 ^ 64) * 8) % 2 ^ 64 > 2 ^ 31 - 1)

/-- Whether `ReadDonors` or `ReadReceivers` ends with `ChunkSizeError` (XINTOUT.cpp:1023-1032). -/
def sizeError (c : Chunks) (count procs : Nat) : Bool :=
  (List.range procs).any fun r => c.has r && tooBig (c.hi count r - c.lo r)

/-! ### Matching -/

/-- `BinSize` (XINTOUT.cpp:1536). -/
def binSize (numPoints numConnections procs : Nat) : Nat := min (binDivide numPoints procs) numConnections

variable {α β : Type}

/-- The bin of a connection (XINTOUT.cpp:1573, 1583). -/
def binOf (size : Nat) (id : Nat) : Nat := id / size

/-- Data of one side sent to bin `b` (XINTOUT.cpp:1604-1640): connection ids and data, in the order of the
local entries. -/
def sendsTo (size : Nat) (entries : List (Nat × α)) (b : Nat) : List (Nat × α) :=
  entries.filter fun e => binOf size e.1 = b

/-- Filling one side of the connection data of a bin (XINTOUT.cpp:1777-1797) with what arrived, in the order
of the sending ranks.  `lo`, `hi` are `Bin.Begin`, `Bin.End`; writing outside is undefined, and cells that
are not written hold nothing. -/
def fill (lo hi : Nat) : List (Nat × α) → (Nat → Option α) → Option (Nat → Option α)
  | [], m => some m
  | (id, a) :: es, m =>
    if lo ≤ id ∧ id < hi then fill lo hi es (fun i => if i = id then some a else m i) else none

/-- Bounds of the bin of a process (XINTOUT.cpp:1545-1550). -/
def binLo (size r : Nat) : Nat := size * r
def binHi (size numConnections r : Nat) : Nat := min (size * (r + 1)) numConnections

/-- Everything arriving at bin `b` from the processes in order. -/
def arriving {P : Nat} (size : Nat) (entries : Fin P → List (Nat × α)) (b : Nat) : List (Nat × α) :=
  (List.finRange P).flatMap fun r => sendsTo size (entries r) b

/-- Connection data of all bins.  Processes without a bin (`HasBin`, XINTOUT.cpp:1537) have no data. -/
def fillBins {P : Nat} (size numConnections : Nat) (entries : Fin P → List (Nat × α)) (b : Nat) :
    Option (Nat → Option α) :=
  fill (binLo size b) (binHi size numConnections b) (arriving size entries b) fun _ => none

/-- What bin `b` sends back to a process (XINTOUT.cpp:1802-1828): for each connection id received from it,
the data of the other side. -/
def reply (size : Nat) (entries : List (Nat × α)) (other : Nat → Option β) (b : Nat) : List (Option β) :=
  (sendsTo size entries b).map fun e => other e.1

/-- Unpacking (XINTOUT.cpp:1847-1881): `next b` is `Send.Count` of bin `b`. -/
def unpack (size : Nat) (replies : Nat → List (Option β)) : List (Nat × α) → (Nat → Nat) → List (Option β)
  | [], _ => []
  | e :: es, next =>
    let b := binOf size e.1
    ((replies b)[next b]?).join :: unpack size replies es (fun c => if c = b then next c + 1 else next c)

/-- Every connection is sent to an existing process (`MPI_Isend` to rank `ConnectionBinIndex`), and the size
of the bins is not zero when something is divided by it. -/
def binsExist {P : Nat} (size : Nat) (entries : Fin P → List (Nat × α)) : Prop :=
  ∀ r, ∀ e ∈ entries r, size ≠ 0 ∧ binOf size e.1 < P

instance {P : Nat} (size : Nat) (entries : Fin P → List (Nat × α)) : Decidable (binsExist size entries) :=
  inferInstanceAs (Decidable (∀ r, ∀ e ∈ entries r, size ≠ 0 ∧ binOf size e.1 < P))

/-- All results of a function on the processes, if every one is defined. -/
def procs {P : Nat} {γ : Type} (f : Fin P → Option γ) : Option (Fin P → γ) :=
  if h : ∀ r, (f r).isSome = true then some fun r => (f r).get (h r) else none

/-- `MatchDonorsAndReceivers` (XINTOUT.cpp:1491-1891), seen by one side (`mine`), with the other side
(`other`): for every local entry the data found for it. -/
def matchSide {P : Nat} (numPoints numConnections : Nat) (mine : Fin P → List (Nat × α))
    (other : Fin P → List (Nat × β)) : Option (Fin P → List (Option β)) :=
  let size := binSize numPoints numConnections P
  if binsExist size mine ∧ binsExist size other then do
    let _ ← procs fun b : Fin P => fillBins size numConnections mine b.val
    let bins ← procs fun b : Fin P => fillBins size numConnections other b.val
    some fun r => unpack size
      (fun b => reply size (mine r) (if h : b < P then bins ⟨b, h⟩ else fun _ => none) b) (mine r) fun _ => 0
  else none

end Xintout
end Ovk
