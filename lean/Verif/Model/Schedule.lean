/-
Model of the order in which the processes communicate during assembly (src/core/AssemblerAssembly.cpp, from the
volumes at the end of `DetectOverlap_` to the donors in `GenerateConnectivityData_`).  Values are left out; what counts
is which message meets which receive, and whether the processes wait for each other forever.

All messages between two processes on one communicator have tag 0 (2637, 2645, 2867, 2877, 3334, 3345, 3627, 3638,
4172, 4183, 4402, 4413, 4656, 4667, 4873, 4901, 4923-4930, 4978-4985; CollectBase.cpp:189-223; Halo.inl:96-112), so MPI
matches them in the order in which they were posted: the `k`-th receive from a process gets the `k`-th message of it.
A wait returns when all its receives have been matched by sends and all its sends by receives; MPI may return earlier
for sends that it buffers.

Simplified: processes are numbered as in the domain communicator also on grid communicators.  A collective operation
is an exchange of everyone with everyone on a communicator of its own; the ones that are data dependent (the loop at
3008, the iterations of flood fill) are given as a list.  The first part of `DetectOverlap_`, up to the overlap data,
is left out (C28, C85).
-/
import Verif.Model.SendRecv

namespace Ovk.Sched
variable {n : Nat}

/-- A communicator. -/
inductive Comm where
  /-- `Domain.Comm()` -/
  | domain
  /-- `Grid.Comm()` -/
  | grid (g : Nat)
  /-- collective operations on a grid communicator or (`none`) on the domain communicator -/
  | all (g : Option Nat)
deriving DecidableEq

/-- IDs of the M and N grid. -/
abbrev Pair := Nat × Nat

/-- What a message is meant to be: number of the exchange, pair, number of the message. -/
abbrev Label := Nat × Pair × Nat

/-- `MPI_Isend` or `MPI_Irecv`. -/
structure Op (n : Nat) where
  comm : Comm
  send : Bool
  peer : Fin n
  label : Label

inductive Cmd (n : Nat) where
  | op (o : Op n)
  /-- `MPI_Waitall` or `WaitAll` for all requests on these communicators -/
  | wait (cs : List Comm)

/-! ### Execution -/

/-- Number of commands that each process has executed. -/
abbrev State (n : Nat) := Fin n → Nat

def Cmd.op? : Cmd n → Option (Op n)
  | .op o => some o
  | .wait _ => none

/-- Messages and receives that have been posted. -/
def posted (prog : Fin n → List (Cmd n)) (x : State n) (p : Fin n) : List (Op n) :=
  ((prog p).take (x p)).filterMap Cmd.op?

/-- Those to or from process `q` on one communicator, in order. -/
def chan (l : List (Op n)) (send : Bool) (c : Comm) (q : Fin n) : List Label :=
  l.filterMap fun o => if o.send = send ∧ o.comm = c ∧ o.peer = q then some o.label else none

/-- All requests of `p` on these communicators are complete. -/
def complete (prog : Fin n → List (Cmd n)) (x : State n) (p : Fin n) (cs : List Comm) : Prop :=
  ∀ c ∈ cs, ∀ q,
    (chan (posted prog x p) false c q).length ≤ (chan (posted prog x q) true c p).length ∧
    (chan (posted prog x p) true c q).length ≤ (chan (posted prog x q) false c p).length

instance (prog : Fin n → List (Cmd n)) (x : State n) (p : Fin n) (cs : List Comm) :
    Decidable (complete prog x p cs) := by unfold complete; infer_instance

/-- Process `p` executes its next command; `none` if there is none, or it has to wait. -/
def step (prog : Fin n → List (Cmd n)) (x : State n) (p : Fin n) : Option (State n) :=
  let next : State n := fun q => if q = p then x q + 1 else x q
  match (prog p)[x p]? with
  | none => none
  | some (.op _) => some next
  | some (.wait cs) => if complete prog x p cs then some next else none

def run (prog : Fin n → List (Cmd n)) : State n → List (Fin n) → Option (State n)
  | x, [] => some x
  | x, p :: ps => (step prog x p).bind fun y => run prog y ps

/-! ### Programs -/

/-- A blocking exchange: halo exchange (Halo.inl:83-130), collect (CollectBase.cpp:160-240) or collective operation. -/
structure Swap (n : Nat) where
  comm : Comm
  /-- the processes that take part -/
  mem : Fin n → Bool
  to : Fin n → List (Fin n)
  from_ : Fin n → List (Fin n)
  label : Label

def Swap.prog (w : Swap n) (p : Fin n) : List (Cmd n) :=
  if w.mem p then
    ((w.from_ p).map fun q => .op ⟨w.comm, false, q, w.label⟩) ++
      ((w.to p).map fun q => .op ⟨w.comm, true, q, w.label⟩) ++ [.wait [w.comm]]
  else []

/-- Exchange of data for pairs of grids: receives are posted for all pairs, then sends, then all are waited for. -/
structure Round (n : Nat) where
  /-- the pairs in the loop over receives of each process -/
  recvIDs : Fin n → List Pair
  /-- the pairs in the loop over sends -/
  sendIDs : Fin n → List Pair
  comm : Pair → Comm
  from_ : Pair → Fin n → List (Fin n)
  to : Pair → Fin n → List (Fin n)
  /-- number of messages for each pair and peer -/
  copies : Nat
  /-- blocking operations before the sends for a pair -/
  pre : Pair → List (Swap n)

def messages (c : Comm) (send : Bool) (r : Nat) (id : Pair) (copies : Nat) (peers : List (Fin n)) : List (Cmd n) :=
  peers.flatMap fun q => (List.range copies).map fun j => .op ⟨c, send, q, (r, id, j)⟩

/-- `r` is the number of the round. -/
def Round.prog (R : Round n) (r : Nat) (p : Fin n) : List (Cmd n) :=
  (R.recvIDs p).flatMap (fun id => messages (R.comm id) false r id R.copies (R.from_ id p)) ++
    (R.sendIDs p).flatMap (fun id => (R.pre id).flatMap (·.prog p) ++
      messages (R.comm id) true r id R.copies (R.to id p)) ++
    [.wait ((R.recvIDs p ++ R.sendIDs p).map R.comm)]

/-- Ranks of `Sends()` or `Recvs()` of a map (SendMap.cpp:34-51, RecvMap.cpp:34-51). -/
def peers (ranks : List Int) : List (Fin n) :=
  (SR.countRanks ⟨[], []⟩ ranks).entries.filterMap fun x =>
    if h : x.1.toNat < n then some ⟨x.1.toNat, h⟩ else none

/-- What the communication of an assembly depends on. -/
structure Plan (n : Nat) where
  /-- `OverlapComponent.OverlapIDs()` -/
  ids : List Pair
  /-- `Domain.GridIsLocal` -/
  loc : Nat → Fin n → Bool
  /-- `OverlapM.DestinationRanks()` -/
  dest : Pair → Fin n → List Int
  /-- `OverlapN.SourceRanks()` -/
  src : Pair → Fin n → List Int
  /-- `Domain.GridIDs()` -/
  grids : List Nat
  /-- `Options_.CutBoundaryHoles` -/
  cuts : Pair → Bool
  /-- `Options_.Occludes` is not `NONE` -/
  occludes : Pair → Bool
  /-- `Options_.Occludes` is `COARSE` -/
  coarse : Pair → Bool
  /-- `Options_.ConnectionType` is not `NONE` -/
  connects : Pair → Bool
  /-- `ConnectivityComponent.ConnectivityIDs()` -/
  connected : List Pair
  /-- neighbours in the partition of a grid -/
  nbrs : Nat → Fin n → List (Fin n)
  /-- blocking operations in a round before the sends for a pair -/
  pre : Nat → Pair → List (Swap n)
  /-- blocking operations before a round -/
  before : Nat → List (Swap n)

namespace Plan
variable (P : Plan n)

/-- `LocalOverlapMIDs()` (OverlapComponent.cpp:329-345). -/
def localM (p : Fin n) : List Pair := P.ids.filter fun id => P.loc id.1 p

/-- `LocalOverlapNIDs()`. -/
def localN (p : Fin n) : List Pair := P.ids.filter fun id => P.loc id.2 p

/-- The condition at 2822-2823. -/
def cutPair (id : Pair) : Bool := P.cuts id && P.ids.contains id && P.ids.contains (id.2, id.1)

/-- All pairs of grids in the order of the loops at 2819-2820. -/
def allPairs : List Pair := P.grids.flatMap fun m => P.grids.map fun k => (m, k)

/-- `LocalCutMPairIDs` (2814-2833). -/
def localCutM (p : Fin n) : List Pair := P.allPairs.filter fun id => P.cutPair id && P.loc id.1 p

/-- `LocalCutNPairIDs`. -/
def localCutN (p : Fin n) : List Pair := P.allPairs.filter fun id => P.cutPair id && P.loc id.2 p

/-- From cells to points: receives on the N side, sends on the M side. -/
def forward (r : Nat) (keep : Pair → Bool) : Round n where
  recvIDs p := (P.localN p).filter keep
  sendIDs p := (P.localM p).filter keep
  comm _ := .domain
  from_ id p := peers (P.src id p)
  to id p := peers (P.dest id p)
  copies := 1
  pre := P.pre r

/-- From points to cells. -/
def reverse (r : Nat) (keepM keepN : Fin n → Pair → Bool) : Round n where
  recvIDs p := (P.localM p).filter (keepM p)
  sendIDs p := (P.localN p).filter (keepN p)
  comm _ := .domain
  from_ id p := peers (P.dest id p)
  to id p := peers (P.src id p)
  copies := 1
  pre := P.pre r

/-- Between neighbours in the M grids of the connectivities. -/
def neighbors (copies : Nat) : Round n where
  recvIDs p := P.connected.filter fun id => P.loc id.1 p
  sendIDs p := P.connected.filter fun id => P.loc id.1 p
  comm id := .grid id.1
  from_ id p := P.nbrs id.1 p
  to id p := P.nbrs id.1 p
  copies := copies
  pre _ := []

/-- `MutuallyOccludes` (3613-3616). -/
def mutually (id : Pair) : Bool := P.coarse id && P.coarse (id.2, id.1)

/-- The exchanges of an assembly in the order of the code. -/
def rounds : List (Round n) :=
  [ -- volumes (2645-2672)
    P.forward 0 fun _ => true,
    -- edges of the overlap for projecting boundaries (2889-2926)
    P.reverse 1 (fun p id => (P.localCutN p).contains (id.2, id.1)) (fun p id => (P.localCutM p).contains (id.2, id.1)),
    -- boundaries (3022-3055)
    P.reverse 2 (fun p id => (P.localCutN p).contains (id.2, id.1)) (fun p id => (P.localCutM p).contains (id.2, id.1)),
    -- overlap after cutting (3352-3377)
    P.forward 3 fun _ => true,
    -- mutual occlusion (3645-3676, 3692-3720)
    P.forward 4 fun id => P.mutually id && !decide (id.2 < id.1),
    P.forward 5 fun id => P.mutually id && !decide (id.1 < id.2),
    -- padding (3801-3825)
    P.forward 6 P.occludes,
    -- overlap after minimization (4190-4216)
    P.forward 7 fun _ => true,
    -- distances (4422-4448)
    P.forward 8 fun _ => true,
    -- chosen donors (4675-4711)
    P.reverse 9 (fun _ => P.connects) fun _ => P.connects,
    -- numbers of donors for neighbours (4863-4907)
    P.neighbors 1,
    -- donors for neighbours (4909-4990)
    P.neighbors 4 ]

/-- What a process does during assembly. -/
def prog (p : Fin n) : List (Cmd n) :=
  P.rounds.zipIdx.flatMap (fun x => (P.before x.2).flatMap (·.prog p) ++ x.1.prog x.2 p) ++
    (P.before P.rounds.length).flatMap (·.prog p)

end Plan

end Ovk.Sched
