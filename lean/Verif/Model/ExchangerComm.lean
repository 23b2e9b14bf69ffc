/-
Model of the communication of an exchanger while it is bound: src/core/Exchanger.cpp `Bind` (101-143), `Unbind`
(145-168), `OnConnectivityEvent_` (191-224), `Update_` (226-248), `UpdateSourceDestRanks_` (282-777).

Who is asked what comes from `Verif.Model.Exchanger`, the execution of messages from `Verif.Model.Schedule`, events
from `Verif.Model.Component`.  Simplified: messages with different tags are on different communicators, which is what
tags mean; `DynamicHandshake` is a collective operation that delivers the ranks that named the caller (C28), in the
order of `map` keys; `CreateLocals_`, `DestroyLocals_` and `ResetExchanges_` do not communicate; the operations of the
component around its events are left out (C119).
-/
import Verif.Model.Exchanger
import Verif.Model.Schedule
import Verif.Model.Component

namespace Ovk.XComm
open Sched (Cmd Swap Round Pair Comm)
variable {d n : Nat}

/-- `UpdateManifest_` (Exchanger.hpp:166-171). -/
structure Manifest where
  create : List Comp.CID := []
  destroy : List Comp.CID := []
  ranks : List Comp.CID := []
  reset : List Comp.CID := []

/-- `FlagsMatchAny` (194-196). -/
def matchAny (flags mask : Nat) : Bool := flags &&& mask != 0

/-- `EDIT_M_DESTINATIONS`, `EDIT_N_SOURCES` and `ALL_EDITS` (ConnectivityComponent.h:22, 25, 26-34). -/
def editDests : Nat := 1 <<< 6
def editSources : Nat := 1 <<< 9
def allEdits : Nat :=
  1 <<< 2 ||| 1 <<< 3 ||| 1 <<< 4 ||| 1 <<< 5 ||| 1 <<< 6 ||| 1 <<< 7 ||| 1 <<< 8 ||| 1 <<< 9

def insertIf (b : Bool) (s : List Comp.CID) (c : Comp.CID) : List Comp.CID := if b then OSet.insert elemLess s c else s

/-- What an event adds to the manifest (198-218). -/
def Manifest.add (m : Manifest) (c : Comp.CID) (flags : Nat) : Manifest where
  create := insertIf (matchAny flags Comp.CREATE) m.create c
  destroy := insertIf (matchAny flags Comp.DESTROY) m.destroy c
  ranks := insertIf (matchAny flags Comp.CREATE || matchAny flags editDests || matchAny flags editSources) m.ranks c
  reset := insertIf (matchAny flags Comp.CREATE || matchAny flags allEdits) m.reset c

/-- A collective operation on the communicator of the domain. -/
def everyone (label : Sched.Label) : Swap n :=
  ⟨.all none, fun _ => true, fun _ => List.finRange n, fun _ => List.finRange n, label⟩

/-- `MSends.Keys()` (370-399) and `NSends.Keys()` (401-422): the processes that are asked. -/
def asked (w : Xch.World d n) (m : Bool) (p : Fin n) : List (Fin n) :=
  Sched.peers (((if m then Xch.mSlots w p else Xch.nSlots w p).getD [] |> Xch.asks).filterMap (Xch.part w.size))

/-- `MRecvFromRanks`, `NRecvFromRanks` (498-499): the processes that ask. -/
def asking (w : Xch.World d n) (m : Bool) (p : Fin n) : List (Fin n) :=
  (List.finRange n).filter fun q => decide (p ∈ asked w m q)

/-- Tag 0 for donors and 1 for receivers. -/
def tag (id : Pair) : Comm := .grid id.2

/-- Messages of the counts (538-560) and of the points (578-600): from those who ask to those who are asked. -/
def ask (w : Xch.World d n) : Round n where
  recvIDs _ := [(0, 0), (0, 1)]
  sendIDs _ := [(0, 0), (0, 1)]
  comm := tag
  from_ id p := asking w (id.2 == 0) p
  «to» id p := asked w (id.2 == 0) p
  copies := 1
  pre _ := []

/-- Messages of the answers (640-662). -/
def answer (w : Xch.World d n) : Round n where
  recvIDs _ := [(0, 0), (0, 1)]
  sendIDs _ := [(0, 0), (0, 1)]
  comm := tag
  from_ id p := asked w (id.2 == 0) p
  «to» id p := asking w (id.2 == 0) p
  copies := 1
  pre _ := []

/-- `UpdateSourceDestRanks_` (282-777) as the `u`-th call: a barrier (289), two handshakes (498-499), counts, points and
answers, each with an `MPI_Waitall` (562, 602, 664), a barrier (775). -/
def ranks (w : Xch.World d n) (u : Nat) (p : Fin n) : List (Cmd n) :=
  (everyone (3 * u, (1, 0), 0)).prog p ++ (everyone (3 * u, (1, 1), 0)).prog p ++ (everyone (3 * u, (1, 2), 0)).prog p ++
    (ask w).prog (3 * u) p ++ (ask w).prog (3 * u + 1) p ++ (answer w).prog (3 * u + 2) p ++
    (everyone (3 * u, (1, 3), 0)).prog p

/-- One process: the manifest, the number of updates, and what was communicated. -/
structure State (n : Nat) where
  manifest : Manifest
  updates : Nat
  prog : List (Cmd n)
  /-- the sets of `UpdateSourceDestRanks` and `ResetExchanges` for which the updates were made -/
  done : List (List Comp.CID × List Comp.CID)

/-- `Update_` (226-248); `W u` is what all processes have at the `u`-th update.  Without entries for ranks there is no
communication (284). -/
def update (W : Nat → Xch.World d n) (p : Fin n) (s : State n) : State n where
  manifest := {}
  updates := s.updates + 1
  prog := s.prog ++ if s.manifest.ranks = [] then [] else ranks (W s.updates) s.updates p
  done := s.done ++ [(s.manifest.ranks, s.manifest.reset)]

/-- `OnConnectivityEvent_` (191-224). -/
def onEvent (W : Nat → Xch.World d n) (p : Fin n) (s : State n) (e : Comp.Call) : State n :=
  let s := { s with manifest := s.manifest.add e.1 e.2.1 }
  if e.2.2 then update W p s else s

/-- `Bind` (101-143): a barrier (128), the IDs of all connectivities (134-138), an update. -/
def bind (W : Nat → Xch.World d n) (ids : List Comp.CID) (p : Fin n) : State n :=
  update W p ⟨ids.foldl (fun m c => ⟨OSet.insert elemLess m.create c, m.destroy, OSet.insert elemLess m.ranks c,
    OSet.insert elemLess m.reset c⟩) {}, 0, (everyone (0, (2, 0), 0)).prog p, []⟩

/-- `Unbind` (145-168): two barriers (150, 161). -/
def unbind (p : Fin n) (s : State n) : State n :=
  { s with prog := s.prog ++ (everyone (0, (2, 1), 0)).prog p ++ (everyone (0, (2, 2), 0)).prog p }

/-- An exchanger from being bound, while connectivities `ids` exist, until it is unbound; `events` are what it hears. -/
def bound (W : Nat → Xch.World d n) (ids : List Comp.CID) (events : List Comp.Call) (p : Fin n) : State n :=
  unbind p (events.foldl (onEvent W p) (bind W ids p))

end Ovk.XComm
