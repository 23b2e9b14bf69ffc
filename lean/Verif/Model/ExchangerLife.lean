/-
Model of how an exchanger keeps its rank tables up to date while connectivities are created, edited and destroyed:
src/core/Exchanger.cpp `Bind` (101-143), `OnConnectivityEvent_` (193-224), `Update_` (226-248), `CreateLocals_`
(250-268), `DestroyLocals_` (271-280), `UpdateSourceDestRanks_` (282-777, `Ovk.Xch.update`), driven by the events of
`connectivity_component` (src/core/ConnectivityComponent.cpp `SyncEdits_` 127-203, `CreateConnectivities` 277-357,
`DestroyConnectivities` 418-511; which flags an edit raises: 746-799).

All processes at once.  Simplified: the flags of a session are the ones merged over all processes and both sides
(C31); every event sequence arrives completely, so the manifest is empty between sequences; connectivities are kept in
order of creation instead of order of ID; grids do not change; the send, receive, collect and disperse maps, rebuilt
by `ResetExchanges_` from the tables after every event, are left to C25 and C75.
`none` is undefined behaviour or a violated precondition.
-/
import Verif.Model.Exchanger

namespace Ovk.XLife
open Ovk.Xch
variable {d n : Nat}

/-- A connectivity on all processes; `none`: the process does not have that grid. -/
structure Conn (d n : Nat) where
  mGrid : Int
  nGrid : Int
  /-- `MGrid.LocalRange()` and the donors -/
  ms : Fin n → Option (Rng d × List (Donor d))
  ns : Fin n → Option (List (Receiver d))

def Conn.id (c : Conn d n) : Int × Int := (c.mGrid, c.nGrid)

/-- `ConnectivityMIDs`, `ConnectivityNIDs` and what they refer to (290-303), for the connectivities of a manifest. -/
def world (grids : List (Int × Rng d)) (cs : List (Conn d n)) : World d n where
  grids := grids
  ms p := cs.filterMap fun c => (c.ms p).map fun x => ⟨c.mGrid, c.nGrid, x.1, x.2⟩
  ns p := cs.filterMap fun c => (c.ns p).map fun x => ⟨c.mGrid, c.nGrid, x⟩

/-- `connectivity_event_flags`: the edits. -/
structure Flags where
  extents : Bool := false
  coords : Bool := false
  interpCoefs : Bool := false
  /-- destinations or destination ranks -/
  dests : Bool := false
  points : Bool := false
  /-- sources or source ranks -/
  sources : Bool := false
deriving DecidableEq

structure State (d n : Nat) where
  /-- the connectivities of the component -/
  conns : List (Conn d n)
  /-- `LocalMs_(ID).DestinationRanks`; `none`: no such entry -/
  dest : Int × Int → Fin n → Option (List Int)
  /-- `LocalNs_(ID).SourceRanks` -/
  src : Int × Int → Fin n → Option (List Int)

/-- `UpdateManifest_` (Exchanger.hpp), without `ResetExchanges`. -/
structure Manifest where
  create : List (Int × Int)
  destroy : List (Int × Int)
  ranks : List (Int × Int)

/-- `CreateLocals_` (250-268). -/
def createLocals (s : State d n) (ids : List (Int × Int)) : State d n :=
  { s with
    dest := fun i p => if (s.conns.any fun c => decide (c.id ∈ ids ∧ c.id = i) && (c.ms p).isSome) then some []
      else s.dest i p
    src := fun i p => if (s.conns.any fun c => decide (c.id ∈ ids ∧ c.id = i) && (c.ns p).isSome) then some []
      else s.src i p }

/-- `DestroyLocals_` (271-280). -/
def destroyLocals (s : State d n) (ids : List (Int × Int)) : State d n :=
  { s with
    dest := fun i p => if i ∈ ids then none else s.dest i p
    src := fun i p => if i ∈ ids then none else s.src i p }

/-- `UpdateSourceDestRanks_` (282-777). -/
def updateRanks (grids : List (Int × Rng d)) (s : State d n) (ids : List (Int × Int)) : Option (State d n) :=
  if ids = [] then some s
  else
    let w := world grids (s.conns.filter fun c => decide (c.id ∈ ids))
    (update w).map fun r =>
      { s with
        dest := fun i p => match mEntry w r.1 i.1 i.2 p with
          | some e => some e.2
          | none => s.dest i p
        src := fun i p => match nEntry w r.2 i.1 i.2 p with
          | some e => some e.2
          | none => s.src i p }

/-- `Update_` (226-248). -/
def updateAll (grids : List (Int × Rng d)) (s : State d n) (m : Manifest) : Option (State d n) :=
  updateRanks grids (destroyLocals (createLocals s m.create) m.destroy) m.ranks

/-- `OnConnectivityEvent_` (193-224) for the edits of a session. -/
def editManifest (es : List (Conn d n × Flags)) : Manifest where
  create := []
  destroy := []
  ranks := (es.filter fun e => e.2.dests || e.2.sources).map fun e => e.1.id

inductive Op (d n : Nat) where
  /-- `CreateConnectivities`; a new connectivity is empty -/
  | create (cs : List (Conn d n))
  | destroy (ids : List (Int × Int))
  /-- end of an edit of the component: the new contents of the edited connectivities and the merged flags -/
  | edit (es : List (Conn d n × Flags))

/-- The contents after a session. -/
def replace (es : List (Conn d n × Flags)) (c : Conn d n) : Conn d n :=
  match es.find? fun e => decide (e.1.id = c.id) with
  | some e => e.1
  | none => c

def step (grids : List (Int × Rng d)) (s : State d n) : Op d n → Option (State d n)
  | .create cs =>
    updateAll grids { s with conns := s.conns ++ cs } ⟨cs.map Conn.id, [], cs.map Conn.id⟩
  | .destroy ids =>
    updateAll grids { s with conns := s.conns.filter fun c => decide (c.id ∉ ids) } ⟨[], ids, []⟩
  | .edit es => updateAll grids { s with conns := s.conns.map (replace es) } (editManifest es)

/-- `Bind` (101-143) to a domain with connectivities `cs`. -/
def bind (grids : List (Int × Rng d)) (cs : List (Conn d n)) : Option (State d n) :=
  updateAll grids ⟨cs, fun _ _ => none, fun _ _ => none⟩ ⟨cs.map Conn.id, [], cs.map Conn.id⟩

/-- An exchanger bound to a domain with connectivities `cs`, after the given calls. -/
def run (grids : List (Int × Rng d)) (cs : List (Conn d n)) (ops : List (Op d n)) : Option (State d n) :=
  (bind grids cs).bind fun s => ops.foldlM (step grids) s

end Ovk.XLife
