/-
Model of the calls of a connectivity component on all processes with their collective operations
(src/core/ConnectivityComponent.cpp, src/core/ConnectivityM.cpp, src/core/ConnectivityN.cpp, `domain::EditComponent`
src/core/Domain.inl:38-65).  `overlap_component` (src/core/OverlapComponent.cpp) is the same code with other names.
What a process stores and computes between the operations is taken from `Verif.Model.Component`.

Simplified: the operations while grids are constructed and described are left out (C109), listeners of the component do
not communicate, one component; tables are not modelled (C101); a change of a table is a whole edit session.  `none` as
a result is a violated assertion (only with `OVK_DEBUG`) or an access to a missing map entry.
-/
import Verif.Model.CollectiveValues
import Verif.Model.Component

namespace Ovk.CompC
open Comp (CID mGrid nGrid)
variable {n : Nat}

/-- `Domain.Comm()` and communicators of grids. -/
inductive Comm | world | grid (k : Nat)
  deriving DecidableEq

/-- Members of communicators, from those of the communicators of grids. -/
def member (mem : Nat → Fin n → Bool) : Comm → Fin n → Bool
  | .world, _ => true
  | .grid k, p => mem k p

/-- `MPI_Barrier`, and `MPI_Allreduce` with `MPI_MAX`, `MPI_BOR`, `MPI_LOR`, `MPI_SUM`. -/
inductive Kind | barrier | max | bor | lor | sum
  deriving DecidableEq

/-- A reduction of arrays, which have to be equally long. -/
def reduce (op : Nat → Nat → Nat) : List (List Nat) → Option (List Nat)
  | [] => none
  | a :: l => if ∀ b ∈ l, b.length = a.length then some (l.foldl (List.zipWith op) a) else none

/-- What the operations deliver. -/
def comb : Kind → List (Fin n × List Nat) → Option (List Nat)
  | .barrier, _ => some []
  | .max, l => reduce Nat.max (l.map Prod.snd)
  | .bor, l => reduce (· ||| ·) (l.map Prod.snd)
  | .lor, l => reduce (fun a b => if a = 0 ∧ b = 0 then 0 else 1) (l.map Prod.snd)
  | .sum, l => reduce (· + ·) (l.map Prod.snd)

abbrev Pr (α : Type) := VColl.Prog Comm Kind (List Nat) α

def barriers (c : Comm) : Nat → Pr Unit
  | 0 => .ret ()
  | i + 1 => .coll c .barrier [] fun _ => barriers c i

/-- One process: the domain and the component as in `Verif.Model.Component`; communicators of the local grids;
`RefCount_` of the editors in `LocalMs_` (`true`) and `LocalNs_` (`false`), and of the editor of the component
(`component_data`, src/core/Domain.hpp). -/
structure State where
  base : Comp.Proc
  comm : Int → Nat
  handles : Bool → CID → Nat
  comp : Nat

def State.start : State := ⟨Comp.Proc.start, fun _ => 0, fun _ _ => 0, 0⟩

/-- `MGridID` (`true`) or `NGridID`. -/
def sideGrid (m : Bool) (c : CID) : Int := if m then mGrid c else nGrid c

/-- `LocalMs_` or `LocalNs_`. -/
def State.side (s : State) (m : Bool) : OMap CID Nat := if m then s.base.ms else s.base.ns

def State.setSide (s : State) (m : Bool) (x : OMap CID Nat) : State :=
  { s with base := if m then { s.base with ms := x } else { s.base with ns := x } }

/-- `GridInfo.IsLocal()` -/
def State.isLocal (s : State) (g : Int) : Bool := OSet.contains intLess s.base.localGrids g

def State.setHandles (s : State) (m : Bool) (c : CID) (i : Nat) : State :=
  { s with handles := fun m' c' => if m' = m ∧ c' = c then i else s.handles m' c' }

/-! ### Merging edits -/

/-- `SyncEdits_` (ConnectivityComponent.cpp:127-203). -/
def sync (s : State) : Pr (Option State) :=
  .coll .world .max [if Comp.hasEdits s.base then 1 else 0] fun r =>
    if r = [0] then .ret (some s)
    else
      match Comp.localFlags s.base with
      | none => .ret none
      | some a => .coll .world .bor a fun flags =>
        match Comp.announce s.base flags with
        | none => .ret none
        | some calls => (barriers .world 1).bind fun _ => .ret (some { s with base := { s.base with
            ms := Comp.zero s.base.ms, ns := Comp.zero s.base.ns, log := s.base.log ++ calls } })

/-! ### Creating -/

/-- The constructor of `connectivity_m` or `connectivity_n` has two barriers (ConnectivityM.cpp:26-68,
ConnectivityN.cpp:26-65); the object is inserted (ConnectivityComponent.cpp:240-250, 318-327). -/
def createSide (m : Bool) (s : State) (c : CID) : Pr State :=
  if s.isLocal (sideGrid m c) then
    (barriers (.grid (s.comm (sideGrid m c))) 2).bind fun _ =>
      .ret ((s.setSide m ((s.side m).insert elemLess c 0)).setHandles m c 0)
  else .ret s

/-- The loop of `CreateConnectivities` (ConnectivityComponent.cpp:313-328). -/
def createLocals : List CID → State → Pr State
  | [], s => .ret s
  | c :: cs, s => (createSide true s c).bind fun s => (createSide false s c).bind fun s => createLocals cs s

/-- `CreateConnectivities` (ConnectivityComponent.cpp:277-357); `CreateConnectivity` (221-275) does the same for one
connectivity. -/
def createConns (debug : Bool) (ids : List CID) (s : State) : Pr (Option State) :=
  (barriers .world 1).bind fun _ =>
    if debug ∧ ¬ ids.all (Comp.valid s.base false) then .ret none
    else (sync s).bind fun r =>
      match r with
      | none => .ret none
      | some s =>
        if ¬ ids.all fun c => OSet.contains intLess s.base.grids (mGrid c) && OSet.contains intLess s.base.grids (nGrid c)
        then .ret none
        else (createLocals ids s).bind fun s => (barriers .world 1).bind fun _ => (barriers .world 1).bind fun _ =>
          .ret (some { s with base := { s.base with
            records := ids.foldl (OSet.insert elemLess) s.base.records
            log := s.base.log ++ Comp.each Comp.CREATE ids ids.length } })

/-! ### Destroying -/

/-- `Erase` from `LocalMs_` or `LocalNs_`; the destructor of what is erased has two barriers (ConnectivityM.cpp:36-77,
ConnectivityN.cpp:36-74). -/
def destroySide (m : Bool) (s : State) (c : CID) : Pr State :=
  (if (s.side m).contains elemLess c then barriers (.grid (s.comm (sideGrid m c))) 2 else .ret ()).bind fun _ =>
    .ret ((s.setSide m ((s.side m).erase elemLess c)).setHandles m c 0)

/-- The loop of `DestroyConnectivities` (ConnectivityComponent.cpp:486-489). -/
def destroyLocals : List CID → State → Pr State
  | [], s => .ret s
  | c :: cs, s => (destroySide true s c).bind fun s => (destroySide false s c).bind fun s => destroyLocals cs s

/-- `Editing(iDestroy)` before the reduction (ConnectivityComponent.cpp:442-449); `none` if an entry is missing. -/
def editing (s : State) (c : CID) : Option Nat :=
  if (s.isLocal (mGrid c) && !(s.side true).contains elemLess c) ||
      (s.isLocal (nGrid c) && !(s.side false).contains elemLess c) then none
  else some (if s.isLocal (mGrid c) ∧ s.handles true c ≠ 0 ∨ s.isLocal (nGrid c) ∧ s.handles false c ≠ 0 then 1 else 0)

/-- The checks of `DestroyConnectivities` with `OVK_DEBUG` (ConnectivityComponent.cpp:426-461); whether they
succeed. -/
def checkDestroy (ids : List CID) (s : State) : Pr Bool :=
  if ¬ ids.all (Comp.valid s.base true) then .ret false
  else match ids.mapM (editing s) with
    | none => .ret false
    | some a => .coll .world .lor a fun r => .ret (r.all fun x => x == 0)

/-- `DestroyConnectivities` (ConnectivityComponent.cpp:418-511); `DestroyConnectivity` (359-416) does the same for one
connectivity. -/
def destroyConns (debug : Bool) (ids : List CID) (s : State) : Pr (Option State) :=
  (barriers .world 1).bind fun _ =>
    (if debug then checkDestroy ids s else .ret true).bind fun ok =>
      if ok = false then .ret none
      else (sync s).bind fun r =>
        match r with
        | none => .ret none
        | some s => (barriers .world 1).bind fun _ =>
          (destroyLocals ids s).bind fun s => (barriers .world 1).bind fun _ =>
            .ret (some { s with base := { s.base with
              records := ids.foldl (OSet.erase elemLess) s.base.records
              log := s.base.log ++ Comp.each Comp.DESTROY ids ids.length } })

/-! ### Grids -/

/-- `GridEvent_.Trigger` for each of several grids and what the component does then (ConnectivityComponent.cpp:63-111).
-/
def gridEvent (debug : Bool) (flag : Nat) (ids : List Int) (s : State) : Pr (Option State) :=
  if ids = [] then .ret (some s) else destroyConns debug (Comp.dying (Comp.gridFlags flag ids) s.base) s

/-- Local grids are added to `LocalGrids_`. -/
def addGrids (mine : Nat → Bool) : List (Int × Nat) → State → State
  | [], s => s
  | (g, k) :: es, s => addGrids mine es (if mine k then
      { s with base := { s.base with localGrids := OSet.insert intLess s.base.localGrids g }
               comm := fun h => if h = g then k else s.comm h } else s)

/-- `CreateGrids` (src/core/Domain.cpp:130-211) for grids on given communicators, on a process that is a member of the
communicators `mine`. -/
def createGrids (debug : Bool) (mine : Nat → Bool) (es : List (Int × Nat)) (s : State) : Pr (Option State) :=
  (barriers .world 1).bind fun _ =>
    if debug ∧ ¬ (es.map Prod.fst).all (fun g => decide (0 ≤ g) && !OSet.contains intLess s.base.grids g) then .ret none
    else
      let t := addGrids mine es s
      (barriers .world 1).bind fun _ =>
        (gridEvent debug Comp.CREATE (es.map Prod.fst) { t with base := { t.base with
          grids := (es.map Prod.fst).foldl (OSet.insert intLess) t.base.grids } }).bind fun r =>
            match r with
            | none => .ret none
            | some s => (barriers .world 1).bind fun _ => .ret (some s)

/-- Local grids are destroyed (Domain.cpp:282-285); the destructor of a grid has two barriers (src/core/Grid.cpp:37-45, 167-174).
-/
def removeGrids : List Int → State → Pr State
  | [], s => .ret s
  | g :: gs, s =>
    (if s.isLocal g then barriers (.grid (s.comm g)) 2 else .ret ()).bind fun _ =>
      removeGrids gs { s with base := { s.base with localGrids := OSet.erase intLess s.base.localGrids g } }

/-- `DestroyGrids` (Domain.cpp:247-302). -/
def destroyGrids (debug : Bool) (ids : List Int) (s : State) : Pr (Option State) :=
  (barriers .world 1).bind fun _ =>
    if debug ∧ ¬ ids.all (fun g => decide (0 ≤ g) && OSet.contains intLess s.base.grids g) then .ret none
    else (gridEvent debug Comp.DESTROY ids s).bind fun r =>
      match r with
      | none => .ret none
      | some s => (barriers .world 1).bind fun _ => (removeGrids ids s).bind fun s => (barriers .world 1).bind fun _ =>
        .ret (some { s with base := { s.base with grids := ids.foldl (OSet.erase intLess) s.base.grids } })

/-! ### Editing -/

/-- Operations on `connectivity_m` and `connectivity_n` that change tables, and their events. -/
inductive Change
  | resizeM | extents | coords | interpCoefs | destinations | destinationRanks
  | resizeN | points | sources | sourceRanks
  deriving DecidableEq

/-- Whether it belongs to the M side. -/
def Change.onM : Change → Bool
  | .resizeM | .extents | .coords | .interpCoefs | .destinations | .destinationRanks => true
  | _ => false

/-- Events that are triggered (ConnectivityM.cpp:156-161, 181, 214, 246, 279, 312; ConnectivityN.cpp:130-133, 153, 185,
218). -/
def Change.events : Change → List Change
  | .resizeM => [.resizeM, .extents, .coords, .interpCoefs, .destinations, .destinationRanks]
  | .resizeN => [.resizeN, .points, .sources, .sourceRanks]
  | x => [x]

/-- The flag that the listener of an event adds (ConnectivityComponent.cpp:746-799; the values are in
src/core/ConnectivityComponent.h:15-26). -/
def Change.flag : Change → Nat
  | .resizeM => 1 <<< 2
  | .extents => 1 <<< 3
  | .coords => 1 <<< 4
  | .interpCoefs => 1 <<< 5
  | .destinations => 1 <<< 6
  | .destinationRanks => 1 <<< 6
  | .resizeN => 1 <<< 7
  | .points => 1 <<< 8
  | .sources => 1 <<< 9
  | .sourceRanks => 1 <<< 9

/-- `EditConnectivityM`, `EditConnectivityN` (ConnectivityComponent.cpp:564-596, 671-703), called by the processes of
the grid. -/
def edit (m : Bool) (c : CID) (s : State) : Pr (Option State) :=
  if s.isLocal (sideGrid m c) then
    if (s.side m).contains elemLess c then
      (if s.handles m c = 0 then barriers (.grid (s.comm (sideGrid m c))) 1 else .ret ()).bind fun _ =>
        .ret (some (s.setHandles m c (s.handles m c + 1)))
    else .ret none
  else .ret (some s)

/-- A handle is restored, or `RestoreConnectivityM`, `RestoreConnectivityN` (ConnectivityComponent.cpp:598-630, 705-737)
with `editor::Restore` (src/core/Editor.inl:38-58). -/
def restore (m : Bool) (c : CID) (s : State) : Pr (Option State) :=
  if s.isLocal (sideGrid m c) then
    if (s.side m).contains elemLess c = true ∧ s.handles m c ≠ 0 then
      (if s.handles m c = 1 then barriers (.grid (s.comm (sideGrid m c))) 1 else .ret ()).bind fun _ =>
        .ret (some (s.setHandles m c (s.handles m c - 1)))
    else .ret none
  else .ret (some s)

/-- `Resize` (ConnectivityM.cpp:99-165, ConnectivityN.cpp:96-137), or an edit session for a table such as the one
started by `EditExtents` (ConnectivityM.cpp:173-189): two barriers, the events, a barrier. -/
def change (x : Change) (c : CID) (s : State) : Pr (Option State) :=
  if s.isLocal (sideGrid x.onM c) then
    if (s.side x.onM).contains elemLess c then
      (barriers (.grid (s.comm (sideGrid x.onM c))) 2).bind fun _ =>
        let t := x.events.foldl (fun s e => s.setSide x.onM ((s.side x.onM).modify elemLess c (· ||| e.flag))) s
        (barriers (.grid (s.comm (sideGrid x.onM c))) 1).bind fun _ => .ret (some t)
    else .ret none
  else .ret (some s)

/-- `domain::EditComponent` (Domain.inl:38-65); `StartEdit` does nothing (ConnectivityComponent.cpp:115-119). -/
def editComponent (s : State) : Pr (Option State) :=
  (if s.comp = 0 then barriers .world 1 else .ret ()).bind fun _ => .ret (some { s with comp := s.comp + 1 })

/-- The handle of the component is restored (Domain.inl:51-59, ConnectivityComponent.cpp:121-125). -/
def restoreComponent (s : State) : Pr (Option State) :=
  if s.comp = 0 then .ret none
  else if s.comp = 1 then (sync { s with comp := 0 }).bind fun r =>
    match r with
    | none => .ret none
    | some s => (barriers .world 2).bind fun _ => .ret (some s)
  else .ret (some { s with comp := s.comp - 1 })

/-! ### Histories -/

/-- Calls, made by all processes, or by those of the grid. -/
inductive Act
  | createGrids (es : List (Int × Nat))
  | destroyGrids (ids : List Int)
  | createConns (ids : List CID)
  | destroyConns (ids : List CID)
  | edit (m : Bool) (c : CID)
  | restore (m : Bool) (c : CID)
  | change (x : Change) (c : CID)
  | editComponent
  | restoreComponent

/-- What process `p` executes for a call. -/
def callProg (mem : Nat → Fin n → Bool) (debug : Bool) (p : Fin n) (s : State) : Act → Pr (Option State)
  | .createGrids es => createGrids debug (fun k => mem k p) es s
  | .destroyGrids ids => destroyGrids debug ids s
  | .createConns ids => createConns debug ids s
  | .destroyConns ids => destroyConns debug ids s
  | .edit m c => edit m c s
  | .restore m c => restore m c s
  | .change x c => change x c s
  | .editComponent => editComponent s
  | .restoreComponent => restoreComponent s

def history (mem : Nat → Fin n → Bool) (debug : Bool) (p : Fin n) : List Act → State → Pr (Option State)
  | [], s => .ret (some s)
  | a :: as, s => (callProg mem debug p s a).bind fun r =>
      match r with
      | none => .ret none
      | some t => history mem debug p as t

end Ovk.CompC
