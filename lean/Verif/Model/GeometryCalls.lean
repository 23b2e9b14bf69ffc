/-
Model of the calls of a geometry component on all processes with their collective operations
(src/core/GeometryComponent.cpp, src/core/Geometry.cpp), and of the descriptions of geometries (`geometry_info`,
Geometry.cpp:302-333).  `state_component` (src/core/StateComponent.cpp) is the same code with other names, without
descriptions; `geo` says which of the two it is.  What a process stores and computes between the operations is taken
from `Verif.Model.GridData`; operations and communicators are those of `Verif.Model.ComponentCalls`.

Simplified: the operations while grids are constructed and described are left out (C109), listeners of the component do
not communicate, one component; the fields of a geometry are not modelled (C60, C61), a change of coordinates is a whole
edit session, and the exchange of halos in it (C20) is left out; `BroadcastAnySource` is one operation (C78); elements of
a map are destroyed in the order of the keys when it is cleared.  `none` as a result is a violated assertion (only with
`OVK_DEBUG`) or an access to a missing map entry.
-/
import Verif.Model.ComponentCalls
import Verif.Model.GridData

namespace Ovk.GeoC
open CompC (Comm member)
variable {n : Nat}

/-- Operations: those of `Verif.Model.ComponentCalls`; `BroadcastAnySource`, to which the source contributes 1 and its
values, others 0; `MPI_Bcast` with a root. -/
inductive Kind | base (k : CompC.Kind) | any | bcast (root : Nat)
  deriving DecidableEq

/-- What the operations deliver. -/
def comb : Kind → List (Fin n × List Nat) → Option (List Nat)
  | .base k, l => CompC.comb k l
  | .any, l =>
    match l.filter fun x => x.2.headD 0 == 1 with
    | [x] => some x.2.tail
    | _ => none
  | .bcast r, l => (l.find? fun x => x.1.val == r).map Prod.snd

abbrev Pr (α : Type) := VColl.Prog Comm Kind (List Nat) α

def barriers (c : Comm) : Nat → Pr Unit
  | 0 => .ret ()
  | i + 1 => .coll c (.base .barrier) [] fun _ => barriers c i

/-- `Type_` and `PeriodicLength_` of a geometry (src/core/Geometry.hpp:132-134), as numbers that stand for them. -/
structure Data where
  type : Nat
  length : List Nat
  deriving DecidableEq

/-- One process: domain and component as in `Verif.Model.GridData`; communicators of the local grids; the geometries in
`Locals_`; the descriptions in `GeometryRecords_`; `RefCount_` of the editors in `Locals_` and of the editor of the
component. -/
structure State where
  base : GData.Proc
  comm : Int → Nat
  data : Int → Data
  info : Int → Data
  handles : Int → Nat
  comp : Nat

def State.start : State := ⟨GData.Proc.start, fun _ => 0, fun _ => ⟨0, []⟩, fun _ => ⟨0, []⟩, fun _ => 0, 0⟩

/-- `GridIsLocal`, `GridInfo.IsLocal()` -/
def State.isLocal (s : State) (g : Int) : Bool := OSet.contains intLess s.base.localGrids g

def State.has (s : State) (g : Int) : Bool := s.base.locals.contains intLess g

def set {α : Type} (f : Int → α) (g : Int) (a : α) : Int → α := fun h => if h = g then a else f h

/-! ### Merging edits -/

/-- `SyncEdits_` (GeometryComponent.cpp:113-173). -/
def sync (s : State) : Pr (Option State) :=
  .coll .world (.base .max) [if GData.hasEdits s.base then 1 else 0] fun r =>
    if r = [0] then .ret (some s)
    else
      match GData.localFlags s.base with
      | none => .ret none
      | some a => .coll .world (.base .bor) a fun flags =>
        match GData.announce s.base flags with
        | none => .ret none
        | some calls => (barriers .world 1).bind fun _ => .ret (some { s with base := { s.base with
            locals := GData.zero s.base.locals, log := s.base.log ++ calls } })

/-! ### Creating -/

/-- The constructor of `geometry` has two barriers (Geometry.cpp:32-39, 51-91; State.cpp:26-33, 45-56); the geometry is
inserted into `Locals_` (GeometryComponent.cpp:273-287). -/
def createLocal (s : State) (g : Int) (d : Data) : Pr State :=
  if s.isLocal g then
    (barriers (.grid (s.comm g)) 2).bind fun _ => .ret { s with
      base := { s.base with locals := s.base.locals.insert intLess g 0 }
      data := set s.data g d
      handles := set s.handles g 0 }
  else .ret s

/-- The loop of `CreateGeometries` (GeometryComponent.cpp:273-287). -/
def createLocals : List (Int × Data) → State → Pr State
  | [], s => .ret s
  | e :: es, s => (createLocal s e.1 e.2).bind (createLocals es)

/-- The constructor of `geometry_info` (Geometry.cpp:302-327), on the process with a rank in the communicator of the
domain; `root` is whether its rank is 0 in the communicator of the grid. -/
def describe (root : Nat → Bool) (rank : Nat) (s : State) (g : Int) : Pr State :=
  let isRoot := s.isLocal g && root (s.comm g)
  .coll .world .any (if isRoot then [1, rank] else [0]) fun r =>
    .coll .world (.bcast (r.headD 0)) (if isRoot then [(s.data g).type] else []) fun t =>
      .coll .world (.bcast (r.headD 0)) (if isRoot then (s.data g).length else []) fun l =>
        .ret { s with info := set s.info g ⟨t.headD 0, l⟩ }

/-- The loop after it (GeometryComponent.cpp:289-296). -/
def describes (root : Nat → Bool) (rank : Nat) : List Int → State → Pr State
  | [], s => .ret s
  | g :: gs, s => (describe root rank s g).bind (describes root rank gs)

/-- `CreateGeometries` (GeometryComponent.cpp:236-317, StateComponent.cpp:233-309); `CreateGeometry` (186-234) does the
same for one geometry. -/
def create (geo debug : Bool) (root : Nat → Bool) (rank : Nat) (es : List (Int × Data)) (s : State) : Pr (Option State) :=
  (barriers .world 1).bind fun _ =>
    if debug ∧ ¬ (es.map Prod.fst).all (GData.valid s.base false) then .ret none
    else (sync s).bind fun r =>
      match r with
      | none => .ret none
      | some s =>
        if ¬ (es.map Prod.fst).all fun g => OSet.contains intLess s.base.grids g then .ret none
        else (createLocals es s).bind fun s =>
          (if geo then describes root rank (es.map Prod.fst) s else .ret s).bind fun s =>
            (barriers .world 1).bind fun _ => (barriers .world 1).bind fun _ =>
              .ret (some { s with base := { s.base with
                records := (es.map Prod.fst).foldl (OSet.insert intLess) s.base.records
                log := s.base.log ++ GData.each Comp.CREATE (es.map Prod.fst).length (es.map Prod.fst) 0 } })

/-! ### Destroying -/

/-- `Locals_.Erase`; the destructor of what is erased has two barriers (Geometry.cpp:41-49, 93-100;
State.cpp:35-43, 58-66). -/
def destroyLocal (s : State) (g : Int) : Pr State :=
  (if s.has g then barriers (.grid (s.comm g)) 2 else .ret ()).bind fun _ =>
    .ret { s with base := { s.base with locals := s.base.locals.erase intLess g }, handles := set s.handles g 0 }

/-- The loop of `DestroyGeometries` (GeometryComponent.cpp:422-425). -/
def destroyLocals : List Int → State → Pr State
  | [], s => .ret s
  | g :: gs, s => (destroyLocal s g).bind (destroyLocals gs)

/-- `Editing(iDestroy)` before the reduction (GeometryComponent.cpp:385-391, 460-466); `none` if an entry is missing. -/
def editing (s : State) (g : Int) : Option Nat :=
  if s.isLocal g then if s.has g then some (if s.handles g ≠ 0 then 1 else 0) else none else some 0

/-- The reduction of `Editing` and the assertions after it (GeometryComponent.cpp:383-399, 458-476). -/
def checkEditing (ids : List Int) (s : State) : Pr Bool :=
  match ids.mapM (editing s) with
  | none => .ret false
  | some a => .coll .world (.base .lor) a fun r => .ret (r.all fun x => x == 0)

/-- `DestroyGeometries` (GeometryComponent.cpp:366-444, StateComponent.cpp:358-436); `DestroyGeometry` (319-364) does the
same for one geometry. -/
def destroy (debug : Bool) (ids : List Int) (s : State) : Pr (Option State) :=
  (barriers .world 1).bind fun _ =>
    (if debug then (if ids.all (GData.valid s.base true) then checkEditing ids s else .ret false) else .ret true).bind
      fun ok =>
        if ok = false then .ret none
        else (sync s).bind fun r =>
          match r with
          | none => .ret none
          | some s => (barriers .world 1).bind fun _ =>
            (destroyLocals ids s).bind fun s => (barriers .world 1).bind fun _ =>
              .ret (some { s with base := { s.base with
                records := ids.foldl (OSet.erase intLess) s.base.records
                log := s.base.log ++ GData.each Comp.DESTROY ids.length ids 0 } })

/-- `Locals_.Clear()` (GeometryComponent.cpp:488). -/
def clearLocals : List Int → State → Pr Unit
  | [], _ => .ret ()
  | g :: gs, s => (barriers (.grid (s.comm g)) 2).bind fun _ => clearLocals gs s

/-- `ClearGeometries` (GeometryComponent.cpp:446-497, StateComponent.cpp:438-489). -/
def clear (debug : Bool) (s : State) : Pr (Option State) :=
  (barriers .world 1).bind fun _ =>
    (if debug then checkEditing s.base.records s else .ret true).bind fun ok =>
      if ok = false then .ret none
      else (sync s).bind fun r =>
        match r with
        | none => .ret none
        | some s => (barriers .world 1).bind fun _ =>
          (clearLocals s.base.locals.keys s).bind fun _ => (barriers .world 1).bind fun _ =>
            .ret (some { s with
              base := { s.base with
                locals := ⟨[], []⟩
                records := []
                log := s.base.log ++ GData.each Comp.DESTROY s.base.records.length s.base.records 0 }
              handles := fun _ => 0 })

/-! ### Grids -/

/-- `GridEvent_.Trigger` for each of several grids and what the component does then (GeometryComponent.cpp:58-99). -/
def gridEvent (debug : Bool) (flag : Nat) (ids : List Int) (s : State) : Pr (Option State) :=
  if ids = [] then .ret (some s) else destroy debug (GData.dying (Comp.gridFlags flag ids)) s

/-- Local grids are added to `LocalGrids_`. -/
def addGrids (mine : Nat → Bool) : List (Int × Nat) → State → State
  | [], s => s
  | (g, k) :: es, s => addGrids mine es (if mine k then
      { s with base := { s.base with localGrids := OSet.insert intLess s.base.localGrids g }, comm := set s.comm g k }
      else s)

/-- `CreateGrids` (src/core/Domain.cpp:130-211) for grids on given communicators, on a process that is a member of the
communicators `mine`. -/
def createGrids (debug : Bool) (mine : Nat → Bool) (es : List (Int × Nat)) (s : State) : Pr (Option State) :=
  (barriers .world 1).bind fun _ =>
    if debug ∧ ¬ (es.map Prod.fst).all (fun g => decide (0 ≤ g) && !OSet.contains intLess s.base.grids g) then .ret none
    else
      let t := addGrids mine es s
      (barriers .world 1).bind fun _ =>
        (gridEvent debug Comp.CREATE (es.map Prod.fst) { t with base := { t.base with
          grids := (es.map Prod.fst).foldl (OSet.insert intLess) t.base.grids } }).bind fun r =>
            match r with
            | none => .ret none
            | some s => (barriers .world 1).bind fun _ => .ret (some s)

/-- Local grids are destroyed (Domain.cpp:282-285); the destructor of a grid has two barriers (src/core/Grid.cpp:37-45,
167-174). -/
def removeGrids : List Int → State → Pr State
  | [], s => .ret s
  | g :: gs, s =>
    (if s.isLocal g then barriers (.grid (s.comm g)) 2 else .ret ()).bind fun _ =>
      removeGrids gs { s with base := { s.base with localGrids := OSet.erase intLess s.base.localGrids g } }

/-- `DestroyGrids` (Domain.cpp:247-302). -/
def destroyGrids (debug : Bool) (ids : List Int) (s : State) : Pr (Option State) :=
  (barriers .world 1).bind fun _ =>
    if debug ∧ ¬ ids.all (fun g => decide (0 ≤ g) && OSet.contains intLess s.base.grids g) then .ret none
    else (gridEvent debug Comp.DESTROY ids s).bind fun r =>
      match r with
      | none => .ret none
      | some s => (barriers .world 1).bind fun _ => (removeGrids ids s).bind fun s => (barriers .world 1).bind fun _ =>
        .ret (some { s with base := { s.base with grids := ids.foldl (OSet.erase intLess) s.base.grids } })

/-! ### Editing -/

/-- `EditGeometry` (GeometryComponent.cpp:543-580), called by the processes of the grid. -/
def edit (g : Int) (s : State) : Pr (Option State) :=
  if s.isLocal g then
    if s.has g then
      (if s.handles g = 0 then barriers (.grid (s.comm g)) 1 else .ret ()).bind fun _ =>
        .ret (some { s with handles := set s.handles g (s.handles g + 1) })
    else .ret none
  else .ret (some s)

/-- A handle is restored, or `RestoreGeometry` (GeometryComponent.cpp:582-605) with `editor::Restore`
(src/core/Editor.inl:38-58). -/
def restore (g : Int) (s : State) : Pr (Option State) :=
  if s.isLocal g then
    if s.has g = true ∧ s.handles g ≠ 0 then
      (if s.handles g = 1 then barriers (.grid (s.comm g)) 1 else .ret ()).bind fun _ =>
        .ret (some { s with handles := set s.handles g (s.handles g - 1) })
    else .ret none
  else .ret (some s)

/-- The listener that adds a flag (GeometryComponent.cpp:607-618). -/
def mark (s : State) (g : Int) : State :=
  { s with base := { s.base with locals := s.base.locals.modify intLess g (· ||| GData.EDIT) } }

/-- An edit session for the coordinates (Geometry.cpp:145-279), with two barriers before the event and two after it, or
for the flags of a state (State.cpp:94-129), with one after it. -/
def change (geo : Bool) (g : Int) (s : State) : Pr (Option State) :=
  if s.isLocal g then
    if s.has g then
      (barriers (.grid (s.comm g)) 2).bind fun _ =>
        (barriers (.grid (s.comm g)) (if geo then 2 else 1)).bind fun _ => .ret (some (mark s g))
    else .ret none
  else .ret (some s)

/-- `SetPeriodicLength` (Geometry.cpp:122-137), called by the processes of the grid; no operation. -/
def setLength (g : Int) (l : List Nat) (s : State) : Pr (Option State) :=
  if s.isLocal g then
    if s.has g then .ret (some (mark { s with data := set s.data g { s.data g with length := l } } g)) else .ret none
  else .ret (some s)

/-- `domain::EditComponent` (src/core/Domain.inl:38-65); `StartEdit` does nothing (GeometryComponent.cpp:101-105). -/
def editComponent (s : State) : Pr (Option State) :=
  (if s.comp = 0 then barriers .world 1 else .ret ()).bind fun _ => .ret (some { s with comp := s.comp + 1 })

/-- The handle of the component is restored (Domain.inl:51-59, GeometryComponent.cpp:107-111). -/
def restoreComponent (s : State) : Pr (Option State) :=
  if s.comp = 0 then .ret none
  else if s.comp = 1 then (sync { s with comp := 0 }).bind fun r =>
    match r with
    | none => .ret none
    | some s => (barriers .world 2).bind fun _ => .ret (some s)
  else .ret (some { s with comp := s.comp - 1 })

/-! ### Histories -/

/-- Calls, made by all processes, or by those of the grid. -/
inductive Act
  | createGrids (es : List (Int × Nat))
  | destroyGrids (ids : List Int)
  | create (es : List (Int × Data))
  | destroy (ids : List Int)
  | clear
  | edit (g : Int)
  | restore (g : Int)
  | change (g : Int)
  | setLength (g : Int) (l : List Nat)
  | editComponent
  | restoreComponent

/-- What process `p` executes for a call. -/
def callProg (mem root : Nat → Fin n → Bool) (geo debug : Bool) (p : Fin n) (s : State) : Act → Pr (Option State)
  | .createGrids es => createGrids debug (fun k => mem k p) es s
  | .destroyGrids ids => destroyGrids debug ids s
  | .create es => create geo debug (fun k => root k p) p.val es s
  | .destroy ids => destroy debug ids s
  | .clear => clear debug s
  | .edit g => edit g s
  | .restore g => restore g s
  | .change g => change geo g s
  | .setLength g l => setLength g l s
  | .editComponent => editComponent s
  | .restoreComponent => restoreComponent s

def history (mem root : Nat → Fin n → Bool) (geo debug : Bool) (p : Fin n) : List Act → State → Pr (Option State)
  | [], s => .ret (some s)
  | a :: as, s => (callProg mem root geo debug p s a).bind fun r =>
      match r with
      | none => .ret none
      | some t => history mem root geo debug p as t

end Ovk.GeoC
