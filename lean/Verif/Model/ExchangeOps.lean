/-
Model of the life of the operations of an exchanger, on one process: src/core/Exchanger.cpp `Bind` (102-142), `Unbind`
(144-166), `OnComponentEvent_` (176-189), `OnConnectivityEvent_` (191-224), `Update_` (226-247), `CreateLocals_`
(249-269), `DestroyLocals_` (271-280), `ResetExchanges_` (779-813), `CreateCollect`/`DestroyCollect`/`Collect`
(868-1033), `CreateSend`/`DestroySend`/`Send` (1088-1195), `CreateReceive`/`DestroyReceive`/`Receive` (1250-1357),
`CreateDisperse`/`DestroyDisperse`/`Disperse` (1412-1553), and the events of `connectivity_component`
(ConnectivityComponent.cpp `SyncEdits_` 127-203, `CreateConnectivities` 277-357, `DestroyConnectivities` 418-511).

The contents of a connectivity `C`, the rank tables `R`, the maps `M` and the parameters of operations `P` are
arbitrary types; `make` stands for the constructors of the four kinds of maps and `sizes` for the lengths of the
buffers an operation allocates for a map when it is constructed (e.g. Send.cpp:93-107).  What `UpdateSourceDestRanks_`
computes is given with the call (C24, C84).
An operation holds a `floating_ref` to its map (e.g. Send.cpp:82).  The map is a member of the record the operation is
in, and assigning a new map to that member frees the cell the reference goes through (FloatingRef.inl:27-36, C79);
every map therefore has a number, and a reference is dangling if the member has another number.  In the same way an
operation is an object with a number; requests refer to the object (Send.cpp:44-47).
`none` is undefined behaviour or a violated precondition.
-/
namespace Ovk.XOps

abbrev Id := Int × Int

/-- The four tables of operations (Exchanger.hpp:148-164). -/
inductive Kind where
  | collect | send | recv | disperse
deriving DecidableEq

/-- Whether the table is in `local_m` or in `local_n`. -/
def Kind.sideM : Kind → Bool
  | .collect => true
  | .send => true
  | .recv => false
  | .disperse => false

/-- The first or the second map of its side. -/
def Kind.slot : Kind → Nat
  | .collect => 0
  | .send => 1
  | .recv => 0
  | .disperse => 1

/-- `Send` and `Receive` return a request, `Collect` and `Disperse` do not. -/
def Kind.request : Kind → Bool
  | .send => true
  | .recv => true
  | _ => false

/-- `connectivity_event_flags` (ConnectivityComponent.h:15-47). -/
structure Flags where
  create : Bool := false
  destroy : Bool := false
  resizeM : Bool := false
  extents : Bool := false
  coords : Bool := false
  interpCoefs : Bool := false
  dests : Bool := false
  resizeN : Bool := false
  points : Bool := false
  sources : Bool := false
deriving DecidableEq

/-- `FlagsMatchAny(ALL_EDITS)` (ConnectivityComponent.h:27-35). -/
def Flags.anyEdit (f : Flags) : Bool :=
  f.resizeM || f.extents || f.coords || f.interpCoefs || f.dests || f.resizeN || f.points || f.sources

/-- An operation: number of its map, parameters, lengths of its buffers. -/
structure Obj (P : Type) where
  num : Nat
  ref : Nat
  params : P
  bufs : List Nat

/-- `local_m` and `local_n` (Exchanger.hpp:148-164); only the kinds of its side are used. -/
structure Local (R M P : Type) where
  ranks : R
  maps : Kind → Nat × M
  ops : Kind → Int → Option (Obj P)

/-- `update_manifest` (Exchanger.hpp). -/
structure Manifest where
  create : List Id := []
  destroy : List Id := []
  ranks : List Id := []
  reset : List Id := []

/-- What a request refers to. -/
structure Req where
  kind : Kind
  id : Id
  op : Int
  num : Nat

structure State (C R M P : Type) where
  /-- the connectivities of the component, with the contents they have on this process -/
  comp : List (Id × C)
  bound : Bool
  /-- `LocalMs_` and `LocalNs_` -/
  locals : Bool → Id → Option (Local R M P)
  manifest : Manifest
  /-- numbers of maps and operations -/
  next : Nat
  /-- the requests returned so far -/
  reqs : List Req

/-- What does not change: which grids the process has, and the constructors of maps. -/
structure Env (C R M : Type) where
  isLocal : Int → Bool
  make : Kind → C → R → M
  sizes : M → List Nat
  /-- a default-constructed map and an empty rank table -/
  m0 : M
  r0 : R

variable {C R M P : Type}

/-- `Domain.GridIsLocal(MGridID)` or `(NGridID)`. -/
def Env.has (e : Env C R M) (side : Bool) (id : Id) : Bool := e.isLocal (if side then id.1 else id.2)

def State.content (s : State C R M P) (id : Id) : Option C := (s.comp.find? fun x => decide (x.1 = id)).map (·.2)

def State.setLocal (s : State C R M P) (side : Bool) (id : Id) (l : Option (Local R M P)) : State C R M P :=
  { s with locals := fun b i => if b = side ∧ i = id then l else s.locals b i }

/-- `LocalMs_.Insert(IDPair)` or `LocalNs_.Insert(IDPair)` with its `Connectivity` (258-265); the two maps of the side
get numbers. -/
def createLocal (e : Env C R M) (side : Bool) (s : State C R M P) (id : Id) : Option (State C R M P) :=
  if e.has side id then
    match s.locals side id, s.content id with
    | none, some _ =>
      some { s.setLocal side id (some
          { ranks := e.r0
            maps := fun k => (s.next + k.slot, e.m0)
            ops := fun _ _ => none }) with next := s.next + 2 }
    | _, _ => none
  else some s

/-- `CreateLocals_` (249-269). -/
def createLocals (e : Env C R M) (s : State C R M P) : Option (State C R M P) :=
  s.manifest.create.foldlM (fun s id => (createLocal e true s id).bind fun s => createLocal e false s id) s

/-- `DestroyLocals_` (271-280). -/
def destroyLocals (s : State C R M P) : State C R M P :=
  s.manifest.destroy.foldl (fun s id => (s.setLocal true id none).setLocal false id none) s

/-- The effect of `UpdateSourceDestRanks_` (282-777) on one record. -/
def updateRanks1 (e : Env C R M) (ranks : Bool → Id → R) (side : Bool) (s : State C R M P) (id : Id) :
    Option (State C R M P) :=
  if e.has side id then
    match s.locals side id with
    | some l => some (s.setLocal side id (some { l with ranks := ranks side id }))
    | none => none
  else some s

def updateRanks (e : Env C R M) (ranks : Bool → Id → R) (s : State C R M P) : Option (State C R M P) :=
  s.manifest.ranks.foldlM
    (fun s id => (updateRanks1 e ranks true s id).bind fun s => updateRanks1 e ranks false s id) s

/-- One record in `ResetExchanges_` (787-811): the operations are destroyed, the maps are replaced. -/
def reset1 (e : Env C R M) (side : Bool) (s : State C R M P) (id : Id) : Option (State C R M P) :=
  if e.has side id then
    match s.locals side id, s.content id with
    | some l, some c =>
      some { s.setLocal side id (some
          { l with
            maps := fun k => (s.next + k.slot, e.make k c l.ranks)
            ops := fun _ _ => none }) with next := s.next + 2 }
    | _, _ => none
  else some s

/-- `ResetExchanges_` (779-813). -/
def resetExchanges (e : Env C R M) (s : State C R M P) : Option (State C R M P) :=
  s.manifest.reset.foldlM (fun s id => (reset1 e true s id).bind fun s => reset1 e false s id) s

/-- `Update_` (226-247). -/
def update (e : Env C R M) (ranks : Bool → Id → R) (s : State C R M P) : Option (State C R M P) :=
  (createLocals e s).bind fun s => (updateRanks e ranks (destroyLocals s)).bind fun s =>
    (resetExchanges e s).map fun s => { s with manifest := {} }

/-- `OnConnectivityEvent_` (191-224). -/
def onEvent (e : Env C R M) (ranks : Bool → Id → R) (s : State C R M P) (id : Id) (f : Flags) (last : Bool) :
    Option (State C R M P) :=
  let m := s.manifest
  let m := if f.create then { m with create := m.create ++ [id] } else m
  let m := if f.destroy then { m with destroy := m.destroy ++ [id] } else m
  let m := if f.create || f.dests || f.sources then { m with ranks := m.ranks ++ [id] } else m
  let m := if f.create || f.anyEdit then { m with reset := m.reset ++ [id] } else m
  let s := { s with manifest := m }
  if last then update e ranks s else some s

/-- The loops that trigger events, with `--NumRemaining == 0` (e.g. ConnectivityComponent.cpp:351-355); nobody listens
if the exchanger is not bound. -/
def trigger (e : Env C R M) (ranks : Bool → Id → R) : State C R M P → List (Id × Flags) → Option (State C R M P)
  | s, [] => some s
  | s, (id, f) :: rest =>
    if s.bound then (onEvent e ranks s id f rest.isEmpty).bind fun s => trigger e ranks s rest else some s

/-- `Unbind` (144-166). -/
def unbind (s : State C R M P) : State C R M P := { s with bound := false, locals := fun _ _ => none }

/-- The calls of the user; `ranks` are the tables `UpdateSourceDestRanks_` would compute at that time. -/
inductive Call (C R P : Type) where
  | bind (ranks : Bool → Id → R)
  | unbind
  /-- the component is destroyed; the numbers of connectivities of a new one start with none -/
  | destroyComponent
  | createConns (cs : List (Id × C)) (ranks : Bool → Id → R)
  | destroyConns (ids : List Id)
  /-- end of a session: the new contents and the merged flags of the connectivities that were edited -/
  | edit (es : List ((Id × C) × Flags)) (ranks : Bool → Id → R)
  | createOp (k : Kind) (id : Id) (op : Int) (p : P)
  | destroyOp (k : Kind) (id : Id) (op : Int)
  /-- `Collect`, `Send`, `Receive`, `Disperse` -/
  | use (k : Kind) (id : Id) (op : Int)
  /-- waiting for the `i`-th request -/
  | wait (i : Nat)

/-- The record an operation is looked up in, with the preconditions checked by every call
(e.g. 1091-1112: bound, the connectivity exists, the grid is local). -/
def record (e : Env C R M) (s : State C R M P) (k : Kind) (id : Id) : Option (Local R M P) :=
  if s.bound && (s.content id).isSome && e.has k.sideM id then s.locals k.sideM id else none

/-- `CollectExists`, `SendExists`, `ReceiveExists`, `DisperseExists`. -/
def opExists (e : Env C R M) (s : State C R M P) (k : Kind) (id : Id) (op : Int) : Option Bool :=
  (record e s k id).map fun l => (l.ops k op).isSome

/-- What an operation works with when it is used: the map behind its reference and its parameters; its buffers must
have the lengths the map asks for. -/
def useOp (e : Env C R M) (s : State C R M P) (k : Kind) (id : Id) (op : Int) :
    Option (M × P × Nat) :=
  (record e s k id).bind fun l => (l.ops k op).bind fun o =>
    if o.ref = (l.maps k).1 ∧ o.bufs = e.sizes (l.maps k).2 then some ((l.maps k).2, o.params, o.num) else none

def Local.setOp (l : Local R M P) (k : Kind) (op : Int) (o : Option (Obj P)) : Local R M P :=
  { l with ops := fun k' i => if k' = k ∧ i = op then o else l.ops k' i }

/-- Whether the object a request refers to exists. -/
def Req.alive (s : State C R M P) (r : Req) : Bool :=
  match s.locals r.kind.sideM r.id with
  | some l => match l.ops r.kind r.op with
    | some o => o.num == r.num
    | none => false
  | none => false

/-- The contents after a session. -/
def replaced (es : List ((Id × C) × Flags)) (x : Id × C) : Id × C :=
  match es.find? fun y => decide (y.1.1 = x.1) with
  | some y => y.1
  | none => x

/-- The events of a session: connectivities with flags (ConnectivityComponent.cpp:177-187). -/
def editEvents (es : List ((Id × C) × Flags)) : List (Id × Flags) :=
  (es.filter fun y => decide (y.2 ≠ {})).map fun y => (y.1.1, y.2)

def step (e : Env C R M) (s : State C R M P) : Call C R P → Option (State C R M P)
  | .bind ranks =>
    if s.bound then none
    else
      let ids := s.comp.map (·.1)
      update e ranks { s with bound := true, manifest := ⟨ids, [], ids, ids⟩ }
  | .unbind => if s.bound then some (unbind s) else none
  | .destroyComponent => some { (if s.bound then unbind s else s) with comp := [] }
  | .createConns cs ranks =>
    trigger e ranks { s with comp := s.comp ++ cs } (cs.map fun x => (x.1, { create := true }))
  | .destroyConns ids =>
    (trigger e (fun _ _ => e.r0) s (ids.map fun i => (i, { destroy := true }))).map fun s =>
      { s with comp := s.comp.filter fun x => decide (x.1 ∉ ids) }
  | .edit es ranks => trigger e ranks { s with comp := s.comp.map (replaced es) } (editEvents es)
  | .createOp k id op p =>
    (record e s k id).bind fun l =>
      if (l.ops k op).isSome then none
      else some { s.setLocal k.sideM id (some (l.setOp k op (some
        ⟨s.next, (l.maps k).1, p, e.sizes (l.maps k).2⟩))) with next := s.next + 1 }
  | .destroyOp k id op =>
    (record e s k id).bind fun l =>
      if (l.ops k op).isSome then some (s.setLocal k.sideM id (some (l.setOp k op none))) else none
  | .use k id op =>
    (useOp e s k id op).map fun r => if k.request then { s with reqs := s.reqs ++ [⟨k, id, op, r.2.2⟩] } else s
  | .wait i => match s.reqs[i]? with
    | some r => if r.alive s then some s else none
    | none => none

/-- An exchanger that is not bound, and a component without connectivities. -/
def init : State C R M P := ⟨[], false, fun _ _ => none, {}, 0, []⟩

def run (e : Env C R M) (h : List (Call C R P)) : Option (State C R M P) := h.foldlM (step e) init

end Ovk.XOps
