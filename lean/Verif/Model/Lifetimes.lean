/-
Model of the order in which a domain and everything in it are destroyed or replaced, on one process:
src/core/Domain.cpp, Domain.hpp, Domain.inl, DomainBase.hpp, Grid.cpp, Geometry.cpp (and State.cpp, OverlapM.cpp,
OverlapN.cpp, ConnectivityM.cpp, ConnectivityN.cpp, whose destructors are alike), GeometryComponent.cpp (and the
three other components), Event.inl, FloatingRef.inl.

What destructors need is written as a multiset of resources: shared pointers to contexts, communicators, the
locations floating references go through, the addresses of grids, and the entries of events.  Using, freeing or
dereferencing what is not there is undefined and gives `none`.

Simplified: the members that own nothing another object refers to (names, dimensions, arrays, editors that are not
active, records of grids and geometries, partitions) are left out.  Elements of maps are destroyed in the order of
the list.  Assemblers and exchangers are not here (C83), so component events have no listeners.  A component seen
through its reference to the domain finds the domain object that owns it.
-/
import Mathlib.Data.Multiset.AddSub
import Mathlib.Data.Multiset.Filter

namespace Ovk.Lifetimes

/-- What must exist while it is used. -/
inductive Res where
  /-- one `std::shared_ptr<context>` to context `c`; the context exists while there is one -/
  | share (c : Nat)
  /-- an MPI communicator owned by a `comm` -/
  | comm (n : Nat)
  /-- the location owned by a `floating_ref_generator` (FloatingRef.hpp:24-45) -/
  | loc (n : Nat)
  /-- the object of a `grid` in the map of a domain -/
  | addr (n : Nat)
  /-- the entry of a listener that refers to location `t` in the event with location `e` -/
  | lis (e t : Nat)
deriving DecidableEq

/-- The messages destructors write (Geometry.cpp:46, GeometryComponent.cpp:46, Grid.cpp:42, Domain.cpp:49, 360,
Context.cpp:82). -/
inductive Msg where
  | destroying (d : Nat)
  | object (n : Nat)
  | component (n : Nat)
  | grid (n : Nat)
  | done (d : Nat)
  | context (c : Nat)
deriving DecidableEq

structure Mem where
  res : Multiset Res
  log : List Msg

/-- Needs `r`. -/
def use (r : Res) (m : Mem) : Option Mem := if r ∈ m.res then some m else none

/-- Ends `r`. -/
def free (r : Res) (m : Mem) : Option Mem := if r ∈ m.res then some { m with res := m.res.erase r } else none

/-- A call of `LogStatus`. -/
def say (x : Msg) (m : Mem) : Mem := { m with log := m.log ++ [x] }

/-- Ends what a moveable handle owns, if anything. -/
def freeOpt (k : Nat → Res) (o : Option Nat) (m : Mem) : Option Mem :=
  match o with
  | none => some m
  | some n => free (k n) m

/-- Ends a `std::shared_ptr<context>`; the last one ends the context (Context.cpp:75-86). -/
def dropShare (o : Option Nat) (m : Mem) : Option Mem :=
  match o with
  | none => some m
  | some c => (free (.share c) m).map fun m => if .share c ∈ m.res then m else say (.context c) m

/-- `MPI_Barrier` on an owned communicator; on the null communicator it is undefined. -/
def barrier (o : Option Nat) (m : Mem) : Option Mem :=
  match o with
  | none => none
  | some n => use (.comm n) m

/-- `event_listener_handle::Reset` (Event.inl:64-72, 36-38): goes through the event's location, then erases. -/
def resetHandle (h : Nat × Nat) (m : Mem) : Option Mem :=
  (use (.loc h.1) m).map fun m => { m with res := m.res.erase (.lis h.1 h.2) }

/-- Whether `r` is an entry of the event with location `e`. -/
def Res.entryOf (e : Nat) : Res → Bool
  | .lis e' _ => e' == e
  | _ => false

/-- Destruction of an `event` (Event.hpp:38-43): its entries go with it. -/
def freeEvent (e : Nat) (m : Mem) : Option Mem :=
  (free (.loc e) m).map fun m => { m with res := m.res.filter fun r => r.entryOf e = false }

def freeEventOpt (o : Option Nat) (m : Mem) : Option Mem :=
  match o with
  | none => some m
  | some e => freeEvent e m

/-- Does `f` to each element in turn. -/
def each {α : Type} (f : α → Mem → Option Mem) : List α → Mem → Option Mem
  | [], m => some m
  | a :: l, m => (f a m).bind (each f l)

/-- `if (Context_) ...`. -/
def whenSome (o : Option Nat) (f : Nat → Mem → Option Mem) (m : Mem) : Option Mem :=
  match o with
  | none => some m
  | some c => f c m

/-- A `grid` (Grid.hpp:41-45, 129-134).  `none` in `ctx`, `comm`, `loc` is the state after being moved from. -/
structure Grid where
  gid : Nat
  ctx : Option Nat
  comm : Option Nat
  loc : Option Nat
deriving DecidableEq

/-- `grid(grid &&)` (Grid.hpp:35, 91): what stays in the object moved from. -/
def Grid.movedFrom (g : Grid) : Grid := { g with ctx := none, comm := none, loc := none }

/-- `grid::~grid`, then its members, then `grid_base::~grid_base` and its members (Grid.cpp:167-174, 37-45;
Grid.hpp:129-134, 41-45).  `n` is what the message names. -/
def Grid.destroy (g : Grid) (n : Nat) (m : Mem) : Option Mem := do
  let m ← whenSome g.ctx (fun _ => barrier g.comm) m
  let m ← freeOpt .loc g.loc m
  let m ← whenSome g.ctx (fun c m => do
    let m ← barrier g.comm m
    let m ← use (.share c) m
    some (say (.grid n) m)) m
  let m ← freeOpt .comm g.comm m
  dropShare g.ctx m

/-- A `geometry`, `state`, `overlap_m`, `overlap_n`, `connectivity_m` or `connectivity_n` (Geometry.hpp:46-50,
128-143; State.hpp:99-103; OverlapM.hpp:43-49; OverlapN.hpp:44-50; ConnectivityM.hpp:43-49, 143-169;
ConnectivityN.hpp:43-49): shared context, address of the grid, view of the grid's communicator, location, and the
locations of its events. -/
structure Object where
  ctx : Option Nat
  grid : Nat
  comm : Nat
  loc : Option Nat
  events : List Nat
deriving DecidableEq

/-- What stays in an object moved from (Geometry.hpp:40, 85; FloatingRef.inl:14-18). -/
def Object.movedFrom (o : Object) : Object := { o with ctx := none, loc := none, events := [] }

/-- `geometry::~geometry`, its members, `geometry_base::~geometry_base` and its members (Geometry.cpp:93-100,
41-49). -/
def Object.destroy (o : Object) (n : Nat) (m : Mem) : Option Mem := do
  let m ← whenSome o.ctx (fun _ => use (.comm o.comm)) m
  let m ← each freeEvent o.events.reverse m
  let m ← freeOpt .loc o.loc m
  let m ← whenSome o.ctx (fun c m => do
    let m ← use (.comm o.comm) m
    let m ← use (.share c) m
    let m ← use (.addr o.grid) m
    some (say (.object n) m)) m
  dropShare o.ctx m

/-- Which object of a component: the pair of grids (equal for geometries and states) and the side. -/
structure Key where
  m : Nat
  n : Nat
  nSide : Bool
deriving DecidableEq

/-- The grid the object lives on. -/
def Key.on (k : Key) : Nat := if k.nSide then k.n else k.m

/-- `local`, `local_m`, `local_n` of the components (GeometryComponent.hpp:163-170, StateComponent.hpp:152-159,
OverlapComponent.hpp:174-197, ConnectivityComponent.hpp:181-205): the object, the location for its event flags,
and the listeners on its events. -/
structure Entry where
  key : Key
  obj : Object
  flagsLoc : Nat
  handles : List (Nat × Nat)
deriving DecidableEq

/-- Members of `local` are destroyed last to first: listeners, location, object. -/
def Entry.destroy (l : Entry) (m : Mem) : Option Mem := do
  let m ← each resetHandle l.handles.reverse m
  let m ← free (.loc l.flagsLoc) m
  l.obj.destroy l.flagsLoc m

/-- A component (GeometryComponent.hpp:82-85, 172-180; alike StateComponent.hpp, OverlapComponent.hpp,
ConnectivityComponent.hpp:98-101, 207-216): references to the context and to the domain, its location, the
listener on the domain's grid event, its objects and its event. -/
structure Comp where
  cid : Nat
  ctxRef : Option Nat
  domRef : Nat
  loc : Option Nat
  gridHandle : Option (Nat × Nat)
  entries : List Entry
  event : Option Nat
deriving DecidableEq

/-- What stays in a component moved from (FloatingRef.inl:67-73, Event.inl:42-48). -/
def Comp.movedFrom (c : Comp) : Comp :=
  { c with ctxRef := none, loc := none, gridHandle := none, entries := [], event := none }

/-- A `domain` (DomainBase.hpp:82-91, 160-167; Domain.hpp:131-133). -/
structure Domain where
  ctx : Option Nat
  comm : Option Nat
  loc : Option Nat
  grids : List (Nat × Grid)
  gridEvent : Option Nat
  comps : List Comp
  compEvent : Option Nat
deriving DecidableEq

/-- What stays in a domain moved from (Domain.hpp:88). -/
def Domain.movedFrom : Domain :=
  { ctx := none, comm := none, loc := none, grids := [], gridEvent := none, comps := [], compEvent := none }

def resetHandleOpt (o : Option (Nat × Nat)) (m : Mem) : Option Mem :=
  match o with
  | none => some m
  | some h => resetHandle h m

/-- Dereferences the component's reference to the domain, which must lead to `d`, and uses its communicator. -/
def Comp.domainBarrier (c : Comp) (d : Domain) (m : Mem) : Option Mem := do
  let m ← use (.loc c.domRef) m
  if d.loc = some c.domRef then barrier d.comm m else none

/-- Members of the component last to first, then `geometry_component_base::~geometry_component_base`
(GeometryComponent.hpp:172-180, GeometryComponent.cpp:40-50).  `d` is the domain as it is during the call. -/
def Comp.destroy (d : Domain) (c : Comp) (m : Mem) : Option Mem := do
  let m ← freeEventOpt c.event m
  let m ← each Entry.destroy c.entries m
  let m ← resetHandleOpt c.gridHandle m
  let m ← freeOpt .loc c.loc m
  whenSome c.ctxRef (fun x m => do
    let m ← c.domainBarrier d m
    let m ← use (.share x) m
    some (say (.component c.cid) m)) m

/-- Destruction of one value of `LocalGrids_`. -/
def destroyGridAt (p : Nat × Grid) (m : Mem) : Option Mem := do
  let m ← p.2.destroy p.1 m
  free (.addr p.1) m

/-- `domain::~domain`, its members, those of `domain_base`, `domain_base_1::~domain_base_1`, its members
(Domain.cpp:355-364, 43-52; Domain.hpp:131-133; DomainBase.hpp:160-167, 82-91). -/
def Domain.destroy (d : Domain) (n : Nat) (m : Mem) : Option Mem := do
  let m ← whenSome d.ctx (fun c m => do
    let m ← barrier d.comm m
    let m ← use (.share c) m
    some (say (.destroying n) m)) m
  let m ← freeEventOpt d.compEvent m
  let m ← each (Comp.destroy d) d.comps m
  let m ← freeEventOpt d.gridEvent m
  let m ← each destroyGridAt d.grids m
  let m ← freeOpt .loc d.loc m
  let m ← whenSome d.ctx (fun c m => do
    let m ← barrier d.comm m
    let m ← use (.share c) m
    some (say (.done n) m)) m
  let m ← freeOpt .comm d.comm m
  dropShare d.ctx m

/-- Writing through the location of a generator: it must not be null (FloatingRef.inl:27-36). -/
def needs (o : Option Nat) (m : Mem) : Option Mem := if o.isSome then some m else none

/-- `domain &operator=(domain &&) = default` (Domain.hpp:91; DomainBase.hpp:77, 106): bases first, then members in
the order they are declared.  Each assignment ends what the member had.  `floating_ref_generator::operator=`
writes through the location it took over (FloatingRef.inl:27-36), so the source must not have been moved from. -/
def Domain.assign (t s : Domain) (m : Mem) : Option Mem := do
  let m ← dropShare t.ctx m
  let m ← freeOpt .comm t.comm m
  let m ← freeOpt .loc t.loc m
  let m ← needs s.loc m
  let m ← each destroyGridAt t.grids m
  let m ← freeEventOpt t.gridEvent m
  let m ← needs s.gridEvent m
  let m ← each (Comp.destroy { s with comps := t.comps, compEvent := t.compEvent }) t.comps m
  let m ← freeEventOpt t.compEvent m
  needs s.compEvent m

instance (e : Nat) (m : Mem) : Decidable (∀ r ∈ m.res, match r with
    | .lis e' t => e' = e → Res.loc t ∈ m.res
    | _ => True) :=
  @Multiset.decidableForallMultiset _ _ _ fun r => match r with
    | .lis e' t => inferInstanceAs (Decidable (e' = e → Res.loc t ∈ m.res))
    | .share _ => .isTrue trivial
    | .comm _ => .isTrue trivial
    | .loc _ => .isTrue trivial
    | .addr _ => .isTrue trivial

/-- `event::Trigger` (Event.inl:18-25) of the grid event: every listener goes through its reference to the
component (GeometryComponent.cpp:59-68). -/
def trigger (e : Nat) (m : Mem) : Option Mem :=
  if ∀ r ∈ m.res, match r with
    | .lis e' t => e' = e → .loc t ∈ m.res
    | _ => True
  then some m else none

/-- Whether the object belongs to grid `g`. -/
def Key.touches (k : Key) (g : Nat) : Bool := k.m == g || k.n == g

/-- The component's reaction to the destruction of a grid (GeometryComponent.cpp:82-97, ConnectivityComponent.cpp
likewise): destroys the objects that belong to it.  Only components with an entry in the event are called. -/
def Comp.onGridDestroyed (g : Nat) (c : Comp) (m : Mem) : Option (Comp × Mem) :=
  match c.gridHandle with
  | none => some (c, m)
  | some h =>
    if .lis h.1 h.2 ∈ m.res then
      (each Entry.destroy (c.entries.filter fun l => l.key.touches g) m).map fun m =>
        ({ c with entries := c.entries.filter fun l => !l.key.touches g }, m)
    else some (c, m)

/-- All components in turn. -/
def onGridDestroyedAll (g : Nat) : List Comp → Mem → Option (List Comp × Mem)
  | [], m => some ([], m)
  | c :: l, m => do
    let (c, m) ← c.onGridDestroyed g m
    let (l, m) ← onGridDestroyedAll g l m
    some (c :: l, m)

/-- The program: memory, a counter for fresh things, the shared pointers the program itself holds, and its domain
variables (`none`: destroyed). -/
structure State where
  mem : Mem
  next : Nat
  user : List Nat
  vars : List (Option Domain)

def State.init : State := { mem := { res := 0, log := [] }, next := 0, user := [], vars := [] }

def Mem.add (m : Mem) (rs : Multiset Res) : Mem := { m with res := rs + m.res }

/-- `std::make_shared<context>(CreateContext(...))`. -/
def newContext (s : State) : State :=
  { s with mem := s.mem.add {.share s.next}, next := s.next + 1, user := s.next :: s.user }

/-- The program copies a shared pointer it holds. -/
def copyPointer (c : Nat) (s : State) : Option State :=
  (use (.share c) s.mem).map fun m => { s with mem := m.add {.share c}, user := c :: s.user }

/-- The program gives up a shared pointer it holds. -/
def releasePointer (c : Nat) (s : State) : Option State :=
  (dropShare (some c) s.mem).map fun m => { s with mem := m, user := s.user.erase c }

/-- `CreateDomain` (Domain.cpp:33-42, 337-353, 372-378): copies the shared pointer, duplicates the communicator. -/
def createDomain (c : Nat) (s : State) : Option State := do
  let m ← use (.share c) s.mem
  let n := s.next
  let d : Domain := { ctx := some c, comm := some n, loc := some n, grids := [], gridEvent := some (n + 1),
                      comps := [], compEvent := some (n + 2) }
  some { s with mem := m.add ({.share c, .comm n, .loc n, .loc (n + 1), .loc (n + 2)} : Multiset Res),
                next := n + 3, vars := s.vars ++ [some d] }

def State.dom (s : State) (v : Nat) : Option Domain := s.vars[v]?.join

def State.put (s : State) (v : Nat) (d : Option Domain) (m : Mem) : State :=
  { s with mem := m, vars := s.vars.set v d }

/-- `domain_base::CreateGrid` for a local grid (Domain.cpp:76-126): the grid is made, moved into the map, and the
object moved from is destroyed; then the event. -/
def createGrid (v g : Nat) (s : State) : Option State := do
  let d ← s.dom v
  let c ← d.ctx
  let e ← d.gridEvent
  let m ← barrier d.comm s.mem
  let m ← use (.share c) m
  let n := s.next
  let made : Grid := { gid := g, ctx := some c, comm := some n, loc := some n }
  let m := m.add ({.share c, .comm n, .loc n, .addr n} : Multiset Res)
  let m ← made.movedFrom.destroy n m
  let m ← trigger e m
  let s := { s with next := n + 1 }
  some (s.put v (some { d with grids := d.grids ++ [(n, made)] }) m)

/-- `domain_base::DestroyGrid` (Domain.cpp:213-245): the event first, then the grid if it is local. -/
def destroyGrid (v g : Nat) (s : State) : Option State := do
  let d ← s.dom v
  let c ← d.ctx
  let e ← d.gridEvent
  let m ← barrier d.comm s.mem
  let m ← trigger e m
  let (comps, m) ← onGridDestroyedAll g d.comps m
  let m ← barrier d.comm m
  let m ← use (.share c) m
  let m ← each destroyGridAt (d.grids.filter fun p => p.2.gid == g) m
  let m ← barrier d.comm m
  some (s.put v (some { d with comps := comps, grids := d.grids.filter fun p => !(p.2.gid == g) }) m)

/-- `domain::CreateComponent` (Domain.inl:6-27; GeometryComponent.cpp:30-38, 54-76; Component.hpp:24-28, 60-64):
the component registers with the domain's grid event; it is moved into the map, and the objects moved from are
destroyed. -/
def createComp (v x : Nat) (s : State) : Option State := do
  let d ← s.dom v
  let c ← d.ctx
  let l ← d.loc
  let e ← d.gridEvent
  let m ← barrier d.comm s.mem
  let m ← use (.share c) m
  let m ← use (.loc e) m
  let n := s.next
  let made : Comp := { cid := x, ctxRef := some c, domRef := l, loc := some n, gridHandle := some (e, n),
                       entries := [], event := some (n + 1) }
  let m := m.add ({.loc n, .loc (n + 1), .lis e n} : Multiset Res)
  let m ← made.movedFrom.destroy d m
  let m ← made.movedFrom.destroy d m
  let s := { s with next := n + 2 }
  some (s.put v (some { d with comps := d.comps ++ [made] }) m)

/-- `domain::DestroyComponent` (Domain.cpp:388-406). -/
def destroyComp (v x : Nat) (s : State) : Option State := do
  let d ← s.dom v
  let m ← barrier d.comm s.mem
  let m ← each (Comp.destroy d) (d.comps.filter fun c => c.cid == x) m
  let m ← barrier d.comm m
  some (s.put v (some { d with comps := d.comps.filter fun c => !(c.cid == x) }) m)

/-- `CreateGeometry` and alike for a local grid (GeometryComponent.cpp:186-234, 607-618; Geometry.cpp:33-39): the
object with `k` events is made with the domain's context, moved into the entry, which registers with its events;
the objects moved from are destroyed. -/
def createObject (v x : Nat) (key : Key) (k : Nat) (s : State) : Option State := do
  let d ← s.dom v
  let c ← d.ctx
  let comp ← d.comps.find? fun c => c.cid == x
  let m ← comp.domainBarrier d s.mem
  let m ← use (.share c) m
  let p ← d.grids.find? fun p => p.2.gid == key.on
  let gc ← p.2.comm
  let m ← use (.comm gc) m
  let n := s.next
  let events := List.range' (n + 2) k
  let made : Object := { ctx := some c, grid := p.1, comm := gc, loc := some n, events := events }
  let entry : Entry := { key := key, obj := made, flagsLoc := n + 1, handles := events.map fun e => (e, n + 1) }
  let m := m.add (.share c ::ₘ .loc n ::ₘ .loc (n + 1) ::ₘ
    ((events.map .loc : List Res) + (events.map fun e => .lis e (n + 1) : List Res)))
  let m ← made.movedFrom.destroy n m
  let m ← made.movedFrom.destroy n m
  let s := { s with next := n + 2 + k }
  let comps := d.comps.map fun c => if c.cid == x then { c with entries := c.entries ++ [entry] } else c
  some (s.put v (some { d with comps := comps }) m)

/-- `DestroyGeometry` and alike (GeometryComponent.cpp:319-366). -/
def destroyObject (v x : Nat) (key : Key) (s : State) : Option State := do
  let d ← s.dom v
  let comp ← d.comps.find? fun c => c.cid == x
  let m ← comp.domainBarrier d s.mem
  let m ← each Entry.destroy (comp.entries.filter fun l => l.key == key) m
  let m ← comp.domainBarrier d m
  let comps := d.comps.map fun c =>
    if c.cid == x then { c with entries := c.entries.filter fun l => !(l.key == key) } else c
  some (s.put v (some { d with comps := comps }) m)

/-- `domain NewVariable = std::move(v)` (Domain.hpp:88): locations are written through (FloatingRef.inl:14-18). -/
def moveNew (v : Nat) (s : State) : Option State := do
  let d ← s.dom v
  let _ ← d.loc
  let _ ← d.gridEvent
  let _ ← d.compEvent
  some { s with vars := s.vars.set v (some Domain.movedFrom) ++ [some d] }

/-- `w = std::move(v)` for two different variables. -/
def moveTo (v w : Nat) (s : State) : Option State := do
  let d ← s.dom v
  let t ← s.dom w
  let m ← t.assign d s.mem
  some { s with mem := m, vars := (s.vars.set w (some d)).set v (some Domain.movedFrom) }

/-- The variable goes out of scope. -/
def destroyDomain (v : Nat) (s : State) : Option State := do
  let d ← s.dom v
  let m ← d.destroy v s.mem
  some (s.put v none m)

/-- What a program can do. -/
inductive Op where
  | newContext
  | copyPointer (c : Nat)
  | releasePointer (c : Nat)
  | createDomain (c : Nat)
  | createGrid (v g : Nat)
  | destroyGrid (v g : Nat)
  | createComp (v x : Nat)
  | destroyComp (v x : Nat)
  | createObject (v x : Nat) (key : Key) (k : Nat)
  | destroyObject (v x : Nat) (key : Key)
  | moveNew (v : Nat)
  | moveTo (v w : Nat)
  | destroyDomain (v : Nat)
deriving DecidableEq

def step (s : State) : Op → Option State
  | .newContext => some (newContext s)
  | .copyPointer c => copyPointer c s
  | .releasePointer c => releasePointer c s
  | .createDomain c => createDomain c s
  | .createGrid v g => createGrid v g s
  | .destroyGrid v g => destroyGrid v g s
  | .createComp v x => createComp v x s
  | .destroyComp v x => destroyComp v x s
  | .createObject v x key k => createObject v x key k s
  | .destroyObject v x key => destroyObject v x key s
  | .moveNew v => moveNew v s
  | .moveTo v w => moveTo v w s
  | .destroyDomain v => destroyDomain v s

end Ovk.Lifetimes
