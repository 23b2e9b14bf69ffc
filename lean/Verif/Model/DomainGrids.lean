/-
Model of creating and destroying the grids of a domain on all processes (src/core/Domain.cpp:76-302), of the
description of a grid that every process gets (`grid_info::grid_info`, src/core/Grid.cpp:314-354), and of the collective
operations in the constructor and the destructor of a grid (src/core/Grid.cpp:49-174).

Simplified: the operations in the constructor of a grid up to its last barrier are a number of collective operations on
the communicator of the grid (their effects are the subjects of C08, C19, C51, C106); a string from an unknown source
(src/core/CommunicationOps.cpp:51-71) is delivered by one operation; listeners do not communicate (C30, C95); text
that is printed is left out.  A grid is reduced to the parameters it was created with.  `none` as a result is a violated
assertion (only with `OVK_DEBUG`) or an access to a missing map entry.
-/
import Verif.Model.CollectiveValues
import Verif.Model.Container
import Verif.Model.Cart

namespace Ovk.DomG
variable {n : Nat}

/-- `Domain.Comm()` and communicators of grids. -/
inductive Comm | world | grid (k : Nat)
  deriving DecidableEq

inductive Kind
  /-- `MPI_Barrier` -/
  | barrier
  /-- `MPI_Allreduce` with `MPI_LOR` -/
  | lor
  /-- `BroadcastStringAnySource` (CommunicationOps.cpp:51-71) -/
  | anyString
  /-- `BroadcastAnySource` (CommunicationOps.cpp:37-49) of an integer -/
  | anyInt
  /-- `MPI_Bcast` -/
  | bcast (root : Nat)
  /-- `MPI_Comm_dup` (Comm.cpp:21-28) -/
  | dup
  /-- operations while a grid is constructed -/
  | build (i : Nat)
  deriving DecidableEq

/-- What is sent; a name is its list of characters. -/
inductive Val
  | bool (b : Bool) | nat (k : Nat) | str (s : List Char) | ints (l : List Int) | bools (l : List Bool)
  | storage (s : PStorage)
  deriving DecidableEq

/-- Interpretation of what was received, `none` is memory that was not written. -/
def Val.toBool : Option Val → Bool
  | some (.bool b) => b
  | _ => false
def Val.toNat : Option Val → Nat
  | some (.nat k) => k
  | _ => 0
def Val.toStr : Option Val → List Char
  | some (.str s) => s
  | _ => []
def Val.toInts : Option Val → List Int
  | some (.ints l) => l
  | _ => []
def Val.toBools : Option Val → List Bool
  | some (.bools l) => l
  | _ => []
def Val.toStorage : Option Val → PStorage
  | some (.storage s) => s
  | _ => .unique

/-- What the operations deliver.  Broadcasts from an unknown source complete if there is exactly one (C78: they hang
without one, and mix up later messages with several); a broadcast delivers what the root has. -/
def comb : Kind → List (Fin n × Option Val) → Option (Option Val)
  | .barrier, _ => some none
  | .lor, l => some (some (.bool (l.any fun x => Val.toBool x.2)))
  | .anyString, l => match l.filterMap Prod.snd with
    | [v] => some (some v)
    | _ => none
  | .anyInt, l => match l.filterMap Prod.snd with
    | [v] => some (some v)
    | _ => none
  | .bcast root, l => (l.find? fun x => decide (x.1.val = root)).map Prod.snd
  | .dup, _ => some none
  | .build _, _ => some none

abbrev Pr (α : Type) := VColl.Prog Comm Kind (Option Val) α

/-- An operation that delivers nothing. -/
def plain (c : Comm) (kind : Kind) : Pr Unit := .coll c kind none fun _ => .ret ()

def plains (c : Comm) : List Kind → Pr Unit
  | [] => .ret ()
  | l :: ls => (plain c l).bind fun _ => plains c ls

/-- `cart` (src/core/Cart.inl:6-19) with all `MAX_DIMS` entries of its tuples. -/
structure CartData where
  dims : Nat
  beg : List Int
  fin : List Int
  periodic : List Bool
  storage : PStorage
  deriving DecidableEq

/-- `CartPointToCell` (src/core/Decomp.cpp:121-139): in the dimensions of the grid the end is one less unless periodic
with unique storage; begin 0 and end 1 in the others. -/
def CartData.cells (c : CartData) : CartData where
  dims := c.dims
  beg := c.beg.mapIdx fun i x => if i < c.dims then x else 0
  fin := c.fin.mapIdx fun i x => if i < c.dims then
      if c.periodic[i]? = some true ∧ c.storage = .unique then x else x - 1
    else 1
  periodic := c.periodic
  storage := .unique

/-- `grid::params` (src/core/Grid.hpp); `comm` is its communicator. -/
structure Params where
  name : List Char
  comm : Nat
  cart : CartData
  deriving DecidableEq

/-- `grid_info` (src/core/Grid.hpp). -/
structure Info where
  isLocal : Bool
  rootRank : Nat
  name : List Char
  cart : CartData
  cellCart : CartData
  deriving DecidableEq

/-- Communicators: members, their ranks, number of members. -/
structure Comms (n : Nat) where
  mem : Nat → Fin n → Bool
  rank : Nat → Fin n → Nat
  size : Nat → Nat

def Comms.member (C : Comms n) : Comm → Fin n → Bool
  | .world, _ => true
  | .grid k, p => C.mem k p

/-- One process: `GridRecords_`, `LocalGrids_` (src/core/DomainBase.hpp:160-170), and the calls of listeners with grid
ID, whether the grid is created, and `LastInSequence`. -/
structure Proc where
  records : OMap Int Info
  locals : OMap Int Params
  log : List (Int × Bool × Bool)

def Proc.start : Proc := ⟨⟨[], []⟩, ⟨[], []⟩, []⟩

/-- What a call depends on apart from its arguments: `OVK_DEBUG`, the status level on entry, the status threshold of
the process (src/core/Logger.hpp:122-124), the number of operations while a grid is constructed. -/
structure Env where
  debug : Bool
  level : Int
  threshold : Int
  ops : Nat

/-- `LoggingStatus()` (Logger.hpp:122) with the level increased by `d`. -/
def Env.logs (E : Env) (d : Int) : Bool := decide (E.level + d ≤ E.threshold)

/-! ### Grids -/

/-- The constructor of a grid (Grid.cpp:49-165), called with the status level increased by one: the communicator is
duplicated (50), operations, a barrier (92), and when the decomposition is printed (119-161) one barrier and one for
each process. -/
def construct (C : Comms n) (E : Env) (x : Params) : Pr Unit :=
  plains (.grid x.comm) ([.dup] ++ (List.range E.ops).map .build ++ [.barrier] ++
    if E.logs 1 && E.logs 11 then List.replicate (C.size x.comm + 1) .barrier else [])

/-- `BroadcastString` (CommunicationOps.cpp:20-35). -/
def broadcastString (s : List Char) (root : Nat) : Pr (List Char) :=
  .coll .world (.bcast root) (some (.nat s.length)) fun len =>
    .coll .world (.bcast root) (some (.str s)) fun t => .ret ((Val.toStr t).take (Val.toNat len))

/-- `grid_info::grid_info` (Grid.cpp:314-354) on process `p`. -/
def gridInfo (C : Comms n) (p : Fin n) (g : Option Params) : Pr Info :=
  let isRoot := g.any fun x => decide (C.rank x.comm p = 0)
  let mine := if isRoot then g else none
  .coll .world .anyInt (if isRoot then some (.nat p.val) else none) fun r =>
    let root := Val.toNat r
    (broadcastString ((mine.map Params.name).getD []) root).bind fun name =>
      .coll .world (.bcast root) (mine.map fun x => .nat x.cart.dims) fun dims =>
        .coll .world (.bcast root) (mine.map fun x => .ints x.cart.beg) fun beg =>
          .coll .world (.bcast root) (mine.map fun x => .ints x.cart.fin) fun fin =>
            .coll .world (.bcast root) (mine.map fun x => .bools x.cart.periodic) fun periodic =>
              .coll .world (.bcast root) (mine.map fun x => .storage x.cart.storage) fun storage =>
                let cart : CartData := ⟨Val.toNat dims, Val.toInts beg, Val.toInts fin, Val.toBools periodic,
                  Val.toStorage storage⟩
                .ret ⟨g.isSome, root, name, cart, cart.cells⟩

/-! ### Creating grids -/

/-- The checks with `OVK_DEBUG` (Domain.cpp:146-156, and 80-92 for one grid); whether they succeed. -/
def checkCreate (s : Proc) : List (Int × Option Params) → Pr Bool
  | [] => .ret true
  | (id, x) :: es =>
    if id < 0 ∨ s.records.contains intLess id = true then .ret false
    else .coll .world .lor (some (.bool x.isSome)) fun r =>
      if Val.toBool r then checkCreate s es else .ret false

/-- The names for the output (Domain.cpp:158-171, 94-105). -/
def nameGrids (C : Comms n) (p : Fin n) : List (Int × Option Params) → Pr Unit
  | [] => .ret ()
  | (_, x) :: es =>
    let isRoot := x.any fun y => decide (C.rank y.comm p = 0)
    .coll .world .anyString (if isRoot then x.map fun y => .str y.name else none) fun _ => nameGrids C p es

/-- The grid is constructed if it is local (Domain.cpp:108-113, 176-179). -/
def createLocal (C : Comms n) (E : Env) (id : Int) (x : Option Params) (s : Proc) : Pr Proc :=
  match x with
  | none => .ret s
  | some y => (construct C E y).bind fun _ => .ret { s with locals := s.locals.insert intLess id y }

/-- The local grids are constructed (Domain.cpp:174-180). -/
def constructAll (C : Comms n) (E : Env) : List (Int × Option Params) → Proc → Pr Proc
  | [], s => .ret s
  | (id, x) :: es, s => (createLocal C E id x s).bind fun t => constructAll C E es t

/-- Descriptions of all grids (Domain.cpp:182-190). -/
def describeAll (C : Comms n) (p : Fin n) : List (Int × Option Params) → Proc → Pr (Option Proc)
  | [], s => .ret (some s)
  | (id, x) :: es, s =>
    let go := fun (g : Option Params) => (gridInfo C p g).bind fun i =>
      describeAll C p es { s with records := s.records.insert intLess id i }
    if x.isSome then
      match s.locals.get? intLess id with
      | none => .ret none
      | some g => go (some g)
    else go none

/-- Listeners are called for every ID, the last one with `LastInSequence` (Domain.cpp:204-207, 261-264). -/
def announce (created : Bool) : List Int → List (Int × Bool × Bool)
  | [] => []
  | id :: ids => (id, created, ids.isEmpty) :: announce created ids

/-- `CreateGrids` (Domain.cpp:130-211) on process `p`. -/
def createGrids (C : Comms n) (E : Env) (p : Fin n) (es : List (Int × Option Params)) (s : Proc) : Pr (Option Proc) :=
  (plain .world .barrier).bind fun _ =>
    (if E.debug then checkCreate s es else .ret true).bind fun ok =>
      if ok = false then .ret none
      else
        (if E.logs 0 then nameGrids C p es else .ret ()).bind fun _ =>
          (constructAll C E es s).bind fun s' =>
            (describeAll C p es s').bind fun r =>
              match r with
              | none => .ret none
              | some t => (plain .world .barrier).bind fun _ =>
                (plain .world .barrier).bind fun _ =>
                  .ret (some { t with log := t.log ++ announce true (es.map Prod.fst) })

/-- `CreateGrid` (Domain.cpp:76-128) on process `p`. -/
def createGrid (C : Comms n) (E : Env) (p : Fin n) (id : Int) (x : Option Params) (s : Proc) : Pr (Option Proc) :=
  (plain .world .barrier).bind fun _ =>
    (if E.debug then checkCreate s [(id, x)] else .ret true).bind fun ok =>
      if ok = false then .ret none
      else
        (if E.logs 0 then nameGrids C p [(id, x)] else .ret ()).bind fun _ =>
          (createLocal C E id x s).bind fun s' =>
            (gridInfo C p x).bind fun i =>
              (plain .world .barrier).bind fun _ =>
                (plain .world .barrier).bind fun _ =>
                  .ret (some { s' with
                    records := s'.records.insert intLess id i
                    log := s'.log ++ [(id, true, true)] })

/-! ### Destroying grids -/

/-- The grid is destroyed if it is local; the destructor has two barriers (Grid.cpp:167-174 and that of the base class,
37-45). -/
def destroyLocal (id : Int) (s : Proc) : Pr Unit :=
  match s.locals.find? intLess id with
  | none => .ret ()
  | some e => plains (.grid e.2.comm) [.barrier, .barrier]

/-- Local grids are destroyed (Domain.cpp:282-285). -/
def destroyAll : List Int → Proc → Pr Proc
  | [], s => .ret s
  | id :: ids, s => (destroyLocal id s).bind fun _ => destroyAll ids { s with locals := s.locals.erase intLess id }

/-- `DestroyGrids` (Domain.cpp:247-302) on any process; the names for the output are looked up (271-279). -/
def destroyGrids (E : Env) (ids : List Int) (s : Proc) : Pr (Option Proc) :=
  (plain .world .barrier).bind fun _ =>
    if E.debug ∧ ¬ ∀ id ∈ ids, 0 ≤ id ∧ s.records.contains intLess id = true then .ret none
    else
      (plain .world .barrier).bind fun _ =>
        if E.logs 0 ∧ ¬ ∀ id ∈ ids, s.records.contains intLess id = true then .ret none
        else
          (destroyAll ids s).bind fun t =>
            (plain .world .barrier).bind fun _ =>
              .ret (some { t with
                records := ids.foldl (fun m id => m.erase intLess id) t.records
                log := s.log ++ announce false ids })

/-- `DestroyGrid` (Domain.cpp:213-245). -/
def destroyGrid (E : Env) (id : Int) (s : Proc) : Pr (Option Proc) :=
  (plain .world .barrier).bind fun _ =>
    if E.debug ∧ ¬ (0 ≤ id ∧ s.records.contains intLess id = true) then .ret none
    else
      (plain .world .barrier).bind fun _ =>
        if E.logs 0 ∧ ¬ s.records.contains intLess id = true then .ret none
        else
          (destroyLocal id s).bind fun _ =>
            (plain .world .barrier).bind fun _ =>
              .ret (some ⟨s.records.erase intLess id, s.locals.erase intLess id, s.log ++ [(id, false, true)]⟩)

/-! ### Histories -/

/-- A call, made by all processes; every process has its own parameters. -/
inductive Act (n : Nat)
  | createGrids (es : List (Int × (Fin n → Option Params)))
  | createGrid (id : Int) (x : Fin n → Option Params)
  | destroyGrids (ids : List Int)
  | destroyGrid (id : Int)

structure Call (n : Nat) where
  level : Int
  threshold : Fin n → Int
  act : Act n

/-- What process `p` executes for a call. -/
def callProg (C : Comms n) (debug : Bool) (ops : Nat) (p : Fin n) (c : Call n) (s : Proc) : Pr (Option Proc) :=
  let E : Env := ⟨debug, c.level, c.threshold p, ops⟩
  match c.act with
  | .createGrids es => createGrids C E p (es.map fun e => (e.1, e.2 p)) s
  | .createGrid id x => createGrid C E p id (x p) s
  | .destroyGrids ids => destroyGrids E ids s
  | .destroyGrid id => destroyGrid E id s

def history (C : Comms n) (debug : Bool) (ops : Nat) (p : Fin n) : List (Call n) → Proc → Pr (Option Proc)
  | [], s => .ret (some s)
  | c :: cs, s => (callProg C debug ops p c s).bind fun r =>
      match r with
      | none => .ret none
      | some t => history C debug ops p cs t

end Ovk.DomG
