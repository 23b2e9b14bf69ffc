import Verif.Model.Component

/-!
# Geometry and state components

Model of the record keeping of `geometry_component` (src/core/GeometryComponent.cpp) over a domain whose grids come and
go (src/core/Domain.cpp).  `state_component` (src/core/StateComponent.cpp 73-500) is the same code with other names.
Calls are collective; `P` processes.  A geometry is reduced to its event flags.

Simplified: listeners neither edit nor create nor destroy anything while being called; nothing is being edited while it
is destroyed (the assertion at 383-399); logging and barriers have no effect; `GeometryInfo` is not modelled.
`none` is a violated `OVK_DEBUG_ASSERT` or an access to a missing map entry.  Calls by the user that violate an
assertion are `none` with and without `OVK_DEBUG`; the component's own call of `DestroyGeometries` is checked only if
`debug` is set.
-/
namespace Ovk.GData
open Comp (everyone gridFlags CREATE DESTROY allOr)

/-- What a listener is called with: grid ID, flags, `LastInSequence`. -/
abbrev Call := Int × Nat × Bool

/-- `EDIT_COORDS` (src/core/GeometryComponent.h 19) and `EDIT_FLAGS` (src/core/StateComponent.h 19). -/
def EDIT : Nat := 4

/-- One process: keys of `GridRecords_` and `LocalGrids_` (src/core/DomainBase.hpp 160-170), keys of
`GeometryRecords_`, the event flags in `Locals_` (src/core/GeometryComponent.hpp 163-178); `log` lists the calls made
by `GeometryEvent_`. -/
structure Proc where
  grids : List Int
  localGrids : List Int
  records : List Int
  locals : OMap Int Nat
  log : List Call

def Proc.start : Proc := ⟨[], [], [], ⟨[], []⟩, []⟩

/-- The search for pending edits (GeometryComponent.cpp:117-124). -/
def hasEdits (s : Proc) : Bool := s.locals.entries.any fun e => e.2 != 0

/-- `GridIDsToIndex` (GeometryComponent.cpp:131-137). -/
def indexMap : List Int → Nat → OMap Int Nat → OMap Int Nat
  | [], _, m => m
  | k :: ks, i, m => indexMap ks (i + 1) (m.insert intLess k i)

/-- The loop merging the local flags (GeometryComponent.cpp:141-146). -/
def orEntries (ix : OMap Int Nat) : List (Int × Nat) → List Nat → Option (List Nat)
  | [], a => some a
  | (k, f) :: es, a =>
    match ix.get? intLess k with
    | none => none
    | some i => if i < a.length then orEntries ix es (a.modify i (· ||| f)) else none

/-- `AllGeometryEventFlags` before the reduction (GeometryComponent.cpp:129-146). -/
def localFlags (s : Proc) : Option (List Nat) :=
  orEntries (indexMap s.records 0 ⟨[], []⟩) s.locals.entries (List.replicate s.records.length 0)

/-- The loop announcing the merged flags (GeometryComponent.cpp:156-164); `i` is `iTrigger`, `n` is `NumTriggers`. -/
def triggers (ix : OMap Int Nat) (flags : List Nat) (n : Int) : List Int → Int → Option (List Call)
  | [], _ => some []
  | k :: ks, i =>
    match ix.get? intLess k with
    | none => none
    | some j =>
      match flags[j]? with
      | none => none
      | some f =>
        if f = 0 then triggers ix flags n ks i
        else (triggers ix flags n ks (i + 1)).map ((k, f, i == n - 1) :: ·)

/-- `NumTriggers` (GeometryComponent.cpp:151-154) and the loop after it. -/
def announce (s : Proc) (flags : List Nat) : Option (List Call) :=
  triggers (indexMap s.records 0 ⟨[], []⟩) flags (flags.countP (· != 0)) s.records 0

/-- Resetting the flags (GeometryComponent.cpp:168-171). -/
def zero (m : OMap Int Nat) : OMap Int Nat := ⟨m.keys, m.entries.map fun e => (e.1, 0)⟩

/-- `SyncEdits_` (GeometryComponent.cpp:113-173) on all processes. -/
def sync (w : Fin P → Proc) : Option (Fin P → Proc) :=
  if ∀ p, hasEdits (w p) = false then some w
  else
    (everyone fun p => localFlags (w p)).bind fun a =>
    if ∀ p q, (a p).length = (a q).length then
      (everyone fun p => announce (w p) (allOr (a p).length a)).bind fun calls =>
      some fun p => { w p with locals := zero (w p).locals, log := (w p).log ++ calls p }
    else none

/-- The loops triggering one flag for several IDs (GeometryComponent.cpp:310-313, 403-406, 480-484); `i` is the loop
counter, `n` the number of IDs. -/
def each (flag : Nat) (n : Nat) : List Int → Nat → List Call
  | [], _ => []
  | k :: ks, i => (k, flag, i + 1 == n) :: each flag n ks (i + 1)

/-- The assertions on an ID (GeometryComponent.cpp:248-255, 372-381); `there` is whether it should exist. -/
def valid (s : Proc) (there : Bool) (g : Int) : Bool :=
  decide (0 ≤ g) && OSet.contains intLess s.grids g && OSet.contains intLess s.records g == there

/-- Creating one local geometry (GeometryComponent.cpp:273-287). -/
def createLocal (s : Proc) (g : Int) : Proc :=
  if OSet.contains intLess s.localGrids g then { s with locals := s.locals.insert intLess g 0 } else s

/-- `CreateGeometries` (GeometryComponent.cpp:236-317). -/
def create (w : Fin P → Proc) (ids : List Int) : Option (Fin P → Proc) :=
  if ∀ p, ids.all (valid (w p) false) then
    (sync w).bind fun w => some fun p =>
      let s := ids.foldl createLocal (w p)
      { s with
        records := ids.foldl (OSet.insert intLess) s.records
        log := s.log ++ each CREATE ids.length ids 0 }
  else none

/-- `DestroyGeometries` (GeometryComponent.cpp:366-444); `check` says whether the assertions are evaluated. -/
def destroy (check : Bool) (w : Fin P → Proc) (ids : List Int) : Option (Fin P → Proc) :=
  if check = true → ∀ p, ids.all (valid (w p) true) then
    (sync w).bind fun w => some fun p => { w p with
      locals := ids.foldl (OMap.erase intLess) (w p).locals
      records := ids.foldl (OSet.erase intLess) (w p).records
      log := (w p).log ++ each DESTROY ids.length ids 0 }
  else none

/-- `ClearGeometries` (GeometryComponent.cpp:446-500). -/
def clear (w : Fin P → Proc) : Option (Fin P → Proc) :=
  (sync w).bind fun w => some fun p => { w p with
    locals := ⟨[], []⟩
    records := []
    log := (w p).log ++ each DESTROY (w p).records.length (w p).records 0 }

/-- `DyingGridIDs` (GeometryComponent.cpp:86-95). -/
def dying (flags : OMap Int Nat) : List Int :=
  flags.entries.foldl (fun d e => if e.2 &&& DESTROY != 0 then OSet.insert intLess d e.1 else d) []

/-- `GridEvent_.Trigger` for each of several grids (Domain.cpp:204-207, 261-264), followed on the last one by
`OnGridEvent_` (GeometryComponent.cpp:76-99); no call at all if there is no grid. -/
def gridEvent (debug : Bool) (flag : Nat) (w : Fin P → Proc) (ids : List Int) : Option (Fin P → Proc) :=
  if ids = [] then some w else destroy debug w (dying (gridFlags flag ids))

/-- `CreateGrids` (Domain.cpp:130-211); `loc p` are the grids present on process `p`. -/
def createGrids (debug : Bool) (w : Fin P → Proc) (ids : List Int) (loc : Fin P → Int → Bool) :
    Option (Fin P → Proc) :=
  if ∀ p, ids.all (fun g => decide (0 ≤ g) && !OSet.contains intLess (w p).grids g) then
    gridEvent debug CREATE (fun p => { w p with
      localGrids := (ids.filter (loc p)).foldl (OSet.insert intLess) (w p).localGrids
      grids := ids.foldl (OSet.insert intLess) (w p).grids }) ids
  else none

/-- `DestroyGrids` (Domain.cpp:247-306). -/
def destroyGrids (debug : Bool) (w : Fin P → Proc) (ids : List Int) : Option (Fin P → Proc) :=
  if ∀ p, ids.all (fun g => decide (0 ≤ g) && OSet.contains intLess (w p).grids g) then
    (gridEvent debug DESTROY w ids).bind fun w => some fun p => { w p with
      localGrids := ids.foldl (OSet.erase intLess) (w p).localGrids
      grids := ids.foldl (OSet.erase intLess) (w p).grids }
  else none

/-- The listener in `local` adding a flag on one process (GeometryComponent.cpp:607-618). -/
def edit (w : Fin P → Proc) (p : Fin P) (g : Int) : Option (Fin P → Proc) :=
  if OMap.contains intLess (w p).locals g then
    some fun q => if q = p then { w p with locals := (w p).locals.modify intLess g (· ||| EDIT) } else w q
  else none

/-- Calls on the domain and the component. -/
inductive Op (P : Nat)
  | createGrids (ids : List Int) (loc : Fin P → Int → Bool)
  | destroyGrids (ids : List Int)
  | create (ids : List Int)
  | destroy (ids : List Int)
  | clear
  | edit (p : Fin P) (g : Int)
  | endEdit

def step (debug : Bool) (w : Fin P → Proc) : Op P → Option (Fin P → Proc)
  | .createGrids ids loc => createGrids debug w ids loc
  | .destroyGrids ids => destroyGrids debug w ids
  | .create ids => create w ids
  | .destroy ids => destroy true w ids
  | .clear => clear w
  | .edit p g => edit w p g
  | .endEdit => sync w

/-- A history of calls. -/
def run (debug : Bool) (ops : List (Op P)) : Option (Fin P → Proc) := ops.foldlM (step debug) fun _ => Proc.start

end Ovk.GData
