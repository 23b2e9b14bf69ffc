import Verif.Model.Container
import Mathlib.Data.List.FinRange

/-!
# Connectivity and overlap components

Model of the record keeping of `connectivity_component` (src/core/ConnectivityComponent.cpp) over a domain whose
grids come and go (src/core/Domain.cpp).  `overlap_component` (src/core/OverlapComponent.cpp 62-512) is the same code
with other names.  Calls are collective; `P` processes.  A connectivity is reduced to its event flags.

Simplified: listeners neither edit nor create nor destroy anything while being called; no connectivity is being
edited while it is destroyed (the assertion at 440-465); logging and barriers have no effect.
`none` is a violated `OVK_DEBUG_ASSERT` or an access to a missing map entry.
-/
namespace Ovk.Comp

/-- A connectivity ID: the M grid and the N grid. -/
abbrev CID := Elem 2

/-- `ConnectivityID(0)`. -/
def mGrid (c : CID) : Int := (c.1[0]?).getD 0
/-- `ConnectivityID(1)`. -/
def nGrid (c : CID) : Int := (c.1[1]?).getD 0

/-- What a listener is called with: ID, flags, `LastInSequence`. -/
abbrev Call := CID × Nat × Bool

/-- One process: keys of `GridRecords_` and `LocalGrids_` (src/core/DomainBase.hpp 160-170), keys of
`ConnectivityRecords_`, and the event flags in `LocalMs_` and `LocalNs_` (src/core/ConnectivityComponent.hpp
205-215); `log` lists the calls made by `ConnectivityEvent_`. -/
structure Proc where
  grids : List Int
  localGrids : List Int
  records : List CID
  ms : OMap CID Nat
  ns : OMap CID Nat
  log : List Call

def Proc.start : Proc := ⟨[], [], [], ⟨[], []⟩, ⟨[], []⟩, []⟩

/-- Bits of `ovk_grid_event_flags` and `ovk_connectivity_event_flags` (src/core/Domain.h 15-22,
src/core/ConnectivityComponent.h 15-48). -/
def CREATE : Nat := 1
def DESTROY : Nat := 2

/-- Gather a result on every process. -/
def everyone {α : Type} (f : Fin P → Option α) : Option (Fin P → α) :=
  if h : ∀ p, (f p).isSome then some fun p => (f p).get (h p) else none

/-- The search for pending edits (ConnectivityComponent.cpp:131-145). -/
def hasEdits (s : Proc) : Bool := s.ms.entries.any (fun e => e.2 != 0) || s.ns.entries.any (fun e => e.2 != 0)

/-- `GridIDsToIndex` (ConnectivityComponent.cpp:153-159). -/
def indexMap : List CID → Nat → OMap CID Nat → OMap CID Nat
  | [], _, m => m
  | k :: ks, i, m => indexMap ks (i + 1) (m.insert elemLess k i)

/-- One of the loops merging the local flags (ConnectivityComponent.cpp:164-174). -/
def orEntries (ix : OMap CID Nat) : List (CID × Nat) → List Nat → Option (List Nat)
  | [], a => some a
  | (k, f) :: es, a =>
    match ix.get? elemLess k with
    | none => none
    | some i => if i < a.length then orEntries ix es (a.modify i (· ||| f)) else none

/-- `AllConnectivityEventFlags` before the reduction (ConnectivityComponent.cpp:161-174). -/
def localFlags (s : Proc) : Option (List Nat) :=
  let ix := indexMap s.records 0 ⟨[], []⟩
  (orEntries ix s.ms.entries (List.replicate s.records.length 0)).bind (orEntries ix s.ns.entries)

/-- `MPI_Allreduce(..., MPI_BOR, ...)` of arrays of equal length (ConnectivityComponent.cpp:176-177). -/
def allOr (n : Nat) (a : Fin P → List Nat) : List Nat :=
  (List.finRange P).foldl (fun acc p => List.zipWith (· ||| ·) acc (a p)) (List.replicate n 0)

/-- The loop announcing the merged flags (ConnectivityComponent.cpp:183-189); `r` is `NumTriggers`. -/
def triggers (ix : OMap CID Nat) (flags : List Nat) : List CID → Int → Option (List Call)
  | [], _ => some []
  | k :: ks, r =>
    match ix.get? elemLess k with
    | none => none
    | some i =>
      match flags[i]? with
      | none => none
      | some f =>
        if f = 0 then triggers ix flags ks r
        else (triggers ix flags ks (r - 1)).map ((k, f, r - 1 == 0) :: ·)

/-- `NumTriggers` (ConnectivityComponent.cpp:179-182) and the loop after it. -/
def announce (s : Proc) (flags : List Nat) : Option (List Call) :=
  triggers (indexMap s.records 0 ⟨[], []⟩) flags s.records (flags.countP (· != 0))

/-- Resetting the flags (ConnectivityComponent.cpp:193-201). -/
def zero (m : OMap CID Nat) : OMap CID Nat := ⟨m.keys, m.entries.map fun e => (e.1, 0)⟩

/-- `SyncEdits_` (ConnectivityComponent.cpp:127-203) on all processes. -/
def sync (w : Fin P → Proc) : Option (Fin P → Proc) :=
  if ∀ p, hasEdits (w p) = false then some w
  else
    (everyone fun p => localFlags (w p)).bind fun a =>
    if ∀ p q, (a p).length = (a q).length then
      (everyone fun p => announce (w p) (allOr (a p).length a)).bind fun calls =>
      some fun p => { w p with ms := zero (w p).ms, ns := zero (w p).ns, log := (w p).log ++ calls p }
    else none

/-- The loops triggering one flag for several IDs, with `NumRemaining` (ConnectivityComponent.cpp:349-353,
465-469). -/
def each (flag : Nat) : List CID → Int → List Call
  | [], _ => []
  | k :: ks, r => (k, flag, r - 1 == 0) :: each flag ks (r - 1)

/-- The assertions on an ID (ConnectivityComponent.cpp:285-296, 426-437); `there` is whether it should exist. -/
def valid (s : Proc) (there : Bool) (c : CID) : Bool :=
  decide (0 ≤ mGrid c) && decide (0 ≤ nGrid c) && OSet.contains intLess s.grids (mGrid c) &&
    OSet.contains intLess s.grids (nGrid c) && OSet.contains elemLess s.records c == there

/-- Creating the local part of one connectivity (ConnectivityComponent.cpp:318-334). -/
def createLocal (s : Proc) (c : CID) : Proc :=
  let s := if OSet.contains intLess s.localGrids (mGrid c) then { s with ms := s.ms.insert elemLess c 0 } else s
  if OSet.contains intLess s.localGrids (nGrid c) then { s with ns := s.ns.insert elemLess c 0 } else s

/-- `CreateConnectivities` (ConnectivityComponent.cpp:277-357). -/
def createConns (w : Fin P → Proc) (ids : List CID) : Option (Fin P → Proc) :=
  if ∀ p, ids.all (valid (w p) false) then
    (sync w).bind fun w => some fun p =>
      let s := ids.foldl createLocal (w p)
      { s with
        records := ids.foldl (OSet.insert elemLess) s.records
        log := s.log ++ each CREATE ids ids.length }
  else none

/-- `DestroyConnectivities` (ConnectivityComponent.cpp:418-511), the IDs being an array of the caller's. -/
def destroyConns (w : Fin P → Proc) (ids : Fin P → List CID) : Option (Fin P → Proc) :=
  if ∀ p, (ids p).all (valid (w p) true) then
    (sync w).bind fun w => some fun p =>
      let s := w p
      { s with
        ms := (ids p).foldl (OMap.erase elemLess) s.ms
        ns := (ids p).foldl (OMap.erase elemLess) s.ns
        records := (ids p).foldl (OSet.erase elemLess) s.records
        log := s.log ++ each DESTROY (ids p) (ids p).length }
  else none

/-- The grid event listener collecting flags (ConnectivityComponent.cpp:63-72). -/
def gridFlags (flag : Nat) (ids : List Int) : OMap Int Nat :=
  ids.foldl (fun m g => (m.fetch intLess g 0).modify intLess g (· ||| flag)) ⟨[], []⟩

/-- The connectivities to be destroyed (ConnectivityComponent.cpp:91-109). -/
def dying (flags : OMap Int Nat) (s : Proc) : List CID :=
  let gone := flags.entries.foldl (fun d e => if e.2 &&& DESTROY != 0 then OSet.insert intLess d e.1 else d) []
  s.records.foldl (fun d c => if OSet.contains intLess gone (mGrid c) || OSet.contains intLess gone (nGrid c)
    then OSet.insert elemLess d c else d) []

/-- `GridEvent_.Trigger` for each of several grids (Domain.cpp:204-207, 261-264), followed on the last one by
`OnGridEvent_` (ConnectivityComponent.cpp:81-111); no call at all if there is no grid. -/
def gridEvent (flag : Nat) (w : Fin P → Proc) (ids : List Int) : Option (Fin P → Proc) :=
  if ids = [] then some w else destroyConns w fun p => dying (gridFlags flag ids) (w p)

/-- `CreateGrids` (Domain.cpp:130-211); `loc p` are the grids present on process `p`. -/
def createGrids (w : Fin P → Proc) (ids : List Int) (loc : Fin P → Int → Bool) : Option (Fin P → Proc) :=
  if ∀ p, ids.all (fun g => decide (0 ≤ g) && !OSet.contains intLess (w p).grids g) then
    gridEvent CREATE (fun p => { w p with
      localGrids := (ids.filter (loc p)).foldl (OSet.insert intLess) (w p).localGrids
      grids := ids.foldl (OSet.insert intLess) (w p).grids }) ids
  else none

/-- `DestroyGrids` (Domain.cpp:247-306). -/
def destroyGrids (w : Fin P → Proc) (ids : List Int) : Option (Fin P → Proc) :=
  if ∀ p, ids.all (fun g => decide (0 ≤ g) && OSet.contains intLess (w p).grids g) then
    (gridEvent DESTROY w ids).bind fun w => some fun p => { w p with
      localGrids := ids.foldl (OSet.erase intLess) (w p).localGrids
      grids := ids.foldl (OSet.erase intLess) (w p).grids }
  else none

/-- The listeners in `local_m`/`local_n` adding a flag on one process (ConnectivityComponent.cpp:743-799). -/
def edit (w : Fin P → Proc) (p : Fin P) (m : Bool) (c : CID) (f : Nat) : Option (Fin P → Proc) :=
  if OMap.contains elemLess (if m then (w p).ms else (w p).ns) c then
    some fun q => if q = p then
        (if m then { w p with ms := (w p).ms.modify elemLess c (· ||| f) }
         else { w p with ns := (w p).ns.modify elemLess c (· ||| f) })
      else w q
  else none

/-- Calls on the domain and the component. -/
inductive Op (P : Nat)
  | createGrids (ids : List Int) (loc : Fin P → Int → Bool)
  | destroyGrids (ids : List Int)
  | createConns (ids : List CID)
  | destroyConns (ids : List CID)
  | edit (p : Fin P) (m : Bool) (c : CID) (f : Nat)
  | endEdit

def step (w : Fin P → Proc) : Op P → Option (Fin P → Proc)
  | .createGrids ids loc => createGrids w ids loc
  | .destroyGrids ids => destroyGrids w ids
  | .createConns ids => createConns w ids
  | .destroyConns ids => destroyConns w fun _ => ids
  | .edit p m c f => edit w p m c f
  | .endEdit => sync w

/-- A history of calls. -/
def run (ops : List (Op P)) : Option (Fin P → Proc) := ops.foldlM step fun _ => Proc.start

/-! ### Clearing

`ClearConnectivities` (ConnectivityComponent.cpp:513-517) passes a view of the keys of the very map the loop at
ConnectivityComponent.cpp:497-499 erases from.  `std::vector::erase` moves the later elements down in place. -/

/-- The storage of the key array: cells, of which the first `size` are alive. -/
structure Buf where
  cells : List CID
  size : Nat

/-- `map::Erase(Key)` on the keys (src/core/Map.hpp 355-362), in place; the last live cell keeps its old bytes. -/
def Buf.erase (b : Buf) (c : CID) : Buf :=
  let l := b.cells.take b.size
  let l' := OSet.erase elemLess l c
  ⟨l' ++ b.cells.drop l'.length, l'.length⟩

/-- The loop over the view: cell `i` onwards, `n` cells in all.  `stale` says whether reading a cell behind the end is
taken to give the bytes left there (an elem of ints is trivially destructible) or to be undefined. -/
def eraseView (stale : Bool) : Nat → Nat → Buf → Option Buf
  | _, 0, b => some b
  | i, n + 1, b =>
    if stale || decide (i < b.size) then
      match b.cells[i]? with
      | none => none
      | some c => eraseView stale (i + 1) n (b.erase c)
    else none

/-- Keys of `ConnectivityRecords_` after `ClearConnectivities`. -/
def clearRecords (stale : Bool) (records : List CID) : Option (List CID) :=
  (eraseView stale 0 records.length ⟨records, records.length⟩).map fun b => b.cells.take b.size

end Ovk.Comp
