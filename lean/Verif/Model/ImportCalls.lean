/-
Model of the calls that `ImportConnectivityData` (src/extras/XINTOUT.cpp:2413-2515) makes on all processes, with
`ImportDonors` (2517-2593) and `ImportReceivers` (2595-2650).  Calls of the component and of connectivities and their
collective operations are taken from `Verif.Model.ComponentCalls`; what is written to the tables is in
`Verif.Model.XintoutImport`.

Simplified: the edit sessions for the tables of a grid, which overlap in the code, are made one after the other in the
order in which they end; all their operations are barriers on the communicator of the grid.  Whether each partner has
an index (2535, 2568, 2612, 2637) is checked before the calls for the grid.  Counts do not overflow.
-/
import Verif.Model.ComponentCalls

namespace Ovk.XImp
open CompC (Act State Pr)
open Comp (CID)
variable {n : Nat}

/-- `NumConnections`. -/
abbrev Counts := Nat → Nat → Nat

/-- `{iGrid+1, jGrid+1}` (2452-2454). -/
def pairID (i j : Nat) : CID := ⟨[(i : Int) + 1, (j : Int) + 1], rfl⟩

/-- What a process has after distribution, for grids with index `i`: destination grids of donors and source grids of
receivers, as indices (`DestinationGridIDs`, `SourceGridIDs`). -/
structure Data where
  donors : Nat → List Nat
  receivers : Nat → List Nat

/-- `NumConnections` on one process (2433-2439). -/
def counts (x : Data) (isLocal : Nat → Bool) : Counts := fun i j => if isLocal j then (x.receivers j).count i else 0

/-- `NumConnections.Data()` (2431, 2441). -/
def flatten (N : Nat) (T : Counts) : List Nat := (List.range N).flatMap fun i => (List.range N).map fun j => T i j

def unflatten (N : Nat) (r : List Nat) : Counts := fun i j => r.getD (i * N + j) 0

/-- `ConnectivityIDs` (2447-2457). -/
def ids (N : Nat) (T : Counts) : List CID :=
  (List.range N).flatMap fun i => (List.range N).flatMap fun j => if T i j > 0 then [pairID i j] else []

/-- `DestinationGridIDs`, `SourceGridIDs` of a grid (2490-2499), as indices. -/
def dests (N : Nat) (T : Counts) (i : Nat) : List Nat := (List.range N).filter fun j => decide (T i j > 0)
def sources (N : Nat) (T : Counts) (i : Nat) : List Nat := (List.range N).filter fun j => decide (T j i > 0)

/-- The loop at 2490-2500. -/
def editAll (N : Nat) (T : Counts) (i : Nat) : List Act :=
  (List.range N).flatMap fun j =>
    (if T i j > 0 then [.edit true (pairID i j)] else []) ++ (if T j i > 0 then [.edit false (pairID j i)] else [])

/-- `ImportDonors`: new sizes (2543-2546), tables (2548-2559), sessions end in the reverse order of 2548-2551. -/
def importDonors (N : Nat) (T : Counts) (i : Nat) : List Act :=
  (dests N T i).map (fun j => .change .resizeM (pairID i j)) ++
    [.destinations, .interpCoefs, .coords, .extents].flatMap fun x => (dests N T i).map fun j => .change x (pairID i j)

/-- `ImportReceivers`: new sizes (2616-2619), tables (2621-2628). -/
def importReceivers (N : Nat) (T : Counts) (i : Nat) : List Act :=
  (sources N T i).map (fun j => .change .resizeN (pairID j i)) ++
    [.sources, .points].flatMap fun x => (sources N T i).map fun j => .change x (pairID j i)

/-- `ConnectivityNs` and `ConnectivityMs` (2480-2481) go out of scope at 2505. -/
def restoreAll (N : Nat) (T : Counts) (i : Nat) : List Act :=
  (sources N T i).map (fun j => .restore false (pairID j i)) ++ (dests N T i).map fun j => .restore true (pairID i j)

def gridCalls (N : Nat) (T : Counts) (i : Nat) : List Act :=
  editAll N T i ++ importDonors N T i ++ importReceivers N T i ++ restoreAll N T i

/-- Donors and receivers have partners among the connectivities; with no connectivities they are not looked at (2522,
2600). -/
def indexed (N : Nat) (T : Counts) (x : Data) (i : Nat) : Bool :=
  ((dests N T i).isEmpty || (x.donors i).all fun j => (dests N T i).contains j) &&
    ((sources N T i).isEmpty || (x.receivers i).all fun j => (sources N T i).contains j)

/-- The loop over local grids (2461-2505). -/
def importGrids (mem : Nat → Fin n → Bool) (debug : Bool) (p : Fin n) (N : Nat) (T : Counts) (x : Data) :
    List Nat → State → Pr (Option State)
  | [], s => .ret (some s)
  | i :: is, s =>
    if s.isLocal ((i : Int) + 1) then
      if indexed N T x i then (CompC.history mem debug p (gridCalls N T i) s).bind fun r =>
        match r with
        | none => .ret none
        | some s => importGrids mem debug p N T x is s
      else .ret none
    else importGrids mem debug p N T x is s

/-- `ImportConnectivityData` (2413-2515) for `N` grids. -/
def importData (mem : Nat → Fin n → Bool) (debug : Bool) (N : Nat) (x : Data) (p : Fin n) (s : State) : Pr (Option State) :=
  (CompC.barriers .world 1).bind fun _ =>
    .coll .world .sum (flatten N (counts x fun j => s.isLocal ((j : Int) + 1))) fun r =>
      let T := unflatten N r
      (CompC.history mem debug p [.editComponent, .createConns (ids N T)] s).bind fun r =>
        match r with
        | none => .ret none
        | some s => (importGrids mem debug p N T x (List.range N) s).bind fun r =>
          match r with
          | none => .ret none
          | some s => (CompC.restoreComponent s).bind fun r =>
            match r with
            | none => .ret none
            | some s => (CompC.barriers .world 1).bind fun _ => .ret (some s)

end Ovk.XImp
