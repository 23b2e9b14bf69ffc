/-
Model of `DetectNeighbors` (src/core/Decomp.cpp:28-102) on top of the distributed hash of local ranges.
-/
import Verif.Model.Decomp
import Verif.Model.Container

namespace Ovk
variable {d : Nat}

/-- Adds the rank of the first retrieved region containing the point (Decomp.cpp:83-97). -/
def insertOwner (lookup : Tup d → List (Nat × Rng d)) (acc : List Nat) (p : Tup d) : List Nat :=
  match (lookup p).find? fun x => x.2.contains p with
  | some x => OSet.insert (fun a b => decide (a < b)) acc x.1
  | none => acc

/-- `DetectNeighbors` (Decomp.cpp:28-102).  `lookup p` is the list of regions, with their ranks, in the bin
retrieved for the point `p` (lines 60-97).  The extended range (lines 31-39) is the one of
`ExtendLocalRange` by one. -/
def detectNeighbors (c : Cart d) (loc : Rng d) (rank : Nat) (lookup : Tup d → List (Nat × Rng d)) :
    List Nat :=
  let ext := extendLocalRange c loc 1
  let pts := (ext.points.filter fun p => !loc.contains p).map c.periodicAdjust
  let found := pts.foldl (insertOwner lookup) []
  OSet.erase (fun a b => decide (a < b)) found rank

end Ovk
