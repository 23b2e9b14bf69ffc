import Verif.Model.Options
/-!
# The options of an assembler during its life

Model of how the options of an `assembler` (src/core/Assembler.cpp 83-323, 435-473) follow the grids of the domain it
is bound to (src/core/Domain.cpp 76-300), for one option per grid and one per pair of grids
(`Verif/Model/Options.lean`).  `selfReset` is whether the option per pair is one of those reset at the end of an
edit (266-272): all but `DisjointConnections` are.

Simplified: one domain, which outlives the assembler; an edit session is open or not (that it ends when the last
handle is released is C29); logging, barriers and `AssemblyManifest_` (which nothing reads) are left out.
`none` is a violated `OVK_DEBUG_ASSERT` or the use of the reference to a domain that is not there.
-/
namespace Ovk.OLife
open Opt (Opt allGrids)
variable {ν : Type} [DecidableEq ν]

/-- The domain and the assembler. -/
structure State (ν : Type) where
  /-- keys of `GridRecords_` of the domain -/
  grids : List Int := []
  /-- whether `Domain_` of the assembler is set -/
  bound : Bool := false
  /-- `OptionsEditor_.Active()` -/
  editing : Bool := false
  /-- `Options_` -/
  per1 : Opt Int ν := {}
  per2 : Opt (Elem 2) ν := {}
  /-- `UpdateManifest_.AddGridsToOptions`, `UpdateManifest_.RemoveGridsFromOptions` -/
  toAdd : List Int := []
  toRemove : List Int := []

/-- Calls on the domain, the assembler, and the options being edited. -/
inductive Op (ν : Type)
  | create (ids : List Int)
  | destroy (ids : List Int)
  | bind
  | unbind
  | startEdit
  | set1 (g : Int) (v : ν)
  | set2 (m n : Int) (v : ν)
  | endEdit

/-- `Update_` (435-473). -/
def update (s : State ν) : State ν :=
  let s := if s.toAdd.isEmpty then s
    else { s with per1 := s.per1.add s.toAdd, per2 := s.per2.add s.toAdd }
  let s := if s.toRemove.isEmpty then s
    else { s with per1 := s.per1.remove1 s.toRemove, per2 := s.per2.remove2 s.toRemove }
  { s with toAdd := [], toRemove := [] }

/-- `OnGridEvent_` (300-323); `destroy` tells the flag, `last` is `LastInSequence`. -/
def onGridEvent (destroy : Bool) (g : Int) (last : Bool) (s : State ν) : State ν :=
  let s := if destroy then { s with toRemove := OSet.insert intLess s.toRemove g }
    else { s with toAdd := OSet.insert intLess s.toAdd g }
  if last then update s else s

/-- The loops that trigger the events (Domain.cpp 204-207, 261-264); without a listener nothing happens. -/
def events (destroy : Bool) : List Int → State ν → State ν
  | [], s => s
  | g :: gs, s => events destroy gs (if s.bound then onGridEvent destroy g gs.isEmpty s else s)

/-- `OnOptionsEndEdit_` (259-273). -/
def resetSelf (selfReset : Bool) (dflt : ν) (s : State ν) : State ν :=
  if selfReset then { s with per2 := Opt.endEdit dflt s.grids s.per2 } else s

/-- Whether the assertions of `SetOption_` (AssemblerOptions.cpp 503, 529-530) admit an ID. -/
def admits (s : State ν) (g : Int) : Bool := g == allGrids || OSet.contains intLess s.per2.ids g

def step (selfReset : Bool) (dflt : ν) (s : State ν) : Op ν → Option (State ν)
  -- `CreateGrids` (Domain.cpp 130-211)
  | .create ids =>
    if ∀ g ∈ ids, 0 ≤ g ∧ g ∉ s.grids then
      some (events false ids { s with grids := ids.foldl (OSet.insert intLess) s.grids })
    else none
  -- `DestroyGrids` (Domain.cpp 247-300)
  | .destroy ids =>
    if ∀ g ∈ ids, g ∈ s.grids then
      let s := events true ids s
      some { s with grids := ids.foldl (OSet.erase intLess) s.grids }
    else none
  -- `Bind` (83-165)
  | .bind =>
    if s.bound then none
    else some (update { s with bound := true, toAdd := s.grids.foldl (OSet.insert intLess) s.toAdd })
  -- `Unbind` (167-199)
  | .unbind => if s.bound then some { s with bound := false, per1 := {}, per2 := {} } else none
  -- `EditOptions` (223-241)
  | .startEdit => if s.bound then some { s with editing := true } else none
  | .set1 g v => if s.editing && admits s g then some { s with per1 := s.per1.set1 dflt g v } else none
  | .set2 m n v =>
    if s.editing && admits s m && admits s n then some { s with per2 := s.per2.set2 dflt m n v } else none
  -- the end of a session calls `OnOptionsEndEdit_` (259-298), which uses `*Domain_`
  | .endEdit =>
    if s.editing && s.bound then some (resetSelf selfReset dflt { s with editing := false }) else none

def run (selfReset : Bool) (dflt : ν) (ops : List (Op ν)) : Option (State ν) := ops.foldlM (step selfReset dflt) {}

end Ovk.OLife
