/-
Model of the functions of the C interface through which programs read and change the tables of overlaps and
connectivities: src/core-c/ConnectivityM.cpp, ConnectivityN.cpp, OverlapM.cpp, OverlapN.cpp, with src/core/Editor.inl,
the `Resize`, `Edit...` and `Restore...` functions of src/core/ConnectivityM.cpp, ConnectivityN.cpp, OverlapM.cpp and
OverlapN.cpp, and `array::Data`.

One object on one process.  Tables are flat memory and pointers are positions in it.  Left out: the barriers (C119), the
mask that `overlap_n` derives from its points (C101), the types of entries (one type `V` for all tables).  Changing the
size invalidates all pointers, whether or not memory is reallocated.  Undefined behaviour and failed assertions are
`none`; pointer variables that were never assigned are null.
-/
import Mathlib.Logic.Function.Basic

namespace Ovk.CTab

/-- The tables: five of `connectivity_m` (ConnectivityM.hpp:151-169), three of `connectivity_n`
(ConnectivityN.hpp:131-141), four of `overlap_m` (OverlapM.hpp:140-154), three of `overlap_n` (OverlapN.hpp:136-146). -/
inductive Table
  | extents | coords | interpCoefs | destinations | destinationRanks
  | points | sources | sourceRanks
  | oCells | oCoords | oDestinations | oDestinationRanks
  | oPoints | oSources | oSourceRanks
  deriving DecidableEq, Repr

inductive Obj | connM | connN | overM | overN
  deriving DecidableEq, Repr

/-- The tables of an object, in the order in which `Resize` triggers their events (ConnectivityM.cpp:156-161,
ConnectivityN.cpp:130-133, OverlapM.cpp:137-141, OverlapN.cpp:131-134). -/
def tables : Obj → List Table
  | .connM => [.extents, .coords, .interpCoefs, .destinations, .destinationRanks]
  | .connN => [.points, .sources, .sourceRanks]
  | .overM => [.oCells, .oCoords, .oDestinations, .oDestinationRanks]
  | .overN => [.oPoints, .oSources, .oSourceRanks]

/-- The extents of the array except the last one, which is the number of donors, receivers, cells or points
(ConnectivityM.cpp:116-120, ConnectivityN.cpp:108-110, OverlapM.cpp:111-114, OverlapN.cpp:109-111). -/
def lead (stencil : Nat) : Table → List Nat
  | .extents => [2, 3]
  | .interpCoefs => [3, stencil]
  | .destinationRanks | .sourceRanks | .oDestinationRanks | .oSourceRanks => []
  | _ => [3]

def prod : List Nat → Nat
  | [] => 1
  | n :: ns => n * prod ns

/-- `ToIndex` for row-major arrays that begin at zero (src/core/Indexer.hpp:132-153, with the
strides of 318-328). -/
def flat : List Nat → List Nat → Nat
  | _ :: ns, i :: is => i * prod ns + flat ns is
  | _, _ => 0

/-- The indices of a position in a row-major array. -/
def unflat : List Nat → Nat → List Nat
  | [], _ => []
  | _ :: ns, k => k / prod ns :: unflat ns (k % prod ns)

/-- A pointer into a table as it was after `gen` changes of the size. -/
structure Ptr where
  table : Table
  pos : Nat
  gen : Nat
  deriving DecidableEq

inductive Event
  | resized
  | changed (t : Table)
  deriving DecidableEq, Repr

structure State (V : Type) where
  size : Nat
  stencil : Nat
  data : Table → List V
  /-- `RefCount_` and whether `DeactivateFunc_` is set (Editor.hpp:45-47) -/
  refs : Table → Nat
  active : Table → Bool
  gen : Nat
  /-- pointer variables of the program -/
  var : Nat → Option Ptr
  /-- what listeners heard -/
  log : List Event
  /-- what the program read -/
  out : List V

variable {V : Type}

/-- A new object (ConnectivityM.cpp:49-59, ConnectivityN.cpp:48-56, OverlapM.cpp:48-57, OverlapN.cpp:48-57). -/
def start : State V := ⟨0, 1, fun _ => [], fun _ => 0, fun _ => false, 0, fun _ => none, [], []⟩

/-- Calls and accesses of a program.  A column of a table is given by the indices before the last one: the end and the
dimension for extents, the dimension and the stencil point for coefficients, the dimension, or nothing. -/
inductive Op (V : Type)
  /-- `ovkResize...`; the second number is ignored except for the M side of connectivities -/
  | resize (n stencil : Nat)
  /-- `ovkGet...` of a column into a variable -/
  | get (t : Table) (col : List Nat) (v : Nat)
  /-- `ovkGetConnectivityMExtents` -/
  | getExtents (dim vb ve : Nat)
  /-- `ovkEdit...` of a column into a variable -/
  | edit (t : Table) (col : List Nat) (v : Nat)
  /-- `ovkEditConnectivityMExtents` -/
  | editExtents (dim vb ve : Nat)
  /-- `v[i] = x` -/
  | write (v i : Nat) (x : V)
  /-- reading `v[i]` -/
  | read (v i : Nat)
  /-- `ovkRestore...` with a variable -/
  | restore (t : Table) (v : Nat)
  /-- `ovkRestoreConnectivityMExtents` -/
  | restoreExtents (vb ve : Nat)

/-- `array::Data` with indices (src/core/ArrayView.hpp:106-108): the address of the first entry of a column. -/
def dataPtr (s : State V) (t : Table) (col : List Nat) : Ptr :=
  ⟨t, flat (lead s.stencil t ++ [s.size]) (col ++ [0]), s.gen⟩

/-- `Edit...` of the object (e.g. ConnectivityM.cpp:173-190) and `Release` of the handle (Editor.inl:58-63, 133-143): the
count grows by one, and a session is begun if there is none. -/
def beginEdit (s : State V) (t : Table) : State V :=
  { s with refs := Function.update s.refs t (s.refs t + 1), active := Function.update s.active t true }

/-- `Restore...` of the object (e.g. ConnectivityM.cpp:192-199, Editor.inl:36-40, 48-56). -/
def endEdit (s : State V) (t : Table) : Option (State V) :=
  if s.active t = false ∨ s.refs t = 0 then none
  else if s.refs t = 1 then
    some { s with refs := Function.update s.refs t 0, active := Function.update s.active t false, log := s.log ++ [.changed t] }
  else some { s with refs := Function.update s.refs t (s.refs t - 1) }

/-- `Resize` (ConnectivityM.cpp:99-165, ConnectivityN.cpp:96-137, OverlapM.cpp:97-145, OverlapN.cpp:97-138): every entry
of a column gets the value `init` for the column. -/
def resize (k : Obj) (init : Table → List Nat → V) (s : State V) (n st : Nat) : Option (State V) :=
  if (tables k).any s.active then none
  else some { s with
    size := n
    stencil := st
    data := fun t => (List.range (prod (lead st t) * n)).map fun j => init t (unflat (lead st t) (j / n))
    gen := s.gen + 1
    log := s.log ++ .resized :: (tables k).map .changed }

/-- What a pointer and an offset refer to. -/
def target (s : State V) (v i : Nat) : Option (Table × Nat) :=
  match s.var v with
  | none => none
  | some p => if p.gen = s.gen ∧ p.pos + i < (s.data p.table).length then some (p.table, p.pos + i) else none

def setVar (s : State V) (v : Nat) (p : Option Ptr) : State V := { s with var := Function.update s.var v p }

/-- One operation of a program (core-c/ConnectivityM.cpp:136-409, core-c/ConnectivityN.cpp:126-278,
core-c/OverlapM.cpp:125-322, core-c/OverlapN.cpp:124-282). -/
def step (k : Obj) (init : Table → List Nat → V) (s : State V) : Op V → Option (State V)
  | .resize n st => resize k init s n st
  | .get t col v => some (setVar s v (some (dataPtr s t col)))
  | .getExtents d vb ve => some (setVar (setVar s vb (some (dataPtr s .extents [0, d]))) ve (some (dataPtr s .extents [1, d])))
  | .edit t col v => some (setVar (beginEdit s t) v (some (dataPtr s t col)))
  | .editExtents d vb ve =>
    some (setVar (setVar (beginEdit s .extents) vb (some (dataPtr s .extents [0, d]))) ve (some (dataPtr s .extents [1, d])))
  | .write v i x => (target s v i).map fun a => { s with data := Function.update s.data a.1 ((s.data a.1).set a.2 x) }
  | .read v i => (target s v i).bind fun a => ((s.data a.1)[a.2]?).map fun x => { s with out := s.out ++ [x] }
  | .restore t v => (endEdit s t).map fun s => setVar s v none
  | .restoreExtents vb ve => (endEdit s .extents).map fun s => setVar (setVar s vb none) ve none

def run (k : Obj) (init : Table → List Nat → V) : List (Op V) → State V → Option (State V)
  | [], s => some s
  | o :: os, s => (step k init s o).bind (run k init os)

/-- What the C++ interface shows: the entry `(col, i)` of a table (src/core/ArrayView.hpp:102-104). -/
def entry (s : State V) (t : Table) (col : List Nat) (i : Nat) : Option V :=
  (s.data t)[flat (lead s.stencil t ++ [s.size]) (col ++ [i])]?

/-- Names under which the library defines the functions that end editing a table (core-c/ConnectivityM.cpp:187, 239,
295, 349, 398; core-c/ConnectivityN.cpp:171, 220, 268; core-c/OverlapM.cpp:169, 217, 266, 312; core-c/OverlapN.cpp:178,
226, 272). -/
def definedAs : Table → String
  | .extents => "ovkRestoreConnectivityMExtents"
  | .coords => "ovkRestoreConnectivityMCoords"
  | .interpCoefs => "ovkRestoreConnectivityMInterpCoefs"
  | .destinations => "ovkRestoreConnectivityMDestinations"
  | .destinationRanks => "ovkRestoreConnectivityMDestinationRanks"
  | .points => "ovkRestoreConnectivityNPoints"
  | .sources => "ovkRestoreConnectivityNSources"
  | .sourceRanks => "ovkReleaseConnectivityNSourceRanks"
  | .oCells => "ovkRestoreOverlapMCells"
  | .oCoords => "ovkRestoreOverlapMCoords"
  | .oDestinations => "ovkRestoreOverlapMDestinations"
  | .oDestinationRanks => "ovkRestoreOverlapMDestinationRanks"
  | .oPoints => "ovkRestoreOverlapNPoints"
  | .oSources => "ovkRestoreOverlapNSources"
  | .oSourceRanks => "ovkReleaseOverlapNSourceRanks"

/-- Names under which the headers declare them (core-c/ConnectivityM.h:47-79, core-c/ConnectivityN.h:44-57,
core-c/OverlapM.h:41-57, core-c/OverlapN.h:43-53). -/
def declaredAs : Table → String
  | .extents => "ovkRestoreConnectivityMExtents"
  | .coords => "ovkRestoreConnectivityMCoords"
  | .interpCoefs => "ovkRestoreConnectivityMInterpCoefs"
  | .destinations => "ovkRestoreConnectivityMDestinations"
  | .destinationRanks => "ovkRestoreConnectivityMDestinationRanks"
  | .points => "ovkRestoreConnectivityNPoints"
  | .sources => "ovkRestoreConnectivityNSources"
  | .sourceRanks => "ovkRestoreConnectivityNSourceRanks"
  | .oCells => "ovkRestoreOverlapMCells"
  | .oCoords => "ovkRestoreOverlapMCoords"
  | .oDestinations => "ovkRestoreOverlapMDestinations"
  | .oDestinationRanks => "ovkRestoreOverlapMDestinationRanks"
  | .oPoints => "ovkRestoreOverlapNPoints"
  | .oSources => "ovkRestoreOverlapNSources"
  | .oSourceRanks => "ovkRestoreOverlapNSourceRanks"

/-- A program that includes the headers can be linked with the library if it only contains such operations. -/
def Links : Op V → Bool
  | .restore t _ => definedAs t = declaredAs t
  | .restoreExtents _ _ => definedAs .extents = declaredAs .extents
  | _ => true

end Ovk.CTab
