import Verif.Model.Container
/-!
# Options of the assembler

Model of `assembler::options` (src/core/AssemblerOptions.cpp), for one option of either kind: per grid
(`map<int,T>`) or per pair of grids (`elem_map<int,2,T>`).  All options of a kind use the same two templates
with their default value; a reset is a setting to the default (lines 72-78 and alike).
-/
namespace Ovk.Opt

/-- `ALL_GRIDS` (src/core/Global.h 26). -/
def allGrids : Int := -1

/-- The key `{M,N}`. -/
def pair (m n : Int) : Elem 2 := ⟨[m, n], rfl⟩

/-- `GridIDs_` and the map of one option. -/
structure Opt (κ ν : Type) where
  ids : List Int := []
  map : OMap κ ν := ⟨[], []⟩

/-- `AddGrids` (19-25). -/
def Opt.add (o : Opt κ ν) (g : List Int) : Opt κ ν :=
  { o with ids := g.foldl (OSet.insert intLess) o.ids }

/-- `RemoveGrids` (27-55) for an option per grid. -/
def Opt.remove1 (o : Opt Int ν) (g : List Int) : Opt Int ν :=
  { ids := OSet.eraseIf (fun i => OSet.contains intLess g i) o.ids
    map := o.map.eraseIf fun e => OSet.contains intLess g e.1 }

/-- `RemoveGrids` (27-55) for an option per pair. -/
def Opt.remove2 (o : Opt (Elem 2) ν) (g : List Int) : Opt (Elem 2) ν :=
  { ids := OSet.eraseIf (fun i => OSet.contains intLess g i) o.ids
    map := o.map.eraseIf fun e => OSet.contains intLess g (e.1.1[0]'(by have := e.1.2; omega)) ||
      OSet.contains intLess g (e.1.1[1]'(by have := e.1.2; omega)) }

/-- `SetOption_` for an option per grid (500-521). -/
def Opt.set1 [DecidableEq ν] (dflt : ν) (o : Opt Int ν) (g : Int) (v : ν) : Opt Int ν :=
  { o with map :=
      if v ≠ dflt then
        if g = allGrids then o.ids.foldl (fun m i => m.insert intLess i v) o.map
        else o.map.insert intLess g v
      else
        if g = allGrids then ⟨[], []⟩
        else o.map.erase intLess g }

/-- `SetOption_` for an option per pair (523-568). -/
def Opt.set2 [DecidableEq ν] (dflt : ν) (o : Opt (Elem 2) ν) (m n : Int) (v : ν) : Opt (Elem 2) ν :=
  { o with map :=
      if v ≠ dflt then
        if m = allGrids ∧ n = allGrids then
          o.ids.foldl (fun a i => o.ids.foldl (fun a j => a.insert elemLess (pair i j) v) a) o.map
        else if m = allGrids then o.ids.foldl (fun a i => a.insert elemLess (pair i n) v) o.map
        else if n = allGrids then o.ids.foldl (fun a j => a.insert elemLess (pair m j) v) o.map
        else o.map.insert elemLess (pair m n) v
      else
        if m = allGrids ∧ n = allGrids then ⟨[], []⟩
        else if m = allGrids then o.ids.foldl (fun a i => a.erase elemLess (pair i n)) o.map
        else if n = allGrids then o.ids.foldl (fun a j => a.erase elemLess (pair m j)) o.map
        else o.map.erase elemLess (pair m n) }

/-- `GetOption_` (460-498). -/
def Opt.get (lt : κ → κ → Bool) (dflt : ν) (o : Opt κ ν) (k : κ) : ν :=
  match o.map.find? lt k with
  | some e => e.2
  | none => dflt

/-- A call on the options; the pattern of a setting is one or two IDs or `ALL_GRIDS`. -/
inductive Op (π ν : Type)
  | add (grids : List Int)
  | remove (grids : List Int)
  | set (pat : π) (v : ν)

/-- Effect of a call on an option per grid. -/
def step1 [DecidableEq ν] (dflt : ν) (o : Opt Int ν) : Op Int ν → Opt Int ν
  | .add g => o.add g
  | .remove g => o.remove1 g
  | .set p v => o.set1 dflt p v

/-- Effect of a call on an option per pair. -/
def step2 [DecidableEq ν] (dflt : ν) (o : Opt (Elem 2) ν) : Op (Int × Int) ν → Opt (Elem 2) ν
  | .add g => o.add g
  | .remove g => o.remove2 g
  | .set p v => o.set2 dflt p.1 p.2 v

/-- Options after a history of calls, starting empty. -/
def run1 [DecidableEq ν] (dflt : ν) (ops : List (Op Int ν)) : Opt Int ν := ops.foldl (step1 dflt) {}
/-- Options after a history of calls, starting empty. -/
def run2 [DecidableEq ν] (dflt : ν) (ops : List (Op (Int × Int) ν)) : Opt (Elem 2) ν := ops.foldl (step2 dflt) {}

/-- `OnOptionsEndEdit_` (src/core/Assembler.cpp 259-273): the option of every grid paired with itself is reset
(for all pairwise options except `DisjointConnections`).  `gridIDs` are the grids of the domain. -/
def endEdit [DecidableEq ν] (dflt : ν) (gridIDs : List Int) (o : Opt (Elem 2) ν) : Opt (Elem 2) ν :=
  gridIDs.foldl (fun o i => o.set2 dflt i i dflt) o

end Ovk.Opt
