/-
Model of the tables of overlap and connectivity: src/core/OverlapN.cpp, src/core/OverlapM.cpp,
src/core/ConnectivityN.cpp, src/core/ConnectivityM.cpp.  Each has several arrays with one entry per point (column `c`
has entries of type `V c`), which are resized together and edited separately; `overlap_n` also has a mask.

`none` is undefined behaviour, or a failed assertion.  Simplified: one process; an edit session is a flag (that a
session ends exactly once is C29); users write entries of the arrays being edited and do not replace the arrays; a
listener that copies what it is told about stands for all listeners (that listeners are called is C30).
`MAX_DIMS` is 3; unused dimensions are padded as in the code.
-/
import Verif.Model.Range
import Mathlib.Algebra.Field.Rat

namespace Ovk.Rec
variable {C A D : Type} {V : C → Type}

/-- What distinguishes the four classes. -/
structure Kind (A : Type) (V : C → Type) (D : Type) where
  /-- entries after `Resize`; `A` are the further arguments of `Resize` -/
  dflt : A → (c : C) → V c
  /-- what the `DeactivateFunc` of the editor of column `c` computes from the columns, before the event -/
  hook : C → ((c : C) → List (V c)) → D → Option D
  /-- the derived data of a new object -/
  zero : D

structure State (V : C → Type) (D : Type) where
  /-- `NumPoints_`, `NumCells_`, `NumReceivers_`, `NumDonors_` -/
  size : Nat
  col : (c : C) → List (V c)
  /-- the editor is active -/
  editing : C → Bool
  /-- `Mask_` -/
  derived : D
  /-- the copies of a listener -/
  seenSize : Nat
  seen : (c : C) → List (V c)
  seenDerived : D

/-- The constructors (OverlapN.cpp:49-66, OverlapM.cpp:49-66, ConnectivityN.cpp:49-65, ConnectivityM.cpp:49-68); then
the listener is added. -/
def start (K : Kind A V D) : State V D :=
  ⟨0, fun _ => [], fun _ => false, K.zero, 0, fun _ => [], K.zero⟩

inductive Op (A : Type) (V : C → Type)
  /-- `Resize(n, ...)` -/
  | resize (n : Nat) (a : A)
  /-- `EditPoints()` and so on: a session begins unless there is one already -/
  | edit (c : C)
  /-- the entry of a column being edited is written -/
  | write (c : C) (i : Nat) (v : V c)
  /-- the last handle is gone, or restored: the session ends -/
  | restore (c : C)

variable [DecidableEq C] [Fintype C]

def setCol (f : (c : C) → List (V c)) (c : C) (xs : List (V c)) : (c : C) → List (V c) :=
  fun k => if h : k = c then h ▸ xs else f k

def setFlag (f : C → Bool) (c : C) (b : Bool) : C → Bool := fun k => if k = c then b else f k

def step (K : Kind A V D) (s : State V D) : Op A V → Option (State V D)
  -- OverlapN.cpp:97-138, OverlapM.cpp:97-145, ConnectivityN.cpp:96-137, ConnectivityM.cpp:99-165: assertions, arrays,
  -- then the events.  `Mask_` stays as it is.
  | .resize n a =>
    if ∀ c, s.editing c = false then
      let col := fun c => List.replicate n (K.dflt a c)
      some { s with size := n, col := col, seenSize := n, seen := col, seenDerived := s.derived }
    else none
  -- for example OverlapN.cpp:146-163
  | .edit c => some { s with editing := setFlag s.editing c true }
  | .write c i v =>
    if s.editing c = true ∧ i < (s.col c).length then some { s with col := setCol s.col c ((s.col c).set i v) } else none
  -- the `DeactivateFunc`, for example OverlapN.cpp:151-157
  | .restore c =>
    if s.editing c then
      (K.hook c s.col s.derived).map fun d =>
        { s with editing := setFlag s.editing c false, derived := d,
                 seen := setCol s.seen c (s.col c), seenDerived := d }
    else none

def run (K : Kind A V D) (ops : List (Op A V)) : Option (State V D) := ops.foldlM (step K) (start K)

/-! ### The four classes -/

/-- Points and cells that are not set: one below the begin, 0 in unused dimensions (for example OverlapN.cpp:114-119). -/
def below (numDims : Nat) (r : Rng 3) : Tup 3 := fun i => if (i : Nat) < numDims then r.b i - 1 else 0

/-- What is known of the two grids. -/
structure Grids where
  numDims : Nat
  /-- `Grid_->GlobalRange()` -/
  global : Rng 3
  /-- `Grid_->CellGlobalRange()` -/
  cells : Rng 3
  /-- `Grid_->LocalRange()` -/
  locl : Rng 3
  /-- `GlobalRange()` of the other grid -/
  otherGlobal : Rng 3
  /-- `CellGlobalRange()` of the other grid -/
  otherCells : Rng 3

/-- The arrays of `overlap_n` and `connectivity_n`. -/
inductive NCol | points | sources | ranks
deriving DecidableEq

instance : Fintype NCol := ⟨{.points, .sources, .ranks}, by intro x; cases x <;> decide⟩

@[reducible] def NVal : NCol → Type
  | .points | .sources => Tup 3
  | .ranks => Int

/-- OverlapN.cpp:113-127, ConnectivityN.cpp:112-126. -/
def nDefault (G : Grids) : (c : NCol) → NVal c
  | .points => below G.numDims G.global
  | .sources => below G.numDims G.otherCells
  | .ranks => (-1 : Int)

/-- `UpdateMask_` (OverlapN.cpp:173-193); `none`: a point outside the local range. -/
def updateMask (G : Grids) (points : List (Tup 3)) : Option (Tup 3 → Bool) :=
  let skip : Tup 3 := fun i => if (i : Nat) < G.numDims then G.global.b i - 1 else G.global.b i
  points.foldlM (fun m p =>
    if p ≠ skip then
      if G.locl.contains p then some (fun q => if q = p then true else m q) else none
    else some m) fun _ => false

def overlapN (G : Grids) : Kind Unit NVal (Tup 3 → Bool) where
  dflt _ := nDefault G
  hook c col d := match c with
    | .points => updateMask G (col .points)
    | _ => some d
  zero := fun _ => false

def connectivityN (G : Grids) : Kind Unit NVal Unit where
  dflt _ := nDefault G
  hook _ _ d := some d
  zero := ()

/-- The arrays of `overlap_m`. -/
inductive OMCol | cells | coords | destinations | ranks
deriving DecidableEq

instance : Fintype OMCol := ⟨{.cells, .coords, .destinations, .ranks}, by intro x; cases x <;> decide⟩

@[reducible] def OMVal : OMCol → Type
  | .cells | .destinations => Tup 3
  | .coords => Fin 3 → Rat
  | .ranks => Int

/-- OverlapM.cpp:116-133. -/
def omDefault (G : Grids) : (c : OMCol) → OMVal c
  | .cells => below G.numDims G.cells
  | .coords => fun _ => 0
  | .destinations => below G.numDims G.otherGlobal
  | .ranks => (-1 : Int)

def overlapM (G : Grids) : Kind Unit OMVal Unit where
  dflt _ := omDefault G
  hook _ _ d := some d
  zero := ()

/-- The arrays of `connectivity_m`. -/
inductive CMCol | extents | coords | coefs | destinations | ranks
deriving DecidableEq

instance : Fintype CMCol := ⟨{.extents, .coords, .coefs, .destinations, .ranks}, by intro x; cases x <;> decide⟩

@[reducible] def CMVal : CMCol → Type
  | .extents => Rng 3
  | .coords => Fin 3 → Rat
  | .coefs => Fin 3 → List Rat
  | .destinations => Tup 3
  | .ranks => Int

/-- ConnectivityM.cpp:122-152. -/
def cmDefault (G : Grids) (m : Nat) : (c : CMCol) → CMVal c
  | .extents => ⟨below G.numDims G.cells, fun i => if (i : Nat) < G.numDims then G.cells.b i - 1 else 1⟩
  | .coords => fun _ => 0
  | .coefs => fun i => (List.range m).map fun k => if (i : Nat) < G.numDims then 0 else if k = 0 then 1 else 0
  | .destinations => below G.numDims G.otherGlobal
  | .ranks => (-1 : Int)

/-- `Resize(NumDonors, MaxStencilSize)`. -/
def connectivityM (G : Grids) : Kind Nat CMVal Unit where
  dflt := cmDefault G
  hook _ _ d := some d
  zero := ()

end Ovk.Rec
