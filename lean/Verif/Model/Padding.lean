/-
Model of grids of `NumDims` dimensions in a program that stores `MAX_DIMS` of them: `grid::params` (src/core/Grid.hpp:53-78,
src/core/Grid.cpp:192-312) with its C interface (src/core-c/Grid.cpp:196-371), `cart` (src/core/Cart.hpp, Cart.inl), the
functions of src/core/Decomp.cpp:104-212, the ranges in the constructor of a grid (Grid.cpp:48-89) and other functions with
loops up to `NumDims`.

The rest of the model has as many dimensions as the grid; this file has `D` of them (`MAX_DIMS`, 3 in the code), so that
the two can be compared.  Functions of the code with loops over all `MAX_DIMS` dimensions are those of `Verif.Model.Range`
and `Verif.Model.Cart` with `d := D`.  A failed assertion is `none` (assertions are there with `OVK_DEBUG`).
-/
import Verif.Model.Decomp
import Verif.Model.Indexer

namespace Ovk.Pad
variable {D : Nat}

/-- `cart` (Cart.hpp:58-61). -/
structure PCart (D : Nat) where
  dims : Nat
  range : Rng D
  periodic : Fin D → Bool
  storage : PStorage
  deriving DecidableEq

/-- Without `NumDims_`, for functions with loops over all dimensions (Cart.inl:21-102). -/
def PCart.cart (c : PCart D) : Cart D := ⟨c.range, c.periodic, c.storage⟩

/-- A loop `for (int iDim = 0; iDim < NumDims; ++iDim)` that assigns to `Begin(iDim)` and `End(iDim)` of a range. -/
def assign (dims : Nat) (r : Rng D) (b e : Tup D) : Rng D :=
  ⟨fun i => if i.val < dims then b i else r.b i, fun i => if i.val < dims then e i else r.e i⟩

/-- The range that is 0 to 1 in all dimensions, before the loop over the dimensions that are used. -/
def unit : Rng D := ⟨fun _ => 0, fun _ => 1⟩

/-- `MakeEmptyRange` (Range.inl:6-21). -/
def emptyRange (dims : Nat) : Rng D := assign dims unit (fun _ => 0) (fun _ => 0)

/-! ### Index arithmetic -/

/-- `ExtendLocalRange` (Decomp.cpp:104-119), and with 1 in `DetectNeighbors` (Decomp.cpp:30-38). -/
def PCart.extendLocal (c : PCart D) (r : Rng D) (n : Int) : Rng D :=
  assign c.dims r (fun i => if r.b i ≠ c.range.b i ∨ c.periodic i = true then r.b i - n else r.b i)
    fun i => if r.e i ≠ c.range.e i ∨ c.periodic i = true then r.e i + n else r.e i

/-- `CartPointToCell` (Decomp.cpp:121-139). -/
def PCart.pointToCell (c : PCart D) : PCart D where
  dims := c.dims
  range := assign c.dims (emptyRange c.dims) c.range.b
    fun i => if c.periodic i = true ∧ c.storage = .unique then c.range.e i else c.range.e i - 1
  periodic := c.periodic
  storage := .unique

/-- `RangePointToCell` (Decomp.cpp:141-157). -/
def PCart.rangePointToCell (c : PCart D) (r : Rng D) : Rng D :=
  assign c.dims (emptyRange c.dims) r.b fun i =>
    if r.e i ≠ c.range.e i ∨ (c.periodic i = true ∧ c.storage = .unique) then r.e i else r.e i - 1

/-- `RangeCellToPointAll` (Decomp.cpp:159-170). -/
def PCart.rangeCellToPointAll (c : PCart D) (r : Rng D) : Rng D :=
  assign c.dims (emptyRange c.dims) r.b fun i => r.e i + 1

/-- `CartIncludeExteriorPoint` (Decomp.cpp:172-191). -/
def PCart.includeExterior (c : PCart D) : PCart D where
  dims := c.dims
  range := assign c.dims (emptyRange c.dims)
    (fun i => if c.periodic i = false then c.range.b i - 1 else c.range.b i)
    fun i => if c.periodic i = false then c.range.e i + 1 else c.range.e i
  periodic := c.periodic
  storage := c.storage

/-- `RangeIncludeExteriorPoint` (Decomp.cpp:193-212). -/
def PCart.rangeIncludeExterior (c : PCart D) (r : Rng D) : Rng D :=
  assign c.dims (emptyRange c.dims)
    (fun i => if c.periodic i = false ∧ r.b i = c.range.b i then r.b i - 1 else r.b i)
    fun i => if c.periodic i = false ∧ r.e i = c.range.e i then r.e i + 1 else r.e i

/-- `MakeCellCoverRange` (AssemblerAssembly.cpp:232-248). -/
def PCart.cellCover (c : PCart D) (r : Rng D) : Rng D :=
  assign c.dims (emptyRange c.dims)
    (fun i => if r.b i > c.range.b i ∨ (c.periodic i = true ∧ r.e i ≠ c.range.e i) then r.b i - 1 else r.b i) r.e

/-- `cart::MapToRange(range,range)` (Cart.inl:104-161); `PeriodSearchRange` (131-138) depends on `NumDims_`. -/
def PCart.mapRange (c : PCart D) (r o : Rng D) : Res (Option (Rng D)) :=
  if rangesOverlap r o then .ok (some o)
  else
    match c.cart.mapTupleToRange r o.b with
    | some nb => .ok (some (Cart.rebase o nb))
    | none =>
      match c.cart.mapTupleToRange c.range r.b, c.cart.mapTupleToRange c.range o.b with
      | some rb, some ob =>
        .ok ((assign c.dims unit (fun _ => -1) fun _ => 1).points.foldl (fun acc k =>
          if rangesOverlap (Cart.rebase r rb) (c.cart.shift (Cart.rebase o ob) k) then
            some (c.cart.shift (Cart.rebase o ob) k) else acc) none)
      | _, _ => .undef

/-- The points around a point or cell: `[-1,2)` for neighbours (DistributedFieldOps.cpp:132-140, 226-234, 267-275, 349-357),
`[-1,1)` for the cells of a point (AssemblerAssembly.cpp:2961-2969, 3086-3094), `[0,2)` for the points of a cell
(AssemblerAssembly.cpp:2502-2509, 4819-4826, 5270-5278). -/
def around (dims : Nat) (lo hi : Int) (p : Tup D) : Rng D := assign dims unit (fun i => p i + lo) fun i => p i + hi

/-- The loop that looks for the longest dimension in `Subdivide_` (AssemblerAssembly.cpp:318-324). -/
def longest (dims : Nat) (r : Rng (D + 1)) : Fin (D + 1) :=
  ((List.finRange (D + 1)).filter fun i => decide (i.val < dims)).foldl
    (fun best i => if r.size i > r.size best then i else best) 0

/-- `CreateSubregions` (Partition.cpp:28-47), in dimension `NumDims-1`. -/
def subregions (dims : Nat) (r : Rng D) (n : Nat) : Option (List (Rng D)) :=
  if h : dims - 1 < D then createSubregions ⟨dims - 1, h⟩ r n else none

/-! ### Parameters of grids -/

/-- `grid::params` (Grid.hpp:72-76).  `comm` is `none` for `MPI_COMM_NULL`. -/
structure Params where
  name : List Char
  dims : Nat
  comm : Option Nat
  cart : PCart 3
  loc : Rng 3

/-- The default values. -/
def Params.start : Params := ⟨"Grid".toList, 2, none, ⟨2, unit, fun _ => false, .unique⟩, unit⟩

/-- Calls of the functions that set parameters. -/
inductive Call
  | name (s : List Char)
  | dimension (k : Nat)
  | comm (c : Option Nat)
  | cart (c : PCart 3)
  | globalRange (r : Rng 3)
  | localRange (r : Rng 3)
  | periodic (p : Fin 3 → Bool)
  | storage (s : PStorage)

/-- `SetDimension` (Grid.cpp:200-224). -/
def Params.setDimension (p : Params) (k : Nat) : Params :=
  { p with
    dims := k
    cart := ⟨k, assign k (emptyRange k) p.cart.range.b p.cart.range.e, fun i => if i.val < k then p.cart.periodic i else false,
      p.cart.storage⟩
    loc := ⟨fun i => if k ≤ i.val then 0 else p.loc.b i, fun i => if k ≤ i.val then 1 else p.loc.e i⟩ }

/-- Whether the assertions hold (Grid.cpp:202, 228, 238-249, 259-265, 275-281, 290-295, 305-306). -/
def Params.allows (p : Params) : Call → Bool
  | .name _ => true
  | .dimension k => k == 2 || k == 3
  | .comm c => c.isSome
  | .cart c => c.dims == p.dims && decide (∀ i, c.range.b i = 0) && decide (∀ i, c.range.size i > 0) &&
      decide (c.storage = .unique)
  | .globalRange r => !r.empty && decide (∀ i : Fin 3, p.dims ≤ i.val → r.b i = 0 ∧ r.e i = 1)
  | .localRange r => !r.empty && decide (∀ i : Fin 3, p.dims ≤ i.val → r.b i = 0 ∧ r.e i = 1)
  | .periodic q => decide (∀ i : Fin 3, p.dims ≤ i.val → q i = false)
  | .storage s => decide (s = .unique)

/-- What the functions do (Grid.cpp:192-312). -/
def Params.apply (p : Params) : Call → Params
  | .name s => { p with name := s }
  | .dimension k => p.setDimension k
  | .comm c => { p with comm := c }
  | .cart c => { p with cart := c }
  | .globalRange r => { p with cart := { p.cart with range := r } }
  | .localRange r => { p with loc := r }
  | .periodic q => { p with cart := { p.cart with periodic := q } }
  | .storage s => { p with cart := { p.cart with storage := s } }

/-- A sequence of calls. -/
def Params.run (p : Params) : List Call → Option Params
  | [] => some p
  | c :: cs => if p.allows c then (p.apply c).run cs else none

/-- `ovkSetGridParamGlobalRange`, `ovkSetGridParamLocalRange` (core-c/Grid.cpp:294-305, 320-330) and
`ovkSetGridParamPeriodic` (343-351) read arrays of three values. -/
def fromArrays (b e : Nat → Int) : Rng 3 := ⟨fun i => b i.val, fun i => e i.val⟩

/-- `ovkGetGridParamGlobalRange`, `ovkGetGridParamLocalRange` (core-c/Grid.cpp:280-292, 307-318) and
`ovkGetGridGlobalRange`, `ovkGetGridLocalRange` (core-c/Grid.cpp:103-129) write arrays of three values; other elements of
the arrays of the program stay as they are. -/
def toArray (t : Tup 3) (a : Nat → Int) : Nat → Int := fun k => if h : k < 3 then t ⟨k, h⟩ else a k

/-! ### The grid -/

/-- Ranges of a grid on a process (Grid.cpp:48-89). -/
structure Grid (D : Nat) where
  cart : PCart D
  loc : Rng D
  extended : Rng D
  cellCart : PCart D
  cellLoc : Rng D
  cellExtended : Rng D

/-- The constructor of a grid from its parameters (Grid.cpp:48-89). -/
def create (cart : PCart D) (loc : Rng D) : Grid D :=
  let cellCart := cart.pointToCell
  let cellLoc := cart.rangePointToCell loc
  let cellExtended := cellCart.extendLocal cellLoc 2
  ⟨cart, loc, cart.rangeCellToPointAll cellExtended, cellCart, cellLoc, cellExtended⟩

end Ovk.Pad
