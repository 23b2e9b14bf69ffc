/-
Model of the decomposition helpers: src/core/Partition.cpp (CreateSubregions), src/core/Decomp.cpp,
src/core/Grid.cpp (constructor chain), src/core/AssemblerAssembly.cpp (MakeCellCoverRange, subdivide).
-/
import Verif.Model.Cart
import Mathlib.Data.List.FinRange

namespace Ovk
variable {d : Nat}

/-- `CreateSubregions` (Partition.cpp:28-47), along one split dimension `dim` (`NumDims-1` in the
code).  `none` is the division by zero for `NumSubregions = 0`. -/
def createSubregions (dim : Fin d) (r : Rng d) (n : Nat) : Option (List (Rng d)) :=
  if n = 0 then none
  else
    let size := r.size dim
    let sub := size.tdiv n
    let rem := size - n * sub
    some ((List.range n).map fun (k : Nat) =>
      ⟨fun i => if i = dim then r.b dim + sub * k + min rem k else r.b i,
       fun i => if i = dim then r.b dim + sub * (k + 1) + min rem (k + 1) else r.e i⟩)

/-- `ExtendLocalRange` (Decomp.cpp:104-119). -/
def extendLocalRange (c : Cart d) (r : Rng d) (n : Int) : Rng d :=
  ⟨fun i => if r.b i ≠ c.range.b i ∨ c.periodic i = true then r.b i - n else r.b i,
   fun i => if r.e i ≠ c.range.e i ∨ c.periodic i = true then r.e i + n else r.e i⟩

/-- `CartPointToCell` (Decomp.cpp:121-139). -/
def cartPointToCell (c : Cart d) : Cart d :=
  ⟨⟨c.range.b, fun i =>
      if c.periodic i = true ∧ c.storage = .unique then c.range.e i else c.range.e i - 1⟩,
    c.periodic, .unique⟩

/-- `RangePointToCell` (Decomp.cpp:141-157). -/
def rangePointToCell (c : Cart d) (r : Rng d) : Rng d :=
  ⟨r.b, fun i =>
    if r.e i ≠ c.range.e i ∨ (c.periodic i = true ∧ c.storage = .unique) then r.e i
    else r.e i - 1⟩

/-- `RangeCellToPointAll` (Decomp.cpp:159-170). -/
def rangeCellToPointAll (r : Rng d) : Rng d := ⟨r.b, fun i => r.e i + 1⟩

/-- `CartIncludeExteriorPoint` (Decomp.cpp:172-191). -/
def cartIncludeExterior (c : Cart d) : Cart d :=
  ⟨⟨fun i => if c.periodic i = false then c.range.b i - 1 else c.range.b i,
    fun i => if c.periodic i = false then c.range.e i + 1 else c.range.e i⟩,
    c.periodic, c.storage⟩

/-- `RangeIncludeExteriorPoint` (Decomp.cpp:193-212). -/
def rangeIncludeExterior (c : Cart d) (r : Rng d) : Rng d :=
  ⟨fun i => if c.periodic i = false ∧ r.b i = c.range.b i then r.b i - 1 else r.b i,
   fun i => if c.periodic i = false ∧ r.e i = c.range.e i then r.e i + 1 else r.e i⟩

/-- Local cell range of a grid (Grid.cpp:53-58). -/
def cellLocalRange (c : Cart d) (r : Rng d) : Rng d := rangePointToCell c r

/-- Extended cell range of a grid (Grid.cpp:60-64). -/
def cellExtendedRange (c : Cart d) (r : Rng d) : Rng d :=
  extendLocalRange (cartPointToCell c) (cellLocalRange c r) 2

/-- Extended point range of a grid (Grid.cpp:66-71). -/
def gridExtendedRange (c : Cart d) (r : Rng d) : Rng d :=
  rangeCellToPointAll (cellExtendedRange c r)

/-- `MakeCellCoverRange` (AssemblerAssembly.cpp:232-248). -/
def makeCellCoverRange (c : Cart d) (r : Rng d) : Rng d :=
  ⟨fun i => if r.b i > c.range.b i ∨ (c.periodic i = true ∧ r.e i ≠ c.range.e i) then r.b i - 1
      else r.b i,
   r.e⟩

/-- The split dimension: first longest dimension (AssemblerAssembly.cpp:318-324). -/
def longestDim (r : Rng (d + 1)) : Fin (d + 1) :=
  (List.finRange (d + 1)).foldl (fun best i => if r.size i > r.size best then i else best) 0

/-- `subdivide::Subdivide_` (AssemblerAssembly.cpp:310-358).  `compact` stands for the test
`NumCells <= MaxCells_ && UnoccupiedVolume <= MaxUnoccupiedVolume_ * BaseVolume` (lines 313-316), which
depends on geometry and is left arbitrary; `fuel` is `MaxDepth - Depth`. -/
def subdivide (active : Tup (d + 1) → Bool) (compact : Rng (d + 1) → Bool) :
    Nat → Rng (d + 1) → List (Rng (d + 1))
  | fuel, r =>
    match fuel, compact r with
    | 0, _ | _, true => if r.points.any active then [r] else []
    | fuel + 1, false =>
      let i := longestDim r
      let s := (r.b i + r.e i).tdiv 2
      subdivide active compact fuel ⟨r.b, Function.update r.e i s⟩ ++
        subdivide active compact fuel ⟨Function.update r.b i s, r.e⟩

end Ovk
