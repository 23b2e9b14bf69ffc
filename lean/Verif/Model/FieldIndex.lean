/-
Linear indices of the points of a range: `indexer::ToIndex`/`ToTuple` (src/core/Indexer.hpp:290-376)
applied to a `range`, as done by `field_indexer` (Field.hpp:16, column-major) and `range_indexer`
(Range.hpp:28-33).
-/
import Verif.Model.Range
import Verif.Model.Indexer
import Mathlib.Data.List.OfFn

namespace Ovk
variable {d : Nat}

/-- Extents of a range in the form the indexer wants. -/
def Rng.ext (r : Rng d) : List (Int × Int) := List.ofFn fun i => (r.b i, r.e i)

/-- `indexer::ToIndex` of a tuple of a range. -/
def Rng.index (l : Indexer.Layout) (r : Rng d) (p : Tup d) : Int :=
  Indexer.toIndex l r.ext (List.ofFn p)

/-- `indexer::ToTuple` of a linear index of a range. -/
def Rng.tuple (l : Indexer.Layout) (r : Rng d) (idx : Int) : Tup d := fun i =>
  (Indexer.toTuple l r.ext idx)[(i : Nat)]?.getD 0

/-- Column-major index (`field_indexer`, `range_indexer_c`). -/
abbrev Rng.colIndex (r : Rng d) (p : Tup d) : Int := r.index .col p

end Ovk
