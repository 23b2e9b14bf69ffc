/-
Model of filling a range of a distributed field: src/core/DistributedField.hpp (`distributed_field::Fill(range, value)`,
125-150), src/core/ArrayView.hpp (`Fill(interval, value)`, 147-153).

All processes at once.  The values of a process are a memory addressed by the column-major index in its extended
range, as in `Model/Halo`.  `Exchange()` at the end is the transition system of `Model/Halo`; the request it returns is a
temporary whose destructor waits (Request.hpp), so that `Fill` returns only when the exchange has completed.
-/
import Verif.Model.Halo

namespace Ovk.DField
open Ovk.Halo
variable {d n : Nat} {V : Type}

/-- Where one iteration of the loop writes, if anywhere (DistributedField.hpp:135-143). -/
def fillAt (c : Cart d) (loc : Rng d) (p : Tup d) : Option (Tup d) :=
  if loc.contains p then some p
  else if loc.contains (c.periodicAdjust p) then some (c.periodicAdjust p)
  else none

/-- Points written by `Fill(Range, Value)` on a process, in order (DistributedField.hpp:126-147). -/
def fillPoints (c : Cart d) (loc r : Rng d) : List (Tup d) :=
  if c.range.includes r then (intersectRanges loc r).points
  else r.points.filterMap (fillAt c loc)

/-- `Values_(Point) = Value` for every point written (ArrayView.hpp:147-153, DistributedField.hpp:137,141). -/
def writeAll (ext : Rng d) (m : Int → V) (ps : List (Tup d)) (v : V) : Int → V :=
  ps.foldl (fun m p => write m (ext.colIndex p) v) m

/-- Memory of every process when it calls `Exchange()` (DistributedField.hpp:148). -/
def fillLocal (s : Setup d n) (r : Rng d) (v : V) (f : Fin n → Int → V) : Fin n → Int → V := fun a =>
  writeAll (s.ext a) (f a) (fillPoints s.cart (s.loc a) r) v

/-- `Fill(Range, Value)` on all processes: the events of the exchange in any order. -/
def fill (s : Setup d n) (r : Rng d) (v : V) (f : Fin n → Int → V) (es : List (Event n)) : Option (State n V) :=
  run s (initial (fillLocal s r v f)) es

end Ovk.DField
