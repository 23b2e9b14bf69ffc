/-
Model of disperse operations: src/core/DisperseMap.cpp, src/core/DisperseBase.cpp,
src/core/DisperseOverwrite.hpp, src/core/DisperseAppend.hpp.

A field is a memory addressed by the linear index in the values range; `none` is an access outside the
field or outside the packed values (undefined behaviour).  Simplified: arithmetic on values is an
arbitrary binary operation.
-/
import Verif.Model.FieldIndex

namespace Ovk.Disp
variable {d : Nat} {V : Type}

/-- The loop over `iCount` for one point: every component of the field is combined with the packed
value (DisperseOverwrite.hpp:70-72 with `op old new = new`, DisperseAppend.hpp:70-72 with `+=`). -/
def storePoint (op : V → V → V) (count : Nat) (iField : Int) (v : Nat → V) (field : Nat → Int → V) :
    Nat → Int → V :=
  (List.range count).foldl
    (fun f c => fun c' j => if c' = c ∧ j = iField then op (f c' j) (v c) else f c' j) field

/-- Loop over the points, starting at point number `k` (DisperseOverwrite.hpp:63-73,
DisperseAppend.hpp:63-73).  `Points.Size(1)` points; the packed views have the same length
(DisperseBase.cpp:48-51), so only the field access can be out of bounds. -/
def loop (op : V → V → V) (l : Indexer.Layout) (r : Rng d) (count : Nat) (packed : Nat → Nat → V) :
    Nat → List (Tup d) → (Nat → Int → V) → Option (Nat → Int → V)
  | _, [], field => some field
  | k, p :: ps, field =>
    let iField := r.index l p
    if 0 ≤ iField ∧ iField < r.count then
      loop op l r count packed (k + 1) ps (storePoint op count iField (fun c => packed c k) field)
    else none

/-- `disperse_overwrite::Disperse` (DisperseOverwrite.hpp:55-75). -/
def overwrite (l : Indexer.Layout) (r : Rng d) (count : Nat) (points : List (Tup d))
    (packed : Nat → Nat → V) (field : Nat → Int → V) : Option (Nat → Int → V) :=
  loop (fun _ v => v) l r count packed 0 points field

/-- `disperse_append::Disperse` (DisperseAppend.hpp:55-75). -/
def append (add : V → V → V) (l : Indexer.Layout) (r : Rng d) (count : Nat) (points : List (Tup d))
    (packed : Nat → Nat → V) (field : Nat → Int → V) : Option (Nat → Int → V) :=
  loop add l r count packed 0 points field

end Ovk.Disp
