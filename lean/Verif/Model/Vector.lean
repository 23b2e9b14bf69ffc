/-
Model of how lists of values are assigned to `vector` (src/core/Vector.hpp:31-88, 141-163), which stores `bool` as an
enumeration and then does without `std::vector::assign`.
-/
import Verif.Model.Array

namespace Ovk.Vec

/-- `for (auto &Value : Values) Value = *Iter++;` (Vector.hpp:54-56, 71-73, 82-84): the new values, and what `Iter` has
yet to read; `none` when it is dereferenced behind the end. -/
def overwrite {α : Type} : List α → List α → Option (List α × List α)
  | [], src => some ([], src)
  | _ :: _, [] => none
  | _ :: vs, x :: src => (overwrite vs src).map fun q => (x :: q.1, q.2)

/-- `while (Iter != End) Values.push_back(*Iter++);` (Vector.hpp:57-59, 74-76, 85-87). -/
def pushAll {α : Type} : List α → List α → List α
  | vs, [] => vs
  | vs, x :: src => pushAll (vs ++ [x]) src

/-- `AssignInitializerList` and `AssignIterators` for `bool` (Vector.hpp:50-60, 67-77, 78-88). -/
def assignBool (values src : List Bool) : Option (List Bool) :=
  (overwrite values src).map fun q => pushAll q.1 q.2

/-- `AssignInitializerList` and `AssignIterators` for other types, which call `std::vector::assign` (Vector.hpp:46-49,
62-66). -/
def assign {α : Type} (_values src : List α) : Option (List α) := some src

/-- `ConstructFromInitializerList` for `bool` (Vector.hpp:35-44). -/
def constructBool (src : List Bool) : List Bool := pushAll [] src

/-- `array::Assign(Extents, ValuesList)` (src/core/Array.hpp:131-137) with either kind of element. -/
def arrAssign {α : Type} (f : List α → List α → Option (List α)) (a : Arr.Arr α) (ext : List (Int × Int))
    (src : List α) : Option (Arr.Arr α) := (f a.values src).map (⟨·, ext⟩)

end Ovk.Vec
