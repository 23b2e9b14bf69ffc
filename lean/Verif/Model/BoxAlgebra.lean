/-
Model of the operations on boxes, `box = interval<double,MAX_DIMS>` (src/core/Box.inl, src/core/Box.hpp,
src/core/Interval.hpp), that are not in `Verif.Model.RegionHash`.

`double` is modelled by rationals with a rounding function `rnd` applied to every result of an addition, subtraction or
multiplication (`rnd = id` is exact arithmetic); comparisons are exact.  NaN, infinity and signed zero are not modelled.
-/
import Verif.Model.RegionHash

namespace Ovk.BoxA
variable {d : Nat}

/-- `MakeEmptyBox(NumDims)` (Box.inl:6-21): `d` is `MAX_DIMS`. -/
def makeEmpty (d nd : Nat) : Box d := ⟨fun _ => 0, fun i => if i.val < nd then -1 else 0⟩

/-- The constructor from a size (Interval.hpp:33-36). -/
def ofSize (s : Pt d) : Box d := ⟨fun _ => 0, s⟩

/-- `ExtendBox` (Box.inl:23-41). -/
def extend (r : Box d) (p : Pt d) : Box d :=
  if ¬ r.empty then ⟨fun i => min (r.b i) (p i), fun i => max (r.e i) (p i)⟩ else ⟨p, p⟩

/-- `BoxesOverlap` (Box.inl:43-50). -/
def overlap (l r : Box d) : Bool :=
  !l.empty && !r.empty && decide (∀ i, r.e i ≥ l.b i ∧ l.e i ≥ r.b i)

/-- `IntersectBoxes` (Box.inl:71-82). -/
def intersect (l r : Box d) : Box d := ⟨fun i => max (l.b i) (r.b i), fun i => min (l.e i) (r.e i)⟩

/-- `ClampToBox` (Box.inl:84-100). -/
def clamp (r : Box d) (p : Pt d) : Pt d := fun i =>
  if p i < r.b i then r.b i else if p i > r.e i then r.e i else p i

/-- `MoveBox` (Box.inl:102-113). -/
def move (rnd : Rat → Rat) (r : Box d) (a : Pt d) : Box d := ⟨fun i => rnd (r.b i + a i), fun i => rnd (r.e i + a i)⟩

/-- `GrowBox` (Box.inl:115-130). -/
def grow (rnd : Rat → Rat) (r : Box d) (a : Pt d) : Box d :=
  if r.empty then r else ⟨fun i => rnd (r.b i - a i), fun i => rnd (r.e i + a i)⟩

/-- `ScaleBox` (Box.inl:132-145). -/
def scale (rnd : Rat → Rat) (r : Box d) (f : Pt d) : Box d :=
  let center := fun i => rnd (1 / 2 * rnd (r.b i + r.e i))
  let half := fun i => rnd (rnd (1 / 2 * f i) * rnd (r.e i - r.b i))
  ⟨fun i => rnd (center i - half i), fun i => rnd (center i + half i)⟩

/-- `Includes` (Interval.hpp:206-208, 80-89). -/
def includes (r o : Box d) : Bool := o.empty || decide (∀ i, r.b i ≤ o.b i ∧ r.e i ≥ o.e i)

/-- `VolumeCountHelper_` (Interval.hpp:69-78) on the list of sizes. -/
def product (rnd : Rat → Rat) : List Rat → Rat
  | [] => 1
  | [a] => a
  | a :: b :: l => rnd (a * product rnd (b :: l))

/-- `Volume` (Interval.hpp:194-196). -/
def volume (rnd : Rat → Rat) (r : Box d) : Rat := product rnd ((List.finRange d).map (r.size rnd))

end Ovk.BoxA
