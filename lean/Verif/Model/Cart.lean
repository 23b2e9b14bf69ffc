/-
Model of `cart` (src/core/Cart.inl, src/core/Cart.hpp): a possibly periodic index space.
-/
import Verif.Model.Range

namespace Ovk

/-- `periodic_storage` (Cart.h). -/
inductive PStorage | unique | duplicated
  deriving DecidableEq

/-- `cart` (Cart.inl:6-19); `NumDims_` is `d`. -/
structure Cart (d : Nat) where
  range : Rng d
  periodic : Fin d → Bool
  storage : PStorage

namespace Cart
variable {d : Nat}

/-- `cart::GetPeriodSize` (Cart.inl:21-42). -/
def periodSize (c : Cart d) (i : Fin d) : Int :=
  match c.storage with
  | .unique => c.range.size i
  | .duplicated => c.range.size i - (if c.periodic i then 1 else 0)

/-- `cart::GetPeriod` (Cart.inl:44-61), dimension `i`.  The division by a zero period is guarded in
the theorems by `0 < periodSize`. -/
def period (c : Cart d) (t : Tup d) (i : Fin d) : Int :=
  if c.periodic i then
    let offset := t i - c.range.b i
    offset.tdiv (c.periodSize i) - (if offset.tmod (c.periodSize i) < 0 then 1 else 0)
  else 0

/-- `cart::PeriodicAdjust` (Cart.inl:63-78). -/
def periodicAdjust (c : Cart d) (t : Tup d) : Tup d := fun i =>
  if c.periodic i then
    let m := (t i - c.range.b i).tmod (c.periodSize i)
    c.range.b i + m + c.periodSize i * (if m < 0 then 1 else 0)
  else t i

/-- The candidate computed by `cart::MapToRange(range,tuple)` (Cart.inl:82-92). -/
def mapCandidate (c : Cart d) (r : Rng d) (t : Tup d) : Tup d := fun i =>
  let m := t i + c.periodSize i * (c.period r.b i - c.period t i)
  if m < r.b i then m + c.periodSize i else m

/-- `cart::MapToRange(range,tuple)` (Cart.inl:80-102). -/
def mapTupleToRange (c : Cart d) (r : Rng d) (t : Tup d) : Option (Tup d) :=
  let m := c.mapCandidate r t
  if r.contains m then some m else none

/-- Translate of a range, `AdjustedOtherRange + PeriodSize*Period` (Cart.inl:144-150). -/
def shift (c : Cart d) (r : Rng d) (k : Tup d) : Rng d :=
  ⟨fun i => r.b i + c.periodSize i * k i, fun i => r.e i + c.periodSize i * k i⟩

/-- A range rebased at a new lower corner: `{NewBegin, NewBegin + Range.Size()}`
(Cart.inl:117-118, 126-130). -/
def rebase (r : Rng d) (nb : Tup d) : Rng d := ⟨nb, fun i => nb i + r.size i⟩

end Cart

/-- All period vectors with entries in {-1,0} in the order of the nested loops of
`cart::MapToRange(range,range)` (Cart.inl:131-142): first dimension fastest. -/
def periodSearch : (d : Nat) → List (Tup d)
  | 0 => [fun i => i.elim0]
  | d + 1 =>
    -- outer loop over the last dimension, inner loops over the first `d`
    [-1, 0].flatMap fun (k : Int) => (periodSearch d).map fun t => Fin.snoc (α := fun _ => Int) t k

/-- Outcome of a computation that may reach undefined behaviour. -/
inductive Res (α : Type) | undef | ok (a : α)

instance {α : Type} [DecidableEq α] : DecidableEq (Res α) := fun x y =>
  match x, y with
  | .undef, .undef => .isTrue rfl
  | .undef, .ok _ => .isFalse (by simp)
  | .ok _, .undef => .isFalse (by simp)
  | .ok a, .ok b => decidable_of_iff (a = b) (by simp)

namespace Cart
variable {d : Nat}

/-- `cart::MapToRange(range,range)` (Cart.inl:104-161).  Dereferencing the empty optional at
Cart.inl:126/129 is `undef`.  The loop keeps the last overlapping candidate. -/
def mapRangeToRange (c : Cart d) (r o : Rng d) : Res (Option (Rng d)) :=
  if rangesOverlap r o then .ok (some o)
  else
    match c.mapTupleToRange r o.b with
    | some nb => .ok (some (rebase o nb))
    | none =>
      match c.mapTupleToRange c.range r.b, c.mapTupleToRange c.range o.b with
      | some rb, some ob =>
        let adjR := rebase r rb
        let adjO := rebase o ob
        .ok ((periodSearch d).foldl
          (fun acc k => if rangesOverlap adjR (c.shift adjO k) then some (c.shift adjO k) else acc)
          none)
      | _, _ => .undef

end Cart
end Ovk
