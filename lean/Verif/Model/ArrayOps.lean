/-
Model of the operations on whole arrays (src/core/ArrayOps.hpp:24-335, 375-401, 460-702).
-/
import Mathlib.Data.List.Range

namespace Ovk.ArrOps

/-- Conversion of a `long long` to `int` (two's complement, 32 bits; implementation-defined in C++11, and this on all
platforms the library supports). -/
def toInt32 (x : Int) : Int := (x + 2 ^ 31) % 2 ^ 32 - 2 ^ 31

/-- `Array[i]` for `array` (Array.hpp:710-711) and `array_view` (ArrayView.hpp:333), whose operator has a parameter of type
`int`; `none` outside of the elements. -/
def at32 {α : Type} (values : List α) (i : Nat) : Option α :=
  if 0 ≤ toInt32 i then values[(toInt32 i).toNat]? else none

variable {α β γ : Type}

/-- `for (long long i = First; i < NumValues; ++i) Func(State, Array[i]);` with the remaining number of passes. -/
def loop (func : β → α → β) (values : List α) : Nat → Nat → β → Option β
  | 0, _, s => some s
  | m + 1, i, s => (at32 values i).bind fun x => loop func values m (i + 1) (func s x)

/-- `ArrayReduce` of arrays (ArrayOps.hpp:178-193). -/
def reduce (func : β → α → β) (base : β) (values : List α) : Option β := loop func values values.length 0 base

/-- `for (auto &Value : View)`: an iterator runs from `Begin()` to `End()`, at most `m` times. -/
def iterate (func : β → α → β) (values : List α) : Nat → Nat → β → Option β
  | 0, i, s => if i = values.length then some s else Option.none
  | m + 1, i, s => if i = values.length then some s
      else (values[i]?).bind fun x => iterate func values m (i + 1) (func s x)

/-- `ArrayReduce` of views (ArrayOps.hpp:195-208), which uses iterators. -/
def reduceView (func : β → α → β) (base : β) (values : List α) : Option β :=
  iterate func values values.length 0 base

/-- `ArrayForEach` of arrays (ArrayOps.hpp:24-34) with a function that changes the element and a state of its own;
every element is accessed at the index it is read from. -/
def forEach (func : γ → α → γ × α) : Nat → Nat → γ → List α → Option (γ × List α)
  | 0, _, s, values => some (s, values)
  | m + 1, i, s, values => (at32 values i).bind fun x =>
      forEach func m (i + 1) (func s x).1 (values.set (toInt32 i).toNat (func s x).2)

/-- `ArrayTransform` (ArrayOps.hpp:46-103) into a target that has `out.length` elements. -/
def transform (func : α → β) (values : List α) : Nat → Nat → List β → Option (List β)
  | 0, _, out => some out
  | m + 1, i, out => (at32 values i).bind fun x => (at32 out i).bind fun _ =>
      transform func values m (i + 1) (out.set (toInt32 i).toNat (func x))

/-- `ArrayCollapse` of arrays (ArrayOps.hpp:296-317); the assertion is outside of the model, an empty array has no
element to start with. -/
def collapse (func : α → α → α) (values : List α) : Option α :=
  (at32 values 0).bind fun x => loop func values (values.length - 1) 1 x

/-- The largest `int`. -/
def intMax : Nat := 2 ^ 31 - 1

/-- `for (int i = First; i < View.Count(); ++i) Func(Result, View[i]);`: the counter must not overflow. -/
def loopInt (func : β → α → β) (values : List α) : Nat → Nat → β → Option β
  | 0, _, s => some s
  | m + 1, i, s => (at32 values i).bind fun x => if i + 1 ≤ intMax then loopInt func values m (i + 1) (func s x) else none

/-- `ArrayCollapse` of views (ArrayOps.hpp:319-335). -/
def collapseView (func : α → α → α) (values : List α) : Option α :=
  (at32 values 0).bind fun x => loopInt func values (values.length - 1) 1 x

/-- `ArrayNone`, `ArrayAny`, `ArrayNotAll`, `ArrayAll` with a condition (ArrayOps.hpp:460-630); without one, the condition is
the conversion to `bool`. -/
def none (cond : α → Bool) (values : List α) : Option Bool := reduce (fun p x => p && !cond x) true values
def any (cond : α → Bool) (values : List α) : Option Bool := reduce (fun p x => p || cond x) false values
def notAll (cond : α → Bool) (values : List α) : Option Bool := reduce (fun p x => p || !cond x) false values
def all (cond : α → Bool) (values : List α) : Option Bool := reduce (fun p x => p && cond x) true values

/-- `ArrayMin`, `ArrayMax`, `ArraySum` (ArrayOps.hpp:632-712) for integers; `Min` and `Max` as in ScalarOps.hpp:13-21. -/
def min (values : List Int) : Option Int := collapse (fun p x => if x < p then x else p) values
def max (values : List Int) : Option Int := collapse (fun p x => if p < x then x else p) values
def sum (values : List Int) : Option Int := collapse (fun p x => p + x) values

/-- `ArrayFill` from an iterator or a list (ArrayOps.hpp:375-401): the state is what can still be read, and whether the
end was passed. -/
def fillFrom (values src : List α) : Option (List α) :=
  (forEach (fun (s : Option (List α)) x => match s with
    | some (y :: s) => (some s, y)
    | _ => (Option.none, x)) values.length 0 (some src) values).bind fun q =>
  match q.1 with
  | some _ => some q.2
  | Option.none => Option.none

end Ovk.ArrOps
