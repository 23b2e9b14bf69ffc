/-
Model of `ForEach` (src/core/ForEach.hpp:32-94): nested loops over an interval of any rank, made by recursion over templates;
and of filling a part of an array with it.

A function with a state stands for a function with side effects.  Simplified: passing the elements of a tuple as separate
arguments or as `elem` is the same here (the two overloads of each innermost helper differ in nothing else).
-/
import Verif.Model.Array

namespace Ovk.Each

open Indexer (Layout)

variable {σ : Type}

/-- `for (T i = Begin; i < End; ++i)`, with the number of passes left. -/
def loop (body : σ → Int → σ) : Nat → Int → σ → σ
  | 0, _, s => s
  | m + 1, i, s => loop body m (i + 1) (body s i)

/-- The loop over one dimension. -/
def over (ext : List (Int × Int)) (dim : Nat) (body : σ → Int → σ) (s : σ) : σ :=
  match ext[dim]? with
  | some x => loop body (x.2 - x.1).toNat x.1 s
  | none => s

/-- `helper<N, I, ROW_MAJOR>::ForEach` (ForEach.hpp:33-41; 51-67 for `I = 0`). -/
def row (ext : List (Int × Int)) (func : σ → List Int → σ) : Nat → List Int → σ → σ
  | 0, tuple => over ext (ext.length - 1) fun s i => func s (tuple ++ [i])
  | I + 1, tuple => over ext (ext.length - 1 - (I + 1)) fun s i => row ext func I (tuple ++ [i]) s

/-- `helper<N, I, COLUMN_MAJOR>::ForEach` (ForEach.hpp:42-50; 68-84 for `I = 0`). -/
def col (ext : List (Int × Int)) (func : σ → List Int → σ) : Nat → List Int → σ → σ
  | 0, tuple => over ext 0 fun s i => func s (i :: tuple)
  | I + 1, tuple => over ext (I + 1) fun s i => col ext func I (i :: tuple) s

/-- `ForEach` (ForEach.hpp:88-94). -/
def forEach (l : Layout) (ext : List (Int × Int)) (func : σ → List Int → σ) (s : σ) : σ :=
  match l with
  | .row => row ext func (ext.length - 1) [] s
  | .col => col ext func (ext.length - 1) [] s

/-- `array_view::Fill(Interval, Value)` (src/core/ArrayView.hpp:147-153); `none` when something outside of the array is
written. -/
def fill {α : Type} (l : Layout) (a : Arr.Arr α) (interval : List (Int × Int)) (v : α) : Option (Arr.Arr α) :=
  (forEach l interval (fun (s : Option (List α)) t => s.bind fun values => Arr.put l a.ext values t v)
    (some a.values)).map (⟨·, a.ext⟩)

end Ovk.Each
