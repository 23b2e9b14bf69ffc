/-
Grids with straight, equally spaced lines in two dimensions: concrete worlds for the examples and
counterexamples on overlap detection.
-/
import Verif.Model.Overlap
import Mathlib.Data.List.Sort
import Mathlib.Data.Fin.VecNotation

namespace Ovk.Ovl
variable {n : Nat}

/-- Sorting of positions by their keys. -/
def argSort (ks : List Int) : List Nat :=
  (List.range ks.length).insertionSort fun a b => ks.getD a 0 ≤ ks.getD b 0

theorem argSort_sorted (ks : List Int) : Xch.StdSorted ks (argSort ks) := by
  refine ⟨List.perm_insertionSort _ _, ?_⟩
  haveI : Std.Total fun a b : Nat => ks.getD a 0 ≤ ks.getD b 0 := ⟨fun a b => le_total _ _⟩
  haveI : IsTrans Nat fun a b : Nat => ks.getD a 0 ≤ ks.getD b 0 := ⟨fun a b c => le_trans⟩
  exact (List.pairwise_insertionSort _ _).imp fun h => not_lt.2 h

/-- Position of a grid point. -/
def linear (org step : Pt 2) (p : Tup 2) : Pt 2 := fun i => org i + step i * (p i : Rat)

/-- Two dimensions, `n` processes of which `nb` hold the hash, one bin each. -/
def uniform (grids : List Nat) (cart : Nat → Cart 2) (loc : Nat → Fin n → Rng 2) (active : Nat → Tup 2 → Bool)
    (org step : Nat → Pt 2) (tol : Rat) (nb : Tup 2) : World 0 n where
  grids := grids
  cart := cart
  loc := loc
  active := active
  coord g := linear (org g) (step g)
  overlappable m k := m != k
  tol _ _ := tol
  orient _ _ i j := if i = j then 1 else 0
  bounds g _ c := ⟨linear (org g) (step g) c, linear (org g) (step g) fun i => c i + 1⟩
  coordsIn m c t x :=
    let u : Pt 2 := fun i => (x i - linear (org m) (step m) c i) / step m i
    if ∀ i, -t ≤ u i ∧ u i ≤ 1 + t then some u else none
  compact _ _ _ := true
  depth _ _ := 0
  nb := nb
  mult _ := 1
  order _ := List.range n
  tiny := 0
  big := 1
  axes _ := []
  binScale _ _ := 1
  isLeaf _ _ _ := true
  maxDepth _ _ := 0
  sort := argSort

end Ovk.Ovl
