/- Linear indices of the points of a range: bounds, round trips, and loop order. -/
import Verif.Model.FieldIndex
import Verif.Props.Indexer
import Verif.Props.Range
import Mathlib.Algebra.BigOperators.Fin
import Mathlib.Algebra.Order.BigOperators.Ring.Finset

namespace Ovk
open Indexer
variable {d : Nat}

theorem inside_iff_getElem : ∀ (ext : List (Int × Int)) (t : List Int),
    Inside ext t ↔ ext.length = t.length ∧
      ∀ (k : Nat) (x : Int × Int) (y : Int), ext[k]? = some x → t[k]? = some y → x.1 ≤ y ∧ y < x.2
  | [], [] => by simp [Inside]
  | [], _ :: _ => by simp [Inside]
  | _ :: _, [] => by simp [Inside]
  | x :: xs, t :: ts => by
    simp only [Inside, inside_iff_getElem xs ts, List.length_cons, Nat.add_right_cancel_iff]
    constructor
    · rintro ⟨h1, h2, h3, h4⟩
      refine ⟨h3, ?_⟩
      intro k a b ha hb
      cases k with
      | zero => simp at ha hb; subst ha; subst hb; exact ⟨h1, h2⟩
      | succ k => simp at ha hb; exact h4 k a b ha hb
    · rintro ⟨h3, h4⟩
      have h0 := h4 0 x t rfl rfl
      exact ⟨h0.1, h0.2, h3, fun k a b ha hb => h4 (k + 1) a b (by simpa using ha) (by simpa using hb)⟩

theorem Rng.inside_ext (r : Rng d) (p : Tup d) : Inside r.ext (List.ofFn p) ↔ Spec.pts r p := by
  rw [inside_iff_getElem]
  simp only [Rng.ext, List.length_ofFn, true_and]
  constructor
  · intro h i
    exact h i (r.b i, r.e i) (p i) (by simp) (by simp)
  · intro h k x y hx hy
    have hk : k < d := by
      by_contra hk
      rw [List.getElem?_eq_none (by simp; omega)] at hx; simp at hx
    simp [hk] at hx hy
    subst hx; subst hy; exact h ⟨k, hk⟩

theorem prodExt_ofFn : ∀ {d : Nat} (r : Rng d), prodExt r.ext = ∏ i, (r.e i - r.b i)
  | 0, r => by simp [Rng.ext, prodExt]
  | d + 1, r => by
    have := prodExt_ofFn (d := d) ⟨fun i => r.b i.succ, fun i => r.e i.succ⟩
    rw [Fin.prod_univ_succ, Rng.ext, List.ofFn_succ]
    simp only [prodExt, extent]
    rw [← this]; rfl

theorem Rng.count_eq_prod (r : Rng d) (h : ∀ i, r.b i < r.e i) : r.count = ∏ i, (r.e i - r.b i) := by
  unfold Rng.count
  apply Finset.prod_congr rfl
  intro i _; have := h i; unfold Rng.size; omega

theorem Rng.count_pos (r : Rng d) (h : ∀ i, r.b i < r.e i) : 0 < r.count := by
  rw [r.count_eq_prod h]
  exact Finset.prod_pos fun i _ => by have := h i; omega

/-- Indices of points of the range lie in `[0, count)`. -/
theorem Rng.index_bounds (l : Layout) (r : Rng d) (p : Tup d) (hp : Spec.pts r p) :
    0 ≤ r.index l p ∧ r.index l p < r.count := by
  have hi := (r.inside_ext p).2 hp
  have hne : ∀ i, r.b i < r.e i := fun i => by have := hp i; omega
  have h := C01_index_in_range l r.ext (List.ofFn p) ((inExtents_iff _ _).2 hi)
  refine ⟨h.1, ?_⟩
  rw [r.count_eq_prod hne, ← prodExt_ofFn, ← count_eq (allPos_of_inside hi)]
  exact h.2

theorem Rng.index_inj (l : Layout) (r : Rng d) (p q : Tup d) (hp : Spec.pts r p) (hq : Spec.pts r q)
    (h : r.index l p = r.index l q) : p = q := by
  have := C01_injective l r.ext (List.ofFn p) (List.ofFn q) ((inExtents_iff _ _).2 ((r.inside_ext p).2 hp))
    ((inExtents_iff _ _).2 ((r.inside_ext q).2 hq)) h
  exact List.ofFn_injective this

theorem Rng.tuple_index (l : Layout) (r : Rng d) (p : Tup d) (hp : Spec.pts r p) :
    r.tuple l (r.index l p) = p := by
  have := C01_tuple_roundtrip l r.ext (List.ofFn p) ((inExtents_iff _ _).2 ((r.inside_ext p).2 hp))
  funext i
  unfold Rng.tuple Rng.index
  rw [this]; simp

theorem dotC_append : ∀ (xs : List (Int × Int)) (ts : List Int) (_ : xs.length = ts.length)
    (x : Int × Int) (t a : Int),
    dot (stridesC a (xs ++ [x])) (xs ++ [x]) (ts ++ [t]) =
      dot (stridesC a xs) xs ts + a * prodExt xs * (t - x.1)
  | [], [], _, x, t, a => by simp [stridesC, dot, prodExt]
  | y :: ys, u :: us, h, x, t, a => by
    have ih := dotC_append ys us (by simpa using h) x t (extent y * a)
    simp only [List.cons_append, stridesC, dot, ih, prodExt]; ring
  | [], _ :: _, h, _, _, _ => by simp at h
  | _ :: _, [], h, _, _, _ => by simp at h

/-- All but the last dimension of a range. -/
def Rng.init (r : Rng (d + 1)) : Rng d := ⟨fun i => r.b i.castSucc, fun i => r.e i.castSucc⟩

theorem Rng.ext_succ (r : Rng (d + 1)) :
    r.ext = r.init.ext ++ [(r.b (Fin.last d), r.e (Fin.last d))] := by
  rw [Rng.ext, List.ofFn_succ']; simp [Rng.init, Rng.ext]

theorem Rng.colIndex_snoc (r : Rng (d + 1)) (t : Tup d) (k : Int) :
    r.colIndex (Fin.snoc (α := fun _ => Int) t k) =
      r.init.colIndex t + prodExt r.init.ext * (k - r.b (Fin.last d)) := by
  unfold Rng.colIndex Rng.index toIndex strides
  rw [Rng.ext_succ, List.ofFn_succ']
  simp only [Fin.snoc_castSucc, Fin.snoc_last, List.concat_eq_append]
  rw [dotC_append _ _ (by simp [Rng.ext])]
  ring

theorem flatMap_range_blocks (m n : Nat) :
    (List.range n).flatMap (fun (k : Nat) => (List.range m).map fun (j : Nat) => j + m * k) =
      List.range (m * n) := by
  induction n with
  | zero => simp
  | succ n ih =>
    rw [List.range_succ, List.flatMap_append, ih, Nat.mul_succ, List.range_add]
    simp only [List.flatMap_cons, List.flatMap_nil, List.append_nil]
    congr 1
    apply List.map_congr_left
    intro a _; omega

/-- The i-fastest loop over a range visits the column-major indices `0, 1, 2, …` in order. -/
theorem Rng.points_colIndex : ∀ {d : Nat} (r : Rng d) (_ : ∀ i, r.b i < r.e i),
    r.points.map r.colIndex = (List.range r.count.toNat).map fun (k : Nat) => (k : Int)
  | 0, r, _ => by
    simp [Rng.points, Rng.count, Rng.colIndex, Rng.index, toIndex, strides, Rng.ext, stridesC, dot]
  | d + 1, r, h => by
    have hi : ∀ i, r.init.b i < r.init.e i := fun i => h i.castSucc
    have ih := Rng.points_colIndex r.init hi
    have hc : r.count = r.init.count * (r.e (Fin.last d) - r.b (Fin.last d)) := by
      rw [r.count_eq_prod h, r.init.count_eq_prod hi, Fin.prod_univ_castSucc]; rfl
    have hp : prodExt r.init.ext = r.init.count := by
      rw [prodExt_ofFn, r.init.count_eq_prod hi]
    have hpos := r.init.count_pos hi
    have hl := h (Fin.last d)
    have hcn : r.count.toNat = r.init.count.toNat * (r.e (Fin.last d) - r.b (Fin.last d)).toNat := by
      rw [hc, Int.toNat_mul (by omega) (by omega)]
    rw [hcn, ← flatMap_range_blocks, Rng.points, List.map_flatMap, List.map_flatMap, intRange,
      List.flatMap_map]
    congr 1
    funext k
    rw [List.map_map, List.map_map]
    have : (List.map (r.colIndex ∘ fun t => Fin.snoc (α := fun _ => Int) t (r.b (Fin.last d) + (k : Int)))
        (Rng.points (d := d) ⟨fun i => r.b i.castSucc, fun i => r.e i.castSucc⟩)) =
        (r.init.points.map r.init.colIndex).map fun x => x + r.init.count * (k : Int) := by
      rw [List.map_map]
      apply List.map_congr_left
      intro t _
      simp only [Function.comp]
      rw [Rng.colIndex_snoc, hp]; congr 2; omega
    rw [this, ih, List.map_map]
    apply List.map_congr_left
    intro j _
    simp only [Function.comp]
    push_cast
    rw [Int.toNat_of_nonneg (by omega)]

theorem Rng.points_colIndexNat (r : Rng d) (h : ∀ i, r.b i < r.e i) :
    (r.points.map fun p => (r.colIndex p).toNat) = List.range r.count.toNat := by
  have := congrArg (List.map Int.toNat) (r.points_colIndex h)
  rw [List.map_map, List.map_map] at this
  simpa [Function.comp_def] using this

end Ovk
