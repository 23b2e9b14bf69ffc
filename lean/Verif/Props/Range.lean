/-
Properties C02 (range algebra) and C06 (uniform grid cells).
The specification of a range is the set of points it denotes, `Spec.pts`.
-/
import Verif.Lemmas.Range
import Mathlib.Data.Fin.VecNotation
import Mathlib.Data.Fintype.Pi
import Mathlib.Data.Fintype.BigOperators
import Mathlib.Order.Interval.Finset.Defs
import Mathlib.Data.Int.Interval
import Mathlib.Algebra.BigOperators.Ring.Finset
import Mathlib.Data.Nat.Cast.Basic

namespace Ovk
namespace Spec
/-- The set of points denoted by a half-open box with the given corners. -/
def pts {d : Nat} (r : Rng d) (p : Tup d) : Prop := ∀ i, r.b i ≤ p i ∧ p i < r.e i
end Spec

variable {d : Nat}

theorem contains_iff_pts (r : Rng d) (p : Tup d) : r.contains p = true ↔ Spec.pts r p :=
  r.contains_iff p

theorem exists_pts_iff (r : Rng d) : (∃ p, Spec.pts r p) ↔ ∀ i, r.b i < r.e i := by
  constructor
  · rintro ⟨p, hp⟩ i; have := hp i; omega
  · intro h; exact ⟨r.b, fun i => ⟨le_refl _, h i⟩⟩

/-- C02: `Empty` holds exactly for ranges without points. -/
theorem C02_empty (r : Rng d) : r.empty = true ↔ ¬ ∃ p, Spec.pts r p := by
  rw [exists_pts_iff, Rng.empty_iff]; simp

/-- C02: `IntersectRanges` denotes the intersection. -/
theorem C02_intersect (l r : Rng d) (p : Tup d) :
    Spec.pts (intersectRanges l r) p ↔ Spec.pts l p ∧ Spec.pts r p := by
  simp only [Spec.pts, intersectRanges]
  constructor
  · intro h; exact ⟨fun i => by have := h i; omega, fun i => by have := h i; omega⟩
  · rintro ⟨h1, h2⟩ i; have := h1 i; have := h2 i; omega

/-- C02: `RangesOverlap` holds iff the two ranges share a point. -/
theorem C02_overlap (l r : Rng d) :
    rangesOverlap l r = true ↔ ∃ p, Spec.pts l p ∧ Spec.pts r p := by
  simp only [← C02_intersect, exists_pts_iff, rangesOverlap, Bool.and_eq_true, Bool.not_eq_true',
    Rng.nonempty_iff, decide_eq_true_eq, intersectRanges]
  constructor
  · rintro ⟨⟨h1, h2⟩, h3⟩ i; have := h1 i; have := h2 i; have := h3 i; omega
  · intro h
    exact ⟨⟨fun i => by have := h i; omega, fun i => by have := h i; omega⟩,
      fun i => by have := h i; omega⟩

/-- A non-empty box inside another one (as sets) has its corners inside. -/
theorem pts_subset_corners (r o : Rng d) (ho : ∃ p, Spec.pts o p)
    (h : ∀ p, Spec.pts o p → Spec.pts r p) (i : Fin d) : r.b i ≤ o.b i ∧ o.e i ≤ r.e i := by
  rw [exists_pts_iff] at ho
  have h1 := h o.b (fun j => ⟨le_refl _, ho j⟩) i
  have h2 := h (fun j => o.e j - 1) (fun j => by have := ho j; simp only; omega) i
  simp only at h2; omega

/-- C02: `Includes` is set inclusion. -/
theorem C02_includes (r o : Rng d) :
    r.includes o = true ↔ ∀ p, Spec.pts o p → Spec.pts r p := by
  simp only [Rng.includes, Bool.or_eq_true, decide_eq_true_eq]
  constructor
  · rintro (h | h) p hp
    · exact absurd ⟨p, hp⟩ ((C02_empty o).1 h)
    · intro i; have := hp i; have := h i; omega
  · intro h
    by_cases ho : ∃ p, Spec.pts o p
    · right; intro i; have := pts_subset_corners r o ho h i; omega
    · left; exact (C02_empty o).2 ho

/-- C02: `UnionRanges` contains both operands. -/
theorem C02_union_upper (l r : Rng d) (p : Tup d) (h : Spec.pts l p ∨ Spec.pts r p) :
    Spec.pts (unionRanges l r) p := by
  unfold unionRanges
  split
  · rename_i he
    rcases h with h | h
    · exact absurd ⟨p, h⟩ ((C02_empty l).1 he)
    · exact h
  · split
    · rename_i he
      rcases h with h | h
      · exact h
      · exact absurd ⟨p, h⟩ ((C02_empty r).1 he)
    · intro i
      rcases h with h | h <;> have := h i <;> simp only <;> omega

/-- C02: `UnionRanges` is contained in every range containing both operands. -/
theorem C02_union_least (l r c : Rng d) (hl : ∀ p, Spec.pts l p → Spec.pts c p)
    (hr : ∀ p, Spec.pts r p → Spec.pts c p) (p : Tup d) (h : Spec.pts (unionRanges l r) p) :
    Spec.pts c p := by
  unfold unionRanges at h
  split at h
  · exact hr p h
  · split at h
    · exact hl p h
    · rename_i h1 h2
      rw [C02_empty, not_not] at h1 h2
      intro i
      have a := pts_subset_corners c l h1 hl i
      have b := pts_subset_corners c r h2 hr i
      have := h i
      simp only at this; omega

/-- C02: `ExtendRange` is the least range containing the range and the point. -/
theorem C02_extend (r : Rng d) (q : Tup d) :
    Spec.pts (extendRange r q) q ∧ (∀ p, Spec.pts r p → Spec.pts (extendRange r q) p) ∧
    ∀ c : Rng d, Spec.pts c q → (∀ p, Spec.pts r p → Spec.pts c p) →
      ∀ p, Spec.pts (extendRange r q) p → Spec.pts c p := by
  unfold extendRange
  split
  · rename_i h
    refine ⟨fun i => by simp only; omega, fun p hp i => by have := hp i; simp only; omega, ?_⟩
    intro c hq hc p hp i
    have h' : ∃ p, Spec.pts r p := by
      rw [exists_pts_iff]; rw [Bool.not_eq_true'] at h; exact (r.nonempty_iff).1 h
    have a := pts_subset_corners c r h' hc i
    have := hp i; have := hq i; simp only at *; omega
  · rename_i h
    refine ⟨fun i => by simp only; omega, ?_, ?_⟩
    · intro p hp
      have : r.empty = true := by simpa using h
      exact absurd ⟨p, hp⟩ ((C02_empty r).1 this)
    · intro c hq _ p hp i
      have := hp i; have := hq i; simp only at *; omega

/-- C02: `Count` is the number of points. -/
theorem C02_count (r : Rng d) :
    ∃ s : Finset (Tup d), (∀ p, p ∈ s ↔ Spec.pts r p) ∧ (s.card : Int) = r.count := by
  refine ⟨Fintype.piFinset fun i => Finset.Ico (r.b i) (r.e i), ?_, ?_⟩
  · intro p; simp [Fintype.mem_piFinset, Spec.pts]
  · rw [Fintype.card_piFinset, Rng.count, Nat.cast_prod]
    apply Finset.prod_congr rfl
    intro i _
    rw [Int.card_Ico, Rng.size]; omega

/-- C02: clamping into a non-empty range lands inside, does not move points of the range, and moves
every coordinate as little as possible. -/
theorem C02_clamp (r : Rng d) (hr : ∃ p, Spec.pts r p) (q : Tup d) :
    Spec.pts r (clampToRange r q) ∧ (Spec.pts r q → clampToRange r q = q) ∧
    ∀ p, Spec.pts r p → ∀ i, |clampToRange r q i - q i| ≤ |p i - q i| := by
  rw [exists_pts_iff] at hr
  refine ⟨?_, ?_, ?_⟩
  · intro i; have := hr i; unfold clampToRange; split <;> [skip; split] <;> omega
  · intro h; funext i; have := h i; unfold clampToRange; split <;> [skip; split] <;> omega
  · intro p hp i
    have := hp i; have := hr i
    rw [Int.abs_eq_natAbs, Int.abs_eq_natAbs]
    unfold clampToRange; split <;> [skip; split] <;> omega

example : ∃ p, Spec.pts (⟨![-1, 0], ![2, 3]⟩ : Rng 2) p := ⟨![0, 0], by unfold Spec.pts; decide⟩
example : intersectRanges (⟨![-1, 0], ![2, 3]⟩ : Rng 2) ⟨![1, -4], ![7, 2]⟩ = ⟨![1, 0], ![2, 2]⟩ := by
  decide
example : rangesOverlap (⟨![-1, 0], ![2, 3]⟩ : Rng 2) ⟨![1, -4], ![7, 2]⟩ = true := by decide
/-- Inverted ranges really do occur as intersections of disjoint ranges. -/
example : (intersectRanges (⟨![0], ![2]⟩ : Rng 1) ⟨![5], ![7]⟩).empty = true := by decide

/-- C06: the bin of a coordinate is defined for a positive bin size, and it is the unique bin whose
half-open interval contains the coordinate. -/
theorem C06_cell (origin size x : Int) (hs : 0 < size) :
    ∃ c, cellOf? origin size x = some c ∧
      ∀ k, (origin + size * k ≤ x ∧ x < origin + size * (k + 1)) ↔ k = c := by
  refine ⟨cellOf origin size x, ?_, ?_⟩
  · simp [cellOf?, cellOf, Int.ne_of_gt hs]
  · intro k
    have e : cellOf origin size x = (x - origin) / size := tdiv_floor _ _ hs
    rw [e]
    have h1 := Int.emod_add_mul_ediv (x - origin) size
    have h3 := Int.emod_nonneg (x - origin) (by omega : size ≠ 0)
    have h4 := Int.emod_lt_of_pos (x - origin) hs
    constructor
    · rintro ⟨ha, hb⟩
      rw [Int.mul_add] at hb
      have u : size * k < size * ((x - origin) / size + 1) := by rw [Int.mul_add]; omega
      have l : size * ((x - origin) / size) < size * (k + 1) := by rw [Int.mul_add]; omega
      have := Int.lt_of_mul_lt_mul_left u (by omega)
      have := Int.lt_of_mul_lt_mul_left l (by omega)
      omega
    · rintro rfl
      rw [Int.mul_add]; omega

example : cellOf? 0 4 (-1) = some (-1) := by decide
example : cellOf? 3 4 11 = some 2 := by decide
/-- A zero bin size is a division by zero in the code. -/
example : cellOf? 3 0 11 = none := by decide

end Ovk
