/-
Properties C57 (overlap test of a cell), C58 (cell volumes), C59 (cell bounds).
-/
import Verif.Props.Geometry

namespace Ovk.Geo
namespace Spec
variable {K : Type} [Field K] [LinearOrder K]

/-- `x` is a convex combination of the points `v`. -/
def Hull {d k : Nat} (v : Fin k → Fin d → K) (x : Fin d → K) : Prop :=
  ∃ w : Fin k → K, (∀ j, 0 ≤ w j) ∧ ∑ j, w j = 1 ∧ ∀ i, ∑ j, w j * v j i = x i

/-- The parallelogram (parallelepiped) with corner `p` and edges `a`. -/
def Filled {d : Nat} (p : Fin d → K) (a : Fin d → Fin d → K) (x : Fin d → K) : Prop :=
  ∃ u : Fin d → K, (∀ e, 0 ≤ u e ∧ u e ≤ 1) ∧ ∀ i, x i = p i + ∑ e, u e * a e i

/-- Cells with four (eight) nodes that are parallelograms (parallelepipeds): node `i + 2j (+ 4k)` is
`p + i a₀ + j a₁ (+ k a₂)`. -/
def quadNodes (p : Fin 2 → K) (a : Fin 2 → Fin 2 → K) : Fin 4 → Fin 2 → K :=
  ![p, fun i => p i + a 0 i, fun i => p i + a 1 i, fun i => p i + a 0 i + a 1 i]

def hexNodes (p : Fin 3 → K) (a : Fin 3 → Fin 3 → K) : Fin 8 → Fin 3 → K :=
  ![p, fun i => p i + a 0 i, fun i => p i + a 1 i, fun i => p i + a 0 i + a 1 i,
    fun i => p i + a 2 i, fun i => p i + a 0 i + a 2 i, fun i => p i + a 1 i + a 2 i,
    fun i => p i + a 0 i + a 1 i + a 2 i]

end Spec

variable {K : Type} [Field K] [LinearOrder K] [IsStrictOrderedRing K]

/-! ### C57: simplices -/

omit [IsStrictOrderedRing K] in
theorem loop2 (tol a b : K) : insideLoop tol [.fin a, .fin b] (.fin 0) = true ↔
    -tol ≤ a ∧ a ≤ 1 + tol ∧ -tol ≤ b ∧ a + b ≤ 1 + tol := by
  unfold insideLoop insideLoop insideLoop
  simp only [Quot.add, Quot.lt, Quot.gt, zero_add, Bool.or_eq_true, decide_eq_true_eq]
  by_cases h1 : a < -tol ∨ a > 1 + tol
  · rw [if_pos h1]
    constructor
    · intro h; cases h
    · rintro ⟨h2, h3, _⟩
      rcases h1 with h1 | h1
      · exact absurd h2 (not_le.2 h1)
      · exact absurd h3 (not_le.2 h1)
  · rw [if_neg h1]
    push Not at h1
    by_cases h2 : b < -tol ∨ a + b > 1 + tol
    · rw [if_pos h2]
      constructor
      · intro h; cases h
      · rintro ⟨_, _, h3, h4⟩
        rcases h2 with h2 | h2
        · exact absurd h3 (not_le.2 h2)
        · exact absurd h4 (not_le.2 h2)
    · rw [if_neg h2]
      push Not at h2
      exact ⟨fun _ => ⟨h1.1, h1.2, h2.1, h2.2⟩, fun _ => rfl⟩

omit [IsStrictOrderedRing K] in
theorem loop3 (tol a b c : K) : insideLoop tol [.fin a, .fin b, .fin c] (.fin 0) = true ↔
    -tol ≤ a ∧ a ≤ 1 + tol ∧ -tol ≤ b ∧ a + b ≤ 1 + tol ∧ -tol ≤ c ∧ a + b + c ≤ 1 + tol := by
  unfold insideLoop insideLoop insideLoop insideLoop
  simp only [Quot.add, Quot.lt, Quot.gt, zero_add, Bool.or_eq_true, decide_eq_true_eq]
  by_cases h1 : a < -tol ∨ a > 1 + tol
  · rw [if_pos h1]
    constructor
    · intro h; cases h
    · rintro ⟨h2, h3, _⟩
      rcases h1 with h1 | h1
      · exact absurd h2 (not_le.2 h1)
      · exact absurd h3 (not_le.2 h1)
  · rw [if_neg h1]
    push Not at h1
    by_cases h2 : b < -tol ∨ a + b > 1 + tol
    · rw [if_pos h2]
      constructor
      · intro h; cases h
      · rintro ⟨_, _, h3, h4, _⟩
        rcases h2 with h2 | h2
        · exact absurd h3 (not_le.2 h2)
        · exact absurd h4 (not_le.2 h2)
    · rw [if_neg h2]
      push Not at h2
      by_cases h3 : c < -tol ∨ a + b + c > 1 + tol
      · rw [if_pos h3]
        constructor
        · intro h; cases h
        · rintro ⟨_, _, _, _, h4, h5⟩
          rcases h3 with h3 | h3
          · exact absurd h4 (not_le.2 h3)
          · exact absurd h5 (not_le.2 h3)
      · rw [if_neg h3]
        push Not at h3
        exact ⟨fun _ => ⟨h1.1, h1.2, h2.1, h2.2, h3.1, h3.2⟩, fun _ => rfl⟩

omit [IsStrictOrderedRing K] in
/-- The test on a proper triangle, in terms of the coordinates along the edges. -/
theorem tri_iff {p q r : Fin 2 → K} (hd : det2 (sub q p) (sub r p) ≠ 0) (tol : K) (x : Fin 2 → K) :
    insideTri tol p q r x = true ↔ ∃ a b : K, (∀ i, x i = p i + a * (q i - p i) + b * (r i - p i)) ∧
      -tol ≤ a ∧ a ≤ 1 + tol ∧ -tol ≤ b ∧ a + b ≤ 1 + tol := by
  unfold insideTri
  simp only [Quot.div, ne_eq, hd, not_false_eq_true, if_true]
  rw [loop2]
  have hs := C35_solve2 (sub q p) (sub r p) (sub x p)
  constructor
  · intro h
    refine ⟨_, _, ?_, h⟩
    have := (solves2_iff _ _ _ _).1 ((hs _ hd).2 rfl)
    intro i
    fin_cases i
    · have h := this.1
      change _ * (q 0 - p 0) + _ * (r 0 - p 0) = x 0 - p 0 at h
      show x 0 = p 0 + _ * (q 0 - p 0) + _ * (r 0 - p 0)
      rw [add_assoc]
      exact (sub_eq_iff_eq_add'.1 h.symm)
    · have h := this.2
      change _ * (q 1 - p 1) + _ * (r 1 - p 1) = x 1 - p 1 at h
      show x 1 = p 1 + _ * (q 1 - p 1) + _ * (r 1 - p 1)
      rw [add_assoc]
      exact (sub_eq_iff_eq_add'.1 h.symm)
  · rintro ⟨a, b, hx, h⟩
    have := (hs ![a, b] hd).1 ((solves2_iff _ _ _ _).2 ⟨by
      show a * (q 0 - p 0) + b * (r 0 - p 0) = x 0 - p 0
      rw [hx 0]; ring, by
      show a * (q 1 - p 1) + b * (r 1 - p 1) = x 1 - p 1
      rw [hx 1]; ring⟩)
    have e0 : a = det2 (sub x p) (sub r p) / det2 (sub q p) (sub r p) := congrFun this 0
    have e1 : b = det2 (sub q p) (sub x p) / det2 (sub q p) (sub r p) := congrFun this 1
    rw [← e0, ← e1]
    exact h

omit [IsStrictOrderedRing K] in
theorem tet_iff {p q r s : Fin 3 → K} (hd : det3 (sub q p) (sub r p) (sub s p) ≠ 0) (tol : K)
    (x : Fin 3 → K) :
    insideTet tol p q r s x = true ↔ ∃ a b c : K,
      (∀ i, x i = p i + a * (q i - p i) + b * (r i - p i) + c * (s i - p i)) ∧
      -tol ≤ a ∧ a ≤ 1 + tol ∧ -tol ≤ b ∧ a + b ≤ 1 + tol ∧ -tol ≤ c ∧ a + b + c ≤ 1 + tol := by
  unfold insideTet
  simp only [Quot.div, ne_eq, hd, not_false_eq_true, if_true]
  rw [loop3]
  have hs := C35_solve3 (sub q p) (sub r p) (sub s p) (sub x p)
  constructor
  · intro h
    refine ⟨_, _, _, ?_, h⟩
    have := (solves3_iff _ _ _ _ _).1 ((hs _ hd).2 rfl)
    intro i
    fin_cases i
    · have h := this.1
      change _ * (q 0 - p 0) + _ * (r 0 - p 0) + _ * (s 0 - p 0) = x 0 - p 0 at h
      show x 0 = p 0 + _ * (q 0 - p 0) + _ * (r 0 - p 0) + _ * (s 0 - p 0)
      rw [add_assoc, add_assoc, ← add_assoc (_ * (q 0 - p 0))]
      exact (sub_eq_iff_eq_add'.1 h.symm)
    · have h := this.2.1
      change _ * (q 1 - p 1) + _ * (r 1 - p 1) + _ * (s 1 - p 1) = x 1 - p 1 at h
      show x 1 = p 1 + _ * (q 1 - p 1) + _ * (r 1 - p 1) + _ * (s 1 - p 1)
      rw [add_assoc, add_assoc, ← add_assoc (_ * (q 1 - p 1))]
      exact (sub_eq_iff_eq_add'.1 h.symm)
    · have h := this.2.2
      change _ * (q 2 - p 2) + _ * (r 2 - p 2) + _ * (s 2 - p 2) = x 2 - p 2 at h
      show x 2 = p 2 + _ * (q 2 - p 2) + _ * (r 2 - p 2) + _ * (s 2 - p 2)
      rw [add_assoc, add_assoc, ← add_assoc (_ * (q 2 - p 2))]
      exact (sub_eq_iff_eq_add'.1 h.symm)
  · rintro ⟨a, b, c, hx, h⟩
    have := (hs ![a, b, c] hd).1 ((solves3_iff _ _ _ _ _).2 ⟨by
      show a * (q 0 - p 0) + b * (r 0 - p 0) + c * (s 0 - p 0) = x 0 - p 0
      rw [hx 0]; ring, by
      show a * (q 1 - p 1) + b * (r 1 - p 1) + c * (s 1 - p 1) = x 1 - p 1
      rw [hx 1]; ring, by
      show a * (q 2 - p 2) + b * (r 2 - p 2) + c * (s 2 - p 2) = x 2 - p 2
      rw [hx 2]; ring⟩)
    have e0 : a = det3 (sub x p) (sub r p) (sub s p) / det3 (sub q p) (sub r p) (sub s p) :=
      congrFun this 0
    have e1 : b = det3 (sub q p) (sub x p) (sub s p) / det3 (sub q p) (sub r p) (sub s p) :=
      congrFun this 1
    have e2 : c = det3 (sub q p) (sub r p) (sub x p) / det3 (sub q p) (sub r p) (sub s p) :=
      congrFun this 2
    rw [← e0, ← e1, ← e2]
    exact h

theorem hull3 (p q r x : Fin 2 → K) : Spec.Hull ![p, q, r] x ↔
    ∃ a b : K, (∀ i, x i = p i + a * (q i - p i) + b * (r i - p i)) ∧ 0 ≤ a ∧ 0 ≤ b ∧ a + b ≤ 1 := by
  constructor
  · rintro ⟨w, h0, h1, h2⟩
    rw [Fin.sum_univ_three] at h1
    refine ⟨w 1, w 2, fun i => ?_, h0 1, h0 2, ?_⟩
    · have h := h2 i
      rw [Fin.sum_univ_three] at h
      change w 0 * p i + w 1 * q i + w 2 * r i = x i at h
      rw [← h]
      linear_combination (p i) * h1
    · have := h0 0
      linarith
  · rintro ⟨a, b, hx, ha, hb, hab⟩
    refine ⟨![1 - a - b, a, b], fun j => ?_, ?_, fun i => ?_⟩
    · fin_cases j
      · show 0 ≤ 1 - a - b; linarith
      · exact ha
      · exact hb
    · rw [Fin.sum_univ_three]; show 1 - a - b + a + b = 1; ring
    · rw [Fin.sum_univ_three, hx i]
      show (1 - a - b) * p i + a * q i + b * r i = _
      ring

theorem hull4 (p q r s x : Fin 3 → K) : Spec.Hull ![p, q, r, s] x ↔
    ∃ a b c : K, (∀ i, x i = p i + a * (q i - p i) + b * (r i - p i) + c * (s i - p i)) ∧
      0 ≤ a ∧ 0 ≤ b ∧ 0 ≤ c ∧ a + b + c ≤ 1 := by
  constructor
  · rintro ⟨w, h0, h1, h2⟩
    rw [Fin.sum_univ_four] at h1
    refine ⟨w 1, w 2, w 3, fun i => ?_, h0 1, h0 2, h0 3, ?_⟩
    · have h := h2 i
      rw [Fin.sum_univ_four] at h
      change w 0 * p i + w 1 * q i + w 2 * r i + w 3 * s i = x i at h
      rw [← h]
      linear_combination (p i) * h1
    · have := h0 0
      linarith
  · rintro ⟨a, b, c, hx, ha, hb, hc, habc⟩
    refine ⟨![1 - a - b - c, a, b, c], fun j => ?_, ?_, fun i => ?_⟩
    · fin_cases j
      · show 0 ≤ 1 - a - b - c; linarith
      · exact ha
      · exact hb
      · exact hc
    · rw [Fin.sum_univ_four]; show 1 - a - b - c + a + b + c = 1; ring
    · rw [Fin.sum_univ_four, hx i]
      show (1 - a - b - c) * p i + a * q i + b * r i + c * s i = _
      ring

/-- The test on one proper triangle, tolerance zero. -/
theorem C57_triangle {p q r : Fin 2 → K} (hd : det2 (sub q p) (sub r p) ≠ 0) (x : Fin 2 → K) :
    insideTri 0 p q r x = true ↔ Spec.Hull ![p, q, r] x := by
  rw [tri_iff hd, hull3]
  constructor
  · rintro ⟨a, b, hx, h1, _, h3, h4⟩
    exact ⟨a, b, hx, by simpa using h1, by simpa using h3, by simpa using h4⟩
  · rintro ⟨a, b, hx, h1, h2, h3⟩
    exact ⟨a, b, hx, by simpa using h1, by linarith, by simpa using h2, by simpa using h3⟩

/-- The test on one proper tetrahedron, tolerance zero. -/
theorem C57_tetrahedron {p q r s : Fin 3 → K} (hd : det3 (sub q p) (sub r p) (sub s p) ≠ 0)
    (x : Fin 3 → K) : insideTet 0 p q r s x = true ↔ Spec.Hull ![p, q, r, s] x := by
  rw [tet_iff hd, hull4]
  constructor
  · rintro ⟨a, b, c, hx, h1, _, h3, h4, h5, h6⟩
    exact ⟨a, b, c, hx, by simpa using h1, by simpa using h3, by simpa using h5, by simpa using h6⟩
  · rintro ⟨a, b, c, hx, h1, h2, h3, h4⟩
    exact ⟨a, b, c, hx, by simpa using h1, by linarith, by simpa using h2, by linarith,
      by simpa using h3, by simpa using h4⟩

/-- No triangle of the quadrilateral is degenerate. -/
def QuadProper (v : Fin 4 → Fin 2 → K) : Prop :=
  det2 (sub (v 1) (v 0)) (sub (v 2) (v 0)) ≠ 0 ∧ det2 (sub (v 2) (v 3)) (sub (v 1) (v 3)) ≠ 0

/-- No tetrahedron of the hexahedron is degenerate. -/
def HexProper (v : Fin 8 → Fin 3 → K) : Prop :=
  ∀ t ∈ tetrahedra, det3 (sub (v (t 1)) (v (t 0))) (sub (v (t 2)) (v (t 0))) (sub (v (t 3)) (v (t 0))) ≠ 0

/-- C57: a quadrilateral with proper triangles accepts exactly the points of its two triangles, which are
cut along the diagonal of nodes 1 and 2. -/
theorem C57_quad_partial (v : Fin 4 → Fin 2 → K) (h : QuadProper v) (x : Fin 2 → K) :
    overlapsQuad v x 0 = true ↔ Spec.Hull ![v 0, v 1, v 2] x ∨ Spec.Hull ![v 3, v 2, v 1] x := by
  unfold overlapsQuad triangles
  rw [List.any_cons, List.any_cons, List.any_nil, Bool.or_false, Bool.or_eq_true]
  exact or_congr (C57_triangle h.1 x) (C57_triangle h.2 x)

/-- C57: a hexahedron with proper tetrahedra accepts exactly the points of its six tetrahedra. -/
theorem C57_hex_partial (v : Fin 8 → Fin 3 → K) (h : HexProper v) (x : Fin 3 → K) :
    overlapsHex v x 0 = true ↔
      ∃ t ∈ tetrahedra, Spec.Hull ![v (t 0), v (t 1), v (t 2), v (t 3)] x := by
  unfold overlapsHex
  rw [List.any_eq_true]
  constructor
  · rintro ⟨t, ht, h'⟩; exact ⟨t, ht, (C57_tetrahedron (h t ht) x).1 h'⟩
  · rintro ⟨t, ht, h'⟩; exact ⟨t, ht, (C57_tetrahedron (h t ht) x).2 h'⟩

/-- C57: enlarging the tolerance never rejects an accepted point (proper cells). -/
theorem C57_tolerance_quad (v : Fin 4 → Fin 2 → K) (h : QuadProper v) (x : Fin 2 → K) {t t' : K}
    (ht : t ≤ t') (ho : overlapsQuad v x t = true) : overlapsQuad v x t' = true := by
  unfold overlapsQuad triangles at *
  rw [List.any_cons, List.any_cons, List.any_nil, Bool.or_false, Bool.or_eq_true] at *
  rcases ho with ho | ho
  · left
    obtain ⟨a, b, hx, h1, h2, h3, h4⟩ := (tri_iff h.1 t x).1 ho
    exact (tri_iff h.1 t' x).2 ⟨a, b, hx, by linarith, by linarith, by linarith, by linarith⟩
  · right
    obtain ⟨a, b, hx, h1, h2, h3, h4⟩ := (tri_iff h.2 t x).1 ho
    exact (tri_iff h.2 t' x).2 ⟨a, b, hx, by linarith, by linarith, by linarith, by linarith⟩

theorem C57_tolerance_hex (v : Fin 8 → Fin 3 → K) (h : HexProper v) (x : Fin 3 → K) {t t' : K}
    (ht : t ≤ t') (ho : overlapsHex v x t = true) : overlapsHex v x t' = true := by
  unfold overlapsHex at *
  rw [List.any_eq_true] at *
  obtain ⟨s, hs, h'⟩ := ho
  refine ⟨s, hs, ?_⟩
  obtain ⟨a, b, c, hx, h1, h2, h3, h4, h5, h6⟩ := (tet_iff (h s hs) t x).1 h'
  exact (tet_iff (h s hs) t' x).2 ⟨a, b, c, hx, by linarith, by linarith, by linarith, by linarith,
    by linarith, by linarith⟩

/-! ### The pieces fill the cell -/

omit [LinearOrder K] [IsStrictOrderedRing K] in
theorem quad_proper (p : Fin 2 → K) (a : Fin 2 → Fin 2 → K) (hd : det2 (a 0) (a 1) ≠ 0) :
    QuadProper (Spec.quadNodes p a) := by
  constructor
  · have : det2 (sub (Spec.quadNodes p a 1) (Spec.quadNodes p a 0))
        (sub (Spec.quadNodes p a 2) (Spec.quadNodes p a 0)) = det2 (a 0) (a 1) := by
      show (p 0 + a 0 0 - p 0) * (p 1 + a 1 1 - p 1) - (p 1 + a 0 1 - p 1) * (p 0 + a 1 0 - p 0) =
        a 0 0 * a 1 1 - a 0 1 * a 1 0
      ring
    rw [this]; exact hd
  · have : det2 (sub (Spec.quadNodes p a 2) (Spec.quadNodes p a 3))
        (sub (Spec.quadNodes p a 1) (Spec.quadNodes p a 3)) = det2 (a 0) (a 1) := by
      show (p 0 + a 1 0 - (p 0 + a 0 0 + a 1 0)) * (p 1 + a 0 1 - (p 1 + a 0 1 + a 1 1)) -
        (p 1 + a 1 1 - (p 1 + a 0 1 + a 1 1)) * (p 0 + a 0 0 - (p 0 + a 0 0 + a 1 0)) =
        a 0 0 * a 1 1 - a 0 1 * a 1 0
      ring
    rw [this]; exact hd

/-- C57: on a proper parallelogram the two triangles make up the cell: exactly the points with local
coordinates in the unit square are accepted. -/
theorem C57_parallelogram (p : Fin 2 → K) (a : Fin 2 → Fin 2 → K) (hd : det2 (a 0) (a 1) ≠ 0)
    (x : Fin 2 → K) : overlapsQuad (Spec.quadNodes p a) x 0 = true ↔ Spec.Filled p a x := by
  rw [C57_quad_partial _ (quad_proper p a hd), hull3, hull3]
  constructor
  · rintro (⟨s, t, hx, h1, h2, h3⟩ | ⟨s, t, hx, h1, h2, h3⟩)
    · refine ⟨![s, t], ?_, fun i => ?_⟩
      · rw [Fin.forall_fin_two]
        exact ⟨⟨h1, by show s ≤ 1; linarith⟩, ⟨h2, by show t ≤ 1; linarith⟩⟩
      · rw [Fin.sum_univ_two, hx i]
        show p i + s * (p i + a 0 i - p i) + t * (p i + a 1 i - p i) = p i + (s * a 0 i + t * a 1 i)
        ring
    · refine ⟨![1 - s, 1 - t], ?_, fun i => ?_⟩
      · rw [Fin.forall_fin_two]
        exact ⟨⟨by show 0 ≤ 1 - s; linarith, by show 1 - s ≤ 1; linarith⟩,
          ⟨by show 0 ≤ 1 - t; linarith, by show 1 - t ≤ 1; linarith⟩⟩
      · rw [Fin.sum_univ_two, hx i]
        show (p i + a 0 i + a 1 i) + s * (p i + a 1 i - (p i + a 0 i + a 1 i)) +
          t * (p i + a 0 i - (p i + a 0 i + a 1 i)) = p i + ((1 - s) * a 0 i + (1 - t) * a 1 i)
        ring
  · rintro ⟨u, hu, hx⟩
    have h0 := hu 0
    have h1 := hu 1
    simp only [Fin.sum_univ_two] at hx
    rcases le_total (u 0 + u 1) 1 with h | h
    · left
      refine ⟨u 0, u 1, fun i => ?_, h0.1, h1.1, h⟩
      rw [hx i]
      show p i + (u 0 * a 0 i + u 1 * a 1 i) =
        p i + u 0 * (p i + a 0 i - p i) + u 1 * (p i + a 1 i - p i)
      ring
    · right
      refine ⟨1 - u 0, 1 - u 1, fun i => ?_, by linarith, by linarith, by linarith⟩
      rw [hx i]
      show p i + (u 0 * a 0 i + u 1 * a 1 i) = (p i + a 0 i + a 1 i) +
        (1 - u 0) * (p i + a 1 i - (p i + a 0 i + a 1 i)) +
        (1 - u 1) * (p i + a 0 i - (p i + a 0 i + a 1 i))
      ring

/-- The determinant of one tetrahedron given by node numbers. -/
def tetDet (v : Fin 8 → Fin 3 → K) (i j k l : Fin 8) : K :=
  det3 (sub (v j) (v i)) (sub (v k) (v i)) (sub (v l) (v i))

omit [LinearOrder K] [IsStrictOrderedRing K] in
theorem hexProper_iff (v : Fin 8 → Fin 3 → K) : HexProper v ↔ tetDet v 0 1 2 4 ≠ 0 ∧ tetDet v 1 2 4 5 ≠ 0 ∧ tetDet v 2 4 5 6 ≠ 0 ∧ tetDet v 1 2 5 3 ≠ 0 ∧ tetDet v 2 5 3 6 ≠ 0 ∧ tetDet v 3 6 5 7 ≠ 0 := by
  unfold HexProper tetrahedra
  simp only [List.forall_mem_cons]
  constructor
  · rintro ⟨h1, h2, h3, h4, h5, h6, _⟩; exact ⟨h1, h2, h3, h4, h5, h6⟩
  · rintro ⟨h1, h2, h3, h4, h5, h6⟩
    exact ⟨h1, h2, h3, h4, h5, h6, fun x hx => absurd hx (List.not_mem_nil)⟩

omit [LinearOrder K] [IsStrictOrderedRing K] in
theorem hexProper_dets (p : Fin 3 → K) (a : Fin 3 → Fin 3 → K) :
    tetDet (Spec.hexNodes p a) 0 1 2 4 = det3 (a 0) (a 1) (a 2) ∧
    tetDet (Spec.hexNodes p a) 1 2 4 5 = det3 (a 0) (a 1) (a 2) ∧
    tetDet (Spec.hexNodes p a) 2 4 5 6 = det3 (a 0) (a 1) (a 2) ∧
    tetDet (Spec.hexNodes p a) 1 2 5 3 = det3 (a 0) (a 1) (a 2) ∧
    tetDet (Spec.hexNodes p a) 2 5 3 6 = det3 (a 0) (a 1) (a 2) ∧
    tetDet (Spec.hexNodes p a) 3 6 5 7 = det3 (a 0) (a 1) (a 2) := by
  refine ⟨?_, ?_, ?_, ?_, ?_, ?_⟩
  · show (p 0 + a 0 0 - (p 0)) * ((p 1 + a 1 1 - (p 1)) * (p 2 + a 2 2 - (p 2)) - (p 2 + a 1 2 - (p 2)) * (p 1 + a 2 1 - (p 1))) +
      (p 0 + a 1 0 - (p 0)) * ((p 1 + a 2 1 - (p 1)) * (p 2 + a 0 2 - (p 2)) - (p 2 + a 2 2 - (p 2)) * (p 1 + a 0 1 - (p 1))) +
      (p 0 + a 2 0 - (p 0)) * ((p 1 + a 0 1 - (p 1)) * (p 2 + a 1 2 - (p 2)) - (p 2 + a 0 2 - (p 2)) * (p 1 + a 1 1 - (p 1))) = _
    unfold det3; ring
  · show (p 0 + a 1 0 - (p 0 + a 0 0)) * ((p 1 + a 2 1 - (p 1 + a 0 1)) * (p 2 + a 0 2 + a 2 2 - (p 2 + a 0 2)) - (p 2 + a 2 2 - (p 2 + a 0 2)) * (p 1 + a 0 1 + a 2 1 - (p 1 + a 0 1))) +
      (p 0 + a 2 0 - (p 0 + a 0 0)) * ((p 1 + a 0 1 + a 2 1 - (p 1 + a 0 1)) * (p 2 + a 1 2 - (p 2 + a 0 2)) - (p 2 + a 0 2 + a 2 2 - (p 2 + a 0 2)) * (p 1 + a 1 1 - (p 1 + a 0 1))) +
      (p 0 + a 0 0 + a 2 0 - (p 0 + a 0 0)) * ((p 1 + a 1 1 - (p 1 + a 0 1)) * (p 2 + a 2 2 - (p 2 + a 0 2)) - (p 2 + a 1 2 - (p 2 + a 0 2)) * (p 1 + a 2 1 - (p 1 + a 0 1))) = _
    unfold det3; ring
  · show (p 0 + a 2 0 - (p 0 + a 1 0)) * ((p 1 + a 0 1 + a 2 1 - (p 1 + a 1 1)) * (p 2 + a 1 2 + a 2 2 - (p 2 + a 1 2)) - (p 2 + a 0 2 + a 2 2 - (p 2 + a 1 2)) * (p 1 + a 1 1 + a 2 1 - (p 1 + a 1 1))) +
      (p 0 + a 0 0 + a 2 0 - (p 0 + a 1 0)) * ((p 1 + a 1 1 + a 2 1 - (p 1 + a 1 1)) * (p 2 + a 2 2 - (p 2 + a 1 2)) - (p 2 + a 1 2 + a 2 2 - (p 2 + a 1 2)) * (p 1 + a 2 1 - (p 1 + a 1 1))) +
      (p 0 + a 1 0 + a 2 0 - (p 0 + a 1 0)) * ((p 1 + a 2 1 - (p 1 + a 1 1)) * (p 2 + a 0 2 + a 2 2 - (p 2 + a 1 2)) - (p 2 + a 2 2 - (p 2 + a 1 2)) * (p 1 + a 0 1 + a 2 1 - (p 1 + a 1 1))) = _
    unfold det3; ring
  · show (p 0 + a 1 0 - (p 0 + a 0 0)) * ((p 1 + a 0 1 + a 2 1 - (p 1 + a 0 1)) * (p 2 + a 0 2 + a 1 2 - (p 2 + a 0 2)) - (p 2 + a 0 2 + a 2 2 - (p 2 + a 0 2)) * (p 1 + a 0 1 + a 1 1 - (p 1 + a 0 1))) +
      (p 0 + a 0 0 + a 2 0 - (p 0 + a 0 0)) * ((p 1 + a 0 1 + a 1 1 - (p 1 + a 0 1)) * (p 2 + a 1 2 - (p 2 + a 0 2)) - (p 2 + a 0 2 + a 1 2 - (p 2 + a 0 2)) * (p 1 + a 1 1 - (p 1 + a 0 1))) +
      (p 0 + a 0 0 + a 1 0 - (p 0 + a 0 0)) * ((p 1 + a 1 1 - (p 1 + a 0 1)) * (p 2 + a 0 2 + a 2 2 - (p 2 + a 0 2)) - (p 2 + a 1 2 - (p 2 + a 0 2)) * (p 1 + a 0 1 + a 2 1 - (p 1 + a 0 1))) = _
    unfold det3; ring
  · show (p 0 + a 0 0 + a 2 0 - (p 0 + a 1 0)) * ((p 1 + a 0 1 + a 1 1 - (p 1 + a 1 1)) * (p 2 + a 1 2 + a 2 2 - (p 2 + a 1 2)) - (p 2 + a 0 2 + a 1 2 - (p 2 + a 1 2)) * (p 1 + a 1 1 + a 2 1 - (p 1 + a 1 1))) +
      (p 0 + a 0 0 + a 1 0 - (p 0 + a 1 0)) * ((p 1 + a 1 1 + a 2 1 - (p 1 + a 1 1)) * (p 2 + a 0 2 + a 2 2 - (p 2 + a 1 2)) - (p 2 + a 1 2 + a 2 2 - (p 2 + a 1 2)) * (p 1 + a 0 1 + a 2 1 - (p 1 + a 1 1))) +
      (p 0 + a 1 0 + a 2 0 - (p 0 + a 1 0)) * ((p 1 + a 0 1 + a 2 1 - (p 1 + a 1 1)) * (p 2 + a 0 2 + a 1 2 - (p 2 + a 1 2)) - (p 2 + a 0 2 + a 2 2 - (p 2 + a 1 2)) * (p 1 + a 0 1 + a 1 1 - (p 1 + a 1 1))) = _
    unfold det3; ring
  · show (p 0 + a 1 0 + a 2 0 - (p 0 + a 0 0 + a 1 0)) * ((p 1 + a 0 1 + a 2 1 - (p 1 + a 0 1 + a 1 1)) * (p 2 + a 0 2 + a 1 2 + a 2 2 - (p 2 + a 0 2 + a 1 2)) - (p 2 + a 0 2 + a 2 2 - (p 2 + a 0 2 + a 1 2)) * (p 1 + a 0 1 + a 1 1 + a 2 1 - (p 1 + a 0 1 + a 1 1))) +
      (p 0 + a 0 0 + a 2 0 - (p 0 + a 0 0 + a 1 0)) * ((p 1 + a 0 1 + a 1 1 + a 2 1 - (p 1 + a 0 1 + a 1 1)) * (p 2 + a 1 2 + a 2 2 - (p 2 + a 0 2 + a 1 2)) - (p 2 + a 0 2 + a 1 2 + a 2 2 - (p 2 + a 0 2 + a 1 2)) * (p 1 + a 1 1 + a 2 1 - (p 1 + a 0 1 + a 1 1))) +
      (p 0 + a 0 0 + a 1 0 + a 2 0 - (p 0 + a 0 0 + a 1 0)) * ((p 1 + a 1 1 + a 2 1 - (p 1 + a 0 1 + a 1 1)) * (p 2 + a 0 2 + a 2 2 - (p 2 + a 0 2 + a 1 2)) - (p 2 + a 1 2 + a 2 2 - (p 2 + a 0 2 + a 1 2)) * (p 1 + a 0 1 + a 2 1 - (p 1 + a 0 1 + a 1 1))) = _
    unfold det3; ring

omit [LinearOrder K] [IsStrictOrderedRing K] in
theorem hex_proper (p : Fin 3 → K) (a : Fin 3 → Fin 3 → K) (hd : det3 (a 0) (a 1) (a 2) ≠ 0) :
    HexProper (Spec.hexNodes p a) := by
  rw [hexProper_iff]
  obtain ⟨h1, h2, h3, h4, h5, h6⟩ := hexProper_dets p a
  rw [h1, h2, h3, h4, h5, h6]
  exact ⟨hd, hd, hd, hd, hd, hd⟩

omit [IsStrictOrderedRing K] in
theorem any_tet (v : Fin 8 → Fin 3 → K) (x : Fin 3 → K) :
    (∃ t ∈ tetrahedra, Spec.Hull ![v (t 0), v (t 1), v (t 2), v (t 3)] x) ↔
    Spec.Hull ![v 0, v 1, v 2, v 4] x ∨
    Spec.Hull ![v 1, v 2, v 4, v 5] x ∨
    Spec.Hull ![v 2, v 4, v 5, v 6] x ∨
    Spec.Hull ![v 1, v 2, v 5, v 3] x ∨
    Spec.Hull ![v 2, v 5, v 3, v 6] x ∨
    Spec.Hull ![v 3, v 6, v 5, v 7] x := by
  unfold tetrahedra
  simp only [List.exists_mem_cons_iff]
  constructor
  · rintro (h | h | h | h | h | h | ⟨_, h, _⟩)
    · exact .inl h
    · exact .inr (.inl h)
    · exact .inr (.inr (.inl h))
    · exact .inr (.inr (.inr (.inl h)))
    · exact .inr (.inr (.inr (.inr (.inl h))))
    · exact .inr (.inr (.inr (.inr (.inr h))))
    · exact absurd h List.not_mem_nil
  · rintro (h | h | h | h | h | h)
    · exact .inl h
    · exact .inr (.inl h)
    · exact .inr (.inr (.inl h))
    · exact .inr (.inr (.inr (.inl h)))
    · exact .inr (.inr (.inr (.inr (.inl h))))
    · exact .inr (.inr (.inr (.inr (.inr (.inl h)))))

/-- C57: on a proper parallelepiped the six tetrahedra make up the cell. -/
theorem C57_parallelepiped (p : Fin 3 → K) (a : Fin 3 → Fin 3 → K)
    (hd : det3 (a 0) (a 1) (a 2) ≠ 0) (x : Fin 3 → K) :
    overlapsHex (Spec.hexNodes p a) x 0 = true ↔ Spec.Filled p a x := by
  rw [C57_hex_partial _ (hex_proper p a hd), any_tet]
  simp only [hull4]
  constructor
  · rintro (⟨s, t, w, hx, h1, h2, h3, h4⟩ | ⟨s, t, w, hx, h1, h2, h3, h4⟩ | ⟨s, t, w, hx, h1, h2, h3, h4⟩ | ⟨s, t, w, hx, h1, h2, h3, h4⟩ | ⟨s, t, w, hx, h1, h2, h3, h4⟩ | ⟨s, t, w, hx, h1, h2, h3, h4⟩)
    · refine ⟨![0 + s, 0 + t, 0 + w], ?_, fun i => ?_⟩
      · intro e
        fin_cases e
        · show 0 ≤ 0 + s ∧ 0 + s ≤ 1; constructor <;> linarith
        · show 0 ≤ 0 + t ∧ 0 + t ≤ 1; constructor <;> linarith
        · show 0 ≤ 0 + w ∧ 0 + w ≤ 1; constructor <;> linarith
      · rw [Fin.sum_univ_three, hx i]
        show p i + s * (p i + a 0 i - (p i)) + t * (p i + a 1 i - (p i)) + w * (p i + a 2 i - (p i)) =
          p i + ((0 + s) * a 0 i + (0 + t) * a 1 i + (0 + w) * a 2 i)
        ring
    · refine ⟨![1 - s - t, 0 + s, 0 + t + w], ?_, fun i => ?_⟩
      · intro e
        fin_cases e
        · show 0 ≤ 1 - s - t ∧ 1 - s - t ≤ 1; constructor <;> linarith
        · show 0 ≤ 0 + s ∧ 0 + s ≤ 1; constructor <;> linarith
        · show 0 ≤ 0 + t + w ∧ 0 + t + w ≤ 1; constructor <;> linarith
      · rw [Fin.sum_univ_three, hx i]
        show p i + a 0 i + s * (p i + a 1 i - (p i + a 0 i)) + t * (p i + a 2 i - (p i + a 0 i)) + w * (p i + a 0 i + a 2 i - (p i + a 0 i)) =
          p i + ((1 - s - t) * a 0 i + (0 + s) * a 1 i + (0 + t + w) * a 2 i)
        ring
    · refine ⟨![0 + t, 1 - s - t, 0 + s + t + w], ?_, fun i => ?_⟩
      · intro e
        fin_cases e
        · show 0 ≤ 0 + t ∧ 0 + t ≤ 1; constructor <;> linarith
        · show 0 ≤ 1 - s - t ∧ 1 - s - t ≤ 1; constructor <;> linarith
        · show 0 ≤ 0 + s + t + w ∧ 0 + s + t + w ≤ 1; constructor <;> linarith
      · rw [Fin.sum_univ_three, hx i]
        show p i + a 1 i + s * (p i + a 2 i - (p i + a 1 i)) + t * (p i + a 0 i + a 2 i - (p i + a 1 i)) + w * (p i + a 1 i + a 2 i - (p i + a 1 i)) =
          p i + ((0 + t) * a 0 i + (1 - s - t) * a 1 i + (0 + s + t + w) * a 2 i)
        ring
    · refine ⟨![1 - s, 0 + s + w, 0 + t], ?_, fun i => ?_⟩
      · intro e
        fin_cases e
        · show 0 ≤ 1 - s ∧ 1 - s ≤ 1; constructor <;> linarith
        · show 0 ≤ 0 + s + w ∧ 0 + s + w ≤ 1; constructor <;> linarith
        · show 0 ≤ 0 + t ∧ 0 + t ≤ 1; constructor <;> linarith
      · rw [Fin.sum_univ_three, hx i]
        show p i + a 0 i + s * (p i + a 1 i - (p i + a 0 i)) + t * (p i + a 0 i + a 2 i - (p i + a 0 i)) + w * (p i + a 0 i + a 1 i - (p i + a 0 i)) =
          p i + ((1 - s) * a 0 i + (0 + s + w) * a 1 i + (0 + t) * a 2 i)
        ring
    · refine ⟨![0 + s + t, 1 - s, 0 + s + w], ?_, fun i => ?_⟩
      · intro e
        fin_cases e
        · show 0 ≤ 0 + s + t ∧ 0 + s + t ≤ 1; constructor <;> linarith
        · show 0 ≤ 1 - s ∧ 1 - s ≤ 1; constructor <;> linarith
        · show 0 ≤ 0 + s + w ∧ 0 + s + w ≤ 1; constructor <;> linarith
      · rw [Fin.sum_univ_three, hx i]
        show p i + a 1 i + s * (p i + a 0 i + a 2 i - (p i + a 1 i)) + t * (p i + a 0 i + a 1 i - (p i + a 1 i)) + w * (p i + a 1 i + a 2 i - (p i + a 1 i)) =
          p i + ((0 + s + t) * a 0 i + (1 - s) * a 1 i + (0 + s + w) * a 2 i)
        ring
    · refine ⟨![1 - s, 1 - t, 0 + s + t + w], ?_, fun i => ?_⟩
      · intro e
        fin_cases e
        · show 0 ≤ 1 - s ∧ 1 - s ≤ 1; constructor <;> linarith
        · show 0 ≤ 1 - t ∧ 1 - t ≤ 1; constructor <;> linarith
        · show 0 ≤ 0 + s + t + w ∧ 0 + s + t + w ≤ 1; constructor <;> linarith
      · rw [Fin.sum_univ_three, hx i]
        show p i + a 0 i + a 1 i + s * (p i + a 1 i + a 2 i - (p i + a 0 i + a 1 i)) + t * (p i + a 0 i + a 2 i - (p i + a 0 i + a 1 i)) + w * (p i + a 0 i + a 1 i + a 2 i - (p i + a 0 i + a 1 i)) =
          p i + ((1 - s) * a 0 i + (1 - t) * a 1 i + (0 + s + t + w) * a 2 i)
        ring
  · rintro ⟨u, hu, hx⟩
    have h0 := hu 0
    have h1 := hu 1
    have h2 := hu 2
    simp only [Fin.sum_univ_three] at hx
    rcases le_total (u 0 + u 1 + u 2) 1 with h | h
    · refine .inl ⟨u 0, u 1, u 2, fun i => ?_, by linarith, by linarith, by linarith, by linarith⟩
      rw [hx i]
      show p i + (u 0 * a 0 i + u 1 * a 1 i + u 2 * a 2 i) = p i + (u 0) * (p i + a 0 i - (p i)) +
        (u 1) * (p i + a 1 i - (p i)) + (u 2) * (p i + a 2 i - (p i))
      ring
    · rcases le_total (u 0 + u 1) 1 with h' | h' <;> rcases le_total (u 1 + u 2) 1 with h'' | h''
      · refine .inr (.inl ⟨u 1, 1 - u 0 - u 1, u 0 + u 1 + u 2 - 1, fun i => ?_, by linarith, by linarith, by linarith, by linarith⟩)
        rw [hx i]
        show p i + (u 0 * a 0 i + u 1 * a 1 i + u 2 * a 2 i) = p i + a 0 i + (u 1) * (p i + a 1 i - (p i + a 0 i)) +
          (1 - u 0 - u 1) * (p i + a 2 i - (p i + a 0 i)) + (u 0 + u 1 + u 2 - 1) * (p i + a 0 i + a 2 i - (p i + a 0 i))
        ring
      · refine .inr (.inr (.inl ⟨1 - u 0 - u 1, u 0, u 1 + u 2 - 1, fun i => ?_, by linarith, by linarith, by linarith, by linarith⟩))
        rw [hx i]
        show p i + (u 0 * a 0 i + u 1 * a 1 i + u 2 * a 2 i) = p i + a 1 i + (1 - u 0 - u 1) * (p i + a 2 i - (p i + a 1 i)) +
          (u 0) * (p i + a 0 i + a 2 i - (p i + a 1 i)) + (u 1 + u 2 - 1) * (p i + a 1 i + a 2 i - (p i + a 1 i))
        ring
      · refine .inr (.inr (.inr (.inl ⟨1 - u 0, u 2, u 0 + u 1 - 1, fun i => ?_, by linarith, by linarith, by linarith, by linarith⟩)))
        rw [hx i]
        show p i + (u 0 * a 0 i + u 1 * a 1 i + u 2 * a 2 i) = p i + a 0 i + (1 - u 0) * (p i + a 1 i - (p i + a 0 i)) +
          (u 2) * (p i + a 0 i + a 2 i - (p i + a 0 i)) + (u 0 + u 1 - 1) * (p i + a 0 i + a 1 i - (p i + a 0 i))
        ring
      · rcases le_total (u 0 + u 1 + u 2) 2 with h3 | h3
        · refine .inr (.inr (.inr (.inr (.inl ⟨1 - u 1, u 0 + u 1 - 1, u 1 + u 2 - 1, fun i => ?_, by linarith, by linarith, by linarith, by linarith⟩))))
          rw [hx i]
          show p i + (u 0 * a 0 i + u 1 * a 1 i + u 2 * a 2 i) = p i + a 1 i + (1 - u 1) * (p i + a 0 i + a 2 i - (p i + a 1 i)) +
            (u 0 + u 1 - 1) * (p i + a 0 i + a 1 i - (p i + a 1 i)) + (u 1 + u 2 - 1) * (p i + a 1 i + a 2 i - (p i + a 1 i))
          ring
        · refine .inr (.inr (.inr (.inr (.inr (⟨1 - u 0, 1 - u 1, u 0 + u 1 + u 2 - 2, fun i => ?_, by linarith, by linarith, by linarith, by linarith⟩)))))
          rw [hx i]
          show p i + (u 0 * a 0 i + u 1 * a 1 i + u 2 * a 2 i) = p i + a 0 i + a 1 i + (1 - u 0) * (p i + a 1 i + a 2 i - (p i + a 0 i + a 1 i)) +
            (1 - u 1) * (p i + a 0 i + a 2 i - (p i + a 0 i + a 1 i)) + (u 0 + u 1 + u 2 - 2) * (p i + a 0 i + a 1 i + a 2 i - (p i + a 0 i + a 1 i))
          ring

omit [IsStrictOrderedRing K] in
/-- C57: uniform cells (either orientation of the axes) accept exactly the points of the cell. -/
theorem C57_uniform {d : Nat} (lo up : Fin d → K) (h : ∀ i, lo i ≠ up i) (x : Fin d → K) :
    overlapsLocal 0 (isoUniformInv lo up x) = true ↔
      ∃ u : Fin d → K, (∀ i, 0 ≤ u i ∧ u i ≤ 1) ∧ ∀ i, x i = lo i + u i * (up i - lo i) := by
  have h' : ∀ i, up i - lo i ≠ 0 := fun i e => h i (sub_eq_zero.1 e).symm
  unfold overlapsLocal
  rw [decide_eq_true_iff]
  constructor
  · intro hu
    refine ⟨isoUniformInv lo up x, fun i => ?_, fun i => ?_⟩
    · have := hu i
      simpa using this
    · show x i = lo i + (x i - lo i) / (up i - lo i) * (up i - lo i)
      rw [div_mul_cancel₀ _ (h' i)]; ring
  · rintro ⟨u, hu, hx⟩ i
    have : isoUniformInv lo up x i = u i := by
      show (x i - lo i) / (up i - lo i) = u i
      rw [div_eq_iff (h' i), hx i]; ring
    rw [this]
    have := hu i
    simpa using this

/-- The property in general: an accepted point is a point of the cell. -/
def C57_statement : Prop :=
  ∀ (v : Fin 4 → Fin 2 → Rat) (x : Fin 2 → Rat), overlapsQuad v x 0 = true → Spec.Hull v x

omit [IsStrictOrderedRing K] in
/-- A cell with three coincident nodes accepts every point: all quotients are NaN and every rejecting
comparison is false. -/
theorem C57_collapsed (v : Fin 4 → Fin 2 → K) (h1 : v 1 = v 0) (h2 : v 2 = v 0) (x : Fin 2 → K)
    (tol : K) : overlapsQuad v x tol = true := by
  unfold overlapsQuad triangles
  rw [List.any_cons, Bool.or_eq_true]
  left
  show insideTri tol (v 0) (v 1) (v 2) x = true
  rw [h1, h2]
  have hz : sub (v 0) (v 0) = fun _ => 0 := by funext i; exact sub_self _
  unfold insideTri
  rw [hz]
  have e1 : ∀ b : Fin 2 → K, det2 b (fun _ => 0) = 0 := fun b => by unfold det2; ring
  have e2 : ∀ b : Fin 2 → K, det2 (fun _ => 0) b = 0 := fun b => by unfold det2; ring
  simp only [e1, e2, Quot.div, ne_eq, not_true_eq_false, if_false, if_true]
  rfl

theorem C57_false : ¬ C57_statement := by
  intro h
  obtain ⟨w, h0, h1, h2⟩ := h ![![0, 0], ![0, 0], ![0, 0], ![1, 1]] ![100, 0]
    (C57_collapsed _ rfl rfl _ _)
  have h3 := h2 0
  rw [Fin.sum_univ_four] at h1 h3
  change w 0 * 0 + w 1 * 0 + w 2 * 0 + w 3 * 1 = 100 at h3
  have := h0 0
  have := h0 1
  have := h0 2
  linarith

example : HexProper (Spec.hexNodes (K := Rat) ![0, 0, 0] ![![1, 0, 0], ![1, 2, 0], ![0, 1, 1]]) :=
  hex_proper _ _ (by decide +kernel)

example : overlapsHex (Spec.hexNodes (K := Rat) ![0, 0, 0] ![![1, 0, 0], ![1, 2, 0], ![0, 1, 1]])
    ![1, 3/2, 1/2] 0 = true ∧
    overlapsHex (Spec.hexNodes (K := Rat) ![0, 0, 0] ![![1, 0, 0], ![1, 2, 0], ![0, 1, 1]])
    ![1, 3/2, 5/2] 0 = false := by decide +kernel

/-- A proper quadrilateral that is not a parallelogram. -/
example : QuadProper (K := Rat) ![![0, 0], ![2, 0], ![0, 1], ![3, 3]] ∧
    overlapsQuad (K := Rat) ![![0, 0], ![2, 0], ![0, 1], ![3, 3]] ![2, 2] 0 = true := by
  refine ⟨⟨by decide +kernel, by decide +kernel⟩, by decide +kernel⟩

/-! ### C58: volumes -/

/-- C58: the volume computed from two triangles is the area of a parallelogram, and the same as computed
for an oriented uniform cell. -/
theorem C58_parallelogram (p : Fin 2 → K) (a : Fin 2 → Fin 2 → K) :
    volQuad (Spec.quadNodes p a) = |det2 (a 0) (a 1)| ∧
    volQuadOriented (Spec.quadNodes p a) = |det2 (a 0) (a 1)| := by
  have e1 : det2 (sub (Spec.quadNodes p a 1) (Spec.quadNodes p a 0))
        (sub (Spec.quadNodes p a 2) (Spec.quadNodes p a 0)) = det2 (a 0) (a 1) := by
    show (p 0 + a 0 0 - p 0) * (p 1 + a 1 1 - p 1) - (p 1 + a 0 1 - p 1) * (p 0 + a 1 0 - p 0) =
        a 0 0 * a 1 1 - a 0 1 * a 1 0
    ring
  have e2 : det2 (sub (Spec.quadNodes p a 2) (Spec.quadNodes p a 3))
        (sub (Spec.quadNodes p a 1) (Spec.quadNodes p a 3)) = det2 (a 0) (a 1) := by
    show (p 0 + a 1 0 - (p 0 + a 0 0 + a 1 0)) * (p 1 + a 0 1 - (p 1 + a 0 1 + a 1 1)) -
        (p 1 + a 1 1 - (p 1 + a 0 1 + a 1 1)) * (p 0 + a 0 0 - (p 0 + a 0 0 + a 1 0)) =
        a 0 0 * a 1 1 - a 0 1 * a 1 0
    ring
  constructor
  · show 0 + 1 / 2 * |det2 (sub (Spec.quadNodes p a 1) (Spec.quadNodes p a 0))
        (sub (Spec.quadNodes p a 2) (Spec.quadNodes p a 0))| +
      1 / 2 * |det2 (sub (Spec.quadNodes p a 2) (Spec.quadNodes p a 3))
        (sub (Spec.quadNodes p a 1) (Spec.quadNodes p a 3))| = _
    rw [e1, e2]; ring
  · unfold volQuadOriented; rw [e1]

/-- C58: the same in three dimensions, with six tetrahedra. -/
theorem C58_parallelepiped (p : Fin 3 → K) (a : Fin 3 → Fin 3 → K) :
    volHex (Spec.hexNodes p a) = |det3 (a 0) (a 1) (a 2)| ∧
    volHexOriented (Spec.hexNodes p a) = |det3 (a 0) (a 1) (a 2)| := by
  obtain ⟨h1, h2, h3, h4, h5, h6⟩ := hexProper_dets p a
  constructor
  · show 0 + |tetDet (Spec.hexNodes p a) 0 1 2 4| / 6 +
      |tetDet (Spec.hexNodes p a) 1 2 4 5| / 6 +
      |tetDet (Spec.hexNodes p a) 2 4 5 6| / 6 +
      |tetDet (Spec.hexNodes p a) 1 2 5 3| / 6 +
      |tetDet (Spec.hexNodes p a) 2 5 3 6| / 6 +
      |tetDet (Spec.hexNodes p a) 3 6 5 7| / 6 = _
    rw [h1, h2, h3, h4, h5, h6]; ring
  · show |tetDet (Spec.hexNodes p a) 0 1 2 4| = _
    rw [h1]

/-- C58: volumes computed from triangles or tetrahedra are never negative. -/
theorem C58_nonneg (v : Fin 4 → Fin 2 → K) (w : Fin 8 → Fin 3 → K) : 0 ≤ volQuad v ∧ 0 ≤ volHex w := by
  have key : ∀ {α : Type} (l : List α) (f : α → K) (x : K), (∀ y, 0 ≤ f y) → 0 ≤ x →
      0 ≤ l.foldl (fun v t => v + f t) x := by
    intro α l f
    induction l with
    | nil => intro x _ hx; exact hx
    | cons y l ih => intro x hf hx; exact ih _ hf (add_nonneg hx (hf y))
  constructor
  · apply key
    · intro t; exact mul_nonneg (by positivity) (abs_nonneg _)
    · exact le_refl 0
  · apply key
    · intro t; exact div_nonneg (abs_nonneg _) (by norm_num)
    · exact le_refl 0

/-- An axis-aligned box of size `w`. -/
def axes {d : Nat} (w : Fin d → K) : Fin d → Fin d → K := fun e i => if e = i then w e else 0

/-- C58 for axis-aligned cells: the volume used for uniform cells agrees with the general one if no
coordinate decreases. -/
theorem C58_partial (p w : Fin 2 → K) (p' w' : Fin 3 → K) (h : ∀ i, 0 ≤ w i) (h' : ∀ i, 0 ≤ w' i) :
    volUniform p (fun i => p i + w i) = volQuad (Spec.quadNodes p (axes w)) ∧
    volUniform p' (fun i => p' i + w' i) = volHex (Spec.hexNodes p' (axes w')) := by
  rw [(C58_parallelogram _ _).1, (C58_parallelepiped _ _).1]
  constructor
  · unfold volUniform
    rw [Fin.prod_univ_two]
    have : det2 (axes w 0) (axes w 1) = w 0 * w 1 := by
      show w 0 * w 1 - 0 * 0 = _; ring
    rw [this, abs_of_nonneg (mul_nonneg (h 0) (h 1))]
    ring
  · unfold volUniform
    rw [Fin.prod_univ_three]
    have : det3 (axes w' 0) (axes w' 1) (axes w' 2) = w' 0 * w' 1 * w' 2 := by
      show w' 0 * (w' 1 * w' 2 - 0 * 0) + 0 * (0 * 0 - w' 2 * 0) + 0 * (0 * 0 - 0 * w' 1) = _; ring
    rw [this, abs_of_nonneg (mul_nonneg (mul_nonneg (h' 0) (h' 1)) (h' 2))]
    ring

/-- The property in general: the same cell has the same, non-negative volume whichever geometry type it is
given (one- and two-dimensional cells). -/
def C58_statement : Prop :=
  (∀ p w : Fin 1 → Rat, 0 ≤ volUniform p (fun i => p i + w i)) ∧
  ∀ p w : Fin 2 → Rat, volUniform p (fun i => p i + w i) = volQuad (Spec.quadNodes p (axes w))

/-- A line or uniform cell with a decreasing coordinate has negative volume. -/
theorem C58_false : ¬ C58_statement := by
  rintro ⟨h, _⟩
  exact absurd (h ![0] ![-1]) (by decide +kernel)

theorem C58_false2 : ¬ ∀ p w : Fin 2 → Rat,
    volUniform p (fun i => p i + w i) = volQuad (Spec.quadNodes p (axes w)) := by
  intro h
  exact absurd (h ![0, 0] ![-1, 1]) (by decide +kernel)

example : volHex (Spec.hexNodes (K := Rat) ![0, 0, 0] ![![1, 0, 0], ![1, 2, 0], ![0, 1, 3]]) = 6 := by
  decide +kernel

/-! ### C59: bounds -/

/-- Every point of the list is in the box, and every bound is attained by some point of the list. -/
def Spec.Bounding {d : Nat} (l : List (Fin d → K)) (r : KBox K d) : Prop :=
  (∀ x ∈ l, ∀ i, r.b i ≤ x i ∧ x i ≤ r.e i) ∧ ∀ i, (∃ x ∈ l, x i = r.b i) ∧ ∃ x ∈ l, x i = r.e i

omit [Field K] [IsStrictOrderedRing K] in
theorem extend_bounding {d : Nat} (l : List (Fin d → K)) (hl : l ≠ []) (r : KBox K d)
    (h : Spec.Bounding l r) (x : Fin d → K) : Spec.Bounding (l ++ [x]) (r.extend x) := by
  have hne : r.empty = false := by
    unfold KBox.empty
    rw [decide_eq_false_iff_not]
    rintro ⟨i, hi⟩
    obtain ⟨y, hy⟩ := List.exists_mem_of_ne_nil l hl
    have := h.1 y hy i
    exact absurd (lt_of_le_of_lt (this.1.trans this.2) hi) (lt_irrefl _)
  unfold KBox.extend
  rw [hne]
  simp only [Bool.false_eq_true, if_false]
  constructor
  · intro y hy i
    rcases List.mem_append.1 hy with hy | hy
    · have := h.1 y hy i
      exact ⟨(min_le_left _ _).trans this.1, this.2.trans (le_max_left _ _)⟩
    · obtain rfl := List.mem_singleton.1 hy
      exact ⟨min_le_right _ _, le_max_right _ _⟩
  · intro i
    obtain ⟨⟨y, hy, ey⟩, ⟨z, hz, ez⟩⟩ := h.2 i
    constructor
    · rcases min_choice (r.b i) (x i) with hm | hm
      · exact ⟨y, List.mem_append.2 (.inl hy), by show y i = min _ _; rw [hm, ey]⟩
      · exact ⟨x, by simp, by show x i = min _ _; rw [hm]⟩
    · rcases max_choice (r.e i) (x i) with hm | hm
      · exact ⟨z, List.mem_append.2 (.inl hz), by show z i = max _ _; rw [hm, ez]⟩
      · exact ⟨x, by simp, by show x i = max _ _; rw [hm]⟩

omit [Field K] [IsStrictOrderedRing K] in
theorem fold_bounding {d : Nat} : ∀ (ns l : List (Fin d → K)) (r : KBox K d), l ≠ [] →
    Spec.Bounding l r → Spec.Bounding (l ++ ns) (ns.foldl KBox.extend r)
  | [], l, r, _, h => by simpa using h
  | n :: ns, l, r, hl, h => by
    have := fold_bounding ns (l ++ [n]) (r.extend n) (by simp) (extend_bounding l hl r h n)
    simpa using this

/-- C59: the bounds of a curvilinear or oriented cell contain all its corners and are tight. -/
theorem C59_bounds {d : Nat} (nodes : List (Fin (d + 1) → K)) (h : nodes ≠ []) :
    Spec.Bounding nodes (boundsCurvilinear nodes) := by
  cases nodes with
  | nil => exact absurd rfl h
  | cons n ns =>
    have he : (KBox.mkEmpty (d + 1) : KBox K (d + 1)).empty = true := by
      unfold KBox.empty KBox.mkEmpty
      rw [decide_eq_true_iff]
      exact ⟨0, by show (-1 : K) < 0; linarith [zero_lt_one (α := K)]⟩
    have h1 : (KBox.mkEmpty (d + 1) : KBox K (d + 1)).extend n = ⟨n, n⟩ := by
      unfold KBox.extend; rw [he, if_pos rfl]
    show Spec.Bounding (n :: ns) (ns.foldl KBox.extend ((KBox.mkEmpty (d + 1)).extend n))
    rw [h1]
    exact fold_bounding ns [n] ⟨n, n⟩ (by simp) ⟨fun x hx i => by
      obtain rfl := List.mem_singleton.1 hx; exact ⟨le_refl _, le_refl _⟩,
      fun i => ⟨⟨n, by simp, rfl⟩, ⟨n, by simp, rfl⟩⟩⟩

/-- A convex combination of points of a box is in the box. -/
theorem hull_in_box {d k : Nat} (v : Fin k → Fin d → K) (r : KBox K d)
    (hr : ∀ j i, r.b i ≤ v j i ∧ v j i ≤ r.e i) (x : Fin d → K) (hx : Spec.Hull v x) (i : Fin d) :
    r.b i ≤ x i ∧ x i ≤ r.e i := by
  obtain ⟨w, h0, h1, h2⟩ := hx
  rw [← h2 i]
  constructor
  · calc r.b i = ∑ j, w j * r.b i := by rw [← Finset.sum_mul, h1, one_mul]
      _ ≤ ∑ j, w j * v j i := Finset.sum_le_sum fun j _ => mul_le_mul_of_nonneg_left (hr j i).1 (h0 j)
  · calc ∑ j, w j * v j i ≤ ∑ j, w j * r.e i :=
          Finset.sum_le_sum fun j _ => mul_le_mul_of_nonneg_left (hr j i).2 (h0 j)
      _ = r.e i := by rw [← Finset.sum_mul, h1, one_mul]

/-- C59: every point accepted by the overlap test of a proper quadrilateral lies in its bounds, so the
search by bounding box does not lose it. -/
theorem C59_quad_partial (v : Fin 4 → Fin 2 → K) (h : QuadProper v) (x : Fin 2 → K)
    (hx : overlapsQuad v x 0 = true) :
    (boundsCurvilinear [v 0, v 1, v 2, v 3]).contains x = true := by
  have hb := (C59_bounds [v 0, v 1, v 2, v 3] (by simp)).1
  unfold KBox.contains
  rw [decide_eq_true_iff]
  intro i
  have key : ∀ w : Fin 3 → Fin 2 → K, (∀ j, w j ∈ [v 0, v 1, v 2, v 3]) → Spec.Hull w x →
      x i ≥ (boundsCurvilinear [v 0, v 1, v 2, v 3]).b i ∧
      x i ≤ (boundsCurvilinear [v 0, v 1, v 2, v 3]).e i :=
    fun w hw hh => hull_in_box w _ (fun j i => hb _ (hw j) i) x hh i
  rcases (C57_quad_partial v h x).1 hx with hh | hh
  · exact key _ (by intro j; fin_cases j <;> simp) hh
  · exact key _ (by intro j; fin_cases j <;> simp) hh

/-- C59: the same for proper hexahedra. -/
theorem C59_hex_partial (v : Fin 8 → Fin 3 → K) (h : HexProper v) (x : Fin 3 → K)
    (hx : overlapsHex v x 0 = true) :
    (boundsCurvilinear [v 0, v 1, v 2, v 3, v 4, v 5, v 6, v 7]).contains x = true := by
  have hb := (C59_bounds [v 0, v 1, v 2, v 3, v 4, v 5, v 6, v 7] (by simp)).1
  obtain ⟨t, _, hh⟩ := (C57_hex_partial v h x).1 hx
  unfold KBox.contains
  rw [decide_eq_true_iff]
  intro i
  refine hull_in_box _ _ (fun j i => hb _ ?_ i) x hh i
  have hall : ∀ k : Fin 8, v k ∈ [v 0, v 1, v 2, v 3, v 4, v 5, v 6, v 7] := by
    intro k; fin_cases k <;> simp
  fin_cases j
  · exact hall _
  · exact hall _
  · exact hall _
  · exact hall _

/-- C59: uniform and rectilinear cells with increasing coordinates: exactly the accepted points are in the
bounds. -/
theorem C59_uniform_partial {d : Nat} (lo up : Fin d → K) (h : ∀ i, lo i < up i) (x : Fin d → K) :
    (boundsUniform lo up).contains x = true ↔ overlapsLocal 0 (isoUniformInv lo up x) = true := by
  rw [C57_uniform lo up fun i => (h i).ne]
  unfold KBox.contains boundsUniform
  rw [decide_eq_true_iff]
  constructor
  · intro hx
    refine ⟨isoUniformInv lo up x, fun i => ?_, fun i => ?_⟩
    · have h' : 0 < up i - lo i := sub_pos.2 (h i)
      exact ⟨div_nonneg (sub_nonneg.2 (hx i).1) h'.le,
        (div_le_one h').2 (sub_le_sub_right (hx i).2 _)⟩
    · show x i = lo i + (x i - lo i) / (up i - lo i) * (up i - lo i)
      rw [div_mul_cancel₀ _ (sub_pos.2 (h i)).ne']; ring
  · rintro ⟨u, hu, hx⟩ i
    have h' : 0 < up i - lo i := sub_pos.2 (h i)
    have h1 := mul_nonneg (hu i).1 h'.le
    have h2 := mul_le_mul_of_nonneg_right (hu i).2 h'.le
    rw [hx i]
    constructor
    · show lo i ≤ _; linarith
    · linarith

/-- The property in general for uniform cells. -/
def C59_statement : Prop :=
  ∀ (lo up : Fin 1 → Rat), (∀ i, lo i ≠ up i) → ∀ x, overlapsLocal 0 (isoUniformInv lo up x) = true →
    (boundsUniform lo up).contains x = true

/-- A uniform cell whose coordinate decreases has empty bounds although its overlap test accepts the points
of the cell. -/
theorem C59_false : ¬ C59_statement := by
  intro h
  exact absurd (h ![1] ![0] (by decide +kernel) ![1/2] (by decide +kernel)) (by decide +kernel)

example : (boundsCurvilinear (K := Rat) [![0, 3], ![2, 1], ![1, 5], ![-1, 4]]).b = ![-1, 1] ∧
    (boundsCurvilinear (K := Rat) [![0, 3], ![2, 1], ![1, 5], ![-1, 4]]).e = ![2, 5] := by
  decide +kernel

end Ovk.Geo
