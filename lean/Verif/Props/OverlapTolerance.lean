/-
Property C62: the scaled bounding box of a cell contains every point the cell accepts with a tolerance.
-/
import Verif.Model.OverlapAccel
import Verif.Props.Cells
import Verif.Props.RegionHash

namespace Ovk
namespace Accel
open Geo

/-- Boxes of the geometry model as boxes of the search. -/
def toBox {d : Nat} (r : KBox Rat d) : Box d := ⟨r.b, r.e⟩

/-- C62 for uniform and rectilinear cells with increasing coordinates. -/
theorem C62_uniform {d : Nat} (lo up x : Fin d → Rat) (h : ∀ i, lo i < up i) (tol maxTol : Rat)
    (ht : tol ≤ maxTol) (hx : overlapsLocal tol (isoUniformInv lo up x) = true) :
    Ovk.Spec.boxHas (scaleBox (toBox (boundsUniform lo up)) (1 + 2 * maxTol)) x := by
  unfold overlapsLocal at hx
  rw [decide_eq_true_iff] at hx
  intro i
  have h1 := hx i
  have h2 : 0 < up i - lo i := sub_pos.2 (h i)
  have e : x i = lo i + isoUniformInv lo up x i * (up i - lo i) := by
    show x i = lo i + (x i - lo i) / (up i - lo i) * (up i - lo i)
    rw [div_mul_cancel₀ _ h2.ne']; ring
  show (lo i + up i) / 2 - (1 + 2 * maxTol) * (up i - lo i) / 2 ≤ x i ∧
    x i ≤ (lo i + up i) / 2 + (1 + 2 * maxTol) * (up i - lo i) / 2
  rw [e]
  constructor
  · nlinarith [h1.1]
  · nlinarith [h1.2]

/-- C62 for oriented cells: parallelepipeds with tight bounds. -/
theorem C62_oriented {d : Nat} (p : Fin d → Rat) (a : Fin d → Fin d → Rat) (r : Box d)
    (hr : ∀ i, r.b i = p i + ∑ e, min (a e i) 0 ∧ r.e i = p i + ∑ e, max (a e i) 0)
    (u x : Fin d → Rat) (tol maxTol : Rat) (ht : tol ≤ maxTol)
    (hu : ∀ e, -tol ≤ u e ∧ u e ≤ 1 + tol) (hx : ∀ i, x i = p i + ∑ e, u e * a e i) :
    Ovk.Spec.boxHas (scaleBox r (1 + 2 * maxTol)) x := by
  intro i
  show (r.b i + r.e i) / 2 - (1 + 2 * maxTol) * (r.e i - r.b i) / 2 ≤ x i ∧
    x i ≤ (r.b i + r.e i) / 2 + (1 + 2 * maxTol) * (r.e i - r.b i) / 2
  have e1 : (r.b i + r.e i) / 2 - (1 + 2 * maxTol) * (r.e i - r.b i) / 2 =
      p i + ∑ e, (min (a e i) 0 - maxTol * (max (a e i) 0 - min (a e i) 0)) := by
    rw [(hr i).1, (hr i).2, Finset.sum_sub_distrib, ← Finset.mul_sum, Finset.sum_sub_distrib]; ring
  have e2 : (r.b i + r.e i) / 2 + (1 + 2 * maxTol) * (r.e i - r.b i) / 2 =
      p i + ∑ e, (max (a e i) 0 + maxTol * (max (a e i) 0 - min (a e i) 0)) := by
    rw [(hr i).1, (hr i).2, Finset.sum_add_distrib, ← Finset.mul_sum, Finset.sum_sub_distrib]; ring
  rw [e1, e2, hx i]
  constructor
  · gcongr with e _
    rcases le_total 0 (a e i) with h | h
    · rw [min_eq_right h, max_eq_left h]; nlinarith [(hu e).1]
    · rw [min_eq_left h, max_eq_right h]; nlinarith [(hu e).2]
  · gcongr with e _
    rcases le_total 0 (a e i) with h | h
    · rw [min_eq_right h, max_eq_left h]; nlinarith [(hu e).2]
    · rw [min_eq_left h, max_eq_right h]; nlinarith [(hu e).1]

/-- The property for quadrilaterals with the tolerance the tree was built for. -/
def C62_statement : Prop :=
  ∀ (v : Fin 4 → Fin 2 → Rat), QuadProper v → ∀ (x : Fin 2 → Rat) (tol : Rat), 0 ≤ tol →
    overlapsQuad v x tol = true →
    Ovk.Spec.boxHas (scaleBox (toBox (boundsCurvilinear [v 0, v 1, v 2, v 3])) (1 + 2 * tol)) x

/-- The tolerance is applied to each barycentric coordinate, so at the corners of a simplex it adds up:
the unit square accepts a point that is twice the tolerance away and outside the scaled box. -/
theorem C62_false : ¬ C62_statement := by
  intro h
  have := h ![![0, 0], ![1, 0], ![0, 1], ![1, 1]] ⟨by decide +kernel, by decide +kernel⟩
    ![-1/10, 12/10] (1/10) (by norm_num) (by decide +kernel) 1
  revert this
  decide +kernel

/-- A combination with weights at least `-t` and sum 1 of numbers in an interval exceeds it by at most `t`
times its length for each weight but one. -/
theorem weights3 (t w0 w1 w2 y0 y1 y2 B E : Rat) (ht : 0 ≤ t) (h0 : -t ≤ w0) (h1 : -t ≤ w1) (h2 : -t ≤ w2)
    (hs : w0 + w1 + w2 = 1) (hB : B ≤ y0 ∧ B ≤ y1 ∧ B ≤ y2) (hE : y0 ≤ E ∧ y1 ≤ E ∧ y2 ≤ E) :
    w0 * y0 + w1 * y1 + w2 * y2 ≤ E + 2 * t * (E - B) := by
  have key : ∀ w y, -t ≤ w → B ≤ y → y ≤ E → w * (y - E) ≤ t * (E - B) ∧ (0 ≤ w → w * (y - E) ≤ 0) := by
    intro w y hw hb he
    exact ⟨by nlinarith, fun h => mul_nonpos_of_nonneg_of_nonpos h (by linarith)⟩
  have k0 := key w0 y0 h0 hB.1 hE.1
  have k1 := key w1 y1 h1 hB.2.1 hE.2.1
  have k2 := key w2 y2 h2 hB.2.2 hE.2.2
  have e : w0 * y0 + w1 * y1 + w2 * y2 = E + (w0 * (y0 - E) + w1 * (y1 - E) + w2 * (y2 - E)) := by
    linear_combination E * hs
  rw [e]
  by_cases p0 : 0 ≤ w0
  · linarith [k0.2 p0, k1.1, k2.1]
  · by_cases p1 : 0 ≤ w1
    · linarith [k1.2 p1, k0.1, k2.1]
    · linarith [k2.2 (by linarith), k0.1, k1.1]

theorem weights4 (t w0 w1 w2 w3 y0 y1 y2 y3 B E : Rat) (ht : 0 ≤ t) (h0 : -t ≤ w0) (h1 : -t ≤ w1)
    (h2 : -t ≤ w2) (h3 : -t ≤ w3) (hs : w0 + w1 + w2 + w3 = 1) (hB : B ≤ y0 ∧ B ≤ y1 ∧ B ≤ y2 ∧ B ≤ y3)
    (hE : y0 ≤ E ∧ y1 ≤ E ∧ y2 ≤ E ∧ y3 ≤ E) :
    w0 * y0 + w1 * y1 + w2 * y2 + w3 * y3 ≤ E + 3 * t * (E - B) := by
  have key : ∀ w y, -t ≤ w → B ≤ y → y ≤ E → w * (y - E) ≤ t * (E - B) ∧ (0 ≤ w → w * (y - E) ≤ 0) := by
    intro w y hw hb he
    exact ⟨by nlinarith, fun h => mul_nonpos_of_nonneg_of_nonpos h (by linarith)⟩
  have k0 := key w0 y0 h0 hB.1 hE.1
  have k1 := key w1 y1 h1 hB.2.1 hE.2.1
  have k2 := key w2 y2 h2 hB.2.2.1 hE.2.2.1
  have k3 := key w3 y3 h3 hB.2.2.2 hE.2.2.2
  have e : w0 * y0 + w1 * y1 + w2 * y2 + w3 * y3 =
      E + (w0 * (y0 - E) + w1 * (y1 - E) + w2 * (y2 - E) + w3 * (y3 - E)) := by
    linear_combination E * hs
  rw [e]
  by_cases p0 : 0 ≤ w0
  · linarith [k0.2 p0, k1.1, k2.1, k3.1]
  · by_cases p1 : 0 ≤ w1
    · linarith [k1.2 p1, k0.1, k2.1, k3.1]
    · by_cases p2 : 0 ≤ w2
      · linarith [k2.2 p2, k0.1, k1.1, k3.1]
      · linarith [k3.2 (by linarith), k0.1, k1.1, k2.1]

/-- C62 for curvilinear cells (partial): the scaled box contains the point if the tree was built for twice
the tolerance. -/
theorem C62_quad_partial (v : Fin 4 → Fin 2 → Rat) (hv : QuadProper v) (x : Fin 2 → Rat) (tol maxTol : Rat)
    (h0 : 0 ≤ tol) (ht : 2 * tol ≤ maxTol) (hx : overlapsQuad v x tol = true) :
    Ovk.Spec.boxHas (scaleBox (toBox (boundsCurvilinear [v 0, v 1, v 2, v 3])) (1 + 2 * maxTol)) x := by
  have hb := (C59_bounds [v 0, v 1, v 2, v 3] (by simp)).1
  generalize boundsCurvilinear [v 0, v 1, v 2, v 3] = r at *
  have hn : ∀ k : Fin 4, ∀ i, r.b i ≤ v k i ∧ v k i ≤ r.e i := by
    intro k; fin_cases k
    · exact hb _ (by simp)
    · exact hb _ (by simp)
    · exact hb _ (by simp)
    · exact hb _ (by simp)
  have tri : ∀ k0 k1 k2 : Fin 4, (∃ a b : Rat, (∀ i, x i = v k0 i + a * (v k1 i - v k0 i) + b * (v k2 i - v k0 i)) ∧
      -tol ≤ a ∧ a ≤ 1 + tol ∧ -tol ≤ b ∧ a + b ≤ 1 + tol) →
      Ovk.Spec.boxHas (scaleBox (toBox r) (1 + 2 * maxTol)) x := by
    rintro k0 k1 k2 ⟨a, b, hx, ha, _, hb, hab⟩ i
    have u := weights3 tol (1 - a - b) a b (v k0 i) (v k1 i) (v k2 i) (r.b i) (r.e i) h0 (by linarith) ha hb
      (by ring) ⟨(hn k0 i).1, (hn k1 i).1, (hn k2 i).1⟩ ⟨(hn k0 i).2, (hn k1 i).2, (hn k2 i).2⟩
    have l := weights3 tol (1 - a - b) a b (-v k0 i) (-v k1 i) (-v k2 i) (-r.e i) (-r.b i) h0 (by linarith)
      ha hb (by ring) ⟨neg_le_neg (hn k0 i).2, neg_le_neg (hn k1 i).2, neg_le_neg (hn k2 i).2⟩
      ⟨neg_le_neg (hn k0 i).1, neg_le_neg (hn k1 i).1, neg_le_neg (hn k2 i).1⟩
    have hsz : 0 ≤ r.e i - r.b i := by linarith [(hn k0 i).1, (hn k0 i).2]
    have hm : 2 * tol * (r.e i - r.b i) ≤ maxTol * (r.e i - r.b i) := mul_le_mul_of_nonneg_right ht hsz
    show (r.b i + r.e i) / 2 - (1 + 2 * maxTol) * (r.e i - r.b i) / 2 ≤ x i ∧
      x i ≤ (r.b i + r.e i) / 2 + (1 + 2 * maxTol) * (r.e i - r.b i) / 2
    rw [hx i]
    constructor
    · linarith
    · linarith
  unfold overlapsQuad triangles at hx
  rw [List.any_cons, List.any_cons, List.any_nil, Bool.or_false, Bool.or_eq_true] at hx
  rcases hx with hx | hx
  · exact tri 0 1 2 ((tri_iff hv.1 tol x).1 hx)
  · exact tri 3 2 1 ((tri_iff hv.2 tol x).1 hx)

/-- C62 for hexahedra (partial): with three times the tolerance. -/
theorem C62_hex_partial (v : Fin 8 → Fin 3 → Rat) (hv : HexProper v) (x : Fin 3 → Rat) (tol maxTol : Rat)
    (h0 : 0 ≤ tol) (ht : 3 * tol ≤ maxTol) (hx : overlapsHex v x tol = true) :
    Ovk.Spec.boxHas (scaleBox (toBox (boundsCurvilinear
      [v 0, v 1, v 2, v 3, v 4, v 5, v 6, v 7])) (1 + 2 * maxTol)) x := by
  have hb := (C59_bounds [v 0, v 1, v 2, v 3, v 4, v 5, v 6, v 7] (by simp)).1
  generalize boundsCurvilinear [v 0, v 1, v 2, v 3, v 4, v 5, v 6, v 7] = r at *
  have hmem : ∀ k : Fin 8, v k ∈ [v 0, v 1, v 2, v 3, v 4, v 5, v 6, v 7] := by
    intro k; fin_cases k <;> simp
  have hn : ∀ k : Fin 8, ∀ i, r.b i ≤ v k i ∧ v k i ≤ r.e i := fun k => hb _ (hmem k)
  unfold overlapsHex at hx
  rw [List.any_eq_true] at hx
  obtain ⟨t, htm, hx⟩ := hx
  obtain ⟨a, b, c, hx, ha, _, hb', _, hc, hab⟩ := (tet_iff (hv t htm) tol x).1 hx
  intro i
  have n0 := hn (t 0) i
  have n1 := hn (t 1) i
  have n2 := hn (t 2) i
  have n3 := hn (t 3) i
  have u := weights4 tol (1 - a - b - c) a b c (v (t 0) i) (v (t 1) i) (v (t 2) i) (v (t 3) i) (r.b i) (r.e i)
    h0 (by linarith) ha hb' hc (by ring) ⟨n0.1, n1.1, n2.1, n3.1⟩ ⟨n0.2, n1.2, n2.2, n3.2⟩
  have l := weights4 tol (1 - a - b - c) a b c (-v (t 0) i) (-v (t 1) i) (-v (t 2) i) (-v (t 3) i) (-r.e i)
    (-r.b i) h0 (by linarith) ha hb' hc (by ring)
    ⟨neg_le_neg n0.2, neg_le_neg n1.2, neg_le_neg n2.2, neg_le_neg n3.2⟩
    ⟨neg_le_neg n0.1, neg_le_neg n1.1, neg_le_neg n2.1, neg_le_neg n3.1⟩
  have hsz : 0 ≤ r.e i - r.b i := by linarith [n0.1, n0.2]
  have hm : 3 * tol * (r.e i - r.b i) ≤ maxTol * (r.e i - r.b i) := mul_le_mul_of_nonneg_right ht hsz
  show (r.b i + r.e i) / 2 - (1 + 2 * maxTol) * (r.e i - r.b i) / 2 ≤ x i ∧
    x i ≤ (r.b i + r.e i) / 2 + (1 + 2 * maxTol) * (r.e i - r.b i) / 2
  rw [hx i]
  constructor
  · linarith
  · linarith

/- A point accepted with tolerance 1/20 is in the box scaled for 1/10. -/
example : overlapsQuad (K := Rat) ![![0, 0], ![1, 0], ![0, 1], ![1, 1]] ![-1/20, 11/10] (1/20) = true := by
  decide +kernel

end Accel
end Ovk
