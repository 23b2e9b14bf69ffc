/-
Properties C35 (small linear systems), C36 (interpolation coefficients), C37 (local coordinates),
C56 (local coordinates in a grid cell).
-/
import Verif.Model.Geometry
import Mathlib.Tactic.FieldSimp
import Mathlib.Tactic.Ring
import Mathlib.Tactic.LinearCombination
import Mathlib.Tactic.Linarith
import Mathlib.Tactic.FinCases
import Mathlib.Algebra.Order.Ring.Rat
import Mathlib.Algebra.Order.Field.Rat
import Mathlib.Analysis.Real.Sqrt

namespace Ovk.Geo
variable {K : Type} [Field K]

namespace Spec

/-- `x` solves the system with columns `a`. -/
def Solves {d : Nat} (a : Fin d → Fin d → K) (r x : Fin d → K) : Prop :=
  ∀ i, ∑ e, x e * a e i = r i

/-- Node positions of the linear and cubic stencils: `0, 1` and `-1, 0, 1, 2`. -/
def linNode (i : Fin 2) : K := ((i : Nat) : K)

def cubicNode (i : Fin 4) : K := ((i : Nat) : K) - 1

/-- A polynomial of degree at most three given by its coefficients, and its derivative. -/
def poly (c : Fin 4 → K) (t : K) : K := c 0 + c 1 * t + c 2 * t ^ 2 + c 3 * t ^ 3

def polyDeriv (c : Fin 4 → K) (t : K) : K := c 1 + 2 * c 2 * t + 3 * c 3 * t ^ 2

end Spec

/-! ### C35 -/

theorem solves2_iff (a b r x : Fin 2 → K) : Spec.Solves ![a, b] r x ↔
    x 0 * a 0 + x 1 * b 0 = r 0 ∧ x 0 * a 1 + x 1 * b 1 = r 1 := by
  unfold Spec.Solves
  rw [Fin.forall_fin_two, Fin.sum_univ_two, Fin.sum_univ_two]
  exact Iff.rfl

theorem solves3_iff (a b c r x : Fin 3 → K) : Spec.Solves ![a, b, c] r x ↔
    x 0 * a 0 + x 1 * b 0 + x 2 * c 0 = r 0 ∧ x 0 * a 1 + x 1 * b 1 + x 2 * c 1 = r 1 ∧
      x 0 * a 2 + x 1 * b 2 + x 2 * c 2 = r 2 := by
  unfold Spec.Solves
  rw [Fin.forall_fin_succ, Fin.forall_fin_two, Fin.sum_univ_three, Fin.sum_univ_three,
    Fin.sum_univ_three]
  exact Iff.rfl

omit [Field K] in
theorem ext2 {x y : Fin 2 → K} (h0 : x 0 = y 0) (h1 : x 1 = y 1) : x = y := by
  funext i; fin_cases i <;> assumption

omit [Field K] in
theorem ext3 {x y : Fin 3 → K} (h0 : x 0 = y 0) (h1 : x 1 = y 1) (h2 : x 2 = y 2) : x = y := by
  funext i; fin_cases i <;> assumption

/-- C35, two dimensions: for a non-zero determinant the solver returns the only solution. -/
theorem C35_solve2 (a b r x : Fin 2 → K) (h : det2 a b ≠ 0) :
    Spec.Solves ![a, b] r x ↔ x = solve2 a b r := by
  rw [solves2_iff]
  constructor
  · rintro ⟨h0, h1⟩
    apply ext2
    · show x 0 = det2 r b / det2 a b
      rw [eq_div_iff h]; unfold det2; rw [← h0, ← h1]; ring
    · show x 1 = det2 a r / det2 a b
      rw [eq_div_iff h]; unfold det2; rw [← h0, ← h1]; ring
  · rintro rfl
    show det2 r b / det2 a b * a 0 + det2 a r / det2 a b * b 0 = r 0 ∧
      det2 r b / det2 a b * a 1 + det2 a r / det2 a b * b 1 = r 1
    constructor <;>
    · rw [div_mul_eq_mul_div, div_mul_eq_mul_div, ← add_div, div_eq_iff h]; unfold det2; ring

/-- C35, three dimensions. -/
theorem C35_solve3 (a b c r x : Fin 3 → K) (h : det3 a b c ≠ 0) :
    Spec.Solves ![a, b, c] r x ↔ x = solve3 a b c r := by
  rw [solves3_iff]
  constructor
  · rintro ⟨h0, h1, h2⟩
    apply ext3
    · show x 0 = det3 r b c / det3 a b c
      rw [eq_div_iff h]; unfold det3; rw [← h0, ← h1, ← h2]; ring
    · show x 1 = det3 a r c / det3 a b c
      rw [eq_div_iff h]; unfold det3; rw [← h0, ← h1, ← h2]; ring
    · show x 2 = det3 a b r / det3 a b c
      rw [eq_div_iff h]; unfold det3; rw [← h0, ← h1, ← h2]; ring
  · rintro rfl
    show det3 r b c / det3 a b c * a 0 + det3 a r c / det3 a b c * b 0 +
        det3 a b r / det3 a b c * c 0 = r 0 ∧
      det3 r b c / det3 a b c * a 1 + det3 a r c / det3 a b c * b 1 +
        det3 a b r / det3 a b c * c 1 = r 1 ∧
      det3 r b c / det3 a b c * a 2 + det3 a r c / det3 a b c * b 2 +
        det3 a b r / det3 a b c * c 2 = r 2
    refine ⟨?_, ?_, ?_⟩ <;>
    · rw [div_mul_eq_mul_div, div_mul_eq_mul_div, div_mul_eq_mul_div, ← add_div, ← add_div,
        div_eq_iff h]
      unfold det3; ring

/-- C35: a system with zero determinant has a non-trivial solution for the right-hand side zero, so
non-zero determinant is exactly the case of a unique solution (two dimensions). -/
theorem C35_det2 (a b : Fin 2 → K) (h : det2 a b = 0) : ∃ x, x ≠ 0 ∧ Spec.Solves ![a, b] 0 x := by
  unfold det2 at h
  by_cases hb : b = 0
  · refine ⟨![0, 1], fun e => one_ne_zero (congrFun e 1), ?_⟩
    rw [solves2_iff, hb]
    show (0 : K) * a 0 + 1 * 0 = 0 ∧ (0 : K) * a 1 + 1 * 0 = 0
    constructor <;> ring
  · by_cases h1 : b 1 = 0
    · have h0 : b 0 ≠ 0 := fun e => hb (ext2 e h1)
      refine ⟨![b 0, -a 0], fun e => h0 (congrFun e 0), ?_⟩
      rw [solves2_iff]
      show b 0 * a 0 + -a 0 * b 0 = 0 ∧ b 0 * a 1 + -a 0 * b 1 = 0
      constructor
      · ring
      · linear_combination -h
    · refine ⟨![b 1, -a 1], fun e => h1 (congrFun e 0), ?_⟩
      rw [solves2_iff]
      show b 1 * a 0 + -a 1 * b 0 = 0 ∧ b 1 * a 1 + -a 1 * b 1 = 0
      constructor
      · linear_combination h
      · ring

example : det2 (K := Rat) ![2, 1] ![1, 3] ≠ 0 ∧ solve2 (K := Rat) ![2, 1] ![1, 3] ![5, 10] = ![1, 3] ∧
    Spec.Solves (K := Rat) ![![2, 1], ![1, 3]] ![5, 10] ![1, 3] := by
  refine ⟨by decide +kernel, by decide +kernel, ?_⟩
  rw [solves2_iff]; decide +kernel

example : det3 (K := Rat) ![2, 1, 0] ![1, 3, 1] ![0, 0, 1] ≠ 0 ∧
    solve3 (K := Rat) ![2, 1, 0] ![1, 3, 1] ![0, 0, 1] ![5, 10, 7] = ![1, 3, 4] := by
  refine ⟨by decide +kernel, by decide +kernel⟩

/-! ### C36 -/

section Lagrange
variable [CharZero K]

omit [CharZero K] in
theorem cubic_sum (u : K) (f : Fin 4 → K) : ∑ i, cubic u i * f i =
    -(u * (u - 1) * (u - 2)) / 6 * f 0 + ((u + 1) * (u - 1) * (u - 2)) / 2 * f 1 +
    -((u + 1) * u * (u - 2)) / 2 * f 2 + ((u + 1) * u * (u - 1)) / 6 * f 3 := by
  rw [Fin.sum_univ_four]; rfl

omit [CharZero K] in
theorem cubicDeriv_sum (s3 s7 u : K) (f : Fin 4 → K) : ∑ i, cubicDeriv s3 s7 u i * f i =
    -((u - (1 + 1 / s3)) * (u - (1 - 1 / s3))) / 2 * f 0 +
    (3 * (u - (2 + s7) / 3) * (u - (2 - s7) / 3)) / 2 * f 1 +
    -(3 * (u - (1 + s7) / 3) * (u - (1 - s7) / 3)) / 2 * f 2 +
    ((u - 1 / s3) * (u - (-1 / s3))) / 2 * f 3 := by
  rw [Fin.sum_univ_four]; rfl

omit [CharZero K] in
theorem cubicNode_vals : Spec.cubicNode (K := K) 0 = -1 ∧ Spec.cubicNode (K := K) 1 = 0 ∧
    Spec.cubicNode (K := K) 2 = 1 ∧ Spec.cubicNode (K := K) 3 = 2 := by
  refine ⟨?_, ?_, ?_, ?_⟩
  · show ((0 : Nat) : K) - 1 = -1; push_cast; ring
  · show ((1 : Nat) : K) - 1 = 0; push_cast; ring
  · show ((2 : Nat) : K) - 1 = 1; push_cast; ring
  · show ((3 : Nat) : K) - 1 = 2; push_cast; ring

omit [CharZero K] in
/-- C36: linear coefficients sum to one, select the node at a node, and reproduce every polynomial of
degree at most one; the derivative coefficients reproduce the derivative. -/
theorem C36_linear (u c0 c1 : K) :
    ∑ i, lin u i = 1 ∧
    (∀ i j, lin (Spec.linNode j) i = if i = j then (1 : K) else 0) ∧
    ∑ i, lin u i * (c0 + c1 * Spec.linNode i) = c0 + c1 * u ∧
    ∑ i, linDeriv u i * (c0 + c1 * Spec.linNode i) = c1 := by
  have e0 : Spec.linNode (K := K) 0 = 0 := by show ((0 : Nat) : K) = 0; simp
  have e1 : Spec.linNode (K := K) 1 = 1 := by show ((1 : Nat) : K) = 1; simp
  refine ⟨?_, ?_, ?_, ?_⟩
  · rw [Fin.sum_univ_two]; show 1 - u + u = 1; ring
  · intro i j
    fin_cases i <;> fin_cases j
    · show 1 - Spec.linNode 0 = (1 : K); rw [e0]; ring
    · show 1 - Spec.linNode 1 = (0 : K); rw [e1]; ring
    · show Spec.linNode 0 = (0 : K); rw [e0]
    · show Spec.linNode 1 = (1 : K); rw [e1]
  · rw [Fin.sum_univ_two, e0, e1]
    show (1 - u) * (c0 + c1 * 0) + u * (c0 + c1 * 1) = c0 + c1 * u; ring
  · rw [Fin.sum_univ_two, e0, e1]
    show -1 * (c0 + c1 * 0) + 1 * (c0 + c1 * 1) = c1; ring

/-- C36: cubic coefficients reproduce every polynomial of degree at most three. -/
theorem C36_cubic (u : K) (c : Fin 4 → K) :
    ∑ i, cubic u i * Spec.poly c (Spec.cubicNode i) = Spec.poly c u := by
  obtain ⟨e0, e1, e2, e3⟩ := cubicNode_vals (K := K)
  rw [cubic_sum, e0, e1, e2, e3]
  unfold Spec.poly
  field_simp
  ring

/-- C36: cubic coefficients sum to one. -/
theorem C36_cubic_sum (u : K) : ∑ i, cubic u i = 1 := by
  have h := cubic_sum u (fun _ => 1)
  simp only [mul_one] at h
  rw [h]; field_simp; ring

/-- C36: at a node only that node has a coefficient, and it is one. -/
theorem C36_cubic_node (i j : Fin 4) :
    cubic (Spec.cubicNode j) i = if i = j then (1 : K) else 0 := by
  obtain ⟨e0, e1, e2, e3⟩ := cubicNode_vals (K := K)
  have key : ∀ (u : K) (i : Fin 4), cubic u i = (![-(u * (u - 1) * (u - 2)) / 6,
    ((u + 1) * (u - 1) * (u - 2)) / 2, -((u + 1) * u * (u - 2)) / 2,
    ((u + 1) * u * (u - 1)) / 6] : Fin 4 → K) i := fun _ _ => rfl
  fin_cases j
  · show cubic (Spec.cubicNode 0) i = if i = 0 then (1 : K) else 0
    rw [e0]
    fin_cases i
    · show -((-1) * ((-1) - 1) * ((-1) - 2)) / 6 = (1 : K); norm_num
    · show (((-1) + 1) * ((-1) - 1) * ((-1) - 2)) / 2 = (0 : K); norm_num
    · show -(((-1) + 1) * (-1) * ((-1) - 2)) / 2 = (0 : K); norm_num
    · show (((-1) + 1) * (-1) * ((-1) - 1)) / 6 = (0 : K); norm_num
  · show cubic (Spec.cubicNode 1) i = if i = 1 then (1 : K) else 0
    rw [e1]
    fin_cases i
    · show -(0 * (0 - 1) * (0 - 2)) / 6 = (0 : K); norm_num
    · show ((0 + 1) * (0 - 1) * (0 - 2)) / 2 = (1 : K); norm_num
    · show -((0 + 1) * 0 * (0 - 2)) / 2 = (0 : K); norm_num
    · show ((0 + 1) * 0 * (0 - 1)) / 6 = (0 : K); norm_num
  · show cubic (Spec.cubicNode 2) i = if i = 2 then (1 : K) else 0
    rw [e2]
    fin_cases i
    · show -(1 * (1 - 1) * (1 - 2)) / 6 = (0 : K); norm_num
    · show ((1 + 1) * (1 - 1) * (1 - 2)) / 2 = (0 : K); norm_num
    · show -((1 + 1) * 1 * (1 - 2)) / 2 = (1 : K); norm_num
    · show ((1 + 1) * 1 * (1 - 1)) / 6 = (0 : K); norm_num
  · show cubic (Spec.cubicNode 3) i = if i = 3 then (1 : K) else 0
    rw [e3]
    fin_cases i
    · show -(2 * (2 - 1) * (2 - 2)) / 6 = (0 : K); norm_num
    · show ((2 + 1) * (2 - 1) * (2 - 2)) / 2 = (0 : K); norm_num
    · show -((2 + 1) * 2 * (2 - 2)) / 2 = (0 : K); norm_num
    · show ((2 + 1) * 2 * (2 - 1)) / 6 = (1 : K); norm_num

/-- The four derivative coefficients without roots. -/
theorem cubicDeriv_expand {s3 s7 : K} (h3 : s3 ^ 2 = 3) (h7 : s7 ^ 2 = 7) (u : K) :
    -((u - (1 + 1 / s3)) * (u - (1 - 1 / s3))) / 2 = -(3 * u ^ 2 - 6 * u + 2) / 6 ∧
    (3 * (u - (2 + s7) / 3) * (u - (2 - s7) / 3)) / 2 = (3 * u ^ 2 - 4 * u - 1) / 2 ∧
    -(3 * (u - (1 + s7) / 3) * (u - (1 - s7) / 3)) / 2 = -(3 * u ^ 2 - 2 * u - 2) / 2 ∧
    ((u - 1 / s3) * (u - (-1 / s3))) / 2 = (3 * u ^ 2 - 1) / 6 := by
  have h0 : s3 ≠ 0 := by
    rintro rfl
    exact (by norm_num : (3 : K) ≠ 0) (by rw [← h3]; ring)
  have hinv : (1 / s3) ^ 2 = 1 / 3 := by rw [div_pow, h3]; ring
  refine ⟨?_, ?_, ?_, ?_⟩
  · linear_combination (1 / 2) * hinv
  · linear_combination (-1 / 6) * h7
  · linear_combination (1 / 6) * h7
  · linear_combination (-1 / 2) * hinv

/-- C36: the cubic derivative coefficients reproduce the derivative of every polynomial of degree at most
three. -/
theorem C36_cubic_deriv {s3 s7 : K} (h3 : s3 ^ 2 = 3) (h7 : s7 ^ 2 = 7) (u : K) (c : Fin 4 → K) :
    ∑ i, cubicDeriv s3 s7 u i * Spec.poly c (Spec.cubicNode i) = Spec.polyDeriv c u := by
  obtain ⟨e0, e1, e2, e3⟩ := cubicNode_vals (K := K)
  obtain ⟨d0, d1, d2, d3⟩ := cubicDeriv_expand h3 h7 u
  rw [cubicDeriv_sum, e0, e1, e2, e3, d0, d1, d2, d3]
  unfold Spec.poly Spec.polyDeriv
  field_simp
  ring

end Lagrange

/-- The square roots exist over the real numbers. -/
example : (Real.sqrt 3) ^ 2 = 3 ∧ (Real.sqrt 7) ^ 2 = 7 :=
  ⟨Real.sq_sqrt (by norm_num), Real.sq_sqrt (by norm_num)⟩

example : ∑ i, cubic (K := Rat) (1 / 3) i * Spec.poly ![1, 2, 0, 5] (Spec.cubicNode i) =
    1 + 2 / 3 + 5 / 27 := by decide +kernel

end Ovk.Geo
