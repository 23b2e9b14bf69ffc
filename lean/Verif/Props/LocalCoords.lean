/-
Property C37: local coordinates of a cell.  Property C56: local coordinates in a cell of a grid.
-/
import Verif.Props.Geometry

namespace Ovk.Geo
namespace Spec
variable {K : Type} [Field K]

/-- The affine map with origin `p` and columns `a`. -/
def affine {d : Nat} (p : Fin d → K) (a : Fin d → Fin d → K) (u : Fin d → K) : Fin d → K :=
  fun i => p i + ∑ e, u e * a e i

/-- Columns at right angles. -/
def Orthogonal {d : Nat} (a : Fin d → Fin d → K) : Prop :=
  ∀ e f, e ≠ f → ∑ i, a e i * a f i = 0

end Spec

section
variable {K : Type} [Field K]

/-! ### Uniform and oriented cells -/

/-- C37: uniform cells, both directions. -/
theorem C37_uniform {d : Nat} (lo up : Fin d → K) (h : ∀ i, lo i ≠ up i) (u x : Fin d → K) :
    isoUniformInv lo up (isoUniform lo up u) = u ∧ isoUniform lo up (isoUniformInv lo up x) = x := by
  have h' : ∀ i, up i - lo i ≠ 0 := fun i e => h i (sub_eq_zero.1 e).symm
  constructor
  · funext i
    show ((1 - u i) * lo i + u i * up i - lo i) / (up i - lo i) = u i
    rw [div_eq_iff (h' i)]; ring
  · funext i
    show (1 - (x i - lo i) / (up i - lo i)) * lo i + (x i - lo i) / (up i - lo i) * up i = x i
    have := h' i
    field_simp
    ring

/-- The oriented cell map is affine. -/
theorem isoOriented_eq {d : Nat} (p : Fin d → K) (q : Fin d → Fin d → K) (u : Fin d → K) :
    isoOriented p q u = Spec.affine p (fun e i => q e i - p i) u := by
  funext i
  show (1 - ∑ e, u e) * p i + ∑ e, u e * q e i = p i + ∑ e, u e * (q e i - p i)
  simp only [mul_sub, Finset.sum_sub_distrib, ← Finset.sum_mul]
  ring

/-- C37: oriented cells with orthogonal edges: local coordinates of an image. -/
theorem C37_oriented {d : Nat} (p : Fin d → K) (q : Fin d → Fin d → K)
    (ho : Spec.Orthogonal fun e i => q e i - p i)
    (hn : ∀ e, ∑ i, (q e i - p i) * (q e i - p i) ≠ 0) (u : Fin d → K) :
    isoOrientedInv p q (isoOriented p q u) = u := by
  rw [isoOriented_eq]
  funext f
  show (∑ i, (p i + ∑ e, u e * (q e i - p i) - p i) * (q f i - p i)) /
    ∑ i, (q f i - p i) * (q f i - p i) = u f
  rw [div_eq_iff (hn f)]
  have : ∀ i, (p i + ∑ e, u e * (q e i - p i) - p i) * (q f i - p i) =
      ∑ e, u e * ((q e i - p i) * (q f i - p i)) := by
    intro i
    rw [add_sub_cancel_left, Finset.sum_mul]
    exact Finset.sum_congr rfl fun e _ => by ring
  simp only [this]
  rw [Finset.sum_comm]
  simp only [← Finset.mul_sum]
  rw [Finset.sum_eq_single f]
  · intro e _ hne
    rw [ho e f hne, mul_zero]
  · intro hf; exact absurd (Finset.mem_univ f) hf

/-! ### Tensor sums -/

/-- What an interpolation rule with nodes `0 - o, 1 - o, ...` has to satisfy. -/
structure Rule {m : Nat} (shape deriv : K → Fin m → K) (o : K) : Prop where
  one : ∀ u, ∑ i, shape u i = 1
  self : ∀ u, ∑ i, shape u i * (((i : Nat) : K) - o) = u
  dzero : ∀ u, ∑ i, deriv u i = 0
  done : ∀ u, ∑ i, deriv u i * (((i : Nat) : K) - o) = 1

theorem sum_prod {d m : Nat} (f : Fin d → Fin m → K) :
    ∑ n : Fin d → Fin m, ∏ e, f e (n e) = ∏ e, ∑ i, f e i := (Fintype.prod_sum f).symm

theorem sum_prod_mul {d m : Nat} (f : Fin d → Fin m → K) (e : Fin d) (g : Fin m → K) :
    ∑ n : Fin d → Fin m, (∏ e', f e' (n e')) * g (n e) =
      ∏ e', ∑ i, f e' i * (if e' = e then g i else 1) := by
  rw [← sum_prod fun e' i => f e' i * (if e' = e then g i else 1)]
  apply Finset.sum_congr rfl
  intro n _
  rw [Finset.prod_mul_distrib]
  congr 1
  rw [Finset.prod_ite_eq' Finset.univ e (fun e' => g (n e'))]
  simp

/-- The tensor sum over affine nodes. -/
theorem tensor_affine {d m : Nat} (s : Fin d → Fin m → K) (o : K) (p : Fin d → K)
    (a : Fin d → Fin d → K) (c : Fin d) :
    tensor s (fun n => Spec.affine p a fun e => ((n e : Nat) : K) - o) c =
      (∏ e, ∑ i, s e i) * p c +
      ∑ e, (∏ e', ∑ i, s e' i * (if e' = e then (((i : Nat) : K) - o) else 1)) * a e c := by
  unfold tensor Spec.affine
  simp only [mul_add, Finset.sum_add_distrib, Finset.mul_sum]
  congr 1
  · rw [← Finset.sum_mul, sum_prod]
  · rw [Finset.sum_comm]
    apply Finset.sum_congr rfl
    intro e _
    rw [← sum_prod_mul s e fun i => ((i : Nat) : K) - o, Finset.sum_mul]
    exact Finset.sum_congr rfl fun n _ => by ring

variable {d m : Nat} {shape deriv : K → Fin m → K} {o : K}

/-- Interpolating an affine map gives the affine map. -/
theorem iso_affine (hr : Rule shape deriv o) (p : Fin d → K) (a : Fin d → Fin d → K) (u : Fin d → K) :
    iso shape (fun n => Spec.affine p a fun e => ((n e : Nat) : K) - o) u = Spec.affine p a u := by
  funext c
  unfold iso
  rw [tensor_affine]
  have h1 : (∏ e, ∑ i, shape (u e) i) = 1 := by simp [hr.one]
  rw [h1, one_mul]
  show _ = p c + ∑ e, u e * a e c
  congr 1
  apply Finset.sum_congr rfl
  intro e _
  congr 1
  rw [Finset.prod_eq_single e]
  · simp only [if_true]; exact hr.self _
  · intro e' _ hne
    simp only [hne, if_false, mul_one]; exact hr.one _
  · intro h; exact absurd (Finset.mem_univ e) h

/-- The Jacobian of an interpolated affine map. -/
theorem jac_affine (hr : Rule shape deriv o) (p : Fin d → K) (a : Fin d → Fin d → K) (u : Fin d → K)
    (e : Fin d) :
    jac shape deriv (fun n => Spec.affine p a fun e => ((n e : Nat) : K) - o) u e = a e := by
  funext c
  unfold jac
  rw [tensor_affine]
  have h1 : (∏ e', ∑ i, (if e' = e then deriv (u e') else shape (u e')) i) = 0 := by
    apply Finset.prod_eq_zero (Finset.mem_univ e)
    simp only [if_true]; exact hr.dzero _
  rw [h1, zero_mul, zero_add, Finset.sum_eq_single e]
  · rw [Finset.prod_eq_single e]
    · simp only [if_true]; rw [hr.done, one_mul]
    · intro e' _ hne
      simp only [hne, if_false, mul_one]; exact hr.one _
    · intro h; exact absurd (Finset.mem_univ e) h
  · intro f _ hne
    have : (∏ e', ∑ i, (if e' = e then deriv (u e') else shape (u e')) i *
        (if e' = f then (((i : Nat) : K) - o) else 1)) = 0 := by
      apply Finset.prod_eq_zero (Finset.mem_univ e)
      simp only [if_true, hne.symm, if_false, mul_one]; exact hr.dzero _
    rw [this, zero_mul]
  · intro h; exact absurd (Finset.mem_univ e) h

/-- C36 for cells: interpolating a product of polynomials of degree at most three in each direction
reproduces it. -/
theorem C36_tensor [CharZero K] (g : Fin d → Fin 4 → K) (nodes : (Fin d → Fin 4) → Fin d → K)
    (c : Fin d) (hn : ∀ n, nodes n c = ∏ e, Spec.poly (g e) (Spec.cubicNode (n e))) (u : Fin d → K) :
    iso cubic nodes u c = ∏ e, Spec.poly (g e) (u e) := by
  unfold iso tensor
  simp only [hn, ← Finset.prod_mul_distrib]
  rw [sum_prod fun e i => cubic (u e) i * Spec.poly (g e) (Spec.cubicNode i)]
  exact Finset.prod_congr rfl fun e _ => C36_cubic _ _

theorem lin_rule : Rule (K := K) lin linDeriv 0 where
  one u := by rw [Fin.sum_univ_two]; show 1 - u + u = 1; ring
  self u := by
    rw [Fin.sum_univ_two]
    show (1 - u) * (((0 : Nat) : K) - 0) + u * (((1 : Nat) : K) - 0) = u
    push_cast; ring
  dzero u := by rw [Fin.sum_univ_two]; show (-1 : K) + 1 = 0; ring
  done u := by
    rw [Fin.sum_univ_two]
    show (-1 : K) * (((0 : Nat) : K) - 0) + 1 * (((1 : Nat) : K) - 0) = 1
    push_cast; ring

theorem cubic_rule [CharZero K] {s3 s7 : K} (h3 : s3 ^ 2 = 3) (h7 : s7 ^ 2 = 7) :
    Rule cubic (cubicDeriv s3 s7) 1 where
  one := C36_cubic_sum
  self u := by
    have h := C36_cubic u ![0, 1, 0, 0]
    have e : ∀ t : K, Spec.poly ![0, 1, 0, 0] t = t := by
      intro t; show (0 : K) + 1 * t + 0 * t ^ 2 + 0 * t ^ 3 = t; ring
    simp only [e] at h
    exact h
  dzero u := by
    have h := C36_cubic_deriv h3 h7 u ![1, 0, 0, 0]
    have e : ∀ t : K, Spec.poly ![1, 0, 0, 0] t = 1 := by
      intro t; show (1 : K) + 0 * t + 0 * t ^ 2 + 0 * t ^ 3 = 1; ring
    have e' : Spec.polyDeriv ![1, 0, 0, 0] u = 0 := by
      show (0 : K) + 2 * 0 * u + 3 * 0 * u ^ 2 = 0; ring
    simp only [e, mul_one, e'] at h
    exact h
  done u := by
    have h := C36_cubic_deriv h3 h7 u ![0, 1, 0, 0]
    have e : ∀ t : K, Spec.poly ![0, 1, 0, 0] t = t := by
      intro t; show (0 : K) + 1 * t + 0 * t ^ 2 + 0 * t ^ 3 = t; ring
    have e' : Spec.polyDeriv ![0, 1, 0, 0] u = 1 := by
      show (1 : K) + 2 * 0 * u + 3 * 0 * u ^ 2 = 1; ring
    simp only [e, e'] at h
    exact h

end

/-! ### Newton iteration -/

section
variable {K : Type} [Field K] [LinearOrder K]
variable {d m : Nat} {shape deriv : K → Fin m → K} {o : K}

theorem newton_sound (solve : Solver K d) (nodes : (Fin d → Fin m) → Fin d → K) (x : Fin d → K)
    (tol : K) : ∀ (k : Nat) (u v : Fin d → K), newton solve shape deriv nodes x tol k u = some v →
    ∀ i, |x i - iso shape nodes v i| ≤ tol
  | 0, u, v, h => by
    unfold newton at h
    split at h
    · cases h; assumption
    · cases h
  | k + 1, u, v, h => by
    unfold newton at h
    split at h
    · cases h; assumption
    · obtain ⟨s, _, h⟩ := Option.bind_eq_some_iff.1 h
      exact newton_sound solve nodes x tol k _ v h

/-- C37: an iterative inversion that reports success returns local coordinates whose image is within the
tolerance of the query, whatever the nodes, interpolation and number of steps. -/
theorem C37_newton (solve : Solver K d) (nodes : (Fin d → Fin m) → Fin d → K) (x : Fin d → K)
    (tol : K) (steps : Nat) (u : Fin d → K) (h : isoInv solve shape deriv nodes x tol steps = some u) :
    ∀ i, |x i - iso shape nodes u i| ≤ tol :=
  newton_sound solve nodes x tol steps _ u h

/-- A solver that is right for the columns `a`. -/
def SolvesAll (solve : Solver K d) (a : Fin d → Fin d → K) : Prop :=
  ∀ r, ∃ s, solve a r = some s ∧ Spec.Solves a r s

theorem solver1_ok (a : Fin 1 → Fin 1 → K) (h : a 0 0 ≠ 0) : SolvesAll solver1 a := by
  intro r
  refine ⟨![r 0 / a 0 0], by simp [solver1, h], ?_⟩
  intro i
  obtain rfl : i = 0 := Subsingleton.elim _ _
  rw [Fin.sum_univ_one]
  exact div_mul_cancel₀ _ h

theorem solver2_ok (a : Fin 2 → Fin 2 → K) (h : det2 (a 0) (a 1) ≠ 0) : SolvesAll solver2 a := by
  intro r
  refine ⟨solve2 (a 0) (a 1) r, by simp [solver2, h], ?_⟩
  have e : a = ![a 0, a 1] := by funext i; fin_cases i <;> rfl
  have := (C35_solve2 (a 0) (a 1) r _ h).2 rfl
  rw [← e] at this
  exact this

theorem solver3_ok (a : Fin 3 → Fin 3 → K) (h : det3 (a 0) (a 1) (a 2) ≠ 0) :
    SolvesAll solver3 a := by
  intro r
  refine ⟨solve3 (a 0) (a 1) (a 2) r, by simp [solver3, h], ?_⟩
  have e : a = ![a 0, a 1, a 2] := by funext i; fin_cases i <;> rfl
  have := (C35_solve3 (a 0) (a 1) (a 2) r _ h).2 rfl
  rw [← e] at this
  exact this

variable [IsStrictOrderedRing K]

theorem newton_affine (hr : Rule shape deriv o) {solve : Solver K d} {a : Fin d → Fin d → K}
    (hs : SolvesAll solve a) (p x : Fin d → K) {tol : K} (ht : 0 ≤ tol) (k : Nat) (u : Fin d → K) :
    ∃ v, newton solve shape deriv (fun n => Spec.affine p a fun e => ((n e : Nat) : K) - o) x tol
      (k + 1) u = some v := by
  unfold newton
  split
  · exact ⟨u, rfl⟩
  · have hj : jac shape deriv (fun n => Spec.affine p a fun e => ((n e : Nat) : K) - o) u = a :=
      funext fun e => jac_affine hr p a u e
    rw [hj]
    obtain ⟨s, hs1, hs2⟩ := hs
      (fun i => x i - iso shape (fun n => Spec.affine p a fun e => ((n e : Nat) : K) - o) u i)
    rw [hs1]
    have hz : small tol (fun i => x i -
        iso shape (fun n => Spec.affine p a fun e => ((n e : Nat) : K) - o) (fun i => u i + s i) i) := by
      intro i
      rw [iso_affine hr]
      have h2 := hs2 i
      rw [iso_affine hr] at h2
      have : x i - Spec.affine p a (fun i => u i + s i) i = 0 := by
        show x i - (p i + ∑ e, (u e + s e) * a e i) = 0
        simp only [add_mul, Finset.sum_add_distrib]
        rw [h2]
        show x i - (p i + (∑ e, u e * a e i + (x i - (p i + ∑ e, u e * a e i)))) = 0
        ring
      dsimp only
      rw [this, abs_zero]; exact ht
    refine ⟨fun i => u i + s i, ?_⟩
    show newton _ _ _ _ _ _ k _ = _
    cases k with
    | zero => unfold newton; rw [if_pos hz]
    | succ k => unfold newton; rw [if_pos hz]

/-- Inversion of an affine cell: with at least one step it always succeeds, within the tolerance. -/
theorem isoInv_affine (hr : Rule shape deriv o) {solve : Solver K d} {a : Fin d → Fin d → K}
    (hs : SolvesAll solve a) (p x : Fin d → K) {tol : K} (ht : 0 ≤ tol) {steps : Nat} (hk : 1 ≤ steps)
    (nodes : (Fin d → Fin m) → Fin d → K)
    (hn : ∀ n, nodes n = Spec.affine p a fun e => ((n e : Nat) : K) - o) :
    ∃ u, isoInv solve shape deriv nodes x tol steps = some u ∧
      ∀ i, |x i - Spec.affine p a u i| ≤ tol := by
  obtain ⟨k, rfl⟩ : ∃ k, steps = k + 1 := ⟨steps - 1, by omega⟩
  obtain rfl : nodes = fun n => Spec.affine p a fun e => ((n e : Nat) : K) - o := funext hn
  obtain ⟨v, hv⟩ := newton_affine hr hs p x ht k (fun _ => 1 / 2)
  refine ⟨v, hv, ?_⟩
  have := C37_newton _ _ _ _ _ _ hv
  rw [iso_affine hr] at this
  exact this

/-- With tolerance zero the image is exact. -/
theorem exact_of_tol {x y : Fin d → K} (h : ∀ i, |x i - y i| ≤ 0) : y = x := by
  funext i
  have := abs_eq_zero.1 (le_antisymm (h i) (abs_nonneg _))
  linarith

theorem affine_inj2 {a : Fin 2 → Fin 2 → K} (h : det2 (a 0) (a 1) ≠ 0) {p u v : Fin 2 → K}
    (he : Spec.affine p a u = Spec.affine p a v) : u = v := by
  have e : a = ![a 0, a 1] := by funext i; fin_cases i <;> rfl
  have hu : Spec.Solves a (fun i => ∑ e, v e * a e i) u := fun i => by
    have := congrFun he i
    exact add_left_cancel this
  have hv : Spec.Solves a (fun i => ∑ e, v e * a e i) v := fun i => rfl
  rw [e] at hu hv
  exact ((C35_solve2 _ _ _ _ h).1 hu).trans ((C35_solve2 _ _ _ _ h).1 hv).symm

theorem affine_inj3 {a : Fin 3 → Fin 3 → K} (h : det3 (a 0) (a 1) (a 2) ≠ 0) {p u v : Fin 3 → K}
    (he : Spec.affine p a u = Spec.affine p a v) : u = v := by
  have e : a = ![a 0, a 1, a 2] := by funext i; fin_cases i <;> rfl
  have hu : Spec.Solves a (fun i => ∑ e, v e * a e i) u := fun i => by
    have := congrFun he i
    exact add_left_cancel this
  have hv : Spec.Solves a (fun i => ∑ e, v e * a e i) v := fun i => rfl
  rw [e] at hu hv
  exact ((C35_solve3 _ _ _ _ _ h).1 hu).trans ((C35_solve3 _ _ _ _ _ h).1 hv).symm

/-- C37, bilinear and bicubic quadrilaterals whose nodes are an affine image of the reference nodes:
inverting the image of local coordinates gives them back, and inverting a point and mapping the result
gives the point. -/
theorem C37_quad (hr : Rule shape deriv o) (p : Fin 2 → K) (a : Fin 2 → Fin 2 → K)
    (hd : det2 (a 0) (a 1) ≠ 0) (nodes : (Fin 2 → Fin m) → Fin 2 → K)
    (hn : ∀ n, nodes n = Spec.affine p a fun e => ((n e : Nat) : K) - o) {steps : Nat}
    (hk : 1 ≤ steps) :
    (∀ u, isoInv solver2 shape deriv nodes (iso shape nodes u) 0 steps = some u) ∧
    ∀ x, ∃ u, isoInv solver2 shape deriv nodes x 0 steps = some u ∧ iso shape nodes u = x := by
  have hi : ∀ u, iso shape nodes u = Spec.affine p a u := fun u => by
    obtain rfl : nodes = fun n => Spec.affine p a fun e => ((n e : Nat) : K) - o := funext hn
    exact iso_affine hr p a u
  have key : ∀ x, ∃ u, isoInv solver2 shape deriv nodes x 0 steps = some u ∧ iso shape nodes u = x := by
    intro x
    obtain ⟨u, h1, h2⟩ := isoInv_affine hr (solver2_ok a hd) p x le_rfl hk nodes hn
    exact ⟨u, h1, by rw [hi]; exact exact_of_tol h2⟩
  refine ⟨fun u => ?_, key⟩
  obtain ⟨v, h1, h2⟩ := key (iso shape nodes u)
  rw [h1]
  rw [hi, hi] at h2
  rw [affine_inj2 hd h2]

/-- C37, trilinear and tricubic hexahedra. -/
theorem C37_hex (hr : Rule shape deriv o) (p : Fin 3 → K) (a : Fin 3 → Fin 3 → K)
    (hd : det3 (a 0) (a 1) (a 2) ≠ 0) (nodes : (Fin 3 → Fin m) → Fin 3 → K)
    (hn : ∀ n, nodes n = Spec.affine p a fun e => ((n e : Nat) : K) - o) {steps : Nat}
    (hk : 1 ≤ steps) :
    (∀ u, isoInv solver3 shape deriv nodes (iso shape nodes u) 0 steps = some u) ∧
    ∀ x, ∃ u, isoInv solver3 shape deriv nodes x 0 steps = some u ∧ iso shape nodes u = x := by
  have hi : ∀ u, iso shape nodes u = Spec.affine p a u := fun u => by
    obtain rfl : nodes = fun n => Spec.affine p a fun e => ((n e : Nat) : K) - o := funext hn
    exact iso_affine hr p a u
  have key : ∀ x, ∃ u, isoInv solver3 shape deriv nodes x 0 steps = some u ∧ iso shape nodes u = x := by
    intro x
    obtain ⟨u, h1, h2⟩ := isoInv_affine hr (solver3_ok a hd) p x le_rfl hk nodes hn
    exact ⟨u, h1, by rw [hi]; exact exact_of_tol h2⟩
  refine ⟨fun u => ?_, key⟩
  obtain ⟨v, h1, h2⟩ := key (iso shape nodes u)
  rw [h1]
  rw [hi, hi] at h2
  rw [affine_inj3 hd h2]

theorem oriented_image {p : Fin d → K} {q : Fin d → Fin d → K}
    (ho : Spec.Orthogonal fun e i => q e i - p i)
    (hinj : ∀ u v, Spec.affine p (fun e i => q e i - p i) u = Spec.affine p (fun e i => q e i - p i) v →
      u = v)
    {solve : Solver K d} (hs : SolvesAll solve fun e i => q e i - p i) (x : Fin d → K) :
    isoOriented p q (isoOrientedInv p q x) = x := by
  have hn : ∀ e, ∑ i, (q e i - p i) * (q e i - p i) ≠ 0 := by
    intro e h0
    have hz : ∀ i, q e i - p i = 0 := by
      intro i
      have := (Finset.sum_eq_zero_iff_of_nonneg (fun i _ => mul_self_nonneg (q e i - p i))).1 h0 i
        (Finset.mem_univ i)
      exact mul_self_eq_zero.1 this
    have h1 := hinj (fun f => if f = e then 1 else 0) (fun _ => 0) (by
      funext i
      show p i + ∑ f, (if f = e then (1 : K) else 0) * (q f i - p i) = p i + ∑ f, 0 * (q f i - p i)
      congr 1
      apply Finset.sum_congr rfl
      intro f _
      by_cases hf : f = e
      · subst hf; rw [hz i]; ring
      · simp [hf])
    have h2 := congrFun h1 e
    simp at h2
  obtain ⟨u, _, hu⟩ := hs fun i => x i - p i
  have : isoOriented p q u = x := by
    rw [isoOriented_eq]
    funext i
    show p i + ∑ e, u e * (q e i - p i) = x i
    rw [hu i]; ring
  rw [← this, C37_oriented p q ho hn]

/-- C37: oriented cells with orthogonal edges, the other direction (two dimensions). -/
theorem C37_oriented_image2 (p : Fin 2 → K) (q : Fin 2 → Fin 2 → K)
    (ho : Spec.Orthogonal fun e i => q e i - p i) (hd : det2 (sub (q 0) p) (sub (q 1) p) ≠ 0)
    (x : Fin 2 → K) : isoOriented p q (isoOrientedInv p q x) = x :=
  oriented_image ho (fun _ _ h => affine_inj2 hd h) (solver2_ok _ hd) x

/-- C37: oriented cells with orthogonal edges, the other direction (three dimensions). -/
theorem C37_oriented_image3 (p : Fin 3 → K) (q : Fin 3 → Fin 3 → K)
    (ho : Spec.Orthogonal fun e i => q e i - p i)
    (hd : det3 (sub (q 0) p) (sub (q 1) p) (sub (q 2) p) ≠ 0)
    (x : Fin 3 → K) : isoOriented p q (isoOrientedInv p q x) = x :=
  oriented_image ho (fun _ _ h => affine_inj3 hd h) (solver3_ok _ hd) x

/-! ### C56: cells of a grid -/

theorem stencil_in (ext : Rng d) (cell : Tup d) (h : ∀ i, ext.b i + 4 ≤ ext.e i) :
    stencilFits ext cell = true ∧ ∀ n : Fin d → Fin 4,
      ext.contains (fun i => shiftedCell ext cell i - 1 + ((n i : Nat) : Int)) = true := by
  constructor
  · unfold stencilFits
    rw [decide_eq_true_iff]
    intro i
    have := h i
    unfold shiftedCell
    omega
  · intro n
    unfold Rng.contains
    rw [decide_eq_true_iff]
    intro i
    have := h i
    have := (n i).isLt
    unfold shiftedCell
    dsimp only
    omega

/-- What a caller of `CoordsInCell` expects on a grid whose points are the affine image of their
indices: local coordinates whose point, counted from the cell, is the query. -/
def C56_result (p : Fin d → K) (a : Fin d → Fin d → K) (cell : Tup d) (x : Fin d → K)
    (r : Option (Fin d → K)) : Prop :=
  ∃ u, r = some u ∧ Spec.affine p a (fun i => ((cell i : Int) : K) + u i) = x

theorem coords_affine {s3 s7 : K} (h3 : s3 ^ 2 = 3) (h7 : s7 ^ 2 = 7) {solve : Solver K d}
    (ext : Rng d) (he : ∀ i, ext.b i + 4 ≤ ext.e i) (p : Fin d → K) (a : Fin d → Fin d → K)
    (hs : SolvesAll solve a) (coords : Tup d → Fin d → K)
    (hc : ∀ t, ext.contains t = true → coords t = Spec.affine p a fun i => ((t i : Int) : K))
    (cell : Tup d) (x : Fin d → K) {steps : Nat} (hk : 1 ≤ steps) :
    C56_result p a cell x
      (coordsInCellWith solve s3 s7 (stencilFits ext cell) ext coords cell x 0 steps) := by
  obtain ⟨hf, hin⟩ := stencil_in ext cell he
  unfold coordsInCellWith
  rw [hf, if_pos rfl]
  obtain ⟨u, h1, h2⟩ := isoInv_affine (cubic_rule h3 h7) hs
    (Spec.affine p a fun i => ((shiftedCell ext cell i : Int) : K)) x (le_refl 0) hk
    (stencilNodes coords (shiftedCell ext cell)) (by
      intro n
      unfold stencilNodes
      rw [hc _ (hin n)]
      funext c
      show p c + ∑ e, _ = p c + ∑ e, _ + ∑ e, _
      rw [add_assoc, ← Finset.sum_add_distrib]
      congr 1
      apply Finset.sum_congr rfl
      intro e _
      push_cast
      ring)
  rw [h1]
  refine ⟨_, rfl, ?_⟩
  have h3 := exact_of_tol h2
  rw [← h3]
  funext c
  show p c + ∑ e, _ = p c + ∑ e, _ + ∑ e, _
  rw [add_assoc, ← Finset.sum_add_distrib]
  congr 1
  apply Finset.sum_congr rfl
  intro e _
  push_cast
  ring

/-- C56, two dimensions: for every cell, also at the edge of the grid where the stencil is shifted, the
point at the returned local coordinates (counted from the cell) is the query. -/
theorem C56_partial2 {s3 s7 : K} (h3 : s3 ^ 2 = 3) (h7 : s7 ^ 2 = 7) (ext : Rng 2)
    (he : ∀ i, ext.b i + 4 ≤ ext.e i) (p : Fin 2 → K) (a : Fin 2 → Fin 2 → K)
    (hd : det2 (a 0) (a 1) ≠ 0) (coords : Tup 2 → Fin 2 → K)
    (hc : ∀ t, ext.contains t = true → coords t = Spec.affine p a fun i => ((t i : Int) : K))
    (cell : Tup 2) (x : Fin 2 → K) {steps : Nat} (hk : 1 ≤ steps) :
    C56_result p a cell x (coordsInCell2 s3 s7 ext coords cell x 0 steps) :=
  coords_affine h3 h7 ext he p a (solver2_ok a hd) coords hc cell x hk

/-- C56, three dimensions. -/
theorem C56_partial3 {s3 s7 : K} (h3 : s3 ^ 2 = 3) (h7 : s7 ^ 2 = 7) (ext : Rng 3)
    (he : ∀ i, ext.b i + 4 ≤ ext.e i) (p : Fin 3 → K) (a : Fin 3 → Fin 3 → K)
    (hd : det3 (a 0) (a 1) (a 2) ≠ 0) (coords : Tup 3 → Fin 3 → K)
    (hc : ∀ t, ext.contains t = true → coords t = Spec.affine p a fun i => ((t i : Int) : K))
    (cell : Tup 3) (x : Fin 3 → K) {steps : Nat} (hk : 1 ≤ steps) :
    C56_result p a cell x (coordsInCell3 s3 s7 ext coords cell x 0 steps) :=
  coords_affine h3 h7 ext he p a (solver3_ok a hd) coords hc cell x hk

omit [IsStrictOrderedRing K] in
/-- C56 for arbitrary (curved) grids: whatever is returned, the cubic interpolation of the stencil at the
returned position is within the tolerance of the query, and the stencil only reads points of the grid. -/
theorem C56_sound {s3 s7 : K} {solve : Solver K d} (ext : Rng d) (coords : Tup d → Fin d → K)
    (cell : Tup d) (x : Fin d → K) (tol : K) (steps : Nat) (u : Fin d → K)
    (h : coordsInCellWith solve s3 s7 (stencilFits ext cell) ext coords cell x tol steps = some u) :
    ∃ s : Tup d, (∀ n : Fin d → Fin 4, ext.contains (fun i => s i - 1 + ((n i : Nat) : Int)) = true) ∧
      ∀ i, |x i - iso cubic (stencilNodes coords s)
        (fun e => ((cell e : Int) : K) + u e - ((s e : Int) : K)) i| ≤ tol := by
  unfold coordsInCellWith at h
  by_cases hf : stencilFits ext cell = true
  · rw [hf, if_pos rfl] at h
    obtain ⟨v, h1, h2⟩ := Option.map_eq_some_iff.1 h
    have hv := C37_newton _ _ _ _ _ _ h1
    refine ⟨shiftedCell ext cell, ?_, ?_⟩
    · intro n
      unfold stencilFits at hf
      rw [decide_eq_true_iff] at hf
      unfold Rng.contains
      rw [decide_eq_true_iff]
      intro i
      have h3 := hf i
      have := (n i).isLt
      push Not at h3
      dsimp only
      omega
    · have : (fun e => ((cell e : Int) : K) + u e - ((shiftedCell ext cell e : Int) : K)) = v := by
        funext e
        rw [← h2]
        push_cast
        ring
      rw [this]
      exact hv
  · rw [if_neg hf] at h; cases h

/-- C56 for one-dimensional grids. -/
def C56_statement : Prop :=
  ∀ (s3 s7 : ℝ), s3 ^ 2 = 3 → s7 ^ 2 = 7 → ∀ (ext : Rng 1), (∀ i, ext.b i + 4 ≤ ext.e i) →
    ∀ (p : Fin 1 → ℝ) (a : Fin 1 → Fin 1 → ℝ), a 0 0 ≠ 0 → ∀ (coords : Tup 1 → Fin 1 → ℝ),
    (∀ t, ext.contains t = true → coords t = Spec.affine p a fun i => ((t i : Int) : ℝ)) →
    ∀ (cell : Tup 1) (x : Fin 1 → ℝ) (steps : Nat), 1 ≤ steps →
    C56_result p a cell x (coordsInCell1 s3 s7 ext coords cell x 0 steps)

omit [IsStrictOrderedRing K] in
/-- In one dimension the stencil test is inverted: no cell of any grid passes it, so no coordinates are
ever returned. -/
theorem C56_never (s3 s7 : K) (ext : Rng 1) (coords : Tup 1 → Fin 1 → K) (cell : Tup 1)
    (x : Fin 1 → K) (tol : K) (steps : Nat) :
    coordsInCell1 s3 s7 ext coords cell x tol steps = none := by
  have : stencilFits1 ext cell = false := by
    unfold stencilFits1
    rw [decide_eq_false_iff_not]
    unfold shiftedCell
    omega
  unfold coordsInCell1 coordsInCellWith
  rw [this]
  rfl

theorem C56_false : ¬ C56_statement := by
  intro h
  obtain ⟨u, hu, _⟩ := h (Real.sqrt 3) (Real.sqrt 7) (Real.sq_sqrt (by norm_num))
    (Real.sq_sqrt (by norm_num)) ⟨fun _ => 0, fun _ => 10⟩ (fun _ => by norm_num) (fun _ => 0)
    (fun _ _ => 1) one_ne_zero (fun t => Spec.affine (fun _ => 0) (fun _ _ => 1) fun i => ((t i : Int) : ℝ))
    (fun _ _ => rfl) (fun _ => 4) (fun _ => 4) 100 (by norm_num)
  rw [C56_never] at hu
  cases hu

/-- The hypotheses are met, with a cell at the edge of the grid (`shiftedCell` differs from `cell`). -/
example : ∃ r, coordsInCell2 (Real.sqrt 3) (Real.sqrt 7) ⟨![0, 0], ![6, 5]⟩
    (fun t => Spec.affine ![1, 2] ![![2, 0], ![1, 3]] fun i => ((t i : Int) : ℝ)) ![0, 3] ![7, 5] 0 100 =
      some r ∧ shiftedCell ⟨![0, 0], ![6, 5]⟩ ![0, 3] = ![1, 2] := by
  obtain ⟨u, hu, _⟩ := C56_partial2 (K := ℝ) (s3 := Real.sqrt 3) (s7 := Real.sqrt 7)
    (Real.sq_sqrt (by norm_num)) (Real.sq_sqrt (by norm_num)) ⟨![0, 0], ![6, 5]⟩
    (by intro i; fin_cases i <;> decide) ![1, 2] ![![2, 0], ![1, 3]]
    (by show (2 : ℝ) * 3 - 0 * 1 ≠ 0; norm_num)
    (fun t => Spec.affine ![1, 2] ![![2, 0], ![1, 3]] fun i => ((t i : Int) : ℝ))
    (fun _ _ => rfl) ![0, 3] ![7, 5] (steps := 100) (by norm_num)
  exact ⟨u, hu, by decide⟩

end

/-- C37: the projection is not the inverse on a sheared cell (so orthogonality is needed): a unit
parallelogram with one edge `(1,1)`; the point with local coordinates `(1, 1)` is given `(2, 3/2)`. -/
theorem C37_sheared : ∃ (p : Fin 2 → Rat) (q : Fin 2 → Fin 2 → Rat) (u : Fin 2 → Rat),
    det2 (sub (q 0) p) (sub (q 1) p) ≠ 0 ∧ isoOrientedInv p q (isoOriented p q u) ≠ u :=
  ⟨![0, 0], ![![1, 0], ![1, 1]], ![1, 1], by decide +kernel, by decide +kernel⟩

/-- A rotated unit square (3-4-5) has orthogonal edges. -/
example : isoOrientedInv (K := Rat) ![1, 1] ![![1 + 3/5, 1 + 4/5], ![1 - 4/5, 1 + 3/5]]
    (isoOriented ![1, 1] ![![1 + 3/5, 1 + 4/5], ![1 - 4/5, 1 + 3/5]] ![1/4, 2]) = ![1/4, 2] := by
  decide +kernel

end Ovk.Geo
