import Verif.Model.Decomp
import Verif.Lemmas.Cart

namespace Ovk
variable {d : Nat}

theorem exists_step (B : Nat → Int) : ∀ (n : Nat) (x : Int), B 0 ≤ x → x < B n →
    ∃ k, k < n ∧ B k ≤ x ∧ x < B (k + 1)
  | 0, x, h0, h1 => by omega
  | n + 1, x, h0, h1 => by
    by_cases h : x < B n
    · obtain ⟨k, hk, h2⟩ := exists_step B n x h0 h
      exact ⟨k, by omega, h2⟩
    · exact ⟨n, by omega, by omega, h1⟩

theorem mono_step (B : Nat → Int) (h : ∀ k, B k ≤ B (k + 1)) {i j : Nat} (hij : i ≤ j) :
    B i ≤ B j := by
  induction hij with
  | refl => exact Int.le_refl _
  | step _ ih => exact Int.le_trans ih (h _)

theorem unique_step (B : Nat → Int) (h : ∀ k, B k ≤ B (k + 1)) {i j : Nat} {x : Int}
    (hi : B i ≤ x ∧ x < B (i + 1)) (hj : B j ≤ x ∧ x < B (j + 1)) : i = j := by
  rcases Nat.lt_trichotomy i j with hlt | he | hlt
  · have := mono_step B h (i := i + 1) (j := j) hlt; omega
  · exact he
  · have := mono_step B h (i := j + 1) (j := i) hlt; omega

theorem longestDim_in (r : Rng (d + 1)) : longestDim r ∈ List.finRange (d + 1) := List.mem_finRange _

theorem tdiv_two_bounds {b e : Int} (h : b ≤ e) : b ≤ (b + e).tdiv 2 ∧ (b + e).tdiv 2 ≤ e := by
  rcases Int.le_total 0 (b + e) with h0 | h0
  · rw [Int.tdiv_eq_ediv_of_nonneg h0]; omega
  · have : (b + e).tdiv 2 = -((-(b + e)).tdiv 2) := by rw [Int.neg_tdiv]; omega
    rw [this, Int.tdiv_eq_ediv_of_nonneg (by omega)]; omega

end Ovk
