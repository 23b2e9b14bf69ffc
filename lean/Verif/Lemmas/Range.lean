import Verif.Model.Cart

namespace Ovk

/-- Truncated division with the sign correction used throughout the code is floor division. -/
theorem tdiv_floor (x p : Int) (hp : 0 < p) :
    x.tdiv p - (if x.tmod p < 0 then 1 else 0) = x / p := by
  have h1 := Int.tmod_add_mul_tdiv x p
  have h2 := Int.emod_add_mul_ediv x p
  have h3 := Int.emod_nonneg x (by omega : p ≠ 0)
  have h4 := Int.emod_lt_of_pos x hp
  have h5 : x.tmod p < p := Int.tmod_lt_of_pos x hp
  have h6 : -p < x.tmod p := Int.lt_tmod_of_pos x hp
  split
  · have e : x % p - x.tmod p = p * (x.tdiv p - x / p) := by rw [Int.mul_sub]; omega
    have u : p * (x.tdiv p - x / p) < p * 2 := by omega
    have l : p * 0 < p * (x.tdiv p - x / p) := by omega
    have u' := Int.lt_of_mul_lt_mul_left u (by omega)
    have l' := Int.lt_of_mul_lt_mul_left l (by omega)
    omega
  · have e : x % p - x.tmod p = p * (x.tdiv p - x / p) := by rw [Int.mul_sub]; omega
    have u : p * (x.tdiv p - x / p) < p * 1 := by omega
    have l : p * (-1) < p * (x.tdiv p - x / p) := by omega
    have u' := Int.lt_of_mul_lt_mul_left u (by omega)
    have l' := Int.lt_of_mul_lt_mul_left l (by omega)
    omega

theorem tmod_floor (x p : Int) (hp : 0 < p) :
    x.tmod p + p * (if x.tmod p < 0 then 1 else 0) = x % p := by
  have h := tdiv_floor x p hp
  have h1 := Int.tmod_add_mul_tdiv x p
  have h2 := Int.emod_add_mul_ediv x p
  rw [← h, Int.mul_sub] at h2
  omega

variable {d : Nat}

theorem Rng.empty_iff (r : Rng d) : r.empty = true ↔ ∃ i, r.e i ≤ r.b i := by
  simp [Rng.empty]

theorem Rng.nonempty_iff (r : Rng d) : r.empty = false ↔ ∀ i, r.b i < r.e i := by
  simp [Rng.empty]

theorem Rng.contains_iff (r : Rng d) (p : Tup d) :
    r.contains p = true ↔ ∀ i, r.b i ≤ p i ∧ p i < r.e i := by
  simp [Rng.contains]

theorem Cart.periodicAdjust_periodic (c : Cart d) (t : Tup d) (i : Fin d)
    (hp : c.periodic i = true) (hs : 0 < c.periodSize i) :
    c.periodicAdjust t i = c.range.b i + (t i - c.range.b i) % c.periodSize i := by
  simp only [Cart.periodicAdjust, hp, if_true]
  rw [← tmod_floor _ _ hs]; omega

theorem Cart.periodicAdjust_nonperiodic (c : Cart d) (t : Tup d) (i : Fin d)
    (hp : c.periodic i = false) : c.periodicAdjust t i = t i := by
  simp [Cart.periodicAdjust, hp]

theorem Cart.period_periodic (c : Cart d) (t : Tup d) (i : Fin d)
    (hp : c.periodic i = true) (hs : 0 < c.periodSize i) :
    c.period t i = (t i - c.range.b i) / c.periodSize i := by
  simp only [Cart.period, hp, if_true]
  exact tdiv_floor _ _ hs

theorem mem_intRange (b e x : Int) : x ∈ intRange b e ↔ b ≤ x ∧ x < e := by
  simp only [intRange, List.mem_map, List.mem_range]
  constructor
  · rintro ⟨n, hn, rfl⟩; omega
  · intro h; exact ⟨(x - b).toNat, by omega, by omega⟩

theorem nodup_intRange (b e : Int) : (intRange b e).Nodup := by
  unfold intRange
  rw [List.nodup_iff_pairwise_ne, List.pairwise_map]
  have := List.nodup_range (n := (e - b).toNat)
  rw [List.nodup_iff_pairwise_ne] at this
  exact this.imp (fun h => by omega)

theorem Rng.mem_points : ∀ {d : Nat} (r : Rng d) (p : Tup d),
    p ∈ r.points ↔ ∀ i, r.b i ≤ p i ∧ p i < r.e i
  | 0, r, p => by
    simp only [Rng.points, List.mem_singleton]
    exact ⟨fun _ i => i.elim0, fun _ => funext fun i => i.elim0⟩
  | d + 1, r, p => by
    simp only [Rng.points, List.mem_flatMap, List.mem_map, mem_intRange, Rng.mem_points]
    constructor
    · rintro ⟨x, hx, t, ht, rfl⟩ i
      refine Fin.lastCases ?_ (fun j => ?_) i
      · simpa only [Fin.snoc_last] using hx
      · simpa only [Fin.snoc_castSucc] using ht j
    · intro h
      exact ⟨p (Fin.last d), h _, fun j => p j.castSucc, fun j => h _, Fin.snoc_init_self p⟩

end Ovk
