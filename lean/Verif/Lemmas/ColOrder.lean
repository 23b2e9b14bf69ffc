/-
Column-major order: indices of points in any two ranges that contain them are ordered alike.
-/
import Verif.Lemmas.PointOrder

namespace Ovk
open Indexer

theorem colLt_total : ∀ {d : Nat} (p q : Tup d), p ≠ q → colLt p q ∨ colLt q p
  | 0, p, q, h => absurd (funext fun i => i.elim0) h
  | d + 1, p, q, h => by
    unfold colLt
    rcases Int.lt_trichotomy (p (Fin.last d)) (q (Fin.last d)) with h1 | h1 | h1
    · exact .inl (.inl h1)
    · have hne : (fun i : Fin d => p i.castSucc) ≠ fun i : Fin d => q i.castSucc := by
        intro e
        apply h
        funext i
        refine Fin.lastCases h1 (fun j => ?_) i
        exact congrFun e j
      rcases colLt_total _ _ hne with h2 | h2
      · exact .inl (.inr ⟨h1, h2⟩)
      · exact .inr (.inr ⟨h1.symm, h2⟩)
    · exact .inr (.inl h1)

theorem Rng.colIndex_lt : ∀ {d : Nat} (r : Rng d) (p q : Tup d), Spec.pts r p → Spec.pts r q → colLt p q →
    r.colIndex p < r.colIndex q
  | 0, r, p, q, _, _, h => absurd h id
  | d + 1, r, p, q, hp, hq, h => by
    have ep : p = Fin.snoc (α := fun _ => Int) (fun i : Fin d => p i.castSucc) (p (Fin.last d)) := by
      funext i; refine Fin.lastCases ?_ (fun j => ?_) i <;> simp
    have eq : q = Fin.snoc (α := fun _ => Int) (fun i : Fin d => q i.castSucc) (q (Fin.last d)) := by
      funext i; refine Fin.lastCases ?_ (fun j => ?_) i <;> simp
    have hp' : Spec.pts r.init fun i : Fin d => p i.castSucc := fun i => hp i.castSucc
    have hq' : Spec.pts r.init fun i : Fin d => q i.castSucc := fun i => hq i.castSucc
    have hpos : ∀ i, r.init.b i < r.init.e i := fun i => by have := hp' i; omega
    have bp := r.init.index_bounds .col _ hp'
    have bq := r.init.index_bounds .col _ hq'
    rw [r.init.count_eq_prod hpos, ← prodExt_ofFn] at bp bq
    rw [ep, eq, Rng.colIndex_snoc, Rng.colIndex_snoc]
    unfold colLt at h
    rcases h with h | ⟨h1, h2⟩
    · have h3 : prodExt r.init.ext * (p (Fin.last d) - r.b (Fin.last d)) + prodExt r.init.ext ≤
          prodExt r.init.ext * (q (Fin.last d) - r.b (Fin.last d)) := by
        have : prodExt r.init.ext * (p (Fin.last d) - r.b (Fin.last d) + 1) ≤
            prodExt r.init.ext * (q (Fin.last d) - r.b (Fin.last d)) :=
          Int.mul_le_mul_of_nonneg_left (by omega) (by omega)
        linarith [this]
      have b1 := bp.2; have b2 := bq.1
      unfold Rng.colIndex
      omega
    · have := Rng.colIndex_lt r.init _ _ hp' hq' h2
      rw [h1]
      exact Int.add_lt_add_right this _

theorem Rng.colIndex_lt_iff {d : Nat} (r : Rng d) (p q : Tup d) (hp : Spec.pts r p) (hq : Spec.pts r q) :
    r.colIndex p < r.colIndex q ↔ colLt p q := by
  refine ⟨fun h => ?_, r.colIndex_lt p q hp hq⟩
  have hne : p ≠ q := fun e => by subst e; omega
  rcases colLt_total p q hne with h1 | h1
  · exact h1
  · have := r.colIndex_lt q p hq hp h1; omega

/-- Points of a range by their index. -/
theorem Rng.tuple_spec {d : Nat} (r : Rng d) (hr : ∀ i, r.b i < r.e i) (k : Nat) (hk : k < r.count.toNat) :
    Spec.pts r (r.tuple .col (k : Int)) ∧ r.colIndex (r.tuple .col (k : Int)) = k := by
  have h := r.tuples_eq_points hr
  have hm : r.tuple .col (k : Int) ∈ r.points := by
    rw [← h]; exact List.mem_map.2 ⟨k, List.mem_range.2 hk, rfl⟩
  refine ⟨(Rng.mem_points _ _).1 hm, ?_⟩
  have h2 := r.points_colIndex hr
  rw [← h, List.map_map] at h2
  have h3 := congrArg (fun l => l[k]?) h2
  simpa [hk] using h3

theorem Rng.count_nonneg {d : Nat} (r : Rng d) (hr : ∀ i, r.b i < r.e i) : 0 ≤ r.count := by
  exact (r.count_pos hr).le

end Ovk
