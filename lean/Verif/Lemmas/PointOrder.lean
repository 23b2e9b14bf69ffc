/-
The order in which loops over ranges visit points does not depend on the range: it is the
colexicographic order.
-/
import Verif.Lemmas.FieldIndex
import Verif.Lemmas.Range
import Verif.Props.Range
import Mathlib.Data.List.Nodup
import Mathlib.Data.List.Perm.Basic

namespace Ovk

/-- Last dimension most significant. -/
def colLt : {d : Nat} → Tup d → Tup d → Prop
  | 0, _, _ => False
  | d + 1, p, q => p (Fin.last d) < q (Fin.last d) ∨ (p (Fin.last d) = q (Fin.last d) ∧
      colLt (d := d) (fun i => p i.castSucc) (fun i => q i.castSucc))

theorem colLt_asymm : ∀ {d : Nat} (p q : Tup d), colLt p q → colLt q p → False
  | 0, _, _, h, _ => h
  | d + 1, p, q, h, h' => by
    unfold colLt at h h'
    rcases h with h | ⟨h1, h2⟩ <;> rcases h' with h' | ⟨h1', h2'⟩
    · omega
    · omega
    · omega
    · exact colLt_asymm _ _ h2 h2'

theorem pairwise_intRange (b e : Int) : (intRange b e).Pairwise (· < ·) := by
  unfold intRange
  rw [List.pairwise_map]
  exact List.pairwise_lt_range.imp fun h => by omega

theorem Rng.points_sorted : ∀ {d : Nat} (r : Rng d), r.points.Pairwise colLt
  | 0, r => by simp [Rng.points]
  | d + 1, r => by
    rw [Rng.points, List.pairwise_flatMap]
    refine ⟨?_, ?_⟩
    · intro k _
      rw [List.pairwise_map]
      refine (Rng.points_sorted _).imp ?_
      intro a b h
      unfold colLt
      right
      simpa [Fin.snoc_last, Fin.snoc_castSucc] using h
    · refine (pairwise_intRange _ _).imp ?_
      intro k1 k2 hk x hx y hy
      obtain ⟨t, _, rfl⟩ := List.mem_map.1 hx
      obtain ⟨u, _, rfl⟩ := List.mem_map.1 hy
      unfold colLt
      left
      simpa using hk

theorem Rng.points_nodup {d : Nat} (r : Rng d) : r.points.Nodup :=
  List.Pairwise.imp (S := fun a b => a ≠ b)
    (fun {a b} h (e : a = b) => colLt_asymm a b h (by subst e; exact h)) (Rng.points_sorted r)

/-- Two ranges filtered to the same points are visited in the same order. -/
theorem points_filter_eq {d : Nat} (r r' : Rng d) (P Q : Tup d → Bool)
    (h : ∀ p, (Spec.pts r p ∧ P p = true) ↔ (Spec.pts r' p ∧ Q p = true)) :
    r.points.filter P = r'.points.filter Q := by
  have hp : (r.points.filter P).Perm (r'.points.filter Q) := by
    rw [List.perm_ext_iff_of_nodup ((Rng.points_nodup r).filter _) ((Rng.points_nodup r').filter _)]
    intro p
    have := h p
    rw [List.mem_filter, List.mem_filter, Rng.mem_points, Rng.mem_points]
    exact this
  exact hp.eq_of_pairwise (fun a b _ _ h1 h2 => absurd h2 (fun h2 => colLt_asymm a b h1 h2))
    ((Rng.points_sorted r).filter _) ((Rng.points_sorted r').filter _)

/-- The tuples of the column-major indices are the points in loop order. -/
theorem Rng.tuples_eq_points {d : Nat} (r : Rng d) (h : ∀ i, r.b i < r.e i) :
    ((List.range r.count.toNat).map fun (k : Nat) => r.tuple .col (k : Int)) = r.points := by
  have := congrArg (List.map (r.tuple .col)) (r.points_colIndex h)
  rw [List.map_map, List.map_map] at this
  have e : r.points.map (r.tuple .col ∘ r.colIndex) = r.points := by
    conv => rhs; rw [← List.map_id r.points]
    apply List.map_congr_left
    intro p hp
    exact Rng.tuple_index .col r p ((Rng.mem_points r p).1 hp)
  rw [e] at this
  rw [this]; rfl

end Ovk
