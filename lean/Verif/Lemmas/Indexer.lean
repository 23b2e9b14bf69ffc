import Verif.Model.Indexer
import Mathlib.Tactic.Ring
import Mathlib.Tactic.Linarith

namespace Ovk.Indexer

/-- Tuple inside half-open extents, dimension by dimension. -/
def Inside : List (Int × Int) → List Int → Prop
  | [], [] => True
  | x :: xs, t :: ts => x.1 ≤ t ∧ t < x.2 ∧ Inside xs ts
  | _, _ => False

theorem inside_pos : ∀ {ext : List (Int × Int)} {t : List Int}, Inside ext t → 0 < prodExt ext
  | [], [], _ => by simp [prodExt]
  | x :: xs, t :: ts, h => by
    simp only [Inside] at h
    have := inside_pos h.2.2
    simp only [prodExt]
    exact Int.mul_pos (by unfold extent; omega) this
  | [], _ :: _, h => by simp [Inside] at h
  | _ :: _, [], h => by simp [Inside] at h

theorem dotR_bounds : ∀ {ext : List (Int × Int)} {t : List Int}, Inside ext t →
    0 ≤ dot (stridesR ext) ext t ∧ dot (stridesR ext) ext t < prodExt ext
  | [], [], _ => by simp [dot, stridesR, prodExt]
  | x :: xs, t :: ts, h => by
    simp only [Inside] at h
    have hb := dotR_bounds h.2.2
    have hp := inside_pos h.2.2
    simp only [dot, stridesR, prodExt]
    have h1 : 0 ≤ prodExt xs * (t - x.1) := Int.mul_nonneg (by omega) (by omega)
    have h2 : prodExt xs * (t - x.1) ≤ prodExt xs * (extent x - 1) :=
      Int.mul_le_mul_of_nonneg_left (by unfold extent; omega) (by omega)
    have h3 : prodExt xs * (extent x - 1) = extent x * prodExt xs - prodExt xs := by ring
    omega
  | [], _ :: _, h => by simp [Inside] at h
  | _ :: _, [], h => by simp [Inside] at h

theorem tdiv_mul_add {a o r : Int} (ha : 0 < a) (ho : 0 ≤ o) (h0 : 0 ≤ r) (h1 : r < a) :
    (a * o + r).tdiv a = o := by
  have hn : 0 ≤ a * o + r := by have := Int.mul_nonneg (Int.le_of_lt ha) ho; omega
  rw [Int.tdiv_eq_ediv_of_nonneg hn, Int.add_comm, Int.add_mul_ediv_left _ _ (by omega),
    Int.ediv_eq_zero_of_lt h0 h1]
  omega

theorem peelR_dot : ∀ {ext : List (Int × Int)} {t : List Int}, Inside ext t →
    peelR (stridesR ext) ext (dot (stridesR ext) ext t) = t
  | [], [], _ => by simp [stridesR, peelR]
  | x :: xs, t :: ts, h => by
    simp only [Inside] at h
    have hb := dotR_bounds h.2.2
    have hp := inside_pos h.2.2
    simp only [dot, stridesR, peelR]
    rw [tdiv_mul_add hp (by omega) hb.1 hb.2]
    congr 1
    · omega
    · have : prodExt xs * (t - x.1) + dot (stridesR xs) xs ts - (t - x.1) * prodExt xs
          = dot (stridesR xs) xs ts := by ring
      rw [this]
      exact peelR_dot h.2.2
  | [], _ :: _, h => by simp [Inside] at h
  | _ :: _, [], h => by simp [Inside] at h

/-- All extents are positive. -/
def AllPos (ext : List (Int × Int)) : Prop := ∀ x ∈ ext, x.1 < x.2

theorem allPos_prod : ∀ {ext : List (Int × Int)}, AllPos ext → 0 < prodExt ext
  | [], _ => by simp [prodExt]
  | x :: xs, h => by
    have hx := h x (by simp)
    have := allPos_prod (ext := xs) (fun y hy => h y (by simp [hy]))
    exact Int.mul_pos (by unfold extent; omega) this

theorem dot_peelR : ∀ {ext : List (Int × Int)} (_ : AllPos ext) {idx : Int} (_ : 0 ≤ idx)
    (_ : idx < prodExt ext), Inside ext (peelR (stridesR ext) ext idx) ∧
      dot (stridesR ext) ext (peelR (stridesR ext) ext idx) = idx
  | [], _, idx, h0, h1 => by
    simp only [prodExt] at h1
    simp only [stridesR, peelR, Inside, dot, true_and]; omega
  | x :: xs, h, idx, h0, h1 => by
    have hx := h x (by simp)
    have hxs : AllPos xs := fun y hy => h y (by simp [hy])
    have hp := allPos_prod hxs
    simp only [prodExt] at h1
    simp only [stridesR, peelR, Inside, dot]
    rw [Int.tdiv_eq_ediv_of_nonneg h0]
    have e := Int.emod_add_mul_ediv idx (prodExt xs)
    have m0 := Int.emod_nonneg idx (by omega : prodExt xs ≠ 0)
    have m1 := Int.emod_lt_of_pos idx hp
    have q0 : 0 ≤ idx / prodExt xs := Int.ediv_nonneg h0 (by omega)
    have q1 : idx / prodExt xs < extent x := by
      apply Int.ediv_lt_of_lt_mul hp; exact h1
    have e2 : idx - idx / prodExt xs * prodExt xs = idx % prodExt xs := by
      rw [Int.mul_comm]; omega
    rw [e2]
    have ih := dot_peelR hxs m0 m1
    refine ⟨⟨by omega, by unfold extent at q1; omega, ih.1⟩, ?_⟩
    rw [ih.2]
    have : x.1 + idx / prodExt xs - x.1 = idx / prodExt xs := by omega
    rw [this]; omega

theorem dotC_bounds : ∀ {ext : List (Int × Int)} {t : List Int} {a : Int}, 0 < a → Inside ext t →
    0 ≤ dot (stridesC a ext) ext t ∧ dot (stridesC a ext) ext t ≤ a * prodExt ext - a
  | [], [], a, _, _ => by simp [dot, stridesC, prodExt]
  | x :: xs, t :: ts, a, ha, h => by
    simp only [Inside] at h
    have hn : 0 < extent x := by unfold extent; omega
    have hb := dotC_bounds (Int.mul_pos hn ha) h.2.2
    simp only [dot, stridesC, prodExt]
    have h1 : 0 ≤ a * (t - x.1) := Int.mul_nonneg (by omega) (by omega)
    have h2 : a * (t - x.1) ≤ a * (extent x - 1) :=
      Int.mul_le_mul_of_nonneg_left (by unfold extent; omega) (by omega)
    have h3 : a * (extent x - 1) = extent x * a - a := by ring
    have h4 : a * (extent x * prodExt xs) = extent x * a * prodExt xs := by ring
    omega
  | [], _ :: _, _, _, h => by simp [Inside] at h
  | _ :: _, [], _, _, h => by simp [Inside] at h

theorem peelC_dot : ∀ {ext : List (Int × Int)} {t : List Int} {a r : Int}, 0 < a → 0 ≤ r → r < a →
    Inside ext t → peelC (stridesC a ext) ext (dot (stridesC a ext) ext t + r) = (t, r)
  | [], [], a, r, _, _, _, _ => by simp [stridesC, peelC, dot]
  | x :: xs, t :: ts, a, r, ha, h0, h1, h => by
    simp only [Inside] at h
    have hn : 0 < extent x := by unfold extent; omega
    simp only [dot, stridesC, peelC]
    have k1 : 0 ≤ a * (t - x.1) := Int.mul_nonneg (by omega) (by omega)
    have k2 : a * (t - x.1) ≤ a * (extent x - 1) :=
      Int.mul_le_mul_of_nonneg_left (by unfold extent; omega) (by omega)
    have k3 : a * (extent x - 1) = extent x * a - a := by ring
    have ih := peelC_dot (ext := xs) (t := ts) (a := extent x * a) (r := a * (t - x.1) + r)
      (Int.mul_pos hn ha) (by omega) (by omega) h.2.2
    have e : a * (t - x.1) + dot (stridesC (extent x * a) xs) xs ts + r
        = dot (stridesC (extent x * a) xs) xs ts + (a * (t - x.1) + r) := by ring
    rw [e, ih]
    simp only
    rw [tdiv_mul_add ha (by omega) h0 h1]
    ext1
    · simp only [List.cons.injEq, and_true]; omega
    · simp only; ring
  | [], _ :: _, _, _, _, _, _, h => by simp [Inside] at h
  | _ :: _, [], _, _, _, _, _, h => by simp [Inside] at h

theorem dot_peelC : ∀ {ext : List (Int × Int)} (_ : AllPos ext) {a idx : Int} (_ : 0 < a)
    (_ : 0 ≤ idx) (_ : idx < a * prodExt ext),
    Inside ext (peelC (stridesC a ext) ext idx).1 ∧
      0 ≤ (peelC (stridesC a ext) ext idx).2 ∧ (peelC (stridesC a ext) ext idx).2 < a ∧
      dot (stridesC a ext) ext (peelC (stridesC a ext) ext idx).1 +
        (peelC (stridesC a ext) ext idx).2 = idx
  | [], _, a, idx, ha, h0, h1 => by
    simp only [prodExt] at h1
    simp only [stridesC, peelC, Inside, dot, true_and]; omega
  | x :: xs, h, a, idx, ha, h0, h1 => by
    have hx := h x (by simp)
    have hn : 0 < extent x := by unfold extent; omega
    have hxs : AllPos xs := fun y hy => h y (by simp [hy])
    simp only [prodExt] at h1
    have ih := dot_peelC hxs (a := extent x * a) (idx := idx) (Int.mul_pos hn ha) h0
      (by have : a * (extent x * prodExt xs) = extent x * a * prodExt xs := by ring
          omega)
    simp only [stridesC, peelC, Inside, dot]
    generalize peelC (stridesC (extent x * a) xs) xs idx = p at ih ⊢
    obtain ⟨ts, r⟩ := p
    simp only at ih ⊢
    obtain ⟨i1, i2, i3, i4⟩ := ih
    rw [Int.tdiv_eq_ediv_of_nonneg i2]
    have e := Int.emod_add_mul_ediv r a
    have m0 := Int.emod_nonneg r (by omega : a ≠ 0)
    have m1 := Int.emod_lt_of_pos r ha
    have q0 : 0 ≤ r / a := Int.ediv_nonneg i2 (by omega)
    have q1 : r / a < extent x := Int.ediv_lt_of_lt_mul ha i3
    have e2 : r - r / a * a = r % a := by rw [Int.mul_comm]; omega
    rw [e2]
    refine ⟨⟨by omega, by unfold extent at q1; omega, i1⟩, m0, m1, ?_⟩
    have : x.1 + r / a - x.1 = r / a := by omega
    rw [this]; omega

theorem inside_length : ∀ {ext : List (Int × Int)} {t : List Int}, Inside ext t →
    ext.length = t.length
  | [], [], _ => rfl
  | x :: xs, t :: ts, h => by
    simp only [Inside] at h
    simp [inside_length h.2.2]
  | [], _ :: _, h => by simp [Inside] at h
  | _ :: _, [], h => by simp [Inside] at h

theorem dotR_lex : ∀ {ext : List (Int × Int)} {t u : List Int}, Inside ext t → Inside ext u →
    t < u → dot (stridesR ext) ext t < dot (stridesR ext) ext u
  | [], [], [], _, _, h => by simp at h
  | x :: xs, t :: ts, u :: us, ht, hu, h => by
    simp only [Inside] at ht hu
    have b1 := dotR_bounds ht.2.2
    have b2 := dotR_bounds hu.2.2
    have hp := inside_pos ht.2.2
    simp only [dot, stridesR]
    rw [List.cons_lt_cons_iff] at h
    rcases h with h | ⟨rfl, h⟩
    · have : prodExt xs * (t - x.1 + 1) ≤ prodExt xs * (u - x.1) :=
        Int.mul_le_mul_of_nonneg_left (by omega) (by omega)
      rw [Int.mul_add] at this
      omega
    · have := dotR_lex ht.2.2 hu.2.2 h
      omega
  | [], _ :: _, _, h, _, _ => by simp [Inside] at h
  | [], [], _ :: _, _, h, _ => by simp [Inside] at h
  | _ :: _, [], _, h, _, _ => by simp [Inside] at h
  | _ :: _, _ :: _, [], _, h, _ => by simp [Inside] at h

theorem prodExt_append (xs : List (Int × Int)) (x : Int × Int) :
    prodExt (xs ++ [x]) = extent x * prodExt xs := by
  induction xs with
  | nil => simp [prodExt]
  | cons y ys ih => simp only [List.cons_append, prodExt, ih]; ring

theorem dotR_append : ∀ (xs : List (Int × Int)) (ts : List Int) (_ : xs.length = ts.length)
    (x : Int × Int) (t : Int),
    dot (stridesR (xs ++ [x])) (xs ++ [x]) (ts ++ [t]) =
      extent x * dot (stridesR xs) xs ts + (t - x.1)
  | [], [], _, x, t => by simp [stridesR, dot, prodExt]
  | y :: ys, u :: us, h, x, t => by
    have ih := dotR_append ys us (by simpa using h) x t
    simp only [List.cons_append, stridesR, dot, ih, prodExt_append]; ring
  | [], _ :: _, h, _, _ => by simp at h
  | _ :: _, [], h, _, _ => by simp at h

theorem dotC_reverse : ∀ {ext : List (Int × Int)} {t : List Int} {a : Int}, Inside ext t →
    dot (stridesC a ext) ext t = a * dot (stridesR ext.reverse) ext.reverse t.reverse
  | [], [], a, _ => by simp [stridesC, dot, stridesR]
  | x :: xs, t :: ts, a, h => by
    simp only [Inside] at h
    simp only [stridesC, dot, List.reverse_cons]
    rw [dotC_reverse h.2.2, dotR_append _ _ (by simp [inside_length h.2.2])]
    ring
  | [], _ :: _, _, h => by simp [Inside] at h
  | _ :: _, [], _, h => by simp [Inside] at h

end Ovk.Indexer
