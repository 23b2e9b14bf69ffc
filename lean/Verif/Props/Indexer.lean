/-
Property C01: linear indices are a bijection between the tuples of the extents and `[0,Count)`.
-/
import Verif.Lemmas.Indexer

namespace Ovk.Indexer

namespace Spec
/-- A tuple of the right rank with every coordinate inside the half-open extents. -/
def InExtents (ext : List (Int × Int)) (t : List Int) : Prop :=
  List.Forall₂ (fun (x : Int × Int) v => x.1 ≤ v ∧ v < x.2) ext t

/-- Number of tuples: product of the non-negative sizes. -/
def count (ext : List (Int × Int)) : Int := (ext.map fun x => max (x.2 - x.1) 0).prod
end Spec

theorem inExtents_iff : ∀ (ext : List (Int × Int)) (t : List Int),
    Spec.InExtents ext t ↔ Inside ext t
  | [], [] => by simp [Spec.InExtents, Inside]
  | x :: xs, t :: ts => by
    have := inExtents_iff xs ts
    simp only [Spec.InExtents] at this
    simp only [Spec.InExtents, Inside, List.forall₂_cons, this, and_assoc]
  | [], _ :: _ => by
    simp only [Spec.InExtents, Inside, iff_false]; intro h; cases h
  | _ :: _, [] => by
    simp only [Spec.InExtents, Inside, iff_false]; intro h; cases h

theorem count_eq : ∀ {ext : List (Int × Int)}, AllPos ext → Spec.count ext = prodExt ext
  | [], _ => by simp [Spec.count, prodExt]
  | x :: xs, h => by
    have hx := h x (by simp)
    have := count_eq (ext := xs) (fun y hy => h y (by simp [hy]))
    simp only [Spec.count] at this
    simp only [Spec.count, List.map_cons, List.prod_cons, this, prodExt, extent]
    congr 1; omega

theorem allPos_of_inside : ∀ {ext : List (Int × Int)} {t : List Int}, Inside ext t → AllPos ext
  | [], [], _ => by intro x hx; simp at hx
  | x :: xs, t :: ts, h => by
    simp only [Inside] at h
    intro y hy
    rcases List.mem_cons.1 hy with rfl | hy
    · omega
    · exact allPos_of_inside h.2.2 y hy
  | [], _ :: _, h => by simp [Inside] at h
  | _ :: _, [], h => by simp [Inside] at h

theorem allPos_of_count : ∀ {ext : List (Int × Int)}, 0 < Spec.count ext → AllPos ext
  | [], _ => by intro x hx; simp at hx
  | x :: xs, h => by
    simp only [Spec.count, List.map_cons, List.prod_cons] at h
    have h0 : 0 ≤ max (x.2 - x.1) 0 := by omega
    have hpos : 0 < max (x.2 - x.1) 0 := by
      rcases Int.lt_or_eq_of_le h0 with h1 | h1
      · exact h1
      · rw [← h1] at h; simp at h
    have h2 : 0 < Spec.count xs := Int.pos_of_mul_pos_right h hpos
    intro y hy
    rcases List.mem_cons.1 hy with rfl | hy
    · omega
    · exact allPos_of_count h2 y hy

/-- C01: the index of a tuple of the extents lies in `[0,Count)`. -/
theorem C01_index_in_range (l : Layout) (ext : List (Int × Int)) (t : List Int)
    (h : Spec.InExtents ext t) : 0 ≤ toIndex l ext t ∧ toIndex l ext t < Spec.count ext := by
  rw [inExtents_iff] at h
  rw [count_eq (allPos_of_inside h)]
  cases l
  · exact dotR_bounds h
  · have := dotC_bounds (a := 1) (by omega) h
    simp only [toIndex, strides]; omega

/-- C01: converting to an index and back is the identity. -/
theorem C01_tuple_roundtrip (l : Layout) (ext : List (Int × Int)) (t : List Int)
    (h : Spec.InExtents ext t) : toTuple l ext (toIndex l ext t) = t := by
  rw [inExtents_iff] at h
  cases l
  · exact peelR_dot h
  · have := peelC_dot (a := 1) (r := 0) (by omega) (by omega) (by omega) h
    simp only [toIndex, toTuple, strides]
    rw [Int.add_zero] at this
    rw [this]

/-- C01: every index in `[0,Count)` comes from a tuple of the extents, the one `ToTuple` returns. -/
theorem C01_index_roundtrip (l : Layout) (ext : List (Int × Int)) (idx : Int) (h0 : 0 ≤ idx)
    (h1 : idx < Spec.count ext) :
    Spec.InExtents ext (toTuple l ext idx) ∧ toIndex l ext (toTuple l ext idx) = idx := by
  have hpos := allPos_of_count (by omega : 0 < Spec.count ext)
  rw [count_eq hpos] at h1
  rw [inExtents_iff]
  cases l
  · exact dot_peelR hpos h0 h1
  · have := dot_peelC hpos (a := 1) (by omega) h0 (by omega)
    simp only [toIndex, toTuple, strides]
    exact ⟨this.1, by omega⟩

/-- C01: distinct tuples never share an index. -/
theorem C01_injective (l : Layout) (ext : List (Int × Int)) (t u : List Int)
    (ht : Spec.InExtents ext t) (hu : Spec.InExtents ext u)
    (h : toIndex l ext t = toIndex l ext u) : t = u := by
  rw [← C01_tuple_roundtrip l ext t ht, h, C01_tuple_roundtrip l ext u hu]

/-- C01: row-major indices increase lexicographically (last dimension fastest). -/
theorem C01_row_major_lex (ext : List (Int × Int)) (t u : List Int)
    (ht : Spec.InExtents ext t) (hu : Spec.InExtents ext u) (h : t < u) :
    toIndex .row ext t < toIndex .row ext u := by
  rw [inExtents_iff] at ht hu
  simp only [toIndex, strides]
  exact dotR_lex ht hu h

/-- C01: column-major is row-major with the dimensions reversed (first dimension fastest). -/
theorem C01_col_major_reverse (ext : List (Int × Int)) (t : List Int)
    (ht : Spec.InExtents ext t) :
    toIndex .col ext t = toIndex .row ext.reverse t.reverse := by
  rw [inExtents_iff] at ht
  simp only [toIndex, strides]
  rw [dotC_reverse ht, Int.one_mul]

example : ([1, 3, 5] : List Int) < [1, 3, 6] := by decide
example : Spec.InExtents [(-1, 2), (0, 4), (5, 7)] [1, 3, 5] := by
  rw [inExtents_iff]; simp [Inside]
example : toIndex .row [(-1, 2), (0, 4), (5, 7)] [1, 3, 5] = 22 := by decide
example : toIndex .col [(-1, 2), (0, 4), (5, 7)] [1, 3, 5] = 11 := by decide

end Ovk.Indexer
