import Verif.Model.CellOps
import Verif.Lemmas.FieldIndex
import Verif.Props.Cells
import Verif.Props.LocalCoords

/-!
# C135: cells of a grid accept their points whatever geometry type was declared

Coordinates are given by a function `f` of the points; the memory of a coordinate field lists its
values in the order of the points of the range, first dimension fastest.  The cell at `cell` is a
segment, parallelogram or parallelepiped with corner `p` and edges `a`.  What it contains is
`Geo.Spec.Filled`, which does not mention geometry types.
-/

namespace Ovk.CellOps

open Geo

variable {K : Type} [Field K] [LinearOrder K]

namespace Spec

/-- The fields hold the coordinates `f`. -/
def Holds (X : Coords K) (f : Tup 3 → Fin 3 → K) : Prop :=
  ∀ c, X.mem c = X.ext.points.map fun p => f p c

/-- All corners of the cell are points of the range; dimensions that the grid does not have are
padded with a single layer of points. -/
def CellIn (dims : Nat) (ext : Rng 3) (cell : Tup 3) : Prop :=
  ∀ i : Fin 3, if i.val < dims then ext.b i ≤ cell i ∧ cell i + 1 < ext.e i
    else cell i = 0 ∧ ext.b i = 0 ∧ ext.e i = 1

/-- The corner of a cell with offsets `o`. -/
def corner (cell : Tup 3) (o : Fin 3 → Bool) : Tup 3 := fun i => if o i then cell i + 1 else cell i

/-- The offsets in `dims` dimensions, as offsets in three. -/
def pad {d : Nat} (o : Fin d → Bool) : Fin 3 → Bool :=
  fun i => if h : i.val < d then o ⟨i.val, h⟩ else false

/-- In `d` dimensions the cell is the parallelepiped with corner `p` and edges `a`. -/
def IsCell {d : Nat} (hd : d ≤ 3) (f : Tup 3 → Fin 3 → K) (cell : Tup 3) (p : Fin d → K)
    (a : Fin d → Fin d → K) : Prop :=
  ∀ (o : Fin d → Bool) (i : Fin d),
    f (corner cell (pad o)) (i.castLE hd) = p i + ∑ e, if o e then a e i else 0

/-- Edges along the axes. -/
def Axes {d : Nat} (a : Fin d → Fin d → K) : Prop := ∀ e i, e ≠ i → a e i = 0

/-- The edges are what the geometry type says. -/
def Fits {d : Nat} (T : GeoType) (a : Fin d → Fin d → K) : Prop :=
  match T with
  | .uniform | .rectilinear => Axes a
  | .orientedUniform | .orientedRectilinear => Geo.Spec.Orthogonal a
  | .curvilinear => True

/-- The first coordinates of a point. -/
def first {d : Nat} (hd : d ≤ 3) (x : Fin 3 → K) : Fin d → K := fun i => x (i.castLE hd)

/-- A point of the plane as a point of space. -/
def flat (x : Fin 2 → K) : Fin 3 → K := ![x 0, x 1, 0]

/-- The corners of a parallelogram. -/
def all2 (p : Fin 2 → K) (a : Fin 2 → Fin 2 → K) : List (Fin 3 → K) :=
  [flat p, flat fun i => p i + a 0 i, flat fun i => p i + a 1 i, flat fun i => p i + a 0 i + a 1 i]

/-- The corners of a parallelepiped. -/
def all3 (p : Fin 3 → K) (a : Fin 3 → Fin 3 → K) : List (Fin 3 → K) :=
  [p, fun i => p i + a 0 i, fun i => p i + a 1 i, fun i => p i + a 0 i + a 1 i,
    fun i => p i + a 2 i, fun i => p i + a 0 i + a 2 i, fun i => p i + a 1 i + a 2 i,
    fun i => p i + a 0 i + a 1 i + a 2 i]

end Spec

open Spec

/-! ## Reading -/

omit [Field K] [LinearOrder K] in
theorem at_eq {X : Coords K} {f : Tup 3 → Fin 3 → K} (hX : Holds X f) (c : Fin 3) {q : Tup 3}
    (hq : Ovk.Spec.pts X.ext q) : X.at c q = some (f q c) := by
  have hne : ∀ i, X.ext.b i < X.ext.e i := fun i => by have := hq i; omega
  have h0 := (X.ext.index_bounds .col q hq).1
  unfold Coords.at
  rw [if_pos h0, hX c]
  obtain ⟨k, hk⟩ := List.mem_iff_getElem?.1 ((Rng.mem_points X.ext q).2 hq)
  have h1 : (X.ext.points.map fun p => (X.ext.colIndex p).toNat)[k]? =
      some (X.ext.colIndex q).toNat := by rw [List.getElem?_map, hk]; rfl
  rw [X.ext.points_colIndexNat hne] at h1
  have h2 : k = (X.ext.colIndex q).toNat := by
    rw [List.getElem?_eq_some_iff] at h1
    obtain ⟨_, h1⟩ := h1
    rwa [List.getElem_range] at h1
  rw [← h2, List.getElem?_map, hk]; rfl

theorem pts_corner {dims : Nat} {ext : Rng 3} {cell : Tup 3} (h : CellIn dims ext cell)
    (o : Fin 3 → Bool) (ho : ∀ i : Fin 3, dims ≤ i.val → o i = false) :
    Ovk.Spec.pts ext (corner cell o) := by
  intro i
  have hi := h i
  unfold corner
  split at hi
  · split <;> omega
  · rw [ho i (by omega)]
    simp only [Bool.false_eq_true, if_false]
    omega

theorem pad_false {d : Nat} (o : Fin d → Bool) (i : Fin 3) (h : d ≤ i.val) : pad o i = false := by
  unfold pad; rw [dif_neg (by omega)]

theorem corner1 {ext : Rng 3} {cell : Tup 3} (h : CellIn 1 ext cell) :
    cell = corner cell (pad ![false]) ∧ (![cell 0, 0, 0] : Tup 3) = corner cell (pad ![false]) ∧
    (![cell 0 + 1, 0, 0] : Tup 3) = corner cell (pad ![true]) := by
  have h1 := h 1
  have h2 := h 2
  simp at h1 h2
  refine ⟨?_, ?_, ?_⟩ <;> funext i <;> fin_cases i <;> simp [corner, pad, h1, h2]

theorem corner2 {ext : Rng 3} {cell : Tup 3} (h : CellIn 2 ext cell) (a b : Bool) :
    (![if a then cell 0 + 1 else cell 0, if b then cell 1 + 1 else cell 1, 0] : Tup 3) =
      corner cell (pad ![a, b]) := by
  have h2 := h 2
  simp at h2
  funext i
  fin_cases i <;> simp [corner, pad, h2]

omit [Field K] [LinearOrder K] in
theorem corner3 (cell : Tup 3) (a b c : Bool) :
    (![if a then cell 0 + 1 else cell 0, if b then cell 1 + 1 else cell 1,
      if c then cell 2 + 1 else cell 2] : Tup 3) = corner cell (pad ![a, b, c]) := by
  funext i
  fin_cases i <;> simp [corner, pad]

omit [LinearOrder K] in
theorem at1 {X : Coords K} {f : Tup 3 → Fin 3 → K} (hX : Holds X f) {cell : Tup 3}
    (hc : CellIn 1 X.ext cell) {p : Fin 1 → K} {a : Fin 1 → Fin 1 → K}
    (hp : IsCell (by decide) f cell p a) (o : Fin 1 → Bool) :
    X.at 0 (corner cell (pad o)) = some (p 0 + ∑ e, if o e then a e 0 else 0) := by
  rw [at_eq hX 0 (pts_corner hc _ (pad_false o))]
  exact congrArg some (hp o 0)

omit [LinearOrder K] in
theorem node2_eq {X : Coords K} {f : Tup 3 → Fin 3 → K} (hX : Holds X f) {cell : Tup 3}
    (hc : CellIn 2 X.ext cell) {p : Fin 2 → K} {a : Fin 2 → Fin 2 → K}
    (hp : IsCell (by decide) f cell p a) (o : Fin 2 → Bool) :
    X.node2 (corner cell (pad o)) = some fun i => p i + ∑ e, if o e then a e i else 0 := by
  have hq := pts_corner hc _ (pad_false o)
  have h0 := hp o 0
  have h1 := hp o 1
  unfold Coords.node2
  rw [at_eq hX 0 hq, at_eq hX 1 hq]
  show some _ = some _
  congr 1
  funext i
  fin_cases i
  · exact h0
  · exact h1

omit [LinearOrder K] in
theorem node3_eq {X : Coords K} {f : Tup 3 → Fin 3 → K} (hX : Holds X f) {cell : Tup 3}
    (hc : CellIn 3 X.ext cell) {p : Fin 3 → K} {a : Fin 3 → Fin 3 → K}
    (hp : IsCell (by decide) f cell p a) (o : Fin 3 → Bool) :
    X.node3 (corner cell (pad o)) = some fun i => p i + ∑ e, if o e then a e i else 0 := by
  have hq := pts_corner hc _ (pad_false o)
  have h0 := hp o 0
  have h1 := hp o 1
  have h2 := hp o 2
  unfold Coords.node3
  rw [at_eq hX 0 hq, at_eq hX 1 hq, at_eq hX 2 hq]
  show some _ = some _
  congr 1
  funext i
  fin_cases i
  · exact h0
  · exact h1
  · exact h2

omit [LinearOrder K] in
theorem corners2_eq {X : Coords K} {f : Tup 3 → Fin 3 → K} (hX : Holds X f) {cell : Tup 3}
    (hc : CellIn 2 X.ext cell) {p : Fin 2 → K} {a : Fin 2 → Fin 2 → K}
    (hp : IsCell (by decide) f cell p a) : X.corners2 cell = some (Geo.Spec.quadNodes p a) := by
  have h := fun (s t : Bool) =>
    (congrArg X.node2 (corner2 hc s t)).trans (node2_eq hX hc hp ![s, t])
  have h0 := h false false
  have h1 := h true false
  have h2 := h false true
  have h3 := h true true
  simp only [Bool.false_eq_true, if_false, if_true] at h0 h1 h2 h3
  unfold Coords.corners2
  rw [h0, h1, h2, h3]
  simp only [Option.bind_eq_bind, Option.bind_some, Fin.sum_univ_two, Option.some.injEq]
  unfold Geo.Spec.quadNodes
  simp [add_assoc]

omit [LinearOrder K] in
theorem corners3_eq {X : Coords K} {f : Tup 3 → Fin 3 → K} (hX : Holds X f) {cell : Tup 3}
    (hc : CellIn 3 X.ext cell) {p : Fin 3 → K} {a : Fin 3 → Fin 3 → K}
    (hp : IsCell (by decide) f cell p a) : X.corners3 cell = some (Geo.Spec.hexNodes p a) := by
  have h := fun (s t u : Bool) =>
    (congrArg X.node3 (corner3 cell s t u)).trans (node3_eq hX hc hp ![s, t, u])
  have h0 := h false false false
  have h1 := h true false false
  have h2 := h false true false
  have h3 := h true true false
  have h4 := h false false true
  have h5 := h true false true
  have h6 := h false true true
  have h7 := h true true true
  simp only [Bool.false_eq_true, if_false, if_true] at h0 h1 h2 h3 h4 h5 h6 h7
  unfold Coords.corners3
  rw [h0, h1, h2, h3, h4, h5, h6, h7]
  simp only [Option.bind_eq_bind, Option.bind_some, Fin.sum_univ_three, Option.some.injEq]
  unfold Geo.Spec.hexNodes
  simp [add_assoc]

omit [LinearOrder K] in
theorem upper2_eq {X : Coords K} {f : Tup 3 → Fin 3 → K} (hX : Holds X f) {cell : Tup 3}
    (hc : CellIn 2 X.ext cell) {p : Fin 2 → K} {a : Fin 2 → Fin 2 → K}
    (hp : IsCell (by decide) f cell p a) (ha : Axes a) :
    X.node2 cell = some p ∧
    X.node2 (fun i => cell i + ![1, 1, 0] i) = some fun i => p i + a i i := by
  have h2 := hc 2
  simp at h2
  have e0 : cell = corner cell (pad ![false, false]) := by
    rw [← corner2 hc]; funext i; fin_cases i <;> simp [h2]
  have e1 : (fun i => cell i + (![1, 1, 0] : Tup 3) i) = corner cell (pad ![true, true]) := by
    rw [← corner2 hc]; funext i; fin_cases i <;> simp [h2]
  constructor
  · have := node2_eq hX hc hp ![false, false]
    rw [← e0] at this
    rw [this]
    congr 1; funext i; simp [Fin.sum_univ_two]
  · rw [e1, node2_eq hX hc hp]
    congr 1; funext i
    fin_cases i
    · simp [Fin.sum_univ_two, ha 1 0 (by decide)]
    · simp [Fin.sum_univ_two, ha 0 1 (by decide)]

omit [LinearOrder K] in
theorem upper3_eq {X : Coords K} {f : Tup 3 → Fin 3 → K} (hX : Holds X f) {cell : Tup 3}
    (hc : CellIn 3 X.ext cell) {p : Fin 3 → K} {a : Fin 3 → Fin 3 → K}
    (hp : IsCell (by decide) f cell p a) (ha : Axes a) :
    X.node3 cell = some p ∧
    X.node3 (fun i => cell i + ![1, 1, 1] i) = some fun i => p i + a i i := by
  have e0 : cell = corner cell (pad ![false, false, false]) := by
    rw [← corner3]; funext i; fin_cases i <;> simp
  have e1 : (fun i => cell i + (![1, 1, 1] : Tup 3) i) = corner cell (pad ![true, true, true]) := by
    rw [← corner3]; funext i; fin_cases i <;> simp
  constructor
  · have := node3_eq hX hc hp ![false, false, false]
    rw [← e0] at this
    rw [this]
    congr 1; funext i; simp [Fin.sum_univ_three]
  · rw [e1, node3_eq hX hc hp]
    congr 1; funext i
    fin_cases i
    · simp [Fin.sum_univ_three, ha 1 0 (by decide), ha 2 0 (by decide)]
    · simp [Fin.sum_univ_three, ha 0 1 (by decide), ha 2 1 (by decide)]
    · simp [Fin.sum_univ_three, ha 0 2 (by decide), ha 1 2 (by decide)]

/-! ## Tests -/

variable [IsStrictOrderedRing K]

theorem uniform_filled {d : Nat} (p : Fin d → K) {a : Fin d → Fin d → K} (ha : Axes a)
    (hn : ∀ i, a i i ≠ 0) (x : Fin d → K) :
    overlapsLocal 0 (isoUniformInv p (fun i => p i + a i i) x) = true ↔ Geo.Spec.Filled p a x := by
  rw [C57_uniform p _ (fun i h => hn i (by simpa using h.symm))]
  have hs : ∀ (u : Fin d → K) i, ∑ e, u e * a e i = u i * a i i := by
    intro u i
    rw [Finset.sum_eq_single i]
    · intro e _ he; rw [ha e i he, mul_zero]
    · intro h; exact absurd (Finset.mem_univ i) h
  unfold Geo.Spec.Filled
  refine exists_congr fun u => and_congr_right fun _ => forall_congr' fun i => ?_
  rw [hs, add_sub_cancel_left]

theorem oriented_filled {d : Nat} (p : Fin d → K) (a : Fin d → Fin d → K)
    (h1 : ∀ u, isoOrientedInv p (fun e i => p i + a e i)
      (isoOriented p (fun e i => p i + a e i) u) = u)
    (h2 : ∀ x, isoOriented p (fun e i => p i + a e i)
      (isoOrientedInv p (fun e i => p i + a e i) x) = x) (x : Fin d → K) :
    overlapsLocal 0 (isoOrientedInv p (fun e i => p i + a e i) x) = true ↔
      Geo.Spec.Filled p a x := by
  have hi : ∀ (u : Fin d → K) i,
      isoOriented p (fun e i => p i + a e i) u i = p i + ∑ e, u e * a e i := by
    intro u i
    show (1 - ∑ e, u e) * p i + ∑ e, u e * (p i + a e i) = _
    simp only [mul_add, Finset.sum_add_distrib, ← Finset.sum_mul]
    ring
  unfold overlapsLocal
  rw [decide_eq_true_iff]
  constructor
  · intro h
    refine ⟨isoOrientedInv p (fun e i => p i + a e i) x, fun e => ?_, fun i => ?_⟩
    · have := h e
      push Not at this
      simpa using this
    · rw [← hi, h2]
  · rintro ⟨u, hu, hx⟩
    have : x = isoOriented p (fun e i => p i + a e i) u := by
      funext i; rw [hi]; exact hx i
    rw [this, h1]
    intro i
    have := hu i
    push Not
    simpa using this

/-! ## C135: which points a cell accepts -/

/-- C135: one-dimensional cells accept the points between their corners, whatever the type. -/
theorem C135_line {X : Coords K} {f : Tup 3 → Fin 3 → K} (hX : Holds X f) {cell : Tup 3}
    (hc : CellIn 1 X.ext cell) {p : Fin 1 → K} {a : Fin 1 → Fin 1 → K}
    (hp : IsCell (by decide) f cell p a) (hd : a 0 0 ≠ 0) (T : GeoType) (x : Fin 3 → K) :
    ∃ b, overlapsCell T 1 X 0 cell x = some b ∧
      (b = true ↔ Geo.Spec.Filled p a (first (by decide) x)) := by
  have hT : overlapsCell T 1 X 0 cell x = overlapsUniform1 X 0 cell x := by cases T <;> rfl
  obtain ⟨e0, _, e1⟩ := corner1 hc
  have h0 := at1 hX hc hp ![false]
  have h1 := at1 hX hc hp ![true]
  rw [← e0] at h0
  rw [← e1] at h1
  refine ⟨overlapsLocal 0 (isoUniformInv p (fun i => p i + a i i) (first (by decide) x)), ?_, ?_⟩
  · rw [hT]
    unfold overlapsUniform1
    rw [h0, h1]
    simp only [Option.bind_eq_bind, Option.bind_some, Option.some.injEq]
    congr 1
    funext i
    obtain rfl : i = 0 := Subsingleton.elim _ _
    simp [isoUniformInv, first]
  · refine uniform_filled p (fun e i h => absurd (Subsingleton.elim e i) h) (fun i => ?_) _
    obtain rfl : i = 0 := Subsingleton.elim _ _
    exact hd

theorem edge_ne {d : Nat} {a : Fin d → Fin d → K} (e : Fin d) (h : ∃ i, a e i ≠ 0) :
    ∑ i, a e i * a e i ≠ 0 := by
  intro h0
  obtain ⟨i, hi⟩ := h
  have := (Finset.sum_eq_zero_iff_of_nonneg (fun j _ => mul_self_nonneg (a e j))).1 h0 i
    (Finset.mem_univ i)
  exact hi (mul_self_eq_zero.1 this)

omit [LinearOrder K] [IsStrictOrderedRing K] in
theorem det2_edge {a : Fin 2 → Fin 2 → K} (h : det2 (a 0) (a 1) ≠ 0) (e : Fin 2) :
    ∃ i, a e i ≠ 0 := by
  by_contra hn
  push Not at hn
  apply h
  unfold det2
  fin_cases e
  · have h0 := hn 0; have h1 := hn 1; simp at h0 h1; simp [h0, h1]
  · have h0 := hn 0; have h1 := hn 1; simp at h0 h1; simp [h0, h1]

omit [LinearOrder K] [IsStrictOrderedRing K] in
theorem det3_edge {a : Fin 3 → Fin 3 → K} (h : det3 (a 0) (a 1) (a 2) ≠ 0) (e : Fin 3) :
    ∃ i, a e i ≠ 0 := by
  by_contra hn
  push Not at hn
  apply h
  unfold det3
  have h0 := hn 0
  have h1 := hn 1
  have h2 := hn 2
  fin_cases e <;> simp at h0 h1 h2 <;> simp [h0, h1, h2]

omit [LinearOrder K] [IsStrictOrderedRing K] in
theorem axes_diag {d : Nat} {a : Fin d → Fin d → K} (ha : Axes a) (h : ∀ e, ∃ i, a e i ≠ 0)
    (i : Fin d) : a i i ≠ 0 := by
  obtain ⟨j, hj⟩ := h i
  by_cases e : i = j
  · rw [e]; rw [e] at hj; exact hj
  · exact absurd (ha i j e) hj

/-- C135: two-dimensional cells accept the points of the parallelogram, whatever the type, as long
as the parallelogram is of the type. -/
theorem C135_plane {X : Coords K} {f : Tup 3 → Fin 3 → K} (hX : Holds X f) {cell : Tup 3}
    (hc : CellIn 2 X.ext cell) {p : Fin 2 → K} {a : Fin 2 → Fin 2 → K}
    (hp : IsCell (by decide) f cell p a) (hd : det2 (a 0) (a 1) ≠ 0) (T : GeoType) (hT : Fits T a)
    (x : Fin 3 → K) : ∃ b, overlapsCell T 2 X 0 cell x = some b ∧
      (b = true ↔ Geo.Spec.Filled p a (first (by decide) x)) := by
  have hx : (![x 0, x 1] : Fin 2 → K) = first (by decide) x := by
    funext i; fin_cases i <;> rfl
  have hq : (![Geo.Spec.quadNodes p a 1, Geo.Spec.quadNodes p a 2] : Fin 2 → Fin 2 → K) =
      fun e i => p i + a e i := by
    funext e i; fin_cases e <;> rfl
  have hU : Axes a → ∃ b, overlapsUniform2 X 0 cell x = some b ∧
      (b = true ↔ Geo.Spec.Filled p a (first (by decide) x)) := by
    intro ha
    obtain ⟨h0, h1⟩ := upper2_eq hX hc hp ha
    refine ⟨_, ?_, uniform_filled p ha (axes_diag ha (det2_edge hd)) _⟩
    unfold overlapsUniform2
    rw [h0, h1, hx]
    rfl
  have hO : Geo.Spec.Orthogonal a → ∃ b, overlapsOriented2 X 0 cell x = some b ∧
      (b = true ↔ Geo.Spec.Filled p a (first (by decide) x)) := by
    intro ha
    refine ⟨_, ?_, oriented_filled p a (C37_oriented p _ ?_ ?_) (C37_oriented_image2 p _ ?_ ?_) _⟩
    · unfold overlapsOriented2
      rw [corners2_eq hX hc hp]
      simp only [Option.bind_eq_bind, Option.bind_some]
      rw [hq, hx]
      rfl
    · simpa only [add_sub_cancel_left] using ha
    · intro e; simp only [add_sub_cancel_left]; exact edge_ne e (det2_edge hd e)
    · simpa only [add_sub_cancel_left] using ha
    · unfold Geo.sub; simpa only [add_sub_cancel_left] using hd
  cases T with
  | uniform => exact hU hT
  | rectilinear => exact hU hT
  | orientedUniform => exact hO hT
  | orientedRectilinear => exact hO hT
  | curvilinear =>
    refine ⟨_, ?_, C57_parallelogram p a hd _⟩
    show overlapsCurvilinear2 X 0 cell x = _
    unfold overlapsCurvilinear2
    rw [corners2_eq hX hc hp, hx]
    rfl

/-- C135: three-dimensional cells accept the points of the parallelepiped, whatever the type, as
long as the parallelepiped is of the type. -/
theorem C135_space {X : Coords K} {f : Tup 3 → Fin 3 → K} (hX : Holds X f) {cell : Tup 3}
    (hc : CellIn 3 X.ext cell) {p : Fin 3 → K} {a : Fin 3 → Fin 3 → K}
    (hp : IsCell (by decide) f cell p a) (hd : det3 (a 0) (a 1) (a 2) ≠ 0) (T : GeoType)
    (hT : Fits T a) (x : Fin 3 → K) : ∃ b, overlapsCell T 3 X 0 cell x = some b ∧
      (b = true ↔ Geo.Spec.Filled p a x) := by
  have hq : (![Geo.Spec.hexNodes p a 1, Geo.Spec.hexNodes p a 2, Geo.Spec.hexNodes p a 4] :
      Fin 3 → Fin 3 → K) = fun e i => p i + a e i := by
    funext e i; fin_cases e <;> rfl
  have hU : Axes a → ∃ b, overlapsUniform3 X 0 cell x = some b ∧
      (b = true ↔ Geo.Spec.Filled p a x) := by
    intro ha
    obtain ⟨h0, h1⟩ := upper3_eq hX hc hp ha
    refine ⟨_, ?_, uniform_filled p ha (axes_diag ha (det3_edge hd)) _⟩
    unfold overlapsUniform3
    rw [h0, h1]
    rfl
  have hO : Geo.Spec.Orthogonal a → ∃ b, overlapsOriented3 X 0 cell x = some b ∧
      (b = true ↔ Geo.Spec.Filled p a x) := by
    intro ha
    refine ⟨_, ?_, oriented_filled p a (C37_oriented p _ ?_ ?_) (C37_oriented_image3 p _ ?_ ?_) _⟩
    · unfold overlapsOriented3
      rw [corners3_eq hX hc hp]
      simp only [Option.bind_eq_bind, Option.bind_some]
      rw [hq]
      rfl
    · simpa only [add_sub_cancel_left] using ha
    · intro e; simp only [add_sub_cancel_left]; exact edge_ne e (det3_edge hd e)
    · simpa only [add_sub_cancel_left] using ha
    · unfold Geo.sub; simpa only [add_sub_cancel_left] using hd
  cases T with
  | uniform => exact hU hT
  | rectilinear => exact hU hT
  | orientedUniform => exact hO hT
  | orientedRectilinear => exact hO hT
  | curvilinear =>
    refine ⟨_, ?_, C57_parallelepiped p a hd _⟩
    show overlapsCurvilinear3 X 0 cell x = _
    unfold overlapsCurvilinear3
    rw [corners3_eq hX hc hp]
    rfl

/-- C135: all types that fit give the same answer, in two dimensions. -/
theorem C135_same_plane {X : Coords K} {f : Tup 3 → Fin 3 → K} (hX : Holds X f) {cell : Tup 3}
    (hc : CellIn 2 X.ext cell) {p : Fin 2 → K} {a : Fin 2 → Fin 2 → K}
    (hp : IsCell (by decide) f cell p a) (hd : det2 (a 0) (a 1) ≠ 0) (T T' : GeoType)
    (hT : Fits T a) (hT' : Fits T' a) (x : Fin 3 → K) :
    overlapsCell T 2 X 0 cell x = overlapsCell T' 2 X 0 cell x := by
  obtain ⟨b, h, hb⟩ := C135_plane hX hc hp hd T hT x
  obtain ⟨b', h', hb'⟩ := C135_plane hX hc hp hd T' hT' x
  rw [h, h', Bool.eq_iff_iff.2 (hb.trans hb'.symm)]

/-- C135: all types that fit give the same answer, in three dimensions. -/
theorem C135_same_space {X : Coords K} {f : Tup 3 → Fin 3 → K} (hX : Holds X f) {cell : Tup 3}
    (hc : CellIn 3 X.ext cell) {p : Fin 3 → K} {a : Fin 3 → Fin 3 → K}
    (hp : IsCell (by decide) f cell p a) (hd : det3 (a 0) (a 1) (a 2) ≠ 0) (T T' : GeoType)
    (hT : Fits T a) (hT' : Fits T' a) (x : Fin 3 → K) :
    overlapsCell T 3 X 0 cell x = overlapsCell T' 3 X 0 cell x := by
  obtain ⟨b, h, hb⟩ := C135_space hX hc hp hd T hT x
  obtain ⟨b', h', hb'⟩ := C135_space hX hc hp hd T' hT' x
  rw [h, h', Bool.eq_iff_iff.2 (hb.trans hb'.symm)]

/-- C135: a cell outside the range of the fields is undefined (two dimensions, last corner). -/
example : overlapsCell .curvilinear 2 (⟨⟨![0, 0, 0], ![2, 2, 1]⟩, fun _ => [0, 1, 0, 1]⟩ : Coords Rat) 0
    ![1, 1, 0] ![0, 0, 0] = none := by decide +kernel

/-! ## C135: bounds -/

theorem fold_empty {d : Nat} (hd : 0 < d) (n : Fin 3 → K) (ns : List (Fin 3 → K)) :
    Geo.Spec.Bounding (n :: ns) ((n :: ns).foldl KBox.extend (emptyBox d)) := by
  have he : (emptyBox d : KBox K 3).empty = true := by
    unfold KBox.empty emptyBox
    rw [decide_eq_true_iff]
    refine ⟨0, ?_⟩
    simp [hd]
  have h1 : (emptyBox d : KBox K 3).extend n = ⟨n, n⟩ := by
    unfold KBox.extend; rw [he, if_pos rfl]
  rw [List.foldl_cons, h1]
  exact fold_bounding ns [n] ⟨n, n⟩ (by simp) ⟨fun x hx i => by
    obtain rfl := List.mem_singleton.1 hx; exact ⟨le_refl _, le_refl _⟩,
    fun i => ⟨⟨n, by simp, rfl⟩, ⟨n, by simp, rfl⟩⟩⟩

omit [LinearOrder K] [IsStrictOrderedRing K] in
/-- C135: the bounds of a one-dimensional cell are written in the first dimension only. -/
theorem C135_bounds_line {X : Coords K} {f : Tup 3 → Fin 3 → K} (hX : Holds X f) {cell : Tup 3}
    (hc : CellIn 1 X.ext cell) [LinearOrder K] (T : GeoType) :
    ∃ B, cellBounds T 1 X cell = some B ∧ B.b 0 = some (f cell 0) ∧
      B.e 0 = some (f (corner cell (pad ![true])) 0) ∧
      ∀ i, i ≠ 0 → B.b i = none ∧ B.e i = none := by
  have hT : cellBounds T 1 X cell = boundsUniform1 X cell := by cases T <;> rfl
  obtain ⟨e, e0, e1⟩ := corner1 hc
  have h0 := at_eq hX 0 (pts_corner hc _ (pad_false ![false]))
  have h1 := at_eq hX 0 (pts_corner hc _ (pad_false ![true]))
  refine ⟨⟨![some (f cell 0), none, none],
    ![some (f (corner cell (pad ![true])) 0), none, none]⟩, ?_, rfl, rfl, ?_⟩
  · rw [hT]
    unfold boundsUniform1
    rw [e0, e1, h0, h1, ← e]
    rfl
  · intro i hi
    fin_cases i
    · exact absurd rfl hi
    · exact ⟨rfl, rfl⟩
    · exact ⟨rfl, rfl⟩

/-- C135: the bounds of a two-dimensional cell contain its corners and are tight. -/
theorem C135_bounds_plane {X : Coords K} {f : Tup 3 → Fin 3 → K} (hX : Holds X f) {cell : Tup 3}
    (hc : CellIn 2 X.ext cell) {p : Fin 2 → K} {a : Fin 2 → Fin 2 → K}
    (hp : IsCell (by decide) f cell p a) (T : GeoType) (hT : Fits T a)
    (hpos : Axes a → ∀ i, 0 ≤ a i i) : ∃ B, cellBounds T 2 X cell = some (full B) ∧
      Geo.Spec.Bounding (all2 p a) B := by
  have hC : ∃ B, boundsCurvilinear2 X cell = some (full B) ∧
      Geo.Spec.Bounding (all2 p a) B := by
    refine ⟨(all2 p a).foldl KBox.extend (emptyBox 2), ?_, fold_empty (by decide) _ _⟩
    unfold boundsCurvilinear2
    rw [corners2_eq hX hc hp]
    simp only [Option.bind_eq_bind, Option.bind_some, all2, List.foldl_cons, List.foldl_nil]
    rfl
  have hU : Axes a → ∃ B, boundsUniform2 X cell = some (full B) ∧
      Geo.Spec.Bounding (all2 p a) B := by
    intro ha
    obtain ⟨h0, h1⟩ := upper2_eq hX hc hp ha
    refine ⟨⟨flat p, flat fun i => p i + a i i⟩, ?_, ?_⟩
    · unfold boundsUniform2
      rw [h0, h1]
      rfl
    · have p0 := hpos ha 0
      have p1 := hpos ha 1
      have z0 := ha 0 1 (by decide)
      have z1 := ha 1 0 (by decide)
      constructor
      · intro x hx i
        simp only [all2, List.mem_cons, List.not_mem_nil, or_false] at hx
        rcases hx with rfl | rfl | rfl | rfl <;> fin_cases i <;>
          simp [flat, z0, z1, p0, p1]
      · intro i
        refine ⟨⟨flat p, by simp [all2], rfl⟩,
          ⟨flat fun i => p i + a 0 i + a 1 i, by simp [all2], ?_⟩⟩
        fin_cases i <;> simp [flat, z0, z1]
  cases T with
  | uniform => exact hU hT
  | rectilinear => exact hU hT
  | orientedUniform => exact hC
  | orientedRectilinear => exact hC
  | curvilinear => exact hC

/-- C135: the bounds of a three-dimensional cell contain its corners and are tight. -/
theorem C135_bounds_space {X : Coords K} {f : Tup 3 → Fin 3 → K} (hX : Holds X f) {cell : Tup 3}
    (hc : CellIn 3 X.ext cell) {p : Fin 3 → K} {a : Fin 3 → Fin 3 → K}
    (hp : IsCell (by decide) f cell p a) (T : GeoType) (hT : Fits T a)
    (hpos : Axes a → ∀ i, 0 ≤ a i i) : ∃ B, cellBounds T 3 X cell = some (full B) ∧
      Geo.Spec.Bounding (all3 p a) B := by
  have hC : ∃ B, boundsCurvilinear3 X cell = some (full B) ∧
      Geo.Spec.Bounding (all3 p a) B := by
    refine ⟨(all3 p a).foldl KBox.extend (emptyBox 3), ?_, fold_empty (by decide) _ _⟩
    unfold boundsCurvilinear3
    rw [corners3_eq hX hc hp]
    simp only [Option.bind_eq_bind, Option.bind_some, all3, List.foldl_cons, List.foldl_nil]
    rfl
  have hU : Axes a → ∃ B, boundsUniform3 X cell = some (full B) ∧
      Geo.Spec.Bounding (all3 p a) B := by
    intro ha
    obtain ⟨h0, h1⟩ := upper3_eq hX hc hp ha
    refine ⟨⟨![p 0, p 1, p 2], ![p 0 + a 0 0, p 1 + a 1 1, p 2 + a 2 2]⟩, ?_, ?_⟩
    · unfold boundsUniform3
      rw [h0, h1]
      rfl
    · have p0 := hpos ha 0
      have p1 := hpos ha 1
      have p2 := hpos ha 2
      have z01 := ha 0 1 (by decide)
      have z02 := ha 0 2 (by decide)
      have z10 := ha 1 0 (by decide)
      have z12 := ha 1 2 (by decide)
      have z20 := ha 2 0 (by decide)
      have z21 := ha 2 1 (by decide)
      constructor
      · intro x hx i
        simp only [all3, List.mem_cons, List.not_mem_nil, or_false] at hx
        rcases hx with rfl | rfl | rfl | rfl | rfl | rfl | rfl | rfl <;> fin_cases i <;>
          simp [z01, z02, z10, z12, z20, z21, p0, p1, p2]
      · intro i
        refine ⟨⟨p, by simp [all3], ?_⟩,
          ⟨fun i => p i + a 0 i + a 1 i + a 2 i, by simp [all3], ?_⟩⟩
        · fin_cases i <;> rfl
        · fin_cases i <;> simp [z01, z02, z10, z12, z20, z21]
  cases T with
  | uniform => exact hU hT
  | rectilinear => exact hU hT
  | orientedUniform => exact hC
  | orientedRectilinear => exact hC
  | curvilinear => exact hC

/-! ## C135: the property in general -/

/-- Coordinates of the points of a range. -/
def Spec.coords (ext : Rng 3) (f : Tup 3 → Fin 3 → Rat) : Coords Rat :=
  ⟨ext, fun c => ext.points.map fun p => f p c⟩

/-- The property in general: the bounds of a cell are values that the code has written. -/
def C135_statement : Prop :=
  ∀ (T : GeoType) (d : Nat) (X : Coords Rat) (f : Tup 3 → Fin 3 → Rat) (cell : Tup 3),
    0 < d → d ≤ 3 → Holds X f → CellIn d X.ext cell →
    ∃ B, cellBounds T d X cell = some (full B)

/-- The bounds of one-dimensional cells have entries that were never written. -/
theorem C135_false : ¬ C135_statement := by
  intro h
  have hc : CellIn 1 (⟨![0, 0, 0], ![3, 1, 1]⟩ : Rng 3) ![1, 0, 0] := by
    intro i; fin_cases i <;> simp
  have hX : Holds (coords ⟨![0, 0, 0], ![3, 1, 1]⟩ fun p _ => (p 0 : Rat)) fun p _ => (p 0 : Rat) :=
    fun _ => rfl
  obtain ⟨B, hB⟩ := h .uniform 1 _ _ ![1, 0, 0] (by decide) (by decide) hX hc
  obtain ⟨B', hB', _, _, hn⟩ := C135_bounds_line hX hc .uniform
  rw [hB] at hB'
  have := (hn 1 (by decide)).1
  rw [← Option.some.inj hB'] at this
  exact absurd this (by simp [full])

omit [LinearOrder K] [IsStrictOrderedRing K] in
theorem node2_read {X : Coords K} {f : Tup 3 → Fin 3 → K} (hX : Holds X f) {cell : Tup 3}
    (hc : CellIn 2 X.ext cell) (s t : Bool) : ∃ v, X.node2 (![if s then cell 0 + 1 else cell 0,
      if t then cell 1 + 1 else cell 1, 0] : Tup 3) = some v := by
  have hq := pts_corner hc _ (pad_false ![s, t])
  rw [corner2 hc]
  unfold Coords.node2
  rw [at_eq hX 0 hq, at_eq hX 1 hq]
  exact ⟨_, rfl⟩

omit [LinearOrder K] [IsStrictOrderedRing K] in
theorem node3_read {X : Coords K} {f : Tup 3 → Fin 3 → K} (hX : Holds X f) {cell : Tup 3}
    (hc : CellIn 3 X.ext cell) (s t u : Bool) : ∃ v, X.node3 (![if s then cell 0 + 1 else cell 0,
      if t then cell 1 + 1 else cell 1, if u then cell 2 + 1 else cell 2] : Tup 3) = some v := by
  have hq := pts_corner hc _ (pad_false ![s, t, u])
  rw [corner3]
  unfold Coords.node3
  rw [at_eq hX 0 hq, at_eq hX 1 hq, at_eq hX 2 hq]
  exact ⟨_, rfl⟩

/-- The property in two and three dimensions, for cells of any shape.  Missing: one dimension, for
which it is false. -/
theorem C135_partial {X : Coords K} {f : Tup 3 → Fin 3 → K} {cell : Tup 3} {d : Nat}
    (h2 : 2 ≤ d) (h3 : d ≤ 3) (hX : Holds X f) (hc : CellIn d X.ext cell) (T : GeoType) :
    ∃ B, cellBounds T d X cell = some (full B) := by
  obtain rfl | rfl : d = 2 ∨ d = 3 := by omega
  · have hz := hc 2
    simp at hz
    have e0 : cell = ![cell 0, cell 1, 0] := by funext i; fin_cases i <;> simp [hz]
    have e1 : (fun i => cell i + (![1, 1, 0] : Tup 3) i) = ![cell 0 + 1, cell 1 + 1, 0] := by
      funext i; fin_cases i <;> simp [hz]
    obtain ⟨v0, g0⟩ := node2_read hX hc false false
    obtain ⟨v1, g1⟩ := node2_read hX hc true false
    obtain ⟨v2, g2⟩ := node2_read hX hc false true
    obtain ⟨v3, g3⟩ := node2_read hX hc true true
    simp only [Bool.false_eq_true, if_false, if_true] at g0 g1 g2 g3
    have g0' := g0
    rw [← e0] at g0'
    have hU : ∃ B, boundsUniform2 X cell = some (full B) := by
      unfold boundsUniform2
      rw [e1, g0', g3]
      simp only [Option.bind_eq_bind, Option.bind_some]
      exact ⟨_, rfl⟩
    have hC : ∃ B, boundsCurvilinear2 X cell = some (full B) := by
      unfold boundsCurvilinear2 Coords.corners2
      rw [g0, g1, g2, g3]
      simp only [Option.bind_eq_bind, Option.bind_some]
      exact ⟨_, rfl⟩
    cases T with
    | uniform => exact hU
    | rectilinear => exact hU
    | orientedUniform => exact hC
    | orientedRectilinear => exact hC
    | curvilinear => exact hC
  · have e0 : cell = ![cell 0, cell 1, cell 2] := by funext i; fin_cases i <;> rfl
    have e1 : (fun i => cell i + (![1, 1, 1] : Tup 3) i) =
        ![cell 0 + 1, cell 1 + 1, cell 2 + 1] := by
      funext i; fin_cases i <;> rfl
    obtain ⟨v0, g0⟩ := node3_read hX hc false false false
    obtain ⟨v1, g1⟩ := node3_read hX hc true false false
    obtain ⟨v2, g2⟩ := node3_read hX hc false true false
    obtain ⟨v3, g3⟩ := node3_read hX hc true true false
    obtain ⟨v4, g4⟩ := node3_read hX hc false false true
    obtain ⟨v5, g5⟩ := node3_read hX hc true false true
    obtain ⟨v6, g6⟩ := node3_read hX hc false true true
    obtain ⟨v7, g7⟩ := node3_read hX hc true true true
    simp only [Bool.false_eq_true, if_false, if_true] at g0 g1 g2 g3 g4 g5 g6 g7
    have g0' := g0
    rw [← e0] at g0'
    have hU : ∃ B, boundsUniform3 X cell = some (full B) := by
      unfold boundsUniform3
      rw [e1, g0', g7]
      simp only [Option.bind_eq_bind, Option.bind_some]
      exact ⟨_, rfl⟩
    have hC : ∃ B, boundsCurvilinear3 X cell = some (full B) := by
      unfold boundsCurvilinear3 Coords.corners3
      rw [g0, g1, g2, g3, g4, g5, g6, g7]
      simp only [Option.bind_eq_bind, Option.bind_some]
      exact ⟨_, rfl⟩
    cases T with
    | uniform => exact hU
    | rectilinear => exact hU
    | orientedUniform => exact hC
    | orientedRectilinear => exact hC
    | curvilinear => exact hC

/-- A rotated square cell at `(1, 1)` of a grid with `3 × 3` points. -/
example : overlapsCell .orientedUniform 2 (coords ⟨![0, 0, 0], ![3, 3, 1]⟩ fun p c =>
    if c = 0 then (p 0 : Rat) - p 1 else p 0 + p 1) 0 ![1, 1, 0] ![0, 3, 0] = some true ∧
    overlapsCell .curvilinear 2 (coords ⟨![0, 0, 0], ![3, 3, 1]⟩ fun p c =>
    if c = 0 then (p 0 : Rat) - p 1 else p 0 + p 1) 0 ![1, 1, 0] ![1, 2, 0] = some false := by
  decide +kernel

example : CellIn 2 (⟨![0, 0, 0], ![3, 3, 1]⟩ : Rng 3) ![1, 1, 0] ∧
    IsCell (d := 2) (by decide) (fun p c => if c = 0 then (p 0 : Rat) - p 1 else p 0 + p 1) ![1, 1, 0]
      ![0, 2] ![![1, 1], ![-1, 1]] ∧ Fits (K := Rat) .orientedUniform ![![1, 1], ![-1, 1]] ∧
    det2 (K := Rat) ![1, 1] ![-1, 1] ≠ 0 := by
  refine ⟨?_, ?_, ?_, by decide +kernel⟩
  · intro i; fin_cases i <;> simp
  · unfold IsCell; decide +kernel
  · show Geo.Spec.Orthogonal _
    unfold Geo.Spec.Orthogonal; decide +kernel

example : CellIn 3 (⟨![0, 0, 0], ![2, 2, 2]⟩ : Rng 3) ![0, 0, 0] ∧
    IsCell (d := 3) (by decide) (fun p c => if c = 0 then (p 0 : Rat) + p 1 else if c = 1 then 2 * p 1
      else p 2) ![0, 0, 0] ![0, 0, 0] ![![1, 0, 0], ![1, 2, 0], ![0, 0, 1]] ∧
    Fits (K := Rat) .curvilinear ![![1, 0, 0], ![1, 2, 0], ![0, 0, 1]] ∧
    det3 (K := Rat) ![1, 0, 0] ![1, 2, 0] ![0, 0, 1] ≠ 0 := by
  refine ⟨?_, ?_, trivial, by decide +kernel⟩
  · intro i; fin_cases i <;> simp
  · unfold IsCell; decide +kernel

end Ovk.CellOps
