/-
Properties C07, C08, C09, C40, C41: decompositions of point and cell ranges.
-/
import Verif.Lemmas.Decomp
import Verif.Props.Cart
import Mathlib.Data.Fin.VecNotation
import Mathlib.Tactic.SplitIfs
import Mathlib.Tactic.FinCases

namespace Ovk
variable {d : Nat}

/-! ### C07: subregions -/

/-- C07: for every positive number of subregions, the subregions partition the range: a point lies in
the range iff it lies in exactly one subregion, and in no subregion otherwise. -/
theorem C07_partition (dim : Fin d) (r : Rng d) (n : Nat) (hn : 0 < n) :
    ∃ l, createSubregions dim r n = some l ∧ l.length = n ∧
      ∀ p, (Spec.pts r p → ∃! k : Fin l.length, Spec.pts l[k] p) ∧
        ∀ k : Fin l.length, Spec.pts l[k] p → Spec.pts r p := by
  have hn' : n ≠ 0 := by omega
  have hsz : 0 ≤ r.size dim := by unfold Rng.size; omega
  set sub := (r.size dim).tdiv n with hsub
  have hsub' : sub = r.size dim / n := Int.tdiv_eq_ediv_of_nonneg hsz
  set rem := r.size dim - n * sub with hrem
  have h1 := Int.emod_add_mul_ediv (r.size dim) n
  have hr0 : 0 ≤ rem := by
    have := Int.emod_nonneg (r.size dim) (by omega : (n : Int) ≠ 0); rw [← hsub'] at h1; omega
  have hr1 : rem < n := by
    have := Int.emod_lt_of_pos (r.size dim) (by omega : (0 : Int) < n); rw [← hsub'] at h1; omega
  have hs0 : 0 ≤ sub := by rw [hsub']; exact Int.ediv_nonneg hsz (by omega)
  set B : Nat → Int := fun k => r.b dim + sub * k + min rem k with hB
  have hB0 : B 0 = r.b dim := by simp only [hB]; simp; omega
  have hBn : B n = r.b dim + r.size dim := by
    simp only [hB]
    have : sub * (n : Int) = n * sub := Int.mul_comm _ _
    omega
  have hmono : ∀ k, B k ≤ B (k + 1) := by
    intro k; simp only [hB]; push_cast; rw [Int.mul_add]; omega
  set f : Nat → Rng d := fun (k : Nat) =>
    (⟨fun i => if i = dim then r.b dim + sub * k + min rem k else r.b i,
     fun i => if i = dim then r.b dim + sub * (k + 1) + min rem (k + 1) else r.e i⟩ : Rng d) with hf
  have hfp : ∀ k p, Spec.pts (f k) p ↔ (∀ i, i ≠ dim → r.b i ≤ p i ∧ p i < r.e i) ∧
      B k ≤ p dim ∧ p dim < B (k + 1) := by
    intro k p
    simp only [hf, hB, Spec.pts]
    constructor
    · intro h
      refine ⟨fun i hi => by have := h i; simpa [hi] using this, ?_⟩
      have := h dim; simp only [if_true] at this; push_cast; exact this
    · rintro ⟨h, h2⟩ i
      by_cases hi : i = dim
      · subst hi; simp only [if_true]; push_cast at h2; exact h2
      · simpa [hi] using h i hi
  refine ⟨(List.range n).map f, ?_, by simp, ?_⟩
  · unfold createSubregions; rw [if_neg hn']
  · intro p
    have hget : ∀ k : Fin ((List.range n).map f).length, ((List.range n).map f)[k] = f k := by
      intro k; simp
    constructor
    · intro hp
      have hd := hp dim
      have hsize : r.size dim = r.e dim - r.b dim := by unfold Rng.size; omega
      obtain ⟨k, hk, hk2⟩ := exists_step B n (p dim) (by omega) (by omega)
      refine ⟨⟨k, by simpa using hk⟩, ?_, ?_⟩
      · show Spec.pts _ _; rw [hget, hfp]; exact ⟨fun i _ => hp i, hk2⟩
      · intro j hj
        change Spec.pts _ _ at hj; rw [hget, hfp] at hj
        exact Fin.ext (unique_step B hmono hj.2 hk2)
    · intro k hk i
      rw [hget, hfp] at hk
      by_cases hi : i = dim
      · subst hi
        have a : B 0 ≤ B k := mono_step B hmono (Nat.zero_le _)
        have b : B (k + 1) ≤ B n := mono_step B hmono (by have := k.2; simp at this; omega)
        have hpos : r.b i < B n := by omega
        have hsize : r.size i = r.e i - r.b i := by unfold Rng.size at *; omega
        omega
      · exact hk.1 i hi

/-- C07: along the split dimension any two subregion sizes differ by at most one. -/
theorem C07_balanced (dim : Fin d) (r : Rng d) (n : Nat) (l : List (Rng d))
    (h : createSubregions dim r n = some l) :
    ∀ s ∈ l, ∀ t ∈ l, |(s.e dim - s.b dim) - (t.e dim - t.b dim)| ≤ 1 := by
  unfold createSubregions at h
  split at h
  · simp at h
  · obtain rfl := by simpa using h
    have key : ∀ s ∈ (List.range n).map (fun (k : Nat) =>
        (⟨fun i => if i = dim then r.b dim + (r.size dim).tdiv n * k +
            min (r.size dim - n * (r.size dim).tdiv n) k else r.b i,
          fun i => if i = dim then r.b dim + (r.size dim).tdiv n * (k + 1) +
            min (r.size dim - n * (r.size dim).tdiv n) (k + 1) else r.e i⟩ : Rng d)),
        s.e dim - s.b dim = (r.size dim).tdiv n ∨ s.e dim - s.b dim = (r.size dim).tdiv n + 1 := by
      intro s hs
      obtain ⟨k, _, rfl⟩ := List.mem_map.1 hs
      simp only [if_true]
      rw [Int.mul_add]
      omega
    intro s hs t ht
    have a := key s hs
    have b := key t ht
    rw [Int.abs_eq_natAbs]; omega

/-- C07: zero subregions is the one undefined case (division by zero). -/
theorem C07_zero (dim : Fin d) (r : Rng d) : createSubregions dim r 0 = none := rfl

/-- More subregions than points: some are empty, the rest have one layer. -/
example : createSubregions (d := 1) 0 ⟨![-1], ![2]⟩ 5 =
    some [⟨![-1], ![0]⟩, ⟨![0], ![1]⟩, ⟨![1], ![2]⟩, ⟨![2], ![2]⟩, ⟨![2], ![2]⟩] := by decide

/-! ### C08: point and cell decompositions -/

namespace Spec
/-- The cells of an index space of points: a cell is named by its lower corner; its corners are the
points one further in each dimension.  It exists if both ends exist, where the upper end may wrap around
in a periodic dimension that stores each point once. -/
def IsCell (c : Cart d) (p : Tup d) : Prop :=
  ∀ i, c.range.b i ≤ p i ∧
    (if c.periodic i = true ∧ c.storage = .unique then p i < c.range.e i else p i + 1 < c.range.e i)

/-- The point ranges of all processes tile the index space. -/
def Tiles {n : Nat} (c : Cart d) (rs : Fin n → Rng d) : Prop :=
  (∀ k i, c.range.b i ≤ (rs k).b i ∧ (rs k).e i ≤ c.range.e i) ∧
  ∀ p, Spec.pts c.range p → ∃! k, Spec.pts (rs k) p
end Spec

/-- C08: the derived cell index space consists of the cells of the point index space. -/
theorem C08_cell_space (c : Cart d) (p : Tup d) :
    Spec.pts (cartPointToCell c).range p ↔ Spec.IsCell c p := by
  simp only [Spec.pts, Spec.IsCell, cartPointToCell]
  refine forall_congr' fun i => ?_
  split <;> omega

/-- C08: a process owns a cell iff it owns the lower corner. -/
theorem C08_owner (c : Cart d) (r : Rng d) (hr : ∀ i, c.range.b i ≤ r.b i ∧ r.e i ≤ c.range.e i)
    (p : Tup d) : Spec.pts (rangePointToCell c r) p ↔ Spec.IsCell c p ∧ Spec.pts r p := by
  simp only [Spec.pts, Spec.IsCell, rangePointToCell, ← forall_and]
  refine forall_congr' fun i => ?_
  have := hr i
  by_cases h1 : c.periodic i = true ∧ c.storage = .unique
  · simp only [h1, and_self, or_true, if_true]; omega
  · simp only [h1, or_false, if_false]
    split <;> omega

/-- C08: if the point ranges tile the points, the cell ranges tile the cells. -/
theorem C08_tiling {n : Nat} (c : Cart d) (rs : Fin n → Rng d) (h : Spec.Tiles c rs) (p : Tup d) :
    (Spec.IsCell c p → ∃! k, Spec.pts (rangePointToCell c (rs k)) p) ∧
    ∀ k, Spec.pts (rangePointToCell c (rs k)) p → Spec.IsCell c p := by
  constructor
  · intro hp
    have hin : Spec.pts c.range p := by
      intro i; have := hp i; split at this <;> omega
    obtain ⟨k, hk, hu⟩ := h.2 p hin
    refine ⟨k, (C08_owner c _ (h.1 k) p).2 ⟨hp, hk⟩, ?_⟩
    intro j hj
    exact hu j ((C08_owner c _ (h.1 j) p).1 hj).2
  · intro k hk
    exact ((C08_owner c _ (h.1 k) p).1 hk).1

/-- Two processes tiling a periodic (duplicated) times non-periodic space. -/
example : Spec.Tiles exCart (![⟨![0, 0], ![4, 5]⟩, ⟨![4, 0], ![10, 5]⟩] : Fin 2 → Rng 2) := by
  refine ⟨by decide, ?_⟩
  intro p hp
  have h0 := hp 0; have h1 := hp 1
  simp [exCart] at h0 h1
  by_cases h : p 0 < 4
  · refine ⟨0, ?_, ?_⟩
    · intro i; fin_cases i <;> simp <;> omega
    · intro j hj; fin_cases j
      · rfl
      · have := hj 0; simp at this; omega
  · refine ⟨1, ?_, ?_⟩
    · intro i; fin_cases i <;> simp <;> omega
    · intro j hj; fin_cases j
      · have := hj 0; simp at this; omega
      · rfl

/-! ### C09: extended ranges -/

/-- C09: the extended point range contains the local range. -/
theorem C09_contains_local (c : Cart d) (r : Rng d) (p : Tup d) (hp : Spec.pts r p) :
    Spec.pts (gridExtendedRange c r) p := by
  intro i
  have h := hp i
  have h1 : (cellLocalRange c r).b i = r.b i := rfl
  have h2 : r.e i - 1 ≤ (cellLocalRange c r).e i := by
    simp only [cellLocalRange, rangePointToCell]; split <;> omega
  have h3 : (cellExtendedRange c r).b i ≤ (cellLocalRange c r).b i := by
    unfold cellExtendedRange extendLocalRange; dsimp only; split <;> omega
  have h4 : (cellLocalRange c r).e i ≤ (cellExtendedRange c r).e i := by
    unfold cellExtendedRange extendLocalRange; dsimp only; split <;> omega
  simp only [gridExtendedRange, rangeCellToPointAll]
  omega

/-- C09: the extended point range contains every corner of every cell of the extended cell range, and
every point of it is such a corner if the extended cell range is non-empty. -/
theorem C09_contains_vertices (c : Cart d) (r : Rng d) (cell v : Tup d)
    (hc : Spec.pts (cellExtendedRange c r) cell) (hv : ∀ i, v i = cell i ∨ v i = cell i + 1) :
    Spec.pts (gridExtendedRange c r) v := by
  intro i
  have := hc i; have := hv i
  simp only [gridExtendedRange, rangeCellToPointAll]
  omega

theorem C09_only_vertices (c : Cart d) (r : Rng d)
    (hne : ∃ cell, Spec.pts (cellExtendedRange c r) cell) (v : Tup d)
    (hv : Spec.pts (gridExtendedRange c r) v) :
    ∃ cell, Spec.pts (cellExtendedRange c r) cell ∧ ∀ i, v i = cell i ∨ v i = cell i + 1 := by
  rw [exists_pts_iff] at hne
  refine ⟨fun i => if v i < (cellExtendedRange c r).e i then v i else v i - 1, ?_, ?_⟩
  · intro i; have := hv i; have := hne i
    simp only [gridExtendedRange, rangeCellToPointAll] at *
    split <;> omega
  · intro i; simp only; split <;> omega

/-- C09, last part as stated: extension never leaves a non-periodic dimension. -/
def C09_statement : Prop :=
  ∀ (d : Nat) (c : Cart d) (r : Rng d) (n : Int), 0 ≤ n →
    (∀ i, c.range.b i ≤ r.b i ∧ r.b i ≤ r.e i ∧ r.e i ≤ c.range.e i) →
    ∀ i, c.periodic i = false →
      c.range.b i ≤ (extendLocalRange c r n).b i ∧ (extendLocalRange c r n).e i ≤ c.range.e i

/-- C09 is false of the code for extension amounts above one (grids use two): if the neighbouring
process owns a single layer of cells, the extended range sticks out of the index space. -/
theorem C09_false : ¬ C09_statement := by
  intro h
  have := h 1 ⟨⟨![0], ![10]⟩, ![false], .unique⟩ ⟨![1], ![10]⟩ 2 (by decide) (by decide) 0 (by decide)
  exact absurd this (by decide)

/-- C09 (partial): the extension stays inside if the local range starts at the boundary or at least
`n` away from it (and likewise for the end); in particular always for `n ≤ 1`.  Missing: thinner
neighbours with `n ≥ 2` (`C09_false`). -/
theorem C09_extension_inside_partial (c : Cart d) (r : Rng d) (n : Int)
    (hin : ∀ i, c.range.b i ≤ r.b i ∧ r.e i ≤ c.range.e i)
    (hb : ∀ i, r.b i = c.range.b i ∨ c.range.b i + n ≤ r.b i)
    (he : ∀ i, r.e i = c.range.e i ∨ r.e i + n ≤ c.range.e i) (i : Fin d)
    (hp : c.periodic i = false) :
    c.range.b i ≤ (extendLocalRange c r n).b i ∧ (extendLocalRange c r n).e i ≤ c.range.e i := by
  have := hin i; have := hb i; have := he i
  simp only [extendLocalRange, hp, Bool.false_eq_true, or_false]
  constructor <;> split <;> omega

/-- C09: the exact set of points added by an extension in one dimension: those within `n` of the local
range, on the sides that are not a non-periodic boundary. -/
theorem C09_extension_exact (c : Cart d) (r : Rng d) (n : Int) (p : Tup d) :
    Spec.pts (extendLocalRange c r n) p ↔ ∀ i,
      (r.b i - (if c.periodic i = false ∧ r.b i = c.range.b i then 0 else n) ≤ p i ∧
       p i < r.e i + (if c.periodic i = false ∧ r.e i = c.range.e i then 0 else n)) := by
  simp only [Spec.pts, extendLocalRange]
  refine forall_congr' fun i => ?_
  cases hp : c.periodic i
  · simp only [Bool.false_eq_true, or_false, true_and]
    by_cases h1 : r.b i = c.range.b i <;> by_cases h2 : r.e i = c.range.e i <;> simp [h1, h2]
  · simp

example : gridExtendedRange exCart ⟨![4, 0], ![10, 5]⟩ = ⟨![2, 0], ![12, 5]⟩ := by decide
example : gridExtendedRange exCart ⟨![4, 0], ![7, 3]⟩ = ⟨![2, 0], ![10, 6]⟩ := by decide

/-! ### C41: cell cover range -/

/-- C41: for a non-empty cell range inside a proper cell index space (each cell stored once), the cover
range contains, up to periodic images, exactly the existing cells that have the lower corner of a cell of
the range as a vertex. -/
theorem C41_cover (c : Cart d) (hs : c.storage = .unique) (r : Rng d)
    (hr : ∀ i, c.range.b i ≤ r.b i ∧ r.b i < r.e i ∧ r.e i ≤ c.range.e i) (cell : Tup d) :
    (∃ img, Spec.SamePoint c cell img ∧ Spec.pts (makeCellCoverRange c r) img) ↔
    (∃ img, Spec.SamePoint c cell img ∧ Spec.pts c.range img) ∧
      ∃ v w, (∀ i, v i = cell i ∨ v i = cell i + 1) ∧ Spec.SamePoint c v w ∧ Spec.pts r w := by
  have hlen : ∀ i, Spec.periodLen c i = c.range.e i - c.range.b i := by
    intro i; simp [Spec.periodLen, hs]
  simp only [Spec.SamePoint, Spec.pts, ← forall_and, hlen]
  rw [← Classical.skolem (p := fun i x => (if c.periodic i = true then
    ∃ k : Int, x = cell i + k * (c.range.e i - c.range.b i) else x = cell i) ∧
    (makeCellCoverRange c r).b i ≤ x ∧ x < (makeCellCoverRange c r).e i)]
  have e2 : (∃ img : Tup d, ∀ x, (if c.periodic x = true then
      ∃ k : Int, img x = cell x + k * (c.range.e x - c.range.b x) else img x = cell x) ∧
      c.range.b x ≤ img x ∧ img x < c.range.e x) ↔ ∀ x, ∃ y : Int, (if c.periodic x = true then
      ∃ k : Int, y = cell x + k * (c.range.e x - c.range.b x) else y = cell x) ∧
      c.range.b x ≤ y ∧ y < c.range.e x := by
    rw [Classical.skolem]
  have e3 : (∃ v w : Tup d, ∀ x, (v x = cell x ∨ v x = cell x + 1) ∧ (if c.periodic x = true then
      ∃ k : Int, w x = v x + k * (c.range.e x - c.range.b x) else w x = v x) ∧
      r.b x ≤ w x ∧ w x < r.e x) ↔ ∀ x, ∃ a b : Int, (a = cell x ∨ a = cell x + 1) ∧
      (if c.periodic x = true then ∃ k : Int, b = a + k * (c.range.e x - c.range.b x) else b = a) ∧
      r.b x ≤ b ∧ b < r.e x := by
    constructor
    · rintro ⟨v, w, h⟩ x; exact ⟨v x, w x, h x⟩
    · intro h
      choose v w h' using h
      exact ⟨v, w, h'⟩
  rw [e2, e3, ← forall_and]
  refine forall_congr' fun i => ?_
  have hri := hr i
  cases hp : c.periodic i
  · simp only [Bool.false_eq_true, if_false, makeCellCoverRange, hp, false_and, or_false]
    constructor
    · rintro ⟨x, rfl, h1, h2⟩
      refine ⟨⟨_, rfl, ?_, by omega⟩, ?_⟩
      · split at h1 <;> omega
      · split at h1
        · by_cases hx : cell i < r.b i
          · exact ⟨cell i + 1, _, .inr rfl, rfl, by omega, by omega⟩
          · exact ⟨cell i, _, .inl rfl, rfl, by omega, by omega⟩
        · exact ⟨cell i, _, .inl rfl, rfl, by omega, by omega⟩
    · rintro ⟨⟨x, rfl, h1, h2⟩, a, b, ha, rfl, h3, h4⟩
      refine ⟨_, rfl, ?_, by omega⟩
      split <;> omega
  · simp only [if_true, makeCellCoverRange, hp, true_and]
    set P := c.range.e i - c.range.b i with hP
    constructor
    · rintro ⟨x, ⟨k, hk⟩, h1, h2⟩
      refine ⟨?_, ?_⟩
      · by_cases hx : x < c.range.b i
        · exact ⟨x + P, ⟨k + 1, by rw [hk]; ring⟩, by split at h1 <;> omega, by omega⟩
        · exact ⟨x, ⟨k, hk⟩, by omega, by omega⟩
      · by_cases hx : x < r.b i
        · exact ⟨cell i + 1, x + 1, .inr rfl, ⟨k, by omega⟩, by split at h1 <;> omega, by omega⟩
        · exact ⟨cell i, x, .inl rfl, ⟨k, by omega⟩, by omega, by omega⟩
    · rintro ⟨_, a, b, ha, ⟨k, hk⟩, h3, h4⟩
      rcases ha with rfl | rfl
      · exact ⟨b, ⟨k, by omega⟩, by split <;> omega, by omega⟩
      · by_cases hb : r.b i ≤ b - 1
        · exact ⟨b - 1, ⟨k, by omega⟩, by split <;> omega, by omega⟩
        · by_cases hcond : r.b i > c.range.b i ∨ r.e i ≠ c.range.e i
          · exact ⟨b - 1, ⟨k, by omega⟩, by rw [if_pos hcond]; omega, by omega⟩
          · exact ⟨b - 1 + P, ⟨k + 1, by rw [hk]; ring⟩, by rw [if_neg hcond]; omega, by omega⟩

example : makeCellCoverRange (cartPointToCell exCart) ⟨![0, 0], ![4, 4]⟩ = ⟨![-1, 0], ![4, 4]⟩ := by
  decide
example : makeCellCoverRange (cartPointToCell exCart) ⟨![0, 2], ![9, 4]⟩ = ⟨![0, 1], ![9, 4]⟩ := by
  decide

/-! ### C40: subdivision into fragments -/

theorem subdivide_spec (active : Tup (d + 1) → Bool) (compact : Rng (d + 1) → Bool) :
    ∀ (fuel : Nat) (r : Rng (d + 1)),
      (∀ f ∈ subdivide active compact fuel r, ∀ p, Spec.pts f p → Spec.pts r p) ∧
      (∀ p, Spec.pts r p → active p = true → ∃ f ∈ subdivide active compact fuel r, Spec.pts f p) ∧
      (subdivide active compact fuel r).Pairwise (fun f g => ¬ ∃ p, Spec.pts f p ∧ Spec.pts g p) ∧
      (∀ f ∈ subdivide active compact fuel r, ∃ p, Spec.pts f p ∧ active p = true) := by
  have leaf : ∀ r : Rng (d + 1),
      (∀ f ∈ (if r.points.any active then [r] else []), ∀ p, Spec.pts f p → Spec.pts r p) ∧
      (∀ p, Spec.pts r p → active p = true →
        ∃ f ∈ (if r.points.any active then [r] else []), Spec.pts f p) ∧
      (if r.points.any active then [r] else []).Pairwise
        (fun f g => ¬ ∃ p, Spec.pts f p ∧ Spec.pts g p) ∧
      (∀ f ∈ (if r.points.any active then [r] else []), ∃ p, Spec.pts f p ∧ active p = true) := by
    intro r
    split
    · rename_i h
      refine ⟨by simp, by simp_all, by simp, ?_⟩
      intro f hf
      obtain rfl : f = r := by simpa using hf
      obtain ⟨p, hp, ha⟩ := List.any_eq_true.1 h
      exact ⟨p, (f.mem_points p).1 hp, ha⟩
    · rename_i h
      refine ⟨by simp, ?_, by simp, by simp⟩
      intro p hp ha
      exact absurd (List.any_eq_true.2 ⟨p, (r.mem_points p).2 hp, ha⟩) h
  intro fuel
  induction fuel with
  | zero => intro r; unfold subdivide; exact leaf r
  | succ n ih =>
    intro r
    unfold subdivide
    cases hcomp : compact r
    · simp only
      set i := longestDim r
      set s := (r.b i + r.e i).tdiv 2
      have L := ih ⟨r.b, Function.update r.e i s⟩
      have R := ih ⟨Function.update r.b i s, r.e⟩
      set ll := subdivide active compact n ⟨r.b, Function.update r.e i s⟩
      set rr := subdivide active compact n ⟨Function.update r.b i s, r.e⟩
      have hb : r.b i ≤ r.e i → r.b i ≤ s ∧ s ≤ r.e i := tdiv_two_bounds
      have hl : ∀ p, Spec.pts (⟨r.b, Function.update r.e i s⟩ : Rng (d + 1)) p ↔
          (∀ j, j ≠ i → r.b j ≤ p j ∧ p j < r.e j) ∧ r.b i ≤ p i ∧ p i < s := by
        intro p
        constructor
        · intro h
          refine ⟨fun j hj => by have := h j; simpa [Function.update, hj] using this, ?_⟩
          have := h i; simpa using this
        · rintro ⟨h1, h2⟩ j
          by_cases hj : j = i
          · subst hj; simpa using h2
          · simpa [Function.update, hj] using h1 j hj
      have hr : ∀ p, Spec.pts (⟨Function.update r.b i s, r.e⟩ : Rng (d + 1)) p ↔
          (∀ j, j ≠ i → r.b j ≤ p j ∧ p j < r.e j) ∧ s ≤ p i ∧ p i < r.e i := by
        intro p
        constructor
        · intro h
          refine ⟨fun j hj => by have := h j; simpa [Function.update, hj] using this, ?_⟩
          have := h i; simpa using this
        · rintro ⟨h1, h2⟩ j
          by_cases hj : j = i
          · subst hj; simpa using h2
          · simpa [Function.update, hj] using h1 j hj
      -- an inverted range only ever produces empty leaves, so the bounds can be assumed
      have inv : r.e i < r.b i → ∀ p, ¬ Spec.pts (⟨r.b, Function.update r.e i s⟩ : Rng (d + 1)) p ∧
          ¬ Spec.pts (⟨Function.update r.b i s, r.e⟩ : Rng (d + 1)) p := by
        intro hlt p
        have hs : r.e i ≤ s ∧ s ≤ r.b i := by
          have := tdiv_two_bounds (Int.le_of_lt hlt); rw [Int.add_comm] at this; exact this
        rw [hl, hr]; constructor <;> rintro ⟨_, h1, h2⟩ <;> omega
      refine ⟨?_, ?_, ?_, ?_⟩
      · intro f hf p hp
        rcases List.mem_append.1 hf with h | h
        · have hp' := L.1 f h p hp
          by_cases hlt : r.e i < r.b i
          · exact absurd hp' (inv hlt p).1
          · have hp := (hl p).1 hp'
            intro j
            by_cases hj : j = i
            · subst hj; omega
            · exact hp.1 j hj
        · have hp' := R.1 f h p hp
          by_cases hlt : r.e i < r.b i
          · exact absurd hp' (inv hlt p).2
          · have hp := (hr p).1 hp'
            intro j
            by_cases hj : j = i
            · subst hj; omega
            · exact hp.1 j hj
      · intro p hp ha
        by_cases hs : p i < s
        · obtain ⟨f, hf, hfp⟩ := L.2.1 p ((hl p).2 ⟨fun j _ => hp j, (hp i).1, hs⟩) ha
          exact ⟨f, List.mem_append.2 (.inl hf), hfp⟩
        · obtain ⟨f, hf, hfp⟩ := R.2.1 p ((hr p).2 ⟨fun j _ => hp j, by omega, (hp i).2⟩) ha
          exact ⟨f, List.mem_append.2 (.inr hf), hfp⟩
      · rw [List.pairwise_append]
        refine ⟨L.2.2.1, R.2.2.1, ?_⟩
        rintro f hf g hg ⟨p, hpf, hpg⟩
        have a := (hl p).1 (L.1 f hf p hpf)
        have b := (hr p).1 (R.1 g hg p hpg)
        omega
      · intro f hf
        rcases List.mem_append.1 hf with h | h
        · exact L.2.2.2 f h
        · exact R.2.2.2 f h
    · exact leaf r

theorem foldl_longest (r : Rng (d + 1)) : ∀ (l : List (Fin (d + 1))) (b : Fin (d + 1)),
    let m := l.foldl (fun best i => if r.size i > r.size best then i else best) b
    r.size b ≤ r.size m ∧ ∀ j ∈ l, r.size j ≤ r.size m
  | [], _ => ⟨le_refl _, by simp⟩
  | i :: l, b => by
    have h := foldl_longest r l (if r.size i > r.size b then i else b)
    simp only [List.foldl_cons] at h ⊢
    refine ⟨?_, fun j hj => ?_⟩
    · refine le_trans ?_ h.1
      split_ifs <;> omega
    · rcases List.mem_cons.1 hj with rfl | hj
      · refine le_trans ?_ h.1
        split_ifs <;> omega
      · exact h.2 j hj

/-- `f` comes from `r` by cutting it in half `k` times, each time across a longest dimension. -/
inductive Spec.Halved : Nat → Rng (d + 1) → Rng (d + 1) → Prop
  | refl (r) : Spec.Halved 0 r r
  | lower {k r f} (j : Fin (d + 1)) (s : Int) (hj : ∀ i, r.size i ≤ r.size j) (hs : 2 * s ≤ r.b j + r.e j + 1)
      (hs' : r.b j + r.e j ≤ 2 * s + 1) : Spec.Halved k ⟨r.b, Function.update r.e j s⟩ f → Spec.Halved (k + 1) r f
  | upper {k r f} (j : Fin (d + 1)) (s : Int) (hj : ∀ i, r.size i ≤ r.size j) (hs : 2 * s ≤ r.b j + r.e j + 1)
      (hs' : r.b j + r.e j ≤ 2 * s + 1) : Spec.Halved k ⟨Function.update r.b j s, r.e⟩ f → Spec.Halved (k + 1) r f

/-- C40: fragments are split along a longest dimension. -/
theorem C40_longest (r : Rng (d + 1)) (j : Fin (d + 1)) : r.size j ≤ r.size (longestDim r) :=
  (foldl_longest r _ 0).2 j (List.mem_finRange j)

/-- C40: fragments lie inside the range, contain every active cell in exactly one fragment, and each
contains an active cell, for every leaf criterion and depth. -/
theorem C40_fragments (active : Tup (d + 1) → Bool) (compact : Rng (d + 1) → Bool) (depth : Nat)
    (r : Rng (d + 1)) :
    (∀ f ∈ subdivide active compact depth r, (∀ p, Spec.pts f p → Spec.pts r p) ∧
      ∃ p, Spec.pts f p ∧ active p = true) ∧
    (∀ p, Spec.pts r p → active p = true →
      ∃! k : Fin (subdivide active compact depth r).length,
        Spec.pts (subdivide active compact depth r)[k] p) := by
  have h := subdivide_spec active compact depth r
  refine ⟨fun f hf => ⟨h.1 f hf, h.2.2.2 f hf⟩, ?_⟩
  intro p hp ha
  obtain ⟨f, hf, hfp⟩ := h.2.1 p hp ha
  obtain ⟨k, hk, rfl⟩ := List.getElem_of_mem hf
  refine ⟨⟨k, hk⟩, hfp, ?_⟩
  intro j hj
  have hpw := List.pairwise_iff_getElem.1 h.2.2.1
  apply Fin.ext
  rcases Nat.lt_trichotomy j k with hlt | he | hlt
  · exact absurd ⟨p, hj, hfp⟩ (hpw j k j.2 hk hlt)
  · exact he
  · exact absurd ⟨p, hfp, hj⟩ (hpw k j hk j.2 hlt)

/-- C40: a fragment comes from the range by repeated halving across a longest dimension, and halving goes on until the
fragment meets the criterion or the greatest depth is reached. -/
theorem C40_halved (active : Tup (d + 1) → Bool) (compact : Rng (d + 1) → Bool) : ∀ (depth : Nat) (r : Rng (d + 1)),
    ∀ f ∈ subdivide active compact depth r, ∃ k ≤ depth, Spec.Halved k r f ∧ (compact f = true ∨ k = depth)
  | depth, r, f, hf => by
    unfold subdivide at hf
    split at hf
    · split_ifs at hf
      · rw [List.mem_singleton] at hf; subst hf
        exact ⟨0, le_refl _, .refl _, .inr rfl⟩
      · simp at hf
    · rename_i hc
      split_ifs at hf
      · rw [List.mem_singleton] at hf; subst hf
        exact ⟨0, Nat.zero_le _, .refl _, .inl hc⟩
      · simp at hf
    · rename_i fuel hc
      have key : ∀ x : Int, 2 * x.tdiv 2 ≤ x + 1 ∧ x ≤ 2 * x.tdiv 2 + 1 := by
        intro x
        have e1 := Int.tmod_add_mul_tdiv x 2
        have e2 := Int.tmod_lt_of_pos x (b := 2) (by omega)
        have e3 := Int.lt_tmod_of_pos x (b := 2) (by omega)
        omega
      have h1 := (key (r.b (longestDim r) + r.e (longestDim r))).1
      have h2 := (key (r.b (longestDim r) + r.e (longestDim r))).2
      rcases List.mem_append.1 hf with h | h
      · obtain ⟨k, hk, hh, hc⟩ := C40_halved active compact fuel _ f h
        exact ⟨k + 1, by omega, .lower _ _ (C40_longest r) h1 h2 hh, hc.imp id fun e => by omega⟩
      · obtain ⟨k, hk, hh, hc⟩ := C40_halved active compact fuel _ f h
        exact ⟨k + 1, by omega, .upper _ _ (C40_longest r) h1 h2 hh, hc.imp id fun e => by omega⟩

example : subdivide (d := 0) (fun p => decide (p 0 ≠ 1)) (fun r => decide (r.size 0 ≤ 1)) 3
    ⟨![-2], ![3]⟩ = [⟨![-2], ![-1]⟩, ⟨![-1], ![0]⟩, ⟨![0], ![1]⟩, ⟨![2], ![3]⟩] := by decide +kernel

end Ovk
