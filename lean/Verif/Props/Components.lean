/-
Properties C15, C16: connected components and flood fill.
-/
import Verif.Lemmas.ComponentsGlobal
import Verif.Props.Cart
import Verif.Props.Decomp
import Mathlib.Data.List.FinRange

namespace Ovk
open Relation CC

namespace Spec
/-- Two points of a grid are neighbours if they differ by at most one in every dimension, up to
periodicity. -/
def Adjacent {d : Nat} (c : Cart d) (p q : Tup d) : Prop :=
  pts c.range p ∧ pts c.range q ∧
    ∃ x : Tup d, (∀ i, p i - 1 ≤ x i ∧ x i ≤ p i + 1) ∧ SamePoint c x q

/-- Joined by a chain of neighbours all having the same mask value. -/
def Joined {d : Nat} (c : Cart d) (mask : Tup d → Bool) : Tup d → Tup d → Prop :=
  EqvGen fun p q => Adjacent c p q ∧ mask p = mask q

/-- An extended range around a local range offers every neighbour of a local point that exists, and
none that does not. -/
def Offers {d : Nat} (c : Cart d) (loc ext : Rng d) : Prop :=
  ∀ p, pts loc p → ∀ x : Tup d, (∀ i, p i - 1 ≤ x i ∧ x i ≤ p i + 1) →
    (pts ext x ↔ ∃ q, pts c.range q ∧ SamePoint c x q)
end Spec

variable {d : Nat}

theorem Rng.nodup_points : ∀ {d : Nat} (r : Rng d), r.points.Nodup
  | 0, r => by simp [Rng.points]
  | d + 1, r => by
    unfold Rng.points
    rw [List.nodup_flatMap]
    refine ⟨fun k _ => ?_, ?_⟩
    · refine (Rng.nodup_points _).map ?_
      intro a b h
      funext i
      have := congrFun h i.castSucc
      simpa using this
    · have := nodup_intRange (r.b (Fin.last d)) (r.e (Fin.last d))
      refine List.Pairwise.imp ?_ (List.nodup_iff_pairwise_ne.1 this)
      intro a b hab x ha hb
      simp only [List.mem_map] at ha hb
      obtain ⟨t, -, rfl⟩ := ha
      obtain ⟨u, -, h⟩ := hb
      have := congrFun h (Fin.last d)
      simp at this
      exact hab this.symm

theorem canonical_in_range {c : Cart d} (hc : Spec.Proper c) (hs : c.storage = .unique) {x q : Tup d}
    (hq : Spec.pts c.range q) (h : Spec.SamePoint c x q) : c.periodicAdjust x = q := by
  have h1 := (C03_canonical c hc x q).2 h
  rw [h1]
  have h2 := C03_same_point c hc q
  funext i
  have h3 := h2 i
  by_cases hp : c.periodic i = true
  · simp only [hp, if_true] at h3
    obtain ⟨k, hk⟩ := h3
    have a := C03_first_period c hc q i hp
    have e : Spec.periodLen c i = c.range.e i - c.range.b i := by simp [Spec.periodLen, hs]
    rw [hk] at a
    have b := hq i
    have : k = 0 := image_unique (a := c.range.b i) (P := Spec.periodLen c i) (x := q i)
      b.1 (by omega) a.1 a.2
    rw [hk, this]; omega
  · simp only [hp] at h3; simpa using h3

/-- What the loops of all processes of a grid visit. -/
def gridProcs {n : Nat} (group : Rng d → List (List (Tup d))) (c : Cart d) (loc ext : Fin n → Rng d) :
    List (Proc (Tup d)) :=
  (List.finRange n).map fun k => gridProc group c (loc k) (ext k)

section
variable {n : Nat} {group : Rng d → List (List (Tup d))} {c : Cart d} {loc ext : Fin n → Rng d}

theorem mem_lnbrs (hg : ∀ r, (group r).flatten = r.points) (r e : Rng d) (p q : Tup d) :
    q ∈ (gridProc group c r e).lnbrs p ↔ Spec.pts r q ∧ ∀ i, p i - 1 ≤ q i ∧ q i ≤ p i + 1 := by
  show q ∈ (group _).flatten ↔ _
  rw [hg, Rng.mem_points]
  simp only [intersectRanges, box, Spec.pts]
  constructor
  · intro h; exact ⟨fun i => by have := h i; omega, fun i => by have := h i; omega⟩
  · rintro ⟨h1, h2⟩ i; have := h1 i; have := h2 i; omega

theorem mem_enbrs (r e : Rng d) (p q : Tup d) :
    q ∈ (gridProc group c r e).enbrs p ↔ ∃ x, Spec.pts e x ∧ (∀ i, p i - 1 ≤ x i ∧ x i ≤ p i + 1) ∧
      ¬ Spec.pts r x ∧ c.periodicAdjust x = q := by
  simp only [gridProc, List.mem_map, List.mem_filter, Rng.mem_points, intersectRanges, box,
    Bool.not_eq_true', ← Bool.not_eq_true, contains_iff_pts]
  constructor
  · rintro ⟨x, ⟨h1, h2⟩, h3⟩
    exact ⟨x, fun i => by have := h1 i; omega, fun i => by have := h1 i; omega, h2, h3⟩
  · rintro ⟨x, h1, h2, h3, h4⟩
    exact ⟨x, ⟨fun i => by have := h1 i; have := h2 i; omega, h3⟩, h4⟩

theorem gridProcs_get (k : Nat) (pr : Proc (Tup d)) (h : (gridProcs group c loc ext)[k]? = some pr) :
    ∃ hk : k < n, pr = gridProc group c (loc ⟨k, hk⟩) (ext ⟨k, hk⟩) := by
  unfold gridProcs at h
  rw [List.getElem?_map] at h
  obtain ⟨j, hj, rfl⟩ := Option.map_eq_some_iff.1 h
  obtain ⟨hk, hj⟩ := List.getElem?_eq_some_iff.1 hj
  simp only [List.length_finRange] at hk
  simp only [List.getElem_finRange] at hj
  exact ⟨hk, by rw [← hj]; rfl⟩

theorem mem_gridProcs (pr : Proc (Tup d)) :
    pr ∈ gridProcs group c loc ext ↔ ∃ k, pr = gridProc group c (loc k) (ext k) := by
  simp [gridProcs, eq_comm]

theorem mem_loc (r e : Rng d) (p : Tup d) : p ∈ (gridProc group c r e).loc ↔ Spec.pts r p :=
  Rng.mem_points r p

theorem tiles_in_range (ht : Spec.Tiles c loc) (k : Fin n) {p : Tup d} (hp : Spec.pts (loc k) p) :
    Spec.pts c.range p := by
  intro i; have := ht.1 k i; have := hp i; omega

theorem grid_owned (ht : Spec.Tiles c loc) (p : Tup d) :
    Owned (gridProcs group c loc ext) p ↔ Spec.pts c.range p := by
  constructor
  · rintro ⟨pr, hpr, hp⟩
    obtain ⟨k, rfl⟩ := (mem_gridProcs pr).1 hpr
    exact tiles_in_range ht k ((mem_loc _ _ _).1 hp)
  · intro hp
    obtain ⟨k, hk, -⟩ := ht.2 p hp
    exact ⟨_, (mem_gridProcs _).2 ⟨k, rfl⟩, (mem_loc _ _ _).2 hk⟩

theorem grid_ok (hg : ∀ r, (group r).flatten = r.points) (hc : Spec.Proper c)
    (hs : c.storage = .unique) (ht : Spec.Tiles c loc)
    (he : ∀ k, Spec.Offers c (loc k) (ext k)) : Procs.OK (gridProcs group c loc ext) := by
  refine ⟨?_, ?_, ?_⟩
  · intro pr hpr
    obtain ⟨k, rfl⟩ := (mem_gridProcs pr).1 hpr
    refine ⟨Rng.nodup_points _, ?_, ?_⟩
    · intro p hp
      exact (mem_lnbrs hg _ _ _ _).2 ⟨(mem_loc _ _ _).1 hp, fun i => by omega⟩
    · intro p _ q hq
      exact (mem_loc _ _ _).2 ((mem_lnbrs hg _ _ _ _).1 hq).1
  · intro r r' pr pr' p hr hr' hp hp'
    obtain ⟨k1, rfl⟩ := gridProcs_get r pr hr
    obtain ⟨k2, rfl⟩ := gridProcs_get r' pr' hr'
    have h1 := (mem_loc _ _ _).1 hp
    have h2 := (mem_loc _ _ _).1 hp'
    obtain ⟨k, -, hu⟩ := ht.2 p (tiles_in_range ht _ h1)
    have := (hu _ h1).trans (hu _ h2).symm
    exact congrArg Fin.val this
  · intro pr hpr p hp q hq
    obtain ⟨k, rfl⟩ := (mem_gridProcs pr).1 hpr
    obtain ⟨x, hx, hpx, -, rfl⟩ := (mem_enbrs _ _ _ _).1 hq
    obtain ⟨q, hq, hxq⟩ := (he k p ((mem_loc _ _ _).1 hp) x hpx).1 hx
    rw [canonical_in_range hc hs hq hxq]
    exact (grid_owned ht q).2 hq

theorem grid_edge (hg : ∀ r, (group r).flatten = r.points) (hc : Spec.Proper c)
    (hs : c.storage = .unique) (ht : Spec.Tiles c loc)
    (he : ∀ k, Spec.Offers c (loc k) (ext k)) (mask : Tup d → Bool) (p q : Tup d) :
    GEdge mask (gridProcs group c loc ext) p q ↔ Spec.Adjacent c p q ∧ mask p = mask q := by
  constructor
  · rintro ⟨pr, hpr, hp, hq, hm⟩
    obtain ⟨k, rfl⟩ := (mem_gridProcs pr).1 hpr
    have hp := (mem_loc _ _ _).1 hp
    refine ⟨⟨tiles_in_range ht k hp, ?_⟩, hm⟩
    rcases hq with hq | hq
    · obtain ⟨h1, h2⟩ := (mem_lnbrs hg _ _ _ _).1 hq
      exact ⟨tiles_in_range ht k h1, q, h2, samePoint_refl c q⟩
    · obtain ⟨x, hx, hpx, -, rfl⟩ := (mem_enbrs _ _ _ _).1 hq
      obtain ⟨q, hq, hxq⟩ := (he k p hp x hpx).1 hx
      rw [canonical_in_range hc hs hq hxq]
      exact ⟨hq, x, hpx, hxq⟩
  · rintro ⟨⟨hp, hq, x, hpx, hxq⟩, hm⟩
    obtain ⟨k, hk, -⟩ := ht.2 p hp
    refine ⟨_, (mem_gridProcs _).2 ⟨k, rfl⟩, (mem_loc _ _ _).2 hk, ?_, hm⟩
    have hcan := canonical_in_range hc hs hq hxq
    by_cases hx : Spec.pts (loc k) x
    · left
      have := canonical_in_range hc hs (tiles_in_range ht k hx) (samePoint_refl c x)
      rw [hcan] at this
      subst this
      exact (mem_lnbrs hg _ _ _ _).2 ⟨hx, hpx⟩
    · right
      exact (mem_enbrs _ _ _ _).2 ⟨x, (he k p hk x hpx).2 ⟨q, hq, hxq⟩, hpx, hx, hcan⟩

/-- C15 for any neighbour structure: whatever points a set of processes owns and whatever neighbours
they visit, the call returns, labels are exactly `0 .. NumComponents-1`, and two points have the same
label iff they are joined by a chain of visited neighbours with equal mask values. -/
theorem C15_components {P : Type} [DecidableEq P] (mask : P → Bool) (procs : List (Proc P))
    (hok : Procs.OK procs) :
    ∃ lab num, connectedComponents mask procs = some (lab, num) ∧
      (∀ p, Owned procs p → 0 ≤ lab p ∧ lab p < num) ∧
      (∀ l, 0 ≤ l → l < num → ∃ p, Owned procs p ∧ lab p = l) ∧
      (∀ p q, Owned procs p → Owned procs q → (lab p = lab q ↔ EqvGen (GEdge mask procs) p q)) :=
  connectedComponents_spec mask procs hok

/-- C15 on grids: for every index space (periodic or not, any dimension), every tiling by local ranges,
every extended ranges offering the neighbours and every mask, labels are exactly `0 .. NumComponents-1`
and two points share a label iff they are joined by a chain of neighbours with equal mask values. -/
theorem C15_grid (hg : ∀ r, (group r).flatten = r.points) (hc : Spec.Proper c)
    (hs : c.storage = .unique) (ht : Spec.Tiles c loc) (he : ∀ k, Spec.Offers c (loc k) (ext k))
    (mask : Tup d → Bool) :
    ∃ lab num, connectedComponents mask (gridProcs group c loc ext) = some (lab, num) ∧
      (∀ p, Spec.pts c.range p → 0 ≤ lab p ∧ lab p < num) ∧
      (∀ l, 0 ≤ l → l < num → ∃ p, Spec.pts c.range p ∧ lab p = l) ∧
      (∀ p q, Spec.pts c.range p → Spec.pts c.range q →
        (lab p = lab q ↔ Spec.Joined c mask p q)) := by
  obtain ⟨lab, num, h1, h2, h3, h4⟩ := C15_components mask (gridProcs group c loc ext)
    (grid_ok hg hc hs ht he)
  refine ⟨lab, num, h1, ?_, ?_, ?_⟩
  · intro p hp; exact h2 p ((grid_owned ht p).2 hp)
  · intro l h0 hl
    obtain ⟨p, hp, h⟩ := h3 l h0 hl
    exact ⟨p, (grid_owned ht p).1 hp, h⟩
  · intro p q hp hq
    rw [h4 p q ((grid_owned ht p).2 hp) ((grid_owned ht q).2 hq)]
    constructor
    · exact fun h => CC.eqvGen_imp (fun x y h => (grid_edge hg hc hs ht he mask x y).1 h) h
    · exact fun h => CC.eqvGen_imp (fun x y h => (grid_edge hg hc hs ht he mask x y).2 h) h

end

/-- C15: components do not depend on the decomposition: two runs on different tilings give the same
number of components and the same partition of the points. -/
theorem C15_decomposition_independent {n m : Nat} {group : Rng d → List (List (Tup d))} {c : Cart d}
    {loc ext : Fin n → Rng d} {loc' ext' : Fin m → Rng d}
    (hg : ∀ r, (group r).flatten = r.points) (hc : Spec.Proper c) (hs : c.storage = .unique)
    (ht : Spec.Tiles c loc) (he : ∀ k, Spec.Offers c (loc k) (ext k))
    (ht' : Spec.Tiles c loc') (he' : ∀ k, Spec.Offers c (loc' k) (ext' k))
    (mask : Tup d → Bool) (lab lab' : Tup d → Int) (num num' : Int)
    (h : connectedComponents mask (gridProcs group c loc ext) = some (lab, num))
    (h' : connectedComponents mask (gridProcs group c loc' ext') = some (lab', num')) :
    num = num' ∧ ∀ p q, Spec.pts c.range p → Spec.pts c.range q → (lab p = lab q ↔ lab' p = lab' q) := by
  obtain ⟨l1, n1, e1, a1, b1, c1⟩ := C15_grid hg hc hs ht he mask
  obtain ⟨l2, n2, e2, a2, b2, c2⟩ := C15_grid hg hc hs ht' he' mask
  rw [h] at e1; cases e1
  rw [h'] at e2; cases e2
  refine ⟨?_, fun p q hp hq => (c1 p q hp hq).trans (c2 p q hp hq).symm⟩
  -- a surjection between the label sets in both directions
  have key : ∀ (la lb : Tup d → Int) (na nb : Int),
      (∀ p, Spec.pts c.range p → 0 ≤ la p ∧ la p < na) →
      (∀ l, 0 ≤ l → l < na → ∃ p, Spec.pts c.range p ∧ la p = l) →
      (∀ p, Spec.pts c.range p → 0 ≤ lb p ∧ lb p < nb) →
      (∀ p q, Spec.pts c.range p → Spec.pts c.range q → (lb p = lb q → la p = la q)) →
      na ≤ max nb 0 := by
    intro la lb na nb _ hb ha2 hinj
    by_contra hlt
    have hn : 0 < na := by omega
    -- choose a representative of every label
    choose! f hf1 hf2 using hb
    have hmaps : ∀ x ∈ Finset.Ico (0 : Int) na, lb (f x) ∈ Finset.Ico (0 : Int) nb := by
      intro x hx
      simp only [Finset.mem_Ico] at hx ⊢
      exact ha2 _ (hf1 x hx.1 hx.2)
    have hcard : (Finset.Ico (0 : Int) nb).card < (Finset.Ico (0 : Int) na).card := by
      simp only [Int.card_Ico]; omega
    obtain ⟨x, hx, y, hy, hxy, hl⟩ := Finset.exists_ne_map_eq_of_card_lt_of_maps_to hcard hmaps
    simp only [Finset.mem_Ico] at hx hy
    have := hinj _ _ (hf1 x hx.1 hx.2) (hf1 y hy.1 hy.2) hl
    rw [hf2 x hx.1 hx.2, hf2 y hy.1 hy.2] at this
    exact hxy this
  have k1 := key lab lab' num num' a1 b1 a2
    (fun p q hp hq h => (c1 p q hp hq).2 ((c2 p q hp hq).1 h))
  have k2 := key lab' lab num' num a2 b2 a1
    (fun p q hp hq h => (c2 p q hp hq).2 ((c1 p q hp hq).1 h))
  have n0 : 0 ≤ num := by
    by_contra hneg
    have : ∃ p, Spec.pts c.range p := (exists_pts_iff _).2 (fun i => by
      have := hc i; simp [Spec.periodLen, hs] at this; omega)
    obtain ⟨p, hp⟩ := this
    have := a1 p hp; omega
  have n0' : 0 ≤ num' := by
    by_contra hneg
    have : ∃ p, Spec.pts c.range p := (exists_pts_iff _).2 (fun i => by
      have := hc i; simp [Spec.periodLen, hs] at this; omega)
    obtain ⟨p, hp⟩ := this
    have := a2 p hp; omega
  omega

/-- The extension by `n ≥ 1` points used for partitions offers exactly the neighbours. -/
theorem C15_extension_offers {c : Cart d} (hc : Spec.Proper c) (hs : c.storage = .unique) (r : Rng d)
    (hr : ∀ i, c.range.b i ≤ r.b i ∧ r.e i ≤ c.range.e i) (n : Int) (hn : 1 ≤ n) :
    Spec.Offers c r (extendLocalRange c r n) := by
  intro p hp x hx
  constructor
  · intro h
    refine ⟨c.periodicAdjust x, ?_, C03_same_point c hc x⟩
    intro i
    by_cases hper : c.periodic i = true
    · have := C03_first_period c hc x i hper
      simp only [Spec.periodLen, hs] at this
      simp at this; omega
    · have hper' : c.periodic i = false := by simpa using hper
      rw [c.periodicAdjust_nonperiodic x i hper']
      have h1 := h i
      have h2 := hp i
      have h3 := hx i
      have h4 := hr i
      simp only [extendLocalRange, hper', Bool.false_eq_true, or_false] at h1
      split_ifs at h1 <;> omega
  · rintro ⟨q, hq, hxq⟩ i
    have h2 := hp i
    have h3 := hx i
    have h4 := hr i
    have h5 := hq i
    have h6 := hxq i
    simp only [extendLocalRange]
    by_cases hper : c.periodic i = true
    · simp only [hper, or_true, if_true]; omega
    · simp only [hper] at h6 ⊢
      simp at h6
      simp only [Bool.false_eq_true, or_false]
      split_ifs <;> omega

/-- So does the extended range of a grid. -/
theorem C15_grid_offers {c : Cart d} (hc : Spec.Proper c) (hs : c.storage = .unique) (r : Rng d)
    (hr : ∀ i, c.range.b i ≤ r.b i ∧ r.e i ≤ c.range.e i) :
    Spec.Offers c r (gridExtendedRange c r) := by
  intro p hp x hx
  constructor
  · intro h
    refine ⟨c.periodicAdjust x, ?_, C03_same_point c hc x⟩
    intro i
    by_cases hper : c.periodic i = true
    · have := C03_first_period c hc x i hper
      simp only [Spec.periodLen, hs] at this
      simp at this; omega
    · have hper' : c.periodic i = false := by simpa using hper
      rw [c.periodicAdjust_nonperiodic x i hper']
      have h1 := h i
      have h2 := hp i
      have h3 := hx i
      have h4 := hr i
      simp only [gridExtendedRange, rangeCellToPointAll, cellExtendedRange, extendLocalRange,
        cellLocalRange, rangePointToCell, cartPointToCell, hper', Bool.false_eq_true, or_false,
        false_and, if_false] at h1
      split_ifs at h1 <;> omega
  · rintro ⟨q, hq, hxq⟩ i
    have h2 := hp i
    have h3 := hx i
    have h4 := hr i
    have h5 := hq i
    have h6 := hxq i
    simp only [gridExtendedRange, rangeCellToPointAll, cellExtendedRange, extendLocalRange,
        cellLocalRange, rangePointToCell, cartPointToCell]
    by_cases hper : c.periodic i = true
    · simp only [hper, or_true, if_true, hs, and_self]; omega
    · simp only [hper] at h6 ⊢
      simp at h6
      simp only [Bool.false_eq_true, or_false, false_and, if_false]
      split_ifs <;> omega

theorem groupLast_flatten (r : Rng (d + 1)) : (groupLast r).flatten = r.points := by
  simp [groupLast, Rng.points, List.flatMap_def]

theorem groupOne_flatten (r : Rng d) : (groupOne r).flatten = r.points := by simp [groupOne]

/-- A periodic ring of six points cut between two processes. -/
def exRing : Cart 1 := ⟨⟨![0], ![6]⟩, ![true], .unique⟩
def exRingLoc : Fin 2 → Rng 1 := ![⟨![0], ![2]⟩, ⟨![2], ![6]⟩]

example : Spec.Proper exRing := by unfold Spec.Proper Spec.periodLen exRing; decide
example : Spec.Tiles exRing exRingLoc := by
  refine ⟨by unfold exRing exRingLoc; decide, ?_⟩
  intro p hp
  have h := hp 0
  simp only [exRing, Matrix.cons_val_zero] at h
  by_cases hx : p 0 < 2
  · refine ⟨0, fun i => ?_, ?_⟩
    · have : i = 0 := Subsingleton.elim _ _
      subst this; exact ⟨h.1, hx⟩
    · intro k hk
      fin_cases k
      · rfl
      · have := (hk 0).1
        have e : (exRingLoc 1).b 0 = 2 := rfl
        have : (2 : Int) ≤ p 0 := this
        omega
  · refine ⟨1, fun i => ?_, ?_⟩
    · have : i = 0 := Subsingleton.elim _ _
      subst this; exact ⟨by show (2 : Int) ≤ p 0; omega, h.2⟩
    · intro k hk
      fin_cases k
      · have : p 0 < 2 := (hk 0).2
        omega
      · rfl
example : ∀ k, Spec.Offers exRing (exRingLoc k) (extendLocalRange exRing (exRingLoc k) 1) :=
  fun k => C15_extension_offers (by unfold Spec.Proper Spec.periodLen exRing; decide) rfl _
    (by revert k; unfold exRing exRingLoc; decide) 1 (by omega)
/- Points 5, 0, 1 wrap around and form one component, 2 3 4 another. -/
example : (connectedComponents (fun p => decide (p 0 = 5 ∨ p 0 ≤ 1))
      (gridProcs groupOne exRing exRingLoc fun k => extendLocalRange exRing (exRingLoc k) 1)).map
    (fun r => ([0, 1, 2, 3, 4, 5].map fun x => r.1 ![x], r.2)) = some ([0, 0, 1, 1, 1, 0], 2) := by
  decide +kernel

/-! ### C16 -/

/-- Flood fill for any neighbour structure. -/
theorem flood_spec {P : Type} [DecidableEq P] (mask barrier : P → Bool) (procs : List (Proc P))
    (hok : Procs.OK procs) :
    ∃ out, floodMask mask barrier procs = some out ∧ ∀ p, Owned procs p →
      (out p = true ↔ mask p = true ∨ (barrier p = false ∧ ∃ s, Owned procs s ∧ mask s = true ∧
        barrier s = false ∧ EqvGen (GEdge barrier procs) s p)) := by
  obtain ⟨lab, num, h1, -, -, h4⟩ := C15_components barrier procs hok
  unfold floodMask
  simp only [h1, Option.bind_eq_bind, Option.bind_some]
  refine ⟨_, rfl, ?_⟩
  intro p hp
  have hs : ((List.flatMap Proc.loc procs).filter (fun p => mask p && !barrier p)).any
      (fun q => decide (lab q = lab p)) = true ↔
      ∃ s, Owned procs s ∧ mask s = true ∧ barrier s = false ∧ EqvGen (GEdge barrier procs) s p := by
    simp only [List.any_eq_true, List.mem_filter, List.mem_flatMap, Bool.and_eq_true,
      Bool.not_eq_true', decide_eq_true_eq]
    constructor
    · rintro ⟨s, ⟨ho, h2, h3⟩, h5⟩
      exact ⟨s, ho, h2, h3, (h4 s p ho hp).1 h5⟩
    · rintro ⟨s, ho, h2, h3, h5⟩
      exact ⟨s, ⟨ho, h2, h3⟩, (h4 s p ho hp).2 h5⟩
  rw [← hs]
  split_ifs with hc
  · simp only [Bool.and_eq_true, Bool.not_eq_true'] at hc
    exact ⟨fun _ => .inr hc, fun _ => rfl⟩
  · simp only [Bool.and_eq_true, Bool.not_eq_true'] at hc
    exact ⟨.inl, fun h => h.resolve_right hc⟩

namespace Spec
/-- Joined by a chain of neighbours avoiding the barrier (both ends included). -/
inductive Reaches {d : Nat} (c : Cart d) (barrier : Tup d → Bool) (s : Tup d) : Tup d → Prop
  | start : pts c.range s → barrier s = false → Reaches c barrier s s
  | step {p q : Tup d} : Reaches c barrier s p → (Adjacent c p q ∨ Adjacent c q p) → barrier q = false →
      Reaches c barrier s q
end Spec

theorem Reaches.joined {c : Cart d} {barrier : Tup d → Bool} {s p : Tup d}
    (h : Spec.Reaches c barrier s p) : Spec.Joined c barrier s p ∧ barrier p = false := by
  induction h with
  | start hs h => exact ⟨.refl _, h⟩
  | step _ hadj hq ih =>
    refine ⟨.trans _ _ _ ih.1 ?_, hq⟩
    rcases hadj with h | h
    · exact .rel _ _ ⟨h, by rw [ih.2, hq]⟩
    · exact .symm _ _ (.rel _ _ ⟨h, by rw [ih.2, hq]⟩)

theorem joined_reaches {c : Cart d} {barrier : Tup d → Bool} {p q : Tup d}
    (h : Spec.Joined c barrier p q) : barrier p = barrier q ∧ (barrier p = false →
      ∀ s, (Spec.Reaches c barrier s p ↔ Spec.Reaches c barrier s q)) := by
  induction h with
  | rel p q h =>
    refine ⟨h.2, fun hp s => ⟨fun hr => .step hr (.inl h.1) (by rw [← h.2, hp]),
      fun hr => .step hr (.inr h.1) hp⟩⟩
  | refl => exact ⟨rfl, fun _ _ => Iff.rfl⟩
  | symm x y _ ih => exact ⟨ih.1.symm, fun h s => (ih.2 (by rw [ih.1, h]) s).symm⟩
  | trans x y z _ _ ih1 ih2 =>
    exact ⟨ih1.1.trans ih2.1, fun h s => (ih1.2 h s).trans (ih2.2 (by rw [← ih1.1, h]) s)⟩

/-- C16: after flooding, a point is set iff it was set, or some set point outside the barrier reaches it
through neighbours avoiding the barrier. -/
theorem C16_flood {n : Nat} {group : Rng d → List (List (Tup d))} {c : Cart d}
    {loc ext : Fin n → Rng d}
    (hg : ∀ r, (group r).flatten = r.points) (hc : Spec.Proper c)
    (hs : c.storage = .unique) (ht : Spec.Tiles c loc) (he : ∀ k, Spec.Offers c (loc k) (ext k))
    (mask barrier : Tup d → Bool) :
    ∃ out, floodMask mask barrier (gridProcs group c loc ext) = some out ∧
      ∀ p, Spec.pts c.range p → (out p = true ↔ mask p = true ∨
        ∃ s, mask s = true ∧ Spec.Reaches c barrier s p) := by
  obtain ⟨out, h1, h2⟩ := flood_spec mask barrier (gridProcs group c loc ext) (grid_ok hg hc hs ht he)
  refine ⟨out, h1, fun p hp => ?_⟩
  rw [h2 p ((grid_owned ht p).2 hp)]
  refine or_congr Iff.rfl ?_
  constructor
  · rintro ⟨hb, s, hso, hm, hsb, hconn⟩
    refine ⟨s, hm, ?_⟩
    have hj : Spec.Joined c barrier s p :=
      CC.eqvGen_imp (fun x y h => (grid_edge hg hc hs ht he barrier x y).1 h) hconn
    exact ((joined_reaches hj).2 hsb s).1 (.start ((grid_owned ht s).1 hso) hsb)
  · rintro ⟨s, hm, hr⟩
    have hsr : Spec.pts c.range s ∧ barrier s = false := by
      induction hr with
      | start h1 h2 => exact ⟨h1, h2⟩
      | step h hadj _ ih =>
        refine ih ?_
        rcases hadj with h | h
        · exact h.1
        · exact h.2.1
    obtain ⟨hj, hb⟩ := Reaches.joined hr
    exact ⟨hb, s, (grid_owned ht s).2 hsr.1, hm, hsr.2,
      CC.eqvGen_imp (fun x y h => (grid_edge hg hc hs ht he barrier x y).2 h) hj⟩

/- Seed 1 floods across the periodic end up to the barrier {2, 4}. -/
example : (floodMask (fun p => decide (p 0 = 1)) (fun p => decide (p 0 = 2 ∨ p 0 = 4))
      (gridProcs groupOne exRing exRingLoc fun k => extendLocalRange exRing (exRingLoc k) 1)).map
    (fun r => [0, 1, 2, 3, 4, 5].map fun x => r ![x]) = some [true, true, false, false, false, true] := by
  decide +kernel

end Ovk
