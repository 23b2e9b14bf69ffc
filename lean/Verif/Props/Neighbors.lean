/-
Property C51: neighbour detection.
-/
import Verif.Model.Neighbors
import Verif.Props.DistHash
import Verif.Props.Halo

namespace Ovk
variable {d n : Nat}

/-- What every process puts into the hash: its local range. -/
def ownRanges (loc : Fin n → Rng d) : List (List (Rng d)) := List.ofFn fun k => [loc k]

theorem ownRanges_get (loc : Fin n → Rng d) (k : Nat) (rs : List (Rng d)) :
    (ownRanges loc)[k]? = some rs ↔ ∃ h : k < n, rs = [loc ⟨k, h⟩] := by
  unfold ownRanges
  rw [List.getElem?_ofFn]
  split_ifs with h
  · simp [h, eq_comm]
  · simp [h]

theorem found_spec (lookup : Tup d → List (Nat × Rng d)) (f : Tup d → Option Nat)
    (hf : ∀ p, f p = ((lookup p).find? fun x => x.2.contains p).map Prod.fst) :
    ∀ (ps : List (Tup d)) (acc : List Nat), Sorted (fun a b => decide (a < b)) acc →
      Sorted (fun a b => decide (a < b)) (ps.foldl (insertOwner lookup) acc) ∧
      ∀ k, k ∈ ps.foldl (insertOwner lookup) acc ↔ k ∈ acc ∨ ∃ p ∈ ps, f p = some k
  | [], acc, h => ⟨h, by simp⟩
  | p :: ps, acc, h => by
    rw [List.foldl_cons]
    cases hl : (lookup p).find? fun x => x.2.contains p with
    | none =>
      have hi : insertOwner lookup acc p = acc := by simp [insertOwner, hl]
      rw [hi]
      obtain ⟨h1, h2⟩ := found_spec lookup f hf ps acc h
      refine ⟨h1, fun k => ?_⟩
      have hp : f p = none := by rw [hf, hl]; rfl
      rw [h2]; simp [hp]
    | some x =>
      have hi : insertOwner lookup acc p = OSet.insert (fun a b => decide (a < b)) acc x.1 := by
        simp [insertOwner, hl]
      rw [hi]
      obtain ⟨h3, h4⟩ := oset_insert_spec DHash.natSTO h x.1
      obtain ⟨h1, h2⟩ := found_spec lookup f hf ps _ h3
      have hp : f p = some x.1 := by rw [hf, hl]; rfl
      refine ⟨h1, fun k => ?_⟩
      rw [h2, h4]
      simp only [List.mem_cons, exists_eq_or_imp, hp, Option.some.injEq]
      rw [eq_comm (a := k)]
      tauto

section
variable {c : Cart d} {loc : Fin n → Rng d} {ans : Tup d → List (Nat × Rng d)}

/-- Points one around a local range are images of points of the index space. -/
theorem adjust_in_range (hc : Spec.Proper c) (r : Rng d)
    (hr : ∀ i, c.range.b i ≤ r.b i ∧ r.e i ≤ c.range.e i) {x : Tup d}
    (hx : Spec.pts (extendLocalRange c r 1) x) : Spec.pts c.range (c.periodicAdjust x) := by
  intro i
  by_cases hper : c.periodic i = true
  · have h1 := C03_first_period c hc x i hper
    have h2 : Spec.periodLen c i ≤ c.range.e i - c.range.b i := by
      unfold Spec.periodLen; split_ifs <;> omega
    omega
  · have hper' : c.periodic i = false := by simpa using hper
    rw [c.periodicAdjust_nonperiodic x i hper']
    have h1 := hx i
    have h2 := hr i
    simp only [extendLocalRange, hper', Bool.false_eq_true, or_false] at h1
    split_ifs at h1 <;> omega

theorem owner_of_lookup (ht : Spec.Tiles c loc) (hans : Spec.Complete Spec.pts (ownRanges loc) ans)
    (p : Tup d) (hr : Spec.pts c.range p) (b : Nat) :
    ((ans p).find? fun x => x.2.contains p).map Prod.fst = some b ↔
      ∃ h : b < n, Spec.pts (loc ⟨b, h⟩) p := by
  obtain ⟨k, hk1, hk⟩ := ht.2 p hr
  have hcov : Spec.Covered Spec.pts (ownRanges loc) p :=
    ⟨k, [loc k], (ownRanges_get _ _ _).2 ⟨k.2, rfl⟩, loc k, by simp, hk1⟩
  have good : ∀ x, (ans p).find? (fun x => x.2.contains p) = some x →
      ∃ h : x.1 < n, Spec.pts (loc ⟨x.1, h⟩) p := by
    intro x hx
    have h1 := List.mem_of_find?_eq_some hx
    have h2 : x.2.contains p = true := by simpa using List.find?_some hx
    rw [contains_iff_pts] at h2
    obtain ⟨rs, h3, h4⟩ := hans.only p hcov x h1
    obtain ⟨hlt, rfl⟩ := (ownRanges_get _ _ _).1 h3
    simp only [List.mem_singleton] at h4
    exact ⟨hlt, h4 ▸ h2⟩
  constructor
  · intro h
    obtain ⟨x, hx, rfl⟩ := Option.map_eq_some_iff.1 h
    exact good x hx
  · rintro ⟨h, hp⟩
    have hm := hans.all p b [loc ⟨b, h⟩] (loc ⟨b, h⟩) ((ownRanges_get _ _ _).2 ⟨h, rfl⟩) (by simp) hp
    cases hf : (ans p).find? fun x => x.2.contains p with
    | none =>
      have := List.find?_eq_none.1 hf _ hm
      rw [contains_iff_pts] at this
      exact absurd hp this
    | some x =>
      obtain ⟨hlt, h2⟩ := good x hf
      have e := (hk _ h2).trans (hk _ hp).symm
      simp only [Fin.mk.injEq] at e
      simp [e]

/-- The result in terms of ranges. -/
theorem mem_detectNeighbors (hc : Spec.Proper c) (ht : Spec.Tiles c loc)
    (hans : Spec.Complete Spec.pts (ownRanges loc) ans) (a : Fin n) (b : Nat) :
    b ∈ detectNeighbors c (loc a) a ans ↔ b ≠ a ∧ ∃ h : b < n, ∃ x,
      Spec.pts (extendLocalRange c (loc a) 1) x ∧ ¬ Spec.pts (loc a) x ∧
      Spec.pts (loc ⟨b, h⟩) (c.periodicAdjust x) := by
  obtain ⟨h1, h2⟩ := found_spec ans _ (fun _ => rfl)
    (((extendLocalRange c (loc a) 1).points.filter fun p => !(loc a).contains p).map c.periodicAdjust)
    [] List.Pairwise.nil
  unfold detectNeighbors
  simp only
  rw [(oset_erase_spec DHash.natSTO h1 (a : Nat)).2 b, h2]
  simp only [List.not_mem_nil, false_or, List.mem_map, List.mem_filter, Halo.mem_pts,
    Bool.not_eq_true', ← Bool.not_eq_true, contains_iff_pts]
  constructor
  · rintro ⟨hne, p, ⟨x, ⟨hx1, hx2⟩, rfl⟩, hp⟩
    obtain ⟨h, hb⟩ := (owner_of_lookup ht hans _ (adjust_in_range hc _ (ht.1 a) hx1) b).1 hp
    exact ⟨hne, h, x, hx1, hx2, hb⟩
  · rintro ⟨hne, h, x, hx1, hx2, hb⟩
    exact ⟨hne, _, ⟨x, ⟨hx1, hx2⟩, rfl⟩,
      (owner_of_lookup ht hans _ (adjust_in_range hc _ (ht.1 a) hx1) b).2 ⟨h, hb⟩⟩

theorem adjacent_symm {p q : Tup d} (h : Spec.Adjacent c p q) : Spec.Adjacent c q p := by
  obtain ⟨hp, hq, x, hx, hxq⟩ := h
  refine ⟨hq, hp, fun i => q i + (p i - x i), fun i => by have := hx i; simp only; omega, ?_⟩
  intro i
  have := hxq i
  split at this
  · rename_i hper
    obtain ⟨k, hk⟩ := this
    simp only [hper, if_true]
    exact ⟨-k, by rw [hk]; ring⟩
  · rename_i hper
    simp only [hper]
    simp; omega

/-- C51: with every point stored once, the neighbours found are exactly the other processes owning a
point adjacent to a local point (diagonally and across periodic boundaries included). -/
theorem C51_exact (hc : Spec.Proper c) (hs : c.storage = .unique) (ht : Spec.Tiles c loc)
    (hne : ∀ k, ∃ p, Spec.pts (loc k) p) (hans : Spec.Complete Spec.pts (ownRanges loc) ans) (a b : Fin n) :
    (b : Nat) ∈ detectNeighbors c (loc a) a ans ↔
      b ≠ a ∧ ∃ p q, Spec.pts (loc a) p ∧ Spec.pts (loc b) q ∧ Spec.Adjacent c p q := by
  have hin : ∀ k {p : Tup d}, Spec.pts (loc k) p → Spec.pts c.range p := fun k p h i =>
    ⟨(ht.1 k i).1.trans (h i).1, lt_of_lt_of_le (h i).2 (ht.1 k i).2⟩
  rw [mem_detectNeighbors hc ht hans]
  have hfin : ((b : Nat) ≠ a) ↔ b ≠ a := by rw [ne_eq, ne_eq, Fin.ext_iff]
  rw [hfin]
  constructor
  · rintro ⟨hab, _, x, hx1, _, hx3⟩
    refine ⟨hab, clampToRange (loc a) x, c.periodicAdjust x, ?_, hx3, ?_, hin _ hx3, x, ?_,
      C03_same_point c hc x⟩
    · exact (C02_clamp _ (hne a) x).1
    · exact hin a (C02_clamp _ (hne a) x).1
    · intro i
      have h1 := hx1 i
      have h2 := (exists_pts_iff _).1 (hne a) i
      unfold extendLocalRange at h1
      unfold clampToRange
      simp only at h1
      split_ifs at h1 ⊢ <;> omega
  · rintro ⟨hab, p, q, hp, hq, hadj⟩
    obtain ⟨_, hqr, x, hx, hxq⟩ := hadj
    have hcan := canonical_in_range hc hs hqr hxq
    refine ⟨hab, b.2, x, ?_, ?_, by rw [hcan]; exact hq⟩
    · exact (C15_extension_offers hc hs (loc a) (ht.1 a) 1 (le_refl _) p hp x hx).2 ⟨q, hqr, hxq⟩
    · intro hxa
      have hxx := canonical_in_range hc hs (hin a hxa) (samePoint_refl c x)
      rw [hxx] at hcan
      subst hcan
      obtain ⟨k, _, hk⟩ := ht.2 x hqr
      exact hab ((hk b hq).trans (hk a hxa).symm)

/-- C51: the relation is symmetric and no process is its own neighbour. -/
theorem C51_symmetric (hc : Spec.Proper c) (hs : c.storage = .unique) (ht : Spec.Tiles c loc)
    (hne : ∀ k, ∃ p, Spec.pts (loc k) p) (hans : Spec.Complete Spec.pts (ownRanges loc) ans) (a b : Fin n) :
    ((b : Nat) ∈ detectNeighbors c (loc a) a ans ↔ (a : Nat) ∈ detectNeighbors c (loc b) b ans) ∧
    (a : Nat) ∉ detectNeighbors c (loc a) a ans := by
  rw [C51_exact hc hs ht hne hans, C51_exact hc hs ht hne hans, C51_exact hc hs ht hne hans]
  refine ⟨⟨?_, ?_⟩, fun h => h.1 rfl⟩
  · rintro ⟨h, p, q, hp, hq, hadj⟩; exact ⟨h.symm, q, p, hq, hp, adjacent_symm hadj⟩
  · rintro ⟨h, p, q, hp, hq, hadj⟩; exact ⟨h.symm, q, p, hq, hp, adjacent_symm hadj⟩
end

/-! ### Extended ranges of grids -/

namespace Spec
/-- A Cartesian decomposition: in every dimension the intervals of two processes coincide or are
disjoint, and every process has at least three layers or spans the dimension. -/
structure Cartesian (c : Cart d) (loc : Fin n → Rng d) : Prop where
  grid : ∀ a b i, ((loc a).b i = (loc b).b i ∧ (loc a).e i = (loc b).e i) ∨
    (loc a).e i ≤ (loc b).b i ∨ (loc b).e i ≤ (loc a).b i
  thick : ∀ a i, (loc a).b i + 3 ≤ (loc a).e i ∨ ((loc a).b i = c.range.b i ∧ (loc a).e i = c.range.e i)
end Spec

section
variable {c : Cart d} {loc : Fin n → Rng d}

/-- In a Cartesian decomposition, the interval of a process that contains a coordinate. -/
theorem interval_at (ht : Spec.Tiles c loc) (b : Fin n) {q : Tup d}
    (hq : Spec.pts (loc b) q) (i : Fin d) (y : Int) (hy : c.range.b i ≤ y ∧ y < c.range.e i) :
    ∃ m : Fin n, (loc m).b i ≤ y ∧ y < (loc m).e i := by
  have hr : Spec.pts c.range (fun j => if j = i then y else q j) := by
    intro j
    by_cases hj : j = i
    · subst hj; simpa using hy
    · simp only [hj, if_false]
      exact ⟨(ht.1 b j).1.trans (hq j).1, lt_of_lt_of_le (hq j).2 (ht.1 b j).2⟩
  obtain ⟨m, hm, _⟩ := ht.2 _ hr
  have := hm i
  simp at this
  exact ⟨m, this⟩

/-- One dimension of the extended range: some coordinate next to the local interval maps into the
interval of the owner. -/
theorem near_coord (hc : Spec.Proper c) (hs : c.storage = .unique) (ht : Spec.Tiles c loc)
    (hcart : Spec.Cartesian c loc) (a b : Fin n) {p q : Tup d}
    (hp : Spec.pts (gridExtendedRange c (loc a)) p) (hq : Spec.pts (loc b) q)
    (hpq : Spec.SamePoint c p q) (hna : ∀ i, (loc a).b i < (loc a).e i) (i : Fin d) :
    ∃ x z : Int, (extendLocalRange c (loc a) 1).b i ≤ x ∧ x < (extendLocalRange c (loc a) 1).e i ∧
      (if c.periodic i = true then ∃ k : Int, z = x + k * Spec.periodLen c i else z = x) ∧
      (loc b).b i ≤ z ∧ z < (loc b).e i := by
  have hP : Spec.periodLen c i = c.range.e i - c.range.b i := by simp [Spec.periodLen, hs]
  have hPpos := hc i
  have h1 := hp i
  have h2 := hq i
  have h3 := hpq i
  have ha := ht.1 a i
  have hb := ht.1 b i
  have hna' := hna i
  have hab := hcart.grid a b i
  have hta := hcart.thick a i
  simp only [gridExtendedRange, rangeCellToPointAll, cellExtendedRange, extendLocalRange,
    cellLocalRange, rangePointToCell, cartPointToCell, hs, and_true] at h1
  simp only [extendLocalRange]
  -- intervals of processes at given coordinates
  have key : ∀ y : Int, c.range.b i ≤ y ∧ y < c.range.e i → ∃ mb me : Int, mb ≤ y ∧ y < me ∧
      (((loc a).b i = mb ∧ (loc a).e i = me) ∨ (loc a).e i ≤ mb ∨ me ≤ (loc a).b i) ∧
      (((loc b).b i = mb ∧ (loc b).e i = me) ∨ (loc b).e i ≤ mb ∨ me ≤ (loc b).b i) ∧
      (mb + 3 ≤ me ∨ (mb = c.range.b i ∧ me = c.range.e i)) ∧ c.range.b i ≤ mb ∧ me ≤ c.range.e i := by
    intro y hy
    obtain ⟨m, hm1, hm2⟩ := interval_at ht b hq i y hy
    exact ⟨(loc m).b i, (loc m).e i, hm1, hm2, hcart.grid a m i, hcart.grid b m i, hcart.thick m i,
      (ht.1 m i).1, (ht.1 m i).2⟩
  rw [hP] at h3 hPpos ⊢
  by_cases hper : c.periodic i = true
  · simp only [hper, or_true, if_true] at h1 h3 ⊢
    obtain ⟨k, hk⟩ := h3
    by_cases hspan : (loc a).b i = c.range.b i ∧ (loc a).e i = c.range.e i
    · exact ⟨(loc a).b i, (loc a).b i, by omega, by omega, ⟨0, by omega⟩, by omega, by omega⟩
    have hth : (loc a).b i + 3 ≤ (loc a).e i := by omega
    by_cases hmid : (loc a).b i - 1 ≤ p i ∧ p i ≤ (loc a).e i
    · exact ⟨p i, q i, by omega, by omega, ⟨k, hk⟩, by omega, by omega⟩
    by_cases hlow : p i < (loc a).b i - 1
    · have hp2 : p i = (loc a).b i - 2 := by omega
      by_cases hin : c.range.b i ≤ p i
      · have hk0 : k = 0 := image_unique (P := c.range.e i - c.range.b i) (a := c.range.b i) (x := p i)
          hin (by omega) (by rw [← hk]; omega) (by rw [← hk]; omega)
        subst hk0
        obtain ⟨mb, me, g1, g2, g3, g4, g5, g6, g7⟩ := key ((loc a).b i - 1) (by omega)
        exact ⟨(loc a).b i - 1, (loc a).b i - 1, by omega, by omega, ⟨0, by omega⟩, by omega, by omega⟩
      · have hk1 : k - 1 = 0 := by
          refine image_unique (P := c.range.e i - c.range.b i) (a := c.range.b i)
            (x := p i + (c.range.e i - c.range.b i)) (by omega) (by omega) ?_ ?_
          · have : p i + (c.range.e i - c.range.b i) + (k - 1) * (c.range.e i - c.range.b i) = q i := by
              rw [hk]; ring
            omega
          · have : p i + (c.range.e i - c.range.b i) + (k - 1) * (c.range.e i - c.range.b i) = q i := by
              rw [hk]; ring
            omega
        have hk1' : k = 1 := by omega
        subst hk1'
        rw [one_mul] at hk
        obtain ⟨mb, me, g1, g2, g3, g4, g5, g6, g7⟩ := key (c.range.b i) (by omega)
        obtain ⟨mb', me', g1', g2', g3', g4', g5', g6', g7'⟩ := key (c.range.e i - 1) (by omega)
        have hlb : (loc a).b i = c.range.b i := by omega
        exact ⟨(loc a).b i - 1, c.range.e i - 1, by omega, by omega, ⟨1, by omega⟩, by omega, by omega⟩
    · have hp2 : (loc a).e i < p i ∧ p i ≤ (loc a).e i + 2 := by omega
      by_cases hin : p i < c.range.e i
      · have hk0 : k = 0 := image_unique (P := c.range.e i - c.range.b i) (a := c.range.b i) (x := p i)
          (by omega) (by omega) (by rw [← hk]; omega) (by rw [← hk]; omega)
        subst hk0
        obtain ⟨mb, me, g1, g2, g3, g4, g5, g6, g7⟩ := key ((loc a).e i) (by omega)
        exact ⟨(loc a).e i, (loc a).e i, by omega, by omega, ⟨0, by omega⟩, by omega, by omega⟩
      · have hk1 : k + 1 = 0 := by
          have e : p i - (c.range.e i - c.range.b i) + (k + 1) * (c.range.e i - c.range.b i) = q i := by
            rw [hk]; ring
          refine image_unique (P := c.range.e i - c.range.b i) (a := c.range.b i)
            (x := p i - (c.range.e i - c.range.b i)) (by omega) (by omega) ?_ ?_ <;> omega
        have hk1' : k = -1 := by omega
        subst hk1'
        have hk' : q i = p i - (c.range.e i - c.range.b i) := by rw [hk]; ring
        have hle : (loc a).e i = c.range.e i := by
          by_contra hne
          obtain ⟨mb, me, g1, g2, g3, g4, g5, g6, g7⟩ := key ((loc a).e i) (by omega)
          omega
        obtain ⟨mb, me, g1, g2, g3, g4, g5, g6, g7⟩ := key (c.range.b i) (by omega)
        exact ⟨(loc a).e i, c.range.b i, by omega, by omega, ⟨-1, by omega⟩, by omega, by omega⟩
  · simp only [hper, Bool.false_eq_true, or_false, if_false] at h1 h3 ⊢
    by_cases hmid : (loc a).b i - 1 ≤ p i ∧ p i ≤ (loc a).e i
    · refine ⟨p i, p i, ?_, ?_, rfl, by omega, by omega⟩ <;> split_ifs <;> omega
    by_cases hlow : p i < (loc a).b i - 1
    · obtain ⟨mb, me, g1, g2, g3, g4, g5, g6, g7⟩ := key ((loc a).b i - 1) (by omega)
      have hp2 : p i = (loc a).b i - 2 := by split_ifs at h1 <;> omega
      refine ⟨(loc a).b i - 1, (loc a).b i - 1, ?_, ?_, rfl, by omega, by omega⟩ <;> split_ifs <;> omega
    · obtain ⟨mb, me, g1, g2, g3, g4, g5, g6, g7⟩ := key ((loc a).e i) (by omega)
      have hp2 : p i ≤ (loc a).e i + 2 := by split_ifs at h1 <;> omega
      refine ⟨(loc a).e i, (loc a).e i, ?_, ?_, rfl, by omega, by omega⟩ <;> split_ifs <;> omega

/-- C51 (partial): for Cartesian decompositions with at least three layers per process, every owner of
a point of a grid's extended range is the process itself or a detected neighbour.  Missing: thinner or
irregular decompositions, where this is false (`C51_thin_false`), and duplicated periodic storage, where
detection is not even symmetric (`C51_duplicated_false`). -/
theorem C51_covers_partial {ans : Tup d → List (Nat × Rng d)} (hc : Spec.Proper c)
    (hs : c.storage = .unique) (ht : Spec.Tiles c loc)
    (hcart : Spec.Cartesian c loc) (hne : ∀ k, ∃ p, Spec.pts (loc k) p)
    (hans : Spec.Complete Spec.pts (ownRanges loc) ans) (a b : Fin n) (p q : Tup d)
    (hp : Spec.pts (gridExtendedRange c (loc a)) p) (hpq : Spec.Home c p q) (hq : Spec.pts (loc b) q) :
    b = a ∨ (b : Nat) ∈ detectNeighbors c (loc a) a ans := by
  have hsame : Spec.SamePoint c p q := by
    by_cases hpr : Spec.pts c.range p
    · rw [hpq.2.1 hpr]; exact samePoint_refl c p
    · exact (hpq.2.2 hpr).1
  have hna := (exists_pts_iff _).1 (hne a)
  choose x z h1 h2 h3 h4 h5 using near_coord hc hs ht hcart a b hp hq hsame hna
  have hz : Spec.pts (loc b) z := fun i => ⟨h4 i, h5 i⟩
  have hzr : Spec.pts c.range z := fun i =>
    ⟨(ht.1 b i).1.trans (h4 i), lt_of_lt_of_le (h5 i) (ht.1 b i).2⟩
  have hadj : c.periodicAdjust x = z := canonical_in_range hc hs hzr fun i => h3 i
  by_cases hxa : Spec.pts (loc a) x
  · left
    have hxr : Spec.pts c.range x := fun i =>
      ⟨(ht.1 a i).1.trans (hxa i).1, lt_of_lt_of_le (hxa i).2 (ht.1 a i).2⟩
    have := canonical_in_range hc hs hxr (samePoint_refl c x)
    rw [hadj] at this
    subst this
    obtain ⟨k, _, hk⟩ := ht.2 _ hzr
    exact (hk b hz).trans (hk a hxa).symm
  · by_cases hab : b = a
    · exact .inl hab
    · refine .inr ((mem_detectNeighbors hc ht hans a b).2 ⟨fun e => hab (Fin.ext e), b.2, x,
        fun i => ⟨h1 i, h2 i⟩, hxa, by rw [hadj]; exact hz⟩)

/-- A grid's halo exchange: ranges and neighbours as set up by `grid`. -/
def gridSetup (c : Cart d) (loc : Fin n → Rng d) (ans : Tup d → List (Nat × Rng d)) : Halo.Setup d n where
  cart := c
  loc := loc
  ext := fun k => gridExtendedRange c (loc k)
  nbrs := fun k => (List.finRange n).filter fun b => decide ((b : Nat) ∈ detectNeighbors c (loc k) k ans)

theorem grid_ext_includes (hs : c.storage = .unique) (ht : Spec.Tiles c loc) (a : Fin n) (p : Tup d)
    (hp : Spec.pts (loc a) p) : Spec.pts (gridExtendedRange c (loc a)) p := by
  intro i
  have h1 := hp i
  have h2 := ht.1 a i
  simp only [gridExtendedRange, rangeCellToPointAll, cellExtendedRange, extendLocalRange,
    cellLocalRange, rangePointToCell, cartPointToCell, hs, and_true]
  split_ifs <;> omega

theorem gridSetup_good {ans : Tup d → List (Nat × Rng d)} (hc : Spec.Proper c)
    (hs : c.storage = .unique) (ht : Spec.Tiles c loc) (hne : ∀ k, ∃ p, Spec.pts (loc k) p)
    (hans : Spec.Complete Spec.pts (ownRanges loc) ans) : Halo.Good (gridSetup c loc ans) where
  proper := hc
  tiles := ht
  within := fun a p hp => grid_ext_includes hs ht a p hp
  sym := by
    intro a b h
    simp only [gridSetup, List.mem_filter, List.mem_finRange, true_and, decide_eq_true_eq] at h ⊢
    exact (C51_symmetric hc hs ht hne hans a b).1.1 h
  irrefl := by
    intro a h
    simp only [gridSetup, List.mem_filter, List.mem_finRange, true_and, decide_eq_true_eq] at h
    exact (C51_symmetric hc hs ht hne hans a a).2 h

/-- C51 with C20 (partial, as `C51_covers_partial`): on a grid with a Cartesian decomposition, after a
halo exchange every point of every extended range that stands for a point of the index space holds the
value of its owner. -/
theorem C51_grid_halo_partial {V : Type} {ans : Tup d → List (Nat × Rng d)} (hc : Spec.Proper c)
    (hs : c.storage = .unique) (ht : Spec.Tiles c loc) (hcart : Spec.Cartesian c loc)
    (hne : ∀ k, ∃ p, Spec.pts (loc k) p) (hans : Spec.Complete Spec.pts (ownRanges loc) ans)
    (f : Fin n → Int → V) (es : List (Halo.Event n)) (x : Halo.State n V)
    (hrun : Halo.run (gridSetup c loc ans) (Halo.initial f) es = some x)
    (hfin : Halo.Finished (gridSetup c loc ans) x) (b : Fin n) (p q : Tup d)
    (hp : Spec.pts (gridExtendedRange c (loc b)) p) (hq : Spec.Home c p q) :
    ∃ a, Spec.pts (loc a) q ∧
      x.field b ((gridExtendedRange c (loc b)).colIndex p) =
        f a ((gridExtendedRange c (loc a)).colIndex q) := by
  obtain ⟨a, ha, _⟩ := ht.2 q hq.1
  refine ⟨a, ha, ?_⟩
  refine Halo.C20_values (gridSetup_good hc hs ht hne hans) f es x hrun hfin b p hp q hq a ha ?_
  rcases C51_covers_partial hc hs ht hcart hne hans b a p q hp hq ha with h | h
  · exact .inl h
  · refine .inr ?_
    simp only [gridSetup, List.mem_filter, List.mem_finRange, true_and, decide_eq_true_eq]
    exact h

end

/-! ### Where detection is not enough -/

/-- The simplest complete answers: every range, whatever the point. -/
def allRanges (loc : Fin n → Rng d) : Tup d → List (Nat × Rng d) := fun _ => List.ofFn fun k => (↑k, loc k)

theorem allRanges_complete (loc : Fin n → Rng d) :
    Spec.Complete Spec.pts (ownRanges loc) (allRanges loc) where
  all := by
    intro p src rs r h1 h2 _
    obtain ⟨h, rfl⟩ := (ownRanges_get _ _ _).1 h1
    rw [List.mem_singleton] at h2
    subst h2
    exact (List.mem_ofFn' _ _).2 ⟨⟨src, h⟩, rfl⟩
  only := by
    intro p _ x hx
    obtain ⟨k, rfl⟩ := (List.mem_ofFn' _ _).1 hx
    exact ⟨[loc k], (ownRanges_get _ _ _).2 ⟨k.2, rfl⟩, by simp⟩

/-- The full claim: for every decomposition, every owner of a point of a grid's extended range is the
process itself or a detected neighbour. -/
def C51_covers_statement : Prop :=
  ∀ (d n : Nat) (c : Cart d) (loc : Fin n → Rng d) (ans : Tup d → List (Nat × Rng d)),
    Spec.Proper c → Spec.Tiles c loc → (∀ k, ∃ p, Spec.pts (loc k) p) →
    Spec.Complete Spec.pts (ownRanges loc) ans →
    ∀ (a b : Fin n) (p q : Tup d), Spec.pts (gridExtendedRange c (loc a)) p → Spec.Home c p q →
      Spec.pts (loc b) q → b = a ∨ (b : Nat) ∈ detectNeighbors c (loc a) a ans

/-- Four processes of one point each on a line of four points. -/
def exThin : Cart 1 := ⟨⟨![0], ![4]⟩, ![false], .unique⟩
def exThinLoc : Fin 4 → Rng 1 := ![⟨![0], ![1]⟩, ⟨![1], ![2]⟩, ⟨![2], ![3]⟩, ⟨![3], ![4]⟩]

theorem exThin_tiles : Spec.Tiles exThin exThinLoc := by
  refine ⟨by unfold exThin exThinLoc; decide, fun p hp => ?_⟩
  have h : 0 ≤ p 0 ∧ p 0 < 4 := hp 0
  have e : p = ![p 0] := by funext i; have : i = 0 := Subsingleton.elim _ _; subst this; rfl
  rw [e]
  generalize p 0 = y at h
  have : y = 0 ∨ y = 1 ∨ y = 2 ∨ y = 3 := by omega
  rcases this with rfl | rfl | rfl | rfl
  · exact ⟨0, by unfold Spec.pts exThinLoc; decide, by unfold Spec.pts exThinLoc; decide⟩
  · exact ⟨1, by unfold Spec.pts exThinLoc; decide, by unfold Spec.pts exThinLoc; decide⟩
  · exact ⟨2, by unfold Spec.pts exThinLoc; decide, by unfold Spec.pts exThinLoc; decide⟩
  · exact ⟨3, by unfold Spec.pts exThinLoc; decide, by unfold Spec.pts exThinLoc; decide⟩

/-- C51: the full claim is false: process 0 stores point 2 in its extended range but does not learn
about process 2, which owns it. -/
theorem C51_thin_false : ¬ C51_covers_statement := by
  intro h
  have := h 1 4 exThin exThinLoc _ (by unfold Spec.Proper Spec.periodLen exThin; decide) exThin_tiles
    (fun k => (exists_pts_iff _).2 (by revert k; unfold exThinLoc; decide)) (allRanges_complete exThinLoc)
    0 2 ![2] ![2] (by unfold Spec.pts; decide +kernel)
    ⟨by unfold Spec.pts exThin; decide, fun _ => rfl,
      fun h => absurd (by unfold Spec.pts exThin; decide) h⟩ (by unfold Spec.pts exThinLoc; decide)
  revert this
  decide +kernel

/-- The full claim about symmetry: for either storage, `b` is found by `a` iff `a` is found by `b`. -/
def C51_symmetric_statement : Prop :=
  ∀ (d n : Nat) (c : Cart d) (loc : Fin n → Rng d) (ans : Tup d → List (Nat × Rng d)),
    Spec.Proper c → Spec.Tiles c loc → (∀ k, ∃ p, Spec.pts (loc k) p) →
    Spec.Complete Spec.pts (ownRanges loc) ans →
    ∀ a b : Fin n, (b : Nat) ∈ detectNeighbors c (loc a) a ans → (a : Nat) ∈ detectNeighbors c (loc b) b ans

/-- Four processes on a periodic line 0..4 where 0 and 4 are the same point. -/
def exDup : Cart 1 := ⟨⟨![0], ![5]⟩, ![true], .duplicated⟩
def exDupLoc : Fin 4 → Rng 1 := ![⟨![0], ![1]⟩, ⟨![1], ![2]⟩, ⟨![2], ![3]⟩, ⟨![3], ![5]⟩]

theorem exDup_tiles : Spec.Tiles exDup exDupLoc := by
  refine ⟨by unfold exDup exDupLoc; decide, fun p hp => ?_⟩
  have h : 0 ≤ p 0 ∧ p 0 < 5 := hp 0
  have e : p = ![p 0] := by funext i; have : i = 0 := Subsingleton.elim _ _; subst this; rfl
  rw [e]
  generalize p 0 = y at h
  have : y = 0 ∨ y = 1 ∨ y = 2 ∨ y = 3 ∨ y = 4 := by omega
  rcases this with rfl | rfl | rfl | rfl | rfl
  · exact ⟨0, by unfold Spec.pts exDupLoc; decide, by unfold Spec.pts exDupLoc; decide⟩
  · exact ⟨1, by unfold Spec.pts exDupLoc; decide, by unfold Spec.pts exDupLoc; decide⟩
  · exact ⟨2, by unfold Spec.pts exDupLoc; decide, by unfold Spec.pts exDupLoc; decide⟩
  · exact ⟨3, by unfold Spec.pts exDupLoc; decide, by unfold Spec.pts exDupLoc; decide⟩
  · exact ⟨3, by unfold Spec.pts exDupLoc; decide, by unfold Spec.pts exDupLoc; decide⟩

/-- C51: with duplicated points the relation is not symmetric: process 3 finds process 1 (the point 5
it looks at is the point 1) but process 1 does not find process 3, so 3 posts a receive that 1 never
serves. -/
theorem C51_duplicated_false : ¬ C51_symmetric_statement := by
  intro h
  have := h 1 4 exDup exDupLoc _ (by unfold Spec.Proper Spec.periodLen exDup; decide) exDup_tiles
    (fun k => (exists_pts_iff _).2 (by revert k; unfold exDupLoc; decide)) (allRanges_complete exDupLoc)
    3 1 (by decide +kernel)
  revert this
  decide +kernel

/- A Cartesian decomposition: a periodic ring of six points, two processes with three each. -/
example : Spec.Cartesian exRing ![⟨![0], ![3]⟩, ⟨![3], ![6]⟩] :=
  ⟨by decide, by unfold exRing; decide⟩

/- On the ring both processes find each other. -/
example : (detectNeighbors exRing (exRingLoc 0) 0 (allRanges exRingLoc),
    detectNeighbors exRing (exRingLoc 1) 1 (allRanges exRingLoc)) = ([1], [0]) := by decide +kernel

end Ovk
