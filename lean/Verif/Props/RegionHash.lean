/-
Property C18: looking up the bin of a point never misses a region containing the point.
-/
import Verif.Model.RegionHash
import Verif.Lemmas.Csr
import Verif.Lemmas.FieldIndex
import Verif.Lemmas.Components
import Verif.Props.Components
import Mathlib.Tactic.FieldSimp
import Mathlib.Algebra.Order.Field.Basic

namespace Ovk
namespace Spec

/-- A point lies in the closed box with the given corners. -/
def boxHas {d : Nat} (r : Box d) (p : Pt d) : Prop := ∀ i, r.b i ≤ p i ∧ p i ≤ r.e i

/-- What is asked of floating-point rounding: it is monotone and keeps zero. -/
structure Rounding (rnd : Rat → Rat) : Prop where
  mono : ∀ x y, x ≤ y → rnd x ≤ rnd y
  zero : rnd 0 = 0

/-- The covered set is not flat: in every dimension two covered points differ. -/
def NotFlat {d : Nat} (regions : List (Box d)) : Prop :=
  ∀ i, ∃ r ∈ regions, ∃ p, boxHas r p ∧ ∃ s ∈ regions, ∃ q, boxHas s q ∧ p i < q i

end Spec

variable {d : Nat}

theorem Box.contains_iff (r : Box d) (p : Pt d) : r.contains p = true ↔ Spec.boxHas r p := by
  simp [Box.contains, Spec.boxHas]

theorem Box.not_empty_of (r : Box d) (p : Pt d) (h : Spec.boxHas r p) : r.empty = false := by
  have : ¬ ∃ i, r.e i < r.b i := by
    rintro ⟨i, hi⟩; have := h i; exact absurd (this.1.trans this.2) (not_le.2 hi)
  simpa [Box.empty] using this

theorem unionBoxes_left (l r : Box d) (p : Pt d) (h : Spec.boxHas l p) :
    Spec.boxHas (unionBoxes l r) p := by
  unfold unionBoxes
  rw [l.not_empty_of p h, if_neg (by simp)]
  split_ifs
  · exact h
  · intro i; exact ⟨(min_le_left _ _).trans (h i).1, (h i).2.trans (le_max_left _ _)⟩

theorem unionBoxes_right (l r : Box d) (p : Pt d) (h : Spec.boxHas r p) :
    Spec.boxHas (unionBoxes l r) p := by
  unfold unionBoxes
  rw [r.not_empty_of p h, if_neg (by simp : ¬ (false = true))]
  split_ifs
  · exact h
  · intro i; exact ⟨(min_le_right _ _).trans (h i).1, (h i).2.trans (le_max_right _ _)⟩

theorem foldl_union_has : ∀ (rs : List (Box d)) (acc : Box d) (p : Pt d),
    Spec.boxHas acc p ∨ (∃ r ∈ rs, Spec.boxHas r p) → Spec.boxHas (rs.foldl unionBoxes acc) p
  | [], acc, p, h => by simpa using h
  | r :: rs, acc, p, h => by
    rw [List.foldl_cons]
    apply foldl_union_has
    rcases h with h | ⟨s, hs, h⟩
    · exact .inl (unionBoxes_left _ _ _ h)
    · rcases List.mem_cons.1 hs with rfl | hs
      · exact .inl (unionBoxes_right _ _ _ h)
      · exact .inr ⟨s, hs, h⟩

theorem extentsOf_has (rs : List (Box d)) (r : Box d) (hr : r ∈ rs) (p : Pt d) (h : Spec.boxHas r p) :
    Spec.boxHas (RegionHash.extentsOf rs) p :=
  foldl_union_has rs _ p (.inr ⟨r, hr, h⟩)

theorem clamp_mono (r : Rng d) (h : ∀ i, r.b i < r.e i) (p q : Tup d) (i : Fin d) (hpq : p i ≤ q i) :
    clampToRange r p i ≤ clampToRange r q i := by
  have := h i
  unfold clampToRange
  split_ifs <;> omega

theorem clamp_pts (r : Rng d) (h : ∀ i, r.b i < r.e i) (p : Tup d) : Spec.pts r (clampToRange r p) :=
  (C02_clamp r ((exists_pts_iff r).2 h) p).1

theorem cellsQ_eq (rnd : Rat → Rat) (o s p : Pt d) (hs : ∀ i, s i ≠ 0) :
    cellsQ? rnd o s p = some fun i => ⌊rnd (rnd (p i - o i) / s i)⌋ := by
  unfold cellsQ?
  rw [if_pos hs]
  congr 1
  funext i
  simp [cellOfQ?, hs i]

theorem cell_mono {rnd : Rat → Rat} (hr : Spec.Rounding rnd) {o s x y : Rat} (hs : 0 < s) (h : x ≤ y) :
    ⌊rnd (rnd (x - o) / s)⌋ ≤ ⌊rnd (rnd (y - o) / s)⌋ := by
  apply Int.floor_le_floor
  apply hr.mono
  apply div_le_div_of_nonneg_right _ hs.le
  exact hr.mono _ _ (sub_le_sub_right h o)

namespace RegionHash

/-- Bins of a region in closed form. -/
def binsBox (rnd : Rat → Rat) (br : Rng d) (o s : Pt d) (r : Box d) : Rng d :=
  extendRange (extendRange (makeEmptyRange d)
    (clampToRange br fun i => ⌊rnd (rnd (r.b i - o i) / s i)⌋))
    (clampToRange br fun i => ⌊rnd (rnd (r.e i - o i) / s i)⌋)

theorem mapToBins_eq (rnd : Rat → Rat) (br : Rng d) (o s : Pt d) (hs : ∀ i, s i ≠ 0) (r : Box d) :
    mapToBins rnd br o s r = some (binsBox rnd br o s r) := by
  unfold mapToBins
  rw [cellsQ_eq _ _ _ _ hs, cellsQ_eq _ _ _ _ hs]; rfl

theorem makeEmpty_empty (d : Nat) (hd : 0 < d) : (makeEmptyRange d).empty = true := by
  rw [Rng.empty_iff]; exact ⟨⟨0, hd⟩, le_refl _⟩

theorem extend2_pts (u v q : Tup d) (h : ∀ i, u i ≤ q i ∧ q i ≤ v i) :
    Spec.pts (extendRange (extendRange (makeEmptyRange d) u) v) q := by
  rcases Nat.eq_zero_or_pos d with rfl | hd
  · intro i; exact i.elim0
  · have h1 : extendRange (makeEmptyRange d) u = ⟨u, fun i => u i + 1⟩ := by
      unfold extendRange; rw [makeEmpty_empty d hd]; simp
    have h2 : (⟨u, fun i => u i + 1⟩ : Rng d).empty = false := by
      rw [Rng.nonempty_iff]; intro i; simp
    intro i
    rw [h1]; unfold extendRange; rw [h2]
    have := h i
    simp only [Bool.not_false, if_true]; omega

theorem extend2_sub (br : Rng d) (u v : Tup d) (hu : Spec.pts br u) (hv : Spec.pts br v) (q : Tup d)
    (h : Spec.pts (extendRange (extendRange (makeEmptyRange d) u) v) q) : Spec.pts br q := by
  rcases Nat.eq_zero_or_pos d with rfl | hd
  · intro i; exact i.elim0
  · have h1 : extendRange (makeEmptyRange d) u = ⟨u, fun i => u i + 1⟩ := by
      unfold extendRange; rw [makeEmpty_empty d hd]; simp
    have h2 : (⟨u, fun i => u i + 1⟩ : Rng d).empty = false := by
      rw [Rng.nonempty_iff]; intro i; simp
    rw [h1] at h; unfold extendRange at h; rw [h2] at h
    intro i
    have := h i; have := hu i; have := hv i
    simp only [Bool.not_false, if_true] at this h
    have := h i
    simp only at this; omega

/-- Bin lists of all regions. -/
def items (rnd : Rat → Rat) (nb : Tup d) (regions : List (Box d)) : List (List Nat) :=
  regions.map fun r => binIndices (binRangeOf nb)
    (binsBox rnd (binRangeOf nb) (extentsOf regions).b (binSizeOf rnd (extentsOf regions) nb) r)

section
variable {rnd : Rat → Rat} {nb : Tup d} {regions : List (Box d)}

theorem binRange_pos (hnb : ∀ i, 1 ≤ nb i) : ∀ i, (binRangeOf nb).b i < (binRangeOf nb).e i := by
  intro i; have := hnb i; simp only [binRangeOf]; omega

theorem binsBox_sub (hnb : ∀ i, 1 ≤ nb i) (o s : Pt d) (r : Box d) (q : Tup d)
    (h : Spec.pts (binsBox rnd (binRangeOf nb) o s r) q) : Spec.pts (binRangeOf nb) q :=
  extend2_sub _ _ _ (clamp_pts _ (binRange_pos hnb) _) (clamp_pts _ (binRange_pos hnb) _) q h

theorem mem_binIndices (br bins : Rng d) (hsub : ∀ q, Spec.pts bins q → Spec.pts br q) (p : Tup d)
    (hp : Spec.pts br p) : (br.colIndex p).toNat ∈ binIndices br bins ↔ Spec.pts bins p := by
  simp only [binIndices, List.mem_map]
  constructor
  · rintro ⟨q, hq, he⟩
    have hq' := (Rng.mem_points _ _).1 hq
    have := br.index_bounds .col p hp
    have := br.index_bounds .col q (hsub q hq')
    have hpq : q = p := br.index_inj .col q p (hsub q hq') hp (by unfold Rng.colIndex at he; omega)
    rw [← hpq]; exact hq'
  · intro h; exact ⟨p, (Rng.mem_points _ _).2 h, rfl⟩

theorem items_lt (hnb : ∀ i, 1 ≤ nb i) :
    ∀ l ∈ items rnd nb regions, ∀ b ∈ l, b < (binRangeOf nb).count.toNat := by
  intro l hl b hb
  simp only [items, List.mem_map] at hl
  obtain ⟨r, _, rfl⟩ := hl
  simp only [binIndices, List.mem_map] at hb
  obtain ⟨q, hq, rfl⟩ := hb
  have := (binRangeOf nb).index_bounds .col q (binsBox_sub hnb _ _ r q ((Rng.mem_points _ _).1 hq))
  unfold Rng.colIndex
  omega

theorem items_nodup (hnb : ∀ i, 1 ≤ nb i) : ∀ l ∈ items rnd nb regions, l.Nodup := by
  intro l hl
  simp only [items, List.mem_map] at hl
  obtain ⟨r, _, rfl⟩ := hl
  unfold binIndices
  refine List.Nodup.map_on ?_ (Rng.nodup_points _)
  intro x hx y hy he
  have hx' := binsBox_sub hnb _ _ r x ((Rng.mem_points _ _).1 hx)
  have hy' := binsBox_sub hnb _ _ r y ((Rng.mem_points _ _).1 hy)
  have := (binRangeOf nb).index_bounds .col x hx'
  have := (binRangeOf nb).index_bounds .col y hy'
  exact (binRangeOf nb).index_inj .col x y hx' hy' (by unfold Rng.colIndex at he; omega)

/-- The constructor succeeds for non-zero bin sizes, and bins hold what they should. -/
theorem make_spec (hnb : ∀ i, 1 ≤ nb i) (hs : ∀ i, binSizeOf rnd (extentsOf regions) nb i ≠ 0) :
    ∃ h, make rnd nb regions = some h ∧ h.binRange = binRangeOf nb ∧ h.extents = extentsOf regions ∧
      h.binSize = binSizeOf rnd (extentsOf regions) nb ∧
      ∀ b, b < (binRangeOf nb).count.toNat →
        Csr.retrieve h.table b = some (Csr.valsOf (Csr.opsOf (items rnd nb regions)) b) := by
  obtain ⟨t, ht, hspec⟩ := Csr.build_spec (binRangeOf nb).count.toNat (items rnd nb regions)
    (items_lt hnb)
  refine ⟨⟨binRangeOf nb, extentsOf regions, binSizeOf rnd (extentsOf regions) nb, t⟩, ?_, rfl, rfl,
    rfl, fun b hb => (hspec b hb).1⟩
  have h1 : (regions.mapM fun r => mapToBins rnd (binRangeOf nb) (extentsOf regions).b
      (binSizeOf rnd (extentsOf regions) nb) r) =
      some (regions.map fun r => binsBox rnd (binRangeOf nb) (extentsOf regions).b
        (binSizeOf rnd (extentsOf regions) nb) r) :=
    CC.mapM_some _ _ _ fun r _ => mapToBins_eq _ _ _ _ hs r
  have h2 : binIndices (binRangeOf nb) (binRangeOf nb) = List.range (binRangeOf nb).count.toNat :=
    (binRangeOf nb).points_colIndexNat (binRange_pos hnb)
  have h3 : ((regions.map fun r => binsBox rnd (binRangeOf nb) (extentsOf regions).b
        (binSizeOf rnd (extentsOf regions) nb) r).map (binIndices (binRangeOf nb))) =
      items rnd nb regions := by
    rw [List.map_map]; rfl
  unfold make
  simp only [h1, h2, h3, ht, Option.bind_eq_bind, Option.bind_some, Option.pure_def]

theorem binSize_nonneg (hr : Spec.Rounding rnd) (hnb : ∀ i, 1 ≤ nb i) (ext : Box d) (i : Fin d) :
    0 ≤ binSizeOf rnd ext nb i := by
  unfold binSizeOf
  rw [← hr.zero]
  apply hr.mono
  apply div_nonneg
  · exact le_max_right _ _
  · have := hnb i; exact_mod_cast (by omega : (0 : Int) ≤ nb i)

end

/-- C18: for every rounding, if the constructor's result is defined then looking up a point that lies
in some region is defined and the bin found lists that region. -/
theorem C18_never_misses (rnd : Rat → Rat) (hr : Spec.Rounding rnd) (nb : Tup d) (hnb : ∀ i, 1 ≤ nb i)
    (regions : List (Box d)) (hs : ∀ i, binSizeOf rnd (extentsOf regions) nb i ≠ 0) :
    ∃ h, make rnd nb regions = some h ∧
      ∀ (k : Nat) (r : Box d), regions[k]? = some r → ∀ p, Spec.boxHas r p →
        ∃ iBin bin, mapToBin rnd h p = some iBin ∧ retrieveBin h iBin = some bin ∧ k ∈ bin := by
  obtain ⟨h, hm, e1, e2, e3, hret⟩ := make_spec (rnd := rnd) (regions := regions) hnb hs
  refine ⟨h, hm, ?_⟩
  intro k r hk p hp
  have hrm : r ∈ regions := List.mem_of_getElem? hk
  have hext := extentsOf_has regions r hrm p hp
  let c : Tup d := fun i => ⌊rnd (rnd (p i - (extentsOf regions).b i) /
    binSizeOf rnd (extentsOf regions) nb i)⌋
  have hpos : ∀ i, 0 < binSizeOf rnd (extentsOf regions) nb i := fun i =>
    lt_of_le_of_ne (binSize_nonneg hr hnb _ i) (hs i).symm
  have hc := clamp_pts (binRangeOf nb) (binRange_pos hnb) c
  have hb := (binRangeOf nb).index_bounds .col _ hc
  refine ⟨(binRangeOf nb).colIndex (clampToRange (binRangeOf nb) c),
    Csr.valsOf (Csr.opsOf (items rnd nb regions))
      ((binRangeOf nb).colIndex (clampToRange (binRangeOf nb) c)).toNat, ?_, ?_, ?_⟩
  · unfold mapToBin
    rw [e2, if_pos ((Box.contains_iff _ _).2 hext), e3, e1, cellsQ_eq _ _ _ _ hs]
    rfl
  · unfold retrieveBin
    rw [if_pos hb.1]
    exact hret _ (by unfold Rng.colIndex; omega)
  · rw [Csr.mem_valsOf_ops]
    refine ⟨binIndices (binRangeOf nb) (binsBox rnd (binRangeOf nb) (extentsOf regions).b
      (binSizeOf rnd (extentsOf regions) nb) r), ?_, ?_⟩
    · rw [items, List.getElem?_map, hk]; rfl
    · rw [mem_binIndices _ _ (binsBox_sub hnb _ _ r) _ hc]
      apply extend2_pts
      intro i
      exact ⟨clamp_mono _ (binRange_pos hnb) _ _ i (cell_mono hr (hpos i) (hp i).1),
        clamp_mono _ (binRange_pos hnb) _ _ i (cell_mono hr (hpos i) (hp i).2)⟩

/-- C18: every bin the hash has can be read, and it lists region numbers in increasing order, so no
region appears twice and every number is valid. -/
theorem C18_once (rnd : Rat → Rat) (nb : Tup d) (hnb : ∀ i, 1 ≤ nb i)
    (regions : List (Box d)) (hs : ∀ i, binSizeOf rnd (extentsOf regions) nb i ≠ 0) :
    ∃ h, make rnd nb regions = some h ∧
      ∀ iBin : Int, 0 ≤ iBin → iBin < (binRangeOf nb).count →
        ∃ bin, retrieveBin h iBin = some bin ∧ bin.Pairwise (· < ·) ∧
          ∀ k ∈ bin, k < regions.length := by
  obtain ⟨h, hm, e1, e2, e3, hret⟩ := make_spec (rnd := rnd) (regions := regions) hnb hs
  refine ⟨h, hm, ?_⟩
  intro iBin h0 h1
  refine ⟨_, ?_, Csr.sorted_valsOf_ops _ (items_nodup (rnd := rnd) (regions := regions) hnb) iBin.toNat, ?_⟩
  · unfold retrieveBin; rw [if_pos h0]; exact hret _ (by omega)
  · intro k hk
    obtain ⟨l, hl, _⟩ := (Csr.mem_valsOf_ops _ _ _).1 hk
    have : k < (items rnd nb regions).length := by
      by_contra hc
      rw [List.getElem?_eq_none (by omega)] at hl; simp at hl
    simpa [items] using this

/-- C18: the answer "no bin" is only given for points outside all regions. -/
theorem C18_outside (rnd : Rat → Rat) (nb : Tup d) (regions : List (Box d)) (h : Hash d)
    (hm : make rnd nb regions = some h) (p : Pt d)
    (hp : h.extents.contains p = false) : mapToBin rnd h p = some (-1) ∧
      ∀ r ∈ regions, ¬ Spec.boxHas r p := by
  refine ⟨by simp [mapToBin, hp], ?_⟩
  intro r hr hrp
  have he : h.extents = extentsOf regions := by
    unfold make at hm
    simp only [Option.bind_eq_bind, Option.bind_eq_some_iff, Option.pure_def, Option.some.injEq] at hm
    obtain ⟨_, _, _, _, rfl⟩ := hm
    rfl
  rw [he] at hp
  have := (Box.contains_iff _ _).2 (extentsOf_has regions r hr p hrp)
  rw [hp] at this; simp at this

/-- C18, exact arithmetic: unless the regions are flat in some dimension, all bin sizes are non-zero,
so `C18_never_misses` and `C18_once` apply. -/
theorem C18_defined (nb : Tup d) (hnb : ∀ i, 1 ≤ nb i) (regions : List (Box d))
    (hf : Spec.NotFlat regions) : ∀ i, binSizeOf id (extentsOf regions) nb i ≠ 0 := by
  intro i
  obtain ⟨r, hr, p, hp, s, hs, q, hq, hlt⟩ := hf i
  have h1 := extentsOf_has regions r hr p hp i
  have h2 := extentsOf_has regions s hs q hq i
  have hpos : 0 < (extentsOf regions).e i - (extentsOf regions).b i := by
    have := h1.1; have := h2.2; linarith
  have hn : (0 : Rat) < (nb i : Rat) := by
    have := hnb i; exact_mod_cast (by omega : (0 : Int) < nb i)
  unfold binSizeOf Box.size
  simp only [id]
  rw [max_eq_left hpos.le]
  exact (div_pos hpos hn).ne'

/-- C18: regions that are flat in some dimension make the constructor divide by a zero bin size and
convert the result to an integer, which is undefined. -/
theorem C18_flat_undefined :
    make id ![2, 2] [(⟨![0, 0], ![1, 0]⟩ : Box 2), ⟨![1, 0], ![2, 0]⟩] = none := by
  decide +kernel

/-- A rounding that is not the identity. -/
example : Spec.Rounding (fun x : Rat => (⌊4 * x⌋ : Rat) / 4) :=
  ⟨fun x y h => by
      apply div_le_div_of_nonneg_right _ (by norm_num)
      exact_mod_cast Int.floor_le_floor (by linarith), by norm_num⟩

/-- Two overlapping boxes that satisfy the hypotheses, and a look-up in them. -/
example : Spec.NotFlat [(⟨![0, 0], ![1, 2]⟩ : Box 2), ⟨![1, 1], ![3, 3]⟩] := by
  intro i
  refine ⟨⟨![0, 0], ![1, 2]⟩, by simp, ![0, 0], ?_, ⟨![1, 1], ![3, 3]⟩, by simp, ![3, 3], ?_, ?_⟩
  · intro j; fin_cases j <;> simp
  · intro j; fin_cases j <;> norm_num
  · fin_cases i <;> simp

example : (make id ![2, 3] [(⟨![0, 0], ![1, 2]⟩ : Box 2), ⟨![1, 1], ![3, 3]⟩]).bind
    (fun h => (mapToBin id h ![1, 3/2]).bind (retrieveBin h)) = some [0, 1] := by decide +kernel

end RegionHash
end Ovk
