/-
Property C38: searching the cell that contains a point.
-/
import Verif.Model.OverlapAccel
import Verif.Props.RegionHash
import Mathlib.Tactic.Positivity

namespace Ovk
namespace Accel
variable {d : Nat}

namespace Spec
/-- Local coordinates in the unit cube. -/
def Inside (u : Pt d) : Prop := ∀ i, 0 ≤ u i ∧ u i ≤ 1

/-- `u` is no further from the center than `v` in the maximum norm. -/
def Closer (u v : Pt d) : Prop := ∀ i, ∃ j, |u i - 1 / 2| ≤ |v j - 1 / 2|

/-- Squared distance from the unit cube. -/
def outDist (u : Pt d) : Rat := ∑ i, (max 0 (max (u i - 1) (-u i))) ^ 2

/-- `u` is at least as good as `v`: inside beats outside; inside, closeness to the center counts; outside,
the distance. -/
def AtLeast (u v : Pt d) : Prop :=
  (Inside u ∧ ¬ Inside v) ∨ (Inside u ∧ Inside v ∧ Closer u v) ∨
  (¬ Inside u ∧ ¬ Inside v ∧ outDist u ≤ outDist v)
end Spec

/-! ### The tree -/

theorem numBins_pos {nbx : Box d} {ds : Pt d} {n : Nat} {nb : Tup d} (h : numBins nbx ds n = some nb) :
    ∀ i, 1 ≤ nb i := by
  intro i
  unfold numBins at h
  split_ifs at h
  · obtain rfl := Option.some.inj h; exact le_max_right _ _
  · obtain rfl := Option.some.inj h; exact le_refl _

/-- The bins of a leaf exist only for non-zero bin sizes, unless there is nothing in it. -/
theorem leaf_sizes {rnd : Rat → Rat} {nb : Tup d} {rs : List (Box d)} {h : RegionHash.Hash d}
    (hm : RegionHash.make rnd nb rs = some h) (hne : rs ≠ []) :
    ∀ i, RegionHash.binSizeOf rnd (RegionHash.extentsOf rs) nb i ≠ 0 := by
  cases rs with
  | nil => exact absurd rfl hne
  | cons r rs =>
    unfold RegionHash.make at hm
    by_contra hc
    have : RegionHash.mapToBins rnd (binRangeOf nb) (RegionHash.extentsOf (r :: rs)).b
        (RegionHash.binSizeOf rnd (RegionHash.extentsOf (r :: rs)) nb) r = none := by
      unfold RegionHash.mapToBins cellsQ?
      rw [if_neg hc]; rfl
    dsimp only at hm
    rw [List.mapM_cons] at hm
    simp only [this, Option.bind_eq_bind, Option.bind_none] at hm
    exact absurd hm (by simp)

theorem mapM_lookup (cells : List Nat) : ∀ (bin : List Nat), (∀ k ∈ bin, k < cells.length) →
    bin.mapM (fun k => cells[k]?) = some (bin.map fun k => cells[k]?.getD 0)
  | [], _ => rfl
  | k :: bin, h => by
    have hk := h k (by simp)
    rw [List.mapM_cons, mapM_lookup cells bin fun j hj => h j (by simp [hj])]
    simp [List.getElem?_eq_getElem hk]

theorem make_fields {rnd : Rat → Rat} {nb : Tup d} {rs : List (Box d)} {h : RegionHash.Hash d}
    (hm : RegionHash.make rnd nb rs = some h) : h.extents = RegionHash.extentsOf rs ∧
      h.binRange = binRangeOf nb ∧ h.binSize = RegionHash.binSizeOf rnd (RegionHash.extentsOf rs) nb := by
  unfold RegionHash.make at hm
  simp only [Option.bind_eq_bind, Option.bind_eq_some_iff, Option.pure_def, Option.some.injEq] at hm
  obtain ⟨_, _, _, _, rfl⟩ := hm
  exact ⟨rfl, rfl, rfl⟩

theorem sublist_of_indices (cells bin : List Nat) (hs : bin.Pairwise (· < ·))
    (hb : ∀ k ∈ bin, k < cells.length) : (bin.map fun k => cells[k]?.getD 0).Sublist cells := by
  have h1 : bin.Sublist (List.range cells.length) := by
    apply List.sublist_of_subperm_of_pairwise (r := (· < ·))
    · exact List.subperm_of_subset (hs.imp fun h => Nat.ne_of_lt h) fun k hk => List.mem_range.2 (hb k hk)
    · exact hs
    · exact List.pairwise_lt_range
  have h2 : (List.range cells.length).map (fun k => cells[k]?.getD 0) = cells := by
    apply List.ext_getElem
    · simp
    · intro k h1 h2
      simp [List.getElem?_eq_getElem h2]
  rw [← h2]
  simpa [h2] using h1.map fun k => cells[k]?.getD 0

/-- A leaf: looking up a point in the box of a cell of the leaf is defined, finds the cell, and only cells
of the leaf, in their order. -/
theorem leaf_spec {rnd : Rat → Rat} (hr : Ovk.Spec.Rounding rnd) {box : Nat → Box (d + 1)}
    {desired : List Nat → Pt (d + 1)} {cells : List Nat} {t : Tree (d + 1)}
    (ht : makeLeaf rnd box desired cells = some t) (p : Pt (d + 1)) :
    ∃ cand, candidates rnd t p = some cand ∧ (∀ k ∈ cells, Ovk.Spec.boxHas (box k) p → k ∈ cand) ∧
      cand.Sublist cells := by
  unfold makeLeaf at ht
  simp only [Option.bind_eq_bind, Option.bind_eq_some_iff, Option.pure_def, Option.some.injEq] at ht
  obtain ⟨nb, hnb, h, hm, rfl⟩ := ht
  have hnb' := numBins_pos hnb
  obtain ⟨e1, e2, e3⟩ := make_fields hm
  by_cases hin : h.extents.contains p = true
  · have hne : cells.map box ≠ [] := by
      intro hc
      have h1 := (Box.contains_iff _ _).1 hin 0
      rw [e1, hc] at h1
      have h2 : (0 : Rat) ≤ p 0 := h1.1
      have h3 : p 0 ≤ -1 := h1.2
      linarith
    have hs := leaf_sizes hm hne
    obtain ⟨h1, hm1, hmiss⟩ := RegionHash.C18_never_misses rnd hr nb hnb' (cells.map box) hs
    obtain ⟨h2, hm2, honce⟩ := RegionHash.C18_once rnd nb hnb' (cells.map box) hs
    obtain rfl : h = h1 := Option.some.inj (hm.symm.trans hm1)
    obtain rfl : h = h2 := Option.some.inj (hm.symm.trans hm2)
    have hc := Ovk.clamp_pts (binRangeOf nb) (RegionHash.binRange_pos hnb')
      (fun i => ⌊rnd (rnd (p i - (RegionHash.extentsOf (cells.map box)).b i) /
        RegionHash.binSizeOf rnd (RegionHash.extentsOf (cells.map box)) nb i)⌋)
    have hib := (binRangeOf nb).index_bounds .col _ hc
    have hmap : RegionHash.mapToBin rnd h p = some ((binRangeOf nb).colIndex (clampToRange (binRangeOf nb)
        (fun i => ⌊rnd (rnd (p i - (RegionHash.extentsOf (cells.map box)).b i) /
          RegionHash.binSizeOf rnd (RegionHash.extentsOf (cells.map box)) nb i)⌋))) := by
      unfold RegionHash.mapToBin
      rw [if_pos hin, e1, e2, e3, cellsQ_eq _ _ _ _ hs]
      rfl
    obtain ⟨bin, hbin, hsorted, hlt⟩ := honce _ hib.1 hib.2
    have hlt' : ∀ k ∈ bin, k < cells.length := fun k hk => by simpa using hlt k hk
    refine ⟨bin.map fun k => cells[k]?.getD 0, ?_, ?_, sublist_of_indices cells bin hsorted hlt'⟩
    · unfold candidates
      rw [hmap]
      simp only [Option.bind_eq_bind, Option.bind_some]
      rw [if_pos (by exact hib.1)]
      rw [show RegionHash.retrieveBin h _ = some bin from hbin]
      exact mapM_lookup cells bin hlt'
    · intro k hk hb
      obtain ⟨j, hj, hjk⟩ := List.getElem_of_mem hk
      obtain ⟨iBin, bin', hb1, hb2, hb3⟩ := hmiss j (box k)
        (by rw [List.getElem?_map, List.getElem?_eq_getElem hj, hjk]; rfl) p hb
      obtain rfl := Option.some.inj (hb1.symm.trans hmap)
      obtain rfl : bin' = bin := Option.some.inj (hb2.symm.trans hbin)
      exact List.mem_map.2 ⟨j, hb3, by rw [List.getElem?_eq_getElem hj, hjk]; rfl⟩
  · have hin' : h.extents.contains p = false := by simpa using hin
    obtain ⟨h1, h2⟩ := RegionHash.C18_outside rnd nb (cells.map box) h hm p hin'
    refine ⟨[], ?_, ?_, List.nil_sublist _⟩
    · unfold candidates
      rw [h1]; rfl
    · intro k hk hb
      exact absurd hb (h2 _ (List.mem_map.2 ⟨k, hk, rfl⟩))

/-- C38: whatever the depth, the split positions and the bin sizes, descending the tree is defined and the
cells looked at include every cell of the tree whose box contains the point; they are cells of the tree, in
order. -/
theorem C38_candidates {rnd : Rat → Rat} (hr : Ovk.Spec.Rounding rnd) (box : Nat → Box (d + 2))
    (desired : List Nat → Pt (d + 2)) (split : Fin (d + 2) → List Nat → Rat) (isLeaf : List Nat → Bool)
    (p : Pt (d + 2)) : ∀ (fuel : Nat) (cells : List Nat) (t : Tree (d + 2)),
    createNode rnd box desired split isLeaf fuel cells = some t →
    ∃ cand, candidates rnd t p = some cand ∧ (∀ k ∈ cells, Ovk.Spec.boxHas (box k) p → k ∈ cand) ∧
      cand.Sublist cells
  | 0, cells, t, ht => leaf_spec hr (by simpa [createNode] using ht) p
  | fuel + 1, cells, t, ht => by
    unfold createNode at ht
    by_cases hl : isLeaf cells = true
    · rw [if_pos hl] at ht
      exact leaf_spec hr ht p
    · rw [if_neg hl] at ht
      simp only [Option.bind_eq_bind, Option.bind_eq_some_iff, Option.pure_def, Option.some.injEq] at ht
      obtain ⟨l, hl', r, hr', rfl⟩ := ht
      generalize splitDim (RegionHash.extentsOf (cells.map box)) = i at *
      generalize split i cells = s at *
      unfold candidates
      by_cases hp : p i ≤ s
      · rw [if_pos hp]
        obtain ⟨cand, h1, h2, h3⟩ := C38_candidates hr box desired split isLeaf p fuel _ _ hl'
        refine ⟨cand, h1, fun k hk hb => h2 k ?_ hb, h3.trans List.filter_sublist⟩
        rw [List.mem_filter, decide_eq_true_iff]
        exact ⟨hk, (hb i).1.trans hp⟩
      · rw [if_neg hp]
        obtain ⟨cand, h1, h2, h3⟩ := C38_candidates hr box desired split isLeaf p fuel _ _ hr'
        refine ⟨cand, h1, fun k hk hb => h2 k ?_ hb, h3.trans List.filter_sublist⟩
        rw [List.mem_filter, decide_eq_true_iff]
        exact ⟨hk, (not_le.1 hp).le.trans (hb i).2⟩

/-! ### Choosing among the candidates -/

theorem inside_iff (u : Pt d) : isInside u = true ↔ Spec.Inside u := by
  unfold isInside Spec.Inside
  rw [Bool.not_eq_true', decide_eq_false_iff_not]
  push Not
  exact Iff.rfl

theorem foldl_max_le (f : Fin d → Rat) : ∀ (l : List (Fin d)) (m x : Rat),
    l.foldl (fun m i => max m (f i)) m ≤ x ↔ m ≤ x ∧ ∀ i ∈ l, f i ≤ x
  | [], m, x => by simp
  | i :: l, m, x => by
    rw [List.foldl_cons, foldl_max_le f l, max_le_iff]
    simp [and_assoc]

theorem foldl_max_attained (f : Fin d → Rat) : ∀ (l : List (Fin d)) (m : Rat),
    l.foldl (fun m i => max m (f i)) m = m ∨ ∃ i ∈ l, l.foldl (fun m i => max m (f i)) m = f i
  | [], m => .inl rfl
  | i :: l, m => by
    rw [List.foldl_cons]
    rcases foldl_max_attained f l (max m (f i)) with h | ⟨j, hj, h⟩
    · rw [h]
      rcases max_choice m (f i) with h' | h'
      · exact .inl h'
      · exact .inr ⟨i, by simp, h'⟩
    · exact .inr ⟨j, by simp [hj], h⟩

theorem closer_iff (u v : Pt (d + 1)) : Spec.Closer u v ↔ centerDist u ≤ centerDist v := by
  unfold centerDist Spec.Closer
  rw [foldl_max_le]
  have hv := (foldl_max_le (fun i => |v i - 1 / 2|) (List.finRange (d + 1)) 0 _).1 (le_refl _)
  constructor
  · intro h
    refine ⟨hv.1, fun i _ => ?_⟩
    obtain ⟨j, hj⟩ := h i
    exact hj.trans (hv.2 j (List.mem_finRange j))
  · rintro ⟨_, h⟩ i
    have hi := h i (List.mem_finRange i)
    rcases foldl_max_attained (fun i => |v i - 1 / 2|) (List.finRange (d + 1)) 0 with h' | ⟨j, _, h'⟩
    · refine ⟨0, ?_⟩
      rw [h'] at hi
      exact hi.trans (abs_nonneg _)
    · rw [h'] at hi
      exact ⟨j, hi⟩

theorem outsideDist_eq (u : Pt d) : outsideDist u = Spec.outDist u := by
  unfold outsideDist Spec.outDist
  rw [← List.ofFn_eq_map, List.sum_ofFn]
  apply Finset.sum_congr rfl
  intro i _
  split_ifs with h1 h2
  · rw [max_eq_left (by linarith : -u i ≤ u i - 1), max_eq_right (by linarith)]; ring
  · rw [max_eq_right (by linarith : u i - 1 ≤ -u i), max_eq_right (by linarith)]
  · rw [max_eq_left]
    exact max_le (by linarith) (by linarith)

theorem atLeast_iff (u v : Pt (d + 1)) : Spec.AtLeast u v ↔
    (isInside u = true ∧ isInside v = false) ∨
    (isInside u = true ∧ isInside v = true ∧ centerDist u ≤ centerDist v) ∨
    (isInside u = false ∧ isInside v = false ∧ outsideDist u ≤ outsideDist v) := by
  have h : ∀ w : Pt (d + 1), isInside w = false ↔ ¬ Spec.Inside w := fun w => by
    rw [← inside_iff]; simp
  unfold Spec.AtLeast
  rw [inside_iff, inside_iff, h, h, closer_iff, outsideDist_eq, outsideDist_eq]

/-- State of the loop after the cells of `l`. -/
structure Inv (coords : Nat → Option (Pt (d + 1))) (l : List Nat) (s : Best (d + 1)) : Prop where
  none : s.res = none → s.inside = false ∧ s.outside = none ∧ ∀ j ∈ l, coords j = none
  some : ∀ k u, s.res = some (k, u) → k ∈ l ∧ coords k = some u ∧ s.inside = isInside u ∧
    (isInside u = true → s.center = some (centerDist u)) ∧
    (isInside u = false → s.outside = some (outsideDist u)) ∧
    ∀ j ∈ l, ∀ v, coords j = some v → Spec.AtLeast u v ∧ (Spec.AtLeast v u → k ≤ j)

theorem consider_inv (coords : Nat → Option (Pt (d + 1))) (l : List Nat) (s : Best (d + 1))
    (h : Inv coords l s) (j : Nat) (hj : ∀ k ∈ l, k < j) : Inv coords (l ++ [j]) (consider coords s j) := by
  -- replacing the result by a strictly better one
  have repl : ∀ (u : Pt (d + 1)) (s' : Best (d + 1)), coords j = Option.some u →
      s'.res = Option.some (j, u) → s'.inside = isInside u →
      (isInside u = true → s'.center = Option.some (centerDist u)) →
      (isInside u = false → s'.outside = Option.some (outsideDist u)) →
      (∀ k v, s.res = Option.some (k, v) → ¬ Spec.AtLeast v u ∧ ∀ w, Spec.AtLeast v w → Spec.AtLeast u w ∧
        ¬ Spec.AtLeast w u) → Inv coords (l ++ [j]) s' := by
    intro u s' hu h1 h2 h3 h4 h5
    constructor
    · intro hn; rw [h1] at hn; exact absurd hn (by simp)
    · intro k' u' e
      rw [h1] at e
      obtain ⟨rfl, rfl⟩ := Prod.mk.inj (Option.some.inj e)
      refine ⟨by simp, hu, h2, h3, h4, ?_⟩
      intro i hi v hv
      rcases List.mem_append.1 hi with hi | hi
      · cases hr : s.res with
        | none =>
          have := (h.none hr).2.2 i hi
          rw [hv] at this; exact absurd this (by simp)
        | some kv =>
          obtain ⟨k, w⟩ := kv
          have h6 := ((h.some k w hr).2.2.2.2.2 i hi v hv).1
          have h7 := (h5 k w hr).2 v h6
          exact ⟨h7.1, fun hc => absurd hc h7.2⟩
      · obtain rfl := List.mem_singleton.1 hi
        rw [hu] at hv
        obtain rfl := Option.some.inj hv
        refine ⟨(atLeast_iff _ _).2 ?_, fun _ => le_refl _⟩
        cases isInside u <;> simp
  -- keeping the result
  have keep : ∀ (hres : coords j = Option.none ∨ ∃ k w v, s.res = Option.some (k, w) ∧
      coords j = Option.some v ∧ Spec.AtLeast w v), Inv coords (l ++ [j]) s := by
    intro hres
    constructor
    · intro hn
      have := h.none hn
      refine ⟨this.1, this.2.1, ?_⟩
      intro i hi
      rcases List.mem_append.1 hi with hi | hi
      · exact this.2.2 i hi
      · obtain rfl := List.mem_singleton.1 hi
        rcases hres with hres | ⟨k, w, v, hr, _⟩
        · exact hres
        · rw [hn] at hr; exact absurd hr (by simp)
    · intro k u hku
      obtain ⟨h1, h2, h3, h4, h5, h6⟩ := h.some k u hku
      refine ⟨by simp [h1], h2, h3, h4, h5, ?_⟩
      intro i hi v hv
      rcases List.mem_append.1 hi with hi | hi
      · exact h6 i hi v hv
      · obtain rfl := List.mem_singleton.1 hi
        rcases hres with hres | ⟨k', w, v', hr, hv', ha⟩
        · rw [hres] at hv; exact absurd hv (by simp)
        · rw [hku] at hr
          obtain ⟨rfl, rfl⟩ := Prod.mk.inj (Option.some.inj hr)
          rw [hv] at hv'
          obtain rfl := Option.some.inj hv'
          exact ⟨ha, fun _ => (hj k h1).le⟩
  unfold consider
  cases hu : coords j with
  | none => exact keep (.inl hu)
  | some u =>
    dsimp only
    cases hin : s.inside
    · rw [if_neg (by simp)]
      by_cases hiu : isInside u = true
      · rw [if_pos hiu]
        apply repl u _ hu rfl hiu.symm (fun _ => rfl) (fun hc => by rw [hiu] at hc; exact absurd hc (by simp))
        intro k v hkv
        have hv : isInside v = false := by rw [← (h.some k v hkv).2.2.1, hin]
        refine ⟨fun hc => ?_, fun w hw => ?_⟩
        · rw [atLeast_iff, hv, hiu] at hc; simp at hc
        · rw [atLeast_iff, hv] at hw
          simp only [Bool.false_eq_true, false_and, false_or, true_and] at hw
          rw [atLeast_iff, atLeast_iff, hiu, hw.1]
          simp
      · have hiu' : isInside u = false := by simpa using hiu
        rw [if_neg hiu]
        cases hr : s.res with
        | none =>
          have hn := h.none hr
          rw [hn.2.1, if_pos (show below (outsideDist u) Option.none = true from rfl)]
          apply repl u _ hu rfl (by rw [hiu', ← hin]) (fun hc => absurd hc hiu) (fun _ => rfl)
          intro k v hkv
          rw [hr] at hkv; exact absurd hkv (by simp)
        | some kv =>
          obtain ⟨k, v⟩ := kv
          have hs := h.some k v hr
          have hv : isInside v = false := by rw [← hs.2.2.1, hin]
          rw [hs.2.2.2.2.1 hv]
          unfold below
          by_cases hlt : outsideDist u < outsideDist v
          · rw [if_pos (by simpa using hlt)]
            apply repl u _ hu rfl (by rw [hiu', ← hin]) (fun hc => absurd hc hiu) (fun _ => rfl)
            intro k' v' hkv
            rw [hr] at hkv
            obtain ⟨rfl, rfl⟩ := Prod.mk.inj (Option.some.inj hkv)
            refine ⟨fun hc => ?_, fun w hw => ?_⟩
            · rw [atLeast_iff, hv, hiu'] at hc
              simp only [Bool.false_eq_true, false_and, false_or, true_and] at hc
              linarith
            · rw [atLeast_iff, hv] at hw
              simp only [Bool.false_eq_true, false_and, false_or, true_and] at hw
              rw [atLeast_iff, atLeast_iff, hiu', hw.1]
              simp only [Bool.false_eq_true, false_and, false_or, true_and]
              exact ⟨by linarith [hw.2], by linarith [hw.2]⟩
          · rw [if_neg (by simpa using hlt)]
            refine keep (.inr ⟨k, v, u, hr, hu, (atLeast_iff _ _).2 (.inr (.inr ⟨hv, hiu', ?_⟩))⟩)
            exact not_lt.1 hlt
    · rw [if_pos rfl]
      cases hr : s.res with
      | none =>
        have := (h.none hr).1
        rw [hin] at this; exact absurd this (by simp)
      | some kv =>
        obtain ⟨k, v⟩ := kv
        have hs := h.some k v hr
        have hv : isInside v = true := by rw [← hs.2.2.1, hin]
        by_cases hiu : isInside u = true
        · rw [if_pos hiu, hs.2.2.2.1 hv]
          unfold below
          by_cases hlt : centerDist u < centerDist v
          · rw [if_pos (by simpa using hlt)]
            apply repl u _ hu rfl (by rw [hiu]) (fun _ => rfl)
              (fun hc => by rw [hiu] at hc; exact absurd hc (by simp))
            intro k' v' hkv
            rw [hr] at hkv
            obtain ⟨rfl, rfl⟩ := Prod.mk.inj (Option.some.inj hkv)
            refine ⟨fun hc => ?_, fun w hw => ?_⟩
            · rw [atLeast_iff, hv, hiu] at hc
              simp at hc
              linarith
            · rw [atLeast_iff, hv] at hw
              rw [atLeast_iff, atLeast_iff, hiu]
              cases hw' : isInside w
              · simp
              · rw [hw'] at hw
                simp at hw
                simp
                exact ⟨by linarith, by linarith⟩
          · rw [if_neg (by simpa using hlt)]
            refine keep (.inr ⟨k, v, u, hr, hu, (atLeast_iff _ _).2 (.inr (.inl ⟨hv, hiu, ?_⟩))⟩)
            exact not_lt.1 hlt
        · have hiu' : isInside u = false := by simpa using hiu
          rw [if_neg hiu]
          exact keep (.inr ⟨k, v, u, hr, hu, (atLeast_iff _ _).2 (.inl ⟨hv, hiu'⟩)⟩)

theorem fold_inv (coords : Nat → Option (Pt (d + 1))) : ∀ (l pre : List Nat) (s : Best (d + 1)),
    Inv coords pre s → (pre ++ l).Pairwise (· < ·) → Inv coords (pre ++ l) (l.foldl (consider coords) s)
  | [], pre, s, h, _ => by simpa using h
  | j :: l, pre, s, h, hp => by
    have h1 := consider_inv coords pre s h j fun k hk =>
      (List.pairwise_append.1 hp).2.2 k hk j (by simp)
    have h2 := fold_inv coords l (pre ++ [j]) _ h1 (by simpa using hp)
    simpa using h2

/-- C38: a search is defined; what it returns is an active cell together with the local coordinates of the
point in it, at least as good as every active cell whose box contains the point, and the first one of those
equally good; if it returns nothing, no active cell whose box contains the point accepts it. -/
theorem C38_find {rnd : Rat → Rat} (hr : Ovk.Spec.Rounding rnd) (n : Nat) (mask : Nat → Bool)
    (box : Nat → Box (d + 2)) (desired : List Nat → Pt (d + 2)) (split : Fin (d + 2) → List Nat → Rat)
    (isLeaf : List Nat → Bool) (maxDepth : Nat) (a : Box (d + 2) × Option (Tree (d + 2)))
    (ha : make rnd n mask box desired split isLeaf maxDepth = some a)
    (coords : Nat → Option (Pt (d + 2))) (p : Pt (d + 2)) :
    ∃ res, findCell rnd a coords p = some res ∧
      (∀ k u, res = some (k, u) → k < n ∧ mask k = true ∧ coords k = some u ∧
        ∀ j v, j < n → mask j = true → Ovk.Spec.boxHas (box j) p → coords j = some v →
          Spec.AtLeast u v ∧ (Spec.AtLeast v u → k ≤ j)) ∧
      (res = none → ∀ j, j < n → mask j = true → Ovk.Spec.boxHas (box j) p → coords j = none) := by
  have hext : ∀ j, j < n → Ovk.Spec.boxHas (box j) p →
      (RegionHash.extentsOf ((List.range n).map box)).contains p = true := fun j hj hb =>
    (Box.contains_iff _ _).2 (extentsOf_has _ (box j)
      (List.mem_map.2 ⟨j, List.mem_range.2 hj, rfl⟩) p hb)
  unfold make at ha
  dsimp only at ha
  by_cases he : (RegionHash.extentsOf ((List.range n).map box)).empty = true
  · rw [if_pos he] at ha
    obtain rfl := Option.some.inj ha
    have hc : (RegionHash.extentsOf ((List.range n).map box)).contains p = false := by
      rw [← Bool.not_eq_true]
      intro hc
      have := Box.not_empty_of _ _ ((Box.contains_iff _ _).1 hc)
      rw [he] at this; exact absurd this (by simp)
    refine ⟨none, by unfold findCell; rw [hc]; rfl, fun k u h => absurd h (by simp), ?_⟩
    intro _ j hj _ hb
    rw [hext j hj hb] at hc; exact absurd hc (by simp)
  · rw [if_neg he] at ha
    simp only [Option.bind_eq_bind, Option.bind_eq_some_iff, Option.pure_def, Option.some.injEq] at ha
    obtain ⟨t, ht, rfl⟩ := ha
    unfold findCell
    by_cases hc : (RegionHash.extentsOf ((List.range n).map box)).contains p = true
    · obtain ⟨cand, h1, h2, h3⟩ := C38_candidates hr box desired split isLeaf p maxDepth _ t ht
      have hsorted : cand.Pairwise (· < ·) :=
        (List.pairwise_lt_range.sublist List.filter_sublist).sublist h3
      have hinv := fold_inv coords cand [] {} ⟨fun _ => ⟨rfl, rfl, by simp⟩, fun k u h => absurd h (by simp)⟩
        (by simpa using hsorted)
      rw [List.nil_append] at hinv
      have hmem : ∀ j, j < n → mask j = true → Ovk.Spec.boxHas (box j) p → j ∈ cand := fun j hj hm hb =>
        h2 j (List.mem_filter.2 ⟨List.mem_range.2 hj, hm⟩) hb
      refine ⟨(cand.foldl (consider coords) {}).res, ?_, ?_, ?_⟩
      · rw [if_pos hc]
        simp [h1]
      · intro k u hku
        obtain ⟨g1, g2, _, _, _, g3⟩ := hinv.some k u hku
        have := List.mem_filter.1 (h3.subset g1)
        exact ⟨List.mem_range.1 this.1, this.2, g2, fun j v hj hm hb hv => g3 j (hmem j hj hm hb) v hv⟩
      · intro hn j hj hm hb
        exact (hinv.none hn).2.2 j (hmem j hj hm hb)
    · refine ⟨none, by rw [if_neg hc]; rfl, fun k u h => absurd h (by simp), ?_⟩
      intro _ j hj _ hb
      exact absurd (hext j hj hb) hc

/-! ### Definedness and examples -/

theorem extents_pos (rs : List (Box d)) (r : Box d) (hr : r ∈ rs) (hp : ∀ i, r.b i < r.e i) (i : Fin d) :
    0 < (RegionHash.extentsOf rs).size id i := by
  have h1 := extentsOf_has rs r hr r.b (fun j => ⟨le_refl _, (hp j).le⟩) i
  have h2 := extentsOf_has rs r hr r.e (fun j => ⟨(hp j).le, le_refl _⟩) i
  unfold Box.size
  have := hp i
  exact lt_max_of_lt_left (by show 0 < (RegionHash.extentsOf rs).e i - (RegionHash.extentsOf rs).b i; linarith [h1.1, h2.2])

theorem leaf_defined (box : Nat → Box d) (binScale : Rat) (hb : 0 < binScale) (cells : List Nat)
    (hp : ∀ k ∈ cells, ∀ i, (box k).b i < (box k).e i) :
    ∃ t, makeLeaf id box (desiredBinSize binScale box) cells = some t := by
  have hd : ∀ k ∈ cells, ∀ i, 0 < (box k).size id i := fun k hk i => by
    unfold Box.size; exact lt_max_of_lt_left (by have := hp k hk i; show 0 < (box k).e i - (box k).b i; linarith)
  have hnb : ∃ nb, numBins (RegionHash.extentsOf (cells.map box)) (desiredBinSize binScale box cells)
      cells.length = some nb := by
    unfold numBins
    by_cases hl : cells.length > 1
    · rw [if_pos hl, if_pos]
      · exact ⟨_, rfl⟩
      · intro i
        apply ne_of_gt
        unfold desiredBinSize
        apply mul_pos hb
        apply div_pos
        · apply List.sum_pos
          · intro x hx
            obtain ⟨k, hk, rfl⟩ := List.mem_map.1 hx
            exact hd k hk i
          · intro hc
            rw [List.map_eq_nil_iff] at hc
            rw [hc] at hl; simp at hl
        · exact lt_max_of_lt_right (by norm_num)
    · rw [if_neg hl]; exact ⟨_, rfl⟩
  obtain ⟨nb, hnb⟩ := hnb
  have hmk : ∃ h, RegionHash.make id nb (cells.map box) = some h := by
    cases cells with
    | nil =>
      obtain ⟨h, hh, _⟩ := Csr.build_spec (binRangeOf nb).count.toNat [] (by simp)
      have h2 : RegionHash.binIndices (binRangeOf nb) (binRangeOf nb) =
          List.range (binRangeOf nb).count.toNat :=
        (binRangeOf nb).points_colIndexNat (RegionHash.binRange_pos (numBins_pos hnb))
      unfold RegionHash.make
      simp [h2, hh]
    | cons k cells =>
      obtain ⟨h, hh, _⟩ := RegionHash.make_spec (rnd := id) (regions := (k :: cells).map box)
        (numBins_pos hnb) fun i => by
          have h1 := extents_pos ((k :: cells).map box) (box k) (by simp) (hp k (by simp)) i
          have h2 : (0 : Rat) < (nb i : Rat) := by
            have := numBins_pos hnb i; exact_mod_cast (by omega : (0 : Int) < nb i)
          exact (div_pos h1 h2).ne'
      exact ⟨h, hh⟩
  obtain ⟨h, hh⟩ := hmk
  exact ⟨.leaf cells h, by unfold makeLeaf; simp [hnb, hh]⟩

/-- C38 (exact arithmetic): if no active cell is flat, building the tree is defined. -/
theorem C38_defined (n : Nat) (mask : Nat → Bool) (box : Nat → Box (d + 2)) (binScale : Rat)
    (hb : 0 < binScale) (split : Fin (d + 2) → List Nat → Rat) (isLeaf : List Nat → Bool) (maxDepth : Nat)
    (hp : ∀ k, k < n → mask k = true → ∀ i, (box k).b i < (box k).e i) :
    ∃ a, make id n mask box (desiredBinSize binScale box) split isLeaf maxDepth = some a := by
  have key : ∀ (fuel : Nat) (cells : List Nat), (∀ k ∈ cells, ∀ i, (box k).b i < (box k).e i) →
      ∃ t, createNode id box (desiredBinSize binScale box) split isLeaf fuel cells = some t := by
    intro fuel
    induction fuel with
    | zero => intro cells h; exact leaf_defined box binScale hb cells h
    | succ fuel ih =>
      intro cells h
      unfold createNode
      by_cases hl : isLeaf cells = true
      · rw [if_pos hl]; exact leaf_defined box binScale hb cells h
      · rw [if_neg hl]
        dsimp only
        obtain ⟨l, hl'⟩ := ih (cells.filter fun k => decide ((box k).b
          (splitDim (RegionHash.extentsOf (cells.map box))) ≤
            split (splitDim (RegionHash.extentsOf (cells.map box))) cells))
          fun k hk => h k (List.mem_filter.1 hk).1
        obtain ⟨r, hr'⟩ := ih (cells.filter fun k => decide (split (splitDim (RegionHash.extentsOf
          (cells.map box))) cells ≤ (box k).e (splitDim (RegionHash.extentsOf (cells.map box)))))
          fun k hk => h k (List.mem_filter.1 hk).1
        rw [hl', hr']
        exact ⟨_, rfl⟩
  unfold make
  dsimp only
  split
  · exact ⟨_, rfl⟩
  · obtain ⟨t, ht⟩ := key maxDepth ((List.range n).filter mask) fun k hk => by
      have := List.mem_filter.1 hk
      exact hp k (List.mem_range.1 this.1) this.2
    rw [ht]
    exact ⟨_, rfl⟩

/-- Two flat cells (of a planar grid in space, say) make the construction divide by zero and convert the
result to an integer. -/
theorem C38_flat_undefined : (make (d := 0) id 2 (fun _ => true)
    (fun k => ⟨![(k : Rat), 0], ![(k : Rat) + 1, 0]⟩) (desiredBinSize 1 fun k => ⟨![(k : Rat), 0], ![(k : Rat) + 1, 0]⟩)
    (meanCenter fun k => ⟨![(k : Rat), 0], ![(k : Rat) + 1, 0]⟩) (fun _ => true) 0).isNone = true := by
  decide +kernel

/-- Boxes of four cells in a row. -/
def exBox (k : Nat) : Box 2 := ⟨![(k : Rat), 0], ![(k : Rat) + 1, 1]⟩

/- A tree of depth one over them; the third cell is inactive. -/
example : ((make (d := 0) id 4 (fun k => decide (k ≠ 2)) exBox (desiredBinSize 1 exBox) (meanCenter exBox)
    (fun l => decide (l.length ≤ 1)) 1).bind fun a => (a.2.bind fun t => candidates id t ![1, 1/2])) =
      some [0, 1] := by decide +kernel

example : ((make (d := 0) id 4 (fun k => decide (k ≠ 2)) exBox (desiredBinSize 1 exBox) (meanCenter exBox)
    (fun l => decide (l.length ≤ 1)) 1).bind fun a =>
      (findCell id a (fun k => some ![3/2 - (k : Rat), 1/2]) ![3/2, 1/2]).map fun r => r.map Prod.fst) =
      some (some 1) := by decide +kernel

end Accel
end Ovk
