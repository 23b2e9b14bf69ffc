/- The distributed region hash is complete for every region type satisfying `Lawful`. -/
import Verif.Lemmas.DistHash
import Mathlib.Algebra.Order.Ring.Defs
import Mathlib.Algebra.Order.Ring.Cast
import Mathlib.Tactic.Linarith

namespace Ovk.DHash
variable {d : Nat} {K R : Type} [LinearOrder K] [CommRing K] [IsStrictOrderedRing K]

/-- What a coordinate type and a region type must satisfy.  `hiOk x e`: coordinate `x` is not beyond the
end `e` of an interval. -/
structure Lawful (co : CoordOps K) (ro : RegionOps d K R) (has : R → (Fin d → K) → Prop)
    (Good : R → Prop) (hiOk : K → K → Prop) : Prop where
  hi_mono : ∀ x e e', hiOk x e → e ≤ e' → hiOk x e'
  hi_lt : ∀ x e, x < e → hiOk x e
  not_empty : ∀ b e x, b ≤ x → hiOk x e → co.emptyAt b e = false
  ext_has : ∀ r p, has r p → ∀ i, (ro.ext r).b i ≤ p i ∧ hiOk (p i) ((ro.ext r).e i)
  size_pos : ∀ b e (n : Int), b < e → 1 ≤ n →
    ∃ s, co.binSize1 (max (e - b) 0) n = some s ∧ 0 < s ∧ e ≤ b + (n : K) * s
  cell_def : ∀ o s x, 0 < s → ∃ c : Int, co.cell1 o s x = some c ∧ o + (c : K) * s ≤ x ∧
    x < o + ((c + 1 : Int) : K) * s
  bins_def : ∀ (nb : Tup d) lower size r, Good r → (∀ i, 1 ≤ nb i) → (∀ i, 0 < size i) →
    ∃ bins, ro.mapToBins nb lower size r = some bins ∧ bins.Nodup ∧
      ∀ q ∈ bins, Spec.pts (binRangeOf nb) q
  bins_has : ∀ (nb : Tup d) lower size r p c bins, (∀ i, 1 ≤ nb i) → (∀ i, 0 < size i) → has r p →
    (∀ i, lower i ≤ p i ∧ hiOk (p i) (lower i + (nb i : K) * size i)) →
    cells co lower size p = some c → ro.mapToBins nb lower size r = some bins →
    clampToRange (binRangeOf nb) c ∈ bins
  bins_proc : ∀ (x : Ext d K) (nb : Tup d) size r bins, Good r → (∀ i, 1 ≤ nb i) →
    (∀ i, x.b i < x.e i) → binSizeOf co x nb = some size →
    (∀ p, has r p → ∀ i, x.b i ≤ p i ∧ hiOk (p i) (x.e i)) →
    ro.mapToBins nb x.b size r = some bins → ∀ q ∈ bins, ∀ i, x.b i + (q i : K) * size i < x.e i

theorem allDims_eq {α : Type} (f : Fin d → Option α) (g : Fin d → α) (h : ∀ i, f i = some (g i)) :
    allDims f = some g := by
  unfold allDims
  have hs : ∀ i, (f i).isSome := fun i => by rw [h i]; rfl
  rw [dif_pos hs]
  congr 1
  funext i
  simp [h i]

section
variable {co : CoordOps K} {ro : RegionOps d K R} {has : R → (Fin d → K) → Prop} {Good : R → Prop}
  {hiOk : K → K → Prop} (L : Lawful co ro has Good hiOk)

/-- A point is inside extents. -/
def In (hiOk : K → K → Prop) (x : Ext d K) (p : Fin d → K) : Prop :=
  ∀ i, x.b i ≤ p i ∧ hiOk (p i) (x.e i)
include L

omit [IsStrictOrderedRing K] in
theorem union_left (l r : Ext d K) (p : Fin d → K) (h : In hiOk l p) : In hiOk (unionExt co l r) p := by
  unfold unionExt
  rw [if_neg (by rintro ⟨i, hi⟩; rw [L.not_empty _ _ _ (h i).1 (h i).2] at hi; simp at hi)]
  split_ifs
  · exact h
  · intro i
    exact ⟨(min_le_left _ _).trans (h i).1, L.hi_mono _ _ _ (h i).2 (le_max_left _ _)⟩

omit [IsStrictOrderedRing K] in
theorem union_right (l r : Ext d K) (p : Fin d → K) (h : In hiOk r p) : In hiOk (unionExt co l r) p := by
  unfold unionExt
  split_ifs with h1 h2
  · exact h
  · obtain ⟨i, hi⟩ := h2
    rw [L.not_empty _ _ _ (h i).1 (h i).2] at hi; simp at hi
  · intro i
    exact ⟨(min_le_right _ _).trans (h i).1, L.hi_mono _ _ _ (h i).2 (le_max_right _ _)⟩

omit [IsStrictOrderedRing K] in
theorem foldl_union (p : Fin d → K) : ∀ (xs : List (Ext d K)) (acc : Ext d K),
    (In hiOk acc p ∨ ∃ x ∈ xs, In hiOk x p) → In hiOk (xs.foldl (unionExt co) acc) p
  | [], acc, h => by simpa using h
  | x :: xs, acc, h => by
    rw [List.foldl_cons]
    apply foldl_union p xs
    rcases h with h | ⟨y, hy, h⟩
    · exact .inl (union_left L _ _ _ h)
    · rcases List.mem_cons.1 hy with rfl | hy
      · exact .inl (union_right L _ _ _ h)
      · exact .inr ⟨y, hy, h⟩

omit [IsStrictOrderedRing K] in
theorem reduce_has (p : Fin d → K) : ∀ (xs : List (Ext d K)) (acc : Ext d K),
    (In hiOk acc p ∨ ∃ x ∈ xs, In hiOk x p) → In hiOk (reduceExt xs acc) p
  | [], acc, h => by simpa [reduceExt] using h
  | x :: xs, acc, h => by
    unfold reduceExt
    apply reduce_has p xs
    rcases h with h | ⟨y, hy, h⟩
    · refine .inl fun i => ⟨(min_le_left _ _).trans (h i).1, L.hi_mono _ _ _ (h i).2 (le_max_left _ _)⟩
    · rcases List.mem_cons.1 hy with rfl | hy
      · refine .inl fun i => ⟨(min_le_right _ _).trans (h i).1, L.hi_mono _ _ _ (h i).2 (le_max_right _ _)⟩
      · exact .inr ⟨y, hy, h⟩

omit [IsStrictOrderedRing K] in
theorem global_has (ranks : List (List R)) (rs : List R) (hrs : rs ∈ ranks) (r : R) (hr : r ∈ rs)
    (p : Fin d → K) (h : has r p) : In hiOk (globalExt co ro ranks) p := by
  have hl : In hiOk (localExt co ro rs) p :=
    foldl_union L p _ _ (.inr ⟨ro.ext r, List.mem_map.2 ⟨r, hr, rfl⟩, L.ext_has r p h⟩)
  have hm : localExt co ro rs ∈ ranks.map (localExt co ro) := List.mem_map.2 ⟨rs, hrs, rfl⟩
  unfold globalExt
  split
  · rename_i heq; rw [heq] at hm; simp at hm
  · rename_i x xs heq
    rw [heq] at hm
    apply reduce_has L
    rcases List.mem_cons.1 hm with h1 | h1
    · exact .inl (h1 ▸ hl)
    · exact .inr ⟨_, h1, hl⟩

omit [IsStrictOrderedRing K] in
theorem size_spec (x : Ext d K) (nb : Tup d) (hx : ∀ i, x.b i < x.e i) (hnb : ∀ i, 1 ≤ nb i) :
    ∃ s, binSizeOf co x nb = some s ∧ ∀ i, 0 < s i ∧ x.e i ≤ x.b i + (nb i : K) * s i := by
  choose s hs using fun i => L.size_pos (x.b i) (x.e i) (nb i) (hx i) (hnb i)
  exact ⟨s, allDims_eq _ _ fun i => (hs i).1, fun i => (hs i).2⟩

omit [IsStrictOrderedRing K] in
theorem cells_spec (o s p : Fin d → K) (hs : ∀ i, 0 < s i) :
    ∃ c, cells co o s p = some c ∧ ∀ i, o i + (c i : K) * s i ≤ p i ∧
      p i < o i + ((c i + 1 : Int) : K) * s i := by
  choose c hc using fun i => L.cell_def (o i) (s i) (p i) (hs i)
  exact ⟨c, allDims_eq _ _ fun i => (hc i).1, fun i => (hc i).2⟩

/-- The clamped cell of a point inside the extents contains the point. -/
theorem clamp_cell (x : Ext d K) (nb : Tup d) (hnb : ∀ i, 1 ≤ nb i) (s p : Fin d → K) (c : Tup d)
    (hs : ∀ i, 0 < s i ∧ x.e i ≤ x.b i + (nb i : K) * s i) (hp : In hiOk x p)
    (hc : ∀ i, x.b i + (c i : K) * s i ≤ p i ∧ p i < x.b i + ((c i + 1 : Int) : K) * s i) (i : Fin d) :
    x.b i + (clampToRange (binRangeOf nb) c i : K) * s i ≤ p i ∧
    hiOk (p i) (min (x.b i + ((clampToRange (binRangeOf nb) c i + 1 : Int) : K) * s i) (x.e i)) := by
  have hs0 := (hs i).1
  have hc0 : 0 ≤ c i := by
    by_contra hneg
    have : ((c i + 1 : Int) : K) ≤ 0 := by exact_mod_cast (by omega : c i + 1 ≤ 0)
    have := mul_nonpos_of_nonpos_of_nonneg this hs0.le
    have h1 := (hc i).2; have h2 := (hp i).1
    exact absurd (lt_of_le_of_lt h2 h1) (not_lt.2 (by linarith))
  have hmin : ∀ a, hiOk (p i) a → hiOk (p i) (min a (x.e i)) := by
    intro a ha
    rcases min_choice a (x.e i) with h | h <;> rw [h]
    · exact ha
    · exact (hp i).2
  have hn := hnb i
  unfold clampToRange binRangeOf
  simp only
  rw [if_neg (by omega)]
  split_ifs with hge
  · constructor
    · have : ((nb i - 1 : Int) : K) ≤ (c i : K) := by exact_mod_cast (by omega : nb i - 1 ≤ c i)
      have := mul_le_mul_of_nonneg_right this hs0.le
      linarith [(hc i).1]
    · apply hmin
      rw [show nb i - 1 + 1 = nb i by omega]
      exact L.hi_mono _ _ _ (hp i).2 (hs i).2
  · exact ⟨(hc i).1, hmin _ (L.hi_lt _ _ (hc i).2)⟩

end

section Main
variable {co : CoordOps K} {ro : RegionOps d K R} {has : R → (Fin d → K) → Prop} {Good : R → Prop}
  {hiOk : K → K → Prop}

theorem mem_received (procsOf : List (List (R × List Nat))) (order : List Nat) (dst src : Nat) (r : R) :
    (src, r) ∈ received procsOf order dst ↔
      src ∈ order ∧ ∃ l, procsOf[src]? = some l ∧ ∃ ps, (r, ps) ∈ l ∧ dst ∈ ps := by
  simp only [received, List.mem_flatMap, List.mem_map, List.mem_filter]
  constructor
  · rintro ⟨a, ha, ⟨⟨r', ps⟩, ⟨h1, h2⟩, h3⟩⟩
    simp only [Prod.mk.injEq] at h3
    obtain ⟨rfl, rfl⟩ := h3
    cases hl : procsOf[a]? with
    | none => rw [hl] at h1; simp at h1
    | some l =>
      rw [hl] at h1
      exact ⟨ha, l, rfl, ps, h1, by simpa using h2⟩
  · rintro ⟨ha, l, hl, ps, h1, h2⟩
    exact ⟨src, ha, (r, ps), ⟨by rw [hl]; exact h1, by simpa using h2⟩, rfl⟩

/-- Everything that is needed to build and query the hash, collected. -/
theorem build_and_query (L : Lawful co ro has Good hiOk) (nb : Tup d) (hnb : ∀ i, 1 ≤ nb i)
    (mult : Nat → Int) (hmult : ∀ k, 1 ≤ mult k) (order : Nat → List Nat) (ranks : List (List R))
    (hfit : (binRangeOf nb).count ≤ ranks.length)
    (hgood : ∀ rs ∈ ranks, ∀ r ∈ rs, Good r)
    (hflat : ∀ i, (globalExt co ro ranks).b i < (globalExt co ro ranks).e i) :
    ∃ h, make co ro nb mult order ranks = some h ∧
      h.geo.gext = globalExt co ro ranks ∧ h.geo.nb = nb ∧
      (∀ (src : Nat) (rs : List R) (r : R) (p : Fin d → K), ranks[src]? = some rs → r ∈ rs → has r p →
        (∀ dst ps, overlappedProcs ro h.geo r = some ps → dst ∈ ps → src ∈ order dst) →
        ∃ id, mapToBin co h p = some id ∧ id.1 < ranks.length ∧
          (id.2 : Int) < (binRangeOf (procBins h.geo id.1)).count ∧
          ∃ full, (src, r) ∈ full ∧
            (∀ x ∈ full, ∃ rs', ranks[x.1]? = some rs' ∧ x.2 ∈ rs') ∧
            ∀ ids : List (Nat × Nat), id ∈ ids →
              (∀ x ∈ ids, x.1 = id.1 → (x.2 : Int) < (binRangeOf (procBins h.geo id.1)).count) →
              retrieve h ids id = some full) := by
  obtain ⟨ps, hps, hpspos⟩ := size_spec L (globalExt co ro ranks) nb hflat hnb
  let g : Geo d K := ⟨globalExt co ro ranks, nb, ps, mult⟩
  have hmb : ∀ k i, 1 ≤ procBins g k i := fun k i => hmult k
  have hpos : ∀ i, (binRangeOf nb).b i < (binRangeOf nb).e i := RegionHash.binRange_pos hnb
  -- level one
  have hex : ∀ rs ∈ ranks, ∀ r ∈ rs, ∃ bins, ro.mapToBins nb (globalExt co ro ranks).b ps r = some bins ∧
      bins.Nodup ∧ (∀ q ∈ bins, Spec.pts (binRangeOf nb) q) ∧
      ∀ q ∈ bins, ∀ i, g.gext.b i + (q i : K) * ps i < g.gext.e i := by
    intro rs hrs r hr
    obtain ⟨bins, h1, h2, h3⟩ := L.bins_def nb (globalExt co ro ranks).b ps r (hgood rs hrs r hr) hnb
      (fun i => (hpspos i).1)
    exact ⟨bins, h1, h2, h3, L.bins_proc _ nb ps r bins (hgood rs hrs r hr) hnb hflat hps
      (fun p hp => global_has L ranks rs hrs r hr p hp) h1⟩
  have hproc : ∀ rs ∈ ranks, ∀ r ∈ rs, ∃ l, overlappedProcs ro g r = some l := by
    intro rs hrs r hr
    obtain ⟨bins, h1, _⟩ := hex rs hrs r hr
    exact ⟨_, by unfold overlappedProcs; simp only [show g.nb = nb from rfl,
      show g.gext = globalExt co ro ranks from rfl, show g.psize = ps from rfl, h1]; rfl⟩
  let pr : R → List Nat := fun r => (overlappedProcs ro g r).getD []
  have hpr : ∀ rs ∈ ranks, ∀ r ∈ rs, overlappedProcs ro g r = some (pr r) := by
    intro rs hrs r hr
    obtain ⟨l, hl⟩ := hproc rs hrs r hr
    simp only [pr, hl, Option.getD_some]
  let procsOf : List (List (R × List Nat)) := ranks.map fun rs => rs.map fun r => (r, pr r)
  have hprocsOf : (ranks.mapM fun rs => rs.mapM fun r => do
      let ps ← overlappedProcs ro g r
      pure (r, ps)) = some procsOf := by
    apply mapM_map_some
    intro rs hrs
    apply mapM_map_some
    intro r hr
    rw [hpr rs hrs r hr]; rfl
  -- a rank named by a region has a non-empty share of space
  have hshare : ∀ rs ∈ ranks, ∀ r ∈ rs, ∀ dst ∈ pr r, ∃ q bins,
      ro.mapToBins nb (globalExt co ro ranks).b ps r = some bins ∧ q ∈ bins ∧
      (binRangeOf nb).tuple .row dst = q ∧ dst < ranks.length ∧
      ∀ i, (procExt g q).b i < (procExt g q).e i := by
    intro rs hrs r hr dst hdst
    obtain ⟨bins, h1, h2, h3, h4⟩ := hex rs hrs r hr
    have : pr r = bins.map fun p => ((binRangeOf nb).index .row p).toNat := by
      have := hpr rs hrs r hr
      unfold overlappedProcs at this
      simp only [show g.nb = nb from rfl, show g.gext = globalExt co ro ranks from rfl,
        show g.psize = ps from rfl, h1, Option.bind_eq_bind, Option.bind_some, Option.pure_def,
        Option.some.injEq] at this
      exact this.symm
    rw [this, List.mem_map] at hdst
    obtain ⟨q, hq, rfl⟩ := hdst
    have hb := (binRangeOf nb).index_bounds .row q (h3 q hq)
    refine ⟨q, bins, h1, hq, ?_, by omega, ?_⟩
    · rw [Int.toNat_of_nonneg hb.1, Rng.tuple_index .row _ q (h3 q hq)]
    · intro i
      simp only [procExt, lt_min_iff]
      refine ⟨?_, h4 q hq i⟩
      have h0 := (hpspos i).1
      simp only [show g.psize = ps from rfl]
      push_cast
      rw [add_mul]; linarith
  have hbinsdef : ∀ rs ∈ ranks, ∀ r ∈ rs, ∀ dst ∈ pr r, ∃ l, overlappedBins co ro g r dst = some l ∧
      l.Nodup ∧ ∀ b ∈ l, b < (binRangeOf (procBins g dst)).count.toNat := by
    intro rs hrs r hr dst hdst
    obtain ⟨q, bins, _, _, hq, _, hlt⟩ := hshare rs hrs r hr dst hdst
    obtain ⟨s, hs, hspos⟩ := size_spec L (procExt g q) (procBins g dst) hlt (hmb dst)
    obtain ⟨b2, k1, k2, k3⟩ := L.bins_def (procBins g dst) (procExt g q).b s r (hgood rs hrs r hr)
      (hmb dst) (fun i => (hspos i).1)
    refine ⟨b2.map fun p => ((binRangeOf (procBins g dst)).colIndex p).toNat, ?_, ?_, ?_⟩
    · unfold overlappedBins
      simp only [show g.nb = nb from rfl, hq, hs, k1, Option.bind_eq_bind, Option.bind_some,
        Option.pure_def]
    · refine List.Nodup.map_on ?_ k2
      intro x hx y hy he
      have := (binRangeOf (procBins g dst)).index_bounds .col x (k3 x hx)
      have := (binRangeOf (procBins g dst)).index_bounds .col y (k3 y hy)
      exact (binRangeOf (procBins g dst)).index_inj .col x y (k3 x hx) (k3 y hy)
        (by unfold Rng.colIndex at he; omega)
    · intro b hb
      obtain ⟨p, hp, rfl⟩ := List.mem_map.1 hb
      have := (binRangeOf (procBins g dst)).index_bounds .col p (k3 p hp)
      unfold Rng.colIndex; omega
  let bn : Nat → R → List Nat := fun dst r => (overlappedBins co ro g r dst).getD []
  -- received regions are regions of their senders, and were sent here
  have hrecv : ∀ dst, ∀ x ∈ received procsOf (order dst) dst,
      ∃ rs, ranks[x.1]? = some rs ∧ x.2 ∈ rs ∧ dst ∈ pr x.2 := by
    rintro dst ⟨src, r⟩ hx
    obtain ⟨_, l, hl, ps', h1, h2⟩ := (mem_received _ _ _ _ _).1 hx
    simp only [procsOf, List.getElem?_map, Option.map_eq_some_iff] at hl
    obtain ⟨rs, hrs, rfl⟩ := hl
    obtain ⟨r', hr', he⟩ := List.mem_map.1 h1
    simp only [Prod.mk.injEq] at he
    obtain ⟨rfl, rfl⟩ := he
    exact ⟨rs, hrs, hr', h2⟩
  have hbn : ∀ dst, ∀ x ∈ received procsOf (order dst) dst,
      overlappedBins co ro g x.2 dst = some (bn dst x.2) ∧ (bn dst x.2).Nodup ∧
      ∀ b ∈ bn dst x.2, b < (binRangeOf (procBins g dst)).count.toNat := by
    intro dst x hx
    obtain ⟨rs, h1, h2, h3⟩ := hrecv dst x hx
    obtain ⟨l, hl, h4⟩ := hbinsdef rs (List.mem_of_getElem? h1) x.2 h2 dst h3
    have e : bn dst x.2 = l := by simp only [bn, hl, Option.getD_some]
    exact ⟨by rw [e]; exact hl, by rw [e]; exact h4⟩
  -- stores
  have hstore : ∀ dst, ∃ s : Store R, makeStore co ro g procsOf (order dst) dst = some s ∧
      s.data = received procsOf (order dst) dst ∧
      (s.data ≠ [] → ∃ t, s.table = some t ∧ ∀ b, b < (binRangeOf (procBins g dst)).count.toNat →
        Csr.retrieveN t b = some (Csr.valsOf (Csr.opsOf (s.data.map fun x => bn dst x.2)) b)) := by
    intro dst
    have hm : ((received procsOf (order dst) dst).mapM fun x => overlappedBins co ro g x.2 dst) =
        some ((received procsOf (order dst) dst).map fun x => bn dst x.2) :=
      mapM_map_some _ _ _ fun x hx => (hbn dst x hx).1
    by_cases hemp : received procsOf (order dst) dst = []
    · refine ⟨⟨[], none⟩, ?_, hemp.symm, fun h => absurd rfl h⟩
      unfold makeStore
      rw [hemp]; rfl
    · have hitems : ∀ l ∈ (received procsOf (order dst) dst).map (fun x => bn dst x.2), ∀ b ∈ l,
          b < (binRangeOf (procBins g dst)).count.toNat := by
        intro l hl b hb
        obtain ⟨x, hx, rfl⟩ := List.mem_map.1 hl
        exact (hbn dst x hx).2.2 b hb
      obtain ⟨t, ht, hts⟩ := Csr.build_spec _ _ hitems
      refine ⟨⟨received procsOf (order dst) dst, some t⟩, ?_, rfl,
        fun _ => ⟨t, rfl, fun b hb => (hts b hb).2⟩⟩
      have hord : RegionHash.binIndices (binRangeOf (procBins g dst)) (binRangeOf (procBins g dst)) =
          List.range (binRangeOf (procBins g dst)).count.toNat :=
        Rng.points_colIndexNat _ (RegionHash.binRange_pos (hmb dst))
      unfold makeStore
      have hie : (received procsOf (order dst) dst).isEmpty = false := by
        simpa [List.isEmpty_iff] using hemp
      simp only [hm, Option.bind_eq_bind, Option.bind_some, hie, hord, ht, Bool.false_eq_true, if_false,
        Option.pure_def]
  choose st hst1 hst2 hst3 using hstore
  have hstores : ((List.range ranks.length).mapM fun dst =>
      makeStore co ro g procsOf (order dst) dst) = some ((List.range ranks.length).map st) :=
    mapM_map_some _ _ _ fun dst _ => hst1 dst
  refine ⟨⟨g, (List.range ranks.length).map st⟩, ?_, rfl, rfl, ?_⟩
  · unfold make
    simp only [hps, Option.bind_eq_bind, Option.bind_some]
    have := hprocsOf
    simp only [Option.bind_eq_bind] at this
    rw [this]
    simp only [Option.bind_some, Option.pure_def]
    change ((List.range ranks.length).mapM fun dst =>
      makeStore co ro g procsOf (order dst) dst).bind _ = _
    rw [hstores]; rfl
  intro src rs r p hsrc hr hp hknown
  have hrs := List.mem_of_getElem? hsrc
  have hin := global_has L ranks rs hrs r hr p hp
  obtain ⟨c, hc, hcs⟩ := cells_spec L (globalExt co ro ranks).b ps p (fun i => (hpspos i).1)
  have hcl := clamp_cell L (globalExt co ro ranks) nb hnb ps p c hpspos hin hcs
  let loc := clampToRange (binRangeOf nb) c
  obtain ⟨bins, h1, h2, h3, h4⟩ := hex rs hrs r hr
  have hlocb : loc ∈ bins := L.bins_has nb (globalExt co ro ranks).b ps r p c bins hnb
    (fun i => (hpspos i).1) hp
    (fun i => ⟨(hin i).1, L.hi_mono _ _ _ (hin i).2 (hpspos i).2⟩) hc h1
  have hib := (binRangeOf nb).index_bounds .row loc (h3 loc hlocb)
  let dst := ((binRangeOf nb).index .row loc).toNat
  have hprr : pr r = bins.map fun p => ((binRangeOf nb).index .row p).toNat := by
    have := hpr rs hrs r hr
    unfold overlappedProcs at this
    simp only [show g.nb = nb from rfl, show g.gext = globalExt co ro ranks from rfl,
      show g.psize = ps from rfl, h1, Option.bind_eq_bind, Option.bind_some, Option.pure_def,
      Option.some.injEq] at this
    exact this.symm
  have hdst : dst ∈ pr r := by rw [hprr]; exact List.mem_map.2 ⟨loc, hlocb, rfl⟩
  obtain ⟨q, _, _, _, hq, hdlt, hplt⟩ := hshare rs hrs r hr dst hdst
  have hqloc : q = loc := by
    rw [← hq]
    show (binRangeOf nb).tuple .row ((dst : Nat) : Int) = loc
    simp only [dst]
    rw [Int.toNat_of_nonneg hib.1, Rng.tuple_index .row _ loc (h3 loc hlocb)]
  subst hqloc
  obtain ⟨s, hs, hspos⟩ := size_spec L (procExt g loc) (procBins g dst) hplt (hmb dst)
  have hinP : In hiOk (procExt g loc) p := fun i => hcl i
  obtain ⟨c2, hc2, hcs2⟩ := cells_spec L (procExt g loc).b s p (fun i => (hspos i).1)
  let br := binRangeOf (procBins g dst)
  have hbrpos : ∀ i, br.b i < br.e i := RegionHash.binRange_pos (hmb dst)
  have hc2p := clamp_pts br hbrpos c2
  have hjb := br.index_bounds .col _ hc2p
  let iBin := (br.colIndex (clampToRange br c2)).toNat
  have hmap : mapToBin co (⟨g, (List.range ranks.length).map st⟩ : Hash d K R) p = some (dst, iBin) := by
    unfold mapToBin
    simp only [show g.nb = nb from rfl, show g.gext = globalExt co ro ranks from rfl,
      show g.psize = ps from rfl, hc, Option.bind_eq_bind, Option.bind_some]
    have hs' : binSizeOf co (procExt g loc) (procBins g dst) = some s := hs
    simp only [loc, dst] at hs'
    rw [hs']
    simp only [Option.bind_some]
    have hc2' := hc2
    simp only [loc] at hc2'
    rw [hc2']
    rfl
  refine ⟨(dst, iBin), hmap, hdlt, ?_, ?_⟩
  · have h1 : br.colIndex (clampToRange br c2) < br.count := hjb.2
    have h2 : 0 ≤ br.colIndex (clampToRange br c2) := hjb.1
    show ((br.colIndex (clampToRange br c2)).toNat : Int) < br.count
    omega
  -- the region was received and is in the bin
  have hrcv : (src, r) ∈ received procsOf (order dst) dst := by
    rw [mem_received]
    refine ⟨hknown dst (pr r) (hpr rs hrs r hr) hdst, rs.map (fun r => (r, pr r)), ?_, pr r, ?_, hdst⟩
    · simp only [procsOf, List.getElem?_map, hsrc, Option.map_some]
    · exact List.mem_map.2 ⟨r, hr, rfl⟩
  have hdata := hst2 dst
  have hne : (st dst).data ≠ [] := by rw [hdata]; exact List.ne_nil_of_mem hrcv
  obtain ⟨t, ht, htr⟩ := hst3 dst hne
  have hvlt : ∀ b, b < br.count.toNat →
      ∀ k ∈ Csr.valsOf (Csr.opsOf ((st dst).data.map fun x => bn dst x.2)) b, k < (st dst).data.length := by
    intro b _ k hk
    obtain ⟨l, hl, _⟩ := (Csr.mem_valsOf_ops _ _ _).1 hk
    by_contra hcon
    rw [List.getElem?_eq_none (by simp; omega)] at hl; simp at hl
  have hret := retrieve_bin (st dst) t ht br.count.toNat
    (Csr.valsOf (Csr.opsOf ((st dst).data.map fun x => bn dst x.2))) htr hvlt
  have hiBin : iBin < br.count.toNat := by
    have : (br.colIndex (clampToRange br c2)) < br.count := hjb.2
    have : 0 ≤ (br.colIndex (clampToRange br c2)) := hjb.1
    simp only [iBin]; omega
  obtain ⟨_, full, _, _, hfull⟩ := hret [iBin] (by simpa using hiBin) iBin (by simp)
  refine ⟨full, ?_, ?_, ?_⟩
  · -- membership
    obtain ⟨k, hk⟩ := List.getElem?_of_mem hrcv
    have hkv : k ∈ Csr.valsOf (Csr.opsOf ((st dst).data.map fun x => bn dst x.2)) iBin := by
      rw [Csr.mem_valsOf_ops]
      refine ⟨bn dst r, by rw [List.getElem?_map, hdata, hk]; rfl, ?_⟩
      obtain ⟨b2, k1, k2, k3⟩ := L.bins_def (procBins g dst) (procExt g loc).b s r (hgood rs hrs r hr)
        (hmb dst) (fun i => (hspos i).1)
      have hmem2 : clampToRange br c2 ∈ b2 := L.bins_has (procBins g dst) (procExt g loc).b s r p c2 b2
        (hmb dst) (fun i => (hspos i).1) hp
        (fun i => ⟨(hinP i).1, L.hi_mono _ _ _ (hinP i).2 (hspos i).2⟩) hc2 k1
      have hbe : overlappedBins co ro g r dst =
          some (b2.map fun p => (br.colIndex p).toNat) := by
        unfold overlappedBins
        simp only [show g.nb = nb from rfl, hq, hs, k1, Option.bind_eq_bind, Option.bind_some,
          Option.pure_def]
        rfl
      simp only [bn, hbe, Option.getD_some]
      exact List.mem_map.2 ⟨_, hmem2, rfl⟩
    have hfd := mapM_getElem (st dst).data (src, r) _ (hvlt iBin hiBin)
    rw [hfull] at hfd
    have hfe := Option.some.inj hfd
    rw [hfe, List.mem_map]
    refine ⟨k, hkv, ?_⟩
    rw [hdata, List.getD_eq_getElem?_getD, hk]; rfl
  · intro x hx
    have hfd := mapM_getElem (st dst).data (src, r) _ (hvlt iBin hiBin)
    rw [hfull] at hfd
    have hfe := Option.some.inj hfd
    rw [hfe, List.mem_map] at hx
    obtain ⟨k, hk, rfl⟩ := hx
    have hkl := hvlt iBin hiBin k hk
    have hmem : (st dst).data.getD k (src, r) ∈ (st dst).data := by
      rw [List.getD_eq_getElem?_getD, List.getElem?_eq_getElem hkl]; simp
    rw [hdata] at hmem
    rw [hdata]
    obtain ⟨rs', h5, h6, _⟩ := hrecv dst _ hmem
    exact ⟨rs', h5, h6⟩
  · intro ids hid hids
    unfold retrieve
    have hsd : ((List.range ranks.length).map st)[dst]? = some (st dst) := by
      rw [List.getElem?_map, List.getElem?_range hdlt]; rfl
    have hbins : ∀ b ∈ (ids.filter fun x => x.1 == dst).map Prod.snd, b < br.count.toNat := by
      intro b hb
      obtain ⟨x, hx, rfl⟩ := List.mem_map.1 hb
      rw [List.mem_filter] at hx
      have := hids x hx.1 (by simpa using hx.2)
      have : (x.2 : Int) < br.count := this
      omega
    have hbm : iBin ∈ (ids.filter fun x => x.1 == dst).map Prod.snd :=
      List.mem_map.2 ⟨(dst, iBin), List.mem_filter.2 ⟨hid, by simp⟩, rfl⟩
    obtain ⟨a, l, ha, hl, hl2⟩ := hret _ hbins iBin hbm
    simp only [hsd, Option.bind_eq_bind, Option.bind_some, ha, hl]
    rw [hfull] at hl2
    exact hl2.symm

end Main
end Ovk.DHash
