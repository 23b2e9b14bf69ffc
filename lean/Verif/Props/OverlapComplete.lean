/-
Property C86: overlap detection finds exactly the points that lie in active cells, and their best cells.
-/
import Verif.Props.Overlap
import Verif.Props.DistHash

namespace Ovk.Ovl
variable {d n : Nat} {W : World d n}

namespace Spec
/-- A cell all of whose vertices are active; vertices beyond the end of a periodic dimension are stored at the
begin. -/
def ActiveCell (W : World d n) (g : Nat) (c : Tup (d + 2)) : Prop :=
  Ovk.Spec.IsCell (W.cart g) c ∧ ∀ v : Tup (d + 2), (∀ i, v i = c i ∨ v i = c i + 1) →
    ∃ w, Ovk.Spec.SamePoint (W.cart g) v w ∧ Ovk.Spec.pts (W.cart g).range w ∧ W.active g w = true

/-- Coordinates in a rotated frame. -/
def frame (o : Fin (d + 2) → Fin (d + 2) → Rat) (x : Pt (d + 2)) : Pt (d + 2) := fun i => ∑ j, o j i * x j

/-- Cell `c` of grid `m` accepts point `p` of grid `k`, at local coordinates `u`. -/
def Accepts (W : World d n) (m k : Nat) (p c : Tup (d + 2)) (u : Pt (d + 2)) : Prop :=
  ActiveCell W m c ∧ W.coordsIn m c (W.tol m k) (W.coord k p) = some u

/-- What is asked of the grids and the parameters. -/
structure Base (W : World d n) : Prop where
  grid : ∀ g ∈ W.grids, GridOk W g
  /-- Copies of a point in duplicated periodic storage have the same flags. -/
  flags : ∀ g ∈ W.grids, ∀ v w, Ovk.Spec.pts (W.cart g).range v → Ovk.Spec.pts (W.cart g).range w →
    Ovk.Spec.SamePoint (W.cart g) v w → W.active g v = W.active g w
  /-- Orientations are orthogonal. -/
  ortho : ∀ g f i j, ∑ k, W.orient g f i k * W.orient g f j k = if i = j then 1 else 0
  /-- Active cells are not flat. -/
  solid : ∀ g ∈ W.grids, ∀ f c, Ovk.Spec.pts f c → ActiveCell W g c →
    ∀ i, (W.bounds g f c).b i < (W.bounds g f c).e i
  inhabited : ∃ g ∈ W.grids, ∃ c, ActiveCell W g c
  scale : ∀ g f, 0 < W.binScale g f
  bins : ∀ i, 1 ≤ W.nb i
  fit : (binRangeOf W.nb).count ≤ n
  mult : ∀ k, 1 ≤ W.mult k
  /-- The handshake tells every process who sends to it. -/
  discovered : DHash.Discovered DHash.ratOps (fragOps W) W.order W.nb W.mult
    ((List.finRange n).map (localFragments W))
  sorts : ∀ ks, Xch.StdSorted ks (W.sort ks)

/-- Every active point is within the bounds of an active cell of its grid. -/
def Covered (W : World d n) : Prop :=
  ∀ g ∈ W.grids, ∀ p, Ovk.Spec.pts (W.cart g).range p → W.active g p = true →
    ∃ c, ActiveCell W g c ∧ ∀ f, Ovk.Spec.pts f c →
      Ovk.Spec.boxHas (W.bounds g f c) (frame (W.orient g f) (W.coord g p))

/-- What is asked of cells and points: an accepted point is within the bounds of the cell, enlarged by the
tolerance; every active point is within the bounds of an active cell of its grid. -/
structure OverlapOk (W : World d n) : Prop extends Base W where
  encl : ∀ m ∈ W.grids, ∀ k ∈ W.grids, ∀ f c x u, Ovk.Spec.pts f c → ActiveCell W m c →
    W.coordsIn m c (W.tol m k) x = some u →
    Ovk.Spec.boxHas (Accel.scaleBox (W.bounds m f c) (1 + 2 * W.tol m k)) (frame (W.orient m f) x)
  covered : Covered W

/-- Vertex of a cell. -/
def corner (c : Tup (d + 2)) (s : Fin (d + 2) → Bool) : Tup (d + 2) := fun i => c i + if s i then 1 else 0

/-- The point of a cell with given local coordinates, for vertices at the given positions. -/
def blend (pos : Tup (d + 2) → Pt (d + 2)) (c : Tup (d + 2)) (u : Pt (d + 2)) : Pt (d + 2) := fun j =>
  ∑ s : Fin (d + 2) → Bool, (∏ i, if s i then u i else 1 - u i) * pos (corner c s) j

/-- Every active point is a vertex of an active cell. -/
def Attached (W : World d n) : Prop :=
  ∀ g ∈ W.grids, ∀ p, Ovk.Spec.pts (W.cart g).range p → W.active g p = true →
    ∃ c, ActiveCell W g c ∧ ∃ s, p = corner c s

/-- Bounds and local coordinates are those of the multilinear cells with vertices at `pos`. -/
structure Geometric (W : World d n) (pos : Nat → Tup (d + 2) → Pt (d + 2)) : Prop where
  coord : ∀ g ∈ W.grids, ∀ p, Ovk.Spec.pts (W.cart g).range p → W.coord g p = pos g p
  bounds : ∀ g ∈ W.grids, ∀ f c, Ovk.Spec.pts f c → ActiveCell W g c → ∀ i,
    (∀ s, (W.bounds g f c).b i ≤ frame (W.orient g f) (pos g (corner c s)) i ∧
      frame (W.orient g f) (pos g (corner c s)) i ≤ (W.bounds g f c).e i) ∧
    (∃ s, (W.bounds g f c).b i = frame (W.orient g f) (pos g (corner c s)) i) ∧
    ∃ s, (W.bounds g f c).e i = frame (W.orient g f) (pos g (corner c s)) i
  local_ : ∀ m ∈ W.grids, ∀ k ∈ W.grids, ∀ c, ActiveCell W m c → ∀ x u,
    W.coordsIn m c (W.tol m k) x = some u ↔
      x = blend (pos m) c u ∧ ∀ i, -W.tol m k ≤ u i ∧ u i ≤ 1 + W.tol m k
  tol : ∀ m k, 0 ≤ W.tol m k

/-- Parallelogram, parallelepiped. -/
def Affine (pos : Tup (d + 2) → Pt (d + 2)) (c : Tup (d + 2)) : Prop :=
  ∃ edge : Fin (d + 2) → Pt (d + 2), ∀ s j, pos (corner c s) j = pos c j + ∑ i, if s i then edge i j else 0

/-- The N side of overlap: the points in active cells, each with its best cell. -/
structure Complete (W : World d n) (m k : Nat) (s : Fin n) (N : List (NEntry (d + 2))) : Prop where
  points : ∀ p, (∃ e ∈ N, e.point = p) ↔ Ovk.Spec.pts (W.loc k s) p ∧ W.active k p = true ∧
    ∃ c u, Accepts W m k p c u
  best : ∀ e ∈ N, ∃ u, Accepts W m k e.point e.source u ∧ ∀ c v, Accepts W m k e.point c v →
    Accel.Spec.Prefer ((cellRange W m).colIndex e.source, u) ((cellRange W m).colIndex c, v)

/-- Overlap detection is defined on every process. -/
def Defined (W : World d n) : Prop :=
  ∃ h, hash W = some h ∧ ∀ m ∈ W.grids, ∀ k ∈ W.grids,
    (∀ s, ∃ N, overlapN W h m k s = some N) ∧ ∀ r, ∃ M, overlapM W h m k r = some M

/-- Overlap detection is defined on every process and finds what it should. -/
def Detects (W : World d n) : Prop :=
  ∃ h, hash W = some h ∧ ∀ m ∈ W.grids, ∀ k ∈ W.grids,
    (∀ s, ∃ N, overlapN W h m k s = some N ∧
      if W.overlappable m k = true then Complete W m k s N else N = []) ∧
    ∀ r, ∃ M, overlapM W h m k r = some M
end Spec

/-! ### Cells and boxes -/

theorem mem_vertices {c v : Tup (d + 2)} : v ∈ (vertices c).points ↔ ∀ i, v i = c i ∨ v i = c i + 1 := by
  rw [Rng.mem_points]
  unfold vertices
  refine forall_congr' fun i => ?_
  dsimp only
  omega

theorem activeCell_iff (hok : Spec.Base W) {g : Nat} (hg : g ∈ W.grids) {c : Tup (d + 2)}
    (hc : Ovk.Spec.IsCell (W.cart g) c) : cellActive W g c = true ↔ Spec.ActiveCell W g c := by
  have hp := (hok.grid g hg).proper
  unfold cellActive Spec.ActiveCell
  rw [List.all_eq_true, and_iff_right hc]
  refine forall_congr' fun v => ?_
  rw [mem_vertices]
  constructor
  · intro h hv
    refine ⟨_, C03_same_point _ hp v, ?_, h hv⟩
    intro i
    by_cases hper : (W.cart g).periodic i = true
    · have h1 := C03_first_period _ hp v i hper
      have h2 := hp i
      unfold Ovk.Spec.periodLen at h1 h2
      split at h1 <;> omega
    · have h1 := (C03_same_point _ hp v) i
      rw [if_neg hper] at h1
      have h2 := hc i
      have h3 := hv i
      rw [if_neg (by simp [hper])] at h2
      omega
  · intro h hv
    obtain ⟨w, h1, h2, h3⟩ := h hv
    have hadj : (W.cart g).periodicAdjust v = (W.cart g).periodicAdjust w := (C03_canonical _ hp _ _).2 h1
    rw [← h3]
    refine hok.flags g hg _ _ ?_ h2 (samePoint_trans (samePoint_symm (C03_same_point _ hp v)) h1)
    intro i
    by_cases hper : (W.cart g).periodic i = true
    · have h1 := C03_first_period _ hp v i hper
      have h2 := hp i
      unfold Ovk.Spec.periodLen at h1 h2
      split at h1 <;> omega
    · have h1 := (C03_same_point _ hp w) i
      rw [if_neg hper, ← hadj] at h1
      have := h2 i
      omega

theorem scaleBox_mono {b : Box d} (hb : ∀ i, b.b i < b.e i) {s t : Rat} (hst : s ≤ t) {x : Pt d}
    (h : Ovk.Spec.boxHas (Accel.scaleBox b s) x) : Ovk.Spec.boxHas (Accel.scaleBox b t) x := by
  intro i
  have h1 := h i
  unfold Accel.scaleBox at h1 ⊢
  dsimp only at h1 ⊢
  have := mul_le_mul_of_nonneg_right hst (sub_nonneg.2 (hb i).le)
  constructor <;> linarith [h1.1, h1.2]

theorem scaleBox_one (b : Box d) : Accel.scaleBox b 1 = b := by
  unfold Accel.scaleBox
  cases b with
  | mk b e =>
    congr 1 <;> funext i <;> ring

theorem le_maxTol (m : Nat) {k : Nat} (hk : k ∈ W.grids) : W.tol m k ≤ maxTol W m := by
  unfold maxTol
  have key : ∀ (l : List Nat) (t : Rat), t ≤ l.foldl (fun t k => max t (W.tol m k)) t ∧
      ∀ k ∈ l, W.tol m k ≤ l.foldl (fun t k => max t (W.tol m k)) t := by
    intro l
    induction l with
    | nil => intro t; simp
    | cons a l ih =>
      intro t
      rw [List.foldl_cons]
      have h := ih (max t (W.tol m a))
      refine ⟨(le_max_left _ _).trans h.1, fun k hk => ?_⟩
      rcases List.mem_cons.1 hk with rfl | hk
      · exact (le_max_right _ _).trans h.1
      · exact h.2 k hk
  exact (key _ _).2 k hk

theorem maxTol_nonneg (m : Nat) : 0 ≤ maxTol W m := by
  unfold maxTol
  have key : ∀ (l : List Nat) (t : Rat), t ≤ l.foldl (fun t k => max t (W.tol m k)) t := by
    intro l
    induction l with
    | nil => intro t; simp
    | cons a l ih => intro t; rw [List.foldl_cons]; exact (le_max_left _ _).trans (ih _)
  exact key _ _

theorem cellBox_solid (hok : Spec.Base W) {g : Nat} (hg : g ∈ W.grids) {f : Rng (d + 2)}
    {c : Tup (d + 2)} (hf : Ovk.Spec.pts f c) (hc : Spec.ActiveCell W g c) (i : Fin (d + 2)) :
    (cellBox W g f c).b i < (cellBox W g f c).e i := by
  have h1 := hok.solid g hg f c hf hc i
  have h2 := maxTol_nonneg (W := W) g
  unfold cellBox Accel.scaleBox
  dsimp only
  nlinarith [mul_nonneg h2 (sub_nonneg.2 h1.le)]

/-- The box of a fragment contains the boxes of its active cells. -/
theorem fragment_has {g id : Nat} {f : Rng (d + 2)} {c : Tup (d + 2)} (hf : Ovk.Spec.pts f c)
    (hc : cellActive W g c = true) {x : Pt (d + 2)} (hx : Ovk.Spec.boxHas (cellBox W g f c) x) :
    Ovk.Spec.boxHas (fragment W g id f).geo.box x := by
  unfold fragment
  dsimp only
  refine foldl_union_has _ _ _ (.inr ⟨_, List.mem_map.2 ⟨c, List.mem_filter.2 ⟨?_, hc⟩, rfl⟩, hx⟩)
  rw [Rng.mem_points]
  intro i
  have := hf i
  unfold makeCellCoverRange
  dsimp only
  split <;> omega

theorem transform_eq (f : DHash.Fragment (d + 2)) (x : Pt (d + 2)) : transform f x = Spec.frame f.orient x := rfl

/-- A point is in a fragment if its box contains the transformed point. -/
theorem has_of_box (hok : Spec.Base W) {g id : Nat} {f : Rng (d + 2)} {x : Pt (d + 2)}
    (hx : Ovk.Spec.boxHas (fragment W g id f).geo.box (transform (fragment W g id f).geo x)) :
    (fragment W g id f).geo.has x := by
  refine ⟨_, hx, ?_⟩
  funext i
  unfold DHash.Fragment.orientInv transform
  have h : ∀ i, ∑ j, W.orient g f i j * ∑ k, W.orient g f k j * x k = x i := by
    intro i
    simp_rw [Finset.mul_sum]
    rw [Finset.sum_comm]
    have : ∀ k, ∑ j, W.orient g f i j * (W.orient g f k j * x k) = (if i = k then 1 else 0) * x k := by
      intro k
      rw [← hok.ortho g f i k, Finset.sum_mul]
      exact Finset.sum_congr rfl fun j _ => by ring
    simp_rw [this]
    simp
  exact (h i).symm

/-- The hash of fragments satisfies the laws of the hash. -/
theorem frag_lawful (W : World d n) : DHash.Lawful DHash.ratOps (fragOps W) (fun f => f.geo.has) (fun _ => True)
    (fun x e => x ≤ e) :=
  have L := DHash.fragment_lawful W.tiny W.big W.axes
  { hi_mono := L.hi_mono
    hi_lt := L.hi_lt
    not_empty := L.not_empty
    ext_has := fun r => L.ext_has r.geo
    size_pos := L.size_pos
    cell_def := L.cell_def
    bins_def := fun nb lower size r => L.bins_def nb lower size r.geo
    bins_has := fun nb lower size r => L.bins_has nb lower size r.geo
    bins_proc := fun x nb size r => L.bins_proc x nb size r.geo }

theorem mem_localFragments {r : Fin n} {f : Frag (d + 2)} : f ∈ localFragments W r ↔
    ∃ g ∈ W.grids, f ∈ fragments W g r := by
  unfold localFragments; rw [List.mem_flatMap]

/-- Every active cell is in a fragment. -/
theorem exists_fragment (hok : Spec.Base W) {g : Nat} (hg : g ∈ W.grids) {c : Tup (d + 2)}
    (hc : Spec.ActiveCell W g c) : ∃ r, Ovk.Spec.pts (own W g r) c ∧ ∃ f ∈ fragments W g r, Ovk.Spec.pts f.cells c := by
  obtain ⟨r, hr⟩ := exists_own W (hok.grid g hg).tiles ((C08_cell_space _ _).2 hc.1)
  exact ⟨r, hr, fragment_covers W hr ((activeCell_iff hok hg hc.1).2 hc)⟩

/-- The extents of the hash are not flat. -/
theorem extents_solid (hok : Spec.Base W) (i : Fin (d + 2)) :
    (DHash.globalExt DHash.ratOps (fragOps W) ((List.finRange n).map (localFragments W))).b i <
    (DHash.globalExt DHash.ratOps (fragOps W) ((List.finRange n).map (localFragments W))).e i := by
  obtain ⟨g, hg, c, hc⟩ := hok.inhabited
  obtain ⟨r, _, f, hf, hfc⟩ := exists_fragment hok hg hc
  have hca := (activeCell_iff hok hg hc.1).2 hc
  have hsol := cellBox_solid hok hg hfc hc
  have hlf : f ∈ localFragments W r := mem_localFragments.2 ⟨g, hg, hf⟩
  have hlr : localFragments W r ∈ (List.finRange n).map (localFragments W) :=
    List.mem_map.2 ⟨r, List.mem_finRange r, rfl⟩
  obtain ⟨j, hj, rfl⟩ := (mem_fragments W).1 hf
  set f := (subRanges W g r)[j] with hfd
  have hfc : Ovk.Spec.pts f c := hfc
  have hsol : ∀ i, (cellBox W g f c).b i < (cellBox W g f c).e i := hsol
  -- a dimension of the box that is not orthogonal to the axis
  obtain ⟨k, hk⟩ : ∃ k, W.orient g f i k ≠ 0 := by
    by_contra hno
    push Not at hno
    have := hok.ortho g f i i
    rw [if_pos rfl, Finset.sum_eq_zero fun k _ => by rw [hno k, zero_mul]] at this
    exact absurd this (by norm_num)
  have hhas : ∀ v, Ovk.Spec.boxHas (cellBox W g f c) v →
      (fragment W g (j + 1) f).geo.has ((fragment W g (j + 1) f).geo.orientInv v) :=
    fun v hv => ⟨v, fragment_has hfc hca hv, rfl⟩
  have h1 : Ovk.Spec.boxHas (cellBox W g f c) (cellBox W g f c).b := fun i => ⟨le_refl _, (hsol i).le⟩
  have h2 : Ovk.Spec.boxHas (cellBox W g f c)
      (Function.update (cellBox W g f c).b k ((cellBox W g f c).e k)) := by
    intro i
    by_cases h : i = k
    · subst h; simpa using (hsol i).le
    · simpa [Function.update_of_ne h] using (hsol i).le
  have ha := DHash.global_has (frag_lawful W) _ _ hlr _ hlf _ (hhas _ h1) i
  have hb := DHash.global_has (frag_lawful W) _ _ hlr _ hlf _ (hhas _ h2) i
  have hne : (fragment W g (j + 1) f).geo.orientInv (cellBox W g f c).b i ≠
      (fragment W g (j + 1) f).geo.orientInv
        (Function.update (cellBox W g f c).b k ((cellBox W g f c).e k)) i := by
    unfold DHash.Fragment.orientInv
    intro heq
    have hz : ∑ j, W.orient g f i j * (Function.update (cellBox W g f c).b k ((cellBox W g f c).e k) j -
        (cellBox W g f c).b j) = 0 := by
      simp_rw [mul_sub]
      rw [Finset.sum_sub_distrib, sub_eq_zero]
      exact heq.symm
    rw [Finset.sum_eq_single k (fun b _ hb => by rw [Function.update_of_ne hb]; ring) (by simp),
      Function.update_self] at hz
    rcases mul_eq_zero.1 hz with h | h
    · exact hk h
    · exact absurd (sub_eq_zero.1 h) (hsol k).ne'
  rcases lt_or_gt_of_ne hne with h | h
  · exact lt_of_le_of_lt ha.1 (lt_of_lt_of_le h hb.2)
  · exact lt_of_le_of_lt hb.1 (lt_of_lt_of_le h ha.2)

/-! ### Looking up fragments -/

theorem idLess_sto : IsSTO idLess := by
  refine ⟨?_, ?_, ?_⟩
  · intro a; simp [idLess]
  · intro a b c; simp only [idLess, decide_eq_true_eq]; omega
  · rintro ⟨a, a'⟩ ⟨b, b'⟩
    simp only [idLess, decide_eq_false_iff_not, Prod.mk.injEq]
    omega

theorem foldl_insert_mem : ∀ (l acc : List (Nat × Nat)), Sorted idLess acc →
    ∀ x, x ∈ l.foldl (OSet.insert idLess) acc ↔ x ∈ l ∨ x ∈ acc
  | [], acc, _, x => by simp
  | a :: l, acc, hs, x => by
    rw [List.foldl_cons, foldl_insert_mem l _ (oset_insert_spec idLess_sto hs a).1,
      (oset_insert_spec idLess_sto hs a).2, List.mem_cons]
    tauto

theorem coord_in_fragment (hok : Spec.Base W) (hcov : Spec.Covered W) {g : Nat} (hg : g ∈ W.grids) {s : Fin n} {p : Tup (d + 2)}
    (hp : p ∈ activePoints W g s) : ∃ r, ∃ f ∈ localFragments W r, f.geo.has (W.coord g p) := by
  obtain ⟨h1, h2⟩ := mem_activePoints.1 hp
  obtain ⟨c, hc, hb⟩ := hcov g hg p (fun i => by
    have := (hok.grid g hg).tiles.1 s i; have := h1 i; omega) h2
  obtain ⟨r, _, f, hf, hfc⟩ := exists_fragment hok hg hc
  refine ⟨r, f, mem_localFragments.2 ⟨g, hg, hf⟩, ?_⟩
  obtain ⟨j, hj, rfl⟩ := (mem_fragments W).1 hf
  refine has_of_box hok (fragment_has hfc ((activeCell_iff hok hg hc.1).2 hc) ?_)
  have h3 := hb _ hfc
  rw [← scaleBox_one (W.bounds _ _ _)] at h3
  exact scaleBox_mono (hok.solid g hg _ c hfc hc) (by have := maxTol_nonneg (W := W) g; linarith) h3

/-- The hash is built, and looking up an active point finds the fragments whose box contains it. -/
theorem lookup (hok : Spec.Base W) (hcov : Spec.Covered W) : ∃ h, hash W = some h ∧ ∀ s : Fin n, ∃ ids, binIDs W h s = some ids ∧
    ∀ g ∈ W.grids, ∀ p ∈ activePoints W g s, ∃ l, hits W h ids g p = some l ∧
      (∀ y ∈ l, W.overlappable y.2.grid g = true ∧ ∃ r : Fin n, y.1 = r.val ∧ y.2 ∈ localFragments W r) ∧
      ∀ r, ∀ f ∈ localFragments W r, W.overlappable f.grid g = true →
        Ovk.Spec.boxHas f.geo.box (transform f.geo (W.coord g p)) → f.geo.has (W.coord g p) →
        (r.val, f) ∈ l := by
  obtain ⟨h, hh, _, _, hq⟩ := DHash.build_and_query (frag_lawful W) W.nb hok.bins W.mult hok.mult W.order
    ((List.finRange n).map (localFragments W)) (by simpa using hok.fit) (fun _ _ _ _ => trivial)
    (extents_solid hok)
  have hget : ∀ r : Fin n, ((List.finRange n).map (localFragments W))[r.val]? = some (localFragments W r) := by
    intro r; simp
  have hq' : ∀ (r : Fin n) (f : Frag (d + 2)) (x : Pt (d + 2)), f ∈ localFragments W r → f.geo.has x →
      ∃ id, DHash.mapToBin DHash.ratOps h x = some id ∧
        ((id.2 : Int) < (binRangeOf (DHash.procBins h.geo id.1)).count) ∧
        ∃ full, (r.val, f) ∈ full ∧
          (∀ x ∈ full, ∃ r' : Fin n, x.1 = r'.val ∧ x.2 ∈ localFragments W r') ∧
          ∀ ids : List (Nat × Nat), id ∈ ids →
            (∀ x ∈ ids, x.1 = id.1 → (x.2 : Int) < (binRangeOf (DHash.procBins h.geo id.1)).count) →
            DHash.retrieve h ids id = some full := by
    intro r f x hf hx
    obtain ⟨id, h1, h2, h3, full, h4, h5, h6⟩ := hq r.val _ f x (hget r) hf hx
      (hok.discovered h hh r.val _ f (hget r) hf)
    refine ⟨id, h1, h3, full, h4, fun x hx => ?_, h6⟩
    obtain ⟨rs', h7, h8⟩ := h5 x hx
    have hlt : x.1 < n := by simpa using (List.getElem?_eq_some_iff.1 h7).1
    rw [hget ⟨x.1, hlt⟩] at h7
    exact ⟨⟨x.1, hlt⟩, rfl, (Option.some.inj h7) ▸ h8⟩
  refine ⟨h, hh, fun s => ?_⟩
  obtain ⟨is, his⟩ := mapM_defined (l := W.grids.flatMap fun g => (activePoints W g s).map (W.coord g))
    (f := DHash.mapToBin DHash.ratOps h) (by
      intro x hx
      obtain ⟨g, hg, hx⟩ := List.mem_flatMap.1 hx
      obtain ⟨p, hp, rfl⟩ := List.mem_map.1 hx
      obtain ⟨r, f, hf, hhas⟩ := coord_in_fragment hok hcov hg hp
      obtain ⟨id, h1, _⟩ := hq' r f _ hf hhas
      exact ⟨id, h1⟩)
  have hids : ∀ x, x ∈ is.foldl (OSet.insert idLess) [] ↔ x ∈ is := by
    intro x
    rw [foldl_insert_mem _ _ List.Pairwise.nil]
    simp
  have hsmall : ∀ x ∈ is, (x.2 : Int) < (binRangeOf (DHash.procBins h.geo x.1)).count := by
    intro x hx
    obtain ⟨c, hc, e⟩ := (mem_mapM his x).1 hx
    obtain ⟨g, hg, hc⟩ := List.mem_flatMap.1 hc
    obtain ⟨p, hp, rfl⟩ := List.mem_map.1 hc
    obtain ⟨r, f, hf, hhas⟩ := coord_in_fragment hok hcov hg hp
    obtain ⟨id, h1, h2, _⟩ := hq' r f _ hf hhas
    rw [e] at h1
    exact (Option.some.inj h1) ▸ h2
  refine ⟨is.foldl (OSet.insert idLess) [], by unfold binIDs; rw [his]; rfl, ?_⟩
  intro g hg p hp
  have hret : ∀ id, DHash.mapToBin DHash.ratOps h (W.coord g p) = some id →
      id ∈ is.foldl (OSet.insert idLess) [] ∧
      ∀ x ∈ is.foldl (OSet.insert idLess) [], x.1 = id.1 →
        (x.2 : Int) < (binRangeOf (DHash.procBins h.geo id.1)).count := by
    intro id hid
    refine ⟨(hids _).2 ((mem_mapM his id).2 ⟨_, List.mem_flatMap.2 ⟨g, hg, List.mem_map.2 ⟨p, hp, rfl⟩⟩, hid⟩), ?_⟩
    intro x hx e
    rw [← e]
    exact hsmall x ((hids x).1 hx)
  obtain ⟨r, f, hf, hhas⟩ := coord_in_fragment hok hcov hg hp
  obtain ⟨id, h1, _, full, _, hfrom, h3⟩ := hq' r f _ hf hhas
  have hfull := h3 _ (hret id h1).1 (hret id h1).2
  refine ⟨full.filter fun y => W.overlappable y.2.grid g &&
    y.2.geo.box.contains (transform y.2.geo (W.coord g p)), ?_, ?_, ?_⟩
  · unfold hits
    rw [h1, Option.bind_eq_bind, Option.bind_some, hfull]
    rfl
  · intro y hy
    have := (List.mem_filter.1 hy).2
    rw [Bool.and_eq_true] at this
    exact ⟨this.1, hfrom y (List.mem_filter.1 hy).1⟩
  · intro r' f' hf' hov hbox hhas'
    obtain ⟨id', h1', _, full', h2', _, h3'⟩ := hq' r' f' _ hf' hhas'
    rw [h1] at h1'
    obtain rfl := Option.some.inj h1'
    have := h3' _ (hret id h1).1 (hret id h1).2
    rw [hfull] at this
    obtain rfl := Option.some.inj this
    exact List.mem_filter.2 ⟨h2', by rw [hov, (Box.contains_iff _ _).2 hbox]; rfl⟩

/-! ### Search -/

theorem accel_defined (hok : Spec.Base W) {g : Nat} (hg : g ∈ W.grids) {r : Fin n} {f : Frag (d + 2)}
    (hf : f ∈ fragments W g r) : ∃ a, accel W g f.cells = some a := by
  unfold accel
  refine Accel.C38_defined _ _ _ _ (hok.scale g f.cells) _ _ _ ?_
  intro k hk hm i
  have hpos := fragment_pos W hf
  have hin : Ovk.Spec.pts f.cells (f.cells.tuple .col k) := (f.cells.tuple_spec hpos k hk).1
  have hcell := (C08_cell_space _ _).1 (own_cell W (hok.grid g hg).tiles ((fragment_cells W hf).1 _ hin))
  have := cellBox_solid hok hg hin ((activeCell_iff hok hg hcell).1 hm) i
  unfold fragBox Accel.cellBounds
  rw [if_pos hm]
  exact this

theorem candidates_defined (hok : Spec.Base W) (hcov : Spec.Covered W) {h : DHash.Hash (d + 2) Rat (Frag (d + 2))}
    (hh : hash W = some h) {k : Nat} (hk : k ∈ W.grids) (s : Fin n) : ∃ cand, candidates W h k s = some cand := by
  obtain ⟨h', hh', hl⟩ := lookup hok hcov
  rw [hh] at hh'
  obtain rfl := Option.some.inj hh'
  obtain ⟨ids, hids, hhits⟩ := hl s
  unfold candidates
  rw [hids, Option.bind_eq_bind, Option.bind_some]
  apply mapM_defined
  intro p hp
  obtain ⟨l, e, _⟩ := hhits k hk p hp
  exact ⟨(p, l), by rw [e]; rfl⟩

/-- If the data of all processes is defined, so are both sides. -/
theorem sides_defined (hok : Spec.Base W) {h : DHash.Hash (d + 2) Rat (Frag (d + 2))} {m k : Nat}
    (hm : m ∈ W.grids) (hk : k ∈ W.grids) (hd : ∀ s : Fin n, ∃ x, sources W h m k s = some x) (r : Fin n) :
    ∃ M, overlapM W h m k r = some M := by
  obtain ⟨l, hl⟩ : ∃ l, incoming W h m k r = some l := by
    unfold incoming
    obtain ⟨ls, hls⟩ := mapM_defined (l := List.finRange n) (f := fun s => (sources W h m k s).map fun x =>
      if x.2.contains r then (sent W m r x.1).map fun e => (s, e) else []) (by
        intro s _
        obtain ⟨x, hx⟩ := hd s
        exact ⟨_, by rw [hx]; rfl⟩)
    exact ⟨ls.flatten, by rw [hls]; rfl⟩
  obtain ⟨M, hM, _⟩ := overlapM_eq (hok.grid m hm).tiles (hok.grid m hm).proper (hok.grid k hk).tiles
    hok.sorts hl
  exact ⟨M, hM⟩

/-- C87: overlap detection is defined on every process for any number of processes and grids, any decomposition,
geometry and tolerance.  Missing: active points that are not within the bounds of an active cell of their grid. -/
theorem C87_partial (hok : Spec.Base W) (hcov : Spec.Covered W) : Spec.Defined W := by
  obtain ⟨h, hh, _⟩ := lookup hok hcov
  have hd : ∀ m ∈ W.grids, ∀ k ∈ W.grids, ∀ s, ∃ x, sources W h m k s = some x := by
    intro m hm k hk s
    obtain ⟨cand, hcand⟩ := candidates_defined hok hcov hh hk s
    obtain ⟨qs, hqs⟩ := queries_defined (m := m) (k := k) (s := s) (cand := cand) fun r f hf => accel_defined hok hm hf
    obtain ⟨l, hl, _⟩ := items_eq (hok.grid m hm).tiles hcand hqs
    exact ⟨(l, (ranksOf cand m).filter fun r => !(sent W m r l).isEmpty), sources_iff.2 ⟨cand, hcand, hl, rfl⟩⟩
  refine ⟨h, hh, fun m hm k hk => ⟨fun s => ?_, sides_defined hok hm hk (hd m hm k hk)⟩⟩
  obtain ⟨x, hx⟩ := hd m hm k hk s
  exact ⟨_, overlapN_iff.2 ⟨x, hx, rfl⟩⟩

/-- Everything the detection on one process computes for a pair of grids. -/
theorem detect (hok : Spec.OverlapOk W) : ∃ h, hash W = some h ∧ ∀ m ∈ W.grids, ∀ k ∈ W.grids, ∀ s : Fin n,
    ∃ x, sources W h m k s = some x ∧
      (∀ e ∈ x.1, Spec.Accepts W m k e.point e.cell e.coords ∧ W.overlappable m k = true ∧
        ∀ c v, Spec.Accepts W m k e.point c v →
          Accel.Spec.Prefer ((cellRange W m).colIndex e.cell, e.coords) ((cellRange W m).colIndex c, v)) ∧
      ∀ p, Ovk.Spec.pts (W.loc k s) p → W.active k p = true → W.overlappable m k = true →
        (∃ c u, Spec.Accepts W m k p c u) → ∃ e ∈ x.1, e.point = p := by
  obtain ⟨h, hh, hl⟩ := lookup hok.toBase hok.covered
  refine ⟨h, hh, fun m hm k hk s => ?_⟩
  obtain ⟨ids, hids, hhits⟩ := hl s
  obtain ⟨cand, hcand⟩ := candidates_defined hok.toBase hok.covered hh hk s
  obtain ⟨qs, hqs⟩ := queries_defined (m := m) (k := k) (s := s) (cand := cand) fun r f hf => accel_defined hok.toBase hm hf
  have hmt := (hok.grid m hm).tiles
  obtain ⟨l, hl1, hl2, hl3, hl4⟩ := items_eq hmt hcand hqs
  obtain ⟨_, hl5⟩ := items_spec hmt hl1 hcand
  have hcandm : ∀ x, x ∈ cand → x.1 ∈ activePoints W k s ∧ hits W h ids k x.1 = some x.2 := by
    intro x hx
    unfold candidates at hcand
    rw [hids, Option.bind_eq_bind, Option.bind_some] at hcand
    obtain ⟨p, hp, e⟩ := (mem_mapM hcand x).1 hx
    obtain ⟨l', e', rfl⟩ := Option.map_eq_some_iff.1 e
    exact ⟨hp, e'⟩
  have hcande : ∀ p ∈ activePoints W k s, ∃ x ∈ cand, x.1 = p := by
    intro p hp
    have hcand' := hcand
    unfold candidates at hcand'
    rw [hids, Option.bind_eq_bind, Option.bind_some] at hcand'
    obtain ⟨l, e, _⟩ := hhits k hk p hp
    exact ⟨(p, l), (mem_mapM hcand' _).2 ⟨p, hp, by rw [e]; rfl⟩, rfl⟩
  -- an accepting cell leads to a query that finds a cell at least as good
  have hfind : ∀ p, Ovk.Spec.pts (W.loc k s) p → W.active k p = true → W.overlappable m k = true →
      ∀ c v, Spec.Accepts W m k p c v → ∃ a, Accel.Spec.Found qs ((W.loc k s).colIndex p).toNat a ∧
        Accel.Spec.Prefer a ((cellRange W m).colIndex c, v) := by
    intro p hp hact hov c v hacc
    have hpa : p ∈ activePoints W k s := mem_activePoints.2 ⟨hp, hact⟩
    obtain ⟨r, hr, f, hf, hfc⟩ := exists_fragment hok.toBase hm hacc.1
    have hca := (activeCell_iff hok.toBase hm hacc.1.1).2 hacc.1
    have hbox : ∀ c v, Ovk.Spec.pts f.cells c → cellActive W m c = true →
        W.coordsIn m c (W.tol m k) (W.coord k p) = some v →
        Ovk.Spec.boxHas (cellBox W m f.cells c) (transform f.geo (W.coord k p)) := by
      intro c v hfc hca hv
      have hcell := (C08_cell_space _ _).1 (own_cell W hmt ((fragment_cells W hf).1 _ hfc))
      have hac := (activeCell_iff hok.toBase hm hcell).1 hca
      have h1 := hok.encl m hm k hk f.cells c _ v hfc hac hv
      obtain ⟨j, hj, rfl⟩ := (mem_fragments W).1 hf
      exact scaleBox_mono (hok.solid m hm _ c hfc hac) (by have := le_maxTol (W := W) m hk; linarith) h1
    have hfbox : Ovk.Spec.boxHas f.geo.box (transform f.geo (W.coord k p)) ∧ f.geo.has (W.coord k p) := by
      have h1 := hbox c v hfc hca hacc.2
      obtain ⟨j, hj, rfl⟩ := (mem_fragments W).1 hf
      have h2 := fragment_has (id := j + 1) hfc hca h1
      exact ⟨h2, has_of_box hok.toBase h2⟩
    obtain ⟨x, hx, rfl⟩ := hcande p hpa
    obtain ⟨l', e', _, hall⟩ := hhits k hk x.1 hpa
    have hy : (r.val, f) ∈ x.2 := by
      rw [(hcandm x hx).2] at e'
      rw [Option.some.inj e']
      exact hall r f (mem_localFragments.2 ⟨m, hm, hf⟩) (by rw [fragment_grid W hf]; exact hov) hfbox.1 hfbox.2
    have hfor : isFor m r f.id (r.val, f) = true := by
      unfold isFor; simp [fragment_grid W hf]
    obtain ⟨a, ha⟩ := accel_defined hok.toBase hm hf
    obtain ⟨q, hq⟩ := query_defined W ha (k := k) (s := s) x.1
    obtain ⟨i, hi, hpref⟩ := query_best W hmt hf ha hq hbox hfc hca hacc.2
    refine ⟨(i, q.coords), ⟨q, ?_, (query_sound W hf ha hq).1, hi, rfl⟩, hpref⟩
    refine (mem_queries hqs q).2 ⟨r, ?_, f, ?_, a, ha, x.1, ?_, hq⟩
    · unfold ranksOf
      refine List.mem_filter.2 ⟨List.mem_finRange r, List.any_eq_true.2 ⟨x, hx, List.any_eq_true.2
        ⟨_, hy, by simp [fragment_grid W hf]⟩⟩⟩
    · exact List.mem_filter.2 ⟨hf, List.any_eq_true.2 ⟨x, hx, List.any_eq_true.2 ⟨_, hy, hfor⟩⟩⟩
    · exact mem_queryPoints.2 ⟨x, hx, rfl, _, hy, hfor⟩
  refine ⟨(l, (ranksOf cand m).filter fun r => !(sent W m r l).isEmpty),
    sources_iff.2 ⟨cand, hcand, hl1, rfl⟩, ?_, ?_⟩
  · intro e he
    obtain ⟨h1, h2, h3, h4, h5, r, hr, h6⟩ := hl5 e he
    have hac : Spec.ActiveCell W m e.cell := (activeCell_iff hok.toBase hm ((C08_cell_space _ _).1 h2)).1 h4
    have hov : W.overlappable m k = true := by
      unfold ranksOf at hr
      obtain ⟨x, hx, hy⟩ := List.any_eq_true.1 (List.mem_filter.1 hr).2
      obtain ⟨y, hy, e2⟩ := List.any_eq_true.1 hy
      obtain ⟨hxa, hxh⟩ := hcandm x hx
      obtain ⟨l', e', hall, _⟩ := hhits k hk x.1 hxa
      rw [hxh] at e'
      rw [Option.some.inj e'] at hy
      have := (hall y hy).1
      simp only [Bool.and_eq_true, beq_iff_eq] at e2
      rwa [e2.2] at this
    refine ⟨⟨hac, h5⟩, hov, fun c v hacc => ?_⟩
    obtain ⟨a, ha1, ha2⟩ := hfind e.point h1 h3 hov c v hacc
    exact Accel.prefer_trans ((hl3 e he).2.2.2 a ha1) ha2
  · rintro p hp hact hov ⟨c, u, hacc⟩
    obtain ⟨a, ha, _⟩ := hfind p hp hact hov c u hacc
    exact hl4 p hp ⟨a, ha⟩

/-- Overlap detection, given that bounds enclose what cells accept and that active points are in active cells. -/
theorem detects (hok : Spec.OverlapOk W) : Spec.Detects W := by
  obtain ⟨h, hh, hd⟩ := detect hok
  refine ⟨h, hh, fun m hm k hk => ⟨fun s => ?_, fun r => ?_⟩⟩
  · obtain ⟨x, hx, h1, h2⟩ := hd m hm k hk s
    refine ⟨_, overlapN_iff.2 ⟨x, hx, rfl⟩, ?_⟩
    have hacc : ∀ e ∈ x.1, Ovk.Spec.pts (W.loc k s) e.point ∧ W.active k e.point = true := by
      obtain ⟨cand, h3, h4, _⟩ := sources_iff.1 hx
      obtain ⟨_, h5⟩ := items_spec (hok.grid m hm).tiles h4 h3
      intro e he
      exact ⟨(h5 e he).1, (h5 e he).2.2.1⟩
    split
    · rename_i hov
      refine ⟨fun p => ⟨?_, ?_⟩, ?_⟩
      · rintro ⟨e, he, rfl⟩
        obtain ⟨y, hy, rfl⟩ := List.mem_map.1 he
        exact ⟨(hacc y hy).1, (hacc y hy).2, y.cell, y.coords, (h1 y hy).1⟩
      · rintro ⟨hp, ha, hc⟩
        obtain ⟨y, hy, rfl⟩ := h2 p hp ha hov hc
        exact ⟨_, List.mem_map.2 ⟨y, hy, rfl⟩, rfl⟩
      · intro e he
        obtain ⟨y, hy, rfl⟩ := List.mem_map.1 he
        exact ⟨y.coords, (h1 y hy).1, (h1 y hy).2.2⟩
    · rename_i hov
      rw [List.map_eq_nil_iff, List.eq_nil_iff_forall_not_mem]
      intro e he
      exact hov (h1 e he).2.1
  · exact sides_defined hok.toBase hm hk (fun s => (hd m hm k hk s).imp fun _ h => h.1) r

/-! ### Geometry of multilinear cells -/

/-- A sum of products over all vertices is a product of sums. -/
theorem sum_corners (g : Fin (d + 2) → Bool → Rat) :
    ∑ s : Fin (d + 2) → Bool, ∏ i, g i (s i) = ∏ i, (g i true + g i false) := by
  have h := Finset.prod_univ_sum (fun _ : Fin (d + 2) => (Finset.univ : Finset Bool)) g
  rw [Fintype.piFinset_univ] at h
  rw [← h]
  exact Finset.prod_congr rfl fun i _ => by simp

theorem weights_one (u : Pt (d + 2)) : ∑ s : Fin (d + 2) → Bool, (∏ i, if s i then u i else 1 - u i) = 1 := by
  have h := sum_corners fun i b => if b then u i else 1 - u i
  rw [h]
  simp

theorem weights_marginal (u : Pt (d + 2)) (k : Fin (d + 2)) :
    ∑ s : Fin (d + 2) → Bool, (∏ i, if s i then u i else 1 - u i) * (if s k then 1 else 0) = u k := by
  have h := sum_corners fun i b => if b then u i else if i = k then 0 else 1 - u i
  have h1 : ∀ s : Fin (d + 2) → Bool, (∏ i, if s i then u i else 1 - u i) * (if s k then 1 else 0) =
      ∏ i, if s i then u i else if i = k then 0 else 1 - u i := by
    intro s
    by_cases hk : s k = true
    · rw [if_pos hk, mul_one]
      refine Finset.prod_congr rfl fun i _ => ?_
      by_cases hi : i = k
      · subst hi; simp [hk]
      · simp [hi]
    · rw [if_neg hk, mul_zero]
      exact (Finset.prod_eq_zero (Finset.mem_univ k) (by simp [hk])).symm
  rw [Finset.sum_congr rfl fun s _ => h1 s, h, Finset.prod_eq_single k]
  · simp
  · intro b _ hb; simp [hb]
  · simp

/-- Frames are linear. -/
theorem frame_blend (o : Fin (d + 2) → Fin (d + 2) → Rat) (pos : Tup (d + 2) → Pt (d + 2)) (c : Tup (d + 2))
    (u : Pt (d + 2)) (j : Fin (d + 2)) : Spec.frame o (Spec.blend pos c u) j =
      ∑ s : Fin (d + 2) → Bool, (∏ i, if s i then u i else 1 - u i) * Spec.frame o (pos (Spec.corner c s)) j := by
  unfold Spec.frame Spec.blend
  simp_rw [Finset.mul_sum]
  rw [Finset.sum_comm]
  refine Finset.sum_congr rfl fun s _ => Finset.sum_congr rfl fun i _ => by ring

/-- Inside a cell: between the vertices. -/
theorem blend_inside {F : (Fin (d + 2) → Bool) → Rat} {b e : Rat} (hF : ∀ s, b ≤ F s ∧ F s ≤ e) {u : Pt (d + 2)}
    (hu : ∀ i, 0 ≤ u i ∧ u i ≤ 1) :
    b ≤ ∑ s : Fin (d + 2) → Bool, (∏ i, if s i then u i else 1 - u i) * F s ∧
    ∑ s : Fin (d + 2) → Bool, (∏ i, if s i then u i else 1 - u i) * F s ≤ e := by
  have hw : ∀ s : Fin (d + 2) → Bool, 0 ≤ ∏ i, if s i then u i else 1 - u i := by
    intro s
    refine Finset.prod_nonneg fun i _ => ?_
    have := hu i
    split <;> linarith [this.1, this.2]
  have h1 := weights_one u
  constructor
  · calc b = ∑ s : Fin (d + 2) → Bool, (∏ i, if s i then u i else 1 - u i) * b := by
          rw [← Finset.sum_mul, h1, one_mul]
      _ ≤ _ := Finset.sum_le_sum fun s _ => mul_le_mul_of_nonneg_left (hF s).1 (hw s)
  · calc _ ≤ ∑ s : Fin (d + 2) → Bool, (∏ i, if s i then u i else 1 - u i) * e :=
          Finset.sum_le_sum fun s _ => mul_le_mul_of_nonneg_left (hF s).2 (hw s)
      _ = e := by rw [← Finset.sum_mul, h1, one_mul]

/-- Near an affine cell: within the bounds of the vertices enlarged by the tolerance. -/
theorem blend_near {a : Rat} {E : Fin (d + 2) → Rat} {b e t : Rat} (ht : 0 ≤ t)
    (hF : ∀ s : Fin (d + 2) → Bool, b ≤ a + (∑ i, if s i then E i else 0) ∧ a + (∑ i, if s i then E i else 0) ≤ e)
    {u : Pt (d + 2)} (hu : ∀ i, -t ≤ u i ∧ u i ≤ 1 + t) :
    (1 + t) * b - t * e ≤ a + ∑ i, u i * E i ∧ a + ∑ i, u i * E i ≤ (1 + t) * e - t * b := by
  have hlo := (hF fun i => decide (E i < 0)).1
  have hhi := (hF fun i => decide (0 ≤ E i)).2
  have h1 : (1 + t) * (∑ i, if decide (E i < 0) = true then E i else 0) -
      t * (∑ i, if decide (0 ≤ E i) = true then E i else 0) ≤ ∑ i, u i * E i := by
    rw [Finset.mul_sum, Finset.mul_sum, ← Finset.sum_sub_distrib]
    refine Finset.sum_le_sum fun i _ => ?_
    have := hu i
    by_cases h : E i < 0
    · simp only [h, not_le.2 h, decide_true, decide_false, if_true, if_false, Bool.false_eq_true]
      nlinarith [this.1, this.2]
    · simp only [h, not_lt.1 h, decide_true, decide_false, if_true, if_false, Bool.false_eq_true]
      nlinarith [this.1, this.2, not_lt.1 h]
  have h2 : ∑ i, u i * E i ≤ (1 + t) * (∑ i, if decide (0 ≤ E i) = true then E i else 0) -
      t * (∑ i, if decide (E i < 0) = true then E i else 0) := by
    rw [Finset.mul_sum, Finset.mul_sum, ← Finset.sum_sub_distrib]
    refine Finset.sum_le_sum fun i _ => ?_
    have := hu i
    by_cases h : E i < 0
    · simp only [h, not_le.2 h, decide_true, decide_false, if_true, if_false, Bool.false_eq_true]
      nlinarith [this.1, this.2]
    · simp only [h, not_lt.1 h, decide_true, decide_false, if_true, if_false, Bool.false_eq_true]
      nlinarith [this.1, this.2, not_lt.1 h]
  constructor <;> nlinarith

theorem blend_affine {pos : Tup (d + 2) → Pt (d + 2)} {c : Tup (d + 2)} {edge : Fin (d + 2) → Pt (d + 2)}
    (h : ∀ s j, pos (Spec.corner c s) j = pos c j + ∑ i, if s i then edge i j else 0) (u : Pt (d + 2))
    (j : Fin (d + 2)) : Spec.blend pos c u j = pos c j + ∑ i, u i * edge i j := by
  unfold Spec.blend
  simp_rw [h, mul_add]
  rw [Finset.sum_add_distrib, ← Finset.sum_mul, weights_one, one_mul]
  congr 1
  simp_rw [Finset.mul_sum]
  rw [Finset.sum_comm]
  refine Finset.sum_congr rfl fun i _ => ?_
  rw [← weights_marginal u i, Finset.sum_mul]
  refine Finset.sum_congr rfl fun s _ => ?_
  split <;> ring

/-- The bounds of a cell enclose the points it accepts, if the tolerance is zero or the cell is affine. -/
theorem encloses {pos : Nat → Tup (d + 2) → Pt (d + 2)} (hG : Spec.Geometric W pos) {m k : Nat}
    (hm : m ∈ W.grids) (hk : k ∈ W.grids) {f : Rng (d + 2)} {c : Tup (d + 2)} {x u : Pt (d + 2)}
    (hf : Ovk.Spec.pts f c) (hc : Spec.ActiveCell W m c) (hu : W.coordsIn m c (W.tol m k) x = some u)
    (hcase : W.tol m k = 0 ∨ Spec.Affine (pos m) c) :
    Ovk.Spec.boxHas (Accel.scaleBox (W.bounds m f c) (1 + 2 * W.tol m k)) (Spec.frame (W.orient m f) x) := by
  obtain ⟨rfl, hr⟩ := (hG.local_ m hm k hk c hc x u).1 hu
  intro j
  have hb := (hG.bounds m hm f c hf hc j).1
  unfold Accel.scaleBox
  dsimp only
  rcases hcase with h0 | ⟨edge, he⟩
  · rw [h0] at hr
    have h := blend_inside hb (u := u) fun i => by have := hr i; constructor <;> linarith [this.1, this.2]
    rw [frame_blend, h0]
    constructor <;> linarith [h.1, h.2]
  · have hfr : ∀ s, Spec.frame (W.orient m f) (pos m (Spec.corner c s)) j = Spec.frame (W.orient m f) (pos m c) j +
        ∑ i, if s i then Spec.frame (W.orient m f) (edge i) j else 0 := by
      intro s
      unfold Spec.frame
      simp_rw [he s, mul_add, Finset.sum_add_distrib, Finset.mul_sum]
      congr 1
      rw [Finset.sum_comm]
      refine Finset.sum_congr rfl fun i _ => ?_
      split
      · rfl
      · simp
    have hx : Spec.frame (W.orient m f) (Spec.blend (pos m) c u) j = Spec.frame (W.orient m f) (pos m c) j +
        ∑ i, u i * Spec.frame (W.orient m f) (edge i) j := by
      unfold Spec.frame
      simp_rw [blend_affine he, mul_add, Finset.sum_add_distrib, Finset.mul_sum]
      congr 1
      rw [Finset.sum_comm]
      refine Finset.sum_congr rfl fun i _ => Finset.sum_congr rfl fun l _ => by ring
    have h := blend_near (hG.tol m k) (a := Spec.frame (W.orient m f) (pos m c) j)
      (E := fun i => Spec.frame (W.orient m f) (edge i) j) (fun s => hfr s ▸ hb s) hr
    rw [hx]
    constructor <;> linarith [h.1, h.2]

theorem covered_of_attached {pos : Nat → Tup (d + 2) → Pt (d + 2)} (hG : Spec.Geometric W pos)
    (hA : Spec.Attached W) : Spec.Covered W := by
  intro g hg p hp ha
  obtain ⟨c, hc, s, rfl⟩ := hA g hg p hp ha
  refine ⟨c, hc, fun f hf i => ?_⟩
  rw [hG.coord g hg _ hp]
  exact (hG.bounds g hg f c hf hc i).1 s

/-- The full claim: with multilinear cells. -/
def C86_statement : Prop := ∀ (d n : Nat) (W : World d n) (pos : Nat → Tup (d + 2) → Pt (d + 2)),
  Spec.Base W → Spec.Geometric W pos → Spec.Attached W → Spec.Detects W

/-- C86: for any number of processes and any decomposition, overlap detection is defined on every process, and
the points on the N side are exactly the active local points that are accepted by an active cell of the M grid,
each with its best cell; grids that are not overlappable have no overlap.  Missing: cells that are not affine
together with a tolerance that is not zero. -/
theorem C86_partial {pos : Nat → Tup (d + 2) → Pt (d + 2)} (hB : Spec.Base W) (hG : Spec.Geometric W pos)
    (hA : Spec.Attached W)
    (hcase : ∀ m ∈ W.grids, ∀ k ∈ W.grids, W.tol m k = 0 ∨ ∀ c, Spec.ActiveCell W m c → Spec.Affine (pos m) c) :
    Spec.Detects W := by
  refine detects ⟨hB, ?_, covered_of_attached hG hA⟩
  intro m hm k hk f c x u hf hc hu
  exact encloses hG hm hk hf hc hu ((hcase m hm k hk).imp id fun h => h c hc)

/-- The full claim: for every active mask. -/
def C87_statement : Prop := ∀ (d n : Nat) (W : World d n) (pos : Nat → Tup (d + 2) → Pt (d + 2)),
  Spec.Base W → Spec.Geometric W pos → Spec.Defined W

end Ovk.Ovl
