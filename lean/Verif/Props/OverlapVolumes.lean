/-
Property C89: what overlap detection interpolates at the overlapping points.
-/
import Verif.Model.OverlapVolumes
import Verif.Props.OverlapCollectLimits
import Verif.Props.SendRecv

namespace Ovk.Ovl
variable {d n : Nat} {W : World d n}

namespace Spec
/-- Multilinear interpolation of a field in a cell. -/
def interpolant (G : Tup (d + 2) → Rat) (c : Tup (d + 2)) (u : Pt (d + 2)) : Rat :=
  ∑ s : Fin (d + 2) → Bool, (∏ i, if s i then u i else 1 - u i) * G (corner c s)

/-- The exchange of interpolated values of a field `G` of grid `m` at the points of grid `k`: it is set up and
collected on every process, no execution gets stuck or goes on forever, and in the end every overlapping point has
the interpolated value in the cell that is its source, at local coordinates accepted by this cell. -/
def Delivers (W : World d n) (m k : Nat) (h : DHash.Hash (d + 2) Rat (Frag (d + 2))) (nbrs : Fin n → List (Fin n))
    (field : Fin n → Rng (d + 2)) : Prop :=
  ∃ S, ∃ M : Fin n → List (MEntry (d + 2)), ∃ N : Fin n → List (NEntry (d + 2)), ∃ maps,
    collectSetup W h nbrs field m k = some S ∧ (∀ r, overlapM W h m k r = some (M r)) ∧
    (∀ s, overlapN W h m k s = some (N s)) ∧ volumeMaps M N = some maps ∧
    ∀ (vals : Fin n → Int → Rat) (G : Tup (d + 2) → Rat), Ovk.Spec.Holds S vals G →
    ∀ (junk : Fin n → Nat → Int → Rat) (scratch : Fin n → Int → Rat),
    ∃ dv : Fin n → List Rat, (∀ r, interp S M vals (junk r) (scratch r) r = some (dv r)) ∧
    ∀ (out0 : Fin n → Nat → Nat → Rat) (es : List (SR.Event n)) (x : SR.State n Rat),
      SR.run maps (volumeBuffers dv) (SR.initial out0) es = some x →
      (¬ ((∀ a, x.sent a = true) ∧ ∀ b, x.finished b = true) →
        ∃ e y, SR.step maps (volumeBuffers dv) x e = some y) ∧
      es.length ≤ 3 * n + ∑ b : Fin n, (maps.recv b).msgs.length ∧
      ∀ b, x.finished b = true → ∀ j e, (N b)[j]? = some e →
        ∃ u, Accepts W m k e.point e.source u ∧ x.out b 0 j = interpolant G e.source u
end Spec

/-! ### Interpolation -/

theorem sum_vertices (f : Tup (d + 2) → Rat) (c : Tup (d + 2)) :
    ((vertices c).points.map f).sum = ∑ s : Fin (d + 2) → Bool, f (Spec.corner c s) := by
  rw [← Finset.sum_map_toList]
  have hinj : Function.Injective (Spec.corner c) := by
    intro s t h
    funext i
    have := congrFun h i
    unfold Spec.corner at this
    cases hs : s i <;> cases ht : t i <;> simp [hs, ht] at this ⊢
  have hp : (vertices c).points.Perm ((Finset.univ : Finset (Fin (d + 2) → Bool)).toList.map (Spec.corner c)) := by
    refine (List.perm_ext_iff_of_nodup (Rng.points_nodup _) ((Finset.nodup_toList _).map hinj)).2 fun v => ?_
    rw [mem_vertices]
    simp only [List.mem_map, Finset.mem_toList, Finset.mem_univ, true_and]
    constructor
    · intro h
      refine ⟨fun i => decide (v i ≠ c i), ?_⟩
      funext i
      unfold Spec.corner
      rcases h i with e | e <;> simp [e]
    · rintro ⟨s, rfl⟩ i
      unfold Spec.corner
      cases s i <;> simp
  rw [(hp.map f).sum_eq, List.map_map]
  rfl

theorem interp_cell (G : Tup (d + 2) → Rat) (c : Tup (d + 2)) (u : Pt (d + 2)) :
    ((vertices c).points.map fun p => (∏ i, linCoefs u i (p i - (vertices c).b i)) * G p).sum =
      Spec.interpolant G c u := by
  rw [sum_vertices]
  unfold Spec.interpolant
  refine Finset.sum_congr rfl fun s _ => ?_
  congr 1
  refine Finset.prod_congr rfl fun i _ => ?_
  unfold linCoefs vertices Spec.corner Geo.lin
  cases s i <;> simp

/-! ### Slots in the default order -/

theorem slots_default {α : Type} (L : List α) (rank : α → Int) (r : Int) :
    (SR.Spec.slots (SR.defaultOrder L.length) (L.map rank) r).map (fun j => L[j]?) =
      (L.filter fun e => decide (rank e = r)).map some := by
  unfold SR.Spec.slots SR.defaultOrder
  induction L with
  | nil => rfl
  | cons a L ih =>
    rw [List.length_cons, List.range_succ_eq_map, List.filter_cons, List.filter_map, List.filter_cons]
    have hc : ((fun v => decide (((a :: L).map rank)[v]? = some r)) ∘ Nat.succ) =
        fun v => decide ((L.map rank)[v]? = some r) := by
      funext v; simp
    rw [hc]
    have ht : ∀ l : List Nat, (l.map Nat.succ).map (fun j => (a :: L)[j]?) = l.map fun j => L[j]? := by
      intro l; rw [List.map_map]; apply List.map_congr_left; intro j _; simp
    by_cases h : rank a = r
    · simp only [List.map_cons, List.getElem?_cons_zero, h, decide_true, if_true]
      rw [ht, ih]
    · simp only [List.map_cons, List.getElem?_cons_zero, Option.some.injEq, h, decide_false, if_false,
        Bool.false_eq_true]
      rw [ht, ih]

theorem count_filter {α : Type} (L : List α) (rank : α → Int) (r : Int) :
    (L.map rank).count r = (L.filter fun e => decide (rank e = r)).length := by
  have h1 := congrArg List.length (slots_default L rank r)
  rw [List.length_map, List.length_map] at h1
  rw [← h1, SR.slots_length]
  rw [List.length_map]
  exact List.Perm.refl _

/-- The exchange of interpolated values, given that collecting is possible. -/
theorem delivers (hB : Spec.Base W) {m k : Nat} (hm : m ∈ W.grids) (hk : k ∈ W.grids)
    {h : DHash.Hash (d + 2) Rat (Frag (d + 2))} {nbrs : Fin n → List (Fin n)} {field : Fin n → Rng (d + 2)}
    {M : Fin n → List (MEntry (d + 2))} {N : Fin n → List (NEntry (d + 2))}
    (hM : ∀ r, overlapM W h m k r = some (M r)) (hN : ∀ s, overlapN W h m k s = some (N s))
    (hC : Ovk.Spec.CollectOk ⟨W.cart m, W.loc m, nbrs, field, fun r => (M r).map fun e => vertices e.cell, .col⟩)
    (hact : ∀ s, ∀ e ∈ N s, Spec.ActiveCell W m e.source) : Spec.Delivers W m k h nbrs field := by
  have hgm := hB.grid m hm
  have hgk := hB.grid k hk
  have hsnd : ∀ a, ∃ mp, SR.build ((M a).map MEntry.rank) (SR.defaultOrder (M a).length) = some mp ∧
      mp.ranks = (M a).map MEntry.rank ∧ mp.order = SR.defaultOrder (M a).length := fun a => by
    obtain ⟨mp, h1, h2, h3, _⟩ := SR.build_ok ((M a).map MEntry.rank) (SR.defaultOrder (M a).length)
    exact ⟨mp, h1, h2, h3⟩
  have hrcv : ∀ b, ∃ mp, SR.build ((N b).map NEntry.rank) (SR.defaultOrder (N b).length) = some mp ∧
      mp.ranks = (N b).map NEntry.rank ∧ mp.order = SR.defaultOrder (N b).length := fun b => by
    obtain ⟨mp, h1, h2, h3, _⟩ := SR.build_ok ((N b).map NEntry.rank) (SR.defaultOrder (N b).length)
    exact ⟨mp, h1, h2, h3⟩
  choose snd hs1 hs2 hs3 using hsnd
  choose rcv hr1 hr2 hr3 using hrcv
  have hmaps : volumeMaps M N = some ⟨snd, rcv, 1⟩ := by
    unfold volumeMaps
    rw [DHash.allDims_eq _ _ hs1, DHash.allDims_eq _ _ hr1]
    rfl
  have hsides : ∀ a b, Spec.forRank (M a) b = Spec.fromRank (N b) a :=
    fun a b => C85_sides hgm hgk hB.sorts (hM a) (hN b)
  have hmatch : SR.Spec.Matched (⟨snd, rcv, 1⟩ : SR.Setup n) := by
    refine ⟨fun a => ?_, fun a => ?_, fun a => ?_, fun a => ?_, fun a r hr => ?_, fun a r hr => ?_, fun a b => ?_⟩ <;>
      dsimp only at *
    · rw [hs2, hs3]; exact hs1 a
    · rw [hr2, hr3]; exact hr1 a
    · rw [hs2, hs3, List.length_map]; exact List.Perm.refl _
    · rw [hr2, hr3, List.length_map]; exact List.Perm.refl _
    · rw [hs2] at hr
      obtain ⟨e, he, rfl⟩ := List.mem_map.1 hr
      obtain ⟨s, r', c, _, _, _, _, h1, h2⟩ := (C85_destinations hgm hgk hB.sorts (hM a)).2 e he
      by_cases hra : r' = a
      · rw [(h1 hra).2]; exact_mod_cast s.isLt
      · rw [h2 hra]; omega
    · rw [hr2] at hr
      obtain ⟨e, he, rfl⟩ := List.mem_map.1 hr
      obtain ⟨_, _, _, r', h1, _⟩ := (C85_owner hgm (hN a)).2 e he
      rw [h1]; exact_mod_cast r'.isLt
    · rw [hs2, hr2, count_filter, count_filter]
      have := congrArg List.length (hsides a b)
      unfold Spec.forRank Spec.fromRank at this
      rwa [List.length_map, List.length_map] at this
  refine ⟨⟨W.cart m, W.loc m, nbrs, field, fun r => (M r).map fun e => vertices e.cell, .col⟩, M, N, _, ?_, hM, hN,
    hmaps, ?_⟩
  · unfold collectSetup
    rw [DHash.allDims_eq _ _ hM]
    rfl
  intro vals G hG junk scratch
  refine ⟨fun r => (M r).map fun e => Spec.interpolant G e.cell e.coords, fun r => ?_, ?_⟩
  · unfold interp
    rw [C22_partial hC hG _ _ _ r (.inl rfl)]
    dsimp only
    rw [List.zipIdx_map, List.map_map]
    congr 1
    have : (M r).map (fun e => Spec.interpolant G e.cell e.coords) =
        (M r).zipIdx.map fun x => Spec.interpolant G x.1.cell x.1.coords := by
      conv_lhs => rw [← List.zipIdx_map_fst 0 (M r), List.map_map]
      rfl
    rw [this]
    apply List.map_congr_left
    rintro ⟨e, j⟩ hj
    have hj' := List.mem_zipIdx_iff_getElem?.1 hj
    have := C22_interp .col (vertices e.cell) ⟨_, pts_vertices.2 fun i => .inl rfl⟩ G
      (fun _ => linCoefs e.coords) (junk r j) j
    rw [interp_cell] at this
    dsimp only
    rw [← this]
    unfold Ovk.Spec.reduction
    simp only [Function.comp, Prod.map_fst, Prod.map_snd, id]
    congr 1
    funext acc i
    unfold Coll.interpStep
    simp only [hj']
  · intro out0 es x hrun
    refine ⟨SR.C21_progress hmatch _ out0 es x hrun, SR.C21_terminates _ _ out0 es x hrun, ?_⟩
    intro b hb j e hj
    obtain ⟨_, hown⟩ := C85_owner hgm (hN b)
    obtain ⟨_, _, ⟨u, hu⟩, a, hra, hoa⟩ := hown e (List.mem_of_getElem? hj)
    refine ⟨u, ⟨hact b e (List.mem_of_getElem? hj), hu⟩, ?_⟩
    obtain ⟨_, hmt, _⟩ := SR.C21_matching hmatch a b
    obtain ⟨q, i, hq1, hq2, _⟩ := hmt j (by
      dsimp only
      rw [hr2, List.getElem?_map, hj, Option.map_some, hra])
    have hval := (SR.C21_values hmatch _ out0 es x hrun b hb).values a q i j 0 (by simp) hq2 hq1
    rw [hval]
    -- the sending slot
    have hf : ((M a).filter fun e => decide (e.rank = (b.val : Int)))[q]? = (M a)[i]? ∧ ∃ e', (M a)[i]? = some e' := by
      have := slots_default (M a) MEntry.rank (b.val : Int)
      have h2 := congrArg (fun l => l[q]?) this
      unfold SR.Spec.from_ at hq2
      dsimp only at hq2
      rw [hs2, hs3] at hq2
      simp only [List.getElem?_map] at h2
      rw [hq2] at h2
      simp only [Option.map_some] at h2
      obtain ⟨e', h3, h4⟩ := Option.map_eq_some_iff.1 h2.symm
      exact ⟨by rw [h3, ← h4], e', h4.symm⟩
    have hg : ((N b).filter fun e => decide (e.rank = (a.val : Int)))[q]? = some e := by
      have := slots_default (N b) NEntry.rank (a.val : Int)
      have h2 := congrArg (fun l => l[q]?) this
      unfold SR.Spec.into at hq1
      dsimp only at hq1
      rw [hr2, hr3] at hq1
      simp only [List.getElem?_map] at h2
      rw [hq1] at h2
      simp only [Option.map_some] at h2
      obtain ⟨e', h3, h4⟩ := Option.map_eq_some_iff.1 h2.symm
      rw [hj] at h4
      rw [h3, h4]
    obtain ⟨hf, e', he'⟩ := hf
    have hpair : e'.cell = e.source ∧ e'.dest = e.point := by
      have h2 := congrArg (fun l => l[q]?) (hsides a b)
      unfold Spec.forRank Spec.fromRank at h2
      simp only [List.getElem?_map] at h2
      rw [hf, hg, he', Option.map_some, Option.map_some, Option.some.injEq] at h2
      exact Prod.mk.inj h2
    have hrank : e'.rank = (b.val : Int) := by
      rw [he'] at hf
      have := List.mem_of_getElem? hf
      simpa using (List.mem_filter.1 this).2
    obtain ⟨s, r', c, _, _, _, hcu, h1, h2⟩ := (C85_destinations hgm hgk hB.sorts (hM a)).2 e' (List.mem_of_getElem? he')
    have hra' : r' = a := by
      by_contra hne
      rw [h2 hne] at hrank
      omega
    obtain ⟨hcell, _⟩ := h1 hra'
    rw [← hcell, hpair.1, hpair.2] at hcu
    rw [hu] at hcu
    have hcoords : e'.coords = u := (Option.some.inj hcu).symm
    unfold volumeBuffers
    rw [List.getD_eq_getElem?_getD, List.getElem?_map, he']
    simp [hpair.1, hcoords]

/-- The full claim, with multilinear cells and tolerance zero. -/
def C89_statement : Prop := ∀ (d n : Nat) (W : World d n) (pos : Nat → Tup (d + 2) → Pt (d + 2)),
  Spec.Base W → Spec.Geometric W pos → Spec.Attached W → (∀ m k, W.tol m k = 0) →
  ∀ m ∈ W.grids, (W.cart m).storage = .unique → Spec.Images W m →
  ∃ h, hash W = some h ∧ ∀ k ∈ W.grids, ∀ nbrs field, Spec.Neighbors W m nbrs →
    (∀ a p, Ovk.Spec.pts (W.loc m a) p → Ovk.Spec.pts (field a) p) → Spec.Delivers W m k h nbrs field

/-- C89: the values of any field on the M grid that overlap detection interpolates and sends arrive: no execution
gets stuck, and every overlapping point ends up with the multilinear interpolant of the global field in its source
cell at its local coordinates.  Missing: as in C88. -/
theorem C89_partial (hok : Spec.OverlapOk W) {m : Nat} (hm : m ∈ W.grids) (hs : (W.cart m).storage = .unique)
    (hroot : Spec.Rooted W m) (himg : Spec.Images W m) :
    ∃ h, hash W = some h ∧ ∀ k ∈ W.grids, ∀ nbrs field, Spec.Neighbors W m nbrs →
      (∀ a p, Ovk.Spec.pts (W.loc m a) p → Ovk.Spec.pts (field a) p) → Spec.Delivers W m k h nbrs field := by
  obtain ⟨h, hh, hdet⟩ := detects hok
  refine ⟨h, hh, fun k hk nbrs field hn hfield => ?_⟩
  choose N hN hNc using (hdet m hm k hk).1
  choose M hM using (hdet m hm k hk).2
  refine delivers hok.toBase hm hk hM hN (collect_ok hok hm hk hs hroot himg hh hn hfield hM) fun s e he => ?_
  have := hNc s
  split at this
  · obtain ⟨u, hu, _⟩ := this.best e he
    exact hu.1
  · rw [this] at he; simp at he

/-- C89: interpolating the coordinates of the M grid in this way reproduces the coordinates of the overlapping
points. -/
theorem C89_coordinates {pos : Nat → Tup (d + 2) → Pt (d + 2)} (hG : Spec.Geometric W pos) {m k : Nat}
    (hm : m ∈ W.grids) (hk : k ∈ W.grids) {p c : Tup (d + 2)} {u : Pt (d + 2)} (hu : Spec.Accepts W m k p c u)
    (j : Fin (d + 2)) : Spec.interpolant (fun q => pos m q j) c u = W.coord k p j := by
  rw [((hG.local_ m hm k hk c hu.1 _ u).1 hu.2).1]
  rfl

/-- C89 applies to the example of C85, where grid 1 has points in the cell of grid 0 that is split over both
processes. -/
example : ∃ h, hash exWorld = some h ∧ ∀ k ∈ exWorld.grids, ∀ nbrs field, Spec.Neighbors exWorld 0 nbrs →
    (∀ a p, Ovk.Spec.pts (exWorld.loc 0 a) p → Ovk.Spec.pts (field a) p) → Spec.Delivers exWorld 0 k h nbrs field := by
  refine C89_partial ⟨exWorld_base, ?_, covered_of_attached (uniform_geometric exStep_pos le_rfl) exWorld_attached⟩
    (by simp [exWorld, uniform]) rfl exWorld_rooted (uniform_images exStep_pos le_rfl (by simp) fun _ => rfl)
  intro m hm k hk f c x u hf hc hu
  exact encloses (uniform_geometric exStep_pos le_rfl) hm hk hf hc hu (.inl rfl)

theorem strand_interp :
    ((hash strand).bind fun h => (collectSetup strand h pairNbrs (strand.loc 0) 0 1).bind fun S =>
      (DHash.allDims (overlapM strand h 0 1)).map fun M =>
        (interp S M (fun _ _ => 0) (fun _ _ => 0) (fun _ => 0) 0).isNone) = some true := by
  decide +kernel

/-- In the first world of C88 the interpolation on process 0 never completes. -/
theorem C89_false : ¬ C89_statement := by
  intro hst
  obtain ⟨h, hh, hd⟩ := hst 0 2 strand _ strand_base (uniform_geometric strand_step le_rfl)
    strand_attached (fun _ _ => rfl) 0 (by simp [strand, uniform]) rfl (by
      refine uniform_images strand_step le_rfl (by simp) fun i => ?_
      fin_cases i <;> rfl)
  obtain ⟨S, M, N, maps, hS, hM, _, _, hc⟩ := hd 1 (by simp [strand, uniform]) pairNbrs (strand.loc 0) pair_nbrs
    fun _ _ h => h
  obtain ⟨dv, hdv, _⟩ := hc (fun _ _ => 0) (fun _ => 0) ⟨fun _ _ _ => rfl, fun _ _ _ => rfl⟩ (fun _ _ _ => 0) fun _ _ => 0
  have hst := strand_interp
  rw [hh, Option.bind_some, hS, Option.bind_some, DHash.allDims_eq _ _ hM, Option.map_some, hdv 0] at hst
  simp at hst

end Ovk.Ovl
