/-
Property C90: what filling leaves in the connectivities.
-/
import Verif.Model.Fill
import Verif.Props.OverlapVolumes

namespace Ovk.Ovl
variable {d n : Nat} {W : World d n}

namespace Spec
/-- Neighbour lists as in C88 that are symmetric and name only processes with points of the grid. -/
structure Linked (W : World d n) (m : Nat) (nbrs : Fin n → List (Fin n)) : Prop extends Neighbors W m nbrs where
  symm : ∀ a b, b ∈ nbrs a → a ∈ nbrs b
  points : ∀ a, ∀ b ∈ nbrs a, ∃ p, Ovk.Spec.pts (W.loc m b) p

/-- A donor grid is chosen only for receivers, among the connectible grids with a cell found for the point. -/
structure Chosen (W : World d n) (D : Choice d) (N : Nat → Nat → Fin n → List (NEntry (d + 2))) : Prop where
  receiver : ∀ k ∈ W.grids, ∀ p m, D.donor k p = some m → D.receiver k p = true
  grid : ∀ k ∈ W.grids, ∀ p m, D.donor k p = some m → m ∈ W.grids
  type : ∀ k ∈ W.grids, ∀ p m, D.donor k p = some m → D.type m k = .nearest ∨ D.type m k = .linear
  found : ∀ k ∈ W.grids, ∀ p m, D.donor k p = some m → ∃ b, ∃ e ∈ N m k b, e.point = p

/-- A cell and its image are two points wide in every periodic dimension. -/
def Wide (W : World d n) (m : Nat) : Prop := ∀ i, (W.cart m).periodic i = true → 2 ≤ Ovk.Spec.periodLen (W.cart m) i

/-- What the cells learn about the choice. -/
def Learned (D : Choice d) (m k : Nat) (M : Fin n → List (MEntry (d + 2))) (don : Fin n → Nat → Bool) : Prop :=
  ∀ a i e, (M a)[i]? = some e → (don a i = true ↔ 0 ≤ e.rank ∧ D.donor k e.dest = some m)

/-- The connectivities hold the chosen donors. -/
structure Filled (W : World d n) (D : Choice d) (N : Nat → Nat → Fin n → List (NEntry (d + 2)))
    (cs : List (Conn (d + 2) n)) : Prop where
  /-- There is a connectivity for every pair of grids with a receiver. -/
  pairs : ∀ m k, (∃ c ∈ cs, c.m = m ∧ c.k = k) ↔ m ∈ W.grids ∧ k ∈ W.grids ∧
    ∃ b p, Ovk.Spec.pts (W.loc k b) p ∧ D.donor k p = some m
  once : (cs.map fun c => (c.m, c.k)).Nodup
  /-- The receivers of a process are its points that chose this donor grid, -/
  receivers : ∀ c ∈ cs, ∀ b, (c.receivers b).map Prod.fst =
    (W.loc c.k b).points.filter fun p => decide (D.donor c.k p = some c.m)
  /-- with the cells found by overlap detection. -/
  source : ∀ c ∈ cs, ∀ b, ∀ x ∈ c.receivers b, ∃ e ∈ N c.m c.k b, e.point = x.1 ∧ e.source = x.2
  /-- The donors of a process are in the order of their destinations, each of which occurs once. -/
  order : ∀ c ∈ cs, ∀ a, (c.donors a).Pairwise fun x y => colLt x.dest y.dest
  /-- A donor is for a receiver: it has the local coordinates in the source cell of the receiver, and its extents
  are an image of this cell with a vertex on the process. -/
  donor : ∀ c ∈ cs, ∀ a, ∀ y ∈ c.donors a, ∃ b, ∃ x ∈ c.receivers b, x.1 = y.dest ∧
    W.coordsIn c.m x.2 (W.tol c.m c.k) (W.coord c.k y.dest) = some y.coords ∧
    ∃ c', Ovk.Spec.SamePoint (W.cart c.m) x.2 c' ∧ y.ext = ⟨c', fun i => c' i + 2⟩ ∧
      ∃ v, (∀ i, v i = c' i ∨ v i = c' i + 1) ∧ Ovk.Spec.pts (W.loc c.m a) v
  /-- Every process that holds a vertex of the source cell of a receiver lists it, -/
  listed : ∀ c ∈ cs, ∀ b, ∀ x ∈ c.receivers b, ∀ a, HoldsVertex W c.m a x.2 → ∃ y ∈ c.donors a, y.dest = x.1
  /-- the one that holds the lower corner with the cell itself. -/
  owned : ∀ c ∈ cs, ∀ b, ∀ x ∈ c.receivers b, ∀ a, Ovk.Spec.pts (W.loc c.m a) x.2 →
    ∃ y ∈ c.donors a, y.dest = x.1 ∧ y.ext = ⟨x.2, fun i => x.2 i + 2⟩
  /-- Only one process has a donor for a receiver with a lower corner among its points. -/
  sole : ∀ c ∈ cs, ∀ a a' y y', y ∈ c.donors a → y' ∈ c.donors a' → y.dest = y'.dest →
    Ovk.Spec.pts (W.loc c.m a) y.ext.b → Ovk.Spec.pts (W.loc c.m a') y'.ext.b → a = a'

/-- Overlap data of all pairs of grids. -/
def Overlapped (W : World d n) (M : Nat → Nat → Fin n → List (MEntry (d + 2)))
    (N : Nat → Nat → Fin n → List (NEntry (d + 2))) : Prop :=
  ∃ h, hash W = some h ∧ ∀ m ∈ W.grids, ∀ k ∈ W.grids, ∀ r, overlapM W h m k r = some (M m k r) ∧
    overlapN W h m k r = some (N m k r)
end Spec

/-! ### The two sides -/

section
variable {h : DHash.Hash (d + 2) Rat (Frag (d + 2))} {m k : Nat} {M : Fin n → List (MEntry (d + 2))}
  {N : Fin n → List (NEntry (d + 2))}

theorem m_of_n (hB : Spec.Base W) (hm : m ∈ W.grids) (hk : k ∈ W.grids)
    (hM : ∀ r, overlapM W h m k r = some (M r)) (hN : ∀ s, overlapN W h m k s = some (N s)) {s : Fin n}
    {e : NEntry (d + 2)} (he : e ∈ N s) :
    ∃ a : Fin n, e.rank = (a.val : Int) ∧ Spec.Owns W m a e.source ∧ ∃ x ∈ M a, x.rank = (s.val : Int) ∧
      x.cell = e.source ∧ x.dest = e.point ∧
      W.coordsIn m e.source (W.tol m k) (W.coord k e.point) = some x.coords := by
  obtain ⟨_, _, _, a, hr, ho⟩ := (C85_owner (hB.grid m hm) (hN s)).2 e he
  have h1 : (e.source, e.point) ∈ Spec.fromRank (N s) a :=
    List.mem_map.2 ⟨e, List.mem_filter.2 ⟨he, by simpa using hr⟩, rfl⟩
  rw [← C85_sides (hB.grid m hm) (hB.grid k hk) hB.sorts (hM a) (hN s)] at h1
  obtain ⟨x, hx, e1⟩ := List.mem_map.1 h1
  obtain ⟨hx, hxr⟩ := List.mem_filter.1 hx
  have hxr : x.rank = (s.val : Int) := by simpa using hxr
  obtain ⟨e2, e3⟩ := Prod.mk.inj e1
  obtain ⟨s', r', c, _, _, _, h2, h3, h4⟩ := (C85_destinations (hB.grid m hm) (hB.grid k hk) hB.sorts (hM a)).2 x hx
  have hra : r' = a := by
    by_contra hne
    have := h4 hne
    omega
  have e2 : x.cell = e.source := e2
  have e3 : x.dest = e.point := e3
  rw [← (h3 hra).1, e2, e3] at h2
  exact ⟨a, hr, ho, x, hx, hxr, e2, e3, h2⟩

theorem n_of_m (hB : Spec.Base W) (hm : m ∈ W.grids) (hk : k ∈ W.grids)
    (hM : ∀ r, overlapM W h m k r = some (M r)) (hN : ∀ s, overlapN W h m k s = some (N s)) {a : Fin n}
    {x : MEntry (d + 2)} (hx : x ∈ M a) (hr : 0 ≤ x.rank) :
    ∃ s : Fin n, x.rank = (s.val : Int) ∧ Spec.Owns W m a x.cell ∧ ∃ e ∈ N s, e.rank = (a.val : Int) ∧
      e.source = x.cell ∧ e.point = x.dest ∧
      W.coordsIn m x.cell (W.tol m k) (W.coord k x.dest) = some x.coords := by
  obtain ⟨s, r', c, _, ho, _, h2, h3, h4⟩ := (C85_destinations (hB.grid m hm) (hB.grid k hk) hB.sorts (hM a)).2 x hx
  have hra : r' = a := by
    by_contra hne
    have := h4 hne
    omega
  obtain ⟨e1, hrk⟩ := h3 hra
  have h1 : (x.cell, x.dest) ∈ Spec.forRank (M a) s :=
    List.mem_map.2 ⟨x, List.mem_filter.2 ⟨hx, by simpa using hrk⟩, rfl⟩
  rw [C85_sides (hB.grid m hm) (hB.grid k hk) hB.sorts (hM a) (hN s)] at h1
  obtain ⟨e, he, e2⟩ := List.mem_map.1 h1
  obtain ⟨he, her⟩ := List.mem_filter.1 he
  obtain ⟨e2, e3⟩ := Prod.mk.inj e2
  rw [← e1] at h2 ho
  rw [hra] at ho
  exact ⟨s, hrk, ho, e, he, by simpa using her, e2, e3, h2⟩

/-- C90: telling the cells which of them donate: the maps are defined, no execution gets stuck or goes on forever,
and in the end a process knows for each of its cells whether the point found in it has chosen its grid. -/
theorem C90_learn (hB : Spec.Base W) (hm : m ∈ W.grids) (hk : k ∈ W.grids)
    (hM : ∀ r, overlapM W h m k r = some (M r)) (hN : ∀ s, overlapN W h m k s = some (N s)) (D : Choice d) :
    ∃ maps, donateMaps M N = some maps ∧ ∀ es x,
      SR.run maps (donateBuffers D m k N) (SR.initial donatesInit) es = some x →
      (¬ ((∀ a, x.sent a = true) ∧ ∀ b, x.finished b = true) →
        ∃ e y, SR.step maps (donateBuffers D m k N) x e = some y) ∧
      es.length ≤ 3 * n + ∑ b : Fin n, (maps.recv b).msgs.length ∧
      ((∀ b, x.finished b = true) → Spec.Learned D m k M fun a i => x.out a 0 i) := by
  have hgm := hB.grid m hm
  have hgk := hB.grid k hk
  have hsnd : ∀ b, ∃ mp, SR.build ((N b).map NEntry.rank) (SR.defaultOrder (N b).length) = some mp ∧
      mp.ranks = (N b).map NEntry.rank ∧ mp.order = SR.defaultOrder (N b).length := fun b => by
    obtain ⟨mp, h1, h2, h3, _⟩ := SR.build_ok ((N b).map NEntry.rank) (SR.defaultOrder (N b).length)
    exact ⟨mp, h1, h2, h3⟩
  have hrcv : ∀ a, ∃ mp, SR.build ((M a).map MEntry.rank) (SR.defaultOrder (M a).length) = some mp ∧
      mp.ranks = (M a).map MEntry.rank ∧ mp.order = SR.defaultOrder (M a).length := fun a => by
    obtain ⟨mp, h1, h2, h3, _⟩ := SR.build_ok ((M a).map MEntry.rank) (SR.defaultOrder (M a).length)
    exact ⟨mp, h1, h2, h3⟩
  choose snd hs1 hs2 hs3 using hsnd
  choose rcv hr1 hr2 hr3 using hrcv
  have hmaps : donateMaps M N = some ⟨snd, rcv, 1⟩ := by
    unfold donateMaps
    rw [DHash.allDims_eq _ _ hs1, DHash.allDims_eq _ _ hr1]
    rfl
  have hsides : ∀ a b, Spec.forRank (M a) b = Spec.fromRank (N b) a :=
    fun a b => C85_sides hgm hgk hB.sorts (hM a) (hN b)
  have hmatch : SR.Spec.Matched (⟨snd, rcv, 1⟩ : SR.Setup n) := by
    refine ⟨fun a => ?_, fun a => ?_, fun a => ?_, fun a => ?_, fun a r hr => ?_, fun a r hr => ?_, fun b a => ?_⟩ <;>
      dsimp only at *
    · rw [hs2, hs3]; exact hs1 a
    · rw [hr2, hr3]; exact hr1 a
    · rw [hs2, hs3, List.length_map]; exact List.Perm.refl _
    · rw [hr2, hr3, List.length_map]; exact List.Perm.refl _
    · rw [hs2] at hr
      obtain ⟨e, he, rfl⟩ := List.mem_map.1 hr
      obtain ⟨_, _, _, r', h1, _⟩ := (C85_owner hgm (hN a)).2 e he
      rw [h1]; exact_mod_cast r'.isLt
    · rw [hr2] at hr
      obtain ⟨e, he, rfl⟩ := List.mem_map.1 hr
      obtain ⟨s, r', c, _, _, _, _, h1, h2⟩ := (C85_destinations hgm hgk hB.sorts (hM a)).2 e he
      by_cases hra : r' = a
      · rw [(h1 hra).2]; exact_mod_cast s.isLt
      · rw [h2 hra]; omega
    · rw [hs2, hr2, count_filter, count_filter]
      have := congrArg List.length (hsides a b)
      unfold Spec.forRank Spec.fromRank at this
      rw [List.length_map, List.length_map] at this
      exact this.symm
  refine ⟨_, hmaps, fun es x hrun => ⟨SR.C21_progress hmatch _ _ es x hrun, SR.C21_terminates _ _ _ es x hrun, ?_⟩⟩
  intro hfin a i e hi
  show x.out a 0 i = true ↔ _
  have hval := SR.C21_values hmatch _ _ es x hrun a (hfin a)
  by_cases hr : 0 ≤ e.rank
  · obtain ⟨s, hrk, _, _⟩ := n_of_m hB hm hk hM hN (List.mem_of_getElem? hi) hr
    obtain ⟨_, hmt, _⟩ := SR.C21_matching hmatch s a
    obtain ⟨q, j, hq1, hq2, _⟩ := hmt i (by
      dsimp only
      rw [hr2, List.getElem?_map, hi, Option.map_some, hrk])
    rw [hval.values s q j i 0 (by simp) hq2 hq1]
    have hf : ∃ e', ((N s).filter fun e => decide (e.rank = (a.val : Int)))[q]? = some e' ∧ (N s)[j]? = some e' := by
      have := slots_default (N s) NEntry.rank (a.val : Int)
      have h2 := congrArg (fun l => l[q]?) this
      unfold SR.Spec.from_ at hq2
      dsimp only at hq2
      rw [hs2, hs3] at hq2
      simp only [List.getElem?_map] at h2
      rw [hq2] at h2
      simp only [Option.map_some] at h2
      obtain ⟨e', h3, h4⟩ := Option.map_eq_some_iff.1 h2.symm
      exact ⟨e', h3, h4.symm⟩
    have hg : ((M a).filter fun e => decide (e.rank = (s.val : Int)))[q]? = some e := by
      have := slots_default (M a) MEntry.rank (s.val : Int)
      have h2 := congrArg (fun l => l[q]?) this
      unfold SR.Spec.into at hq1
      dsimp only at hq1
      rw [hr2, hr3] at hq1
      simp only [List.getElem?_map] at h2
      rw [hq1] at h2
      simp only [Option.map_some] at h2
      obtain ⟨e', h3, h4⟩ := Option.map_eq_some_iff.1 h2.symm
      rw [hi] at h4
      rw [h3, h4]
    obtain ⟨e', hf, hj⟩ := hf
    have hpair : e.dest = e'.point := by
      have h2 := congrArg (fun l => l[q]?) (hsides a s)
      unfold Spec.forRank Spec.fromRank at h2
      simp only [List.getElem?_map] at h2
      rw [hf, hg, Option.map_some, Option.map_some, Option.some.injEq] at h2
      exact (Prod.mk.inj h2).2
    unfold donateBuffers
    rw [hj]
    simp [hpair, hr]
  · have hu := hval.untouched 0 i (by
      rintro ⟨_, r, h1, h2⟩
      dsimp only at h1
      rw [hr2, List.getElem?_map, hi, Option.map_some, Option.some.injEq] at h1
      omega)
    rw [hu]
    simp [donatesInit, hr]

/-! ### Donors -/

theorem mem_localDonors {D : Choice d} {don : Fin n → Nat → Bool} (hdon : Spec.Learned D m k M don) (a : Fin n)
    (y : FDonor (d + 2)) : y ∈ localDonors (don a) (M a) ↔ ∃ x ∈ M a, 0 ≤ x.rank ∧ D.donor k x.dest = some m ∧
      y = ⟨vertices x.cell, x.coords, x.dest⟩ := by
  unfold localDonors
  simp only [List.mem_map, List.mem_filter, Prod.exists]
  constructor
  · rintro ⟨x, i, ⟨hx, hd⟩, rfl⟩
    have hi := List.mem_zipIdx_iff_getElem?.1 hx
    obtain ⟨h1, h2⟩ := (hdon a i x hi).1 hd
    exact ⟨x, List.mem_of_getElem? hi, h1, h2, rfl⟩
  · rintro ⟨x, hx, h1, h2, rfl⟩
    obtain ⟨i, hi⟩ := List.mem_iff_getElem?.1 hx
    exact ⟨x, i, ⟨List.mem_zipIdx_iff_getElem?.2 hi, (hdon a i x hi).2 ⟨h1, h2⟩⟩, rfl⟩

theorem localDonors_sorted (hB : Spec.Base W) (hm : m ∈ W.grids) (hk : k ∈ W.grids)
    (hM : ∀ r, overlapM W h m k r = some (M r)) (don : Fin n → Nat → Bool) (a : Fin n) :
    (localDonors (don a) (M a)).Pairwise fun x y => colLt x.dest y.dest := by
  unfold localDonors
  rw [List.pairwise_map]
  apply List.Pairwise.filter
  have := (C85_destinations (hB.grid m hm) (hB.grid k hk) hB.sorts (hM a)).1
  have e : ((M a).zipIdx.map Prod.fst) = M a := by simp
  rw [← e, List.pairwise_map] at this
  exact this

theorem n_unique (hB : Spec.Base W) (hm : m ∈ W.grids) (hk : k ∈ W.grids)
    (hN : ∀ s, overlapN W h m k s = some (N s)) {s t : Fin n} {e f : NEntry (d + 2)} (he : e ∈ N s) (hf : f ∈ N t)
    (hp : e.point = f.point) : s = t ∧ e = f := by
  obtain ⟨h1, h2⟩ := C85_owner (hB.grid m hm) (hN s)
  obtain ⟨_, h3⟩ := C85_owner (hB.grid m hm) (hN t)
  have hst : s = t := by
    have g1 := (h2 e he).1
    have g2 := (h3 f hf).1
    rw [← hp] at g2
    have hin : Ovk.Spec.pts (W.cart k).range e.point := fun i =>
      ⟨((hB.grid k hk).tiles.1 s i).1.trans (g1 i).1, lt_of_lt_of_le (g1 i).2 ((hB.grid k hk).tiles.1 s i).2⟩
    exact ((hB.grid k hk).tiles.2 _ hin).unique g1 g2
  subst hst
  refine ⟨rfl, ?_⟩
  by_contra hne
  obtain ⟨i, hi, rfl⟩ := List.getElem_of_mem he
  obtain ⟨j, hj, rfl⟩ := List.getElem_of_mem hf
  rcases Nat.lt_trichotomy i j with hl | rfl | hl
  · exact colLt_irrefl _ (hp ▸ List.pairwise_iff_getElem.1 h1 i j hi hj hl)
  · exact hne rfl
  · exact colLt_irrefl _ (hp ▸ List.pairwise_iff_getElem.1 h1 j i hj hi hl)

theorem local_unique (hB : Spec.Base W) (hm : m ∈ W.grids) (hk : k ∈ W.grids)
    (hM : ∀ r, overlapM W h m k r = some (M r)) (hN : ∀ s, overlapN W h m k s = some (N s)) {D : Choice d}
    {don : Fin n → Nat → Bool} (hdon : Spec.Learned D m k M don) {a b : Fin n} {x y : FDonor (d + 2)}
    (hx : x ∈ localDonors (don a) (M a)) (hy : y ∈ localDonors (don b) (M b)) (hd : x.dest = y.dest) : a = b := by
  obtain ⟨x, hx', h1, _, rfl⟩ := (mem_localDonors hdon a _).1 hx
  obtain ⟨y, hy', h2, _, rfl⟩ := (mem_localDonors hdon b _).1 hy
  obtain ⟨s, _, _, e, he, r1, _, e1, _⟩ := n_of_m hB hm hk hM hN hx' h1
  obtain ⟨t, _, _, f, hf, r2, _, f1, _⟩ := n_of_m hB hm hk hM hN hy' h2
  obtain ⟨_, rfl⟩ := n_unique hB hm hk hN he hf (e1.trans (Eq.trans hd f1.symm))
  exact Fin.ext (by omega)
end

/-- Sorting by destination. -/
theorem scatter_sorted {α : Type} (l : List α) (key : α → Tup (d + 2)) (R : Rng (d + 2))
    (hin : ∀ x ∈ l, Ovk.Spec.pts R (key x)) (hnd : l.Pairwise fun x y => key x ≠ key y) {o : List Nat}
    (ho : Xch.StdSorted (l.map fun x => R.colIndex (key x)) o) :
    ∃ z, (l.zipIdx.foldl (fun (s : List (Option α)) x => s.set ((leftOrder o).getD x.2 0) (some x.1))
      (List.replicate l.length none)).mapM id = some z ∧ z.Perm l ∧ z.Pairwise fun x y => colLt (key x) (key y) := by
  obtain ⟨h1, h2⟩ := ho
  rw [List.length_map] at h1
  have hsc := scatter l (fun x => x) h1
  have hperm : (o.filterMap fun i => l[i]?).Perm l := by
    refine (h1.filterMap fun i => l[i]?).trans (List.Perm.of_eq ?_)
    clear hsc h1 h2 hnd hin
    induction l using List.reverseRecOn with
    | nil => rfl
    | append_singleton l a ih =>
      rw [List.length_append, List.length_singleton, List.range_succ, List.filterMap_append]
      have e : (List.range l.length).filterMap (fun i => (l ++ [a])[i]?) =
          (List.range l.length).filterMap fun i => l[i]? := by
        apply List.filterMap_congr
        intro i hi
        rw [List.getElem?_append_left (List.mem_range.1 hi)]
      rw [e, ih]
      simp
  refine ⟨o.filterMap fun i => l[i]?, ?_, hperm, ?_⟩
  · rw [hsc]
    generalize (o.filterMap fun i => l[i]?) = z
    induction z with
    | nil => rfl
    | cons a z ih => rw [List.map_cons, List.mapM_cons, ih]; rfl
  · have hn : (o.filterMap fun i => l[i]?).Pairwise fun x y => key x ≠ key y :=
      (hperm.pairwise_iff fun {x y} h e => h e.symm).2 hnd
    have hord : (o.filterMap fun i => l[i]?).Pairwise fun x y => ¬ R.colIndex (key y) < R.colIndex (key x) := by
      rw [List.pairwise_filterMap]
      refine h2.imp_of_mem ?_
      intro a b ha hb hab x hx y hy
      have hx' : l[a]? = some x := hx
      have hy' : l[b]? = some y := hy
      simpa [List.getD, hx', hy'] using hab
    refine (hn.and hord).imp_of_mem ?_
    intro a b ha hb hab
    have ha' := hin a (hperm.mem_iff.1 ha)
    have hb' := hin b (hperm.mem_iff.1 hb)
    rcases colLt_total _ _ hab.1 with h7 | h7
    · exact h7
    · exact absurd ((Rng.colIndex_lt_iff _ _ _ hb' ha').2 h7) hab.2

/-- What one neighbour sends. -/
theorem sendDonors_spec {m : Nat} (hg : Spec.GridOk W m) (hs : (W.cart m).storage = .unique) (hw : Spec.Wide W m)
    {a : Fin n} (ha : ∃ p, Ovk.Spec.pts (W.loc m a) p) : ∀ {l : List (FDonor (d + 2))},
    (∀ y ∈ l, ∃ c, y.ext = vertices c ∧ Ovk.Spec.IsCell (W.cart m) c) →
    ∃ z, sendDonors (W.cart m) (W.loc m a) l = some z ∧ (z.map FDonor.dest).Sublist (l.map FDonor.dest) ∧
      (∀ y' ∈ z, ∃ y ∈ l, ∃ c c', y.ext = vertices c ∧ Ovk.Spec.SamePoint (W.cart m) c c' ∧
        y' = { y with ext := vertices c' } ∧ ∃ v, Ovk.Spec.pts (vertices c') v ∧ Ovk.Spec.pts (W.loc m a) v) ∧
      ∀ y ∈ l, ∀ c, y.ext = vertices c → Spec.HoldsVertex W m a c → ∃ y' ∈ z, y'.dest = y.dest := by
  intro l
  induction l with
  | nil => intro _; exact ⟨[], rfl, by simp, by simp, by simp⟩
  | cons y l ih =>
    intro hl
    obtain ⟨z, hz, h1, h2, h3⟩ := ih fun y hy => hl y (by simp [hy])
    obtain ⟨c, hc, hcell⟩ := hl y (by simp)
    have hP : ∀ i, Ovk.Spec.periodLen (W.cart m) i = (W.cart m).range.e i - (W.cart m).range.b i := by
      intro i; simp [Ovk.Spec.periodLen, hs]
    obtain ⟨res, hres, hsome, hnone⟩ := C05_partial (W.cart m) hg.proper (W.loc m a) (vertices c) ha
      ⟨c, pts_vertices.2 fun i => .inl rfl⟩ (fun i => by have := hg.tiles.1 a i; rw [hP]; omega)
      (fun i hi => by have := hw i hi; unfold vertices; dsimp only; omega) (fun i hi => by
        have := hcell i
        rw [if_neg (by simp [hi])] at this
        unfold vertices; dsimp only; omega)
    have hsd : sendDonors (W.cart m) (W.loc m a) (y :: l) =
        some (((res.map fun x => { y with ext := x }).toList) ++ z) := by
      unfold sendDonors at hz ⊢
      obtain ⟨w, hw1, hw2⟩ := Option.map_eq_some_iff.1 hz
      rw [List.mapM_cons, hw1, ← hw2]
      simp only [hc, hres]
      cases res <;> rfl
    rw [hsd]
    cases res with
    | none =>
      refine ⟨z, rfl, ?_, ?_, ?_⟩
      · rw [List.map_cons]; exact h1.cons _
      · intro y' hy'
        obtain ⟨y0, hy0, r⟩ := h2 y' hy'
        exact ⟨y0, by simp [hy0], r⟩
      · intro y0 hy0 c0 hc0 hv
        rcases List.mem_cons.1 hy0 with rfl | hy0
        · exfalso
          have ec : c = c0 := by
            have := hc.symm.trans hc0
            exact congrArg Rng.b this
          subst ec
          obtain ⟨v, w, hv1, hv2, hv3⟩ := hv
          refine hnone rfl (fun i => c i + (w i - v i)) ?_ ⟨w, hv3, ?_⟩
          · have := shift_same (v := c) hv2
            intro i
            have := this i
            have e : w i + (c i - v i) = c i + (w i - v i) := by ring
            dsimp only at this ⊢
            rw [← e]; exact this
          · intro i
            have := hv1 i
            unfold vertices
            dsimp only
            omega
        · exact h3 y0 hy0 c0 hc0 hv
    | some x =>
      obtain ⟨hx1, hx2, v, hx3, hx4⟩ := hsome x rfl
      have hxv : x = vertices x.b := by
        unfold vertices
        cases x with
        | mk b e =>
          have : e = fun i => b i + 2 := by
            funext i
            have := hx2 i
            unfold vertices at this
            dsimp only at this
            omega
          rw [this]
      refine ⟨_, rfl, ?_, ?_, ?_⟩
      · show ((y.dest :: z.map FDonor.dest)).Sublist (y.dest :: l.map FDonor.dest)
        exact h1.cons_cons _
      · intro y' hy'
        rcases List.mem_cons.1 hy' with rfl | hy'
        · exact ⟨y, by simp, c, x.b, hc, hx1, by rw [← hxv], v, by rw [← hxv]; exact hx4, hx3⟩
        · obtain ⟨y0, hy0, r⟩ := h2 y' hy'
          exact ⟨y0, by simp [hy0], r⟩
      · intro y0 hy0 c0 hc0 hv
        rcases List.mem_cons.1 hy0 with rfl | hy0
        · exact ⟨_, List.mem_cons_self, rfl⟩
        · obtain ⟨y', hy', r⟩ := h3 y0 hy0 c0 hc0 hv
          exact ⟨y', by simp [hy'], r⟩

/-- The donors of one connectivity. -/
theorem fillM_spec (hB : Spec.Base W) {m k : Nat} (hm : m ∈ W.grids) (hk : k ∈ W.grids)
    (hs : (W.cart m).storage = .unique) (hw : Spec.Wide W m) {h : DHash.Hash (d + 2) Rat (Frag (d + 2))}
    {M : Fin n → List (MEntry (d + 2))} {N : Fin n → List (NEntry (d + 2))}
    (hM : ∀ r, overlapM W h m k r = some (M r)) (hN : ∀ s, overlapN W h m k s = some (N s)) {D : Choice d}
    {don : Fin n → Nat → Bool} (hdon : Spec.Learned D m k M don) {nbrs : Fin n → List (Fin n)}
    (hn : Spec.Linked W m nbrs) (a : Fin n) :
    ∃ z, fillM W m k nbrs (fun r => localDonors (don r) (M r)) a = some z ∧
      (z.Pairwise fun x y => colLt x.dest y.dest) ∧
      (∀ y ∈ z, ∃ b e, e ∈ N b ∧ D.donor k e.point = some m ∧ e.point = y.dest ∧
        W.coordsIn m e.source (W.tol m k) (W.coord k y.dest) = some y.coords ∧
        ∃ c', Ovk.Spec.SamePoint (W.cart m) e.source c' ∧ y.ext = vertices c' ∧
          ∃ v, Ovk.Spec.pts (vertices c') v ∧ Ovk.Spec.pts (W.loc m a) v) ∧
      ∀ b e, e ∈ N b → D.donor k e.point = some m →
        (Spec.HoldsVertex W m a e.source → ∃ y ∈ z, y.dest = e.point) ∧
        (Ovk.Spec.pts (W.loc m a) e.source → ∃ y ∈ z, y.dest = e.point ∧ y.ext = vertices e.source) := by
  set L := fun r => localDonors (don r) (M r) with hL
  have hgm := hB.grid m hm
  have hcellL : ∀ b, ∀ y ∈ L b, ∃ c, y.ext = vertices c ∧ Ovk.Spec.IsCell (W.cart m) c := by
    intro b y hy
    obtain ⟨x, hx, h1, _, rfl⟩ := (mem_localDonors hdon b _).1 hy
    obtain ⟨s, _, ho, _⟩ := n_of_m hB hm hk hM hN hx h1
    exact ⟨x.cell, rfl, ho.1⟩
  have hsend : ∀ b, ∃ z, b ∈ nbrs a → sendDonors (W.cart m) (W.loc m a) (L b) = some z ∧
      (z.map FDonor.dest).Sublist ((L b).map FDonor.dest) ∧
      (∀ y' ∈ z, ∃ y ∈ L b, ∃ c c', y.ext = vertices c ∧ Ovk.Spec.SamePoint (W.cart m) c c' ∧
        y' = { y with ext := vertices c' } ∧ ∃ v, Ovk.Spec.pts (vertices c') v ∧ Ovk.Spec.pts (W.loc m a) v) ∧
      ∀ y ∈ L b, ∀ c, y.ext = vertices c → Spec.HoldsVertex W m a c → ∃ y' ∈ z, y'.dest = y.dest := by
    intro b
    by_cases hb : b ∈ nbrs a
    · obtain ⟨z, hz⟩ := sendDonors_spec hgm hs hw (hn.points b a (hn.symm a b hb)) (hcellL b)
      exact ⟨z, fun _ => hz⟩
    · exact ⟨[], fun h => absurd h hb⟩
  choose S hS using hsend
  have hrecv : recvDonors (W.cart m) (W.loc m) nbrs L a = some ((nbrs a).map S).flatten := by
    unfold recvDonors
    rw [DHash.mapM_map_some _ S _ fun b hb => ?_]
    · rfl
    · rw [if_pos (by simpa using hn.symm a b hb)]
      exact (hS b hb).1
  have hsortL : ∀ b, (L b).Pairwise fun x y => colLt x.dest y.dest := localDonors_sorted hB hm hk hM don
  have hnodup : (L a ++ ((nbrs a).map S).flatten).Pairwise fun x y => x.dest ≠ y.dest := by
    have hLn : ∀ b, ((L b).map FDonor.dest).Nodup := fun b => by
      rw [List.nodup_iff_pairwise_ne, List.pairwise_map]
      exact (hsortL b).imp fun {x y} h (e : x.dest = y.dest) => colLt_irrefl _ (e ▸ h)
    have hSL : ∀ b ∈ nbrs a, ∀ y ∈ S b, ∃ y0 ∈ L b, y0.dest = y.dest := fun b hb y hy => by
      obtain ⟨y0, hy0, _, _, _, _, rfl, _⟩ := (hS b hb).2.2.1 y hy
      exact ⟨y0, hy0, rfl⟩
    rw [List.pairwise_append]
    refine ⟨(hsortL a).imp fun {x y} h (e : x.dest = y.dest) => colLt_irrefl _ (e ▸ h), ?_, ?_⟩
    · rw [List.pairwise_flatten]
      refine ⟨?_, ?_⟩
      · intro l hl
        obtain ⟨b, hb, rfl⟩ := List.mem_map.1 hl
        have := (hS b hb).2.1.nodup (hLn b)
        rwa [List.nodup_iff_pairwise_ne, List.pairwise_map] at this
      · rw [List.pairwise_map]
        refine (List.nodup_iff_pairwise_ne.1 (hn.nodup a)).imp_of_mem ?_
        intro b b' hb hb' hne x hx y hy e
        obtain ⟨x0, hx0, e1⟩ := hSL b hb x hx
        obtain ⟨y0, hy0, e2⟩ := hSL b' hb' y hy
        exact hne (local_unique hB hm hk hM hN hdon hx0 hy0 (by rw [e1, e2, e]))
    · intro x hx y hy e
      obtain ⟨l, hl, hy⟩ := List.mem_flatten.1 hy
      obtain ⟨b, hb, rfl⟩ := List.mem_map.1 hl
      obtain ⟨y0, hy0, e1⟩ := hSL b hb y hy
      have := local_unique hB hm hk hM hN hdon hx hy0 (by rw [e, e1])
      subst this
      exact hn.irrefl _ hb
  -- where donors come from
  have hsrc : ∀ b, ∀ y ∈ L b, ∃ s e, e ∈ N s ∧ D.donor k e.point = some m ∧ e.point = y.dest ∧
      y.ext = vertices e.source ∧ Spec.Owns W m b e.source ∧
      W.coordsIn m e.source (W.tol m k) (W.coord k y.dest) = some y.coords := by
    intro b y hy
    obtain ⟨x, hx, h1, h2, rfl⟩ := (mem_localDonors hdon b _).1 hy
    obtain ⟨s, _, ho, e, he, _, e1, e2, hu⟩ := n_of_m hB hm hk hM hN hx h1
    exact ⟨s, e, he, e2 ▸ h2, e2, by rw [e1], e1 ▸ ho, by rw [e1]; exact hu⟩
  have hown : ∀ y ∈ L a ++ ((nbrs a).map S).flatten, ∃ b e, e ∈ N b ∧ D.donor k e.point = some m ∧ e.point = y.dest ∧
        W.coordsIn m e.source (W.tol m k) (W.coord k y.dest) = some y.coords ∧
        ∃ c', Ovk.Spec.SamePoint (W.cart m) e.source c' ∧ y.ext = vertices c' ∧
          ∃ v, Ovk.Spec.pts (vertices c') v ∧ Ovk.Spec.pts (W.loc m a) v := by
    intro y hy
    rcases List.mem_append.1 hy with hy | hy
    · obtain ⟨s, e, h1, h2, h3, h4, h5, h6⟩ := hsrc a y hy
      exact ⟨s, e, h1, h2, h3, h6, e.source, samePoint_refl _ _, h4, e.source, pts_vertices.2 fun i => .inl rfl, h5.2⟩
    · obtain ⟨l, hl, hy⟩ := List.mem_flatten.1 hy
      obtain ⟨b, hb, rfl⟩ := List.mem_map.1 hl
      obtain ⟨y0, hy0, c, c', h7, h8, rfl, h9⟩ := (hS b hb).2.2.1 y hy
      obtain ⟨s, e, h1, h2, h3, h4, h5, h6⟩ := hsrc b y0 hy0
      have ec : e.source = c := congrArg Rng.b (h4.symm.trans h7)
      exact ⟨s, e, h1, h2, h3, h6, c', ec ▸ h8, rfl, h9⟩
  obtain ⟨z, hz, hperm, hsort⟩ := scatter_sorted (L a ++ ((nbrs a).map S).flatten) FDonor.dest (W.cart k).range
    (by
      intro y hy i
      obtain ⟨b, e, he, _, e1, _⟩ := hown y hy
      have := ((C85_owner hgm (hN b)).2 e he).1 i
      have h2 := (hB.grid k hk).tiles.1 b i
      rw [e1] at this
      omega) hnodup (hB.sorts _)
  refine ⟨z, ?_, hsort, fun y hy => hown y (hperm.mem_iff.1 hy), ?_⟩
  · unfold fillM
    rw [hrecv, Option.bind_eq_bind, Option.bind_some]
    exact hz
  · intro s e he hd
    obtain ⟨b, hr, ho, x, hx, hxr, e1, e2, hu⟩ := m_of_n hB hm hk hM hN he
    have hy : (⟨vertices x.cell, x.coords, x.dest⟩ : FDonor (d + 2)) ∈ L b :=
      (mem_localDonors hdon b _).2 ⟨x, hx, by omega, e2 ▸ hd, rfl⟩
    refine ⟨fun hv => ?_, fun hp => ?_⟩
    · by_cases hab : a = b
      · subst hab
        exact ⟨_, hperm.mem_iff.2 (List.mem_append_left _ hy), e2⟩
      · have hnb : b ∈ nbrs a := hn.near a b e.source hab ho.1 hv
          ⟨e.source, e.source, fun i => .inl rfl, samePoint_refl _ _, ho.2⟩
        obtain ⟨y', hy', e3⟩ := (hS b hnb).2.2.2 _ hy x.cell rfl (e1 ▸ hv)
        exact ⟨y', hperm.mem_iff.2 (List.mem_append_right _ (List.mem_flatten.2 ⟨S b, List.mem_map.2 ⟨b, hnb, rfl⟩, hy'⟩)),
          e3.trans e2⟩
    · have hin : Ovk.Spec.pts (W.cart m).range e.source := fun i =>
        ⟨(hgm.tiles.1 a i).1.trans (hp i).1, lt_of_lt_of_le (hp i).2 (hgm.tiles.1 a i).2⟩
      have hab : a = b := (hgm.tiles.2 _ hin).unique hp ho.2
      subst hab
      exact ⟨_, hperm.mem_iff.2 (List.mem_append_left _ hy), e2, by rw [e1]⟩

/-! ### Receivers -/

theorem fillLoop_eq (mask take : Tup (d + 2) → Bool) (src : List (Tup (d + 2))) :
    ∀ (ps : List (Tup (d + 2))) (es : List (NEntry (d + 2))) (i : Nat), es.map NEntry.point = ps.filter mask →
      src.drop i = es.map NEntry.source →
      fillLoop mask take src i ps = some ((es.filter fun e => take e.point).map fun e => (e.point, e.source))
  | [], es, i, h1, _ => by
    have : es = [] := by simpa using h1
    subst this; rfl
  | p :: ps, es, i, h1, h2 => by
    unfold fillLoop
    rw [List.filter_cons] at h1
    by_cases hp : mask p = true
    · rw [if_pos hp] at h1 ⊢
      cases es with
      | nil => simp at h1
      | cons e es =>
        rw [List.map_cons, List.cons.injEq] at h1
        rw [List.map_cons] at h2
        have hi : src[i]? = some e.source := by
          have := congrArg (fun l => l[0]?) h2
          simpa using this
        have hd : src.drop (i + 1) = es.map NEntry.source := by
          have := congrArg List.tail h2
          simpa using this
        have ih := fillLoop_eq mask take src ps es (i + 1) h1.2 hd
        rw [List.filter_cons, h1.1]
        by_cases ht : take p = true
        · rw [if_pos ht, if_pos ht, hi, ih]
          simp [h1.1]
        · rw [if_neg ht, if_neg ht, ih]
    · rw [if_neg hp] at h1 ⊢
      exact fillLoop_eq mask take src ps es i h1 h2

theorem fillN_spec (hB : Spec.Base W) {m k : Nat} (hm : m ∈ W.grids) (hk : k ∈ W.grids)
    {h : DHash.Hash (d + 2) Rat (Frag (d + 2))} {N : Nat → Nat → Fin n → List (NEntry (d + 2))}
    (hN : ∀ s, overlapN W h m k s = some (N m k s)) {D : Choice d} (hD : Spec.Chosen W D N) (b : Fin n) :
    ∃ z, fillN W D m k (N m k b) b = some z ∧
      z.map Prod.fst = ((W.loc k b).points.filter fun p => decide (D.donor k p = some m)) ∧
      ∀ x ∈ z, ∃ e ∈ N m k b, e.point = x.1 ∧ e.source = x.2 := by
  obtain ⟨hsort, hown⟩ := C85_owner (hB.grid m hm) (hN b)
  have htake : (fun p => D.receiver k p && decide (D.donor k p = some m)) = fun p => decide (D.donor k p = some m) := by
    funext p
    by_cases hp : D.donor k p = some m
    · simp [hp, hD.receiver k hk p m hp]
    · simp [hp]
  have hmask : (N m k b).map NEntry.point =
      (W.loc k b).points.filter fun p => (N m k b).any fun e => decide (e.point = p) := by
    have h1 : ((N m k b).map NEntry.point).Pairwise colLt := by rw [List.pairwise_map]; exact hsort
    have h2 := (Rng.points_sorted (W.loc k b)).filter fun p => (N m k b).any fun e => decide (e.point = p)
    have hnd : ∀ {l : List (Tup (d + 2))}, l.Pairwise colLt → l.Nodup := fun h =>
      List.Pairwise.imp (S := fun a b => a ≠ b) (fun {a b} hab (e : a = b) => colLt_irrefl b (e ▸ hab)) h
    refine ((List.perm_ext_iff_of_nodup (hnd h1) (hnd h2)).2 fun p => ?_).eq_of_pairwise
      (fun a b _ _ h h' => (colLt_asymm _ _ h h').elim) h1 h2
    simp only [List.mem_map, List.mem_filter, List.any_eq_true, decide_eq_true_eq]
    constructor
    · rintro ⟨e, he, rfl⟩
      exact ⟨(Rng.mem_points _ _).2 (hown e he).1, e, he, rfl⟩
    · rintro ⟨_, e, he, rfl⟩
      exact ⟨e, he, rfl⟩
  have hloop := fillLoop_eq (fun p => (N m k b).any fun e => decide (e.point = p))
    (fun p => decide (D.donor k p = some m)) ((N m k b).map NEntry.source) (W.loc k b).points (N m k b) 0 hmask (by simp)
  have hfst : (((N m k b).filter fun e => decide (D.donor k e.point = some m)).map fun e => (e.point, e.source)).map
      Prod.fst = (W.loc k b).points.filter fun p => decide (D.donor k p = some m) := by
    rw [List.map_map]
    have e1 : ((N m k b).filter fun e => decide (D.donor k e.point = some m)).map (Prod.fst ∘ fun e => (e.point, e.source))
        = ((N m k b).map NEntry.point).filter fun p => decide (D.donor k p = some m) := by
      rw [List.filter_map]; rfl
    rw [e1, hmask, List.filter_filter]
    apply List.filter_congr
    intro p hp
    by_cases hd : D.donor k p = some m
    · obtain ⟨b', e, he, rfl⟩ := hD.found k hk p m hd
      have h1 := ((C85_owner (hB.grid m hm) (hN b')).2 e he).1
      have h2 := (Rng.mem_points _ _).1 hp
      have hin : Ovk.Spec.pts (W.cart k).range e.point := fun i =>
        ⟨((hB.grid k hk).tiles.1 b i).1.trans (h2 i).1, lt_of_lt_of_le (h2 i).2 ((hB.grid k hk).tiles.1 b i).2⟩
      obtain rfl := ((hB.grid k hk).tiles.2 _ hin).unique h1 h2
      simp only [hd, decide_true, Bool.true_and, List.any_eq_true, decide_eq_true_eq]
      exact ⟨e, he, rfl⟩
    · simp [hd]
  refine ⟨_, ?_, hfst, ?_⟩
  · unfold fillN
    rw [htake]
    dsimp only
    rw [Option.bind_eq_bind, hloop, Option.bind_some, if_pos]
    rw [← hfst, List.length_map, List.length_map, List.length_map]
  · intro x hx
    obtain ⟨e, he, rfl⟩ := List.mem_map.1 hx
    exact ⟨e, (List.mem_filter.1 he).1, rfl, rfl⟩

/-! ### Connectivities -/

/-- The full claim. -/
def C90_statement : Prop := ∀ (d n : Nat) (W : World d n) (D : Choice d) (nbrs : Nat → Fin n → List (Fin n))
  (M : Nat → Nat → Fin n → List (MEntry (d + 2))) (N : Nat → Nat → Fin n → List (NEntry (d + 2)))
  (don : Nat → Nat → Fin n → Nat → Bool), Spec.Base W → W.grids.Nodup → Spec.Overlapped W M N →
  Spec.Chosen W D N → (∀ m ∈ W.grids, Spec.Wide W m) → (∀ m ∈ W.grids, Spec.Linked W m (nbrs m)) →
  (∀ m ∈ W.grids, ∀ k ∈ W.grids, Spec.Learned D m k (M m k) (don m k)) →
  ∃ cs, fill W D nbrs M N don = some cs ∧ Spec.Filled W D N cs

/-- C90: filling is defined, and the connectivities hold exactly the chosen donors and their receivers: every process
with a vertex of the source cell of a receiver has it, and one of them owns it.  Missing: duplicated periodic
storage. -/
theorem C90_partial (hB : Spec.Base W) (hgr : W.grids.Nodup) {D : Choice d} {nbrs : Nat → Fin n → List (Fin n)}
    {M : Nat → Nat → Fin n → List (MEntry (d + 2))} {N : Nat → Nat → Fin n → List (NEntry (d + 2))}
    {don : Nat → Nat → Fin n → Nat → Bool} (hO : Spec.Overlapped W M N) (hD : Spec.Chosen W D N)
    (hw : ∀ m ∈ W.grids, Spec.Wide W m) (hs : ∀ m ∈ W.grids, (W.cart m).storage = .unique)
    (hn : ∀ m ∈ W.grids, Spec.Linked W m (nbrs m))
    (hdon : ∀ m ∈ W.grids, ∀ k ∈ W.grids, Spec.Learned D m k (M m k) (don m k)) :
    ∃ cs, fill W D nbrs M N don = some cs ∧ Spec.Filled W D N cs := by
  obtain ⟨h, _, hMN⟩ := hO
  have hM : ∀ m ∈ W.grids, ∀ k ∈ W.grids, ∀ r, overlapM W h m k r = some (M m k r) :=
    fun m hm k hk r => (hMN m hm k hk r).1
  have hN : ∀ m ∈ W.grids, ∀ k ∈ W.grids, ∀ r, overlapN W h m k r = some (N m k r) :=
    fun m hm k hk r => (hMN m hm k hk r).2
  set ps := connectedPairs W D fun m k r => localDonors (don m k r) (M m k r) with hps
  have hpair : ∀ m k, (m, k) ∈ ps ↔ m ∈ W.grids ∧ k ∈ W.grids ∧
      ∃ b p, Ovk.Spec.pts (W.loc k b) p ∧ D.donor k p = some m := by
    intro m k
    rw [hps]
    unfold connectedPairs
    simp only [List.mem_filter, List.mem_flatMap, List.mem_map, Prod.mk.injEq, Bool.and_eq_true, decide_eq_true_eq,
      List.any_eq_true, List.mem_finRange, true_and]
    constructor
    · rintro ⟨⟨m', hm, k', hk, rfl, rfl⟩, _, r, hr⟩
      refine ⟨hm, hk, ?_⟩
      obtain ⟨y, hy⟩ : ∃ y, y ∈ localDonors (don m' k' r) (M m' k' r) := by
        cases hl : localDonors (don m' k' r) (M m' k' r) with
        | nil => rw [hl] at hr; simp at hr
        | cons y l => exact ⟨y, by simp⟩
      obtain ⟨x, hx, h1, h2, rfl⟩ := (mem_localDonors (hdon m' hm k' hk) r _).1 hy
      obtain ⟨s, _, _, e, he, _, _, e2, _⟩ := n_of_m hB hm hk (hM m' hm k' hk) (hN m' hm k' hk) hx h1
      exact ⟨s, e.point, ((C85_owner (hB.grid m' hm) (hN m' hm k' hk s)).2 e he).1, e2 ▸ h2⟩
    · rintro ⟨hm, hk, b, p, hp, hd⟩
      refine ⟨⟨m, hm, k, hk, rfl, rfl⟩, ?_, ?_⟩
      · rcases hD.type k hk p m hd with e | e <;> rw [e] <;> decide
      · obtain ⟨b', e, he, rfl⟩ := hD.found k hk p m hd
        obtain ⟨a, _, _, x, hx, hr, _, e2, _⟩ := m_of_n hB hm hk (hM m hm k hk) (hN m hm k hk) he
        have hy := (mem_localDonors (hdon m hm k hk) a ⟨vertices x.cell, x.coords, x.dest⟩).2
          ⟨x, hx, by omega, e2 ▸ hd, rfl⟩
        refine ⟨a, ?_⟩
        cases hl : localDonors (don m k a) (M m k a) with
        | nil => rw [hl] at hy; simp at hy
        | cons y l => rfl
  have hpsn : ps.Nodup := by
    rw [hps]
    unfold connectedPairs
    apply List.Nodup.filter
    rw [List.nodup_flatMap]
    refine ⟨fun m _ => hgr.map fun a b h => (Prod.mk.inj h).2, ?_⟩
    refine (List.nodup_iff_pairwise_ne.1 hgr).imp ?_
    intro a b hab x hx hy
    obtain ⟨k, _, rfl⟩ := List.mem_map.1 hx
    obtain ⟨k', _, e⟩ := List.mem_map.1 hy
    exact hab (Prod.mk.inj e).1.symm
  have hmk : ∀ x ∈ ps, x.1 ∈ W.grids ∧ x.2 ∈ W.grids := fun x hx => by
    obtain ⟨h1, h2, _⟩ := (hpair x.1 x.2).1 hx
    exact ⟨h1, h2⟩
  have hdm : ∀ x : Nat × Nat, ∃ z : Fin n → List (FDonor (d + 2)), x ∈ ps → ∀ a,
      fillM W x.1 x.2 (nbrs x.1) (fun r => localDonors (don x.1 x.2 r) (M x.1 x.2 r)) a = some (z a) ∧
      ((z a).Pairwise fun x y => colLt x.dest y.dest) ∧
      (∀ y ∈ z a, ∃ b e, e ∈ N x.1 x.2 b ∧ D.donor x.2 e.point = some x.1 ∧ e.point = y.dest ∧
        W.coordsIn x.1 e.source (W.tol x.1 x.2) (W.coord x.2 y.dest) = some y.coords ∧
        ∃ c', Ovk.Spec.SamePoint (W.cart x.1) e.source c' ∧ y.ext = vertices c' ∧
          ∃ v, Ovk.Spec.pts (vertices c') v ∧ Ovk.Spec.pts (W.loc x.1 a) v) ∧
      ∀ b e, e ∈ N x.1 x.2 b → D.donor x.2 e.point = some x.1 →
        (Spec.HoldsVertex W x.1 a e.source → ∃ y ∈ z a, y.dest = e.point) ∧
        (Ovk.Spec.pts (W.loc x.1 a) e.source → ∃ y ∈ z a, y.dest = e.point ∧ y.ext = vertices e.source) := by
    intro x
    by_cases hx : x ∈ ps
    · obtain ⟨hm, hk⟩ := hmk x hx
      choose z hz using fillM_spec hB hm hk (hs _ hm) (hw _ hm) (hM _ hm _ hk) (hN _ hm _ hk) (hdon _ hm _ hk) (hn _ hm)
      exact ⟨z, fun _ => hz⟩
    · exact ⟨fun _ => [], fun h => absurd h hx⟩
  choose Z hZ using hdm
  have hrn : ∀ x : Nat × Nat, ∃ z : Fin n → List (Tup (d + 2) × Tup (d + 2)), x ∈ ps → ∀ b,
      fillN W D x.1 x.2 (N x.1 x.2 b) b = some (z b) ∧
      (z b).map Prod.fst = ((W.loc x.2 b).points.filter fun p => decide (D.donor x.2 p = some x.1)) ∧
      ∀ y ∈ z b, ∃ e ∈ N x.1 x.2 b, e.point = y.1 ∧ e.source = y.2 := by
    intro x
    by_cases hx : x ∈ ps
    · obtain ⟨hm, hk⟩ := hmk x hx
      choose z hz using fillN_spec hB hm hk (hN _ hm _ hk) hD
      exact ⟨z, fun _ => hz⟩
    · exact ⟨fun _ => [], fun h => absurd h hx⟩
  choose R hR using hrn
  refine ⟨ps.map fun x => ⟨x.1, x.2, Z x, R x⟩, ?_, ?_⟩
  · unfold fill
    refine DHash.mapM_map_some _ _ _ fun x hx => ?_
    obtain ⟨_, hk, b, p, _, hd⟩ := (hpair x.1 x.2).1 hx
    rw [if_neg (by rcases hD.type _ hk p _ hd with e | e <;> rw [e] <;> decide),
      DHash.allDims_eq _ _ fun a => (hZ x hx a).1, DHash.allDims_eq _ _ fun b => (hR x hx b).1]
    rfl
  -- receivers
  have hrecv : ∀ x ∈ ps, ∀ b, ∀ y ∈ R x b, D.donor x.2 y.1 = some x.1 ∧ ∃ e ∈ N x.1 x.2 b, e.point = y.1 ∧ e.source = y.2 := by
    intro x hx b y hy
    refine ⟨?_, (hR x hx b).2.2 y hy⟩
    have : y.1 ∈ (R x b).map Prod.fst := List.mem_map.2 ⟨y, hy, rfl⟩
    rw [(hR x hx b).2.1] at this
    simpa using (List.mem_filter.1 this).2
  have hentry : ∀ x ∈ ps, ∀ b e, e ∈ N x.1 x.2 b → D.donor x.2 e.point = some x.1 → (e.point, e.source) ∈ R x b := by
    intro x hx b e he hd
    obtain ⟨hm, hk⟩ := hmk x hx
    have h1 := ((C85_owner (hB.grid _ hm) (hN _ hm _ hk b)).2 e he).1
    have : e.point ∈ (R x b).map Prod.fst := by
      rw [(hR x hx b).2.1]
      exact List.mem_filter.2 ⟨(Rng.mem_points _ _).2 h1, by simpa using hd⟩
    obtain ⟨y, hy, e1⟩ := List.mem_map.1 this
    obtain ⟨e', he', e2, e3⟩ := (hR x hx b).2.2 y hy
    obtain ⟨_, rfl⟩ := n_unique hB hm hk (hN _ hm _ hk) he he' (by rw [e2, e1])
    have : (e.point, e.source) = y := by rw [e2, e3]
    rw [this]; exact hy
  constructor
  · intro m k
    rw [← hpair]
    simp only [List.mem_map]
    constructor
    · rintro ⟨c, ⟨x, hx, rfl⟩, rfl, rfl⟩; exact hx
    · intro hx; exact ⟨_, ⟨(m, k), hx, rfl⟩, rfl, rfl⟩
  · rw [List.map_map]
    have : ((fun c : Conn (d + 2) n => (c.m, c.k)) ∘ fun x : Nat × Nat => ⟨x.1, x.2, Z x, R x⟩) = id := by
      funext x; rfl
    rw [this, List.map_id]
    exact hpsn
  · intro c hc b
    obtain ⟨x, hx, rfl⟩ := List.mem_map.1 hc
    exact (hR x hx b).2.1
  · intro c hc b
    obtain ⟨x, hx, rfl⟩ := List.mem_map.1 hc
    exact (hR x hx b).2.2
  · intro c hc a
    obtain ⟨x, hx, rfl⟩ := List.mem_map.1 hc
    exact (hZ x hx a).2.1
  · intro c hc a y hy
    obtain ⟨x, hx, rfl⟩ := List.mem_map.1 hc
    obtain ⟨b, e, he, h1, h2, h3, c', h4, h5, v, h6, h7⟩ := (hZ x hx a).2.2.1 y hy
    exact ⟨b, (e.point, e.source), hentry x hx b e he h1, h2, h3, c', h4, h5, v, pts_vertices.1 h6, h7⟩
  · intro c hc b y hy a hv
    obtain ⟨x, hx, rfl⟩ := List.mem_map.1 hc
    obtain ⟨h1, e, he, h2, h3⟩ := hrecv x hx b y hy
    obtain ⟨z, hz, h4⟩ := ((hZ x hx a).2.2.2 b e he (h2 ▸ h1)).1 (h3 ▸ hv)
    exact ⟨z, hz, h4.trans h2⟩
  · intro c hc b y hy a hv
    obtain ⟨x, hx, rfl⟩ := List.mem_map.1 hc
    obtain ⟨h1, e, he, h2, h3⟩ := hrecv x hx b y hy
    obtain ⟨z, hz, h4, h5⟩ := ((hZ x hx a).2.2.2 b e he (h2 ▸ h1)).2 (h3 ▸ hv)
    exact ⟨z, hz, h4.trans h2, by rw [h5, h3]; rfl⟩
  · intro c hc a a' y y' hy hy' hd hp hp'
    obtain ⟨x, hx, rfl⟩ := List.mem_map.1 hc
    obtain ⟨hm, hk⟩ := hmk x hx
    have key : ∀ {a y}, y ∈ Z x a → Ovk.Spec.pts (W.loc x.1 a) y.ext.b → ∃ b e, e ∈ N x.1 x.2 b ∧ e.point = y.dest ∧
        Ovk.Spec.pts (W.loc x.1 a) e.source ∧ Ovk.Spec.pts (W.cart x.1).range e.source := by
      intro a y hy hp
      obtain ⟨b, e, he, _, h2, _, c', h4, h5, _⟩ := (hZ x hx a).2.2.1 y hy
      obtain ⟨_, _, _, r, _, ho⟩ := (C85_owner (hB.grid _ hm) (hN _ hm _ hk b)).2 e he
      have ht := (hB.grid _ hm).tiles
      have hin : ∀ {a q}, Ovk.Spec.pts (W.loc x.1 a) q → Ovk.Spec.pts (W.cart x.1).range q := fun {a q} h i =>
        ⟨(ht.1 a i).1.trans (h i).1, lt_of_lt_of_le (h i).2 (ht.1 a i).2⟩
      have e1 : y.ext.b = c' := by rw [h5]; rfl
      rw [e1] at hp
      have := same_range (hs _ hm) (hin ho.2) (hin hp) h4
      rw [this] at hp
      exact ⟨b, e, he, h2, hp, hin hp⟩
    obtain ⟨b, e, he, h1, h2, h3⟩ := key hy hp
    obtain ⟨b', e', he', h1', h2', _⟩ := key hy' hp'
    obtain ⟨_, rfl⟩ := n_unique hB hm hk (hN _ hm _ hk) he he' (by rw [h1, h1', hd])
    exact ((hB.grid _ hm).tiles.2 _ h3).unique h2 h2'

/-! ### Concrete worlds with two grids on two processes -/

/-- All points of grid 1 choose grid 0. -/
def exChoice (W : World 0 n) (t : ConnType) : Choice 0 where
  type _ _ := t
  receiver k _ := k == 1
  donor k p := if k = 1 ∧ (W.cart 1).range.contains p then some 0 else none

def dataM (W : World 0 n) (m k : Nat) (r : Fin n) : List (MEntry 2) :=
  ((hash W).bind fun h => overlapM W h m k r).getD []

def dataN (W : World 0 n) (m k : Nat) (r : Fin n) : List (NEntry 2) :=
  ((hash W).bind fun h => overlapN W h m k r).getD []

def dataDon (W : World 0 n) (D : Choice 0) (m k : Nat) (r : Fin n) (i : Nat) : Bool :=
  match (dataM W m k r)[i]? with
  | some e => decide (0 ≤ e.rank ∧ D.donor k e.dest = some m)
  | none => false

theorem data_learned (W : World 0 n) (D : Choice 0) (m k : Nat) :
    Spec.Learned D m k (dataM W m k) (dataDon W D m k) := by
  intro a i e hi
  unfold dataDon
  rw [hi]
  simp

theorem data_overlapped {W : World 0 2} (hg : W.grids = [0, 1])
    (h : ((hash W).any fun h => ([0, 1] : List Nat).all fun m => ([0, 1] : List Nat).all fun k => [(0 : Fin 2), 1].all fun r =>
      (overlapM W h m k r).isSome && (overlapN W h m k r).isSome) = true) :
    Spec.Overlapped W (dataM W) (dataN W) := by
  cases hh : hash W with
  | none => rw [hh] at h; simp at h
  | some x =>
    rw [hh, Option.any_some, List.all_eq_true] at h
    refine ⟨x, hh, fun m hm k hk r => ?_⟩
    rw [hg] at hm hk
    have h1 := List.all_eq_true.1 (List.all_eq_true.1 (h m hm) k hk) r (by fin_cases r <;> simp)
    rw [Bool.and_eq_true] at h1
    unfold dataM dataN
    rw [hh]
    simp only [Option.bind_some]
    constructor
    · obtain ⟨y, hy⟩ := Option.isSome_iff_exists.1 h1.1; rw [hy]; rfl
    · obtain ⟨y, hy⟩ := Option.isSome_iff_exists.1 h1.2; rw [hy]; rfl

theorem data_chosen {W : World 0 2} (hg : W.grids = [0, 1]) {t : ConnType} (ht : t = .nearest ∨ t = .linear)
    (h : ((W.cart 1).range.points.all fun p => [(0 : Fin 2), 1].any fun b => (dataN W 0 1 b).any fun e =>
      decide (e.point = p)) = true) : Spec.Chosen W (exChoice W t) (dataN W) := by
  have key : ∀ k p m, (exChoice W t).donor k p = some m → m = 0 ∧ k = 1 ∧ p ∈ (W.cart 1).range.points := by
    intro k p m hd
    unfold exChoice at hd
    dsimp only at hd
    split at hd
    · rename_i hc
      exact ⟨(Option.some.inj hd).symm, hc.1, (Rng.mem_points _ _).2 ((contains_iff_pts _ _).1 hc.2)⟩
    · simp at hd
  refine ⟨fun k _ p m hd => ?_, fun k _ p m hd => ?_, fun _ _ _ _ _ => ht, fun k _ p m hd => ?_⟩
  · simp [exChoice, (key k p m hd).2.1]
  · rw [(key k p m hd).1, hg]; simp
  · obtain ⟨rfl, rfl, hp⟩ := key k p m hd
    obtain ⟨b, _, hb⟩ := List.any_eq_true.1 (List.all_eq_true.1 h p hp)
    obtain ⟨e, he, e1⟩ := List.any_eq_true.1 hb
    exact ⟨b, e, he, by simpa using e1⟩

/-- Both processes hold points of both grids. -/
theorem exWorld_linked : ∀ m ∈ exWorld.grids, Spec.Linked exWorld m pairNbrs := by
  intro m _
  have hp : ∀ b, ∃ p, Ovk.Spec.pts (exWorld.loc m b) p := by
    intro b
    refine ⟨(exWorld.loc m b).b, fun i => ⟨le_rfl, ?_⟩⟩
    show (exLoc m b).b i < (exLoc m b).e i
    unfold exLoc
    split <;> split <;> fin_cases i <;> simp
  exact ⟨⟨fun a => by fin_cases a <;> decide, fun a => by fin_cases a <;> decide, fun a b c hab _ _ _ => by
    fin_cases a <;> fin_cases b <;> first | exact absurd rfl hab | decide⟩,
    fun a b => by fin_cases a <;> fin_cases b <;> decide, fun a b _ => hp b⟩

theorem exWorld_overlapped : Spec.Overlapped exWorld (dataM exWorld) (dataN exWorld) :=
  data_overlapped rfl (by decide +kernel)

theorem exWorld_chosen {t : ConnType} (ht : t = .nearest ∨ t = .linear) :
    Spec.Chosen exWorld (exChoice exWorld t) (dataN exWorld) := data_chosen rfl ht (by decide +kernel)

/-- C90 applies to the example of C85. -/
example : ∃ cs, fill exWorld (exChoice exWorld .linear) (fun _ => pairNbrs) (dataM exWorld) (dataN exWorld)
    (dataDon exWorld (exChoice exWorld .linear)) = some cs ∧
    Spec.Filled exWorld (exChoice exWorld .linear) (dataN exWorld) cs :=
  C90_partial exWorld_base (by decide) exWorld_overlapped (exWorld_chosen (.inr rfl))
    (fun m _ i hi => by simp [exWorld, uniform, exCart] at hi) (fun _ _ => rfl) exWorld_linked
    fun _ _ _ _ => data_learned _ _ _ _

/-- Lower corners and destinations of the donors of a process. -/
def exDonors (r : Fin 2) : Option (List (List (List Int × List Int))) :=
  (fill exWorld (exChoice exWorld .linear) (fun _ => pairNbrs) (dataM exWorld) (dataN exWorld)
    (dataDon exWorld (exChoice exWorld .linear))).map fun cs => cs.map fun c =>
      (c.donors r).map fun y => (List.ofFn y.ext.b, List.ofFn y.dest)

/-- The second process has the donors of the first at the cell they share. -/
example : exDonors 0 = some [[([1, 0], [0, 0]), ([1, 0], [0, 1])]] ∧
    exDonors 1 = some [[([1, 0], [0, 0]), ([2, 0], [1, 0]), ([1, 0], [0, 1]), ([2, 0], [1, 1])]] := by
  decide +kernel

/-! ### Duplicated periodic storage -/

def twiceNbrs (m : Nat) : Fin 2 → List (Fin 2) := if m = 0 then pairNbrs else fun _ => []

theorem twice_linked : ∀ m ∈ twice.grids, Spec.Linked twice m (twiceNbrs m) := by
  intro m hm
  have hm : m = 0 ∨ m = 1 := by simpa [turn, uniform] using hm
  rcases hm with rfl | rfl
  · have hp : ∀ b, ∃ p, Ovk.Spec.pts (twice.loc 0 b) p := by
      intro b
      refine ⟨(twice.loc 0 b).b, fun i => ⟨le_rfl, ?_⟩⟩
      show (pairLoc 5 0 b).b i < (pairLoc 5 0 b).e i
      unfold pairLoc
      rw [if_pos rfl]
      split <;> fin_cases i <;> simp
    exact ⟨pair_nbrs, fun a b => by fin_cases a <;> fin_cases b <;> decide, fun a b _ => hp b⟩
  · have hp : ∀ {a c}, Spec.HoldsVertex twice 1 a c → a = 0 := by
      rintro a c ⟨v, w, _, _, hw⟩
      by_contra hne
      have h0 : (pairLoc 5 1 a).b 0 ≤ w 0 ∧ w 0 < (pairLoc 5 1 a).e 0 := hw 0
      simp [pairLoc, hne] at h0
      omega
    exact ⟨⟨fun a => by simp [twiceNbrs], fun a => by simp [twiceNbrs], fun a b c hab _ h1 h2 =>
      absurd ((hp h1).trans (hp h2).symm) hab⟩, fun a b => by simp [twiceNbrs], fun a b => by simp [twiceNbrs]⟩

theorem twice_fill : ((fill twice (exChoice twice .linear) twiceNbrs (dataM twice) (dataN twice)
    (dataDon twice (exChoice twice .linear))).all fun cs => cs.any fun c => decide (c.m = 0) &&
      (c.donors 0).any fun y => (c.donors 1).any fun y' => decide (y.dest = y'.dest) &&
        (twice.loc 0 0).contains y.ext.b && (twice.loc 0 1).contains y'.ext.b) = true := by
  decide +kernel

/-- With duplicated periodic storage two processes own a donor: the first cell, sent to the process with the copy of
its lower corner, comes to lie there. -/
theorem C90_false : ¬ C90_statement := by
  intro hst
  obtain ⟨cs, hcs, hF⟩ := hst 0 2 twice (exChoice twice .linear) twiceNbrs (dataM twice) (dataN twice)
    (dataDon twice (exChoice twice .linear)) (turn_base (by norm_num) (by norm_num)) (by decide)
    (data_overlapped rfl (by decide +kernel)) (data_chosen rfl (.inr rfl) (by decide +kernel))
    (fun m hm i hi => by
      have hm : m = 0 ∨ m = 1 := by simpa [turn, uniform] using hm
      rcases hm with rfl | rfl <;> fin_cases i <;> decide +kernel)
    twice_linked fun _ _ _ _ => data_learned _ _ _ _
  have h := twice_fill
  rw [hcs] at h
  simp only [Option.all_some, List.any_eq_true, Bool.and_eq_true, decide_eq_true_eq] at h
  obtain ⟨c, hc, hm, y, hy, y', hy', ⟨h1, h2⟩, h3⟩ := h
  have := hF.sole c hc 0 1 y y' hy hy' h1 (by rw [hm]; exact (contains_iff_pts _ _).1 h2)
    (by rw [hm]; exact (contains_iff_pts _ _).1 h3)
  exact absurd this (by decide)

end Ovk.Ovl
