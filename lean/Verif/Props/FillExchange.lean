/-
Property C91: exchanging values over the connectivities that assembly fills.
-/
import Verif.Props.Fill
import Verif.Props.Exchange

namespace Ovk.Ovl
variable {d n : Nat} {W : World d n}

namespace Spec
/-- The value of a field at local coordinates `u` in a cell. -/
def valueAt (t : ConnType) (G : Tup (d + 2) → Rat) (c : Tup (d + 2)) (u : Pt (d + 2)) : Rat :=
  match t with
  | .nearest => G fun i => if u i ≤ 1 / 2 then c i else c i + 1
  | _ => interpolant G c u

/-- Exchanging the components of a field over a connectivity: processes expect as many values from each other as they
send, collecting is defined on all processes, no execution gets stuck or goes on forever, and in the end every point that chose the donor grid has the value of the donor grid's
field at the point, while the others are as before. -/
def Transfers (W : World d n) (D : Choice d) (N : Nat → Nat → Fin n → List (NEntry (d + 2))) (c : Conn (d + 2) n)
    (X : Xch.Exchange (d + 2) n n Rat) : Prop :=
  (∀ a b : Fin n, (X.maps.send a).ranks.count (b : Int) = (X.maps.recv b).ranks.count (a : Int)) ∧
  ∀ (vals : Nat → Fin n → Int → Rat) (G : Nat → Tup (d + 2) → Rat),
    (∀ j, j < X.maps.count → Ovk.Spec.Holds X.coll (vals j) (G j)) →
    ∀ (junk : Fin n → Nat → Int → Rat) (scratch : Nat → Fin n → Int → Rat),
    ∃ dv, (∀ r j, j < X.maps.count → X.collect vals junk scratch r j = some (dv r j)) ∧
    ∀ (out0 : Fin n → Nat → Nat → Rat) (es : List (SR.Event n)) (x : SR.State n Rat),
      SR.run X.maps (X.sendBuffers dv) (SR.initial out0) es = some x →
      (¬ ((∀ a, x.sent a = true) ∧ ∀ b, x.finished b = true) →
        ∃ e y, SR.step X.maps (X.sendBuffers dv) x e = some y) ∧
      es.length ≤ 3 * n + ∑ b : Fin n, (X.maps.recv b).msgs.length ∧
      ∀ b, x.finished b = true → ∀ old, ∃ new, X.overwrite b (x.out b) old = some new ∧
        ∀ j, j < X.maps.count → ∀ p, Ovk.Spec.pts (W.loc c.k b) p →
          (D.donor c.k p = some c.m → ∃ e ∈ N c.m c.k b, e.point = p ∧ ∃ u,
            W.coordsIn c.m e.source (W.tol c.m c.k) (W.coord c.k p) = some u ∧
            new j ((X.fieldRange b).index X.layout p) = valueAt (D.type c.m c.k) (G j) e.source u) ∧
          (D.donor c.k p ≠ some c.m →
            new j ((X.fieldRange b).index X.layout p) = old j ((X.fieldRange b).index X.layout p))
/-- The exchanger finds the ranks for the connectivities and can build its maps from them, and exchanging over any of
them, with any fields that hold the local points, transfers the values. -/
def Exchanged (W : World d n) (D : Choice d) (N : Nat → Nat → Fin n → List (NEntry (d + 2)))
    (nbrs : Nat → Fin n → List (Fin n)) (cs : List (Conn (d + 2) n)) : Prop :=
  ∃ dest src, Xch.update (exchangerWorld W cs) = some (dest, src) ∧ ∀ c ∈ cs,
    (∀ cnt, ∃ maps, maps.count = cnt ∧
      Xch.MapsFor (exchangerWorld W cs) dest src c.m c.k (W.cart c.k).range maps) ∧
    ∀ maps, Xch.MapsFor (exchangerWorld W cs) dest src c.m c.k (W.cart c.k).range maps →
    ∀ field field' layout, (∀ a p, Ovk.Spec.pts (W.loc c.m a) p → Ovk.Spec.pts (field a) p) →
      (∀ b p, Ovk.Spec.pts (W.loc c.k b) p → Ovk.Spec.pts (field' b) p) →
      Transfers W D N c (exchange W D nbrs cs dest src c maps field field' layout)
end Spec

/-! ### Interpolation -/

theorem nearest_cell (G : Tup (d + 2) → Rat) (c : Tup (d + 2)) (u : Pt (d + 2)) :
    ((vertices c).points.map fun p => (∏ i, fillCoefs .nearest u i (p i - (vertices c).b i)) * G p).sum =
      Spec.valueAt .nearest G c u := by
  rw [sum_vertices]
  set t : Fin (d + 2) → Bool := fun i => decide (¬ u i ≤ 1 / 2) with ht
  have hprod : ∀ s : Fin (d + 2) → Bool,
      (∏ i, fillCoefs .nearest u i (Spec.corner c s i - (vertices c).b i)) = if s = t then 1 else 0 := by
    intro s
    by_cases hst : s = t
    · rw [if_pos hst]
      apply Finset.prod_eq_one
      intro i _
      have : s i = decide (¬ u i ≤ 1 / 2) := by rw [hst]
      unfold fillCoefs Spec.corner vertices
      by_cases hu : u i ≤ 1 / 2 <;> rw [this] <;> simp only [hu, not_true_eq_false, not_false_eq_true, decide_true, decide_false] <;> simp
    · rw [if_neg hst]
      obtain ⟨i, hi⟩ := Function.ne_iff.1 hst
      refine Finset.prod_eq_zero (Finset.mem_univ i) ?_
      unfold fillCoefs Spec.corner vertices
      have : s i = decide (u i ≤ 1 / 2) := by
        rw [ht] at hi
        dsimp only at hi
        by_cases hu : u i ≤ 1 / 2 <;> simp only [hu] at hi ⊢ <;> simpa using hi
      by_cases hu : u i ≤ 1 / 2 <;> rw [this] <;> simp only [hu, decide_true, decide_false] <;> simp
  simp only [hprod, ite_mul, one_mul, zero_mul, Finset.sum_ite_eq', Finset.mem_univ, if_true]
  unfold Spec.valueAt Spec.corner
  dsimp only
  congr 1
  funext i
  rw [ht]
  dsimp only
  by_cases hu : u i ≤ 1 / 2
  · rw [if_pos hu, if_neg (by simpa using hu), add_zero]
  · rw [if_neg hu, if_pos (by simpa using hu)]

theorem interpolated_cell {t : ConnType} (ht : t = .nearest ∨ t = .linear) (G : Tup (d + 2) → Rat) (c : Tup (d + 2))
    (u : Pt (d + 2)) : Xch.Spec.interpolated (fillCoefs t u) G (vertices c) = Spec.valueAt t G c u := by
  rcases ht with rfl | rfl
  · exact nearest_cell G c u
  · exact interp_cell G c u

/-! ### Donors and receivers as the exchanger sees them -/

theorem donates_iff {cs : List (Conn (d + 2) n)} {p : Fin n} {m g : Int} {x : Tup (d + 2)} {r : Int} :
    Xch.Spec.Donates (exchangerWorld W cs) p m g x r ↔ ∃ c ∈ cs, (c.m : Int) = m ∧ (c.k : Int) = g ∧ r = -1 ∧
      ∃ y ∈ c.donors p, Ovk.Spec.pts (W.loc c.m p) y.ext.b ∧ y.dest = x := by
  unfold Xch.Spec.Donates exchangerWorld
  constructor
  · rintro ⟨_, h1, h2, h3, _, h4, h5, h6, h7⟩
    obtain ⟨c, hc, rfl⟩ := List.mem_map.1 h1
    obtain ⟨y, hy, rfl⟩ := List.mem_map.1 h4
    exact ⟨c, hc, h2, h3, h7.symm, y, hy, h5, h6⟩
  · rintro ⟨c, hc, h2, h3, rfl, y, hy, h5, h6⟩
    exact ⟨_, List.mem_map.2 ⟨c, hc, rfl⟩, h2, h3, _, List.mem_map.2 ⟨y, hy, rfl⟩, h5, h6, rfl⟩

theorem receives_iff {cs : List (Conn (d + 2) n)} {q : Fin n} {m g : Int} {x : Tup (d + 2)} {s : Int} :
    Xch.Spec.Receives (exchangerWorld W cs) q m g x s ↔ ∃ c ∈ cs, (c.m : Int) = m ∧ (c.k : Int) = g ∧ s = -1 ∧
      ∃ y ∈ c.receivers q, y.1 = x := by
  unfold Xch.Spec.Receives exchangerWorld
  constructor
  · rintro ⟨_, h1, h2, h3, _, h4, h6, h7⟩
    obtain ⟨c, hc, rfl⟩ := List.mem_map.1 h1
    obtain ⟨y, hy, rfl⟩ := List.mem_map.1 h4
    exact ⟨c, hc, h2, h3, h7.symm, y, hy, h6⟩
  · rintro ⟨c, hc, h2, h3, rfl, y, hy, h6⟩
    exact ⟨_, List.mem_map.2 ⟨c, hc, rfl⟩, h2, h3, _, List.mem_map.2 ⟨y, hy, rfl⟩, h6, rfl⟩

section
variable {D : Choice d} {M : Nat → Nat → Fin n → List (MEntry (d + 2))} {N : Nat → Nat → Fin n → List (NEntry (d + 2))}
  {cs : List (Conn (d + 2) n)}

theorem conn_eq (hF : Spec.Filled W D N cs) {c c' : Conn (d + 2) n} (hc : c ∈ cs) (hc' : c' ∈ cs)
    (hm : c.m = c'.m) (hk : c.k = c'.k) : c = c' :=
  List.inj_on_of_nodup_map hF.once hc hc' (by rw [hm, hk])

theorem conn_grids (hF : Spec.Filled W D N cs) {c : Conn (d + 2) n} (hc : c ∈ cs) : c.m ∈ W.grids ∧ c.k ∈ W.grids := by
  obtain ⟨h1, h2, _⟩ := (hF.pairs c.m c.k).1 ⟨c, hc, rfl, rfl⟩
  exact ⟨h1, h2⟩

theorem mem_receivers (hF : Spec.Filled W D N cs) {c : Conn (d + 2) n} (hc : c ∈ cs) {b : Fin n} {p : Tup (d + 2)} :
    (∃ x ∈ c.receivers b, x.1 = p) ↔ Ovk.Spec.pts (W.loc c.k b) p ∧ D.donor c.k p = some c.m := by
  have : (∃ x ∈ c.receivers b, x.1 = p) ↔ p ∈ (c.receivers b).map Prod.fst := by simp
  rw [this, hF.receivers c hc b, List.mem_filter, Rng.mem_points, decide_eq_true_eq]
  rfl

theorem loc_range {g : Nat} (hg : Spec.GridOk W g) {a : Fin n} {p : Tup (d + 2)} (h : Ovk.Spec.pts (W.loc g a) p) :
    Ovk.Spec.pts (W.cart g).range p := fun i =>
  ⟨(hg.tiles.1 a i).1.trans (h i).1, lt_of_lt_of_le (h i).2 (hg.tiles.1 a i).2⟩

theorem loc_unique {g : Nat} (hg : Spec.GridOk W g) {a b : Fin n} {p : Tup (d + 2)} (h : Ovk.Spec.pts (W.loc g a) p)
    (h' : Ovk.Spec.pts (W.loc g b) p) : a = b := (hg.tiles.2 p (loc_range hg h)).unique h h'

/-- A receiver is determined by its point. -/
theorem receiver_unique (hB : Spec.Base W) (hF : Spec.Filled W D N cs) {c : Conn (d + 2) n} (hc : c ∈ cs) {b b' : Fin n}
    {x x' : Tup (d + 2) × Tup (d + 2)} (hx : x ∈ c.receivers b) (hx' : x' ∈ c.receivers b') (h : x.1 = x'.1) :
    b = b' ∧ x = x' := by
  obtain ⟨h1, _⟩ := (mem_receivers hF hc).1 ⟨x, hx, rfl⟩
  obtain ⟨h2, _⟩ := (mem_receivers hF hc).1 ⟨x', hx', rfl⟩
  rw [← h] at h2
  obtain rfl := loc_unique (hB.grid _ (conn_grids hF hc).2) h1 h2
  refine ⟨rfl, List.inj_on_of_nodup_map ?_ hx hx' h⟩
  rw [hF.receivers c hc b]
  exact (Rng.points_nodup _).filter _

/-- The source cell of a receiver exists. -/
theorem source_cell (hB : Spec.Base W) (hO : Spec.Overlapped W M N) (hF : Spec.Filled W D N cs) {c : Conn (d + 2) n}
    (hc : c ∈ cs) {b : Fin n} {x : Tup (d + 2) × Tup (d + 2)} (hx : x ∈ c.receivers b) :
    ∃ a, Spec.Owns W c.m a x.2 := by
  obtain ⟨h, _, hMN⟩ := hO
  obtain ⟨hm, hk⟩ := conn_grids hF hc
  obtain ⟨e, he, _, e2⟩ := hF.source c hc b x hx
  obtain ⟨_, _, _, a, _, ho⟩ := (C85_owner (hB.grid _ hm) (hMN _ hm _ hk b).2).2 e he
  exact ⟨a, e2 ▸ ho⟩

theorem consistent (hB : Spec.Base W) (hgr : W.grids.Nodup) (hO : Spec.Overlapped W M N)
    (hF : Spec.Filled W D N cs) : Xch.Spec.Consistent (exchangerWorld W cs) := by
  have hrange : ∀ {c}, c ∈ cs → ((c.k : Int), (W.cart c.k).range) ∈ (exchangerWorld W cs).grids := fun {c} hc =>
    List.mem_map.2 ⟨c.k, (conn_grids hF hc).2, rfl⟩
  have hdest : ∀ {c}, c ∈ cs → ∀ {a y}, y ∈ c.donors a → ∃ b, ∃ x ∈ c.receivers b, x.1 = y.dest := by
    intro c hc a y hy
    obtain ⟨b, x, hx, h1, _⟩ := hF.donor c hc a y hy
    exact ⟨b, x, hx, h1⟩
  constructor
  · unfold exchangerWorld
    dsimp only
    rw [List.map_map]
    exact hgr.map fun a b h => by simpa using h
  · obtain ⟨g, hg, c, hc⟩ := hB.inhabited
    refine ⟨((g : Int), (W.cart g).range), List.mem_map.2 ⟨g, hg, rfl⟩, c, fun i => ?_⟩
    have := hc.1 i
    dsimp only
    split at this <;> omega
  · intro p m g x r h
    obtain ⟨c, hc, rfl, rfl, _, y, hy, _, rfl⟩ := donates_iff.1 h
    obtain ⟨b, z, hz, e⟩ := hdest hc hy
    exact ⟨_, hrange hc, loc_range (hB.grid _ (conn_grids hF hc).2) ((mem_receivers hF hc).1 ⟨z, hz, e⟩).1⟩
  · intro q m g x s h
    obtain ⟨c, hc, rfl, rfl, _, y, hy, rfl⟩ := receives_iff.1 h
    exact ⟨_, hrange hc, loc_range (hB.grid _ (conn_grids hF hc).2) ((mem_receivers hF hc).1 ⟨y, hy, rfl⟩).1⟩
  · intro p m g x r h
    obtain ⟨c, hc, rfl, rfl, rfl, y, hy, _, rfl⟩ := donates_iff.1 h
    obtain ⟨b, z, hz, e⟩ := hdest hc hy
    exact ⟨b, -1, receives_iff.2 ⟨c, hc, rfl, rfl, rfl, z, hz, e⟩, Iff.rfl, by omega⟩
  · intro q m g x s h
    obtain ⟨c, hc, rfl, rfl, rfl, y, hy, rfl⟩ := receives_iff.1 h
    obtain ⟨a, ha⟩ := source_cell hB hO hF hc hy
    obtain ⟨z, hz, e1, e2⟩ := hF.owned c hc q y hy a ha.2
    exact ⟨a, -1, donates_iff.2 ⟨c, hc, rfl, rfl, rfl, z, hz, by rw [e2]; exact ha.2, e1⟩, Iff.rfl, by omega⟩
  · intro q q' m m' g x s s' h h'
    obtain ⟨c, hc, rfl, rfl, rfl, y, hy, rfl⟩ := receives_iff.1 h
    obtain ⟨c', hc', rfl, e, rfl, y', hy', e'⟩ := receives_iff.1 h'
    have e : c'.k = c.k := by exact_mod_cast e
    have h1 := ((mem_receivers hF hc).1 ⟨y, hy, rfl⟩).1
    have h2 := ((mem_receivers hF hc').1 ⟨y', hy', e'⟩).1
    rw [e] at h2
    exact loc_unique (hB.grid _ (conn_grids hF hc).2) h1 h2
  · intro p p' m g x r r' h h'
    obtain ⟨c, hc, rfl, rfl, rfl, y, hy, h1, rfl⟩ := donates_iff.1 h
    obtain ⟨c', hc', e1, e2, rfl, y', hy', h2, e3⟩ := donates_iff.1 h'
    obtain rfl := conn_eq hF hc' hc (by exact_mod_cast e1) (by exact_mod_cast e2)
    exact hF.sole _ hc _ _ y y' hy hy' e3.symm h1 h2

theorem not_shared (hF : Spec.Filled W D N cs) : Xch.Spec.NotShared (exchangerWorld W cs) := by
  intro p p' m m' g x r r' h h'
  obtain ⟨c, hc, rfl, rfl, rfl, y, hy, h1, rfl⟩ := donates_iff.1 h
  obtain ⟨c', hc', e1, e2, rfl, y', hy', h2, e3⟩ := donates_iff.1 h'
  have e2 : c'.k = c.k := by exact_mod_cast e2
  obtain ⟨b, z, hz, e, _⟩ := hF.donor c hc p y hy
  obtain ⟨b', z', hz', e', _⟩ := hF.donor c' hc' p' y' hy'
  have d1 := ((mem_receivers hF hc).1 ⟨z, hz, e⟩).2
  have d2 := ((mem_receivers hF hc').1 ⟨z', hz', e'⟩).2
  rw [e3, e2, d1] at d2
  obtain rfl := conn_eq hF hc' hc (Option.some.inj d2).symm e2
  exact hF.sole _ hc _ _ y y' hy hy' e3.symm h1 h2

theorem once (hF : Spec.Filled W D N cs) : Xch.Spec.Once (exchangerWorld W cs) := by
  constructor
  · intro p c h c' h' e1 e2
    obtain ⟨c, hc, rfl⟩ := List.mem_map.1 h
    obtain ⟨c', hc', rfl⟩ := List.mem_map.1 h'
    dsimp only at e1 e2
    rw [conn_eq hF hc hc' (by exact_mod_cast e1) (by exact_mod_cast e2)]
  · intro p c h c' h' e1 e2
    obtain ⟨c, hc, rfl⟩ := List.mem_map.1 h
    obtain ⟨c', hc', rfl⟩ := List.mem_map.1 h'
    dsimp only at e1 e2
    rw [conn_eq hF hc hc' (by exact_mod_cast e1) (by exact_mod_cast e2)]
  · intro p c h
    obtain ⟨c, hc, rfl⟩ := List.mem_map.1 h
    rw [List.nodup_iff_pairwise_ne, List.pairwise_map]
    apply List.Pairwise.filter
    dsimp only
    rw [List.pairwise_map]
    exact (hF.order c hc p).imp fun {x y} h (e : x.dest = y.dest) => colLt_irrefl _ (e ▸ h)
  · intro q c h
    obtain ⟨c, hc, rfl⟩ := List.mem_map.1 h
    dsimp only
    rw [List.map_map]
    have : (c.receivers q).map (Xch.Receiver.pt ∘ fun x => (⟨x.1, -1⟩ : Xch.Receiver (d + 2))) = (c.receivers q).map Prod.fst := rfl
    rw [this, hF.receivers c hc q]
    exact (Rng.points_nodup _).filter _

/-- Vertices of a cell are points of the index space or images of such points. -/
theorem vertex_space {g : Nat} (hg : Spec.GridOk W g) (hs : (W.cart g).storage = .unique) {c v : Tup (d + 2)}
    (hc : Ovk.Spec.IsCell (W.cart g) c) (hv : ∀ i, v i = c i ∨ v i = c i + 1) :
    ∃ q, Ovk.Spec.pts (W.cart g).range q ∧ Ovk.Spec.SamePoint (W.cart g) v q := by
  refine ⟨(W.cart g).periodicAdjust v, fun i => ?_, C03_same_point _ hg.proper v⟩
  by_cases hi : (W.cart g).periodic i = true
  · have h1 := C03_first_period _ hg.proper v i hi
    have hP : Ovk.Spec.periodLen (W.cart g) i = (W.cart g).range.e i - (W.cart g).range.b i := by
      simp [Ovk.Spec.periodLen, hs]
    omega
  · have h1 := C03_same_point _ hg.proper v i
    rw [if_neg hi] at h1
    have h2 := hc i
    rw [if_neg (fun h => hi h.1)] at h2
    have := hv i
    omega

theorem fill_collect (hB : Spec.Base W) (hO : Spec.Overlapped W M N) (hF : Spec.Filled W D N cs)
    {c : Conn (d + 2) n} (hc : c ∈ cs) (hs : (W.cart c.m).storage = .unique) {nbrs : Fin n → List (Fin n)}
    (hn : Spec.Neighbors W c.m nbrs) {field : Fin n → Rng (d + 2)}
    (hfield : ∀ a p, Ovk.Spec.pts (W.loc c.m a) p → Ovk.Spec.pts (field a) p) :
    Ovk.Spec.CollectOk ⟨W.cart c.m, W.loc c.m, nbrs, field, fun r => (c.donors r).map FDonor.ext, .col⟩ := by
  have hg := hB.grid _ (conn_grids hF hc).1
  have hcell : ∀ a, ∀ cell ∈ (c.donors a).map FDonor.ext, ∃ b, ∃ x ∈ c.receivers b, ∃ c', cell = vertices c' ∧
      Ovk.Spec.SamePoint (W.cart c.m) x.2 c' ∧ Spec.HoldsVertex W c.m a c' := by
    intro a cell h
    obtain ⟨y, hy, rfl⟩ := List.mem_map.1 h
    obtain ⟨b, x, hx, _, _, c', h1, h2, v, h3, h4⟩ := hF.donor c hc a y hy
    exact ⟨b, x, hx, c', h2, h1, v, v, h3, samePoint_refl _ _, h4⟩
  refine ⟨hg.proper, hg.tiles, hn.irrefl, hn.nodup, hfield, ?_, ?_, ?_, ?_⟩
  · intro a cell h
    obtain ⟨_, _, _, c', rfl, _⟩ := hcell a cell h
    exact ⟨_, pts_vertices.2 fun i => .inl rfl⟩
  · intro a cell h p hp
    obtain ⟨b, x, hx, c', rfl, h1, _⟩ := hcell a cell h
    obtain ⟨_, ho⟩ := source_cell hB hO hF hc hx
    obtain ⟨q, hq, hq'⟩ := vertex_space hg hs ho.1 (v := fun i => x.2 i + (p i - c' i)) fun i => by
      have := pts_vertices.1 hp i
      omega
    exact ⟨q, hq, samePoint_trans (shift_same (v := p) (samePoint_symm h1)) hq'⟩
  · intro a cell h
    obtain ⟨b, x, hx, c', rfl, _, h2⟩ := hcell a cell h
    exact vertices_touch hg hs h2
  · intro a b cell h ht hab
    obtain ⟨y, hy, rfl⟩ := List.mem_map.1 h
    obtain ⟨s, x, hx, hd, _, c', h1, h2, v, h3, h4⟩ := hF.donor c hc a y hy
    have h2 : y.ext = vertices c' := h2
    dsimp only at ht ⊢
    rw [h2] at ht ⊢
    have hb : Spec.HoldsVertex W c.m b x.2 := holds_image (samePoint_symm h1) (touches_vertices hg.proper ht)
    have ha : Spec.HoldsVertex W c.m a x.2 :=
      holds_image (samePoint_symm h1) ⟨v, v, h3, samePoint_refl _ _, h4⟩
    obtain ⟨_, ho⟩ := source_cell hB hO hF hc hx
    refine ⟨?_, hn.near a b x.2 hab ho.1 ha hb⟩
    obtain ⟨y', hy', e⟩ := hF.listed c hc s x hx b hb
    obtain ⟨s', x', hx', hd', _, c'', h1', h2', _⟩ := hF.donor c hc b y' hy'
    obtain ⟨_, rfl⟩ := receiver_unique hB hF hc hx hx' (by rw [hd', e])
    exact ⟨y'.ext, List.mem_map.2 ⟨y', hy', rfl⟩, by
      rw [show y'.ext = vertices c'' from h2']
      exact sameCell hg.proper hs (samePoint_trans (samePoint_symm h1) h1')⟩

/-! ### The exchange -/

/-- The points of connectivity N. -/
theorem exchange_points (hF : Spec.Filled W D N cs) {src : Fin n → List (List Int)}
    (hS : Xch.Spec.SrcOk (exchangerWorld W cs) src) {c : Conn (d + 2) n} (hc : c ∈ cs) (b : Fin n) :
    (Xch.nReceivers (Xch.nEntry (exchangerWorld W cs) src c.m c.k b)).map Xch.Receiver.pt = (c.receivers b).map Prod.fst := by
  have hmem : (⟨c.m, c.k, (c.receivers b).map fun x => ⟨x.1, -1⟩⟩ : Xch.ConnN (d + 2)) ∈ (exchangerWorld W cs).ns b :=
    List.mem_map.2 ⟨c, hc, rfl⟩
  rcases Xch.nEntry_cases (once hF) hS c.m c.k b with ⟨_, h⟩ | ⟨c', l, he, _, _, _, _, huniq, _⟩
  · exact absurd ⟨rfl, rfl⟩ (h _ hmem)
  · rw [he, ← huniq _ hmem rfl rfl]
    simp only [Xch.nReceivers, Option.map_some, Option.getD_some, List.map_map]
    rfl

/-- The exchange works over connectivities that hold the chosen donors and receivers. -/
theorem filled_exchanged (hB : Spec.Base W) (hgr : W.grids.Nodup) (hO : Spec.Overlapped W M N) (hD : Spec.Chosen W D N)
    (hs : ∀ m ∈ W.grids, (W.cart m).storage = .unique) {nbrs : Nat → Fin n → List (Fin n)}
    (hn : ∀ m ∈ W.grids, Spec.Neighbors W m (nbrs m)) (hF : Spec.Filled W D N cs) :
    Spec.Exchanged W D N nbrs cs := by
  have hcon := consistent hB hgr hO hF
  obtain ⟨dest, src, hu, hDest, hSrc⟩ := Xch.C24_partial hcon (not_shared hF)
  refine ⟨dest, src, hu, fun c hc => ⟨fun cnt => ?_, fun maps hmaps field field' layout hfield hfield' => ?_⟩⟩
  · have hord : ∀ l : List (Tup (d + 2)), ∃ o, Xch.IsOrder (W.cart c.k).range l o := by
      intro l
      unfold Xch.IsOrder
      by_cases h : Xch.sortedFrom 0 (l.map ((W.cart c.k).range.index .col)) = true
      · exact ⟨List.range l.length, by rw [if_pos h]⟩
      · exact ⟨_, by rw [if_neg h]; exact argSort_sorted _⟩
    choose so hso using fun p => hord ((Xch.mDonors (Xch.mEntry (exchangerWorld W cs) dest c.m c.k p)).map Xch.Donor.dest)
    choose ro hro using fun p => hord ((Xch.nReceivers (Xch.nEntry (exchangerWorld W cs) src c.m c.k p)).map Xch.Receiver.pt)
    choose sm hsm using fun p => SR.build_ok (Xch.mRanks (Xch.mEntry (exchangerWorld W cs) dest c.m c.k p)) (so p)
    choose rm hrm using fun p => SR.build_ok (Xch.nRanks (Xch.nEntry (exchangerWorld W cs) src c.m c.k p)) (ro p)
    exact ⟨⟨sm, rm, cnt⟩, rfl, fun p => ⟨so p, hso p, (hsm p).1⟩, fun p => ⟨ro p, hro p, (hrm p).1⟩⟩
  obtain ⟨hm, hk⟩ := conn_grids hF hc
  set X := exchange W D nbrs cs dest src c maps field field' layout with hX
  have hpts : ∀ b, X.points b = (c.receivers b).map Prod.fst := fun b => exchange_points hF hSrc hc b
  have hready : Xch.Spec.Ready X := by
    constructor
    · exact hcon
    · exact not_shared hF
    · exact once hF
    · exact hu
    · exact ⟨_, List.mem_map.2 ⟨c.k, hk, rfl⟩, hmaps⟩
    · exact fill_collect hB hO hF hc (hs _ hm) (hn _ hm) hfield
    · exact .inl rfl
    · exact fun a b h => h
    · intro a cm hcm e1 e2
      obtain ⟨c', hc', rfl⟩ := List.mem_map.1 hcm
      obtain rfl := conn_eq hF hc' hc (by have h : (c'.m : Int) = c.m := e1; exact_mod_cast h)
        (by have h : (c'.k : Int) = c.k := e2; exact_mod_cast h)
      refine ⟨a, rfl, rfl, ?_⟩
      show ((c'.donors a).map _).map _ = ((c'.donors a).map FDonor.ext).map Rng.b
      rw [List.map_map, List.map_map]
      rfl
    · intro b x hx
      rw [hpts] at hx
      obtain ⟨y, hy, rfl⟩ := List.mem_map.1 hx
      exact hfield' b _ ((mem_receivers hF hc).1 ⟨y, hy, rfl⟩).1
  refine ⟨(Xch.maps_matched hcon (once hF) hDest hSrc c.m c.k hmaps).counts, ?_⟩
  intro vals G hG junk scratch
  obtain ⟨dv, h1, h2⟩ := Xch.C75_exchange hready vals G hG junk scratch
  refine ⟨dv, h1, fun out0 es x hrun => ?_⟩
  obtain ⟨h3, h4, h5⟩ := h2 out0 es x hrun
  refine ⟨h3, h4, fun b hb old => ?_⟩
  obtain ⟨new, _, h6, _, h7, h8⟩ := h5 b hb old
  refine ⟨new, h6, fun j hj p hp => ⟨fun hd => ?_, fun hd => ?_⟩⟩
  · obtain ⟨z, hz, rfl⟩ := (mem_receivers hF hc).2 ⟨hp, hd⟩
    obtain ⟨r, i, cell, ⟨g1, g2, cm, hcm, e1, e2, z', g3, g4, g5⟩, h9, _⟩ := h7 j z.1 hj (by
      rw [hpts]; exact List.mem_map.2 ⟨z, hz, rfl⟩)
    obtain ⟨c', hc', rfl⟩ := List.mem_map.1 hcm
    obtain rfl := conn_eq hF hc' hc (by have h : (c'.m : Int) = c.m := e1; exact_mod_cast h)
      (by have h : (c'.k : Int) = c.k := e2; exact_mod_cast h)
    have g1 : ((c'.donors r).map FDonor.ext)[i]? = some cell := g1
    have g2 : Ovk.Spec.pts (W.loc c'.m r) cell.b := g2
    have g3 : ((c'.donors r).map fun x => (⟨x.ext.b, x.dest, -1⟩ : Xch.Donor (d + 2)))[i]? = some z' := g3
    rw [List.getElem?_map, Option.map_eq_some_iff] at g1 g3
    obtain ⟨y, hy, rfl⟩ := g1
    obtain ⟨y', hy', rfl⟩ := g3
    rw [hy] at hy'
    obtain rfl := Option.some.inj hy'
    have g5 : y.dest = z.1 := g5
    obtain ⟨b', x', hx', e3, hco, c'', h10, h11, _⟩ := hF.donor c' hc r y (List.mem_of_getElem? hy)
    obtain ⟨rfl, rfl⟩ := receiver_unique hB hF hc hz hx' (by rw [e3, g5])
    have h11 : y.ext = vertices c'' := h11
    obtain ⟨a, ho⟩ := source_cell hB hO hF hc hz
    have hcc : c'' = z.2 := by
      rw [h11] at g2
      exact same_range (hs _ hm) (loc_range (hB.grid _ hm) ho.2) (loc_range (hB.grid _ hm) g2) h10
    obtain ⟨e, he, e4, e5⟩ := hF.source c' hc b z hz
    refine ⟨e, he, e4, y.coords, by rw [e5, ← g5]; exact hco, ?_⟩
    rw [h9]
    have hcoef : X.coefs r i = fillCoefs (D.type c'.m c'.k) y.coords := by
      show (match (c'.donors r)[i]? with
        | some y => fillCoefs (D.type c'.m c'.k) y.coords
        | none => fun _ _ => 0) = _
      rw [hy]
    rw [hcoef, h11, hcc, e5]
    exact interpolated_cell (hD.type _ hk _ _ hd) _ _ _
  · refine (h8 j _ (.inr ?_)).1
    intro q hq he
    have hq' : Ovk.Spec.pts (W.loc c.k b) q ∧ D.donor c.k q = some c.m := by
      rw [hpts] at hq
      obtain ⟨y, hy, rfl⟩ := List.mem_map.1 hq
      exact (mem_receivers hF hc).1 ⟨y, hy, rfl⟩
    have : q = p := Rng.index_inj _ _ _ _ (hfield' b q hq'.1) (hfield' b p hp) he
    exact hd (this ▸ hq'.2)
end

def C91_statement : Prop := ∀ (d n : Nat) (W : World d n) (D : Choice d) (nbrs : Nat → Fin n → List (Fin n))
  (M : Nat → Nat → Fin n → List (MEntry (d + 2))) (N : Nat → Nat → Fin n → List (NEntry (d + 2)))
  (don : Nat → Nat → Fin n → Nat → Bool), Spec.Base W → W.grids.Nodup → Spec.Overlapped W M N →
  Spec.Chosen W D N → (∀ m ∈ W.grids, Spec.Wide W m) → (∀ m ∈ W.grids, Spec.Linked W m (nbrs m)) →
  (∀ m ∈ W.grids, ∀ k ∈ W.grids, Spec.Learned D m k (M m k) (don m k)) →
  ∃ cs, fill W D nbrs M N don = some cs ∧ Spec.Exchanged W D N nbrs cs

/-- C91: after assembly has filled the connectivities, the exchanger finds the ranks, and exchanging any field over any
of the connectivities gives every point that chose the donor grid the value of the donor grid's field at the point,
interpolated in the cell found for it by overlap detection, and changes no other point.  Missing: duplicated periodic
storage. -/
theorem C91_partial (hB : Spec.Base W) (hgr : W.grids.Nodup) {D : Choice d} {nbrs : Nat → Fin n → List (Fin n)}
    {M : Nat → Nat → Fin n → List (MEntry (d + 2))} {N : Nat → Nat → Fin n → List (NEntry (d + 2))}
    {don : Nat → Nat → Fin n → Nat → Bool} (hO : Spec.Overlapped W M N) (hD : Spec.Chosen W D N)
    (hw : ∀ m ∈ W.grids, Spec.Wide W m) (hs : ∀ m ∈ W.grids, (W.cart m).storage = .unique)
    (hn : ∀ m ∈ W.grids, Spec.Linked W m (nbrs m))
    (hL : ∀ m ∈ W.grids, ∀ k ∈ W.grids, Spec.Learned D m k (M m k) (don m k)) :
    ∃ cs, fill W D nbrs M N don = some cs ∧ Spec.Exchanged W D N nbrs cs := by
  obtain ⟨cs, h1, h2⟩ := C90_partial hB hgr hO hD hw hs hn hL
  exact ⟨cs, h1, filled_exchanged hB hgr hO hD hs (fun m hm => (hn m hm).toNeighbors) h2⟩

/-- C91 applies to the example of C85, with either type of connectivity. -/
example (t : ConnType) (ht : t = .nearest ∨ t = .linear) :
    ∃ cs, fill exWorld (exChoice exWorld t) (fun _ => pairNbrs) (dataM exWorld) (dataN exWorld)
      (dataDon exWorld (exChoice exWorld t)) = some cs ∧
    Spec.Exchanged exWorld (exChoice exWorld t) (dataN exWorld) (fun _ => pairNbrs) cs :=
  C91_partial exWorld_base (by decide) exWorld_overlapped (exWorld_chosen ht)
    (fun m _ i hi => by simp [exWorld, uniform, exCart] at hi) (fun _ _ => rfl) exWorld_linked
    fun _ _ _ _ => data_learned _ _ _ _

/-- Ranks that the exchanger finds in the example. -/
def exRanks (W : World 0 2) (nbrs : Nat → Fin 2 → List (Fin 2)) : Option (List (List Int) × List (List Int)) :=
  (fill W (exChoice W .linear) nbrs (dataM W) (dataN W) (dataDon W (exChoice W .linear))).bind fun cs =>
    (Xch.update (exchangerWorld W cs)).map fun x =>
      ([0, 1].map fun r => Xch.mRanks (Xch.mEntry (exchangerWorld W cs) x.1 0 1 r),
        [0, 1].map fun r => Xch.nRanks (Xch.nEntry (exchangerWorld W cs) x.2 0 1 r))

/-- The lower corners of all donors are on the same process or on the second. -/
example : exRanks exWorld (fun _ => pairNbrs) = some ([[0, 0], [-1, 1, -1, 1]], [[0, 0], [1, 1]]) := by decide +kernel

theorem twice_conns : ((fill twice (exChoice twice .linear) twiceNbrs (dataM twice) (dataN twice)
    (dataDon twice (exChoice twice .linear))).all fun cs => cs.any fun c => decide (c.m = 0 ∧ c.k = 1)) = true := by
  decide +kernel

theorem twice_ranks : exRanks twice twiceNbrs = some ([[0, -1, 0, -1], [0, 0, 0, 0]], [[1, 1, 1, 1], []]) := by
  decide +kernel

/-- With duplicated periodic storage both processes own the donor of a point and send it a value; the point expects
only one of them. -/
theorem C91_false : ¬ C91_statement := by
  intro hst
  obtain ⟨cs, hcs, dest, src, hu, hX⟩ := hst 0 2 twice (exChoice twice .linear) twiceNbrs (dataM twice) (dataN twice)
    (dataDon twice (exChoice twice .linear)) (turn_base (by norm_num) (by norm_num)) (by decide)
    (data_overlapped rfl (by decide +kernel)) (data_chosen rfl (.inr rfl) (by decide +kernel))
    (fun m hm i hi => by
      have hm : m = 0 ∨ m = 1 := by simpa [turn, uniform] using hm
      rcases hm with rfl | rfl <;> fin_cases i <;> decide +kernel)
    twice_linked fun _ _ _ _ => data_learned _ _ _ _
  have h := twice_conns
  rw [hcs, Option.all_some, List.any_eq_true] at h
  obtain ⟨c, hc, hmk⟩ := h
  obtain ⟨hm, hk⟩ := of_decide_eq_true hmk
  obtain ⟨h1, h2⟩ := hX c hc
  obtain ⟨maps, _, hmaps⟩ := h1 1
  have hcount := (h2 maps hmaps (twice.loc c.m) (twice.loc c.k) .col (fun _ _ h => h) fun _ _ h => h).1 0 0
  obtain ⟨o, _, hb⟩ := hmaps.send 0
  obtain ⟨o', _, hb'⟩ := hmaps.recv 0
  obtain ⟨_, e1, e2, _⟩ := SR.build_ok (Xch.mRanks (Xch.mEntry (exchangerWorld twice cs) dest c.m c.k 0)) o
  obtain ⟨_, e1', e2', _⟩ := SR.build_ok (Xch.nRanks (Xch.nEntry (exchangerWorld twice cs) src c.m c.k 0)) o'
  rw [hb] at e1
  rw [hb'] at e1'
  obtain rfl := Option.some.inj e1
  obtain rfl := Option.some.inj e1'
  have hr := twice_ranks
  unfold exRanks at hr
  rw [hcs, Option.bind_some, hu] at hr
  simp only [Option.map_some, Option.some.injEq, Prod.mk.injEq, List.map_cons, List.cons.injEq] at hr
  have hcount : (maps.send 0).ranks.count 0 = (maps.recv 0).ranks.count 0 := hcount
  rw [e2, e2', hm, hk] at hcount
  have r1 := hr.1.1
  have r2 := hr.2.1
  rw [show ((0 : Nat) : Int) = 0 from rfl, show ((1 : Nat) : Int) = 1 from rfl, r1, r2] at hcount
  exact absurd hcount (by decide)

end Ovk.Ovl
