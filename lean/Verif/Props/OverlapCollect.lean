/-
Property C88: the collect operation on the result of overlap detection.
-/
import Verif.Props.OverlapComplete
import Verif.Props.Collect

namespace Ovk.Ovl
variable {d n : Nat} {W : World d n}

namespace Spec
/-- A vertex of cell `c` of grid `m` is held by process `r`. -/
def HoldsVertex (W : World d n) (m : Nat) (r : Fin n) (c : Tup (d + 2)) : Prop :=
  ∃ v w, (∀ i, v i = c i ∨ v i = c i + 1) ∧ Ovk.Spec.SamePoint (W.cart m) v w ∧ Ovk.Spec.pts (W.loc m r) w

/-- Neighbour lists: processes that hold vertices of the same cell are neighbours. -/
structure Neighbors (W : World d n) (m : Nat) (nbrs : Fin n → List (Fin n)) : Prop where
  irrefl : ∀ a, a ∉ nbrs a
  nodup : ∀ a, (nbrs a).Nodup
  near : ∀ a b c, a ≠ b → Ovk.Spec.IsCell (W.cart m) c → HoldsVertex W m a c → HoldsVertex W m b c → b ∈ nbrs a

/-- Every process that holds a vertex of an active cell owns an active cell whose lower corner is a vertex of
that cell. -/
def Rooted (W : World d n) (m : Nat) : Prop :=
  ∀ c, ActiveCell W m c → ∀ r, HoldsVertex W m r c →
    ∃ v w, (∀ i, v i = c i ∨ v i = c i + 1) ∧ Ovk.Spec.SamePoint (W.cart m) v w ∧ Ovk.Spec.pts (W.loc m r) w ∧
      ActiveCell W m w

/-- Images of cells are where the cells are: the bounds of an image of an active cell in the halo of a fragment
are not flat and, enlarged by the tolerance, contain the points the cell accepts. -/
def Images (W : World d n) (m : Nat) : Prop :=
  ∀ f c c', ActiveCell W m c → Ovk.Spec.SamePoint (W.cart m) c c' →
    (∃ v, (∀ i, v i = c' i ∨ v i = c' i + 1) ∧ Ovk.Spec.pts f v) →
    (∀ i, (W.bounds m f c').b i < (W.bounds m f c').e i) ∧
    ∀ k ∈ W.grids, ∀ x u, W.coordsIn m c (W.tol m k) x = some u →
      Ovk.Spec.boxHas (Accel.scaleBox (W.bounds m f c') (1 + 2 * W.tol m k)) (frame (W.orient m f) x)

/-- The collect operation on the cells of grid `m` listed by overlap detection is defined on every process, and
each reduction is over all vertices of its cell, with the global values. -/
def Collects (W : World d n) (m : Nat) : Prop :=
  ∃ h, hash W = some h ∧ ∀ k ∈ W.grids, ∀ nbrs field, Neighbors W m nbrs →
    (∀ a p, Ovk.Spec.pts (W.loc m a) p → Ovk.Spec.pts (field a) p) →
    ∃ S, ∃ M : Fin n → List (MEntry (d + 2)), collectSetup W h nbrs field m k = some S ∧ ∀ r, overlapM W h m k r = some (M r) ∧
      ∀ (V R : Type) (vals : Fin n → Int → V) (G : Tup (d + 2) → V), Ovk.Spec.Holds S vals G →
      ∀ (f : Nat → R → Nat → V → R) (init : R) (scratch : Int → V),
        Coll.collect S vals f init scratch r =
          some ((M r).zipIdx.map fun x => Ovk.Spec.reduction .col (f x.2) init G ⟨x.1.cell, fun i => x.1.cell i + 2⟩)
end Spec

/-! ### Periodic images of cells with unique storage -/

section
variable {c : Cart (d + 2)}

theorem same_range (hs : c.storage = .unique) {p q : Tup (d + 2)} (hp : Ovk.Spec.pts c.range p)
    (hq : Ovk.Spec.pts c.range q) (h : Ovk.Spec.SamePoint c p q) : q = p := by
  funext i
  have h1 := hp i
  have h2 := hq i
  have h3 := h i
  by_cases hi : c.periodic i = true
  · simp only [hi, if_true] at h3
    obtain ⟨k, hk⟩ := h3
    have hP : Ovk.Spec.periodLen c i = c.range.e i - c.range.b i := by simp [Ovk.Spec.periodLen, hs]
    rw [hP] at hk
    have : k = 0 := by nlinarith
    rw [hk, this]; ring
  · simpa [hi] using h3

/-- With unique storage the points of the index space are the canonical images. -/
theorem adjust_of_range (hc : Ovk.Spec.Proper c) (hs : c.storage = .unique) {p q : Tup (d + 2)}
    (hq : Ovk.Spec.pts c.range q) (h : Ovk.Spec.SamePoint c p q) : c.periodicAdjust p = q := by
  refine same_range hs hq ?_ (samePoint_trans (samePoint_symm h) (C03_same_point c hc p))
  intro i
  by_cases hi : c.periodic i = true
  · have h1 := C03_first_period c hc p i hi
    have hP : Ovk.Spec.periodLen c i = c.range.e i - c.range.b i := by simp [Ovk.Spec.periodLen, hs]
    omega
  · have h1 := C03_same_point c hc p i
    have h2 := h i
    have h3 := hq i
    rw [if_neg hi] at h1 h2
    omega

/-- With unique storage every vertex is stored at its canonical image. -/
theorem vertex_eq (hc : Ovk.Spec.Proper c) (hs : c.storage = .unique) {cell : Rng (d + 2)} {p : Tup (d + 2)}
    (hp : Ovk.Spec.pts cell p) : Coll.vertex c cell p = c.periodicAdjust p := by
  unfold Coll.vertex
  split
  · rename_i h
    exact (adjust_of_range hc hs ((C02_includes _ _).1 h p hp) (samePoint_refl _ _)).symm
  · rfl

theorem shift_same {a b v : Tup (d + 2)} (h : Ovk.Spec.SamePoint c a b) :
    Ovk.Spec.SamePoint c v fun i => b i + (v i - a i) := by
  intro i
  have := h i
  by_cases hi : c.periodic i = true
  · simp only [hi, if_true] at this ⊢
    obtain ⟨k, hk⟩ := this
    exact ⟨k, by rw [hk]; ring⟩
  · simp only [hi, if_false, Bool.false_eq_true] at this ⊢
    omega

theorem pts_vertices {c v : Tup (d + 2)} : Ovk.Spec.pts (vertices c) v ↔ ∀ i, v i = c i ∨ v i = c i + 1 := by
  rw [← mem_vertices, Rng.mem_points]
  rfl

/-- Images of a cell have their vertices stored at the same points. -/
theorem sameCell (hc : Ovk.Spec.Proper c) (hs : c.storage = .unique) {a b : Tup (d + 2)}
    (h : Ovk.Spec.SamePoint c a b) : Ovk.Spec.SameCell c (vertices a) (vertices b) := by
  have key : ∀ {a b : Tup (d + 2)}, Ovk.Spec.SamePoint c a b → ∀ q,
      (∃ p, Ovk.Spec.pts (vertices a) p ∧ Ovk.Spec.Stored c (vertices a) p q) →
      ∃ p, Ovk.Spec.pts (vertices b) p ∧ Ovk.Spec.Stored c (vertices b) p q := by
    rintro a b h q ⟨p, hp, hq⟩
    rw [Coll.stored_iff c hc, vertex_eq hc hs hp] at hq
    have hp' : Ovk.Spec.pts (vertices b) fun i => b i + (p i - a i) := by
      rw [pts_vertices] at hp ⊢
      intro i
      have := hp i
      omega
    refine ⟨_, hp', ?_⟩
    rw [Coll.stored_iff c hc, vertex_eq hc hs hp', hq]
    exact (C03_canonical c hc _ _).2 (shift_same h)
  exact fun q => ⟨key h q, key (samePoint_symm h) q⟩

theorem samePoint_cell (hs : c.storage = .unique) {a b : Tup (d + 2)} :
    Ovk.Spec.SamePoint (cartPointToCell c) a b ↔ Ovk.Spec.SamePoint c a b := by
  unfold Ovk.Spec.SamePoint
  refine forall_congr' fun i => ?_
  by_cases hi : c.periodic i = true
  · have : Ovk.Spec.periodLen (cartPointToCell c) i = Ovk.Spec.periodLen c i := by
      simp [Ovk.Spec.periodLen, cartPointToCell, hs, hi]
    have h2 : (cartPointToCell c).periodic i = true := hi
    rw [if_pos hi, if_pos h2, this]
  · have h2 : ¬ (cartPointToCell c).periodic i = true := hi
    rw [if_neg hi, if_neg h2]
end

theorem cellActive_image {g : Nat} (hp : Ovk.Spec.Proper (W.cart g)) {a b : Tup (d + 2)}
    (h : Ovk.Spec.SamePoint (W.cart g) a b) (ha : cellActive W g a = true) : cellActive W g b = true := by
  unfold cellActive at ha ⊢
  rw [List.all_eq_true] at ha ⊢
  intro v hv
  have hv' : (fun i => a i + (v i - b i)) ∈ (vertices a).points := by
    rw [mem_vertices] at hv ⊢
    intro i
    have := hv i
    omega
  have := ha _ hv'
  rwa [(C03_canonical _ hp _ _).2 (shift_same (v := v) (samePoint_symm h))]

/-- The vertices a touched range holds. -/
theorem touches_vertices {m : Nat} (hp : Ovk.Spec.Proper (W.cart m)) {r : Fin n} {c : Tup (d + 2)}
    (h : Ovk.Spec.Touches (W.cart m) (W.loc m r) (vertices c)) : Spec.HoldsVertex W m r c := by
  obtain ⟨p, h1, h2⟩ := (Coll.touches_iff _ hp _ _).1 h
  exact ⟨p, _, pts_vertices.1 h1, Coll.vertex_same _ hp _ p, h2⟩

theorem vertices_touch {m : Nat} (hg : Spec.GridOk W m) (hs : (W.cart m).storage = .unique) {r : Fin n}
    {c : Tup (d + 2)} (h : Spec.HoldsVertex W m r c) :
    Ovk.Spec.Touches (W.cart m) (W.loc m r) (vertices c) := by
  obtain ⟨v, w, h1, h2, h3⟩ := h
  have hv := pts_vertices.2 h1
  refine (Coll.touches_iff _ hg.proper _ _).2 ⟨v, hv, ?_⟩
  rw [vertex_eq hg.proper hs hv, adjust_of_range hg.proper hs (fun i => ?_) h2]
  · exact h3
  · exact ⟨(hg.tiles.1 r i).1.trans (h3 i).1, lt_of_lt_of_le (h3 i).2 (hg.tiles.1 r i).2⟩

theorem holds_image {m : Nat} {r : Fin n} {a b : Tup (d + 2)} (h : Ovk.Spec.SamePoint (W.cart m) a b)
    (ha : Spec.HoldsVertex W m r a) : Spec.HoldsVertex W m r b := by
  obtain ⟨v, w, h1, h2, h3⟩ := ha
  refine ⟨fun i => b i + (v i - a i), w, fun i => ?_, samePoint_trans (samePoint_symm (shift_same h)) h2, h3⟩
  have := h1 i
  dsimp only
  omega

/-- A process whose fragment has an accepting cell, or an image of it, next to its cells is asked for data. -/
theorem asked (hB : Spec.Base W) (hcov : Spec.Covered W) {h : DHash.Hash (d + 2) Rat (Frag (d + 2))}
    (hh : hash W = some h) {m k : Nat} (hm : m ∈ W.grids) (hk : k ∈ W.grids) {s : Fin n}
    {cand : List (Tup (d + 2) × List (Nat × Frag (d + 2)))} (hcand : candidates W h k s = some cand)
    {p : Tup (d + 2)} (hp : Ovk.Spec.pts (W.loc k s) p) (ha : W.active k p = true)
    (hov : W.overlappable m k = true) {r : Fin n} {f : Frag (d + 2)} (hf : f ∈ fragments W m r)
    {c : Tup (d + 2)} (hc : Ovk.Spec.pts (makeCellCoverRange (cartPointToCell (W.cart m)) f.cells) c)
    (hca : cellActive W m c = true)
    (hbox : Ovk.Spec.boxHas (cellBox W m f.cells c) (Spec.frame (W.orient m f.cells) (W.coord k p))) :
    r ∈ ranksOf cand m := by
  obtain ⟨h', hh', hl⟩ := lookup hB hcov
  rw [hh] at hh'
  obtain rfl := Option.some.inj hh'
  obtain ⟨ids, hids, hhits⟩ := hl s
  have hpa : p ∈ activePoints W k s := mem_activePoints.2 ⟨hp, ha⟩
  obtain ⟨l, e, _, hall⟩ := hhits k hk p hpa
  have hx : (p, l) ∈ cand := by
    unfold candidates at hcand
    rw [hids, Option.bind_eq_bind, Option.bind_some] at hcand
    exact (mem_mapM hcand _).2 ⟨p, hpa, by rw [e]; rfl⟩
  have hfbox : Ovk.Spec.boxHas f.geo.box (transform f.geo (W.coord k p)) ∧ f.geo.has (W.coord k p) := by
    obtain ⟨j, hj, rfl⟩ := (mem_fragments W).1 hf
    have h2 : Ovk.Spec.boxHas (fragment W m (j + 1) (subRanges W m r)[j]).geo.box
        (transform (fragment W m (j + 1) (subRanges W m r)[j]).geo (W.coord k p)) := by
      unfold fragment
      dsimp only
      exact foldl_union_has _ _ _ (.inr ⟨_, List.mem_map.2 ⟨c, List.mem_filter.2 ⟨(Rng.mem_points _ _).2 hc, hca⟩,
        rfl⟩, hbox⟩)
    exact ⟨h2, has_of_box hB h2⟩
  have hy := hall r f (mem_localFragments.2 ⟨m, hm, hf⟩) (by rw [fragment_grid W hf]; exact hov) hfbox.1 hfbox.2
  unfold ranksOf
  exact List.mem_filter.2 ⟨List.mem_finRange r, List.any_eq_true.2 ⟨_, hx, List.any_eq_true.2
    ⟨_, hy, by simp [fragment_grid W hf]⟩⟩⟩

/-- A process that is asked for data has a fragment. -/
theorem asked_fragment (hB : Spec.Base W) (hcov : Spec.Covered W) {h : DHash.Hash (d + 2) Rat (Frag (d + 2))}
    (hh : hash W = some h) {m k : Nat} (hk : k ∈ W.grids) {s : Fin n}
    {cand : List (Tup (d + 2) × List (Nat × Frag (d + 2)))} (hcand : candidates W h k s = some cand) {r : Fin n}
    (hr : r ∈ ranksOf cand m) : ∃ f, f ∈ fragments W m r := by
  obtain ⟨h', hh', hl⟩ := lookup hB hcov
  rw [hh] at hh'
  obtain rfl := Option.some.inj hh'
  obtain ⟨ids, hids, hhits⟩ := hl s
  unfold ranksOf at hr
  obtain ⟨x, hx, hy⟩ := List.any_eq_true.1 (List.mem_filter.1 hr).2
  obtain ⟨y, hy, e⟩ := List.any_eq_true.1 hy
  unfold candidates at hcand
  rw [hids, Option.bind_eq_bind, Option.bind_some] at hcand
  obtain ⟨p, hp, e1⟩ := (mem_mapM hcand x).1 hx
  obtain ⟨l', e', rfl⟩ := Option.map_eq_some_iff.1 e1
  obtain ⟨l, e2, hall, _⟩ := hhits k hk p hp
  rw [e'] at e2
  obtain rfl := Option.some.inj e2
  obtain ⟨_, r', e3, hf⟩ := hall y hy
  simp only [Bool.and_eq_true, beq_iff_eq] at e
  obtain rfl : r' = r := Fin.ext (by omega)
  obtain ⟨g, _, hf⟩ := mem_localFragments.1 hf
  have := fragment_grid W hf
  rw [e.2] at this
  subst this
  exact ⟨_, hf⟩

theorem collect_ok (hok : Spec.OverlapOk W) {m k : Nat} (hm : m ∈ W.grids) (hk : k ∈ W.grids)
    (hs : (W.cart m).storage = .unique) (hroot : Spec.Rooted W m) (himg : Spec.Images W m)
    {h : DHash.Hash (d + 2) Rat (Frag (d + 2))} (hh : hash W = some h) {nbrs : Fin n → List (Fin n)}
    {field : Fin n → Rng (d + 2)} (hn : Spec.Neighbors W m nbrs)
    (hfield : ∀ a p, Ovk.Spec.pts (W.loc m a) p → Ovk.Spec.pts (field a) p)
    {M : Fin n → List (MEntry (d + 2))} (hM : ∀ r, overlapM W h m k r = some (M r)) :
    Ovk.Spec.CollectOk ⟨W.cart m, W.loc m, nbrs, field, fun r => (M r).map fun e => vertices e.cell, .col⟩ := by
  have hgm := hok.grid m hm
  have hp := hgm.proper
  have ht := hgm.tiles
  obtain ⟨h', hh', hdet⟩ := detect hok
  rw [hh] at hh'
  obtain rfl := Option.some.inj hh'
  -- where entries come from
  have hentry : ∀ r c, c ∈ (M r).map (fun e => vertices e.cell) ↔ ∃ s x e c', sources W h m k s = some x ∧ r ∈ x.2 ∧
      e ∈ x.1 ∧ (W.cart m).mapTupleToRange (cover W m r) e.cell = some c' ∧
      c = vertices (if (own W m r).contains e.cell then e.cell else c') := by
    intro r c
    obtain ⟨l, hl⟩ : ∃ l, incoming W h m k r = some l := by
      have := hM r
      unfold overlapM at this
      simp only [Option.bind_eq_bind, Option.bind_eq_some_iff] at this
      exact this.imp fun l h => h.1
    obtain ⟨M', hM', hperm, _⟩ := overlapM_eq ht hp (hok.grid k hk).tiles hok.sorts hl
    rw [hM r] at hM'
    obtain rfl := Option.some.inj hM'
    have hcells : ∀ s x, sources W h m k s = some x → ∀ y ∈ x.1, Ovk.Spec.pts (cellRange W m) y.cell := by
      intro s x hx y hy
      obtain ⟨cand, h1, h2, _⟩ := sources_iff.1 hx
      exact ((items_spec ht h2 h1).2 y hy).2.1
    rw [(hperm.map _).mem_iff, List.map_map, List.mem_map]
    constructor
    · rintro ⟨⟨s, e⟩, he, rfl⟩
      obtain ⟨x, hx, hr, he⟩ := (mem_incoming hl s e).1 he
      obtain ⟨y, hy, c', hc', rfl⟩ := (mem_sent hp ht (hcells s x hx)).1 he
      exact ⟨s, x, y, c', hx, hr, hy, hc', rfl⟩
    · rintro ⟨s, x, y, c', hx, hr, hy, hc', rfl⟩
      exact ⟨(s, _), (mem_incoming hl s _).2 ⟨x, hx, hr, (mem_sent hp ht (hcells s x hx)).2 ⟨y, hy, c', hc', rfl⟩⟩, rfl⟩
  -- the listed cell is an image of an active cell, with a vertex of which is here
  have himage : ∀ s x e, sources W h m k s = some x → e ∈ x.1 → ∀ r ∈ x.2, ∀ c',
      (W.cart m).mapTupleToRange (cover W m r) e.cell = some c' →
      Ovk.Spec.SamePoint (W.cart m) e.cell (if (own W m r).contains e.cell then e.cell else c') ∧
      Spec.HoldsVertex W m r e.cell := by
    intro s x e hx he r hrx c' hc'
    have hcell : Ovk.Spec.pts (cellRange W m) e.cell := by
      obtain ⟨cand, h1, h2, _⟩ := sources_iff.1 hx
      exact ((items_spec ht h2 h1).2 e he).2.1
    obtain ⟨h1, h2⟩ := (cover_image hp ht hcell).1 c' hc'
    refine ⟨by split; exacts [samePoint_refl _ _, h2], ?_⟩
    have hr : ∀ i, (W.cart m).range.b i ≤ (own W m r).b i ∧ (own W m r).b i < (own W m r).e i ∧
        (own W m r).e i ≤ (W.cart m).range.e i := by
      intro i
      refine ⟨(ht.1 r i).1, ?_, own_end ht r i⟩
      obtain ⟨cand, h3, _, h4⟩ := sources_iff.1 hx
      rw [h4] at hrx
      obtain ⟨f, hf⟩ := asked_fragment hok.toBase hok.covered hh hk h3 (List.mem_filter.1 hrx).1
      obtain ⟨p, h5, _⟩ := (fragment_cells W hf).2
      have := (fragment_cells W hf).1 p h5 i
      omega
    obtain ⟨_, v, w, h3, h4, h5⟩ := (C41_cover (W.cart m) hs (own W m r) hr e.cell).1 ⟨c', h2, h1⟩
    exact ⟨v, w, h3, h4, ((owns_iff hgm).2 h5).2⟩
  refine ⟨hp, ht, hn.irrefl, hn.nodup, hfield, ?_, ?_, ?_, ?_⟩
  · intro a cell hc
    obtain ⟨s, x, e, c', _, _, _, _, rfl⟩ := (hentry a cell).1 hc
    exact ⟨_, pts_vertices.2 fun i => .inl rfl⟩
  · intro a cell hc p hpc
    obtain ⟨s, x, e, c', hx, hax, he, hc', rfl⟩ := (hentry a cell).1 hc
    obtain ⟨h1, _⟩ := himage s x e hx he a hax c' hc'
    obtain ⟨x', hx', hacc, _⟩ := hdet m hm k hk s
    rw [hx] at hx'
    obtain rfl := Option.some.inj hx'
    obtain ⟨⟨hac, _⟩, _⟩ := hacc e he
    set b := if (own W m a).contains e.cell then e.cell else c' with hb
    have hv : ∀ i, (fun i => e.cell i + (p i - b i)) i = e.cell i ∨ (fun i => e.cell i + (p i - b i)) i = e.cell i + 1 := by
      intro i
      have := pts_vertices.1 hpc i
      dsimp only
      omega
    obtain ⟨w, h2, h3, _⟩ := hac.2 _ hv
    exact ⟨w, h3, samePoint_trans (shift_same (v := p) (samePoint_symm h1)) h2⟩
  · intro a cell hc
    obtain ⟨s, x, e, c', hx, hax, he, hc', rfl⟩ := (hentry a cell).1 hc
    obtain ⟨h1, h2⟩ := himage s x e hx he a hax c' hc'
    exact vertices_touch hgm hs (holds_image h1 h2)
  · intro a b cell hc htouch hab
    obtain ⟨s, x, e, c', hx, hax, he, hc', rfl⟩ := (hentry a cell).1 hc
    obtain ⟨h1, h2⟩ := himage s x e hx he a hax c' hc'
    have hbv : Spec.HoldsVertex W m b e.cell := holds_image (samePoint_symm h1) (touches_vertices hp htouch)
    obtain ⟨x', hx', hacc, _⟩ := hdet m hm k hk s
    rw [hx] at hx'
    obtain rfl := Option.some.inj hx'
    obtain ⟨⟨hac, hu⟩, hov, _⟩ := hacc e he
    refine ⟨?_, hn.near a b e.cell hab hac.1 h2 hbv⟩
    obtain ⟨cand, hcand, hitems, hx2⟩ := sources_iff.1 hx
    obtain ⟨_, h5⟩ := items_spec ht hitems hcand
    obtain ⟨hpt, hcr, hpa, hca, _, _⟩ := h5 e he
    -- a cell of `b` at a vertex
    obtain ⟨v, w, hv, hvw, hw, hwa⟩ := hroot e.cell hac b hbv
    have hwo : Ovk.Spec.pts (own W m b) w := (owns_iff hgm).1 ⟨hwa.1, hw⟩
    obtain ⟨f, hf, hfw⟩ := fragment_covers W hwo ((activeCell_iff hok.toBase hm hwa.1).2 hwa)
    -- its fragment reaches the cell
    have hfr : ∀ i, (cartPointToCell (W.cart m)).range.b i ≤ f.cells.b i ∧ f.cells.b i < f.cells.e i ∧
        f.cells.e i ≤ (cartPointToCell (W.cart m)).range.e i := by
      have hpos := fragment_pos W hf
      have hlo : Ovk.Spec.pts f.cells f.cells.b := fun i => ⟨le_refl _, hpos i⟩
      have hhi : Ovk.Spec.pts f.cells fun i => f.cells.e i - 1 := fun i => by have := hpos i; constructor <;> dsimp only <;> omega
      intro i
      have h6 := own_cell W ht ((fragment_cells W hf).1 _ hlo) i
      have h7 := own_cell W ht ((fragment_cells W hf).1 _ hhi) i
      unfold cellRange at h6 h7
      have := hpos i
      exact ⟨h6.1, hpos i, by omega⟩
    obtain ⟨c₁, hs₁, hc₁⟩ := (C41_cover (cartPointToCell (W.cart m)) rfl f.cells hfr e.cell).2
      ⟨⟨e.cell, samePoint_refl _ _, hcr⟩, v, w, hv, (samePoint_cell hs).2 hvw, hfw⟩
    rw [samePoint_cell hs] at hs₁
    have hbr : b ∈ ranksOf (n := n) cand m := by
      refine asked hok.toBase hok.covered hh hm hk hcand hpt hpa hov hf hc₁ (cellActive_image hp hs₁ hca) ?_
      obtain ⟨h6, h7⟩ := himg f.cells e.cell c₁ hac hs₁ ⟨fun i => if c₁ i < f.cells.b i then c₁ i + 1 else c₁ i,
        fun i => by dsimp only; split <;> simp, fun i => by
          have h8 := hc₁ i
          have h9 := hfr i
          unfold makeCellCoverRange at h8
          dsimp only at h8 ⊢
          split at h8 <;> split <;> omega⟩
      exact scaleBox_mono h6 (by have := le_maxTol (W := W) m hk; linarith) (h7 k hk _ _ hu)
    -- and the cell is sent
    have hob : ∀ i, (W.cart m).range.b i ≤ (own W m b).b i ∧ (own W m b).b i < (own W m b).e i ∧
        (own W m b).e i ≤ (W.cart m).range.e i := by
      intro i
      have := hwo i
      exact ⟨(ht.1 b i).1, by omega, own_end ht b i⟩
    have hin : ∀ i, (W.cart m).range.b i ≤ e.cell i ∧ e.cell i < (W.cart m).range.e i := by
      intro i
      have := hac.1 i
      split at this <;> omega
    obtain ⟨c₂, hc₂, hc₂'⟩ := (C41_cover (W.cart m) hs (own W m b) hob e.cell).2
      ⟨⟨e.cell, samePoint_refl _ _, fun i => hin i⟩, v, w, hv, hvw, hwo⟩
    cases hmt : (W.cart m).mapTupleToRange (cover W m b) e.cell with
    | none => exact absurd ⟨c₂, hc₂', hc₂⟩ ((cover_image hp ht hcr).2 hmt)
    | some c₃ =>
      have hsent : ({ e with cell := if (own W m b).contains e.cell then e.cell else c₃ } : Item (d + 2)) ∈ sent W m b x.1 :=
        (mem_sent hp ht fun y hy => (h5 y hy).2.1).2 ⟨e, he, c₃, hmt, rfl⟩
      have hbx : b ∈ x.2 := by
        rw [hx2, List.mem_filter]
        refine ⟨hbr, ?_⟩
        cases hse : sent W m b x.1 with
        | nil => rw [hse] at hsent; simp at hsent
        | cons _ _ => rfl
      refine ⟨_, (hentry b _).2 ⟨s, x, e, c₃, hx, hbx, he, hmt, rfl⟩, ?_⟩
      exact sameCell hp hs (samePoint_trans (samePoint_symm h1) (himage s x e hx he b hbx c₃ hmt).1)

/-- The full claim: with multilinear cells, unique storage and any mask. -/
def C88_statement : Prop := ∀ (d n : Nat) (W : World d n) (pos : Nat → Tup (d + 2) → Pt (d + 2)),
  Spec.Base W → Spec.Geometric W pos → Spec.Attached W → (∀ m k, W.tol m k = 0) →
  ∀ m ∈ W.grids, (W.cart m).storage = .unique → Spec.Images W m → Spec.Collects W m

/-- C88: for any number of processes and any decomposition, the collect operation on the cells listed by
overlap detection is defined on every process, and each reduction is over all vertices of the cell with the
global values, whoever holds them.  Missing: processes that hold vertices of an active cell but no active cell
at them, duplicated periodic storage, cells next to a process only through a period that shifts coordinates. -/
theorem C88_partial (hok : Spec.OverlapOk W) {m : Nat} (hm : m ∈ W.grids) (hs : (W.cart m).storage = .unique)
    (hroot : Spec.Rooted W m) (himg : Spec.Images W m) : Spec.Collects W m := by
  obtain ⟨h, hh, hdet⟩ := detects hok
  refine ⟨h, hh, fun k hk nbrs field hn hfield => ?_⟩
  choose M hM using (hdet m hm k hk).2
  refine ⟨⟨W.cart m, W.loc m, nbrs, field, fun r => (M r).map fun e => vertices e.cell, .col⟩, M, ?_, fun r => ⟨hM r, ?_⟩⟩
  · unfold collectSetup
    rw [DHash.allDims_eq _ _ hM]
    rfl
  · intro V R vals G hG f init scratch
    rw [C22_partial (collect_ok hok hm hk hs hroot himg hh hn hfield hM) hG f init scratch r
      (.inl rfl)]
    dsimp only
    rw [List.zipIdx_map, List.map_map]
    rfl

end Ovk.Ovl
