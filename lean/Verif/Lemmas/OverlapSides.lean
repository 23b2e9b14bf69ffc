/-
Lemmas about the two sides of the overlap data.
-/
import Verif.Lemmas.Overlap
import Verif.Props.Cart

namespace Ovk.Ovl
variable {d n : Nat} {W : World d n}

/-! ### Images of cells -/

theorem cell_same {c : Cart (d + 2)} {p q : Tup (d + 2)} (hp : Spec.pts (cartPointToCell c).range p)
    (hq : Spec.pts (cartPointToCell c).range q) (h : Spec.SamePoint c p q) : q = p := by
  funext i
  have h1 := hp i
  have h2 := hq i
  have h3 := h i
  simp only [cartPointToCell] at h1 h2
  by_cases hi : c.periodic i = true
  · simp only [hi, if_true, true_and] at h1 h2 h3
    obtain ⟨k, hk⟩ := h3
    have hP : Spec.periodLen c i = (if c.storage = .unique then c.range.e i else c.range.e i - 1) - c.range.b i := by
      unfold Spec.periodLen
      by_cases hs : c.storage = .unique
      · simp [hi, hs]
      · have : c.storage = .duplicated := by cases hc : c.storage <;> simp_all
        simp [hi, this]; omega
    have := image_unique (P := Spec.periodLen c i) (a := c.range.b i) (x := p i) (k := k) h1.1
      (by rw [hP]; have := h1.2; omega) (by rw [← hk]; exact h2.1) (by rw [← hk, hP]; have := h2.2; omega)
    rw [hk, this]; ring
  · simpa [hi] using h3

theorem own_end {g : Nat} (ht : Spec.Tiles (W.cart g) (W.loc g)) (r : Fin n) (i : Fin (d + 2)) :
    (own W g r).e i ≤ (W.cart g).range.e i := by
  have := (ht.1 r i).2
  unfold own cellLocalRange rangePointToCell
  dsimp only
  split <;> omega

theorem cell_begin {g : Nat} {c : Tup (d + 2)} (hc : Spec.pts (cellRange W g) c) (i : Fin (d + 2)) :
    (W.cart g).range.b i ≤ c i := (hc i).1

theorem own_image {g : Nat} (hp : Spec.Proper (W.cart g)) (ht : Spec.Tiles (W.cart g) (W.loc g)) {r : Fin n}
    {c : Tup (d + 2)} (hc : Spec.pts (cellRange W g) c) :
    (W.cart g).mapTupleToRange (own W g r) c = if (own W g r).contains c then some c else none := by
  obtain ⟨h1, h2⟩ := C04_partial (W.cart g) hp (own W g r) c fun i _ => ⟨cell_begin hc i, own_end ht r i⟩
  cases hm : (W.cart g).mapTupleToRange (own W g r) c with
  | none =>
    rw [if_neg]
    intro hcon
    exact h2 hm ⟨c, (contains_iff_pts _ _).1 hcon, samePoint_refl _ _⟩
  | some c' =>
    obtain ⟨h3, h4⟩ := h1 c' hm
    have e := cell_same hc (own_cell W ht h3) h4
    subst e
    rw [if_pos ((contains_iff_pts _ _).2 h3)]

theorem own_sub_cover {g : Nat} {r : Fin n} {c : Tup (d + 2)} (hc : Spec.pts (own W g r) c) :
    Spec.pts (cover W g r) c := by
  intro i
  have := hc i
  unfold cover makeCellCoverRange
  dsimp only
  split <;> omega

theorem cover_image {g : Nat} (hp : Spec.Proper (W.cart g)) (ht : Spec.Tiles (W.cart g) (W.loc g)) {r : Fin n}
    {c : Tup (d + 2)} (hc : Spec.pts (cellRange W g) c) :
    (∀ c', (W.cart g).mapTupleToRange (cover W g r) c = some c' →
      Spec.pts (cover W g r) c' ∧ Spec.SamePoint (W.cart g) c c') ∧
    ((W.cart g).mapTupleToRange (cover W g r) c = none →
      ¬ ∃ c', Spec.pts (cover W g r) c' ∧ Spec.SamePoint (W.cart g) c c') :=
  C04_partial (W.cart g) hp (cover W g r) c fun i _ => ⟨cell_begin hc i, own_end ht r i⟩

theorem cover_some {g : Nat} (hp : Spec.Proper (W.cart g)) (ht : Spec.Tiles (W.cart g) (W.loc g)) {r : Fin n}
    {c : Tup (d + 2)} (hc : Spec.pts (own W g r) c) :
    ∃ c', (W.cart g).mapTupleToRange (cover W g r) c = some c' := by
  cases hm : (W.cart g).mapTupleToRange (cover W g r) c with
  | some c' => exact ⟨c', rfl⟩
  | none =>
    exact absurd ⟨c, own_sub_cover hc, samePoint_refl _ _⟩ ((cover_image hp ht (own_cell W ht hc)).2 hm)

/-- What is sent to a process for a cell: the cell itself if it is one of its cells, an image that is not one
of them otherwise. -/
theorem mem_sent {m : Nat} (hp : Spec.Proper (W.cart m)) (ht : Spec.Tiles (W.cart m) (W.loc m)) {r : Fin n}
    {l : List (Item (d + 2))} (hl : ∀ x ∈ l, Spec.pts (cellRange W m) x.cell) {e : Item (d + 2)} :
    e ∈ sent W m r l ↔ ∃ x ∈ l, ∃ c, (W.cart m).mapTupleToRange (cover W m r) x.cell = some c ∧
      e = { x with cell := if (own W m r).contains x.cell then x.cell else c } := by
  unfold sent
  rw [List.mem_filterMap]
  constructor
  · rintro ⟨x, hx, h⟩
    obtain ⟨c, hc, rfl⟩ := Option.map_eq_some_iff.1 h
    refine ⟨x, hx, c, hc, ?_⟩
    rw [own_image hp ht (hl x hx)]
    split <;> rfl
  · rintro ⟨x, hx, c, hc, rfl⟩
    refine ⟨x, hx, ?_⟩
    rw [hc, own_image hp ht (hl x hx)]
    split <;> rfl

theorem sent_own {m : Nat} (hp : Spec.Proper (W.cart m)) (ht : Spec.Tiles (W.cart m) (W.loc m)) {r : Fin n}
    {l : List (Item (d + 2))} (hl : ∀ x ∈ l, Spec.pts (cellRange W m) x.cell) {e : Item (d + 2)} :
    (e ∈ sent W m r l ∧ Spec.pts (own W m r) e.cell) ↔ e ∈ l ∧ Spec.pts (own W m r) e.cell := by
  rw [mem_sent hp ht hl]
  constructor
  · rintro ⟨⟨x, hx, c, hc, rfl⟩, ho⟩
    dsimp only at ho ⊢
    by_cases hcon : (own W m r).contains x.cell = true
    · rw [if_pos hcon] at ho ⊢
      exact ⟨hx, ho⟩
    · rw [if_neg hcon] at ho
      have h1 := ((cover_image hp ht (hl x hx)).1 c hc).2
      have := cell_same (hl x hx) (own_cell W ht ho) h1
      subst this
      exact absurd ((contains_iff_pts _ _).2 ho) hcon
  · rintro ⟨he, ho⟩
    obtain ⟨c, hc⟩ := cover_some hp ht ho
    refine ⟨⟨e, he, c, hc, ?_⟩, ho⟩
    rw [if_pos ((contains_iff_pts _ _).2 ho)]

/-! ### Writing in two steps -/

theorem foldl_set {β : Type} : ∀ (ws : List (Nat × β)) (a : List β), (ws.map Prod.fst).Nodup →
    (∀ w ∈ ws, w.1 < a.length) →
    (ws.foldl (fun a w => a.set w.1 w.2) a).length = a.length ∧
    (∀ w ∈ ws, (ws.foldl (fun a w => a.set w.1 w.2) a)[w.1]? = some w.2) ∧
    ∀ i, i ∉ ws.map Prod.fst → (ws.foldl (fun a w => a.set w.1 w.2) a)[i]? = a[i]?
  | [], a, _, _ => by simp
  | w :: ws, a, hn, hlt => by
    rw [List.map_cons, List.nodup_cons] at hn
    obtain ⟨h1, h2, h3⟩ := foldl_set ws (a.set w.1 w.2) hn.2 fun x hx => by
      rw [List.length_set]; exact hlt x (by simp [hx])
    rw [List.foldl_cons]
    refine ⟨by rw [h1, List.length_set], ?_, ?_⟩
    · intro x hx
      rcases List.mem_cons.1 hx with rfl | hx
      · rw [h3 _ hn.1, List.getElem?_set_self (hlt x (by simp))]
      · exact h2 x hx
    · intro i hi
      rw [List.map_cons, List.mem_cons, not_or] at hi
      rw [h3 i hi.2, List.getElem?_set_ne (Ne.symm hi.1)]

theorem leftOrder_spec {o : List Nat} (ho : o.Perm (List.range o.length)) (j : Nat) (hj : j < o.length) :
    (leftOrder o).length = o.length ∧ (leftOrder o)[o[j]]? = some j := by
  have hn : o.Nodup := ho.symm.nodup List.nodup_range
  have hlt : ∀ x ∈ o, x < o.length := fun x hx => List.mem_range.1 (ho.mem_iff.1 hx)
  obtain ⟨h1, h2, _⟩ := foldl_set o.zipIdx (List.replicate o.length 0) (by simpa using hn) (by
    intro w hw
    have := List.mem_zipIdx hw
    simp only [List.length_replicate]
    rw [this.2.2]
    exact hlt _ (List.getElem_mem _))
  exact ⟨by unfold leftOrder; rw [h1]; simp, h2 (o[j], j) (List.mem_zipIdx_iff_getElem?.2 (by simp [hj]))⟩

theorem scatter {α β : Type} (l : List α) (e : α → β) {o : List Nat} (ho : o.Perm (List.range l.length)) :
    l.zipIdx.foldl (fun (a : List (Option β)) x => a.set ((leftOrder o).getD x.2 0) (some (e x.1)))
      (List.replicate l.length none) = (o.filterMap fun i => l[i]?).map fun x => some (e x) := by
  have hlen : o.length = l.length := by simpa using ho.length_eq
  have ho' : o.Perm (List.range o.length) := by rw [hlen]; exact ho
  have hlt : ∀ x ∈ o, x < l.length := fun x hx => List.mem_range.1 (ho.mem_iff.1 hx)
  have hn : o.Nodup := ho.symm.nodup List.nodup_range
  have hpos : ∀ i, i < l.length → ∃ j, j < o.length ∧ o[j]? = some i ∧ (leftOrder o).getD i 0 = j := by
    intro i hi
    obtain ⟨j, hj, e⟩ := List.getElem_of_mem (ho.mem_iff.2 (List.mem_range.2 hi))
    have := (leftOrder_spec ho' j hj).2
    rw [e] at this
    exact ⟨j, hj, by rw [List.getElem?_eq_getElem hj, e], by simp [List.getD, this]⟩
  have ew : l.zipIdx.foldl (fun (a : List (Option β)) x => a.set ((leftOrder o).getD x.2 0) (some (e x.1)))
      (List.replicate l.length none) =
      (l.zipIdx.map fun x => ((leftOrder o).getD x.2 0, some (e x.1))).foldl (fun a w => a.set w.1 w.2)
        (List.replicate l.length none) := by
    rw [List.foldl_map]
  obtain ⟨h1, h2, h3⟩ := foldl_set (l.zipIdx.map fun x => ((leftOrder o).getD x.2 0, some (e x.1)))
    (List.replicate l.length none) (by
      rw [List.map_map]
      have : (l.zipIdx.map (Prod.fst ∘ fun x => ((leftOrder o).getD x.2 0, some (e x.1)))) =
          (List.range l.length).map fun i => (leftOrder o).getD i 0 := by
        have : (l.zipIdx.map Prod.snd) = List.range l.length := by simp [List.range_eq_range']
        rw [← this, List.map_map]; rfl
      rw [this]
      apply List.Nodup.map_on _ List.nodup_range
      intro x hx y hy hxy
      obtain ⟨j, _, hj, ej⟩ := hpos x (List.mem_range.1 hx)
      obtain ⟨j', _, hj', ej'⟩ := hpos y (List.mem_range.1 hy)
      rw [ej, ej'] at hxy
      rw [hxy, hj'] at hj
      exact (Option.some.inj hj).symm) (by
      intro w hw
      obtain ⟨x, hx, rfl⟩ := List.mem_map.1 hw
      have := List.mem_zipIdx hx
      obtain ⟨j, hj, _, ej⟩ := hpos x.2 (by omega)
      simp only [List.length_replicate]
      rw [ej]; omega)
  rw [ew]
  apply List.ext_getElem?
  intro j
  have er : (o.filterMap fun i => l[i]?).map (fun x => some (e x)) = o.map fun i => (l[i]?).map e := by
    clear hlen ho' hn hpos ew h1 h2 h3 ho
    induction o with
    | nil => rfl
    | cons a o ih =>
      have ha := hlt a (by simp)
      rw [List.filterMap_cons, List.getElem?_eq_getElem ha, List.map_cons, List.map_cons,
        ih fun x hx => hlt x (by simp [hx]), List.getElem?_eq_getElem ha]
      rfl
  rw [er]
  by_cases hj : j < o.length
  · have hi := hlt _ (List.getElem_mem hj)
    obtain ⟨j', hj', e1, e2⟩ := hpos o[j] hi
    have hjj : j' = j := by
      have h3 : o[j']? = o[j]? := by rw [e1, List.getElem?_eq_getElem hj]
      rw [List.getElem?_eq_getElem hj', List.getElem?_eq_getElem hj] at h3
      exact (List.Nodup.getElem_inj_iff hn).1 (Option.some.inj h3)
    have := h2 (j', some (e l[o[j]])) (List.mem_map.2 ⟨(l[o[j]], o[j]),
      List.mem_zipIdx_iff_getElem?.2 (by simp [hi]), by rw [e2]⟩)
    rw [hjj] at this
    rw [this, List.getElem?_map, List.getElem?_eq_getElem hj]
    simp [hi]
  · rw [List.getElem?_eq_none (by rw [h1]; simp; omega), List.getElem?_eq_none (by simp; omega)]

/-! ### The two sides -/

variable {h : DHash.Hash (d + 2) Rat (Frag (d + 2))}

theorem sources_iff {m k : Nat} {s : Fin n} {x : List (Item (d + 2)) × List (Fin n)} :
    sources W h m k s = some x ↔ ∃ cand, candidates W h k s = some cand ∧ items W h m k s = some x.1 ∧
      x.2 = (ranksOf cand m).filter fun r => !(sent W m r x.1).isEmpty := by
  unfold sources
  simp only [Option.bind_eq_bind, Option.bind_eq_some_iff, Option.pure_def, Option.some.injEq]
  constructor
  · rintro ⟨cand, h1, l, h2, rfl⟩; exact ⟨cand, h1, h2, rfl⟩
  · rintro ⟨cand, h1, h2, h3⟩; exact ⟨cand, h1, x.1, h2, by rw [← h3]⟩

/-- The data of a process, given that it is defined. -/
theorem items_spec {m k : Nat} {s : Fin n} (ht : Spec.Tiles (W.cart m) (W.loc m)) {l : List (Item (d + 2))}
    (hl : items W h m k s = some l) {cand : List (Tup (d + 2) × List (Nat × Frag (d + 2)))}
    (hc : candidates W h k s = some cand) : l.Pairwise (fun x y => colLt x.point y.point) ∧
      ∀ x ∈ l, Spec.pts (W.loc k s) x.point ∧ Spec.pts (cellRange W m) x.cell ∧ W.active k x.point = true ∧
        cellActive W m x.cell = true ∧ W.coordsIn m x.cell (W.tol m k) (W.coord k x.point) = some x.coords ∧
        ∃ r ∈ ranksOf (n := n) cand m, Spec.pts (own W m r) x.cell := by
  have hl0 := hl
  unfold items at hl
  simp only [Option.bind_eq_bind, Option.bind_eq_some_iff] at hl
  obtain ⟨cand', hc', qs, hq, _⟩ := hl
  rw [hc] at hc'
  obtain rfl := Option.some.inj hc'
  obtain ⟨l', h1, h2, h3, _⟩ := items_eq ht hc hq
  rw [hl0] at h1
  obtain rfl := Option.some.inj h1
  refine ⟨h2, fun x hx => ?_⟩
  obtain ⟨h4, h5, h6⟩ := h3 x hx
  obtain ⟨q, hqm, e1, e2, e3⟩ := h6.1
  obtain ⟨p, hp, ha, e, hcell⟩ := queries_sound ht hc hq q hqm
  obtain ⟨cell, h7, h8, h9, h10, r, hr, ho⟩ := hcell _ e2
  have ep : p = x.point := by
    have hb := (W.loc k s).index_bounds .col p hp
    have hb' := (W.loc k s).index_bounds .col x.point h4
    rw [e] at e1
    exact (W.loc k s).index_inj .col _ _ hp h4 (by unfold Rng.colIndex at e1; omega)
  have ec : cell = x.cell := (cellRange W m).index_inj .col _ _ h7 h5 h8.symm
  subst ep ec
  exact ⟨h4, h5, ha, h9, by rw [h10]; exact congrArg some e3, r, hr, ho⟩

theorem mem_incoming {m k : Nat} {r : Fin n} {l : List (Fin n × Item (d + 2))}
    (hl : incoming W h m k r = some l) (s : Fin n) (e : Item (d + 2)) :
    (s, e) ∈ l ↔ ∃ x, sources W h m k s = some x ∧ r ∈ x.2 ∧ e ∈ sent W m r x.1 := by
  unfold incoming at hl
  simp only [Option.bind_eq_bind, Option.bind_eq_some_iff, Option.pure_def, Option.some.injEq] at hl
  obtain ⟨ls, hls, rfl⟩ := hl
  rw [List.mem_flatten]
  constructor
  · rintro ⟨b, hb, he⟩
    obtain ⟨s', _, e'⟩ := (mem_mapM hls b).1 hb
    obtain ⟨x, hx, rfl⟩ := Option.map_eq_some_iff.1 e'
    split at he
    · rename_i hr
      obtain ⟨y, hy, e2⟩ := List.mem_map.1 he
      obtain ⟨rfl, rfl⟩ := Prod.mk.inj e2
      exact ⟨x, hx, by simpa using hr, hy⟩
    · simp at he
  · rintro ⟨x, hx, hr, he⟩
    refine ⟨(sent W m r x.1).map fun e => (s, e), ?_, List.mem_map.2 ⟨e, he, rfl⟩⟩
    rw [mem_mapM hls]
    exact ⟨s, List.mem_finRange s, by rw [hx, Option.map_some, if_pos (by simpa using hr)]⟩

theorem sources_defined {m k : Nat} {r : Fin n} {l : List (Fin n × Item (d + 2))}
    (hl : incoming W h m k r = some l) (s : Fin n) : ∃ x, sources W h m k s = some x := by
  unfold incoming at hl
  simp only [Option.bind_eq_bind, Option.bind_eq_some_iff, Option.pure_def, Option.some.injEq] at hl
  obtain ⟨ls, hls, rfl⟩ := hl
  obtain ⟨b, _, e⟩ := forall₂_left (mapM_forall₂ hls) s (List.mem_finRange s)
  obtain ⟨x, hx, _⟩ := Option.map_eq_some_iff.1 e
  exact ⟨x, hx⟩

theorem sent_sorted {m : Nat} {r : Fin n} {l : List (Item (d + 2))}
    (h : l.Pairwise fun x y => colLt x.point y.point) :
    (sent W m r l).Pairwise fun x y => colLt x.point y.point := by
  unfold sent
  rw [List.pairwise_filterMap]
  refine h.imp ?_
  intro a b hab x hx y hy
  obtain ⟨_, _, rfl⟩ := Option.map_eq_some_iff.1 hx
  obtain ⟨_, _, rfl⟩ := Option.map_eq_some_iff.1 hy
  exact hab

theorem colLt_irrefl (p : Tup d) : ¬ colLt p p := fun h => colLt_asymm p p h h

theorem incoming_nodup {m k : Nat} (ht : Spec.Tiles (W.cart m) (W.loc m)) (hp : Spec.Proper (W.cart m))
    (hk : Spec.Tiles (W.cart k) (W.loc k)) {r : Fin n} {l : List (Fin n × Item (d + 2))}
    (hl : incoming W h m k r = some l) : l.Pairwise (fun x y => x.2.point ≠ y.2.point) ∧
      ∀ x ∈ l, Spec.pts (W.loc k x.1) x.2.point := by
  have hpt : ∀ s x, sources W h m k s = some x → x.1.Pairwise (fun x y => colLt x.point y.point) ∧
      ∀ e ∈ sent W m r x.1, Spec.pts (W.loc k s) e.point := by
    intro s x hx
    obtain ⟨cand, h1, h2, h3⟩ := sources_iff.1 hx
    obtain ⟨h4, h5⟩ := items_spec ht h2 h1
    refine ⟨h4, fun e he => ?_⟩
    obtain ⟨y, hy, c, _, rfl⟩ := (mem_sent hp ht fun x hx => (h5 x hx).2.1).1 he
    exact (h5 y hy).1
  refine ⟨?_, fun x hx => ?_⟩
  · unfold incoming at hl
    simp only [Option.bind_eq_bind, Option.bind_eq_some_iff, Option.pure_def, Option.some.injEq] at hl
    obtain ⟨ls, hls, rfl⟩ := hl
    have hf := mapM_forall₂ hls
    have hd : (List.finRange n).Pairwise (· ≠ ·) := List.nodup_finRange n
    clear hls
    revert hf hd
    generalize List.finRange n = ss
    intro hf hd
    induction hf with
    | nil => simp
    | @cons s b ss ls hb hf ih =>
      rw [List.flatten_cons, List.pairwise_append]
      rw [List.pairwise_cons] at hd
      refine ⟨?_, ih hd.2, ?_⟩
      · obtain ⟨x, hx, rfl⟩ := Option.map_eq_some_iff.1 hb
        split
        · rw [List.pairwise_map]
          exact (sent_sorted (hpt s x hx).1).imp fun {a b} hab e => by
            dsimp only at e
            rw [e] at hab; exact colLt_irrefl _ hab
        · exact .nil
      · intro u hu v hv
        obtain ⟨b', hb', hv'⟩ := List.mem_flatten.1 hv
        obtain ⟨s', hs', hb''⟩ := forall₂_right hf b' hb'
        have hu2 : Spec.pts (W.loc k s) u.2.point := by
          obtain ⟨x, hx, rfl⟩ := Option.map_eq_some_iff.1 hb
          split at hu
          · obtain ⟨y, hy, rfl⟩ := List.mem_map.1 hu
            exact (hpt s x hx).2 y hy
          · simp at hu
        have hv2 : Spec.pts (W.loc k s') v.2.point := by
          obtain ⟨x, hx, rfl⟩ := Option.map_eq_some_iff.1 hb''
          split at hv'
          · obtain ⟨y, hy, rfl⟩ := List.mem_map.1 hv'
            exact (hpt s' x hx).2 y hy
          · simp at hv'
        intro e
        have hin : Spec.pts (W.cart k).range u.2.point := fun i =>
          ⟨(hk.1 s i).1.trans (hu2 i).1, lt_of_lt_of_le (hu2 i).2 (hk.1 s i).2⟩
        exact hd.1 s' hs' ((hk.2 _ hin).unique hu2 (e ▸ hv2))
  · obtain ⟨s, e⟩ := x
    obtain ⟨y, hy, _, he⟩ := (mem_incoming hl s e).1 hx
    exact (hpt s y hy).2 e he

/-- The column of `overlap_m` made from received data. -/
def entryOf (W : World d n) (m : Nat) (r : Fin n) (x : Fin n × Item (d + 2)) : MEntry (d + 2) :=
  ⟨x.2.cell, x.2.coords, x.2.point, if (own W m r).contains x.2.cell then (x.1.val : Int) else -1⟩

/-- The M side: a permutation of what was received, in increasing order of the destinations. -/
theorem overlapM_eq {m k : Nat} (ht : Spec.Tiles (W.cart m) (W.loc m)) (hp : Spec.Proper (W.cart m))
    (hk : Spec.Tiles (W.cart k) (W.loc k)) (hs : ∀ ks, Xch.StdSorted ks (W.sort ks)) {r : Fin n}
    {l : List (Fin n × Item (d + 2))} (hl : incoming W h m k r = some l) :
    ∃ M, overlapM W h m k r = some M ∧ M.Perm (l.map (entryOf W m r)) ∧
      M.Pairwise fun x y => colLt x.dest y.dest := by
  obtain ⟨h1, h2⟩ := hs (l.map fun x => (W.cart k).range.colIndex x.2.point)
  rw [List.length_map] at h1
  set o := W.sort (l.map fun x => (W.cart k).range.colIndex x.2.point) with ho
  have hsc := scatter l (entryOf W m r) h1
  have hlt : ∀ x ∈ o, x < l.length := fun x hx => List.mem_range.1 (h1.mem_iff.1 hx)
  have hperm : (o.filterMap fun i => l[i]?).Perm l := by
    have h3 := h1.filterMap fun i => l[i]?
    refine h3.trans (List.Perm.of_eq ?_)
    apply List.ext_getElem?
    intro i
    have : ((List.range l.length).filterMap fun i => l[i]?) = l := by
      rw [show (fun i : Nat => l[i]?) = (fun i : Nat => l[i]?) from rfl]
      clear h1 h2 ho hsc hlt h3 hl
      induction l using List.reverseRecOn with
      | nil => rfl
      | append_singleton l a ih =>
        rw [List.length_append, List.length_singleton, List.range_succ, List.filterMap_append]
        have e : (List.range l.length).filterMap (fun i => (l ++ [a])[i]?) =
            (List.range l.length).filterMap fun i => l[i]? := by
          apply List.filterMap_congr
          intro i hi
          rw [List.getElem?_append_left (List.mem_range.1 hi)]
        rw [e, ih]
        simp
    rw [this]
  refine ⟨(o.filterMap fun i => l[i]?).map (entryOf W m r), ?_, hperm.map _, ?_⟩
  · unfold overlapM
    rw [hl, Option.bind_eq_bind, Option.bind_some]
    show (l.zipIdx.foldl (fun (a : List (Option (MEntry (d + 2)))) x =>
      a.set ((leftOrder o).getD x.2 0) (some (entryOf W m r x.1))) (List.replicate l.length none)).mapM id = _
    rw [hsc]
    generalize (o.filterMap fun i => l[i]?) = z
    induction z with
    | nil => rfl
    | cons a z ih => rw [List.map_cons, List.mapM_cons, ih]; rfl
  · obtain ⟨h5, h6⟩ := incoming_nodup ht hp hk hl
    have hn : (o.filterMap fun i => l[i]?).Pairwise fun x y => x.2.point ≠ y.2.point :=
      (hperm.pairwise_iff fun {x y} h e => h e.symm).2 h5
    have hord : (o.filterMap fun i => l[i]?).Pairwise fun x y =>
        ¬ (W.cart k).range.colIndex y.2.point < (W.cart k).range.colIndex x.2.point := by
      rw [List.pairwise_filterMap]
      refine h2.imp_of_mem ?_
      intro a b ha hb hab x hx y hy
      have hx' : l[a]? = some x := hx
      have hy' : l[b]? = some y := hy
      simpa [List.getD, hx', hy'] using hab
    rw [List.pairwise_map]
    refine (hn.and hord).imp_of_mem ?_
    intro a b ha hb hab
    have hin : ∀ x ∈ o.filterMap fun i => l[i]?, Spec.pts (W.cart k).range x.2.point := by
      intro x hx i
      have h7 := h6 x (hperm.mem_iff.1 hx) i
      have h8 := hk.1 x.1 i
      omega
    show colLt a.2.point b.2.point
    rcases colLt_total _ _ hab.1 with h7 | h7
    · exact h7
    · exact absurd ((Rng.colIndex_lt_iff _ _ _ (hin b hb) (hin a ha)).2 h7) hab.2

end Ovk.Ovl
