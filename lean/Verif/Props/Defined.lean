/-
Property C70: assembly completes.
-/
import Verif.Props.Occlusion
import Verif.Lemmas.Exterior
import Mathlib.Data.Finset.Lattice.Fold
import Mathlib.Data.Fintype.Basic

namespace Ovk.Asm
variable {d n : Nat} {P : Problem d n} {s s' : St d n}

namespace Spec
/-- The input of an assembly is valid: the ranges decompose the grids into nonempty parts, the search finds cells of
the grids, grouping the points of a range keeps their order. -/
structure Valid (P : Problem d n) : Prop where
  layouts : Ovk.Spec.Layouts P
  nonempty : ∀ k r i, ((P.grid k).loc r).b i < ((P.grid k).loc r).e i
  cells : Cells P
  group : ∀ r, (P.group r).flatten = r.points

/-- Grid `m` overlaps grid `k`. -/
def Overlaps (P : Problem d n) (flags : Fin n → Tup d → Flags) (m k : Fin n) : Prop :=
  ∃ p, Ovk.Spec.pts (P.grid k).cart.range p ∧ (initAssembly flags).flags k p .active = true ∧
    (P.found m k p).isSome = true
end Spec

/-- The property as stated: with enough iterations of the only unbounded loop, assembly is defined. -/
def C70_statement : Prop := ∀ (d n : Nat) (P : Problem d n) (flags : Fin n → Tup d → Flags), Spec.Valid P →
  ∃ N, ∀ fuel ≥ N, ∃ r, ({ P with fuel := fuel }).assemble flags = some r

section
variable {g : Grid d} (hl : Ovk.Spec.Layout g.cart g.loc g.ext)
include hl

theorem edge_some (bc : MaskBC) (inner : Bool) (m : Mask d) : ∃ e, g.edge bc inner m = some e := by
  have ha : ∀ r ∈ rangesOf g.loc g.ext, Around g.cart (edgeLocalRange g.cart false r.1) r.2 := by
    intro r hr
    obtain ⟨k, rfl⟩ := (mem_rangesOf r).1 hr
    exact around_local (hl.tiles.1 k) (hl.offers k)
  obtain ⟨e, h, -⟩ := detectEdge_spec hl.proper hl.unique bc inner false m _ ha
  exact ⟨e, h⟩

theorem edge_spec {bc : MaskBC} {inner : Bool} {m e : Mask d} (h : g.edge bc inner m = some e) (p : Tup d)
    (hp : Ovk.Spec.pts g.cart.range p) : e p = true ↔ Ovk.Spec.Reads g.cart bc m p inner ∧
      ∃ x, Ovk.Spec.Near 1 p x ∧ Ovk.Spec.Reads g.cart bc m x (!inner) := by
  have ha : ∀ r ∈ rangesOf g.loc g.ext, Around g.cart (edgeLocalRange g.cart false r.1) r.2 := by
    intro r hr
    obtain ⟨k, rfl⟩ := (mem_rangesOf r).1 hr
    exact around_local (hl.tiles.1 k) (hl.offers k)
  obtain ⟨e', h1, h2⟩ := detectEdge_spec hl.proper hl.unique bc inner false m _ ha
  obtain rfl : e = e' := Option.some.inj (h.symm.trans h1)
  obtain ⟨k, hk, -⟩ := hl.tiles.2 p hp
  exact h2 p ⟨_, (mem_rangesOf _).2 ⟨k, rfl⟩, hk⟩

theorem dilate_some (bc : MaskBC) (w : Nat) (m : Mask d) : ∃ o, dilateMask g.cart g.ranges m w bc = some o := by
  obtain ⟨o, h, -⟩ := C17_dilate hl bc w m
  exact ⟨o, h⟩

theorem erode_some (bc : MaskBC) (w : Nat) (m : Mask d) : ∃ o, erodeMask g.cart g.ranges m w bc = some o := by
  obtain ⟨o, h, -⟩ := C17_erode hl bc w m
  exact ⟨o, h⟩

/-- The loop of the boundary projection ends if there is a covered point: the covered region grows by one point in
all directions. -/
theorem coverLoop_some (q0 : Tup d) (hq0 : Ovk.Spec.pts g.cart.range q0) : ∀ (fuel j : Nat) (unc cov : Mask d) (k : Nat),
    (∀ q, Ovk.Spec.pts g.cart.range q → Ovk.Spec.Near j q0 q → cov q = true) →
    (∀ p, unc p = true → cov p = false) → (∀ i, g.cart.range.e i - g.cart.range.b i ≤ fuel + j) →
    ∃ r, Problem.coverLoop g fuel unc cov k = some r := by
  intro fuel
  induction fuel with
  | zero =>
    intro j unc cov k hball hunc hsize
    refine ⟨k, ?_⟩
    unfold Problem.coverLoop
    rw [if_pos]
    rw [List.any_eq_false]
    intro p hp
    rw [mem_gridPoints hl] at hp
    have := hball p hp fun i => by have := hp i; have := hq0 i; have := hsize i; omega
    intro hu
    rw [hunc p hu] at this; cases this
  | succ fuel ih =>
    intro j unc cov k hball hunc hsize
    unfold Problem.coverLoop
    split
    · exact ⟨_, rfl⟩
    · obtain ⟨cov', h1, h2⟩ := C17_dilate hl .false 1 cov
      have h1 : dilateMask g.cart g.ranges cov 1 .false = some cov' := h1
      simp only [h1, Option.bind_eq_bind, Option.bind_some]
      refine ih (j + 1) _ _ _ (fun q hq hn => ?_) (fun p hp => ?_) (fun i => ?_)
      · rw [h2 q hq]
        refine ⟨fun i => if q i < q0 i then q i + 1 else if q0 i < q i then q i - 1 else q i, fun i => ?_,
          .inl ⟨_, fun i => ?_, samePoint_refl _ _, hball _ (fun i => ?_) fun i => ?_⟩⟩
        · dsimp only; split_ifs <;> omega
        · have := hq i; have := hq0 i; split_ifs <;> omega
        · have := hq i; have := hq0 i; split_ifs <;> omega
        · have := hn i; push_cast at this; split_ifs <;> omega
      · simp only [Bool.and_eq_true, Bool.not_eq_true'] at hp; exact hp.2
      · have := hsize i; push_cast at this ⊢; omega

/-- A nonempty region that is not the whole of a grid without ends has an inner edge. -/
theorem edge_nonempty {m e : Mask d} (h : g.edge .false true m = some e) {q : Tup d}
    (hq : Ovk.Spec.pts g.cart.range q) (hm : m q = true)
    (hn : (∃ i, g.cart.periodic i = false) ∨ ∃ p, Ovk.Spec.pts g.cart.range p ∧ m p = false) :
    ∃ p, Ovk.Spec.pts g.cart.range p ∧ e p = true := by
  rcases hn with ⟨i, hi⟩ | ⟨p, hp, hmp⟩
  · -- a point of the region with the least coordinate
    have hex : ∃ t : Nat, ∃ q, Ovk.Spec.pts g.cart.range q ∧ m q = true ∧ q i = g.cart.range.b i + t :=
      ⟨(q i - g.cart.range.b i).toNat, q, hq, hm, by have := hq i; omega⟩
    classical
    obtain ⟨q, hq, hm, ht⟩ := Nat.find_spec hex
    have hmin := fun t => Nat.find_min hex (m := t)
    refine ⟨q, hq, (edge_spec hl h q hq).2 ⟨.inl ⟨q, hq, samePoint_refl _ q, hm⟩, fun j => if j = i then q i - 1 else q j,
      fun j => ?_, ?_⟩⟩
    · by_cases hj : j = i
      · subst hj; simp only [if_true]; omega
      · simp only [hj, if_false]; omega
    · by_cases hz : q i = g.cart.range.b i
      · refine .inr ⟨fun hex => ?_, rfl⟩
        have := (exists_iff hl.proper hl.unique _).1 hex i hi
        simp only [if_true] at this
        omega
      · have hx : Ovk.Spec.pts g.cart.range fun j => if j = i then q i - 1 else q j := by
          intro j
          by_cases hj : j = i
          · subst hj; simp only [if_true]; have := hq j; omega
          · simp only [hj, if_false]; exact hq j
        refine .inl ⟨_, hx, samePoint_refl _ _, ?_⟩
        by_contra hc
        have hc : m (fun j => if j = i then q i - 1 else q j) = true := by simpa using hc
        have hqi := hq i
        refine hmin ((q i - 1 - g.cart.range.b i).toNat) (by omega) ⟨_, hx, hc, ?_⟩
        simp only [if_true]; omega
  · -- a point of the region closest to the point outside
    have hex : ∃ t : Nat, ∃ q, Ovk.Spec.pts g.cart.range q ∧ m q = true ∧ Ovk.Spec.Near t p q := by
      refine ⟨(Finset.univ.sup fun i => (q i - p i).natAbs), q, hq, hm, fun i => ?_⟩
      have := Finset.le_sup (f := fun i => (q i - p i).natAbs) (Finset.mem_univ i)
      omega
    classical
    obtain ⟨q, hq, hm, ht⟩ := Nat.find_spec hex
    have hmin := fun t => Nat.find_min hex (m := t)
    generalize Nat.find hex = T at ht hmin
    have hT : T ≠ 0 := by
      rintro rfl
      have : q = p := by funext i; have := ht i; omega
      rw [this, hmp] at hm; cases hm
    let x : Tup d := fun i => if q i < p i then q i + 1 else if p i < q i then q i - 1 else q i
    have hx : Ovk.Spec.pts g.cart.range x := by
      intro i; have := hq i; have := hp i; simp only [x]; split_ifs <;> omega
    refine ⟨q, hq, (edge_spec hl h q hq).2 ⟨.inl ⟨q, hq, samePoint_refl _ q, hm⟩, x, fun i => ?_,
      .inl ⟨x, hx, samePoint_refl _ x, ?_⟩⟩⟩
    · simp only [x]; split_ifs <;> omega
    · by_contra hc
      have hc : m x = true := by simpa using hc
      refine hmin (T - 1) (by omega) ⟨x, hx, hc, fun i => ?_⟩
      have := ht i
      simp only [x]; split_ifs <;> omega
end

/-- The lower vertex of a cell is covered. -/
theorem cover_nonempty (hV : Spec.Valid P) {a b : Fin n} {mask : Mask d} {q cell : Tup d}
    (hq : Ovk.Spec.pts (P.grid b).cart.range q) (hf : P.found a b q = some cell) (hov : s.ov a b q = some cell)
    (hm : mask q = true) :
    ∃ v, Ovk.Spec.pts (P.grid a).cart.range v ∧ P.cover s a b mask v = true := by
  have hl := hV.layouts a
  have hcell := hV.cells a b q cell hq hf
  have hcor : (P.grid a).cart.periodicAdjust cell ∈ (P.grid a).verts cell := by
    unfold Grid.verts
    exact List.mem_map_of_mem ((Rng.mem_points _ _).2 fun i => by constructor <;> simp)
  obtain ⟨hv, -⟩ := (verts_corner hl hcell).1 hcor
  refine ⟨_, hv, ?_⟩
  unfold Problem.cover Grid.cellsAround Problem.cellCover
  rw [List.any_eq_true]
  refine ⟨(P.grid a).cart.periodicAdjust cell, List.mem_map.2 ⟨(P.grid a).cart.periodicAdjust cell,
    List.mem_filter.2 ⟨(Rng.mem_points _ _).2 fun i => ?_, decide_eq_true fun i hi => ?_⟩,
    canonical_in_range hl.proper hl.unique hv (samePoint_refl _ _)⟩, ?_⟩
  · constructor <;> simp
  · rw [Cart.periodicAdjust_nonperiodic _ _ _ hi]
    have := hcell i hi
    simp only [cartPointToCell]
    simp only [hi]
    simp
    omega
  · rw [List.any_eq_true]
    refine ⟨q, (mem_gridPoints (hV.layouts b) q).2 hq, ?_⟩
    rw [hov, hm]
    simp


theorem infer_some (hV : Spec.Valid P) (s : St d n) :
    ∃ s', P.inferBoundaries_ s = some s' ∧ s'.ov = s.ov ∧ s'.overlap = s.overlap := by
  obtain ⟨e, he⟩ := forAll_defined fun g => edge_some (hV.layouts g) .false true (s.active g)
  unfold Problem.inferBoundaries_
  rw [he]
  exact ⟨_, rfl, rfl, rfl⟩

theorem projected_some (hV : Spec.Valid P) {m k : Fin n} {q cell : Tup d}
    (hsize : ∀ i, (P.grid k).cart.range.e i - (P.grid k).cart.range.b i ≤ P.fuel)
    (hov : ∀ q cell, s.ov k m q = some cell → P.found k m q = some cell)
    (hsub : ∀ q, s.overlap k m q = true ↔ (s.ov k m q).isSome = true)
    (hq : Ovk.Spec.pts (P.grid m).cart.range q) (hc : s.ov k m q = some cell)
    (hn : (∃ i, (P.grid m).cart.periodic i = false) ∨
      ∃ p, Ovk.Spec.pts (P.grid m).cart.range p ∧ s.ov k m p = none) :
    ∃ o, P.projected s m k = some o := by
  obtain ⟨oe, hoe⟩ := edge_some (hV.layouts m) .false true (s.overlap k m)
  obtain ⟨p, hp, hep⟩ := edge_nonempty (hV.layouts m) hoe hq ((hsub q).2 (by rw [hc]; rfl)) (by
    rcases hn with h | ⟨p, hp, h⟩
    · exact .inl h
    · refine .inr ⟨p, hp, ?_⟩
      rw [← Bool.not_eq_true, hsub, h]; simp)
  have hmp := (hsub p).1 (edge_inner (hV.layouts m) hoe hp hep)
  obtain ⟨cl, hcl⟩ := Option.isSome_iff_exists.1 hmp
  obtain ⟨v, hv, hcov⟩ := cover_nonempty (mask := oe) hV hp (hov p cl hcl) hcl hep
  obtain ⟨ue, hue⟩ := edge_some (hV.layouts k) .mirror false (s.overlap m k)
  obtain ⟨k', hk'⟩ := coverLoop_some (hV.layouts k) v hv P.fuel 0 (fun p => ue p && !P.cover s k m oe p)
    (P.cover s k m oe) 0 (fun q hq hn => by
      have : q = v := by funext i; have := hn i; omega
      rw [this]; exact hcov) (fun p hp => by simp only [Bool.and_eq_true, Bool.not_eq_true'] at hp; exact hp.2)
    (fun i => by have := hsize i; omega)
  obtain ⟨dm, hdm⟩ := dilate_some (hV.layouts k) .false k' (P.cover s k m (s.domBdry m))
  obtain ⟨ed, hed⟩ := edge_some (hV.layouts k) .false false fun p => dm p && !s.overlap m k p
  unfold Problem.projected
  simp only [hoe, hue, hk', hdm, hed, Option.bind_eq_bind, Option.bind_some]
  exact ⟨_, rfl⟩

theorem holes_some (hV : Spec.Valid P) (s : St d n) (proj : Fin n → Fin n → Mask d) (k : Fin n) :
    ∃ o, P.holes s proj k = some o := by
  have hl := hV.layouts k
  obtain ⟨pe, hpe⟩ := forAll_defined (f := fun m => if P.cut s m k then (P.grid k).edge .false false (proj m k)
    else some fun _ => false) fun m => by
      split
      · exact edge_some hl _ _ _
      · exact ⟨_, rfl⟩
  unfold Problem.holes
  simp only [hpe, Option.bind_eq_bind, Option.bind_some]
  split
  · obtain ⟨fl, hfl, -⟩ := C16_flood (loc := (P.grid k).loc) (ext := (P.grid k).ext) hV.group hl.proper hl.unique
      hl.tiles hl.offers
      (fun p => decide (∃ m, P.cut s m k = true ∧ (pe m p && s.overlap m k p) = true))
      (fun p => s.domBdry k p || decide (∃ m, P.cut s m k = true ∧ proj m k p = true))
    obtain ⟨ae, hae⟩ := edge_some hl .false true (s.active k)
    obtain ⟨ie, hie⟩ := edge_some hl .false false fl
    have hfl : CC.floodMask _ _ ((List.finRange (P.grid k).np).map fun r =>
      CC.gridProc P.group (P.grid k).cart ((P.grid k).loc r) ((P.grid k).ext r)) = some fl := hfl
    simp only [hfl, hae, hie, Option.bind_some]
    exact ⟨_, rfl⟩
  · exact ⟨_, rfl⟩

theorem outer_some (hV : Spec.Valid P) (s : St d n) :
    ∃ s', P.locateOuterFringe_ s = some s' ∧ s'.ov = s.ov := by
  obtain ⟨o, ho⟩ := forAll_defined (f := fun k => if P.fringeSize k = 0 then some fun _ => false
    else P.outerMask s k) fun k => by
      split
      · exact ⟨_, rfl⟩
      · have hl := hV.layouts k
        have hne := hV.nonempty k
        have he : ∀ mask, ∃ e, detectEdge (P.grid k).cart .false false true mask (P.grid k).ranges = some e := by
          intro mask
          obtain ⟨e, he, -⟩ := C17_edge hl hne .false false true mask
          exact ⟨e, he⟩
        obtain ⟨e1, h1⟩ := he fun p => s.domBdry k p || s.intBdry k p
        obtain ⟨e2, h2⟩ := he fun p => s.active k p && !(s.domBdry k p || s.intBdry k p)
        obtain ⟨e3, h3⟩ := he (s.active k)
        obtain ⟨e4, h4, -⟩ := C17_dilate (layout_exterior hl hne) .false (P.fringeSize k)
          (fun p => e3 p && (e2 p || !e1 p))
        have h4 : dilateMask (cartIncludeExterior (P.grid k).cart) (P.grid k).edgeRanges
          (fun p => e3 p && (e2 p || !e1 p)) (P.fringeSize k) .false = some e4 := h4
        unfold Problem.outerMask
        simp only [h1, h2, h3, h4, Option.bind_eq_bind, Option.bind_some]
        exact ⟨_, rfl⟩
  unfold Problem.locateOuterFringe_
  rw [ho]
  exact ⟨_, rfl, rfl⟩

theorem occluded_some (hV : Spec.Valid P) (s : St d n)
    (hrev : ∀ m k, P.occludes m k ≠ .none → P.occludes k m ≠ .none → P.ovExists s m k = true →
      P.ovExists s k m = true) : ∃ s', P.detectOccluded_ s = some s' := by
  have hmut : ∀ sel po, ∃ po', P.mutualPass s sel po = some po' := by
    intro sel po
    unfold Problem.mutualPass
    rw [if_neg]
    · exact ⟨_, rfl⟩
    · rintro ⟨m, k, h1, h2, -, h3⟩
      unfold Problem.mutually at h2
      simp only [Bool.and_eq_true, decide_eq_true_eq] at h2
      rw [hrev m k (by rw [h2.1]; simp) (by rw [h2.2]; simp) h1] at h3
      cases h3
  obtain ⟨po1, h1⟩ := hmut (fun m k => decide (m ≤ k)) (P.pairwise s)
  obtain ⟨po2, h2⟩ := hmut (fun m k => decide (k ≤ m)) po1
  obtain ⟨dis, h3⟩ := forAll_defined (f := fun m => forAll fun k => if P.occPair s m k then P.disallow s po2 m k
    else some fun _ => false) fun m => forAll_defined fun k => by
      split
      · rename_i ho
        unfold Problem.occPair at ho
        simp only [Bool.and_eq_true, decide_eq_true_eq] at ho
        unfold Problem.disallow
        rw [if_neg]
        · exact dilate_some (hV.layouts m) _ _ _
        · rintro ⟨ha, hb⟩
          rw [hrev m k ho.2 ha ho.1] at hb; cases hb
      · exact ⟨_, rfl⟩
  have hs : ∀ base occ : Fin n → Mask d, ∃ o, (forAll fun k => P.smooth k (base k) (occ k)) = some o := by
    intro base occ
    refine forAll_defined fun k => ?_
    unfold Problem.smooth
    split
    · exact ⟨_, rfl⟩
    · obtain ⟨a, ha⟩ := dilate_some (hV.layouts k) .mirror (P.edgeSmoothing k) (occ k)
      obtain ⟨b, hb⟩ := erode_some (hV.layouts k) .mirror (P.edgeSmoothing k) a
      simp only [ha, hb, Option.bind_eq_bind, Option.bind_some]
      exact ⟨_, rfl⟩
  unfold Problem.detectOccluded_
  simp only [h1, h2, h3, Option.bind_eq_bind, Option.bind_some]
  obtain ⟨o, ho⟩ := hs (fun k p => decide (∃ m, P.occPair s m k = true ∧ po2 m k p = true))
    (fun k p => decide (∃ m, P.occPair s m k = true ∧ (po2 m k p && !(po2 m k p && !(match s.ov m k p with
      | some cell => ((P.grid m).verts cell).all fun q => !dis m k q
      | none => false))) = true))
  exact ⟨_, by erw [ho]; rfl⟩

theorem minimize_some (hV : Spec.Valid P) (s : St d n) : ∃ s', P.minimizeOverlap_ s = some s' := by
  obtain ⟨mk, hmk⟩ := forAll_defined (f := fun k => P.minimizeMasks s k) fun k => by
    unfold Problem.minimizeMasks
    dsimp only
    split
    · obtain ⟨a, ha⟩ := erode_some (hV.layouts k) .true (P.fringeSize k) (fun p => s.occl k p || !s.active k p)
      simp only [ha, Option.bind_eq_bind, Option.bind_some]
      obtain ⟨b, hb⟩ := dilate_some (hV.layouts k) .false (P.fringeSize k) (fun p =>
        decide (∃ m, P.occPair s m k = true ∧ P.minimizeOverlap m k = true ∧ s.pairOccl m k p = true) &&
          (a p && s.active k p))
      simp only [hb, Option.bind_some]
      exact ⟨_, rfl⟩
    · exact ⟨_, rfl⟩
  unfold Problem.minimizeOverlap_
  rw [hmk]
  exact ⟨_, rfl⟩

theorem maxDistance_pos (s : St d n) (m : Fin n) : 1 ≤ P.maxDistance s m := by
  unfold Problem.maxDistance
  have : ∀ (l : List (Fin n)) (a : Nat), 1 ≤ a → 1 ≤ l.foldl (fun a k =>
      if P.ovExists s m k then max a (1 + P.edgePadding m k) else a) a := by
    intro l
    induction l with
    | nil => exact fun a h => h
    | cons x l ih => intro a h; refine ih _ ?_; dsimp only; split <;> omega
  exact this _ 1 (by omega)

theorem generate_some (hV : Spec.Valid P) (s : St d n) : ∃ r, P.generate_ s = some r := by
  obtain ⟨dist, hd⟩ := forAll_defined (f := fun k =>
    Problem.receiverDistances (P.grid k) (receivers s k) (P.maxDistance s k)) fun k => by
      obtain ⟨o, ho, -⟩ := distances_spec (hV.layouts k) (receivers s k) (maxDistance_pos (P := P) s k)
      exact ⟨o, ho⟩
  unfold Problem.generate_
  simp only [hd, Option.bind_eq_bind, Option.bind_some]
  exact ⟨_, rfl⟩

theorem ovExists_iff (hL : Ovk.Spec.Layouts P) {flags : Fin n → Tup d → Flags}
    (hov : s.ov = fun m k p => if resetFlags (flags k p) .active then P.found m k p else none) (m k : Fin n) :
    P.ovExists s m k = true ↔ Spec.Overlaps P flags m k := by
  unfold Problem.ovExists Spec.Overlaps
  rw [List.any_eq_true, hov]
  refine exists_congr fun p => ?_
  rw [mem_gridPoints (hL k), init_flags]
  dsimp only
  split <;> simp [*]

/-- C70 (the part that holds): assembly is defined if grids that occlude each other overlap in both directions or
not at all, and if no grid without ends that cuts holes is overlapped by the other at all of its points. -/
theorem C70_partial (hV : Spec.Valid P) (flags : Fin n → Tup d → Flags)
    (hfuel : ∀ k i, (P.grid k).cart.range.e i - (P.grid k).cart.range.b i ≤ P.fuel)
    (hrev : ∀ m k, P.occludes m k ≠ .none → P.occludes k m ≠ .none → Spec.Overlaps P flags m k →
      Spec.Overlaps P flags k m)
    (hcut : ∀ m k, P.cutBoundaryHoles m k = true → (∃ i, (P.grid m).cart.periodic i = false) ∨
      ∃ p, Ovk.Spec.pts (P.grid m).cart.range p ∧
        ((initAssembly flags).flags m p .active = false ∨ P.found k m p = none)) :
    ∃ r, P.assemble flags = some r := by
  obtain ⟨s1, h1, ho1, hl1⟩ := infer_some hV (P.detectOverlap (initAssembly flags))
  replace ho1 : s1.ov = fun m k p => if resetFlags (flags k p) .active then P.found m k p else none := ho1
  replace hl1 : s1.overlap = fun m k p =>
    (if resetFlags (flags k p) .active then P.found m k p else none).isSome := hl1
  have h2 : ∃ s2, P.cutBoundaryHoles_ s1 = some s2 ∧ s2.ov = s1.ov := by
    obtain ⟨proj, hproj⟩ := forAll_defined (f := fun m => forAll fun k => if P.cut s1 m k then P.projected s1 m k
        else some fun _ => false) fun m => forAll_defined fun k => by
      split
      · rename_i hc
        unfold Problem.cut at hc
        simp only [Bool.and_eq_true] at hc
        obtain ⟨q, hq, hqo⟩ := List.any_eq_true.1 hc.2
        obtain ⟨cell, hcell⟩ := Option.isSome_iff_exists.1 hqo
        refine projected_some hV (hfuel k) (fun q cell h => ?_) (fun q => by rw [hl1, ho1])
          ((mem_gridPoints (hV.layouts m) q).1 hq) hcell ?_
        · rw [ho1] at h
          dsimp only at h
          split at h
          · exact h
          · cases h
        · rcases hcut m k hc.1.1 with h | ⟨p, hp, h⟩
          · exact .inl h
          · refine .inr ⟨p, hp, ?_⟩
            rw [ho1]
            rw [init_flags] at h
            dsimp only
            rcases h with h | h
            · rw [h]; rfl
            · rw [h]; simp
      · exact ⟨_, rfl⟩
    obtain ⟨hole, hhole⟩ := forAll_defined (f := fun k => if P.cutN s1 k then P.holes s1 proj k
        else some fun _ => false) fun k => by
      split
      · exact holes_some hV _ _ _
      · exact ⟨_, rfl⟩
    unfold Problem.cutBoundaryHoles_
    rw [hproj]
    simp only [Option.bind_eq_bind, Option.bind_some, hhole]
    exact ⟨_, rfl, rfl⟩
  obtain ⟨s2, h2, ho2⟩ := h2
  obtain ⟨s3, h3, ho3⟩ := outer_some hV s2
  have hov := ho3.trans (ho2.trans ho1)
  obtain ⟨s4, h4⟩ := occluded_some hV s3 fun m k ha hb => by
    rw [ovExists_iff hV.layouts hov, ovExists_iff hV.layouts hov]; exact hrev m k ha hb
  obtain ⟨s5, h5⟩ := minimize_some hV s4
  obtain ⟨r, h6⟩ := generate_some hV s5
  refine ⟨r, ?_⟩
  unfold Problem.assemble
  simp only [h1, h2, h3, h4, h5, h6, Option.bind_eq_bind, Option.bind_some]


/-- C70 with the bound on the iterations of the loop left open. -/
theorem C70_terminates_partial (hV : Spec.Valid P) (flags : Fin n → Tup d → Flags)
    (hrev : ∀ m k, P.occludes m k ≠ .none → P.occludes k m ≠ .none → Spec.Overlaps P flags m k →
      Spec.Overlaps P flags k m)
    (hcut : ∀ m k, P.cutBoundaryHoles m k = true → (∃ i, (P.grid m).cart.periodic i = false) ∨
      ∃ p, Ovk.Spec.pts (P.grid m).cart.range p ∧
        ((initAssembly flags).flags m p .active = false ∨ P.found k m p = none)) :
    ∃ N, ∀ fuel ≥ N, ∃ r, ({ P with fuel := fuel }).assemble flags = some r := by
  refine ⟨Finset.univ.sup fun k => Finset.univ.sup fun i =>
    ((P.grid k).cart.range.e i - (P.grid k).cart.range.b i).toNat, fun fuel hf => ?_⟩
  refine C70_partial (P := { P with fuel := fuel }) ⟨hV.layouts, hV.nonempty, hV.cells, hV.group⟩ flags
    (fun k i => ?_) hrev hcut
  have h1 := Finset.le_sup (f := fun k => Finset.univ.sup fun i =>
    ((P.grid k).cart.range.e i - (P.grid k).cart.range.b i).toNat) (Finset.mem_univ k)
  have h2 := Finset.le_sup (f := fun i =>
    ((P.grid k).cart.range.e i - (P.grid k).cart.range.b i).toNat) (Finset.mem_univ i)
  have h3 := (h2.trans h1).trans hf
  show (P.grid k).cart.range.e i - (P.grid k).cart.range.b i ≤ (fuel : Int)
  omega

/-- A fine line inside one cell of a coarse line, both occluding coarser points. -/
def exInside : Problem 1 2 :=
  { exCoarse with found := fun m k p => if m = 0 ∧ k = 1 ∧ 0 ≤ p 0 ∧ p 0 < 4 then some fun _ => 1 else none }

theorem exInside_valid : Spec.Valid exInside := by
  refine ⟨fun _ => line_layout (by omega) false, fun k r i => by show (0 : Int) < 4; omega, ?_,
    fun r => by simp [exInside, exCoarse, CC.groupOne]⟩
  intro m k p cell hp h i _
  have h : (if m = 0 ∧ k = 1 ∧ 0 ≤ p 0 ∧ p 0 < 4 then some fun _ => 1 else none) = some cell := h
  split at h
  · cases h; show (0 : Int) ≤ 1 ∧ (1 : Int) + 1 < 4; omega
  · cases h

/-- Grids that occlude each other and overlap in one direction only make assembly undefined: it reads the occlusion
mask of the pair that does not exist. -/
theorem C70_undefined (hL : Ovk.Spec.Layouts P) (flags : Fin n → Tup d → Flags) (m k : Fin n)
    (h1 : P.occludes m k ≠ .none) (h2 : P.occludes k m ≠ .none) (h3 : Spec.Overlaps P flags m k)
    (h4 : ¬ Spec.Overlaps P flags k m) : P.assemble flags = none := by
  by_contra hne
  obtain ⟨r, hr⟩ := Option.ne_none_iff_exists'.1 hne
  obtain ⟨s3, s4, S⟩ := stages hL hr
  have hov : s3.ov = fun m k p => if resetFlags (flags k p) .active then P.found m k p else none := by
    funext m k p; exact S.ov m k p
  rw [← ovExists_iff hL hov] at h3 h4
  obtain ⟨po1, po2, dis, -, -, hdis, -⟩ := occluded_raw S.run
  have := hdis m k (by unfold Problem.occPair; rw [h3]; simp [h1])
  unfold Problem.disallow at this
  rw [if_pos ⟨h2, by simpa using h4⟩] at this
  cases this

/-- C70 is false as stated: a fine grid that lies inside one cell of a coarse one. -/
theorem C70_false : ¬ C70_statement := by
  intro h
  obtain ⟨N, hN⟩ := h 1 2 exInside exFlags exInside_valid
  obtain ⟨r, hr⟩ := hN N (le_refl N)
  have := C70_undefined (P := { exInside with fuel := N }) exInside_valid.layouts exFlags 0 1
    (by simp [exInside, exCoarse]) (by simp [exInside, exCoarse])
    ⟨fun _ => 0, fun i => by show (0 : Int) ≤ 0 ∧ (0 : Int) < 4; omega, rfl, rfl⟩ (by
      rintro ⟨p, -, -, hp⟩
      have hp : (if (1 : Fin 2) = 0 ∧ (0 : Fin 2) = 1 ∧ 0 ≤ p 0 ∧ p 0 < 4 then some fun _ => 1
        else none : Option (Tup 1)).isSome = true := hp
      simp at hp)
  rw [this] at hr
  cases hr

section
variable {g : Grid d} (hl : Ovk.Spec.Layout g.cart g.loc g.ext)
include hl

/-- With nothing covered, the loop of the boundary projection does not end. -/
theorem coverLoop_none {p0 : Tup d} (hp0 : Ovk.Spec.pts g.cart.range p0) : ∀ (fuel : Nat) (unc cov : Mask d) (k : Nat),
    (∀ q, Ovk.Spec.pts g.cart.range q → cov q = false) → unc p0 = true →
    Problem.coverLoop g fuel unc cov k = none := by
  intro fuel
  induction fuel with
  | zero =>
    intro unc cov k hcov hunc
    unfold Problem.coverLoop
    rw [if_neg]
    rw [Bool.not_eq_false, List.any_eq_true]
    exact ⟨p0, (mem_gridPoints hl p0).2 hp0, hunc⟩
  | succ fuel ih =>
    intro unc cov k hcov hunc
    unfold Problem.coverLoop
    rw [if_neg]
    · obtain ⟨cov', h1, h2⟩ := C17_dilate hl .false 1 cov
      have h1 : dilateMask g.cart g.ranges cov 1 .false = some cov' := h1
      simp only [h1, Option.bind_eq_bind, Option.bind_some]
      have hcov' : ∀ q, Ovk.Spec.pts g.cart.range q → cov' q = false := by
        intro q hq
        rw [← Bool.not_eq_true, h2 q hq]
        rintro ⟨x, -, ⟨q', hq', -, hm⟩ | ⟨hb, -⟩⟩
        · rw [hcov q' hq'] at hm; cases hm
        · cases hb
      refine ih _ _ _ hcov' ?_
      rw [hunc, hcov' p0 hp0]; rfl
    · rw [Bool.not_eq_false, List.any_eq_true]
      exact ⟨p0, (mem_gridPoints hl p0).2 hp0, hunc⟩

/-- A region that is neither empty nor everything has an outer edge. -/
theorem outer_nonempty {m e : Mask d} (h : g.edge .mirror false m = some e) {p q : Tup d}
    (hq : Ovk.Spec.pts g.cart.range q) (hmq : m q = true) (hp : Ovk.Spec.pts g.cart.range p) (hmp : m p = false) :
    ∃ p, Ovk.Spec.pts g.cart.range p ∧ e p = true := by
  have hex : ∃ t : Nat, ∃ p, Ovk.Spec.pts g.cart.range p ∧ m p = false ∧ Ovk.Spec.Near t q p := by
    refine ⟨(Finset.univ.sup fun i => (q i - p i).natAbs), p, hp, hmp, fun i => ?_⟩
    have := Finset.le_sup (f := fun i => (q i - p i).natAbs) (Finset.mem_univ i)
    omega
  classical
  obtain ⟨p, hp, hmp, ht⟩ := Nat.find_spec hex
  have hmin := fun t => Nat.find_min hex (m := t)
  generalize Nat.find hex = T at ht hmin
  have hT : T ≠ 0 := by
    rintro rfl
    have : p = q := by funext i; have := ht i; omega
    rw [this, hmq] at hmp; cases hmp
  let x : Tup d := fun i => if p i < q i then p i + 1 else if q i < p i then p i - 1 else p i
  have hx : Ovk.Spec.pts g.cart.range x := by
    intro i; have := hq i; have := hp i; simp only [x]; split_ifs <;> omega
  refine ⟨p, hp, (edge_spec hl h p hp).2 ⟨.inl ⟨p, hp, samePoint_refl _ p, hmp⟩, x, fun i => ?_,
    .inl ⟨x, hx, samePoint_refl _ x, ?_⟩⟩⟩
  · simp only [x]; split_ifs <;> omega
  · by_contra hc
    have hc : m x = false := by simpa using hc
    refine hmin (T - 1) (by omega) ⟨x, hx, hc, fun i => ?_⟩
    have := ht i
    simp only [x]; split_ifs <;> omega
end

/-- A grid without ends that cuts holes, is overlapped by the other grid at all of its points and overlaps some but
not all points of the other makes assembly run forever. -/
theorem C70_loops (hV : Spec.Valid P) (flags : Fin n → Tup d → Flags) (m k : Fin n)
    (hcut : P.cutBoundaryHoles m k = true) (hper : ∀ i, (P.grid m).cart.periodic i = true)
    (hall : ∀ q, Ovk.Spec.pts (P.grid m).cart.range q → (initAssembly flags).flags m q .active = true ∧
      (P.found k m q).isSome = true) (hsome : Spec.Overlaps P flags m k)
    (hnot : ∃ p, Ovk.Spec.pts (P.grid k).cart.range p ∧
      ((initAssembly flags).flags k p .active = false ∨ P.found m k p = none)) (fuel : Nat) :
    ({ P with fuel := fuel }).assemble flags = none := by
  obtain ⟨s1, h1, ho1, hl1⟩ := infer_some (P := { P with fuel := fuel }) ⟨hV.layouts, hV.nonempty, hV.cells, hV.group⟩
    (({ P with fuel := fuel } : Problem d n).detectOverlap (initAssembly flags))
  replace ho1 : s1.ov = fun m k p => if resetFlags (flags k p) .active then P.found m k p else none := ho1
  replace hl1 : s1.overlap = fun m k p =>
    (if resetFlags (flags k p) .active then P.found m k p else none).isSome := hl1
  have hproj : ({ P with fuel := fuel } : Problem d n).projected s1 m k = none := by
    obtain ⟨oe, hoe⟩ := edge_some (hV.layouts m) .false true (s1.overlap k m)
    obtain ⟨ue, hue⟩ := edge_some (hV.layouts k) .mirror false (s1.overlap m k)
    have hoef : ∀ q, Ovk.Spec.pts (P.grid m).cart.range q → oe q = false := by
      intro q hq
      rw [← Bool.not_eq_true, edge_spec (hV.layouts m) hoe q hq]
      rintro ⟨-, x, -, ⟨y, hy, -, hv⟩ | ⟨hno, -⟩⟩
      · rw [hl1] at hv
        obtain ⟨ha, hb⟩ := hall y hy
        rw [init_flags] at ha
        dsimp only at hv
        rw [if_pos ha, hb] at hv
        cases hv
      · exact hno ((exists_iff (hV.layouts m).proper (hV.layouts m).unique x).2 fun i hi => by
          rw [hper i] at hi; cases hi)
    have hcov : ∀ v, P.cover s1 k m oe v = false := by
      intro v
      unfold Problem.cover Problem.cellCover
      rw [List.any_eq_false]
      intro x _
      rw [Bool.not_eq_true, List.any_eq_false]
      intro q hq
      rw [hoef q ((mem_gridPoints (hV.layouts m) q).1 hq)]
      simp
    obtain ⟨q, hq, hqa, hqf⟩ := hsome
    obtain ⟨p, hp, hpn⟩ := hnot
    rw [init_flags] at hqa hpn
    obtain ⟨p0, hp0, hue0⟩ := outer_nonempty (hV.layouts k) hue hq (by rw [hl1]; simp [hqa, hqf]) hp (by
      rw [hl1]
      rcases hpn with h | h
      · simp [h]
      · simp [h])
    have hloop := coverLoop_none (hV.layouts k) hp0 fuel (fun p => ue p && !P.cover s1 k m oe p) (P.cover s1 k m oe) 0
      (fun q _ => hcov q) (by rw [hue0, hcov]; rfl)
    unfold Problem.projected
    show (Option.bind ((P.grid m).edge .false true (s1.overlap k m)) fun oe =>
      Option.bind ((P.grid k).edge .mirror false (s1.overlap m k)) fun ue =>
      Option.bind (Problem.coverLoop (P.grid k) fuel (fun p => ue p && !P.cover s1 k m oe p) (P.cover s1 k m oe) 0) _) = none
    rw [hoe, Option.bind_some, hue, Option.bind_some, hloop, Option.bind_none]
  have hc : ({ P with fuel := fuel } : Problem d n).cut s1 m k = true := by
    show (P.cutBoundaryHoles m k && P.ovExists s1 m k && P.ovExists s1 k m) = true
    obtain ⟨q, hq, hqa, hqf⟩ := hsome
    have hlt : ∀ i, (P.grid m).cart.range.b i < (P.grid m).cart.range.e i := by
      intro i; have := (hV.layouts m).proper i; rw [periodLen_unique (hV.layouts m).unique] at this; omega
    have hb : Ovk.Spec.pts (P.grid m).cart.range (P.grid m).cart.range.b := fun i => ⟨le_refl _, hlt i⟩
    rw [hcut, (ovExists_iff hV.layouts ho1 m k).2 ⟨q, hq, hqa, hqf⟩,
      (ovExists_iff hV.layouts ho1 k m).2 ⟨_, hb, hall _ hb⟩]
    rfl
  by_contra hne
  obtain ⟨r, hr⟩ := Option.ne_none_iff_exists'.1 hne
  unfold Problem.assemble at hr
  simp only [Option.bind_eq_bind, Option.bind_eq_some_iff] at hr
  obtain ⟨s1', h1', s2, h2, -⟩ := hr
  obtain rfl : s1 = s1' := Option.some.inj (h1.symm.trans h1')
  unfold Problem.cutBoundaryHoles_ at h2
  simp only [Option.bind_eq_bind, Option.bind_eq_some_iff] at h2
  obtain ⟨proj, hpj, -⟩ := h2
  have := forAll_some (forAll_some hpj m) k
  rw [if_pos hc, hproj] at this
  cases this

/- `exCoarse` meets the hypotheses of `C70_partial` if the search finds cells of the grid. -/
def exBoth : Problem 1 2 :=
  { exCoarse with
    found := fun m k p => if m ≠ k ∧ 0 ≤ p 0 ∧ p 0 < 3 then some p else none
    cutBoundaryHoles := fun _ _ => true }

example : Spec.Valid exBoth ∧ (∀ m k, exBoth.cutBoundaryHoles m k = true → ∃ i, (exBoth.grid m).cart.periodic i = false) ∧
    Spec.Overlaps exBoth exFlags 0 1 ∧ Spec.Overlaps exBoth exFlags 1 0 := by
  refine ⟨⟨fun _ => line_layout (by omega) false, fun k r i => by show (0 : Int) < 4; omega, ?_,
    fun r => by simp [exBoth, exCoarse, CC.groupOne]⟩, fun _ _ _ => ⟨0, rfl⟩,
    ⟨fun _ => 0, fun i => by show (0 : Int) ≤ 0 ∧ (0 : Int) < 4; omega, rfl, rfl⟩,
    ⟨fun _ => 0, fun i => by show (0 : Int) ≤ 0 ∧ (0 : Int) < 4; omega, rfl, rfl⟩⟩
  intro m k p cell hp h i _
  have h : (if m ≠ k ∧ 0 ≤ p 0 ∧ p 0 < 3 then some p else none) = some cell := h
  split at h
  · rename_i hc
    cases h
    obtain rfl : i = 0 := Subsingleton.elim _ _
    show (0 : Int) ≤ p 0 ∧ p 0 + 1 < 4
    omega
  · cases h

/- Hypotheses of `C70_loops`: a ring all points of which are found in a line, two points of which are found in the
ring. -/
def exRing : Problem 1 2 :=
  { exBoth with
    grid := fun g => if g = 0 then line 3 true else line 4 false
    found := fun m k p => if m = 0 ∧ k = 1 then (if 0 ≤ p 0 ∧ p 0 < 2 then some p else none)
      else if m = 1 ∧ k = 0 then some fun _ => 1 else none }

example : exRing.cutBoundaryHoles 0 1 = true ∧ (∀ i, (exRing.grid 0).cart.periodic i = true) ∧
    (∀ q, Ovk.Spec.pts (exRing.grid 0).cart.range q → (initAssembly exFlags).flags 0 q .active = true ∧
      (exRing.found 1 0 q).isSome = true) ∧ Spec.Overlaps exRing exFlags 0 1 ∧
    exRing.found 0 1 (fun _ => 3) = none :=
  ⟨rfl, fun _ => rfl, fun _ _ => ⟨rfl, rfl⟩,
    ⟨fun _ => 0, fun i => by show (0 : Int) ≤ 0 ∧ (0 : Int) < 4; omega, rfl, rfl⟩, rfl⟩

end Ovk.Asm
