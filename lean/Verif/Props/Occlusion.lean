/-
Properties C68 and C69: which points are flagged as occluded.
-/
import Verif.Props.Receivers

namespace Ovk.Asm
variable {d n : Nat} {P : Problem d n} {s s' : St d n}

namespace Spec
/-- Point that is active when occlusion is determined. -/
def live (start final : Flags) : Prop := start .active = true ∧ final .boundaryHole = false

/-- Point that is in the outer fringe when occlusion is determined. -/
def outer (final : Flags) : Prop :=
  final .outerFringe = true ∨ final .overlapMinimized = true ∧ final .fringe = true

/-- Occlusion of a point `p` of grid `k` by the cell `cell` of grid `m`. -/
structure Occludes (P : Problem d n) (start final : Fin n → Tup d → Flags) (m k : Fin n) (cell p : Tup d) :
    Prop where
  live : ∀ v, Corner (P.grid m).cart cell v → Spec.live (start m v) (final m v)
  volume : P.occludes m k = .all ∨
    P.occludes m k = .coarse ∧ P.vol k p > (1 + 1 / 10000000000) * P.ovVol m k p
  padding : ∀ v, Corner (P.grid m).cart cell v → ∀ q, Ovk.Spec.pts (P.grid m).cart.range q →
    Within (P.grid m).cart (P.edgePadding m k) v q → ¬ outer (final m q)

/-- The same without padding. -/
structure Candidate (P : Problem d n) (start final : Fin n → Tup d → Flags) (m k : Fin n) (cell p : Tup d) :
    Prop where
  live : ∀ v, Corner (P.grid m).cart cell v → Spec.live (start m v) (final m v)
  volume : P.occludes m k = .all ∨
    P.occludes m k = .coarse ∧ P.vol k p > (1 + 1 / 10000000000) * P.ovVol m k p

/-- Occlusion of a point before smoothing. -/
def Full (P : Problem d n) (start final : Fin n → Tup d → Flags) (k : Fin n) (p : Tup d) : Prop :=
  start k p .active = true ∧ ∃ m cell, P.found m k p = some cell ∧ Occludes P start final m k cell p

/-- The cells the search finds are cells of the grid. -/
def Cells (P : Problem d n) : Prop := ∀ m k p cell, Ovk.Spec.pts (P.grid k).cart.range p →
  P.found m k p = some cell → ∀ i,
  (P.grid m).cart.periodic i = false →
    (P.grid m).cart.range.b i ≤ cell i ∧ cell i + 1 < (P.grid m).cart.range.e i
end Spec


theorem verts_corner {g : Grid d} (h : Ovk.Spec.Layout g.cart g.loc g.ext) {cell v : Tup d}
    (hc : ∀ i, g.cart.periodic i = false → g.cart.range.b i ≤ cell i ∧ cell i + 1 < g.cart.range.e i) :
    v ∈ g.verts cell ↔ Spec.Corner g.cart cell v := by
  refine ⟨fun hv => ?_, corner_verts h⟩
  unfold Grid.verts at hv
  obtain ⟨x, hx, rfl⟩ := List.mem_map.1 hv
  have hx : ∀ i, x i = cell i ∨ x i = cell i + 1 := fun i => by
    have := (Rng.mem_points _ _).1 hx i
    dsimp only at this; omega
  have hs := C03_same_point g.cart h.proper x
  refine ⟨fun i => ?_, x, hx, hs⟩
  by_cases hp : g.cart.periodic i = true
  · have := C03_first_period g.cart h.proper x i hp
    rw [periodLen_unique h.unique] at this; omega
  · have hp : g.cart.periodic i = false := by simpa using hp
    rw [g.cart.periodicAdjust_nonperiodic x i hp]
    have := hc i hp; have := hx i; omega

/-- Without smoothing, a point is occluded if one of the pairwise occlusions is outside the padding. -/
theorem occluded_raw (h : P.detectOccluded_ s = some s') :
    ∃ po1 po2 : Fin n → Fin n → Mask d, ∃ dis : Fin n → Fin n → Mask d,
      P.mutualPass s (fun m k => decide (m ≤ k)) (P.pairwise s) = some po1 ∧
      P.mutualPass s (fun m k => decide (k ≤ m)) po1 = some po2 ∧
      (∀ m k, P.occPair s m k = true → P.disallow s po2 m k = some (dis m k)) ∧
      (∀ k p, s'.occl k p = true → ∃ m, P.occPair s m k = true ∧ po2 m k p = true) ∧
      (∀ k, ∃ base occ0 occ1 : Mask d, P.smooth k base occ0 = some occ1 ∧
        (∀ p, base p = true ↔ ∃ m, P.occPair s m k = true ∧ po2 m k p = true) ∧
        (∀ p, occ0 p = true ↔ ∃ m, P.occPair s m k = true ∧ po2 m k p = true ∧ ∃ cell, s.ov m k p = some cell ∧
          ∀ q ∈ (P.grid m).verts cell, dis m k q = false) ∧
        ∀ p, s'.occl k p = true ↔ base p = true ∧ (occ0 p = true ∨ occ1 p = true)) ∧
      ∀ k, P.edgeSmoothing k = 0 → ∀ p, (s'.occl k p = true ↔ ∃ m, P.occPair s m k = true ∧
        po2 m k p = true ∧ ∃ cell, s.ov m k p = some cell ∧
        ∀ q ∈ (P.grid m).verts cell, dis m k q = false) := by
  unfold Problem.detectOccluded_ at h
  simp only [Option.bind_eq_bind, Option.bind_eq_some_iff] at h
  obtain ⟨po1, h1, po2, h2, dis, hdis, occ, hocc, h⟩ := h
  cases h
  have key : ∀ m k p, (po2 m k p && !(po2 m k p && !(match s.ov m k p with
      | some cell => ((P.grid m).verts cell).all fun q => !dis m k q
      | none => false))) = true ↔ po2 m k p = true ∧ ∃ cell, s.ov m k p = some cell ∧
      ∀ q ∈ (P.grid m).verts cell, dis m k q = false := by
    intro m k p
    cases s.ov m k p <;> cases po2 m k p <;> simp
  refine ⟨po1, po2, dis, h1, h2, fun m k hmk => ?_, fun k p hp => ?_, fun k => ?_, fun k hk p => ?_⟩
  · have := forAll_some (forAll_some hdis m) k
    rw [if_pos hmk] at this; exact this
  · obtain ⟨m, hm, hp⟩ := of_decide_eq_true hp
    rw [if_pos hm, Bool.and_eq_true] at hp
    exact ⟨m, hm, hp.1⟩
  · refine ⟨_, _, _, forAll_some hocc k, fun p => decide_eq_true_iff, fun p => ?_, fun p => ?_⟩
    · rw [decide_eq_true_iff]
      exact exists_congr fun m => and_congr_right fun _ => key m k p
    · show decide _ = true ↔ _
      rw [decide_eq_true_iff, decide_eq_true_iff, decide_eq_true_iff]
      constructor
      · rintro ⟨m, hm, hp⟩
        rw [if_pos hm, Bool.and_eq_true] at hp
        refine ⟨⟨m, hm, hp.1⟩, ?_⟩
        cases hocp : occ k p with
        | true => exact .inr rfl
        | false =>
          have h2 := hp.2
          rw [hocp, Bool.not_false, Bool.and_true] at h2
          exact .inl ⟨m, hm, by rw [Bool.and_eq_true]; exact ⟨hp.1, h2⟩⟩
      · rintro ⟨⟨m, hm, hp⟩, ⟨m', hm', hp'⟩ | ho⟩
        · refine ⟨m', hm', ?_⟩
          rw [Bool.and_eq_true] at hp'
          rw [if_pos hm', Bool.and_eq_true, Bool.not_and, Bool.or_eq_true]
          exact ⟨hp'.1, .inl hp'.2⟩
        · refine ⟨m, hm, ?_⟩
          rw [if_pos hm, Bool.and_eq_true, Bool.not_and, Bool.or_eq_true]
          exact ⟨hp, .inr (by rw [ho]; rfl)⟩
  · have ho := forAll_some hocc k
    unfold Problem.smooth at ho
    rw [if_pos hk] at ho
    have ho := congrFun (Option.some.inj ho) p
    have key := fun m => key m k p
    constructor
    · intro hp
      obtain ⟨m, hm, hp⟩ := of_decide_eq_true hp
      rw [if_pos hm, Bool.and_eq_true] at hp
      cases hocp : occ k p with
      | true =>
        rw [← ho] at hocp
        obtain ⟨m', hm', hp'⟩ := of_decide_eq_true hocp
        exact ⟨m', hm', (key m').1 hp'⟩
      | false =>
        refine ⟨m, hm, (key m).1 ?_⟩
        have h2 := hp.2
        rw [hocp, Bool.not_false, Bool.and_true] at h2
        rw [Bool.and_eq_true]
        exact ⟨hp.1, h2⟩
    · rintro ⟨m, hm, hp⟩
      refine decide_eq_true ⟨m, hm, ?_⟩
      have := (key m).2 hp
      rw [Bool.and_eq_true] at this
      rw [if_pos hm, Bool.and_eq_true]
      refine ⟨this.1, ?_⟩
      rw [Bool.not_and, Bool.or_eq_true]
      exact .inl this.2

/-- A mutual pass leaves other pairs alone. -/
theorem mutualPass_other {sel : Fin n → Fin n → Bool} {po po' : Fin n → Fin n → Mask d}
    (h : P.mutualPass s sel po = some po') {m k : Fin n} {p : Tup d}
    (hm : ¬ (P.occludes m k = .coarse ∧ P.occludes k m = .coarse) ∨ s.ov m k p = none) :
    po' m k p = po m k p := by
  unfold Problem.mutualPass at h
  split at h
  · cases h
  · cases h
    dsimp only
    split
    · rename_i hc
      rcases hm with hm | hm
      · unfold Problem.mutually at hc
        simp only [Bool.and_eq_true, decide_eq_true_eq] at hc
        exact absurd hc.1.2 hm
      · rw [hm]
    · rfl

/-- Everything about the stages before and after occlusion. -/
structure Stages (P : Problem d n) (flags : Fin n → Tup d → Flags) (r : St d n × Problem.Conn d n)
    (s3 s4 : St d n) : Prop where
  run : P.detectOccluded_ s3 = some s4
  inv : Inv P (fun k p => resetFlags (flags k p)) s3
  ov : ∀ m k p, s3.ov m k p = if resetFlags (flags k p) .active then P.found m k p else none
  overlap : ∀ m k p, s3.overlap m k p = true ↔ ∃ cell, s3.ov m k p = some cell ∧
    ∀ v ∈ (P.grid m).verts cell, s3.active m v = true
  occl : ∀ k p, Ovk.Spec.pts (P.grid k).cart.range p → r.1.flags k p .occluded = s4.occl k p
  hole : ∀ k p, Ovk.Spec.pts (P.grid k).cart.range p →
    r.1.flags k p .boundaryHole = s3.flags k p .boundaryHole
  min : ∀ k p, s3.flags k p .overlapMinimized = false
  outer : ∀ k p, Ovk.Spec.pts (P.grid k).cart.range p →
    (Spec.outer (r.1.flags k p) ↔ s3.flags k p .outerFringe = true)

theorem stages (hL : Ovk.Spec.Layouts P) {flags : Fin n → Tup d → Flags}
    {r : St d n × Problem.Conn d n} (h : P.assemble flags = some r) : ∃ s3 s4, Stages P flags r s3 s4 := by
  unfold Problem.assemble at h
  simp only [Option.bind_eq_bind, Option.bind_eq_some_iff] at h
  obtain ⟨s1, h1, s2, h2, s3, h3, s4, h4, s5, h5, h6⟩ := h
  have i1 := inv_infer hL (inv_overlap (P := P) flags) (fun k p => by
    show (resetFlags (flags k p) .active && resetFlags (flags k p) .domainBoundary) = _
    rw [overlap_other _ (by simp), overlap_other _ (by simp)]
    rfl) h1
  have i2 := inv_cut i1 h2
  have i3 := inv_outer i2 h3
  obtain ⟨mk, hmk, hfl⟩ := minimize_flags hL h5
  have hfin : ∀ k p, Ovk.Spec.pts (P.grid k).cart.range p → ∀ x, x ∉ [Flag.receiver, .orphan] →
      r.1.flags k p x = Problem.minimizeFlags ((mk k).1 p) ((mk k).2 p) (s4.flags k p) x := by
    intro k p hp x hx
    rw [generate_other h6 hx, hfl k p hp]
  have hov : s3.ov = fun m k p => if resetFlags (flags k p) .active then P.found m k p else none := by
    have e1 : s1.ov = (P.detectOverlap (initAssembly flags)).ov := by
      unfold Problem.inferBoundaries_ at h1
      simp only [Option.bind_eq_bind, Option.bind_eq_some_iff] at h1
      obtain ⟨_, -, h1⟩ := h1; cases h1; rfl
    have e2 : s2.ov = s1.ov := by
      unfold Problem.cutBoundaryHoles_ at h2
      simp only [Option.bind_eq_bind, Option.bind_eq_some_iff] at h2
      obtain ⟨_, -, _, -, h2⟩ := h2; cases h2; rfl
    have e3 : s3.ov = s2.ov := by
      unfold Problem.locateOuterFringe_ at h3
      simp only [Option.bind_eq_bind, Option.bind_eq_some_iff] at h3
      obtain ⟨_, -, h3⟩ := h3; cases h3; rfl
    rw [e3, e2, e1]; rfl
  refine ⟨s3, s4, h4, i3, fun m k p => by rw [hov], fun m k p => ?_, fun k p hp => ?_, fun k p hp => ?_,
    fun k p => before_occluded h1 h2 h3 k p (by simp), fun k p hp => ?_⟩
  · have e3 : s3.overlap = s2.overlap ∧ s3.ov = s2.ov ∧ s3.active = s2.active := by
      unfold Problem.locateOuterFringe_ at h3
      simp only [Option.bind_eq_bind, Option.bind_eq_some_iff] at h3
      obtain ⟨_, -, h3⟩ := h3; cases h3; exact ⟨rfl, rfl, rfl⟩
    rw [e3.1, e3.2.1, e3.2.2]
    have hsub := i2.sub m k p
    unfold Problem.cutBoundaryHoles_ at h2
    simp only [Option.bind_eq_bind, Option.bind_eq_some_iff] at h2
    obtain ⟨_, -, _, -, h2⟩ := h2
    cases hc : s2.ov m k p with
    | none =>
      rw [hc] at hsub
      constructor
      · intro h; exact absurd (hsub h) (by simp)
      · rintro ⟨_, h, -⟩; cases h
    | some cell =>
      have : s2.overlap m k p = ((P.grid m).verts cell).all (s2.active m) := by
        cases h2
        exact update_overlap _ m k p cell hc
      rw [this]
      simp
  · rw [hfin k p hp _ (by simp), minimizeFlags_other _ _ _ (by simp),
      occluded_flag hL h4 (fun k p => before_occluded h1 h2 h3 k p (by simp)) i3.sub k p hp]
  · rw [hfin k p hp _ (by simp), minimizeFlags_other _ _ _ (by simp), occluded_other h4 i3.sub (by simp)]
  · obtain ⟨o1, o2, -⟩ := outer_flag hL h3 (fun k p => by
      rw [cut_other h2 (by simp), cut_other h2 (by simp), infer_other h1 (by simp), infer_other h1 (by simp),
        overlap_other _ (by simp), overlap_other _ (by simp)]
      exact ⟨clean_reset _ _ id, clean_reset _ _ id⟩) k p hp
    have h0 : s4.flags k p .overlapMinimized = false := by
      rw [occluded_other h4 i3.sub (by simp)]; exact before_occluded h1 h2 h3 k p (by simp)
    have hf : s4.flags k p .fringe = s3.flags k p .outerFringe := by
      rw [occluded_other h4 i3.sub (by simp), o1, o2]
    have ho : s4.flags k p .outerFringe = s3.flags k p .outerFringe := by
      rw [occluded_other h4 i3.sub (by simp)]
    unfold Spec.outer
    rw [hfin k p hp _ (by simp), hfin k p hp _ (by simp), hfin k p hp _ (by simp)]
    unfold Problem.minimizeFlags
    cases (mk k).1 p <;> cases (mk k).2 p <;> simp [Flags.or, Flags.andNot, h0, hf, ho]

/-- The points of the mask in `disallow`, seen from a vertex. -/
theorem disallow_spec (hL : Ovk.Spec.Layouts P) {po : Fin n → Fin n → Mask d} {m k : Fin n} {dm : Mask d}
    (h : P.disallow s po m k = some dm) (v : Tup d) (hv : Ovk.Spec.pts (P.grid m).cart.range v) :
    dm v = false ↔ ∀ q, Ovk.Spec.pts (P.grid m).cart.range q →
      Spec.Within (P.grid m).cart (P.edgePadding m k) v q → s.flags m q .outerFringe = false ∧
      (P.occludes k m ≠ .none → po k m q = false ∧ s.active m q = true) := by
  unfold Problem.disallow at h
  split at h
  · cases h
  · obtain ⟨out, h1, h2⟩ := C17_dilate (hL m) .mirror (P.edgePadding m k) (fun p =>
      s.flags m p .outerFringe || (decide (P.occludes k m ≠ .none) && (po k m p || !s.active m p)))
    obtain rfl : dm = out := Option.some.inj (h.symm.trans h1)
    rw [← Bool.not_eq_true, h2 v hv]
    constructor
    · rintro hn q hq ⟨x, hx, hxq⟩
      have : ¬ ((s.flags m q .outerFringe || (decide (P.occludes k m ≠ .none) &&
          (po k m q || !s.active m q))) = true) := fun hc => hn ⟨x, hx, .inl ⟨q, hq, hxq, hc⟩⟩
      simp only [Bool.or_eq_true, Bool.and_eq_true, decide_eq_true_eq, not_or, not_and, Bool.not_eq_true] at this
      refine ⟨this.1, fun hne => ?_⟩
      have := this.2 hne
      simpa using this
    · rintro hall ⟨x, hx, ⟨q, hq, hxq, hc⟩ | ⟨hb, -⟩⟩
      · obtain ⟨ha, hb⟩ := hall q hq ⟨x, hx, hxq⟩
        dsimp only at hc
        rw [ha, Bool.false_or, Bool.and_eq_true, decide_eq_true_eq] at hc
        obtain ⟨e1, e2⟩ := hb hc.1
        rw [e1, e2] at hc
        simp at hc
      · cases hb

/-- Before smoothing. -/
theorem full_iff (hL : Ovk.Spec.Layouts P) (hC : Spec.Cells P) {flags : Fin n → Tup d → Flags}
    {r : St d n × Problem.Conn d n} {s3 s4 : St d n} (S : Stages P flags r s3 s4)
    {po1 po2 dis : Fin n → Fin n → Mask d}
    (h1 : P.mutualPass s3 (fun m k => decide (m ≤ k)) (P.pairwise s3) = some po1)
    (h2 : P.mutualPass s3 (fun m k => decide (k ≤ m)) po1 = some po2)
    (hdis : ∀ m k, P.occPair s3 m k = true → P.disallow s3 po2 m k = some (dis m k)) (k : Fin n)
    (ha : ∀ m, P.occludes m k ≠ .none → P.occludes k m = .none)
    (p : Tup d) (hp : Ovk.Spec.pts (P.grid k).cart.range p) :
    ((∃ m, P.occPair s3 m k = true ∧ po2 m k p = true) ↔ (initAssembly flags).flags k p .active = true ∧
      ∃ m cell, P.found m k p = some cell ∧
        Spec.Candidate P (initAssembly flags).flags r.1.flags m k cell p) ∧
    ((∃ m, P.occPair s3 m k = true ∧ po2 m k p = true ∧ ∃ cell, s3.ov m k p = some cell ∧
        ∀ q ∈ (P.grid m).verts cell, dis m k q = false) ↔
      Spec.Full P (initAssembly flags).flags r.1.flags k p) := by
  have hnm : ∀ m, ¬ (P.occludes m k = .coarse ∧ P.occludes k m = .coarse) := by
    rintro m ⟨h1, h2⟩
    have := ha m (by rw [h1]; simp)
    rw [h2] at this; cases this
  have hpo : ∀ m, po2 m k p = P.pairwise s3 m k p := fun m => by
    rw [mutualPass_other h2 (.inl (hnm m)), mutualPass_other h1 (.inl (hnm m))]
  have hlive : ∀ m v, Ovk.Spec.pts (P.grid m).cart.range v →
      (s3.active m v = true ↔ Spec.live ((initAssembly flags).flags m v) (r.1.flags m v)) := by
    intro m v hv
    rw [S.inv.sync m v hv, (S.inv.rel m v hv).act, S.min m v]
    unfold Spec.live
    rw [S.hole m v hv, init_flags]
    simp
  have hpair : ∀ m cell, s3.ov m k p = some cell → (P.pairwise s3 m k p = true ↔
      s3.overlap m k p = true ∧ (P.occludes m k = .all ∨
        P.occludes m k = .coarse ∧ P.vol k p > (1 + 1 / 10000000000) * P.ovVol m k p)) := by
    intro m cell hcell
    unfold Problem.pairwise
    cases P.occludes m k <;> simp [hcell]
  rw [Spec.Full, init_flags]
  have hpair' : ∀ m, P.pairwise s3 m k p = true → P.occPair s3 m k = true → ∃ cell, s3.ov m k p = some cell ∧
      s3.overlap m k p = true ∧ (P.occludes m k = .all ∨
        P.occludes m k = .coarse ∧ P.vol k p > (1 + 1 / 10000000000) * P.ovVol m k p) := by
    intro m hm hmo
    cases hcell : s3.ov m k p with
    | some cell => exact ⟨cell, rfl, (hpair m cell hcell).1 hm⟩
    | none =>
      have hov : s3.overlap m k p = true := by
        unfold Problem.pairwise at hm
        unfold Problem.occPair at hmo
        cases ho : P.occludes m k <;> simp [ho, hcell] at hm hmo
        exact hm
      obtain ⟨cell, hc, -⟩ := (S.overlap m k p).1 hov
      rw [hcell] at hc; cases hc
  refine ⟨?_, ?_⟩
  · constructor
    · rintro ⟨m, hm, hpm⟩
      rw [hpo] at hpm
      obtain ⟨cell, hcell, hov, hvol⟩ := hpair' m hpm hm
      have hcell' := hcell
      rw [S.ov] at hcell'
      split at hcell'
      · rename_i hact
        refine ⟨hact, m, cell, hcell', ?_⟩
        have hcor := fun v => verts_corner (hL m) (v := v) (hC m k p cell hp hcell')
        obtain ⟨cell', hc1, hc2⟩ := (S.overlap m k p).1 hov
        obtain rfl : cell = cell' := Option.some.inj (hcell.symm.trans hc1)
        exact ⟨fun v hv => (hlive m v hv.1).1 (hc2 v ((hcor v).2 hv)), hvol⟩
      · cases hcell'
    · rintro ⟨hact, m, cell, hf, hO⟩
      have hcell : s3.ov m k p = some cell := by rw [S.ov, if_pos hact, hf]
      have hcor := fun v => verts_corner (hL m) (v := v) (hC m k p cell hp hf)
      have hne : P.occludes m k ≠ .none := by
        rcases hO.volume with h | h
        · rw [h]; simp
        · rw [h.1]; simp
      have hm : P.occPair s3 m k = true := by
        unfold Problem.occPair
        rw [exists_of_found hL hp hcell]; simp [hne]
      refine ⟨m, hm, ?_⟩
      rw [hpo, hpair m cell hcell]
      refine ⟨(S.overlap m k p).2 ⟨cell, hcell, fun v hv => ?_⟩, hO.volume⟩
      have hv := (hcor v).1 hv
      exact (hlive m v hv.1).2 (hO.live v hv)
  constructor
  · rintro ⟨m, hm, hpm, cell, hcell, hv⟩
    have hcell' := hcell
    rw [S.ov] at hcell'
    split at hcell'
    · rename_i hact
      refine ⟨hact, m, cell, hcell', ?_⟩
      have hcor := fun v => verts_corner (hL m) (v := v) (hC m k p cell hp hcell')
      rw [hpo, hpair m cell hcell] at hpm
      obtain ⟨cell', hc1, hc2⟩ := (S.overlap m k p).1 hpm.1
      obtain rfl : cell = cell' := Option.some.inj (hcell.symm.trans hc1)
      refine ⟨fun v hv => (hlive m v hv.1).1 (hc2 v ((hcor v).2 hv)), hpm.2, fun v hc q hq hw ho => ?_⟩
      have := ((disallow_spec hL (hdis m k hm) v hc.1).1 (hv v ((hcor v).2 hc)) q hq hw).1
      rw [(S.outer m q hq).1 ho] at this
      cases this
    · cases hcell'
  · rintro ⟨hact, m, cell, hf, hO⟩
    have hcell : s3.ov m k p = some cell := by rw [S.ov, if_pos hact, hf]
    have hcor := fun v => verts_corner (hL m) (v := v) (hC m k p cell hp hf)
    have hne : P.occludes m k ≠ .none := by
      rcases hO.volume with h | h
      · rw [h]; simp
      · rw [h.1]; simp
    have hm : P.occPair s3 m k = true := by
      unfold Problem.occPair
      rw [exists_of_found hL hp hcell]; simp [hne]
    refine ⟨m, hm, ?_, cell, hcell, fun v hv => ?_⟩
    · rw [hpo, hpair m cell hcell]
      refine ⟨(S.overlap m k p).2 ⟨cell, hcell, fun v hv => ?_⟩, hO.volume⟩
      have hv := (hcor v).1 hv
      exact (hlive m v hv.1).2 (hO.live v hv)
    · have hv := (hcor v).1 hv
      rw [disallow_spec hL (hdis m k hm) v hv.1]
      intro q hq hw
      refine ⟨?_, fun hc => absurd (ha m hne) hc⟩
      rw [← Bool.not_eq_true, ← S.outer m q hq]
      exact hO.padding v hv q hq hw

/-- C69: without smoothing, a point of a grid that does not occlude its occluding grids is occluded exactly if
it was active at the start and a cell of an occluding grid overlaps it whose vertices are active, which is finer
(`COARSE`) and none of whose vertices is within the padding of the outer fringe. -/
theorem C69_occluded (hL : Ovk.Spec.Layouts P) (hC : Spec.Cells P) {flags : Fin n → Tup d → Flags}
    {r : St d n × Problem.Conn d n} (h : P.assemble flags = some r) (k : Fin n)
    (hs : P.edgeSmoothing k = 0) (ha : ∀ m, P.occludes m k ≠ .none → P.occludes k m = .none)
    (p : Tup d) (hp : Ovk.Spec.pts (P.grid k).cart.range p) :
    r.1.flags k p .occluded = true ↔ (initAssembly flags).flags k p .active = true ∧
      ∃ m cell, P.found m k p = some cell ∧
        Spec.Occludes P (initAssembly flags).flags r.1.flags m k cell p := by
  obtain ⟨s3, s4, S⟩ := stages hL h
  obtain ⟨po1, po2, dis, h1, h2, hdis, -, -, hocc⟩ := occluded_raw S.run
  rw [S.occl k p hp, hocc k hs p]
  exact (full_iff hL hC S h1 h2 hdis k ha p hp).2

/-- C69: with smoothing of any width (including none), a point of a grid that does not occlude its occluding
grids is occluded exactly if it would be without padding, and every point within the smoothing width of it is
itself within that width of a point that is occluded with padding. -/
theorem C69_smoothing (hL : Ovk.Spec.Layouts P) (hC : Spec.Cells P) {flags : Fin n → Tup d → Flags}
    {r : St d n × Problem.Conn d n} (h : P.assemble flags = some r) (k : Fin n)
    (ha : ∀ m, P.occludes m k ≠ .none → P.occludes k m = .none)
    (p : Tup d) (hp : Ovk.Spec.pts (P.grid k).cart.range p) :
    r.1.flags k p .occluded = true ↔
      ((initAssembly flags).flags k p .active = true ∧ ∃ m cell, P.found m k p = some cell ∧
        Spec.Candidate P (initAssembly flags).flags r.1.flags m k cell p) ∧
      ∀ q, Ovk.Spec.pts (P.grid k).cart.range q → Spec.Within (P.grid k).cart (P.edgeSmoothing k) p q →
        ∃ q', Ovk.Spec.pts (P.grid k).cart.range q' ∧ Spec.Within (P.grid k).cart (P.edgeSmoothing k) q q' ∧
          Spec.Full P (initAssembly flags).flags r.1.flags k q' := by
  obtain ⟨s3, s4, S⟩ := stages hL h
  obtain ⟨po1, po2, dis, h1, h2, hdis, -, hsm, -⟩ := occluded_raw S.run
  obtain ⟨base, occ0, occ1, hsmo, hb, h0, hocc⟩ := hsm k
  rw [S.occl k p hp, hocc p, hb, (full_iff hL hC S h1 h2 hdis k ha p hp).1]
  apply and_congr_right
  intro hcand
  have hfull : ∀ q, Ovk.Spec.pts (P.grid k).cart.range q →
      (occ0 q = true ↔ Spec.Full P (initAssembly flags).flags r.1.flags k q) := fun q hq => by
    rw [h0]; exact (full_iff hL hC S h1 h2 hdis k ha q hq).2
  have hbase : base p = true := (hb p).2 ((full_iff hL hC S h1 h2 hdis k ha p hp).1.2 hcand)
  -- a point before smoothing is in the closing
  have hext : occ0 p = true → ∀ q, Ovk.Spec.pts (P.grid k).cart.range q →
      Spec.Within (P.grid k).cart (P.edgeSmoothing k) p q →
      ∃ q', Ovk.Spec.pts (P.grid k).cart.range q' ∧ Spec.Within (P.grid k).cart (P.edgeSmoothing k) q q' ∧
        Spec.Full P (initAssembly flags).flags r.1.flags k q' :=
    fun ho q _ hw => ⟨p, hp, within_symm hw, (hfull p hp).1 ho⟩
  unfold Problem.smooth at hsmo
  by_cases hw : P.edgeSmoothing k = 0
  · rw [if_pos hw] at hsmo
    obtain rfl := Option.some.inj hsmo
    rw [or_self]
    refine ⟨hext, fun hall => ?_⟩
    have hsame : ∀ {a b : Tup d}, Ovk.Spec.pts (P.grid k).cart.range a → Ovk.Spec.pts (P.grid k).cart.range b →
        Spec.Within (P.grid k).cart (P.edgeSmoothing k) a b → a = b := by
      rintro a b hA hB ⟨x, hx, hxq⟩
      rw [hw] at hx
      funext i
      have e : x i = a i := by have := hx i; omega
      have h3 := hxq i
      split at h3
      · rename_i hper
        obtain ⟨j, hj⟩ := h3
        have hA := hA i
        have hB := hB i
        have hl := periodLen_unique (hL k).unique (i := i)
        rw [e] at hj
        have := image_unique (P := Ovk.Spec.periodLen (P.grid k).cart i) (a := (P.grid k).cart.range.b i) (x := a i)
          (k := j) hA.1 (by rw [hl]; omega) (by rw [← hj]; exact hB.1) (by rw [← hj, hl]; omega)
        rw [this] at hj; omega
      · rw [h3, e]
    have hpp : Spec.Within (P.grid k).cart (P.edgeSmoothing k) p p :=
      ⟨p, fun i => by omega, samePoint_refl _ _⟩
    obtain ⟨q', hq', hw', hf⟩ := hall p hp hpp
    obtain rfl := hsame hp hq' hw'
    exact (hfull _ hp).2 hf
  · rw [if_neg hw] at hsmo
    simp only [Option.bind_eq_bind, Option.bind_eq_some_iff] at hsmo
    obtain ⟨dl, hdl, er, her, hsmo⟩ := hsmo
    obtain rfl := Option.some.inj hsmo
    obtain ⟨dl', hd1, hd2⟩ := C17_dilate (hL k) .mirror (P.edgeSmoothing k) occ0
    obtain rfl : dl = dl' := Option.some.inj (hdl.symm.trans hd1)
    obtain ⟨er', he1, he2⟩ := C17_erode (hL k) .mirror (P.edgeSmoothing k) dl
    obtain rfl : er = er' := Option.some.inj (her.symm.trans he1)
    have hdil : ∀ q, Ovk.Spec.pts (P.grid k).cart.range q → (dl q = true ↔
        ∃ q', Ovk.Spec.pts (P.grid k).cart.range q' ∧ Spec.Within (P.grid k).cart (P.edgeSmoothing k) q q' ∧
          Spec.Full P (initAssembly flags).flags r.1.flags k q') := by
      intro q hq
      rw [hd2 q hq]
      constructor
      · rintro ⟨x, hx, ⟨q', hq', hxq, ho⟩ | ⟨hbc, -⟩⟩
        · exact ⟨q', hq', ⟨x, hx, hxq⟩, (hfull q' hq').1 ho⟩
        · cases hbc
      · rintro ⟨q', hq', ⟨x, hx, hxq⟩, hf⟩
        exact ⟨x, hx, .inl ⟨q', hq', hxq, (hfull q' hq').2 hf⟩⟩
    dsimp only
    rw [hbase, Bool.and_true, he2 p hp]
    constructor
    · rintro (ho | hall)
      · exact hext ho
      · rintro q hq ⟨x, hx, hxq⟩
        exact (hdil q hq).1 ((hall x hx).1 q hq hxq)
    · intro hall
      exact .inr fun x hx => ⟨fun q hq hxq => (hdil q hq).2 (hall q hq ⟨x, hx, hxq⟩), fun _ => by simp⟩

/-- C69: in general, without smoothing, an occluded point is overlapped by a cell of an occluding grid none of
whose vertices is within the padding of its outer fringe or, if the occlusion is mutual, of a point that is not
active. -/
theorem C69_padding (hL : Ovk.Spec.Layouts P) {flags : Fin n → Tup d → Flags}
    {r : St d n × Problem.Conn d n} (h : P.assemble flags = some r) (k : Fin n)
    (hs : P.edgeSmoothing k = 0) (p : Tup d) (hp : Ovk.Spec.pts (P.grid k).cart.range p)
    (ho : r.1.flags k p .occluded = true) :
    ∃ m cell, P.found m k p = some cell ∧ P.occludes m k ≠ .none ∧
      ∀ v, Spec.Corner (P.grid m).cart cell v → ∀ q, Ovk.Spec.pts (P.grid m).cart.range q →
        Spec.Within (P.grid m).cart (P.edgePadding m k) v q → ¬ Spec.outer (r.1.flags m q) ∧
        (P.occludes k m ≠ .none → Spec.live ((initAssembly flags).flags m q) (r.1.flags m q)) := by
  obtain ⟨s3, s4, S⟩ := stages hL h
  obtain ⟨po1, po2, dis, h1, h2, hdis, -, -, hocc⟩ := occluded_raw S.run
  rw [S.occl k p hp, hocc k hs p] at ho
  obtain ⟨m, hm, hpm, cell, hcell, hv⟩ := ho
  have hcell' := hcell
  rw [S.ov] at hcell'
  split at hcell'
  · have hm' := hm
    unfold Problem.occPair at hm'
    rw [Bool.and_eq_true, decide_eq_true_eq] at hm'
    refine ⟨m, cell, hcell', hm'.2, fun v hc q hq hw => ?_⟩
    have := (disallow_spec hL (hdis m k hm) v hc.1).1 (hv v (corner_verts (hL m) hc)) q hq hw
    refine ⟨fun ho => ?_, fun hne => ?_⟩
    · rw [(S.outer m q hq).1 ho] at this
      cases this.1
    · have ha := (this.2 hne).2
      rw [S.inv.sync m q hq, (S.inv.rel m q hq).act, S.min m q] at ha
      unfold Spec.live
      rw [S.hole m q hq, init_flags]
      simpa using ha
  · cases hcell'

/-! C68 -/

namespace Spec
/-- No cell overlapping the point is finer, for grids that occlude coarser points only. -/
def Finest (P : Problem d n) (k : Fin n) (p : Tup d) : Prop := ∀ m,
  P.occludes m k ≠ .all ∧ (P.occludes m k = .coarse → 0 ≤ P.ovVol m k p ∧ P.vol k p ≤ P.ovVol m k p)
end Spec

/-- The property as stated. -/
def C68_statement : Prop := ∀ (d n : Nat) (P : Problem d n) (flags : Fin n → Tup d → Flags)
  (r : St d n × Problem.Conn d n), Ovk.Spec.Layouts P → P.assemble flags = some r →
  ∀ k p, Ovk.Spec.pts (P.grid k).cart.range p → Spec.Finest P k p → r.1.flags k p .occluded = false

/-- C68 (the part that holds): grids that overlap the point and occlude coarser points of its grid are not in
turn occluded by its grid. -/
theorem C68_partial (hL : Ovk.Spec.Layouts P) {flags : Fin n → Tup d → Flags}
    {r : St d n × Problem.Conn d n} (h : P.assemble flags = some r) (k : Fin n) (p : Tup d)
    (hp : Ovk.Spec.pts (P.grid k).cart.range p) (hf : Spec.Finest P k p)
    (hm : ∀ m, (P.found m k p).isSome = true → P.occludes m k = .coarse → P.occludes k m ≠ .coarse) :
    r.1.flags k p .occluded = false := by
  obtain ⟨s3, s4, S⟩ := stages hL h
  obtain ⟨po1, po2, dis, h1, h2, -, hsub, -⟩ := occluded_raw S.run
  rw [S.occl k p hp, ← Bool.not_eq_true]
  intro ho
  obtain ⟨m, -, hpo⟩ := hsub k p ho
  have hmut : ¬ (P.occludes m k = .coarse ∧ P.occludes k m = .coarse) ∨ s3.ov m k p = none := by
    cases hov : s3.ov m k p with
    | none => exact .inr rfl
    | some cell =>
      refine .inl fun ⟨h1, h2⟩ => hm m ?_ h1 h2
      rw [S.ov] at hov
      split at hov
      · rw [hov]; rfl
      · cases hov
  rw [mutualPass_other h2 hmut, mutualPass_other h1 hmut] at hpo
  unfold Problem.pairwise at hpo
  obtain ⟨ha, hc⟩ := hf m
  split at hpo
  · rename_i he
    obtain ⟨h0, hv⟩ := hc he
    simp only [Bool.and_eq_true, decide_eq_true_eq] at hpo
    have := hpo.2.2
    nlinarith
  · rename_i he; exact ha he
  · cases hpo

/-- Two lines of four points, each lying over the other; at its first point the second is finer than the first. -/
def exCoarse : Problem 1 2 where
  grid := fun _ => line 4 false
  group := CC.groupOne
  inferBoundaries := fun _ => false
  cutBoundaryHoles := fun _ _ => false
  fringeSize := fun _ => 0
  occludes := fun _ _ => .coarse
  edgePadding := fun _ _ => 0
  edgeSmoothing := fun _ => 0
  minimizeOverlap := fun _ _ => false
  connected := fun _ _ => true
  disjoint := fun _ _ => false
  found := fun m k p => if m ≠ k ∧ p 0 < 3 then some p else none
  vol := fun g p => if g = 1 ∧ p 0 = 0 then 1 else 2
  ovVol := fun _ _ _ => 2
  fuel := 10

theorem exCoarse_run : ((exCoarse.assemble exFlags).map fun r =>
    [0, 1, 2, 3].map fun (i : Int) => (r.1.flags 0 (fun _ => i) .occluded, r.1.flags 1 (fun _ => i) .occluded)) =
    some [(false, true), (false, true), (false, true), (false, false)] := by decide +kernel

theorem exCoarse_layouts : Ovk.Spec.Layouts exCoarse := fun _ => line_layout (by omega) false

/-- C68 is false as stated: of two grids that occlude each other, the second loses points at which it is finer. -/
theorem C68_false : ¬ C68_statement := by
  intro h
  have hrun := exCoarse_run
  rw [Option.map_eq_some_iff] at hrun
  obtain ⟨r, hr, hrun⟩ := hrun
  simp only [List.map_cons, List.map_nil, List.cons.injEq, Prod.mk.injEq] at hrun
  have := h 1 2 exCoarse exFlags r exCoarse_layouts hr 1 (fun _ => 0)
    (fun i => by show (0 : Int) ≤ 0 ∧ (0 : Int) < 4; omega)
    (fun m => ⟨by simp [exCoarse], fun _ => by simp [exCoarse]⟩)
  rw [hrun.1.2] at this
  cases this

/- `exProblem` meets the hypotheses of `C69_occluded` for the second grid. -/
example : Spec.Cells exProblem ∧ exProblem.edgeSmoothing 1 = 0 ∧
    ∀ m, exProblem.occludes m 1 ≠ .none → exProblem.occludes 1 m = .none := by
  refine ⟨fun m k p cell hp h i _ => ?_, rfl, fun m _ => rfl⟩
  have hp : (0 : Int) ≤ p 0 ∧ p 0 < 4 := hp 0
  have h : (if m = 0 ∧ k = 1 ∧ p 0 < 3 then some p else none) = some cell := h
  split at h
  · rename_i hc
    cases h
    have : i = 0 := Subsingleton.elim _ _
    subst this
    show (0 : Int) ≤ p 0 ∧ p 0 + 1 < 4
    have := hc.2.2
    omega
  · cases h

example : ((exProblem.assemble exFlags).map fun r =>
    [0, 1, 2, 3].map fun (i : Int) => r.1.flags 1 (fun _ => i) .occluded) =
    some [true, true, true, false] := by decide +kernel

/- The same with smoothing (`C69_smoothing` does not restrict it). -/
example : ((Problem.assemble { exProblem with edgeSmoothing := fun _ => 1 } exFlags).map fun r =>
    [0, 1, 2, 3].map fun (i : Int) => r.1.flags 1 (fun _ => i) .occluded) =
    some [true, true, true, false] := by decide +kernel

end Ovk.Asm
