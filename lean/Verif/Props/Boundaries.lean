/-
Properties C80, C81 and C82: inferred boundaries, boundary holes and the outer fringe.
-/
import Verif.Props.Defined

namespace Ovk.Asm
variable {d n : Nat} {P : Problem d n} {s s' : St d n}

namespace Spec
/-- A point of the region with a neighbouring position that is not in it: another point, or outside the grid. -/
def Rim (c : Cart d) (R : Tup d → Prop) (p : Tup d) : Prop :=
  R p ∧ ∃ x, Ovk.Spec.Near 1 p x ∧ ¬ ∃ q, Ovk.Spec.pts c.range q ∧ Ovk.Spec.SamePoint c x q ∧ R q

/-- A point of the grid within `w` steps of the region. -/
def Ball (c : Cart d) (w : Nat) (R : Tup d → Prop) (p : Tup d) : Prop :=
  ∃ q, Ovk.Spec.pts c.range q ∧ R q ∧ Within c w p q

/-- A point that is not in the region, but has a neighbour in it. -/
def Shell (c : Cart d) (R : Tup d → Prop) (p : Tup d) : Prop := ¬ R p ∧ Ball c 1 R p

/-- Points connected to a seed: the seeds, and what they reach through neighbours without touching the barrier. -/
inductive Flooded (c : Cart d) (seed barrier : Tup d → Prop) : Tup d → Prop
  | seed {p : Tup d} : seed p → Flooded c seed barrier p
  | step {p q : Tup d} : Flooded c seed barrier p → ¬ barrier p → Ovk.Spec.pts c.range p →
      Ovk.Spec.pts c.range q → Within c 1 p q → ¬ barrier q → Flooded c seed barrier q

variable (P : Problem d n) (start : Fin n → Tup d → Flags)

/-- Active point. -/
def Active (k : Fin n) (p : Tup d) : Prop := start k p .active = true

/-- Boundary point found by assembly: on the edge of the active points, not overlapped by any grid. -/
def Inferred (k : Fin n) (p : Tup d) : Prop :=
  P.inferBoundaries k = true ∧ Rim (P.grid k).cart (Active start k) p ∧ start k p .domainBoundary = false ∧
    ∀ m, P.found m k p = none

/-- Point of the domain boundary. -/
def Bdry (k : Fin n) (p : Tup d) : Prop :=
  Active start k p ∧ (start k p .domainBoundary = true ∨ Inferred P start k p)

/-- Active point of grid `k` inside a cell of grid `m`. -/
def Overlapped (m k : Fin n) (p : Tup d) : Prop := Active start k p ∧ (P.found m k p).isSome = true

/-- Grid `m` cuts holes in grid `k`. -/
def Cuts (m k : Fin n) : Prop := P.cutBoundaryHoles m k = true ∧
  (∃ p, Ovk.Spec.pts (P.grid k).cart.range p ∧ Overlapped P start m k p) ∧
  ∃ p, Ovk.Spec.pts (P.grid m).cart.range p ∧ Overlapped P start k m p

/-- Corners of the cells of grid `k` that contain points of a region of grid `m`. -/
def Covers (k m : Fin n) (R : Tup d → Prop) (v : Tup d) : Prop :=
  ∃ q cell, Ovk.Spec.pts (P.grid m).cart.range q ∧ R q ∧ P.found k m q = some cell ∧ Active start m q ∧
    Corner (P.grid k).cart cell v

/-- The gap between the two edges of the overlap of the grids `m` and `k`: the least `t` such that all points of `k`
just outside the overlap are within `t` of the edge of the overlap as seen from grid `m`. -/
def Gap (m k : Fin n) (t : Nat) : Prop :=
  (∀ p, Ovk.Spec.pts (P.grid k).cart.range p → Shell (P.grid k).cart (Overlapped P start m k) p →
    Ball (P.grid k).cart t (Covers P start k m (Rim (P.grid m).cart (Overlapped P start k m))) p) ∧
  ∀ t', t' < t → ∃ p, Ovk.Spec.pts (P.grid k).cart.range p ∧ Shell (P.grid k).cart (Overlapped P start m k) p ∧
    ¬ Ball (P.grid k).cart t' (Covers P start k m (Rim (P.grid m).cart (Overlapped P start k m))) p

/-- The boundary of grid `m` projected onto grid `k`: overlapped points next to points that are not overlapped and
are within the gap of the boundary of `m`. -/
def Projected (m k : Fin n) (p : Tup d) : Prop :=
  Overlapped P start m k p ∧ ∃ t, Gap P start m k t ∧
    Ball (P.grid k).cart 1 (fun q => ¬ Overlapped P start m k q ∧
      Ball (P.grid k).cart t (Covers P start k m (Bdry P start m)) q) p

/-- Boundary of grid `k`, own or projected. -/
def Barrier (k : Fin n) (p : Tup d) : Prop :=
  Bdry P start k p ∨ ∃ m, Cuts P start m k ∧ Projected P start m k p

/-- Overlapped points next to the projected boundary. -/
def Seed (k : Fin n) (p : Tup d) : Prop :=
  ∃ m, Cuts P start m k ∧ Overlapped P start m k p ∧ Shell (P.grid k).cart (Projected P start m k) p

/-- Points on the inner side of the boundaries. -/
def Interior (k : Fin n) (p : Tup d) : Prop :=
  Flooded (P.grid k).cart (Seed P start k) (Barrier P start k) p

/-- Points cut from grid `k`: active points that are not in the interior and not on a boundary, and points of the own
boundary that are at the edge of the active points and not next to the interior. -/
def Hole (k : Fin n) (p : Tup d) : Prop :=
  (∃ q, Ovk.Spec.pts (P.grid k).cart.range q ∧ Seed P start k q) ∧ Active start k p ∧ ¬ Interior P start k p ∧
  (¬ Barrier P start k p ∨ Bdry P start k p ∧ Rim (P.grid k).cart (Active start k) p ∧
    ¬ Ball (P.grid k).cart 1 (Interior P start k) p)

/-- The position `x` denotes a point of the region. -/
def At (c : Cart d) (R : Tup d → Prop) (x : Tup d) : Prop :=
  ∃ q, Ovk.Spec.pts c.range q ∧ Ovk.Spec.SamePoint c x q ∧ R q

/-- A point of the outer fringe: within the fringe size of a position that is no remaining point of the grid, but is
next to a remaining point that is not on a boundary. -/
def Outer (P : Problem d n) (start final : Fin n → Tup d → Flags) (k : Fin n) (p : Tup d) : Prop :=
  live (start k p) (final k p) ∧ ∃ x, Ovk.Spec.Near (P.fringeSize k) p x ∧
    ¬ At (P.grid k).cart (fun q => live (start k q) (final k q)) x ∧
    ∃ y, Ovk.Spec.Near 1 x y ∧ At (P.grid k).cart (fun q => live (start k q) (final k q) ∧
      final k q .domainBoundary = false ∧ start k q .internalBoundary = false) y
end Spec

/-- A mask and a region agree on the points of a grid. -/
def Agree (c : Cart d) (m : Mask d) (R : Tup d → Prop) : Prop :=
  ∀ p, Ovk.Spec.pts c.range p → (m p = true ↔ R p)

theorem Agree.not {c : Cart d} {m : Mask d} {R : Tup d → Prop} (h : Agree c m R) {p : Tup d}
    (hp : Ovk.Spec.pts c.range p) : m p = false ↔ ¬ R p := by
  rw [← h p hp]; simp

theorem within_mono {c : Cart d} {a b : Nat} (hab : a ≤ b) {p q : Tup d} (h : Spec.Within c a p q) :
    Spec.Within c b p q := by
  obtain ⟨x, hx, hq⟩ := h
  exact ⟨x, fun i => by have := hx i; omega, hq⟩

theorem ball_mono {c : Cart d} {a b : Nat} (hab : a ≤ b) {R : Tup d → Prop} {p : Tup d} (h : Spec.Ball c a R p) :
    Spec.Ball c b R p := by
  obtain ⟨q, hq, hR, hw⟩ := h
  exact ⟨q, hq, hR, within_mono hab hw⟩

theorem ball_congr {c : Cart d} {a : Nat} {R R' : Tup d → Prop}
    (h : ∀ p, Ovk.Spec.pts c.range p → (R p ↔ R' p)) (p : Tup d) : Spec.Ball c a R p ↔ Spec.Ball c a R' p := by
  constructor
  · rintro ⟨q, hq, hR, hw⟩; exact ⟨q, hq, (h q hq).1 hR, hw⟩
  · rintro ⟨q, hq, hR, hw⟩; exact ⟨q, hq, (h q hq).2 hR, hw⟩

section
variable {g : Grid d} (hl : Ovk.Spec.Layout g.cart g.loc g.ext)
include hl

theorem reads_self {bc : MaskBC} {m : Mask d} {p : Tup d} (hp : Ovk.Spec.pts g.cart.range p) (v : Bool) :
    Ovk.Spec.Reads g.cart bc m p v ↔ m p = v := by
  constructor
  · intro hr
    exact reads_fn hl.proper hl.unique (.inl ⟨p, hp, samePoint_refl _ p, rfl⟩) hr
  · intro hv; exact .inl ⟨p, hp, samePoint_refl _ p, hv⟩

theorem rim_agree {m e : Mask d} {R : Tup d → Prop} (hm : Agree g.cart m R)
    (h : g.edge .false true m = some e) : Agree g.cart e (Spec.Rim g.cart R) := by
  intro p hp
  rw [edge_spec hl h p hp, reads_self hl hp, hm p hp]
  refine and_congr_right fun _ => exists_congr fun x => and_congr_right fun _ => ?_
  constructor
  · rintro (⟨q, hq, hs, hv⟩ | ⟨hn, -⟩) ⟨q', hq', hs', hR⟩
    · have : q = q' := by
        rw [← canonical_in_range hl.proper hl.unique hq hs, canonical_in_range hl.proper hl.unique hq' hs']
      subst this
      rw [Bool.not_true, hm.not hq] at hv
      exact hv hR
    · exact hn ⟨q', hq', hs'⟩
  · intro h
    by_cases hex : Ovk.Spec.Exists g.cart x
    · obtain ⟨q, hq, hs⟩ := hex
      refine .inl ⟨q, hq, hs, ?_⟩
      rw [Bool.not_true, hm.not hq]
      exact fun hR => h ⟨q, hq, hs, hR⟩
    · exact .inr ⟨hex, rfl⟩

theorem shell_agree {bc : MaskBC} (hbc : bc ≠ .true) {m e : Mask d} {R : Tup d → Prop} (hm : Agree g.cart m R)
    (h : g.edge bc false m = some e) : Agree g.cart e (Spec.Shell g.cart R) := by
  intro p hp
  rw [edge_spec hl h p hp, reads_self hl hp, hm.not hp]
  refine and_congr_right fun _ => ?_
  constructor
  · rintro ⟨x, hx, ⟨q, hq, hs, hv⟩ | ⟨hn, hv⟩⟩
    · exact ⟨q, hq, (hm q hq).1 hv, x, hx, hs⟩
    · cases bc with
      | true => exact absurd rfl hbc
      | false => simp at hv
      | mirror =>
        obtain ⟨y, q, hy, hq, hyq, hv⟩ := hv
        exact ⟨q, hq, (hm q hq).1 hv, y, closest_near hy (fun i => by have := hp i; omega) hx, hyq⟩
  · rintro ⟨q, hq, hR, x, hx, hs⟩
    exact ⟨x, hx, .inl ⟨q, hq, hs, (hm q hq).2 hR⟩⟩

theorem dilate_agree {w : Nat} {m o : Mask d} {R : Tup d → Prop} (hm : Agree g.cart m R)
    (h : dilateMask g.cart g.ranges m w .false = some o) : Agree g.cart o (Spec.Ball g.cart w R) := by
  intro p hp
  obtain ⟨o', h1, h2⟩ := C17_dilate hl .false w m
  obtain rfl : o = o' := Option.some.inj (h.symm.trans h1)
  rw [h2 p hp]
  constructor
  · rintro ⟨x, hx, ⟨q, hq, hs, hv⟩ | ⟨hf, -⟩⟩
    · exact ⟨q, hq, (hm q hq).1 hv, x, hx, hs⟩
    · cases hf
  · rintro ⟨q, hq, hR, x, hx, hs⟩
    exact ⟨x, hx, .inl ⟨q, hq, hs, (hm q hq).2 hR⟩⟩

/-- One more step. -/
theorem ball_succ {w : Nat} {R : Tup d → Prop} {p : Tup d} (hp : Ovk.Spec.pts g.cart.range p) :
    Spec.Ball g.cart 1 (Spec.Ball g.cart w R) p ↔ Spec.Ball g.cart (w + 1) R p := by
  constructor
  · rintro ⟨q, hq, ⟨q', hq', hR, y, hy, hs'⟩, x, hx, hs⟩
    refine ⟨q', hq', hR, fun i => y i + (x i - q i), fun i => ?_,
      samePoint_trans (samePoint_shift (samePoint_symm hs)) hs'⟩
    have := hx i; have := hy i; dsimp only; push_cast at *; omega
  · rintro ⟨q', hq', hR, z, hz, hs'⟩
    let x : Tup d := fun i => max (p i - 1) (min (z i) (p i + 1))
    have hxp : Ovk.Spec.Near 1 p x := fun i => by simp only [x]; push_cast; omega
    have hxz : ∀ i, x i - w ≤ z i ∧ z i ≤ x i + w := fun i => by
      have := hz i; simp only [x]; push_cast at *; omega
    have hex : Ovk.Spec.Exists g.cart x := by
      rw [exists_iff hl.proper hl.unique]
      intro i hi
      have h1 := (exists_iff hl.proper hl.unique z).1 ⟨q', hq', hs'⟩ i hi
      have h2 := hp i
      simp only [x]; omega
    obtain ⟨q, hq, hxq⟩ := hex
    refine ⟨q, hq, ⟨q', hq', hR, fun i => z i + (q i - x i), fun i => ?_,
      samePoint_trans (samePoint_shift hxq) hs'⟩, x, hxp, hxq⟩
    have := hxz i; dsimp only; omega

/-- The number of passes of the loop of the boundary projection. -/
theorem coverLoop_gap {U C : Tup d → Prop} : ∀ (fuel : Nat) (unc cov : Mask d) (k t : Nat),
    Agree g.cart cov (Spec.Ball g.cart k C) → Agree g.cart unc (fun p => U p ∧ ¬ Spec.Ball g.cart k C p) →
    (∀ t', t' < k → ∃ p, Ovk.Spec.pts g.cart.range p ∧ U p ∧ ¬ Spec.Ball g.cart t' C p) →
    Problem.coverLoop g fuel unc cov k = some t →
    (∀ p, Ovk.Spec.pts g.cart.range p → U p → Spec.Ball g.cart t C p) ∧
    ∀ t', t' < t → ∃ p, Ovk.Spec.pts g.cart.range p ∧ U p ∧ ¬ Spec.Ball g.cart t' C p := by
  intro fuel
  induction fuel with
  | zero =>
    intro unc cov k t _ hu hmin h
    unfold Problem.coverLoop at h
    split at h
    · rename_i hany
      cases h
      refine ⟨fun p hp hU => ?_, hmin⟩
      by_contra hc
      exact List.any_eq_false.1 hany p ((mem_gridPoints hl p).2 hp) ((hu p hp).2 ⟨hU, hc⟩)
    · cases h
  | succ fuel ih =>
    intro unc cov k t hc hu hmin h
    unfold Problem.coverLoop at h
    split at h
    · rename_i hany
      cases h
      refine ⟨fun p hp hU => ?_, hmin⟩
      by_contra hc
      exact List.any_eq_false.1 hany p ((mem_gridPoints hl p).2 hp) ((hu p hp).2 ⟨hU, hc⟩)
    · rename_i hany
      rw [Bool.not_eq_false, List.any_eq_true] at hany
      obtain ⟨p0, hp0, hu0⟩ := hany
      rw [mem_gridPoints hl] at hp0
      simp only [Option.bind_eq_bind, Option.bind_eq_some_iff] at h
      obtain ⟨cov', hd, h⟩ := h
      have hc' : Agree g.cart cov' (Spec.Ball g.cart (k + 1) C) := fun p hp => by
        rw [dilate_agree hl hc hd p hp]; exact ball_succ hl hp
      refine ih _ _ _ _ hc' (fun p hp => ?_) (fun t' ht' => ?_) h
      · rw [Bool.and_eq_true, Bool.not_eq_true', hu p hp, hc'.not hp]
        exact ⟨fun h => ⟨h.1.1, h.2⟩, fun h => ⟨⟨h.1, fun hb => h.2 (ball_mono (by omega) hb)⟩, h.2⟩⟩
      · by_cases hlt : t' < k
        · exact hmin t' hlt
        · obtain rfl : t' = k := by omega
          exact ⟨p0, hp0, (hu p0 hp0).1 hu0⟩

end

/-- The points cut by the covered cells. -/
theorem cover_agree (hL : Ovk.Spec.Layouts P) (hC : Spec.Cells P) {start : Fin n → Tup d → Flags}
    (hov : ∀ m k p, s.ov m k p = if start k p .active then P.found m k p else none) (k m : Fin n) {mask : Mask d}
    {R : Tup d → Prop} (hm : Agree (P.grid m).cart mask R) :
    Agree (P.grid k).cart (P.cover s k m mask) (Spec.Covers P start k m R) := by
  intro v hv
  have hl := hL k
  unfold Problem.cover Problem.cellCover
  rw [List.any_eq_true]
  constructor
  · rintro ⟨x, hx, h⟩
    rw [List.any_eq_true] at h
    obtain ⟨q, hq, h⟩ := h
    rw [mem_gridPoints (hL m)] at hq
    rw [Bool.and_eq_true, decide_eq_true_eq, hov, Option.map_eq_some_iff] at h
    obtain ⟨⟨cell, hc, hcx⟩, hmq⟩ := h
    split at hc
    · rename_i ha
      refine ⟨q, cell, hq, (hm q hq).1 hmq, hc, ha, hv, ?_⟩
      unfold Grid.cellsAround at hx
      obtain ⟨y, hy, rfl⟩ := List.mem_map.1 hx
      obtain ⟨hy, -⟩ := List.mem_filter.1 hy
      have hy := (Rng.mem_points _ _).1 hy
      have hs : Ovk.Spec.SamePoint (P.grid k).cart y cell :=
        samePoint_trans (C03_same_point _ hl.proper y) (by rw [← hcx]; exact samePoint_symm (C03_same_point _ hl.proper cell))
      refine ⟨fun i => v i + (cell i - y i), fun i => ?_, samePoint_shift hs⟩
      have := hy i; dsimp only at *; omega
    · cases hc
  · rintro ⟨q, cell, hq, hR, hf, ha, -, z, hz, hs⟩
    have hcell := hC k m q cell hq hf
    have hsh : Ovk.Spec.SamePoint (P.grid k).cart (fun i => cell i + (v i - z i)) cell := samePoint_shift hs
    refine ⟨(P.grid k).cart.periodicAdjust cell, ?_, ?_⟩
    · unfold Grid.cellsAround
      refine List.mem_map.2 ⟨fun i => cell i + (v i - z i), List.mem_filter.2 ⟨(Rng.mem_points _ _).2 fun i => ?_,
        decide_eq_true fun i hi => ?_⟩, ?_⟩
      · have := hz i; dsimp only; omega
      · have h1 := hcell i hi
        have h2 := hs i
        simp only [hi, Bool.false_eq_true, if_false] at h2
        simp only [cartPointToCell, hi, Bool.false_eq_true, false_and, if_false]
        omega
      · exact (C03_canonical _ hl.proper _ _).2 hsh
    · rw [List.any_eq_true]
      refine ⟨q, (mem_gridPoints (hL m) q).2 hq, ?_⟩
      have ha : start m q .active = true := ha
      rw [hov, if_pos ha, hf, (hm q hq).2 hR]
      simp

/-- State after boundaries were inferred, in terms of the flags at the start. -/
structure After (P : Problem d n) (start : Fin n → Tup d → Flags) (s : St d n) : Prop where
  ov : ∀ m k p, s.ov m k p = if start k p .active then P.found m k p else none
  overlap : ∀ m k, Agree (P.grid k).cart (s.overlap m k) (Spec.Overlapped P start m k)
  active : ∀ k, Agree (P.grid k).cart (s.active k) (Spec.Active start k)
  bdry : ∀ k, Agree (P.grid k).cart (s.domBdry k) (Spec.Bdry P start k)

section
variable {start : Fin n → Tup d → Flags} (hL : Ovk.Spec.Layouts P) (hC : Spec.Cells P) (hA : After P start s)
include hL hA

theorem exists_agree (m k : Fin n) : P.ovExists s m k = true ↔
    ∃ p, Ovk.Spec.pts (P.grid k).cart.range p ∧ Spec.Overlapped P start m k p := by
  unfold Problem.ovExists
  rw [List.any_eq_true]
  refine exists_congr fun p => ?_
  rw [mem_gridPoints (hL k), hA.ov]
  unfold Spec.Overlapped Spec.Active
  split <;> simp [*]

theorem cut_agree (m k : Fin n) : P.cut s m k = true ↔ Spec.Cuts P start m k := by
  unfold Problem.cut Spec.Cuts
  rw [Bool.and_eq_true, Bool.and_eq_true, exists_agree hL hA, exists_agree hL hA, and_assoc]

include hC
theorem projected_agree {m k : Fin n} {pm : Mask d} (h : P.projected s m k = some pm) :
    Agree (P.grid k).cart pm (Spec.Projected P start m k) := by
  unfold Problem.projected at h
  simp only [Option.bind_eq_bind, Option.bind_eq_some_iff] at h
  obtain ⟨oe, hoe, ue, hue, t, ht, dm, hdm, ed, hed, h⟩ := h
  cases h
  have hoe' := rim_agree (hL m) (hA.overlap k m) hoe
  have hue' := shell_agree (hL k) (by simp) (hA.overlap m k) hue
  have hcov := cover_agree hL hC hA.ov k m hoe'
  have hgap : Spec.Gap P start m k t := by
    have := coverLoop_gap (hL k) (U := Spec.Shell (P.grid k).cart (Spec.Overlapped P start m k))
      (C := Spec.Covers P start k m (Spec.Rim (P.grid m).cart (Spec.Overlapped P start k m))) P.fuel _ _ 0 t ?_ ?_ ?_ ht
    · exact this
    · intro p hp
      rw [hcov p hp]
      constructor
      · intro h; exact ⟨p, hp, h, within_self _ _ _⟩
      · rintro ⟨q, hq, h, x, hx, hs⟩
        obtain rfl : x = p := by funext i; have := hx i; push_cast at this; omega
        have : x = q := by
          rw [← canonical_in_range (hL k).proper (hL k).unique hq hs,
            canonical_in_range (hL k).proper (hL k).unique hp (samePoint_refl _ x)]
        rw [this]; exact h
    · intro p hp
      rw [Bool.and_eq_true, Bool.not_eq_true', hue' p hp, hcov.not hp]
      refine and_congr_right fun _ => not_congr ?_
      constructor
      · intro h; exact ⟨p, hp, h, within_self _ _ _⟩
      · rintro ⟨q, hq, h, x, hx, hs⟩
        obtain rfl : x = p := by funext i; have := hx i; push_cast at this; omega
        have : x = q := by
          rw [← canonical_in_range (hL k).proper (hL k).unique hq hs,
            canonical_in_range (hL k).proper (hL k).unique hp (samePoint_refl _ x)]
        rw [this]; exact h
    · intro t' ht'; omega
  have huniq : ∀ t', Spec.Gap P start m k t' → t' = t := by
    intro t' h'
    rcases lt_trichotomy t' t with hlt | heq | hlt
    · obtain ⟨p, hp, hU, hn⟩ := hgap.2 t' hlt
      exact absurd (h'.1 p hp hU) hn
    · exact heq
    · obtain ⟨p, hp, hU, hn⟩ := h'.2 t hlt
      exact absurd (hgap.1 p hp hU) hn
  have hdm' := dilate_agree (hL k) (cover_agree hL hC hA.ov k m (hA.bdry m)) hdm
  have hmask : Agree (P.grid k).cart (fun p => dm p && !s.overlap m k p) (fun q => ¬ Spec.Overlapped P start m k q ∧
      Spec.Ball (P.grid k).cart t (Spec.Covers P start k m (Spec.Bdry P start m)) q) := by
    intro p hp
    rw [Bool.and_eq_true, Bool.not_eq_true', hdm' p hp, (hA.overlap m k).not hp, and_comm]
  have hed' := shell_agree (hL k) (by simp) hmask hed
  intro p hp
  rw [Bool.and_eq_true, hed' p hp, hA.overlap m k p hp]
  constructor
  · rintro ⟨⟨-, hb⟩, ho⟩; exact ⟨ho, t, hgap, hb⟩
  · rintro ⟨ho, t', ht', hb⟩
    rw [huniq t' ht'] at hb
    exact ⟨⟨fun h => h.1 ho, hb⟩, ho⟩

theorem holes_agree (hg : ∀ r, (P.group r).flatten = r.points) {proj : Fin n → Fin n → Mask d} {k : Fin n}
    (hproj : ∀ m, P.cut s m k = true → P.projected s m k = some (proj m k)) {hm : Mask d}
    (h : P.holes s proj k = some hm) : Agree (P.grid k).cart hm (Spec.Hole P start k) := by
  have hl := hL k
  have hpr : ∀ m, P.cut s m k = true → Agree (P.grid k).cart (proj m k) (Spec.Projected P start m k) :=
    fun m hm => projected_agree hL hC hA (hproj m hm)
  unfold Problem.holes at h
  simp only [Option.bind_eq_bind, Option.bind_eq_some_iff] at h
  obtain ⟨pe, hpe, h⟩ := h
  have hbar : Agree (P.grid k).cart (fun p => s.domBdry k p || decide (∃ m, P.cut s m k = true ∧ proj m k p = true))
      (Spec.Barrier P start k) := by
    intro p hp
    rw [Bool.or_eq_true, hA.bdry k p hp, decide_eq_true_eq]
    refine or_congr_right (exists_congr fun m => ?_)
    rw [← cut_agree hL hA]
    exact and_congr_right fun hm => hpr m hm p hp
  have hseed : Agree (P.grid k).cart
      (fun p => decide (∃ m, P.cut s m k = true ∧ (pe m p && s.overlap m k p) = true)) (Spec.Seed P start k) := by
    intro p hp
    rw [decide_eq_true_eq]
    refine exists_congr fun m => ?_
    rw [← cut_agree hL hA]
    refine and_congr_right fun hm => ?_
    have := forAll_some hpe m
    rw [if_pos hm] at this
    rw [Bool.and_eq_true, shell_agree hl (by simp) (hpr m hm) this p hp, hA.overlap m k p hp, and_comm]
  split at h
  · rename_i hcnt
    simp only [Option.bind_eq_some_iff] at h
    obtain ⟨fl, hfl, ae, hae, ie, hie, h⟩ := h
    cases h
    obtain ⟨fl', hfl', hspec⟩ := C16_flood (loc := (P.grid k).loc) (ext := (P.grid k).ext) hg hl.proper hl.unique
      hl.tiles hl.offers
      (fun p => decide (∃ m, P.cut s m k = true ∧ (pe m p && s.overlap m k p) = true))
      (fun p => s.domBdry k p || decide (∃ m, P.cut s m k = true ∧ proj m k p = true))
    obtain rfl : fl = fl' := Option.some.inj (hfl.symm.trans hfl')
    have hint : Agree (P.grid k).cart fl (Spec.Interior P start k) := by
      intro p hp
      rw [hspec p hp, hseed p hp]
      constructor
      · rintro (h | ⟨q, hq, hr⟩)
        · exact .seed h
        · clear hp
          induction hr with
          | start hs hb => exact .seed ((hseed q hs).1 hq)
          | @step a b hr hadj hb ih =>
            have hba := (Reaches.joined hr).2
            rcases hadj with hadj | hadj
            · exact .step ih ((hbar.not hadj.1).1 hba) hadj.1 hadj.2.1 hadj.2.2 ((hbar.not hadj.2.1).1 hb)
            · exact .step ih ((hbar.not hadj.2.1).1 hba) hadj.2.1 hadj.1 (within_symm hadj.2.2)
                ((hbar.not hadj.1).1 hb)
      · intro h
        have : ∀ p, Spec.Flooded (P.grid k).cart (Spec.Seed P start k) (Spec.Barrier P start k) p →
            Ovk.Spec.pts (P.grid k).cart.range p → Spec.Seed P start k p ∨ ∃ q,
              (fun p => decide (∃ m, P.cut s m k = true ∧ (pe m p && s.overlap m k p) = true)) q = true ∧
              Ovk.Spec.Reaches (P.grid k).cart
                (fun p => s.domBdry k p || decide (∃ m, P.cut s m k = true ∧ proj m k p = true)) q p := by
          intro p h
          induction h with
          | seed h => intro _; exact .inl h
          | @step a b ha hba hpa hpb hw hbb ih =>
            intro _
            right
            rcases ih hpa with h | ⟨q, hq, hr⟩
            · exact ⟨a, (hseed a hpa).2 h, .step (.start hpa ((hbar.not hpa).2 hba)) (.inl ⟨hpa, hpb, hw⟩)
                ((hbar.not hpb).2 hbb)⟩
            · exact ⟨q, hq, .step hr (.inl ⟨hpa, hpb, hw⟩) ((hbar.not hpb).2 hbb)⟩
        exact this p h hp
    have hex : ∃ q, Ovk.Spec.pts (P.grid k).cart.range q ∧ Spec.Seed P start k q := by
      by_contra hc
      have h0 : (P.grid k).count (fun p => decide (∃ m, P.cut s m k = true ∧ (pe m p && s.overlap m k p) = true)) = 0 :=
        (count_zero hl _).2 fun q hq => by
          rw [hseed.not hq]; exact fun h => hc ⟨q, hq, h⟩
      omega
    have hae' := rim_agree hl (hA.active k) hae
    have hie' := shell_agree hl (by simp) hint hie
    intro p hp
    rw [Bool.and_eq_true, Bool.and_eq_true, hA.active k p hp, Bool.not_eq_true', hint.not hp]
    unfold Spec.Hole
    simp only [hex, true_and, and_assoc]
    refine and_congr_right fun _ => and_congr_right fun hni => ?_
    have e1 := hA.bdry k p hp
    have e2 := hae' p hp
    have e3 := hie' p hp
    have e4 := hbar p hp
    have e5 : Spec.Shell (P.grid k).cart (Spec.Interior P start k) p ↔
        Spec.Ball (P.grid k).cart 1 (Spec.Interior P start k) p := ⟨fun h => h.2, fun h => ⟨hni, h⟩⟩
    rw [← e1, ← e2, ← e5, ← e3, ← e4]
    by_cases hif : (s.domBdry k p && ae p && !ie p) = true
    · rw [if_pos hif]
      simp only [Bool.and_eq_true, Bool.not_eq_true'] at hif
      simp [hif.1.1, hif.1.2, hif.2]
    · rw [if_neg hif]
      simp only [Bool.and_eq_true, Bool.not_eq_true', not_and, Bool.not_eq_false] at hif
      simp only [Bool.not_eq_true', Bool.not_eq_true]
      constructor
      · intro h; exact .inl h
      · rintro (h | ⟨h1, h2, h3⟩)
        · exact h
        · rw [hif ⟨h1, h2⟩] at h3; cases h3
  · rename_i hcnt
    cases h
    intro p hp
    simp only [Bool.false_eq_true, false_iff]
    rintro ⟨⟨q, hq, hsd⟩, -⟩
    have h0 := (count_zero hl _).1 (Nat.eq_zero_of_not_pos hcnt) q hq
    rw [hseed.not hq] at h0
    exact h0 hsd
end

/-- Flags written by the overlap stage, and the state when boundaries are inferred. -/
theorem after_infer (hL : Ovk.Spec.Layouts P) {flags : Fin n → Tup d → Flags} {s1 : St d n}
    (h1 : P.inferBoundaries_ (P.detectOverlap (initAssembly flags)) = some s1) :
    After P (fun k p => resetFlags (flags k p)) s1 ∧ ∀ k p, Ovk.Spec.pts (P.grid k).cart.range p →
      (s1.flags k p .inferredDomainBoundary = true ↔ Spec.Inferred P (fun k p => resetFlags (flags k p)) k p) ∧
      (s1.flags k p .domainBoundary = true ↔ resetFlags (flags k p) .domainBoundary = true ∨
        Spec.Inferred P (fun k p => resetFlags (flags k p)) k p) := by
  set start : Fin n → Tup d → Flags := fun k p => resetFlags (flags k p) with hstart
  set s0 := P.detectOverlap (initAssembly flags) with hs0
  have hov : ∀ m k p, s0.ov m k p = if start k p .active then P.found m k p else none := fun _ _ _ => rfl
  have hoverlap : ∀ m k p, s0.overlap m k p = (s0.ov m k p).isSome := fun _ _ _ => rfl
  have hact : ∀ k p, s0.active k p = start k p .active := fun _ _ => rfl
  have hbd : ∀ k p, s0.domBdry k p = (start k p .active && start k p .domainBoundary) := fun _ _ => rfl
  unfold Problem.inferBoundaries_ at h1
  simp only [Option.bind_eq_bind, Option.bind_eq_some_iff] at h1
  obtain ⟨edge, he, h1⟩ := h1
  cases h1
  have hrim : ∀ k, Agree (P.grid k).cart (edge k) (Spec.Rim (P.grid k).cart (Spec.Active start k)) := fun k =>
    rim_agree (hL k) (fun p _ => by rw [hact]; rfl) (forAll_some he k)
  have hinf : ∀ k p, Ovk.Spec.pts (P.grid k).cart.range p → ((P.inferBoundaries k &&
      (edge k p && !s0.domBdry k p && !decide (∃ m, P.ovExists s0 m k = true ∧ (s0.ov m k p).isSome = true))) = true ↔
      Spec.Inferred P start k p) := by
    intro k p hp
    rw [Bool.and_eq_true, Bool.and_eq_true, Bool.and_eq_true, hrim k p hp]
    unfold Spec.Inferred
    refine and_congr_right fun _ => ?_
    rw [and_assoc]
    refine and_congr_right fun hr => ?_
    have ha : start k p .active = true := hr.1
    rw [hbd, ha, Bool.true_and, Bool.not_eq_true', Bool.not_eq_true', decide_eq_false_iff_not]
    refine and_congr_right fun _ => ?_
    constructor
    · intro h m
      by_contra hc
      have hs : (s0.ov m k p).isSome = true := by
        rw [hov, if_pos ha]; exact Option.isSome_iff_ne_none.2 hc
      refine h ⟨m, ?_, hs⟩
      unfold Problem.ovExists
      exact List.any_eq_true.2 ⟨p, (mem_gridPoints (hL k) p).2 hp, hs⟩
    · rintro h ⟨m, -, hs⟩
      rw [hov, if_pos ha, h m] at hs
      cases hs
  refine ⟨⟨hov, fun m k p _ => ?_, fun k p _ => ?_, fun k p hp => ?_⟩, fun k p hp => ?_⟩
  · show s0.overlap m k p = true ↔ _
    rw [hoverlap, hov]
    unfold Spec.Overlapped Spec.Active
    by_cases ha : start k p .active = true
    · rw [if_pos ha]; simp [ha]
    · rw [if_neg ha]; simp [ha]
  · show s0.active k p = true ↔ _
    rw [hact]; rfl
  · show (if P.inferBoundaries k = true then s0.domBdry k p || _ else s0.domBdry k p) = true ↔ _
    have := hinf k p hp
    rw [Bool.and_eq_true] at this
    have hb : s0.domBdry k p = true ↔ Spec.Active start k p ∧ start k p .domainBoundary = true := by
      rw [hbd, Bool.and_eq_true]; rfl
    unfold Spec.Bdry
    split
    · rename_i hi
      rw [Bool.or_eq_true, hb]
      constructor
      · rintro (h | h)
        · exact ⟨h.1, .inl h.2⟩
        · have := this.1 ⟨hi, h⟩
          exact ⟨this.2.1.1, .inr this⟩
      · rintro ⟨ha, h | h⟩
        · exact .inl ⟨ha, h⟩
        · exact .inr (this.2 h).2
    · rename_i hi
      rw [hb]
      constructor
      · rintro h; exact ⟨h.1, .inl h.2⟩
      · rintro ⟨ha, h | h⟩
        · exact ⟨ha, h⟩
        · exact absurd h.1 hi
  · have hf : ∀ x, x ≠ Flag.overlapped → s0.flags k p x = start k p x := fun x hx => overlap_other _ hx k p
    have hfl : ∀ x, x = Flag.inferredDomainBoundary ∨ x = .domainBoundary →
        (((if (P.inferBoundaries k &&
      (edge k p && !s0.domBdry k p && !decide (∃ m, P.ovExists s0 m k = true ∧ (s0.ov m k p).isSome = true))) = true then
        (s0.flags k p).or [.domainBoundary, .inferredDomainBoundary] else s0.flags k p) : Flags) x = true ↔
        start k p x = true ∨ Spec.Inferred P start k p) := by
      intro x hx
      by_cases hi : Spec.Inferred P start k p
      · rw [if_pos ((hinf k p hp).2 hi)]
        rcases hx with rfl | rfl <;> simp [Flags.or, hi]
      · rw [if_neg (fun h => hi ((hinf k p hp).1 h)), hf x (by rcases hx with rfl | rfl <;> simp)]
        simp [hi]
    refine ⟨?_, hfl _ (.inr rfl)⟩
    have h0 : start k p .inferredDomainBoundary = false := clean_reset _ _ id
    have := hfl _ (.inl rfl)
    rw [h0] at this
    simp only [Bool.false_eq_true, false_or] at this
    exact this

/-- The flags of the later stages. -/
theorem after_cut (hL : Ovk.Spec.Layouts P) {flags : Fin n → Tup d → Flags} {r : St d n × Problem.Conn d n}
    (h : P.assemble flags = some r) : ∃ s1 s2 s3,
      P.inferBoundaries_ (P.detectOverlap (initAssembly flags)) = some s1 ∧ P.cutBoundaryHoles_ s1 = some s2 ∧
      P.locateOuterFringe_ s2 = some s3 ∧
      (∀ k p, Ovk.Spec.pts (P.grid k).cart.range p → ∀ x,
        x ∉ [Flag.active, .fringe, .outerFringe, .occluded, .overlapMinimized, .innerFringe, .receiver, .orphan] →
        r.1.flags k p x = s2.flags k p x) ∧
      ∀ k p, Ovk.Spec.pts (P.grid k).cart.range p →
        (Spec.outer (r.1.flags k p) ↔ s3.outer k p = true) ∧
        (r.1.flags k p .outerFringe = true ↔ s3.outer k p = true ∧ r.1.flags k p .overlapMinimized = false) := by
  unfold Problem.assemble at h
  simp only [Option.bind_eq_bind, Option.bind_eq_some_iff] at h
  obtain ⟨s1, h1, s2, h2, s3, h3, s4, h4, s5, h5, h6⟩ := h
  have i1 := inv_infer hL (inv_overlap (P := P) flags) (fun k p => by
    show (resetFlags (flags k p) .active && resetFlags (flags k p) .domainBoundary) = _
    rw [overlap_other _ (by simp), overlap_other _ (by simp)]
    rfl) h1
  have i3 := inv_outer (inv_cut i1 h2) h3
  obtain ⟨mk, hmk, hfl⟩ := minimize_flags hL h5
  have hfin : ∀ k p, Ovk.Spec.pts (P.grid k).cart.range p → ∀ x, x ∉ [Flag.receiver, .orphan] →
      r.1.flags k p x = Problem.minimizeFlags ((mk k).1 p) ((mk k).2 p) (s4.flags k p) x := by
    intro k p hp x hx
    rw [generate_other h6 hx, hfl k p hp]
  refine ⟨s1, s2, s3, h1, h2, h3, fun k p hp x hx => ?_, fun k p hp => ?_⟩
  · simp only [List.mem_cons, List.not_mem_nil, or_false, not_or] at hx
    obtain ⟨a, b, c, e, f, g, i, j⟩ := hx
    rw [hfin k p hp x (by simp [i, j]), minimizeFlags_other _ _ _ (by simp [a, b, c, f, g]),
      occluded_other h4 i3.sub e, outer_other h3 (by simp [b, c])]
  · obtain ⟨o1, o2, -⟩ := outer_flag hL h3 (fun k p => by
      rw [cut_other h2 (by simp), cut_other h2 (by simp), infer_other h1 (by simp), infer_other h1 (by simp),
        overlap_other _ (by simp), overlap_other _ (by simp)]
      exact ⟨clean_reset _ _ id, clean_reset _ _ id⟩) k p hp
    have h0 : s4.flags k p .overlapMinimized = false := by
      rw [occluded_other h4 i3.sub (by simp)]; exact before_occluded h1 h2 h3 k p (by simp)
    have hf : s4.flags k p .fringe = s3.outer k p := by rw [occluded_other h4 i3.sub (by simp), o2]
    have ho : s4.flags k p .outerFringe = s3.outer k p := by rw [occluded_other h4 i3.sub (by simp), o1]
    unfold Spec.outer
    rw [hfin k p hp _ (by simp), hfin k p hp _ (by simp), hfin k p hp _ (by simp)]
    unfold Problem.minimizeFlags
    cases (mk k).1 p <;> cases (mk k).2 p <;> simp [Flags.or, Flags.andNot, h0, hf, ho]

/-- C80: the points flagged as inferred boundary are the active, not yet flagged points at the edge of the active
points that no other grid overlaps, on the grids with that option. -/
theorem C80_inferred (hL : Ovk.Spec.Layouts P) {flags : Fin n → Tup d → Flags} {r : St d n × Problem.Conn d n}
    (h : P.assemble flags = some r) (k : Fin n) (p : Tup d) (hp : Ovk.Spec.pts (P.grid k).cart.range p) :
    r.1.flags k p .inferredDomainBoundary = true ↔ Spec.Inferred P (fun k p => resetFlags (flags k p)) k p := by
  obtain ⟨s1, s2, s3, h1, h2, h3, hf, -⟩ := after_cut hL h
  rw [hf k p hp _ (by simp), cut_other h2 (by simp)]
  exact ((after_infer hL h1).2 k p hp).1

/-- C80: the domain boundary afterwards is the given one and the inferred one. -/
theorem C80_boundary (hL : Ovk.Spec.Layouts P) {flags : Fin n → Tup d → Flags} {r : St d n × Problem.Conn d n}
    (h : P.assemble flags = some r) (k : Fin n) (p : Tup d) (hp : Ovk.Spec.pts (P.grid k).cart.range p) :
    r.1.flags k p .domainBoundary = true ↔ resetFlags (flags k p) .domainBoundary = true ∨
      Spec.Inferred P (fun k p => resetFlags (flags k p)) k p := by
  obtain ⟨s1, s2, s3, h1, h2, h3, hf, -⟩ := after_cut hL h
  rw [hf k p hp _ (by simp), cut_other h2 (by simp)]
  exact ((after_infer hL h1).2 k p hp).2

/-- Points cut by the boundary hole stage. -/
theorem cut_hole (hL : Ovk.Spec.Layouts P) (hC : Spec.Cells P) (hg : ∀ r, (P.group r).flatten = r.points)
    {start : Fin n → Tup d → Flags} (hA : After P start s) (h : P.cutBoundaryHoles_ s = some s')
    (h0 : ∀ k p, s.flags k p .boundaryHole = false) (k : Fin n) (p : Tup d)
    (hp : Ovk.Spec.pts (P.grid k).cart.range p) :
    s'.flags k p .boundaryHole = true ↔ Spec.Hole P start k p := by
  unfold Problem.cutBoundaryHoles_ at h
  simp only [Option.bind_eq_bind, Option.bind_eq_some_iff] at h
  obtain ⟨proj, hproj, hole, hhole, h⟩ := h
  cases h
  show (if (P.cutN s k && decide ((P.grid k).count (hole k) ≠ 0) && hole k p) = true then
    ((s.flags k p).andNot [.active]).or [.boundaryHole] else s.flags k p : Flags) .boundaryHole = true ↔ _
  have hh := forAll_some hhole k
  have hno : P.cutN s k = false → ¬ Spec.Hole P start k p := by
    rintro hn ⟨⟨q, hq, m, hm, -⟩, -⟩
    rw [← cut_agree hL hA] at hm
    unfold Problem.cutN at hn
    exact of_decide_eq_false hn ⟨m, hm⟩
  cases hc : P.cutN s k with
  | false => simp [h0, hno hc]
  | true =>
    rw [hc, if_pos rfl] at hh
    have hagree := holes_agree hL hC hA hg (fun m hm => by
      have := forAll_some (forAll_some hproj m) k
      rw [if_pos hm] at this; exact this) hh p hp
    rw [← hagree]
    cases hm : hole k p with
    | false => simp [h0]
    | true =>
      have : (P.grid k).count (hole k) ≠ 0 := fun hz => by
        rw [(count_zero (hL k) _).1 hz p hp] at hm; cases hm
      simp [this, Flags.or]

/-- C81: the points cut as boundary holes are those on the far side of the boundaries. -/
theorem C81_holes (hL : Ovk.Spec.Layouts P) (hC : Spec.Cells P) (hg : ∀ r, (P.group r).flatten = r.points)
    {flags : Fin n → Tup d → Flags} {r : St d n × Problem.Conn d n} (h : P.assemble flags = some r) (k : Fin n)
    (p : Tup d) (hp : Ovk.Spec.pts (P.grid k).cart.range p) :
    r.1.flags k p .boundaryHole = true ↔ Spec.Hole P (fun k p => resetFlags (flags k p)) k p := by
  obtain ⟨s1, s2, s3, h1, h2, h3, hf, -⟩ := after_cut hL h
  rw [hf k p hp _ (by simp)]
  refine cut_hole hL hC hg (after_infer hL h1).1 h2 (fun k p => ?_) k p hp
  rw [infer_other h1 (by simp), overlap_other _ (by simp)]
  exact clean_reset _ _ id

/-- C81: without boundary points that lie in a grid, no other grid cuts points of it. -/
theorem C81_boundary (hL : Ovk.Spec.Layouts P) (hC : Spec.Cells P) (hg : ∀ r, (P.group r).flatten = r.points)
    {flags : Fin n → Tup d → Flags} {r : St d n × Problem.Conn d n} (h : P.assemble flags = some r) (k : Fin n)
    (hno : ∀ m, P.cutBoundaryHoles m k = true → ∀ q, Ovk.Spec.pts (P.grid m).cart.range q →
      (P.found k m q).isSome = true → r.1.flags m q .domainBoundary = false)
    (p : Tup d) (hp : Ovk.Spec.pts (P.grid k).cart.range p) : r.1.flags k p .boundaryHole = false := by
  rw [← Bool.not_eq_true, C81_holes hL hC hg h k p hp]
  rintro ⟨⟨q, hq, m, hm, -, -, q', hq', ⟨-, t, -, q2, hq2, ⟨-, q3, hq3, ⟨q4, cell, hq4, hb, hf, ha, -⟩, -⟩, -⟩, -⟩, -⟩
  have := hno m hm.1 q4 hq4 (by rw [hf]; rfl)
  rw [← Bool.not_eq_true, C80_boundary hL h m q4 hq4] at this
  exact this hb.2

/-- C81: overlapped points beside the projected boundary, and what they reach without crossing a boundary, stay. -/
theorem C81_interior (hL : Ovk.Spec.Layouts P) (hC : Spec.Cells P) (hg : ∀ r, (P.group r).flatten = r.points)
    {flags : Fin n → Tup d → Flags} {r : St d n × Problem.Conn d n} (h : P.assemble flags = some r) (k : Fin n)
    (p : Tup d) (hp : Ovk.Spec.pts (P.grid k).cart.range p)
    (hi : Spec.Interior P (fun k p => resetFlags (flags k p)) k p) : r.1.flags k p .boundaryHole = false := by
  rw [← Bool.not_eq_true, C81_holes hL hC hg h k p hp]
  exact fun hh => hh.2.2.1 hi

theorem samePoint_exterior (c : Cart d) (x y : Tup d) :
    Ovk.Spec.SamePoint (cartIncludeExterior c) x y ↔ Ovk.Spec.SamePoint c x y := by
  unfold Ovk.Spec.SamePoint
  refine forall_congr' fun i => ?_
  show (if c.periodic i = true then _ else _) ↔ _
  by_cases hp : c.periodic i = true
  · rw [if_pos hp, if_pos hp]
    have : Ovk.Spec.periodLen (cartIncludeExterior c) i = Ovk.Spec.periodLen c i := by
      simp [Ovk.Spec.periodLen, cartIncludeExterior, hp]
    rw [this]
  · rw [if_neg hp, if_neg hp]

theorem at_same {c : Cart d} {R : Tup d → Prop} {x y : Tup d} (h : Ovk.Spec.SamePoint c x y) :
    Spec.At c R x ↔ Spec.At c R y := by
  constructor
  · rintro ⟨q, hq, hs, hR⟩; exact ⟨q, hq, samePoint_trans (samePoint_symm h) hs, hR⟩
  · rintro ⟨q, hq, hs, hR⟩; exact ⟨q, hq, samePoint_trans h hs, hR⟩

theorem at_self {g : Grid d} (hl : Ovk.Spec.Layout g.cart g.loc g.ext) {R : Tup d → Prop} {p : Tup d}
    (hp : Ovk.Spec.pts g.cart.range p) : Spec.At g.cart R p ↔ R p := by
  constructor
  · rintro ⟨q, hq, hs, hR⟩
    have : p = q := by
      rw [← canonical_in_range hl.proper hl.unique hq hs,
        canonical_in_range hl.proper hl.unique hp (samePoint_refl _ p)]
    rw [this]; exact hR
  · intro h; exact ⟨p, hp, samePoint_refl _ p, h⟩

/-- Outer edge including the positions around the grid. -/
theorem exterior_edge {g : Grid d} (hl : Ovk.Spec.Layout g.cart g.loc g.ext)
    (hne : ∀ k i, (g.loc k).b i < (g.loc k).e i) {m e : Mask d} {R : Tup d → Prop} (hm : Agree g.cart m R)
    (h : detectEdge g.cart .false false true m g.ranges = some e) (p : Tup d)
    (hp : Ovk.Spec.pts (cartIncludeExterior g.cart).range p) :
    e p = true ↔ ¬ Spec.At g.cart R p ∧ ∃ x, Ovk.Spec.Near 1 p x ∧ Spec.At g.cart R x := by
  obtain ⟨e', h1, h2⟩ := C17_edge hl hne .false false true m
  obtain rfl : e = e' := Option.some.inj (h.symm.trans h1)
  rw [(h2 p (by simpa using hp)).2]
  have htrue : ∀ x, Ovk.Spec.Reads g.cart .false m x true ↔ Spec.At g.cart R x := by
    intro x
    constructor
    · rintro (⟨q, hq, hs, hv⟩ | ⟨-, hv⟩)
      · exact ⟨q, hq, hs, (hm q hq).1 hv⟩
      · cases hv
    · rintro ⟨q, hq, hs, hR⟩; exact .inl ⟨q, hq, hs, (hm q hq).2 hR⟩
  have hfalse : Ovk.Spec.Reads g.cart .false m p false ↔ ¬ Spec.At g.cart R p := by
    rw [← htrue]
    constructor
    · intro h h'; exact absurd (reads_fn hl.proper hl.unique h h') (by simp)
    · intro h
      by_cases hex : Ovk.Spec.Exists g.cart p
      · obtain ⟨q, hq, hs⟩ := hex
        refine .inl ⟨q, hq, hs, ?_⟩
        by_contra hc
        exact h (.inl ⟨q, hq, hs, by simpa using hc⟩)
      · exact .inr ⟨hex, rfl⟩
  rw [hfalse]
  refine and_congr_right fun _ => exists_congr fun x => and_congr_right fun _ => ?_
  exact htrue x

/-- The mask of the outer fringe. -/
theorem outerMask_agree {k : Fin n} (hl : Ovk.Spec.Layout (P.grid k).cart (P.grid k).loc (P.grid k).ext)
    (hne : ∀ r i, ((P.grid k).loc r).b i < ((P.grid k).loc r).e i) {A B : Tup d → Prop}
    (hA : Agree (P.grid k).cart (s.active k) A)
    (hB : Agree (P.grid k).cart (fun p => s.domBdry k p || s.intBdry k p) (fun p => A p ∧ B p)) {o : Mask d}
    (h : P.outerMask s k = some o) : Agree (P.grid k).cart o (fun p => A p ∧
      ∃ x, Ovk.Spec.Near (P.fringeSize k) p x ∧ ¬ Spec.At (P.grid k).cart A x ∧
        ∃ y, Ovk.Spec.Near 1 x y ∧ Spec.At (P.grid k).cart (fun q => A q ∧ ¬ B q) y) := by
  unfold Problem.outerMask at h
  simp only [Option.bind_eq_bind, Option.bind_eq_some_iff] at h
  obtain ⟨e1, h1, e2, h2, e3, h3, e4, h4, h⟩ := h
  cases h
  have hF : Agree (P.grid k).cart (fun p => s.active k p && !(s.domBdry k p || s.intBdry k p))
      (fun q => A q ∧ ¬ B q) := by
    intro p hp
    rw [Bool.and_eq_true, Bool.not_eq_true', hA p hp, hB.not hp]
    exact ⟨fun h => ⟨h.1, fun hb => h.2 ⟨h.1, hb⟩⟩, fun h => ⟨h.1, fun hb => h.2 hb.2⟩⟩
  have hm3 : ∀ q, Ovk.Spec.pts (cartIncludeExterior (P.grid k).cart).range q →
      ((e3 q && (e2 q || !e1 q)) = true ↔ ¬ Spec.At (P.grid k).cart A q ∧
        ∃ y, Ovk.Spec.Near 1 q y ∧ Spec.At (P.grid k).cart (fun q => A q ∧ ¬ B q) y) := by
    intro q hq
    rw [Bool.and_eq_true, Bool.or_eq_true, Bool.not_eq_true', ← Bool.not_eq_true, exterior_edge hl hne hA h3 q hq,
      exterior_edge hl hne hF h2 q hq, exterior_edge hl hne hB h1 q hq]
    constructor
    · rintro ⟨⟨hn, x, hx, q', hq', hs, ha⟩, hor⟩
      refine ⟨hn, ?_⟩
      rcases hor with ⟨-, h⟩ | h
      · exact h
      · refine ⟨x, hx, q', hq', hs, ha, fun hb => h ⟨?_, x, hx, q', hq', hs, ha, hb⟩⟩
        rintro ⟨q'', a, b, c, -⟩
        exact hn ⟨q'', a, b, c⟩
    · rintro ⟨hn, y, hy, q', hq', hs, ha, hb⟩
      refine ⟨⟨hn, y, hy, q', hq', hs, ha⟩, .inl ⟨?_, y, hy, q', hq', hs, ha, hb⟩⟩
      rintro ⟨q'', a, b, c, -⟩
      exact hn ⟨q'', a, b, c⟩
  have hlx := layout_exterior hl hne
  obtain ⟨e4', hd1, hd2⟩ := C17_dilate hlx .false (P.fringeSize k) (fun p => e3 p && (e2 p || !e1 p))
  obtain rfl : e4 = e4' := Option.some.inj (h4.symm.trans hd1)
  intro p hp
  have hpx : Ovk.Spec.pts (cartIncludeExterior (P.grid k).cart).range p := by
    intro i
    have := hp i
    simp only [cartIncludeExterior]
    split <;> omega
  rw [Bool.and_eq_true, hA p hp, hd2 p hpx]
  refine and_congr_right fun _ => exists_congr fun x => and_congr_right fun hx => ?_
  have hopen : ∀ x q, Ovk.Spec.SamePoint (P.grid k).cart x q →
      (¬ Spec.At (P.grid k).cart A x ∧ ∃ y, Ovk.Spec.Near 1 x y ∧ Spec.At (P.grid k).cart (fun q => A q ∧ ¬ B q) y) →
      ¬ Spec.At (P.grid k).cart A q ∧
        ∃ y, Ovk.Spec.Near 1 q y ∧ Spec.At (P.grid k).cart (fun q => A q ∧ ¬ B q) y := by
    rintro x q hs ⟨hn, y, hy, ha⟩
    refine ⟨fun h => hn ((at_same hs).2 h), fun i => y i + (q i - x i), fun i => ?_, (at_same (samePoint_shift hs)).2 ha⟩
    have := hy i; dsimp only; omega
  constructor
  · rintro (⟨q, hq, hs, hv⟩ | ⟨hf, -⟩)
    · rw [samePoint_exterior] at hs
      exact hopen q x (samePoint_symm hs) ((hm3 q hq).1 hv)
    · cases hf
  · intro h
    have hex : Ovk.Spec.Exists (cartIncludeExterior (P.grid k).cart) x := by
      rw [exists_iff hlx.proper hlx.unique]
      intro i hi
      have hi : (P.grid k).cart.periodic i = false := hi
      obtain ⟨-, y, hy, q', hq', hs, -⟩ := h
      have h1 := (exists_iff hl.proper hl.unique y).1 ⟨q', hq', hs⟩ i hi
      have h2 := hy i
      simp only [cartIncludeExterior, hi, if_true]
      omega
    obtain ⟨q, hq, hs⟩ := hex
    refine .inl ⟨q, hq, hs, (hm3 q hq).2 ?_⟩
    rw [samePoint_exterior] at hs
    exact hopen x q hs h

/-- Masks and flags agree after holes were cut. -/
theorem cut_masks (h : P.cutBoundaryHoles_ s = some s') {k : Fin n} {p : Tup d}
    (h0 : s.active k p = s.flags k p .active ∧
      s.domBdry k p = (s.flags k p .active && s.flags k p .domainBoundary) ∧
      s.intBdry k p = (s.flags k p .active && s.flags k p .internalBoundary)) :
    s'.active k p = s'.flags k p .active ∧
      s'.domBdry k p = (s'.flags k p .active && s'.flags k p .domainBoundary) ∧
      s'.intBdry k p = (s'.flags k p .active && s'.flags k p .internalBoundary) := by
  unfold Problem.cutBoundaryHoles_ at h
  simp only [Option.bind_eq_bind, Option.bind_eq_some_iff] at h
  obtain ⟨proj, hproj, hole, hhole, h⟩ := h
  cases h
  set sel : Fin n → Bool := fun k => P.cutN s k && decide ((P.grid k).count (hole k) ≠ 0) with hsel
  set w := s.write sel hole fun f => (f.andNot [.active]).or [.boundaryHole] with hw
  show (if sel k = true then activeMask (w.flags k) else s.active k) p = w.flags k p .active ∧
    (if sel k = true then domainBoundaryMask (w.flags k) else s.domBdry k) p =
      (w.flags k p .active && w.flags k p .domainBoundary) ∧
    (if sel k = true then internalBoundaryMask (w.flags k) else s.intBdry k) p =
      (w.flags k p .active && w.flags k p .internalBoundary)
  cases hk : sel k with
  | true => exact ⟨rfl, rfl, rfl⟩
  | false =>
    have : w.flags k p = s.flags k p := by
      show (if (sel k && hole k p) = true then _ else _) = _
      rw [hk]; rfl
    rw [this]
    exact h0

/-- The outer fringe when it is located. -/
theorem outer_agree (hL : Ovk.Spec.Layouts P) (hne : ∀ k r i, ((P.grid k).loc r).b i < ((P.grid k).loc r).e i)
    {flags : Fin n → Tup d → Flags} {s1 s2 s3 : St d n}
    (h1 : P.inferBoundaries_ (P.detectOverlap (initAssembly flags)) = some s1)
    (h2 : P.cutBoundaryHoles_ s1 = some s2) (h3 : P.locateOuterFringe_ s2 = some s3)
    {final : Fin n → Tup d → Flags} (hfin : ∀ k p, Ovk.Spec.pts (P.grid k).cart.range p →
      final k p .boundaryHole = s2.flags k p .boundaryHole ∧ final k p .domainBoundary = s2.flags k p .domainBoundary)
    (k : Fin n) : Agree (P.grid k).cart (s3.outer k) (Spec.Outer P (fun k p => resetFlags (flags k p)) final k) := by
  have i1 := inv_infer hL (inv_overlap (P := P) flags) (fun k p => by
    show (resetFlags (flags k p) .active && resetFlags (flags k p) .domainBoundary) = _
    rw [overlap_other _ (by simp), overlap_other _ (by simp)]
    rfl) h1
  have i2 := inv_cut i1 h2
  have hint1 : ∀ k p, s1.intBdry k p = (resetFlags (flags k p) .active && resetFlags (flags k p) .internalBoundary) := by
    unfold Problem.inferBoundaries_ at h1
    simp only [Option.bind_eq_bind, Option.bind_eq_some_iff] at h1
    obtain ⟨_, -, h1⟩ := h1
    cases h1
    intro k p; rfl
  have hm1 : ∀ k p, Ovk.Spec.pts (P.grid k).cart.range p → s1.active k p = s1.flags k p .active ∧
      s1.domBdry k p = (s1.flags k p .active && s1.flags k p .domainBoundary) ∧
      s1.intBdry k p = (s1.flags k p .active && s1.flags k p .internalBoundary) := by
    intro k p hp
    have hact : s1.flags k p .active = resetFlags (flags k p) .active := by
      rw [infer_other h1 (by simp), overlap_other _ (by simp)]; rfl
    refine ⟨i1.sync k p hp, ?_, ?_⟩
    · obtain ⟨hA, hB⟩ := after_infer hL h1
      rw [Bool.eq_iff_iff, hA.bdry k p hp, Bool.and_eq_true, (hB k p hp).2, hact]
      rfl
    · rw [hint1, hact, (i1.rel k p hp).int]
  have hmin : ∀ k p, s2.flags k p .overlapMinimized = false := by
    intro k p
    rw [cut_other h2 (by simp), infer_other h1 (by simp), overlap_other _ (by simp)]
    exact clean_reset _ _ id
  have hlive : ∀ k, Agree (P.grid k).cart (s2.active k)
      (fun q => Spec.live (resetFlags (flags k q)) (final k q)) := by
    intro k p hp
    rw [(cut_masks h2 (hm1 k p hp)).1, (i2.rel k p hp).act, hmin]
    show _ ↔ resetFlags (flags k p) .active = true ∧ final k p .boundaryHole = false
    rw [(hfin k p hp).1]
    simp
  have hb : ∀ k, Agree (P.grid k).cart (fun p => s2.domBdry k p || s2.intBdry k p)
      (fun q => Spec.live (resetFlags (flags k q)) (final k q) ∧
        (final k q .domainBoundary = true ∨ resetFlags (flags k q) .internalBoundary = true)) := by
    intro k p hp
    obtain ⟨a, b, c⟩ := cut_masks h2 (hm1 k p hp)
    have hl := hlive k p hp
    show (s2.domBdry k p || s2.intBdry k p) = true ↔ Spec.live (resetFlags (flags k p)) (final k p) ∧
      (final k p .domainBoundary = true ∨ resetFlags (flags k p) .internalBoundary = true)
    rw [show Spec.live (resetFlags (flags k p)) (final k p) ↔ s2.active k p = true from hl.symm, b, c, ← a,
      (hfin k p hp).2, (i2.rel k p hp).int]
    cases s2.active k p <;> simp
  unfold Problem.locateOuterFringe_ at h3
  simp only [Option.bind_eq_bind, Option.bind_eq_some_iff] at h3
  obtain ⟨outer, ho, h3⟩ := h3
  cases h3
  show Agree _ (outer k) _
  have ho := forAll_some ho k
  by_cases hz : P.fringeSize k = 0
  · rw [if_pos hz] at ho
    rw [← Option.some.inj ho]
    intro p hp
    simp only [Bool.false_eq_true, false_iff]
    rintro ⟨ha, x, hx, hn, -⟩
    rw [hz] at hx
    obtain rfl : x = p := by funext i; have := hx i; push_cast at this; omega
    exact hn ⟨x, hp, samePoint_refl _ x, ha⟩
  · rw [if_neg hz] at ho
    intro p hp
    rw [outerMask_agree (hL k) (hne k) (hlive k) (hb k) ho p hp]
    unfold Spec.Outer
    refine and_congr_right fun _ => exists_congr fun x => and_congr_right fun _ => and_congr_right fun _ =>
      exists_congr fun y => and_congr_right fun _ => ?_
    simp only [not_or, Bool.not_eq_true]

/-- C82: the outer fringe consists of the remaining points within the fringe size of a position that is no remaining
point, next to a remaining point that is not on a boundary. -/
theorem C82_outer (hL : Ovk.Spec.Layouts P) (hne : ∀ k r i, ((P.grid k).loc r).b i < ((P.grid k).loc r).e i)
    {flags : Fin n → Tup d → Flags} {r : St d n × Problem.Conn d n} (h : P.assemble flags = some r) (k : Fin n)
    (p : Tup d) (hp : Ovk.Spec.pts (P.grid k).cart.range p) :
    Spec.outer (r.1.flags k p) ↔ Spec.Outer P (fun k p => resetFlags (flags k p)) r.1.flags k p := by
  obtain ⟨s1, s2, s3, h1, h2, h3, hf, ho⟩ := after_cut hL h
  rw [(ho k p hp).1]
  exact outer_agree hL hne h1 h2 h3 (fun k p hp => ⟨hf k p hp _ (by simp), hf k p hp _ (by simp)⟩) k p hp

/-- C82: the flag is kept unless the point is removed. -/
theorem C82_flag (hL : Ovk.Spec.Layouts P) (hne : ∀ k r i, ((P.grid k).loc r).b i < ((P.grid k).loc r).e i)
    {flags : Fin n → Tup d → Flags} {r : St d n × Problem.Conn d n} (h : P.assemble flags = some r) (k : Fin n)
    (p : Tup d) (hp : Ovk.Spec.pts (P.grid k).cart.range p) :
    r.1.flags k p .outerFringe = true ↔ Spec.Outer P (fun k p => resetFlags (flags k p)) r.1.flags k p ∧
      r.1.flags k p .overlapMinimized = false := by
  obtain ⟨s1, s2, s3, h1, h2, h3, hf, ho⟩ := after_cut hL h
  rw [(ho k p hp).2]
  refine and_congr_left fun _ => ?_
  exact outer_agree hL hne h1 h2 h3 (fun k p hp => ⟨hf k p hp _ (by simp), hf k p hp _ (by simp)⟩) k p hp

/- Both ends of the first grid of the example of C43 become boundary points, no other points do. -/
example : ((exProblem.assemble exFlags).map fun r => [0, 1].map fun g => [0, 1, 2, 3].map fun x =>
    r.1.flags g (fun _ => x) .inferredDomainBoundary) =
    some [[true, false, false, true], [false, false, false, false]] := by decide +kernel

/- So the end is an inferred boundary point in the sense of the specification. -/
example : Spec.Inferred exProblem (fun k p => resetFlags (exFlags k p)) 0 (fun _ => 3) := by
  cases h : exProblem.assemble exFlags with
  | none => exact absurd h (by decide +kernel)
  | some r =>
    rw [← C80_inferred exProblem_layouts h 0 (fun _ => 3) (fun _ => by show (0 : Int) ≤ 3 ∧ (3 : Int) < 4; omega)]
    have : ((exProblem.assemble exFlags).map fun r => r.1.flags 0 (fun _ => 3) .inferredDomainBoundary) = some true := by
      decide +kernel
    rw [h] at this
    exact Option.some.inj this

theorem exHole_cells : Spec.Cells exHole := by
  intro m k p cell hp hf i _
  have hp := hp i
  obtain rfl : i = 0 := Subsingleton.elim _ _
  fin_cases m <;> fin_cases k <;> simp [exHole] at hf <;>
    simp only [exHole, line, oneProc] at hp ⊢
  · rw [← hf.2]; decide
  · rw [← hf.2]; decide
  · subst hf; simp at hp ⊢; omega

/- The second grid, with its boundary at 1, cuts the points 2 and 3 of the third. -/
example : Ovk.Spec.Layouts exHole ∧ Spec.Cells exHole ∧ (∀ r, (exHole.group r).flatten = r.points) ∧
    ((exHole.assemble exHoleFlags).map fun r => [0, 1, 2, 3].map fun x => r.1.flags 2 (fun _ => x) .boundaryHole) =
    some [false, false, true, true] :=
  ⟨exHole_layouts, exHole_cells, fun r => by simp [exHole, CC.groupOne], by decide +kernel⟩

/- The end of the second grid that is not flagged as a boundary becomes the outer fringe. -/
example : (∀ k r i, ((exProblem.grid k).loc r).b i < ((exProblem.grid k).loc r).e i) ∧
    ((exProblem.assemble exFlags).map fun r => [0, 1].map fun g => [0, 1, 2, 3].map fun x =>
      r.1.flags g (fun _ => x) .outerFringe) =
    some [[false, false, false, false], [false, false, false, true]] :=
  ⟨fun k r i => by simp [exProblem, line, oneProc], by decide +kernel⟩

end Ovk.Asm
