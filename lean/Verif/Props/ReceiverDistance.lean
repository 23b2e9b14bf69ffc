/-
Property C45: distance to the boundary of the receiver region.
-/
import Verif.Props.Minimize

namespace Ovk.Asm
variable {d n : Nat}

namespace Spec
/-- A point of the boundary of a region: a point of the region with a neighbour that is not in it, or with a
neighbouring position outside the grid. -/
def Boundary (c : Cart d) (region : Mask d) (p : Tup d) : Prop :=
  Ovk.Spec.pts c.range p ∧ region p = true ∧ ∃ x, Ovk.Spec.Near 1 p x ∧
    ((∃ q, Ovk.Spec.pts c.range q ∧ Ovk.Spec.SamePoint c x q ∧ region q = false) ∨ ¬ Ovk.Spec.Exists c x)

/-- The boundary of the region is within `k` neighbour steps. -/
def Reachable (c : Cart d) (region : Mask d) (k : Nat) (p : Tup d) : Prop :=
  ∃ q, Boundary c region q ∧ Within c k p q

/-- `k` is the number of neighbour steps to the boundary of the region, capped at `cap`. -/
def Steps (c : Cart d) (region : Mask d) (cap : Nat) (p : Tup d) (k : Nat) : Prop :=
  k ≤ cap ∧ (k < cap → Reachable c region k p) ∧ ∀ j, j < k → ¬ Reachable c region j p

/-- The required value: the capped number of steps, negative inside the region. -/
def Distance (c : Cart d) (region : Mask d) (cap : Nat) (p : Tup d) (v : Int) : Prop :=
  ∃ k : Nat, Steps c region cap p k ∧ v = if region p then -(k : Int) else k
end Spec

/-- The property as stated. -/
def C45_statement : Prop := ∀ (d : Nat) (g : Grid d) (region : Mask d) (cap : Nat) (dist : Tup d → Int),
  Ovk.Spec.Layout g.cart g.loc g.ext → 1 ≤ cap → Problem.receiverDistances g region cap = some dist →
  ∀ p, Ovk.Spec.pts g.cart.range p → Spec.Distance g.cart region cap p (dist p)

theorem fillLoop_last (c : Cart d) (bc : MaskBC) (fill : Bool) (ranges : List (Rng d × Rng d)) :
    ∀ (k : Nat) (m : Mask d), fillLoop c bc fill ranges (k + 1) m =
      (fillLoop c bc fill ranges k m).bind (fillStep c bc fill ranges) := by
  intro k
  induction k with
  | zero =>
    intro m
    show (fillStep c bc fill ranges m).bind some = _
    rw [Option.bind_fun_some]; rfl
  | succ k ih =>
    intro m
    show (fillStep c bc fill ranges m).bind (fillLoop c bc fill ranges (k + 1)) =
      ((fillStep c bc fill ranges m).bind (fillLoop c bc fill ranges k)).bind _
    cases h : fillStep c bc fill ranges m with
    | none => rfl
    | some a => exact ih a

theorem dilate_one (c : Cart d) (ranges : List (Rng d × Rng d)) (bc : MaskBC) (m : Mask d) :
    dilateMask c ranges m 1 bc = fillStep c bc true ranges m := by
  show (fillStep c bc true ranges m).bind some = _
  rw [Option.bind_fun_some]

/-- Unset edge flags mark the boundary. -/
theorem edge_boundary {g : Grid d} (h : Ovk.Spec.Layout g.cart g.loc g.ext) (region : Mask d) :
    ∃ e, g.edge .false true region = some e ∧ ∀ p, Ovk.Spec.pts g.cart.range p →
      (e p = true ↔ Spec.Boundary g.cart region p) := by
  have ha : ∀ r ∈ rangesOf g.loc g.ext, Around g.cart (edgeLocalRange g.cart false r.1) r.2 := by
    intro r hr
    obtain ⟨k, rfl⟩ := (mem_rangesOf r).1 hr
    exact around_local (h.tiles.1 k) (h.offers k)
  obtain ⟨e, h1, h2⟩ := detectEdge_spec h.proper h.unique .false true false region _ ha
  refine ⟨e, h1, fun p hp => ?_⟩
  obtain ⟨k, hk, -⟩ := h.tiles.2 p hp
  rw [h2 p ⟨(g.loc k, g.ext k), (mem_rangesOf _).2 ⟨k, rfl⟩, hk⟩]
  have hself : ∀ v, Ovk.Spec.Reads g.cart .false region p v ↔ region p = v := by
    intro v
    constructor
    · intro hr
      exact reads_fn h.proper h.unique (.inl ⟨p, hp, samePoint_refl _ p, rfl⟩) hr
    · intro hv; exact .inl ⟨p, hp, samePoint_refl _ p, hv⟩
  rw [hself]
  constructor
  · rintro ⟨hr, x, hx, hv⟩
    refine ⟨hp, hr, x, hx, ?_⟩
    rcases hv with ⟨q, hq, hxq, hm⟩ | ⟨hn, -⟩
    · exact .inl ⟨q, hq, hxq, hm⟩
    · exact .inr hn
  · rintro ⟨-, hr, x, hx, hv⟩
    refine ⟨hr, x, hx, ?_⟩
    rcases hv with ⟨q, hq, hxq, hm⟩ | hn
    · exact .inl ⟨q, hq, hxq, hm⟩
    · exact .inr ⟨hn, rfl⟩

/-- The cover after `k` steps. -/
theorem cover_spec {g : Grid d} (h : Ovk.Spec.Layout g.cart g.loc g.ext) {region e : Mask d}
    (he : ∀ p, Ovk.Spec.pts g.cart.range p → (e p = true ↔ Spec.Boundary g.cart region p)) (k : Nat) :
    ∃ cov, fillLoop g.cart .false true g.ranges k e = some cov ∧ ∀ p, Ovk.Spec.pts g.cart.range p →
      (cov p = true ↔ Spec.Reachable g.cart region k p) := by
  obtain ⟨cov, h1, h2⟩ := fillLoop_spec h .false k e
  refine ⟨cov, h1, fun p hp => ?_⟩
  rw [h2 p hp]
  constructor
  · rintro ⟨x, hx, hset⟩
    rcases hset with ⟨q, hq, hxq, hm⟩ | ⟨hf, -⟩
    · exact ⟨q, (he q hq).1 hm, x, hx, hxq⟩
    · cases hf
  · rintro ⟨q, hb, x, hx, hxq⟩
    exact ⟨x, hx, .inl ⟨q, hb.1, hxq, (he q hb.1).2 hb⟩⟩

/-- Values after `k` passes. -/
def DistInv (c : Cart d) (region : Mask d) (cap k : Nat) (dist : Tup d → Int) : Prop :=
  ∀ p, Ovk.Spec.pts c.range p →
    (∃ j : Nat, j < k ∧ Spec.Reachable c region j p ∧ (∀ i, i < j → ¬ Spec.Reachable c region i p) ∧
      dist p = if region p then -(j : Int) else j) ∨
    ((∀ i, i < k → ¬ Spec.Reachable c region i p) ∧ dist p = cap)

theorem distLoop_spec {g : Grid d} (h : Ovk.Spec.Layout g.cart g.loc g.ext) {region e : Mask d} {cap : Nat}
    (hcap : 1 ≤ cap)
    (he : ∀ p, Ovk.Spec.pts g.cart.range p → (e p = true ↔ Spec.Boundary g.cart region p)) :
    ∀ (r k : Nat) (cov : Mask d) (dist : Tup d → Int), k + r = cap →
      fillLoop g.cart .false true g.ranges k e = some cov → DistInv g.cart region cap k dist →
      ∃ out, Problem.distLoop g region cap r k cov dist = some out ∧ DistInv g.cart region cap cap out := by
  intro r
  induction r with
  | zero =>
    intro k cov dist hk _ hi
    obtain rfl : k = cap := by omega
    exact ⟨dist, rfl, hi⟩
  | succ r ih =>
    intro k cov dist hk hcov hi
    obtain ⟨cov0, h1, h2⟩ := cover_spec h he k
    obtain rfl : cov = cov0 := Option.some.inj (hcov.symm.trans h1)
    obtain ⟨cov', h3, -⟩ := cover_spec h he (k + 1)
    have hstep : fillStep g.cart .false true g.ranges cov = some cov' := by
      rw [fillLoop_last, hcov] at h3; exact h3
    unfold Problem.distLoop
    rw [dilate_one, hstep]
    refine ih (k + 1) cov' _ (by omega) h3 ?_
    intro p hp
    dsimp only
    rcases hi p hp with ⟨j, hj, hr, hmin, hv⟩ | ⟨hno, hv⟩
    · left
      refine ⟨j, by omega, hr, hmin, ?_⟩
      rw [if_neg, hv]
      rintro ⟨hc, -⟩
      rw [hv] at hc
      split at hc <;> omega
    · by_cases hc : cov p = true
      · left
        refine ⟨k, by omega, (h2 p hp).1 hc, hno, ?_⟩
        rw [if_pos ⟨hv, hc⟩]
      · right
        refine ⟨fun i hi => ?_, ?_⟩
        · by_cases hik : i = k
          · subst hik; exact fun hr => hc ((h2 p hp).2 hr)
          · exact hno i (by omega)
        · rw [if_neg (fun h => hc h.2), hv]

theorem distances_spec {g : Grid d} (h : Ovk.Spec.Layout g.cart g.loc g.ext) (region : Mask d) {cap : Nat}
    (hcap : 1 ≤ cap) : ∃ dist, Problem.receiverDistances g region cap = some dist ∧
      DistInv g.cart region cap cap dist := by
  obtain ⟨e, h1, he⟩ := edge_boundary h region
  unfold Problem.receiverDistances
  rw [h1]
  exact distLoop_spec h hcap he cap 0 e (fun _ => cap) (by omega) rfl
    (fun p _ => .inr ⟨fun i hi => by omega, rfl⟩)

/-- C45 (the part that holds): the distances are always computed; the value is the required one for every
point outside the region and for every point of the region closer to its boundary than the cap; the other
points of the region get the cap with the wrong sign. -/
theorem C45_partial {g : Grid d} (h : Ovk.Spec.Layout g.cart g.loc g.ext) (region : Mask d) {cap : Nat}
    (hcap : 1 ≤ cap) : ∃ dist, Problem.receiverDistances g region cap = some dist ∧
      ∀ p, Ovk.Spec.pts g.cart.range p →
        ((region p = false ∨ Spec.Reachable g.cart region (cap - 1) p) →
          Spec.Distance g.cart region cap p (dist p)) ∧
        (region p = true → ¬ Spec.Reachable g.cart region (cap - 1) p → dist p = cap) := by
  obtain ⟨dist, h1, h2⟩ := distances_spec h region hcap
  refine ⟨dist, h1, fun p hp => ?_⟩
  have hmono : ∀ {i j : Nat}, i ≤ j → Spec.Reachable g.cart region i p → Spec.Reachable g.cart region j p := by
    rintro i j hij ⟨q, hb, x, hx, hxq⟩
    exact ⟨q, hb, x, fun t => by have := hx t; omega, hxq⟩
  rcases h2 p hp with ⟨j, hj, hr, hmin, hv⟩ | ⟨hno, hv⟩
  · exact ⟨fun _ => ⟨j, ⟨by omega, fun _ => hr, hmin⟩, hv⟩,
      fun _ hn => absurd (hmono (by omega) hr) hn⟩
  · refine ⟨fun hc => ?_, fun _ _ => hv⟩
    rcases hc with hc | hc
    · exact ⟨cap, ⟨by omega, fun h => by omega, hno⟩, by simp [hc, hv]⟩
    · exact absurd hc (hno (cap - 1) (by omega))

/-- C45 is false as stated: in the middle of three receiver points the distance is positive. -/
theorem C45_false : ¬ C45_statement := by
  intro h
  have hl := line_layout (m := 3) (by omega) false
  obtain ⟨dist, h1, h2⟩ := C45_partial hl (fun _ => true) (cap := 1) (by omega)
  have hp : Ovk.Spec.pts (line 3 false).cart.range fun _ => 1 := fun i => by
    show (0 : Int) ≤ 1 ∧ (1 : Int) < 3; omega
  obtain ⟨k, hs, hv⟩ := h 1 _ _ 1 dist hl (by omega) h1 _ hp
  have hval : ((Problem.receiverDistances (line 3 false) (fun _ => true) 1).map fun f => f fun _ => 1) =
      some 1 := by decide +kernel
  rw [h1] at hval
  have hval : dist (fun _ => 1) = 1 := Option.some.inj hval
  rw [hval] at hv
  simp at hv
  omega

/- Distances on a line of seven points with receivers 0, 1, 2: -/
example : ((Problem.receiverDistances (line 7 false) (fun p => decide (p 0 ≤ 2)) 3).map fun f =>
    [0, 1, 2, 3, 4, 5, 6].map fun (i : Int) => f fun _ => i) = some [0, -1, 0, 1, 2, 3, 3] := by decide +kernel

end Ovk.Asm
