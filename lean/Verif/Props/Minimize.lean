/-
Property C44: removal of points by overlap minimization and the inner fringe.
-/
import Verif.Props.Assembly

namespace Ovk.Asm
variable {d n : Nat}

namespace Spec
/-- `q` is within `w` points of `p`. -/
def Within (c : Cart d) (w : Nat) (p q : Tup d) : Prop := ∃ x, Ovk.Spec.Near w p x ∧ Ovk.Spec.SamePoint c x q

/-- What the flags of a grid have to satisfy after overlap minimization: the points of the inner fringe are
occluded, the removed points are occluded and were active (set active by the user and not cut away before),
active points close to a removed point are fringe points. -/
structure Minimized (c : Cart d) (w : Nat) (start final : Tup d → Flags) : Prop where
  inner : ∀ p, Ovk.Spec.pts c.range p → final p .innerFringe = true → final p .occluded = true
  removed : ∀ p, Ovk.Spec.pts c.range p → final p .overlapMinimized = true → final p .occluded = true
  wasActive : ∀ p, Ovk.Spec.pts c.range p → final p .overlapMinimized = true →
    start p .active = true ∧ final p .boundaryHole = false
  shielded : ∀ p q, Ovk.Spec.pts c.range p → Ovk.Spec.pts c.range q → final p .overlapMinimized = true →
    Within c w p q → final q .active = true → final q .fringe = true
end Spec

/-- The property as stated. -/
def C44_statement : Prop := ∀ (d n : Nat) (P : Problem d n) (flags : Fin n → Tup d → Flags)
  (r : St d n × Problem.Conn d n), Ovk.Spec.Layouts P → P.assemble flags = some r →
  ∀ k, Spec.Minimized (P.grid k).cart (P.fringeSize k) ((initAssembly flags).flags k) (r.1.flags k)

variable {P : Problem d n} {s s' : St d n}

theorem or_other {f : Flags} {l : List Flag} {x : Flag} (h : x ∉ l) : f.or l x = f x := by
  simp [Flags.or, h]

theorem write_other (sel : Fin n → Bool) (m : Fin n → Mask d) {l : List Flag} {x : Flag} (h : x ∉ l)
    (k : Fin n) (p : Tup d) : (s.write sel m (·.or l)).flags k p x = s.flags k p x := by
  show (if _ then _ else _ : Flags) x = _
  split
  · exact or_other h
  · rfl

theorem infer_other (h : P.inferBoundaries_ s = some s') {x : Flag}
    (hx : x ∉ [Flag.domainBoundary, .inferredDomainBoundary]) (k : Fin n) (p : Tup d) :
    s'.flags k p x = s.flags k p x := by
  unfold Problem.inferBoundaries_ at h
  simp only [Option.bind_eq_bind, Option.bind_eq_some_iff] at h
  obtain ⟨edge, -, h⟩ := h
  cases h
  dsimp only
  exact write_other (s := s) _ _ hx k p

theorem cut_other (h : P.cutBoundaryHoles_ s = some s') {x : Flag}
    (hx : x ∉ [Flag.active, .boundaryHole]) (k : Fin n) (p : Tup d) :
    s'.flags k p x = s.flags k p x := by
  unfold Problem.cutBoundaryHoles_ at h
  simp only [Option.bind_eq_bind, Option.bind_eq_some_iff] at h
  obtain ⟨proj, -, hole, -, h⟩ := h
  cases h
  show (if _ then _ else _ : Flags) x = _
  split
  · simp at hx; simp [Flags.or, Flags.andNot, hx]
  · rfl

theorem outer_other (h : P.locateOuterFringe_ s = some s') {x : Flag}
    (hx : x ∉ [Flag.fringe, .outerFringe]) (k : Fin n) (p : Tup d) :
    s'.flags k p x = s.flags k p x := by
  unfold Problem.locateOuterFringe_ at h
  simp only [Option.bind_eq_bind, Option.bind_eq_some_iff] at h
  obtain ⟨outer, -, h⟩ := h
  cases h
  dsimp only
  exact write_other (s := s) _ _ hx k p

theorem overlap_other (s : St d n) {x : Flag} (hx : x ≠ .overlapped) (k : Fin n) (p : Tup d) :
    (P.detectOverlap s).flags k p x = s.flags k p x := by
  show (if _ then Flags.or _ _ else _ : Flags) x = _
  split
  · exact or_other (by simpa using hx)
  · rfl

/-- Flags written only by the occlusion stage and later ones are unset before it. -/
theorem before_occluded {flags : Fin n → Tup d → Flags} {s1 s2 s3 : St d n}
    (h1 : P.inferBoundaries_ (P.detectOverlap (initAssembly flags)) = some s1)
    (h2 : P.cutBoundaryHoles_ s1 = some s2) (h3 : P.locateOuterFringe_ s2 = some s3) (k : Fin n) (p : Tup d)
    {x : Flag} (hx : x ∈ [Flag.occluded, .overlapMinimized, .innerFringe, .receiver, .orphan]) :
    s3.flags k p x = false := by
  have hx : x = .occluded ∨ x = .overlapMinimized ∨ x = .innerFringe ∨ x = .receiver ∨ x = .orphan := by
    simpa using hx
  rw [outer_other h3 (by rcases hx with rfl | rfl | rfl | rfl | rfl <;> simp),
    cut_other h2 (by rcases hx with rfl | rfl | rfl | rfl | rfl <;> simp),
    infer_other h1 (by rcases hx with rfl | rfl | rfl | rfl | rfl <;> simp),
    overlap_other _ (by rcases hx with rfl | rfl | rfl | rfl | rfl <;> simp)]
  exact clean_reset _ x (by rcases hx with rfl | rfl | rfl | rfl | rfl <;> exact id)

/-- After the occlusion stage the flag and the mask agree. -/
theorem occluded_flag (hL : Ovk.Spec.Layouts P) (h : P.detectOccluded_ s = some s')
    (h0 : ∀ k p, s.flags k p .occluded = false)
    (hsub : ∀ m k p, s.overlap m k p = true → (s.ov m k p).isSome = true)
    (k : Fin n) (p : Tup d) (hp : Ovk.Spec.pts (P.grid k).cart.range p) :
    s'.flags k p .occluded = s'.occl k p := by
  obtain ⟨-, -, h3⟩ := occluded_spec h hsub
  have : s'.flags k p = (if (decide ((P.grid k).count (s'.occl k) ≠ 0) && s'.occl k p) = true then
      (s.flags k p).or [.occluded] else s.flags k p) := by
    conv_lhs => rw [h3]
    rfl
  rw [this]
  cases ho : s'.occl k p with
  | false => simp [h0]
  | true =>
    have : (P.grid k).count (s'.occl k) ≠ 0 := fun hz => by
      rw [(count_zero (hL k) _).1 hz p hp] at ho; cases ho
    simp [this, Flags.or]

theorem occluded_other (h : P.detectOccluded_ s = some s')
    (hsub : ∀ m k p, s.overlap m k p = true → (s.ov m k p).isSome = true) {x : Flag} (hx : x ≠ .occluded)
    (k : Fin n) (p : Tup d) : s'.flags k p x = s.flags k p x := by
  obtain ⟨-, -, h3⟩ := occluded_spec h hsub
  rw [h3]
  dsimp only
  exact write_other (s := s) _ _ (by simpa using hx) k p

/-- The masks of overlap minimization. -/
structure MinSpec (c : Cart d) (w : Nat) (cand occl act : Mask d) (mk : Mask d × Mask d) : Prop where
  cand : ∀ p, mk.1 p = true → cand p = true
  active : 0 < w → ∀ p, mk.1 p = true → act p = true
  near : 0 < w → ∀ p, Ovk.Spec.pts c.range p → mk.1 p = true → ∀ q, Ovk.Spec.pts c.range q →
    Spec.Within c w p q → occl q = true ∨ act q = false
  inner : ∀ q, Ovk.Spec.pts c.range q → (mk.2 q = true ↔ 0 < w ∧ act q = true ∧ mk.1 q = false ∧
    ∃ p, Ovk.Spec.pts c.range p ∧ mk.1 p = true ∧ Spec.Within c w q p)

theorem minimize_spec (hL : Ovk.Spec.Layouts P) {k : Fin n} {mk : Mask d × Mask d}
    (h : P.minimizeMasks s k = some mk) :
    MinSpec (P.grid k).cart (P.fringeSize k) (fun p => decide (∃ m, P.occPair s m k = true ∧
      P.minimizeOverlap m k = true ∧ s.pairOccl m k p = true)) (s.occl k) (s.active k) mk := by
  unfold Problem.minimizeMasks at h
  dsimp only at h
  split at h
  · rename_i hw
    simp only [Option.bind_eq_bind, Option.bind_eq_some_iff] at h
    obtain ⟨er, her, inn, hinn, h⟩ := h
    cases h
    obtain ⟨er', h1, h2⟩ := C17_erode (hL k) .true (P.fringeSize k) (fun p => s.occl k p || !s.active k p)
    obtain rfl : er = er' := Option.some.inj (her.symm.trans h1)
    obtain ⟨inn', h3, h4⟩ := C17_dilate (hL k) .false (P.fringeSize k) (fun p =>
      decide (∃ m, P.occPair s m k = true ∧ P.minimizeOverlap m k = true ∧ s.pairOccl m k p = true) &&
        (er p && s.active k p))
    obtain rfl : inn = inn' := Option.some.inj (hinn.symm.trans h3)
    refine ⟨fun p hp => ?_, fun _ p hp => ?_, fun _ p hpr hp q hq => ?_, fun q hq => ?_⟩
    · rw [Bool.and_eq_true] at hp; exact hp.1
    · simp only [Bool.and_eq_true] at hp; exact hp.2.2
    · rintro ⟨x, hx, hxq⟩
      simp only [Bool.and_eq_true] at hp
      have := ((h2 p hpr).1 hp.2.1 x hx).1 q hq hxq
      simpa using this
    · rw [Bool.and_eq_true, Bool.and_eq_true, Bool.not_eq_true', h4 q hq]
      constructor
      · rintro ⟨⟨x, hx, hset⟩, ha, hm⟩
        refine ⟨hw, ha, hm, ?_⟩
        rcases hset with ⟨p, hp, hxp, hmp⟩ | ⟨hf, -⟩
        · exact ⟨p, hp, hmp, x, hx, hxp⟩
        · cases hf
      · rintro ⟨-, ha, hm, p, hp, hmp, x, hx, hxp⟩
        exact ⟨⟨x, hx, .inl ⟨p, hp, hxp, hmp⟩⟩, ha, hm⟩
  · rename_i hw
    cases h
    refine ⟨fun p hp => hp, fun h => absurd h hw, fun h => absurd h hw, fun q _ => ?_⟩
    simp only [Bool.false_eq_true, false_iff]
    rintro ⟨h, -⟩; exact hw h

theorem within_symm {c : Cart d} {w : Nat} {p q : Tup d} (h : Spec.Within c w p q) : Spec.Within c w q p := by
  obtain ⟨x, hx, hxq⟩ := h
  refine ⟨fun i => p i + (q i - x i), fun i => ?_, samePoint_shift hxq⟩
  have := hx i
  dsimp only
  omega

theorem within_self (c : Cart d) (w : Nat) (p : Tup d) : Spec.Within c w p p :=
  ⟨p, fun i => by constructor <;> omega, samePoint_refl c p⟩

/-- Flags of the points of a grid at the end, given the masks and the flags before minimization. -/
theorem minimize_flags (hL : Ovk.Spec.Layouts P) (h : P.minimizeOverlap_ s = some s') :
    ∃ mk : Fin n → Mask d × Mask d, (∀ k, P.minimizeMasks s k = some (mk k)) ∧
      (∀ k p, Ovk.Spec.pts (P.grid k).cart.range p →
        s'.flags k p = Problem.minimizeFlags ((mk k).1 p) ((mk k).2 p) (s.flags k p)) := by
  unfold Problem.minimizeOverlap_ at h
  simp only [Option.bind_eq_bind, Option.bind_eq_some_iff] at h
  obtain ⟨mk, hmk, h⟩ := h
  cases h
  refine ⟨mk, forAll_some hmk, fun k p hp => ?_⟩
  show (if _ then _ else _) = _
  split
  · rename_i h0
    rw [(count_zero (hL k) _).1 h0.1 p hp, (count_zero (hL k) _).1 h0.2 p hp]
    rfl
  · rfl

theorem generate_other {r : St d n × Problem.Conn d n} (h : P.generate_ s = some r) {x : Flag}
    (hx : x ∉ [Flag.receiver, .orphan]) (k : Fin n) (p : Tup d) : r.1.flags k p x = s.flags k p x := by
  unfold Problem.generate_ at h
  simp only [Option.bind_eq_bind, Option.bind_eq_some_iff] at h
  obtain ⟨dist, -, h⟩ := h
  cases h
  simp at hx
  rw [write_other _ _ (by simpa using hx.2), write_other _ _ (by simpa using hx.1)]

theorem minimizeFlags_other (mi inn : Bool) (f : Flags) {x : Flag}
    (hx : x ∉ [Flag.active, .outerFringe, .overlapMinimized, .fringe, .innerFringe]) :
    Problem.minimizeFlags mi inn f x = f x := by
  simp at hx
  unfold Problem.minimizeFlags
  split
  · simp [Flags.or, Flags.andNot, hx]
  · split
    · simp [Flags.or, hx]
    · rfl

/-- C44 (the part that holds): everything, except that a removed point may have been cut away before if the
grid has no fringe. -/
theorem C44_partial (hL : Ovk.Spec.Layouts P) {flags : Fin n → Tup d → Flags}
    {r : St d n × Problem.Conn d n} (h : P.assemble flags = some r) (k : Fin n)
    (hw : 0 < P.fringeSize k ∨ ∀ p, Ovk.Spec.pts (P.grid k).cart.range p → r.1.flags k p .boundaryHole = false) :
    Spec.Minimized (P.grid k).cart (P.fringeSize k) ((initAssembly flags).flags k) (r.1.flags k) := by
  have hinv := inv_assemble hL h
  unfold Problem.assemble at h
  simp only [Option.bind_eq_bind, Option.bind_eq_some_iff] at h
  obtain ⟨s1, h1, s2, h2, s3, h3, s4, h4, s5, h5, h6⟩ := h
  have i1 := inv_infer hL (inv_overlap (P := P) flags) (fun k p => by
    show (resetFlags (flags k p) .active && resetFlags (flags k p) .domainBoundary) = _
    rw [overlap_other _ (by simp), overlap_other _ (by simp)]
    rfl) h1
  have i3 := inv_outer (inv_cut i1 h2) h3
  obtain ⟨i4, hb4⟩ := inv_occluded i3 h4
  obtain ⟨hsub, hocc, -⟩ := occluded_spec h4 i3.sub
  obtain ⟨mk, hmk, hfl⟩ := minimize_flags hL h5
  have hms := minimize_spec hL (hmk k)
  have hoccf : ∀ p, Ovk.Spec.pts (P.grid k).cart.range p → s4.flags k p .occluded = s4.occl k p :=
    fun p hp => occluded_flag hL h4 (fun k p => before_occluded h1 h2 h3 k p (by simp)) i3.sub k p hp
  have h0 : ∀ p x, x ∈ [Flag.overlapMinimized, .innerFringe] → s4.flags k p x = false := by
    intro p x hx
    rw [occluded_other h4 i3.sub (by rintro rfl; simp at hx)]
    exact before_occluded h1 h2 h3 k p (by simp at hx ⊢; tauto)
  have hfin : ∀ p, Ovk.Spec.pts (P.grid k).cart.range p → ∀ x, x ∉ [Flag.receiver, .orphan] →
      r.1.flags k p x = Problem.minimizeFlags ((mk k).1 p) ((mk k).2 p) (s4.flags k p) x := by
    intro p hp x hx
    rw [generate_other h6 hx, hfl k p hp]
  have hocfin : ∀ p, Ovk.Spec.pts (P.grid k).cart.range p → r.1.flags k p .occluded = s4.occl k p := by
    intro p hp
    rw [hfin p hp _ (by simp), minimizeFlags_other _ _ _ (by simp), hoccf p hp]
  have hmin : ∀ p, Ovk.Spec.pts (P.grid k).cart.range p →
      (r.1.flags k p .overlapMinimized = true ↔ (mk k).1 p = true) := by
    intro p hp
    rw [hfin p hp _ (by simp)]
    unfold Problem.minimizeFlags
    have := h0 p .overlapMinimized (by simp)
    split
    · rename_i hm; simp [Flags.or, hm]
    · rename_i hm; split <;> simp [Flags.or, this, hm]
  have hinn : ∀ p, Ovk.Spec.pts (P.grid k).cart.range p → r.1.flags k p .innerFringe = true →
      (mk k).2 p = true := by
    intro p hp h
    rw [hfin p hp _ (by simp)] at h
    unfold Problem.minimizeFlags at h
    have := h0 p .innerFringe (by simp)
    split at h
    · simp [Flags.or, Flags.andNot, this] at h
    · split at h
      · assumption
      · rw [this] at h; cases h
  have hact : ∀ p, Ovk.Spec.pts (P.grid k).cart.range p → r.1.flags k p .active = true →
      s4.active k p = true ∧ (mk k).1 p = false := by
    intro p hp h
    rw [hfin p hp _ (by simp)] at h
    rw [i4.sync k p hp]
    unfold Problem.minimizeFlags at h
    split at h
    · simp [Flags.or, Flags.andNot] at h
    · rename_i hm
      refine ⟨?_, by simpa using hm⟩
      split at h
      · simpa [Flags.or] using h
      · exact h
  have hcand : ∀ p, (mk k).1 p = true → s4.occl k p = true := by
    intro p hm
    obtain ⟨m, hm1, -, hm2⟩ := of_decide_eq_true (hms.cand p hm)
    rw [hocc k p]
    refine decide_eq_true ⟨m, ?_, hm2⟩
    rw [← hm1]
    have : s4.ov = s3.ov := by rw [(occluded_spec h4 i3.sub).2.2]; rfl
    unfold Problem.occPair Problem.ovExists
    rw [this]
  refine ⟨fun p hp h => ?_, fun p hp h => ?_, fun p hp h => ?_, fun p q hp hq h hpq ha => ?_⟩
  · obtain ⟨hw, ha, hm, p0, hp0, hm0, hin⟩ := (hms.inner p hp).1 (hinn p hp h)
    rw [hocfin p hp]
    rcases hms.near hw p0 hp0 hm0 p hp (within_symm hin) with h | h
    · exact h
    · rw [ha] at h; cases h
  · rw [hocfin p hp]; exact hcand p ((hmin p hp).1 h)
  · have hm := (hmin p hp).1 h
    refine ⟨(hinv.rel k p hp).rem (by rw [h]; simp), ?_⟩
    rcases hw with hw | hw
    · have ha := hms.active hw p hm
      rw [i4.sync k p hp, (i4.rel k p hp).act] at ha
      rw [hfin p hp _ (by simp), minimizeFlags_other _ _ _ (by simp)]
      simp at ha; exact ha.2.1
    · exact hw p hp
  · have hm := (hmin p hp).1 h
    obtain ⟨ha4, hmq⟩ := hact q hq ha
    by_cases hw0 : 0 < P.fringeSize k
    · have hin := (hms.inner q hq).2 ⟨hw0, ha4, hmq, p, hp, hm, within_symm hpq⟩
      rw [hfin q hq _ (by simp)]
      unfold Problem.minimizeFlags
      rw [hmq, hin]
      simp [Flags.or]
    · exfalso
      obtain ⟨x, hx, hxq⟩ := hpq
      have : x = p := by
        funext i; have := hx i; have h0 : P.fringeSize k = 0 := by omega
        rw [h0] at this; omega
      subst this
      have : x = q := by
        rw [← canonical_in_range (hL k).proper (hL k).unique hq hxq,
          canonical_in_range (hL k).proper (hL k).unique hp (samePoint_refl _ x)]
      subst this
      rw [hm] at hmq; cases hmq

/-- Three grids on a line; grid 0: points at 2, 3; grid 1: points at 0, 1 with a boundary at 1; grid 2: points at 0, …, 3 -/
def exHole : Problem 1 3 where
  grid := fun g => if g = 2 then line 4 false else line 2 false
  group := CC.groupOne
  inferBoundaries := fun _ => false
  cutBoundaryHoles := fun m k => decide (m = 1 ∧ k = 2)
  fringeSize := fun _ => 0
  occludes := fun m k => if m = 0 ∧ k = 2 then .all else .none
  edgePadding := fun _ _ => 0
  edgeSmoothing := fun _ => 0
  minimizeOverlap := fun _ _ => true
  connected := fun _ _ => false
  disjoint := fun _ _ => true
  found := fun m k p =>
    if m = 0 ∧ k = 2 then (if 2 ≤ p 0 then some fun _ => 0 else none)
    else if m = 1 ∧ k = 2 then (if p 0 ≤ 1 then some fun _ => 0 else none)
    else if m = 2 ∧ k = 1 then some p
    else none
  vol := fun _ _ => 1
  ovVol := fun _ _ _ => 1
  fuel := 1
def exHoleFlags : Fin 3 → Tup 1 → Flags := fun g p x => decide (x = .active) || decide (x = .domainBoundary ∧ g = 1 ∧ p 0 = 1)

theorem exHole_layouts : Ovk.Spec.Layouts exHole := by
  intro k
  by_cases h : k = 2
  · subst h; exact line_layout (m := 4) (by omega) false
  · have : exHole.grid k = line 2 false := if_neg h
    rw [this]; exact line_layout (m := 2) (by omega) false

theorem exHole_run : ((exHole.assemble exHoleFlags).map fun r =>
    [Flag.boundaryHole, .overlapMinimized, .occluded].map fun x => r.1.flags 2 (fun _ => 2) x) =
    some [true, true, true] := by decide +kernel

/-- C44 is false as stated: without a fringe, points already cut away as a boundary hole are removed again. -/
theorem C44_false : ¬ C44_statement := by
  intro h
  have hrun := exHole_run
  rw [Option.map_eq_some_iff] at hrun
  obtain ⟨r, hr, hrun⟩ := hrun
  simp only [List.map_cons, List.map_nil, List.cons.injEq] at hrun
  have := (h 1 3 exHole exHoleFlags r exHole_layouts hr 2).wasActive (fun _ => 2)
    (fun i => by show (0 : Int) ≤ 2 ∧ (2 : Int) < 4; omega) hrun.2.1
  rw [hrun.1] at this
  cases this.2

/- The hypotheses of the partial theorem: in the example of C43 two points are removed and one becomes inner
fringe, and the fringe size is one. -/
example : ((exProblem.assemble exFlags).map fun r =>
    [0, 1, 2, 3].map fun (i : Int) => (r.1.flags 1 (fun _ => i) .overlapMinimized,
      r.1.flags 1 (fun _ => i) .innerFringe)) =
    some [(true, false), (true, false), (false, true), (false, false)] := by decide +kernel

example : 0 < exProblem.fringeSize 1 := by decide

end Ovk.Asm
