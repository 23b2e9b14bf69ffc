/-
Property C43: a new assembly starts from the flags the user set.
-/
import Verif.Lemmas.Assembly

namespace Ovk.Asm
variable {d n : Nat}

namespace Spec
/-- Flags the user sets. -/
def user : Flag → Prop
  | .active | .domainBoundary | .internalBoundary | .debug _ => True
  | _ => False

/-- No flag derived by assembly is set. -/
def Clean (f : Flags) : Prop := ∀ x, ¬ user x → f x = false

/-- Flags after a sequence of assemblies, each with its own options and search results. -/
def runs : List (Problem d n) → (Fin n → Tup d → Flags) → Option (Fin n → Tup d → Flags)
  | [], f => some f
  | P :: Ps, f => (P.assemble f).bind fun r => runs Ps r.1.flags
end Spec

/-- How the flags of a point during assembly relate to the flags it had at the start. -/
structure Rel (b f : Flags) : Prop where
  act : f .active = (b .active && !(f .boundaryHole || f .overlapMinimized))
  rem : (f .boundaryHole || f .overlapMinimized) = true → b .active = true
  dom : f .domainBoundary = (b .domainBoundary || f .inferredDomainBoundary)
  inf : f .inferredDomainBoundary = true → b .domainBoundary = false
  int : f .internalBoundary = b .internalBoundary
  dbg : ∀ k, f (.debug k) = b (.debug k)

theorem clean_reset (f : Flags) : Spec.Clean (resetFlags f) := by
  intro x hx
  cases x <;> first | (exact absurd trivial hx) | (simp [resetFlags, Flags.andNot, assemblyFlags])

theorem reset_clean {f : Flags} (h : Spec.Clean f) : resetFlags f = f := by
  have h1 := h .boundaryHole id
  have h2 := h .overlapMinimized id
  have h3 := h .inferredDomainBoundary id
  funext x
  by_cases hx : Spec.user x
  · cases x <;> simp_all [resetFlags, Flags.andNot, assemblyFlags, Spec.user]
  · rw [h x hx]; exact clean_reset f x hx

theorem Rel.reset {b f : Flags} (h : Rel b f) (hb : Spec.Clean b) : resetFlags f = b := by
  funext x
  by_cases hx : Spec.user x
  · obtain ⟨h1, h2, h3, h4, h5, h6⟩ := h
    cases hh : f .boundaryHole <;> cases hm : f .overlapMinimized <;>
      cases hi : f .inferredDomainBoundary <;> cases x <;>
      simp_all [resetFlags, Flags.andNot, Flags.or, assemblyFlags, Spec.user]
  · rw [hb x hx]; exact clean_reset f x hx

theorem Rel.refl {b : Flags} (hb : Spec.Clean b) : Rel b b := by
  have h1 := hb .boundaryHole id
  have h2 := hb .overlapMinimized id
  have h3 := hb .inferredDomainBoundary id
  constructor <;> simp [h1, h2, h3]

/-- Adding other derived flags keeps the relation. -/
theorem Rel.or {b f : Flags} (h : Rel b f) {l : List Flag}
    (hl : ∀ x ∈ l, x ∈ [Flag.overlapped, .occluded, .fringe, .outerFringe, .innerFringe, .receiver, .orphan]) :
    Rel b (f.or l) := by
  have key : ∀ x : Flag, x ∉ [Flag.overlapped, .occluded, .fringe, .outerFringe, .innerFringe, .receiver,
      .orphan] → f.or l x = f x := by
    intro x hx
    have : x ∉ l := fun h => hx (hl x h)
    simp [Flags.or, this]
  constructor
  · rw [key _ (by decide), key _ (by decide), key _ (by decide)]; exact h.act
  · rw [key _ (by decide), key _ (by decide)]; exact h.rem
  · rw [key _ (by decide), key _ (by decide)]; exact h.dom
  · rw [key _ (by decide)]; exact h.inf
  · rw [key _ (by decide)]; exact h.int
  · intro k; rw [key _ (by simp)]; exact h.dbg k

theorem Rel.hole {b f : Flags} (h : Rel b f) (ha : f .active = true) :
    Rel b ((f.andNot [.active]).or [.boundaryHole]) := by
  obtain ⟨h1, h2, h3, h4, h5, h6⟩ := h
  constructor <;> simp_all [Flags.or, Flags.andNot]

theorem Rel.minimized {b f : Flags} (h : Rel b f) (ha : b .active = true) :
    Rel b ((f.andNot [.active, .outerFringe]).or [.overlapMinimized]) := by
  obtain ⟨h1, h2, h3, h4, h5, h6⟩ := h
  constructor <;> simp_all [Flags.or, Flags.andNot]

theorem Rel.inferred {b f : Flags} (h : Rel b f) (ha : b .domainBoundary = false) :
    Rel b (f.or [.domainBoundary, .inferredDomainBoundary]) := by
  obtain ⟨h1, h2, h3, h4, h5, h6⟩ := h
  constructor <;> simp_all [Flags.or]

/-- Invariant of the stages. -/
structure Inv (P : Problem d n) (b : Fin n → Tup d → Flags) (s : St d n) : Prop where
  rel : ∀ k p, Ovk.Spec.pts (P.grid k).cart.range p → Rel (b k p) (s.flags k p)
  sync : ∀ k p, Ovk.Spec.pts (P.grid k).cart.range p → s.active k p = s.flags k p .active
  ov : ∀ m k p, (s.ov m k p).isSome = true → b k p .active = true
  sub : ∀ m k p, s.overlap m k p = true → (s.ov m k p).isSome = true

variable {P : Problem d n} {b : Fin n → Tup d → Flags} {s s' : St d n}

theorem init_flags (flags : Fin n → Tup d → Flags) (k : Fin n) (p : Tup d) :
    (initAssembly flags).flags k p = resetFlags (flags k p) := rfl

theorem inv_overlap (flags : Fin n → Tup d → Flags) :
    Inv P (fun k p => resetFlags (flags k p)) (P.detectOverlap (initAssembly flags)) := by
  constructor
  · intro k p _
    show Rel _ (if _ then _ else _)
    rw [init_flags]
    split
    · exact (Rel.refl (clean_reset _)).or (by simp)
    · exact Rel.refl (clean_reset _)
  · intro k p _
    show resetFlags (flags k p) .active = (if _ then Flags.or _ _ else _ : Flags) .active
    rw [init_flags]
    split <;> simp [Flags.or]
  · intro m k p h
    have h : (if resetFlags (flags k p) .active then P.found m k p else none).isSome = true := h
    split at h
    · assumption
    · cases h
  · intro m k p h; exact h

theorem inv_infer (hL : Ovk.Spec.Layouts P) (hi : Inv P b s)
    (hd : ∀ k p, s.domBdry k p = (s.flags k p .active && s.flags k p .domainBoundary))
    (h : P.inferBoundaries_ s = some s') : Inv P b s' := by
  unfold Problem.inferBoundaries_ at h
  simp only [Option.bind_eq_bind, Option.bind_eq_some_iff] at h
  obtain ⟨edge, he, h⟩ := h
  cases h
  have key : ∀ k p, Ovk.Spec.pts (P.grid k).cart.range p → edge k p = true → s.domBdry k p = false →
      b k p .domainBoundary = false := by
    intro k p hp h1 h2
    have ha := edge_inner (hL k) (forAll_some he k) hp h1
    rw [hi.sync k p hp] at ha
    rw [hd, ha, Bool.true_and, (hi.rel k p hp).dom] at h2
    simp at h2; exact h2.1
  constructor
  · intro k p hp
    show Rel _ (if _ then _ else _)
    split
    · rename_i hc
      simp only [Bool.and_eq_true, Bool.not_eq_true'] at hc
      exact (hi.rel k p hp).inferred (key k p hp hc.2.1.1 hc.2.1.2)
    · exact hi.rel k p hp
  · intro k p hp
    show s.active k p = (if _ then Flags.or _ _ else _ : Flags) .active
    rw [hi.sync k p hp]
    split <;> simp [Flags.or]
  · exact hi.ov
  · exact hi.sub

theorem inv_update (hi : Inv P b s) (sel : Fin n → Fin n → Bool) : Inv P b (P.updateOverlap s sel) := by
  refine ⟨hi.rel, hi.sync, hi.ov, ?_⟩
  intro m k p h
  have h : (match s.ov m k p with
      | some cell => ((P.grid m).verts cell).all (s.active m)
      | none => if sel m k then s.overlap m k p && s.active k p else s.overlap m k p) = true := h
  show (s.ov m k p).isSome = true
  cases hov : s.ov m k p with
  | some _ => rfl
  | none =>
    rw [hov] at h
    have : s.overlap m k p = true := by
      dsimp only at h
      split at h
      · simp at h; exact h.1
      · exact h
    have := hi.sub m k p this
    rw [hov] at this; cases this

theorem hole_active {proj : Fin n → Fin n → Mask d} {k : Fin n} {hm : Mask d}
    (h : P.holes s proj k = some hm) (p : Tup d) (hp : hm p = true) : s.active k p = true := by
  unfold Problem.holes at h
  simp only [Option.bind_eq_bind, Option.bind_eq_some_iff] at h
  obtain ⟨pe, -, h⟩ := h
  split at h
  · simp only [Option.bind_eq_some_iff] at h
    obtain ⟨i, -, a, -, e, -, h⟩ := h
    cases h
    simp only [Bool.and_eq_true] at hp
    exact hp.1.1
  · cases h; cases hp

theorem inv_cut (hi : Inv P b s) (h : P.cutBoundaryHoles_ s = some s') : Inv P b s' := by
  unfold Problem.cutBoundaryHoles_ at h
  simp only [Option.bind_eq_bind, Option.bind_eq_some_iff] at h
  obtain ⟨proj, hproj, hole, hhole, h⟩ := h
  cases h
  apply inv_update
  have hact : ∀ k p, (P.cutN s k && decide ((P.grid k).count (hole k) ≠ 0)) = true → hole k p = true →
      s.active k p = true := by
    intro k p hk hp
    have h1 := forAll_some hhole k
    have hc : P.cutN s k = true := by simp at hk; exact hk.1
    rw [hc] at h1
    exact hole_active (by simpa using h1) p hp
  constructor
  · intro k p hp
    show Rel _ (if _ then _ else _)
    split
    · rename_i hc
      rw [Bool.and_eq_true] at hc
      refine (hi.rel k p hp).hole ?_
      rw [← hi.sync k p hp]; exact hact k p hc.1 hc.2
    · exact hi.rel k p hp
  · intro k p hp
    show (if (P.cutN s k && decide ((P.grid k).count (hole k) ≠ 0)) = true then _ else _ : Mask d) p =
      (if _ then _ else _ : Flags) .active
    split
    · rfl
    · rename_i hk
      show s.active k p = _
      rw [hi.sync k p hp, if_neg (by rw [Bool.and_eq_true]; exact fun h => hk h.1)]
  · exact hi.ov
  · exact hi.sub

theorem inv_outer (hi : Inv P b s) (h : P.locateOuterFringe_ s = some s') : Inv P b s' := by
  unfold Problem.locateOuterFringe_ at h
  simp only [Option.bind_eq_bind, Option.bind_eq_some_iff] at h
  obtain ⟨outer, -, h⟩ := h
  cases h
  refine ⟨fun k p hp => ?_, fun k p hp => ?_, hi.ov, hi.sub⟩
  · show Rel _ (if _ then _ else _)
    split
    · exact (hi.rel k p hp).or (by simp)
    · exact hi.rel k p hp
  · show s.active k p = (if _ then Flags.or _ _ else _ : Flags) .active
    rw [hi.sync k p hp]
    split <;> simp [Flags.or]

theorem pairwise_sub (hsub : ∀ m k p, s.overlap m k p = true → (s.ov m k p).isSome = true)
    (m k : Fin n) (p : Tup d) (h : P.pairwise s m k p = true) : (s.ov m k p).isSome = true := by
  unfold Problem.pairwise at h
  split at h
  · simp only [Bool.and_eq_true] at h; exact h.1
  · exact hsub m k p h
  · cases h

theorem mutualPass_sub {sel : Fin n → Fin n → Bool} {po po' : Fin n → Fin n → Mask d}
    (hpo : ∀ m k p, po m k p = true → (s.ov m k p).isSome = true)
    (h : P.mutualPass s sel po = some po') (m k : Fin n) (p : Tup d) (hp : po' m k p = true) :
    (s.ov m k p).isSome = true := by
  unfold Problem.mutualPass at h
  split at h
  · cases h
  · cases h
    dsimp only at hp
    split at hp
    · split at hp
      · rename_i heq; rw [heq]; rfl
      · exact hpo m k p hp
    · exact hpo m k p hp

theorem occluded_spec (h : P.detectOccluded_ s = some s')
    (hsub : ∀ m k p, s.overlap m k p = true → (s.ov m k p).isSome = true) :
    (∀ m k p, s'.pairOccl m k p = true → (s.ov m k p).isSome = true) ∧
    (∀ k p, s'.occl k p = decide (∃ m, P.occPair s m k = true ∧ s'.pairOccl m k p = true)) ∧
    s' = { s.write (fun k => decide ((P.grid k).count (s'.occl k) ≠ 0)) s'.occl (·.or [.occluded]) with
      pairOccl := s'.pairOccl, occl := s'.occl } := by
  unfold Problem.detectOccluded_ at h
  simp only [Option.bind_eq_bind, Option.bind_eq_some_iff] at h
  obtain ⟨po1, h1, po2, h2, dis, -, occ, -, h⟩ := h
  cases h
  refine ⟨fun m k p hp => ?_, fun k p => rfl, rfl⟩
  have hp : (if P.occPair s m k then po2 m k p && _ else po2 m k p) = true := hp
  have : po2 m k p = true := by
    split at hp
    · simp only [Bool.and_eq_true] at hp; exact hp.1
    · exact hp
  exact mutualPass_sub (mutualPass_sub (pairwise_sub hsub) h1) h2 m k p this

theorem inv_occluded (hi : Inv P b s) (h : P.detectOccluded_ s = some s') :
    Inv P b s' ∧ ∀ m k p, s'.pairOccl m k p = true → b k p .active = true := by
  obtain ⟨h1, -, h3⟩ := occluded_spec h hi.sub
  refine ⟨?_, fun m k p hp => hi.ov m k p (h1 m k p hp)⟩
  rw [h3]
  refine ⟨fun k p hp => ?_, fun k p hp => ?_, hi.ov, hi.sub⟩
  · show Rel _ (if _ then _ else _)
    split
    · exact (hi.rel k p hp).or (by simp)
    · exact hi.rel k p hp
  · show s.active k p = (if _ then Flags.or _ _ else _ : Flags) .active
    rw [hi.sync k p hp]
    split <;> simp [Flags.or]

theorem minimize_sub {k : Fin n} {mk : Mask d × Mask d} (h : P.minimizeMasks s k = some mk) (p : Tup d)
    (hp : mk.1 p = true) : ∃ m, s.pairOccl m k p = true := by
  have key : decide (∃ m, P.occPair s m k = true ∧ P.minimizeOverlap m k = true ∧
      s.pairOccl m k p = true) = true → ∃ m, s.pairOccl m k p = true := by
    intro h; obtain ⟨m, -, -, hm⟩ := of_decide_eq_true h; exact ⟨m, hm⟩
  unfold Problem.minimizeMasks at h
  dsimp only at h
  split at h
  · simp only [Option.bind_eq_bind, Option.bind_eq_some_iff] at h
    obtain ⟨r, -, i, -, h⟩ := h
    cases h
    rw [Bool.and_eq_true] at hp
    exact key hp.1
  · cases h; exact key hp

theorem inv_minimize (hL : Ovk.Spec.Layouts P) (hi : Inv P b s)
    (hb : ∀ m k p, s.pairOccl m k p = true → b k p .active = true)
    (h : P.minimizeOverlap_ s = some s') : Inv P b s' := by
  unfold Problem.minimizeOverlap_ at h
  simp only [Option.bind_eq_bind, Option.bind_eq_some_iff] at h
  obtain ⟨mk, hmk, h⟩ := h
  cases h
  apply inv_update
  have hrel : ∀ k p, Ovk.Spec.pts (P.grid k).cart.range p →
      Rel (b k p) (Problem.minimizeFlags ((mk k).1 p) ((mk k).2 p) (s.flags k p)) := by
    intro k p hp
    unfold Problem.minimizeFlags
    split
    · rename_i hm
      obtain ⟨m, h1⟩ := minimize_sub (forAll_some hmk k) p hm
      exact (hi.rel k p hp).minimized (hb m k p h1)
    · split
      · exact (hi.rel k p hp).or (by simp)
      · exact hi.rel k p hp
  constructor
  · intro k p hp
    show Rel _ (if _ then _ else _)
    split
    · exact hi.rel k p hp
    · exact hrel k p hp
  · intro k p hp
    show (if decide ((P.grid k).count (mk k).1 > 0) = true then _ else _ : Mask d) p =
      (if _ then _ else _ : Flags) .active
    split
    · rfl
    · rename_i h0
      have h0 : (P.grid k).count (mk k).1 = 0 := by simpa using h0
      rw [hi.sync k p hp]
      split
      · rfl
      · have hm := (count_zero (hL k) (mk k).1).1 h0 p hp
        unfold Problem.minimizeFlags
        rw [hm]
        simp only [Bool.false_eq_true, if_false]
        split <;> simp [Flags.or]
  · exact hi.ov
  · exact hi.sub

theorem inv_generate {r : St d n × Problem.Conn d n} (hi : Inv P b s) (h : P.generate_ s = some r) :
    Inv P b r.1 := by
  unfold Problem.generate_ at h
  simp only [Option.bind_eq_bind, Option.bind_eq_some_iff] at h
  obtain ⟨dist, -, h⟩ := h
  cases h
  have key : ∀ (s : St d n) sel m l, Inv P b s →
      (∀ x ∈ l, x ∈ [Flag.receiver, .orphan]) → Inv P b (s.write sel m (·.or l)) := by
    intro s sel m l hi hl
    refine ⟨fun k p hp => ?_, fun k p hp => ?_, hi.ov, hi.sub⟩
    · show Rel _ (if _ then _ else _)
      split
      · refine (hi.rel k p hp).or fun x hx => ?_
        have := hl x hx
        simp at this ⊢; tauto
      · exact hi.rel k p hp
    · show s.active k p = (if _ then Flags.or _ _ else _ : Flags) .active
      rw [hi.sync k p hp]
      have : Flag.active ∉ l := fun h => by have := hl _ h; simp at this
      split <;> simp [Flags.or, this]
  exact key _ _ _ _ (key _ _ _ _ hi (by simp)) (by simp)

/-- The invariant holds at the end of assembly. -/
theorem inv_assemble (hL : Ovk.Spec.Layouts P) {flags : Fin n → Tup d → Flags}
    {r : St d n × Problem.Conn d n} (h : P.assemble flags = some r) :
    Inv P (fun k p => resetFlags (flags k p)) r.1 := by
  unfold Problem.assemble at h
  simp only [Option.bind_eq_bind, Option.bind_eq_some_iff] at h
  obtain ⟨s1, h1, s2, h2, s3, h3, s4, h4, s5, h5, h6⟩ := h
  have i1 := inv_infer hL (inv_overlap (P := P) flags) (fun k p => by
    show (resetFlags (flags k p) .active && resetFlags (flags k p) .domainBoundary) = _
    show _ = ((if _ then Flags.or _ _ else _ : Flags) .active &&
      (if _ then Flags.or _ _ else _ : Flags) .domainBoundary)
    rw [init_flags]
    split <;> simp [Flags.or]) h1
  have i2 := inv_cut i1 h2
  have i3 := inv_outer i2 h3
  obtain ⟨i4, hb⟩ := inv_occluded i3 h4
  exact inv_generate (inv_minimize hL i4 hb h5) h6

/-- C43: the flags a new assembly starts from are those the previous assembly started from. -/
theorem C43_reset (hL : Ovk.Spec.Layouts P) {flags : Fin n → Tup d → Flags}
    {r : St d n × Problem.Conn d n} (h : P.assemble flags = some r) (k : Fin n) (p : Tup d)
    (hp : Ovk.Spec.pts (P.grid k).cart.range p) :
    (initAssembly r.1.flags).flags k p = (initAssembly flags).flags k p :=
  ((inv_assemble hL h).rel k p hp).reset (clean_reset _)

/-- C43: a new assembly clears every derived flag. -/
theorem C43_clears (flags : Fin n → Tup d → Flags) (k : Fin n) (p : Tup d) (x : Flag) (hx : ¬ Spec.user x) :
    (initAssembly flags).flags k p x = false := clean_reset _ x hx

/-- C43: after any sequence of assemblies, with any options and search results, a new assembly starts from
the flags the user set. -/
theorem C43_restores : ∀ (Ps : List (Problem d n)) {flags out : Fin n → Tup d → Flags}
    (_ : ∀ P ∈ Ps, Ovk.Spec.Layouts P) (_ : Spec.runs Ps flags = some out) (k : Fin n) (p : Tup d)
    (_ : ∀ P ∈ Ps, Ovk.Spec.pts (P.grid k).cart.range p) (_ : Spec.Clean (flags k p)),
    (initAssembly out).flags k p = flags k p := by
  have key : ∀ (Ps : List (Problem d n)) {flags out : Fin n → Tup d → Flags}
      (_ : ∀ P ∈ Ps, Ovk.Spec.Layouts P) (_ : Spec.runs Ps flags = some out) (k : Fin n) (p : Tup d)
      (_ : ∀ P ∈ Ps, Ovk.Spec.pts (P.grid k).cart.range p),
      (initAssembly out).flags k p = (initAssembly flags).flags k p := by
    intro Ps
    induction Ps with
    | nil => intro flags out _ h k p _; cases h; rfl
    | cons P Ps ih =>
      intro flags out hL h k p hp
      simp only [Spec.runs, Option.bind_eq_some_iff] at h
      obtain ⟨r, h1, h2⟩ := h
      rw [ih (fun P hP => hL P (by simp [hP])) h2 k p (fun P hP => hp P (by simp [hP])),
        C43_reset (hL P (by simp)) h1 k p (hp P (by simp))]
  intro Ps flags out hL h k p hp hc
  rw [key Ps hL h k p hp, init_flags, reset_clean hc]

/-- Two lines of four points; the first overlaps three points of the second. -/
def exProblem : Problem 1 2 where
  grid := fun _ => line 4 false
  group := CC.groupOne
  inferBoundaries := fun g => decide (g = 0)
  cutBoundaryHoles := fun _ _ => false
  fringeSize := fun g => if g = 1 then 1 else 0
  occludes := fun m _ => if m = 0 then .all else .none
  edgePadding := fun _ _ => 0
  edgeSmoothing := fun _ => 0
  minimizeOverlap := fun _ _ => true
  connected := fun _ _ => true
  disjoint := fun _ _ => true
  found := fun m k p => if m = 0 ∧ k = 1 ∧ p 0 < 3 then some p else none
  vol := fun _ _ => 1
  ovVol := fun _ _ _ => 1
  fuel := 10
def exFlags : Fin 2 → Tup 1 → Flags := fun _ _ x => decide (x = .active)

theorem exProblem_layouts : Ovk.Spec.Layouts exProblem := fun _ => line_layout (by omega) false

/- Assembly infers a boundary on the first grid and removes points of the second, so there is something to
restore. -/
example : ((exProblem.assemble exFlags).map fun r => (r.1.flags 0 (fun _ => 3) .inferredDomainBoundary,
    [0, 1, 2, 3].map fun (i : Int) => r.1.flags 1 (fun _ => i) .active)) =
    some (true, [false, false, true, true]) := by decide +kernel

example : Spec.Clean (exFlags 0 fun _ => 0) := by
  intro x hx
  cases x <;> first | exact absurd trivial hx | rfl

end Ovk.Asm
