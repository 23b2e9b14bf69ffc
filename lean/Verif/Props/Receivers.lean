/-
Properties C66 and C67: which points become receivers, and the fringe flags.
-/
import Verif.Props.Donors

namespace Ovk.Asm
variable {d n : Nat} {P : Problem d n} {s s' : St d n}

/-- The outer fringe mask and its flag agree, and the points of the outer fringe are active. -/
theorem outer_flag (hL : Ovk.Spec.Layouts P) (h : P.locateOuterFringe_ s = some s')
    (h0 : ∀ k p, s.flags k p .outerFringe = false ∧ s.flags k p .fringe = false)
    (k : Fin n) (p : Tup d) (hp : Ovk.Spec.pts (P.grid k).cart.range p) :
    s'.flags k p .outerFringe = s'.outer k p ∧ s'.flags k p .fringe = s'.outer k p ∧
    (s'.outer k p = true → s'.active k p = true) := by
  unfold Problem.locateOuterFringe_ at h
  simp only [Option.bind_eq_bind, Option.bind_eq_some_iff] at h
  obtain ⟨outer, ho, h⟩ := h
  cases h
  have key : ∀ x, x = Flag.fringe ∨ x = .outerFringe →
      (if (decide (P.fringeSize k ≠ 0) && decide ((P.grid k).count (outer k) ≠ 0) && outer k p) = true then
        (s.flags k p).or [.fringe, .outerFringe] else s.flags k p) x = outer k p := by
    intro x hx
    cases hm : outer k p with
    | false =>
      rw [if_neg (by simp)]
      rcases hx with rfl | rfl
      · exact (h0 k p).2
      · exact (h0 k p).1
    | true =>
      have h1 : (P.grid k).count (outer k) ≠ 0 := fun hz => by
        rw [(count_zero (hL k) _).1 hz p hp] at hm; cases hm
      have h2 : P.fringeSize k ≠ 0 := by
        intro hz
        have := forAll_some ho k
        rw [if_pos hz] at this
        rw [← Option.some.inj this] at hm
        cases hm
      rw [if_pos (by simp [h1, h2])]
      rcases hx with rfl | rfl <;> simp [Flags.or]
  refine ⟨key _ (.inr rfl), key _ (.inl rfl), fun hm => ?_⟩
  have := forAll_some ho k
  replace hm : outer k p = true := hm
  show s.active k p = true
  split at this
  · rw [← Option.some.inj this] at hm; cases hm
  · unfold Problem.outerMask at this
    simp only [Option.bind_eq_bind, Option.bind_eq_some_iff] at this
    obtain ⟨a, -, b, -, c, -, e, -, hf⟩ := this
    rw [← Option.some.inj hf, Bool.and_eq_true] at hm
    exact hm.1

/-- Masks and flags of a grid point at the end of an assembly. -/
structure Final (P : Problem d n) (r : St d n × Problem.Conn d n) (k : Fin n) (p : Tup d) where
  outer0 : Bool
  occl : Bool
  act0 : Bool
  mi : Bool
  inn : Bool
  outAct : outer0 = true → act0 = true
  innSpec : inn = true → act0 = true ∧ mi = false
  active : r.1.flags k p .active = (act0 && !mi)
  outerF : r.1.flags k p .outerFringe = (outer0 && !mi)
  innerF : r.1.flags k p .innerFringe = inn
  fringeF : r.1.flags k p .fringe = (outer0 || inn)
  occlF : r.1.flags k p .occluded = occl
  minF : r.1.flags k p .overlapMinimized = mi
  recv : r.2.receiver k p = ((outer0 && (act0 && !mi)) || inn || (occl && (act0 && !mi)))

theorem final_spec (hL : Ovk.Spec.Layouts P) {flags : Fin n → Tup d → Flags}
    {r : St d n × Problem.Conn d n} (h : P.assemble flags = some r) (k : Fin n) (p : Tup d)
    (hp : Ovk.Spec.pts (P.grid k).cart.range p) : Nonempty (Final P r k p) := by
  unfold Problem.assemble at h
  simp only [Option.bind_eq_bind, Option.bind_eq_some_iff] at h
  obtain ⟨s1, h1, s2, h2, s3, h3, s4, h4, s5, h5, h6⟩ := h
  have i1 := inv_infer hL (inv_overlap (P := P) flags) (fun k p => by
    show (resetFlags (flags k p) .active && resetFlags (flags k p) .domainBoundary) = _
    rw [overlap_other _ (by simp), overlap_other _ (by simp)]
    rfl) h1
  have i3 := inv_outer (inv_cut i1 h2) h3
  obtain ⟨i4, hb4⟩ := inv_occluded i3 h4
  have i5 := inv_minimize hL i4 hb4 h5
  have e4 := (occluded_spec h4 i3.sub).2.2
  have hout4 : s4.outer = s3.outer := by rw [e4]; rfl
  have hact4 : s4.active = s3.active := by rw [e4]; rfl
  obtain ⟨o1, o2, o3⟩ := outer_flag hL h3 (fun k p => by
    rw [cut_other h2 (by simp), cut_other h2 (by simp), infer_other h1 (by simp), infer_other h1 (by simp),
      overlap_other _ (by simp), overlap_other _ (by simp)]
    exact ⟨clean_reset _ _ id, clean_reset _ _ id⟩) k p hp
  have hocc := occluded_flag hL h4 (fun k p => before_occluded h1 h2 h3 k p (by simp)) i3.sub k p hp
  obtain ⟨mk, hmk, hfl⟩ := minimize_flags hL h5
  have hms := minimize_spec hL (hmk k)
  have hmin0 : s4.flags k p .overlapMinimized = false := by
    rw [occluded_other h4 i3.sub (by simp)]; exact before_occluded h1 h2 h3 k p (by simp)
  have hinn0 : s4.flags k p .innerFringe = false := by
    rw [occluded_other h4 i3.sub (by simp)]; exact before_occluded h1 h2 h3 k p (by simp)
  have hfin : ∀ x, x ∉ [Flag.receiver, .orphan] →
      r.1.flags k p x = Problem.minimizeFlags ((mk k).1 p) ((mk k).2 p) (s4.flags k p) x := by
    intro x hx
    rw [generate_other h6 hx, hfl k p hp]
  have hinn : (mk k).2 p = true → s4.active k p = true ∧ (mk k).1 p = false := by
    intro h
    obtain ⟨-, ha, hm, -⟩ := (hms.inner p hp).1 h
    exact ⟨ha, hm⟩
  have hact5 : s5.flags k p .active = (s4.active k p && !(mk k).1 p) := by
    rw [hfl k p hp, i4.sync k p hp]
    unfold Problem.minimizeFlags
    cases (mk k).1 p <;> cases (mk k).2 p <;> simp [Flags.or, Flags.andNot]
  have hrecv : r.2.receiver k p = receivers s5 k p := by
    unfold Problem.generate_ at h6
    simp only [Option.bind_eq_bind, Option.bind_eq_some_iff] at h6
    obtain ⟨dist, -, h6⟩ := h6
    cases h6; rfl
  have hs5 : s5.inner k p = (mk k).2 p ∧ s5.occl = s4.occl ∧
      s5.outer k p = (s4.outer k p && (s4.active k p && !(mk k).1 p)) := by
    have h5' := h5
    unfold Problem.minimizeOverlap_ at h5'
    simp only [Option.bind_eq_bind, Option.bind_eq_some_iff] at h5'
    obtain ⟨mk', hmk', h5'⟩ := h5'
    have hmm : mk' k = mk k := Option.some.inj ((forAll_some hmk' k).symm.trans (hmk k))
    refine ⟨?_, ?_, ?_⟩
    · rw [← hmm]; cases h5'; rfl
    · cases h5'; rfl
    · rw [← hact5]
      cases h5'
      show (if _ then _ else _) = _
      split
      · rfl
      · rename_i h0
        have h0 : (P.grid k).count (mk' k).1 = 0 := by simpa using h0
        rw [hmm] at h0
        have hmi := (count_zero (hL k) _).1 h0 p hp
        show s4.outer k p = (s4.outer k p && _)
        rw [hact5, hmi]
        have : s4.outer k p = true → s4.active k p = true := by
          rw [hout4, hact4]; exact o3
        cases ho : s4.outer k p
        · rfl
        · rw [this ho]; rfl
  refine ⟨⟨s3.outer k p, s4.occl k p, s4.active k p, (mk k).1 p, (mk k).2 p, ?_, hinn, ?_, ?_, ?_, ?_, ?_, ?_, ?_⟩⟩
  · rw [hact4]; exact o3
  · rw [generate_other h6 (by simp), hact5]
  · rw [hfin _ (by simp), ← o1, ← occluded_other h4 i3.sub (x := .outerFringe) (by simp) k p]
    unfold Problem.minimizeFlags
    cases (mk k).1 p <;> cases (mk k).2 p <;> simp [Flags.or, Flags.andNot]
  · rw [hfin _ (by simp)]
    unfold Problem.minimizeFlags
    cases hm : (mk k).1 p <;> cases hi : (mk k).2 p <;> simp [Flags.or, Flags.andNot, hinn0]
    have := (hinn hi).2
    rw [hm] at this; cases this
  · rw [hfin _ (by simp), ← o2, ← occluded_other h4 i3.sub (x := .fringe) (by simp) k p]
    unfold Problem.minimizeFlags
    cases hm : (mk k).1 p <;> cases hi : (mk k).2 p <;> simp [Flags.or, Flags.andNot]
    have := (hinn hi).2
    rw [hm] at this; cases this
  · rw [hfin _ (by simp), minimizeFlags_other _ _ _ (by simp), hocc]
  · rw [hfin _ (by simp)]
    unfold Problem.minimizeFlags
    cases (mk k).1 p <;> cases (mk k).2 p <;> simp [Flags.or, Flags.andNot, hmin0]
  · rw [hrecv]
    unfold receivers
    rw [hs5.1, hs5.2.1, hs5.2.2, i5.sync k p hp, hact5, hout4]

/-- C66: the receivers are exactly the active points of the outer fringe, of the inner fringe, and the active
occluded points. -/
theorem C66_receivers (hL : Ovk.Spec.Layouts P) {flags : Fin n → Tup d → Flags}
    {r : St d n × Problem.Conn d n} (h : P.assemble flags = some r) (k : Fin n) (p : Tup d)
    (hp : Ovk.Spec.pts (P.grid k).cart.range p) :
    r.1.flags k p .receiver = true ↔ r.1.flags k p .active = true ∧
      (r.1.flags k p .outerFringe = true ∨ r.1.flags k p .innerFringe = true ∨
        r.1.flags k p .occluded = true) := by
  obtain ⟨dist, -, hc, -⟩ := C46_donors hL h
  rw [(hc k p hp).receiverFlag]
  obtain ⟨f⟩ := final_spec hL h k p hp
  rw [f.recv, f.active, f.outerF, f.innerF, f.occlF]
  have h1 := f.outAct
  have h2 := f.innSpec
  revert h1 h2
  cases f.outer0 <;> cases f.inn <;> cases f.mi <;> cases f.act0 <;> cases f.occl <;> simp

/-- C66: orphans and points listed in a connectivity are active. -/
theorem C66_active (hL : Ovk.Spec.Layouts P) {flags : Fin n → Tup d → Flags}
    {r : St d n × Problem.Conn d n} (h : P.assemble flags = some r) (k : Fin n) (p : Tup d)
    (hp : Ovk.Spec.pts (P.grid k).cart.range p)
    (ho : r.1.flags k p .orphan = true ∨ ∃ m cell, (p, cell) ∈ r.2.entries m k) :
    r.1.flags k p .active = true := by
  obtain ⟨dist, -, hc, -⟩ := C46_donors hL h
  refine ((C66_receivers hL h k p hp).1 ?_).1
  rcases ho with ho | ho
  · rw [(hc k p hp).receiverFlag]; exact ((hc k p hp).orphan.1 ho).1
  · exact ((C46_unique hL h k p hp).2.1 ho).1

/-- The property as stated: the fringe is made up of the outer and the inner fringe. -/
def C67_statement : Prop := ∀ (d n : Nat) (P : Problem d n) (flags : Fin n → Tup d → Flags)
  (r : St d n × Problem.Conn d n), Ovk.Spec.Layouts P → P.assemble flags = some r →
  ∀ k p, Ovk.Spec.pts (P.grid k).cart.range p →
    (r.1.flags k p .fringe = true ↔ r.1.flags k p .outerFringe = true ∨ r.1.flags k p .innerFringe = true)

/-- C67 (the part that holds): points not removed by overlap minimization. -/
theorem C67_partial (hL : Ovk.Spec.Layouts P) {flags : Fin n → Tup d → Flags}
    {r : St d n × Problem.Conn d n} (h : P.assemble flags = some r) (k : Fin n) (p : Tup d)
    (hp : Ovk.Spec.pts (P.grid k).cart.range p) (hm : r.1.flags k p .overlapMinimized = false) :
    (r.1.flags k p .fringe = true ↔ r.1.flags k p .outerFringe = true ∨ r.1.flags k p .innerFringe = true) ∧
    (r.1.flags k p .fringe = true → r.1.flags k p .active = true) := by
  obtain ⟨f⟩ := final_spec hL h k p hp
  rw [f.minF] at hm
  rw [f.fringeF, f.outerF, f.innerF, f.active, hm]
  have h1 := f.outAct
  have h2 := f.innSpec
  revert h1 h2
  cases f.outer0 <;> cases f.inn <;> cases f.act0 <;> simp

theorem ex_fringe : ((exProblem.assemble exFlags).map fun r =>
    ([Flag.fringe, .outerFringe, .innerFringe].map fun x => r.1.flags 1 (fun _ => 0) x)) =
    some [true, false, false] := by decide +kernel

/-- C67 is false as stated: a removed point of the outer fringe keeps the fringe flag. -/
theorem C67_false : ¬ C67_statement := by
  intro h
  have hrun := ex_fringe
  rw [Option.map_eq_some_iff] at hrun
  obtain ⟨r, hr, hrun⟩ := hrun
  simp only [List.map_cons, List.map_nil, List.cons.injEq] at hrun
  have := (h 1 2 exProblem exFlags r exProblem_layouts hr 1 (fun _ => 0)
    (fun i => by show (0 : Int) ≤ 0 ∧ (0 : Int) < 4; omega)).1 hrun.1
  rw [hrun.2.1, hrun.2.2.1] at this
  simp at this

/- Receivers of the example: the inner fringe point next to the removed ones, the outer fringe point at the other
end. -/
example : ((exProblem.assemble exFlags).map fun r =>
    [0, 1, 2, 3].map fun (i : Int) => (r.1.flags 1 (fun _ => i) .receiver, r.1.flags 1 (fun _ => i) .orphan)) =
    some [(false, false), (false, false), (true, false), (true, true)] := by decide +kernel

end Ovk.Asm
