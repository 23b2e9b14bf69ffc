/-
Property C102: what earlier assemblies leave behind does not influence an assembly.
-/
import Verif.Model.Reassembly
import Verif.Props.Defined

namespace Ovk.Asm
variable {d n : Nat} {P : Problem d n}

namespace Spec
/-- The search finds cells for points of the grid only. -/
def OnGrid (P : Problem d n) : Prop := ∀ m k p, ¬ Ovk.Spec.pts (P.grid k).cart.range p → P.found m k p = none

/-- What the user sees of an assembly: the flags, the overlaps, and the connectivity. -/
def seen (r : Option (Mem d n × Problem.Conn d n)) :
    Option ((Fin n → Tup d → Flags) × (Fin n → Fin n → Tup d → Option (Tup d)) × Problem.Conn d n) :=
  r.map fun r => (r.1.flags, r.1.ov, r.2)

/-- The data an assembler holds after assembling one after the other, with any changes of grids, options and flags
in between. -/
def after : List (Problem d n × (Fin n → Tup d → Flags)) → AsmData d n → Option (AsmData d n)
  | [], kept => some kept
  | a :: as, kept => (a.1.reassemble kept a.2).bind fun r => after as r.1.kept
end Spec

/-- The property as stated: an assembler that was used before gives the same as a new one. -/
def C102_statement : Prop := ∀ (d n : Nat) (before : List (Problem d n × (Fin n → Tup d → Flags))) (kept : AsmData d n)
  (P : Problem d n) (flags : Fin n → Tup d → Flags), Spec.after before {} = some kept → Spec.Valid P →
  Spec.OnGrid P → Spec.seen (P.reassemble kept flags) = Spec.seen (P.reassemble {} flags)

theorem ovExists_congr {s t : St d n} (h : s.ov = t.ov) : P.ovExists s = P.ovExists t := by
  funext m k
  unfold Problem.ovExists
  rw [h]

theorem occPair_congr {s t : St d n} (h : s.ov = t.ov) : P.occPair s = P.occPair t := by
  funext m k
  unfold Problem.occPair
  rw [ovExists_congr h]

/-- The memory `s` holds the data of the state `v` of an assembly that started without data. -/
structure Sim (P : Problem d n) (s : Mem d n) (v : St d n) : Prop where
  flags : s.flags = v.flags
  ov : s.ov = v.ov
  aux : ∀ g, s.kept.aux g = some (v.active g, v.domBdry g, v.intBdry g)
  overlap : ∀ m k, P.ovExists v m k = true → s.kept.overlap m k = some (v.overlap m k)
  empty : ∀ m k, P.ovExists v m k = false → v.overlap m k = blank ∧ v.ov m k = fun _ => none

theorem readPairs_of {sel : Fin n → Fin n → Bool} {e : Fin n → Fin n → Option (Mask d)} {r : Fin n → Fin n → Mask d}
    (h : ∀ m k, sel m k = true → e m k = some (r m k)) (h' : ∀ m k, sel m k = false → r m k = blank) :
    readPairs sel e = some r := by
  refine forAll_of fun m => forAll_of fun k => ?_
  cases hs : sel m k
  · rw [if_neg (by simp), h' m k hs]
  · rw [if_pos rfl, h m k hs]

theorem Sim.readGrids {s : Mem d n} {v : St d n} (h : Sim P s v) (w : St d n) :
    s.readGrids w = some { w with active := v.active, domBdry := v.domBdry, intBdry := v.intBdry } := by
  unfold Mem.readGrids
  rw [forAll_of h.aux]
  rfl

theorem Sim.bare {s : Mem d n} {v : St d n} (h : Sim P s v) : s.bare = { flags := v.flags, ov := v.ov } := by
  unfold Mem.bare
  rw [h.flags, h.ov]

theorem Sim.exists {s : Mem d n} {v : St d n} (h : Sim P s v) : P.ovExists s.bare = P.ovExists v :=
  ovExists_congr (by rw [h.bare])

theorem Sim.readOverlaps {s : Mem d n} {v : St d n} (h : Sim P s v) (w : St d n) :
    P.readOverlaps s w = some { w with overlap := v.overlap } := by
  unfold Problem.readOverlaps
  rw [h.exists, readPairs_of h.overlap fun m k hm => (h.empty m k hm).1]
  rfl

/-- Detecting overlap. -/
theorem sim_overlap (hL : Ovk.Spec.Layouts P) (hG : Spec.OnGrid P) (kept : AsmData d n)
    (flags : Fin n → Tup d → Flags) : ∃ s, P.reOverlap (Problem.reInit kept flags) = some s ∧
      s.kept.pairOccl = kept.pairOccl ∧ Sim P s (P.detectOverlap (initAssembly flags)) := by
  have hr : (Problem.reInit kept flags).readGrids (Problem.reInit kept flags).bare = some (initAssembly flags) := by
    unfold Mem.readGrids
    rw [forAll_of (f := (Problem.reInit kept flags).kept.aux) (r := fun g => ((initAssembly flags).active g,
      (initAssembly flags).domBdry g, (initAssembly flags).intBdry g)) fun _ => rfl]
    rfl
  unfold Problem.reOverlap
  rw [hr]
  refine ⟨_, rfl, rfl, rfl, rfl, fun g => rfl, fun m k h => ?_, fun m k h => ?_⟩
  · dsimp only [Problem.writeOverlaps]
    rw [if_pos]
    exact h
  · have hn : ∀ p, (P.detectOverlap (initAssembly flags)).ov m k p = none := by
      intro p
      by_cases hp : Ovk.Spec.pts (P.grid k).cart.range p
      · unfold Problem.ovExists at h
        rw [List.any_eq_false] at h
        have := h p ((mem_gridPoints (hL k) p).2 hp)
        simpa using this
      · show (if _ then P.found m k p else none) = none
        rw [hG m k p hp]
        split <;> rfl
    exact ⟨funext fun p => congrArg Option.isSome (hn p), funext hn⟩

/-- Inferring boundaries. -/
theorem sim_infer {s : Mem d n} {v v' : St d n} (h : Sim P s v) (hv : P.inferBoundaries_ v = some v') :
    ∃ s', P.reInfer s = some s' ∧ s'.kept.pairOccl = s.kept.pairOccl ∧ Sim P s' v' := by
  unfold Problem.inferBoundaries_ at hv
  simp only [Option.bind_eq_bind, Option.bind_eq_some_iff] at hv
  obtain ⟨edge, he, hv⟩ := hv
  cases hv
  unfold Problem.reInfer
  rw [h.readGrids, h.bare]
  simp only [Option.bind_eq_bind, Option.bind_some]
  unfold Problem.inferBoundaries_
  simp only [he, Option.bind_eq_bind, Option.bind_some]
  exact ⟨_, rfl, rfl, rfl, h.ov, fun g => rfl, h.overlap, h.empty⟩

theorem updateOverlap_empty {v : St d n} {sel : Fin n → Fin n → Bool} {m k : Fin n} (h1 : v.overlap m k = blank)
    (h2 : v.ov m k = fun _ => none) : (P.updateOverlap v sel).overlap m k = blank := by
  unfold Problem.updateOverlap
  dsimp only
  rw [h1, h2]
  funext p
  show (if _ then _ else _) = _
  simp [blank]

/-- Cutting boundary holes. -/
theorem sim_cut {s : Mem d n} {v v' : St d n} (h : Sim P s v) (hv : P.cutBoundaryHoles_ v = some v') :
    ∃ s', P.reCut s = some s' ∧ s'.kept.pairOccl = s.kept.pairOccl ∧ Sim P s' v' := by
  unfold Problem.reCut
  rw [h.readGrids, h.bare]
  simp only [Option.bind_eq_bind, Option.bind_some]
  rw [h.readOverlaps]
  simp only [Option.bind_some]
  generalize hw : ({ flags := v.flags, active := v.active, domBdry := v.domBdry, intBdry := v.intBdry
                     ov := v.ov, overlap := v.overlap } : St d n) = w
  unfold Problem.cutBoundaryHoles_ at hv
  simp only [Option.bind_eq_bind, Option.bind_eq_some_iff] at hv
  obtain ⟨proj, hp, hole, hh, hv⟩ := hv
  cases hv
  have hp' : (forAll fun m => forAll fun k => if P.cut w m k then P.projected w m k else some fun _ => false) =
    some proj := by rw [← hw]; exact hp
  have hh' : (forAll fun k => if P.cutN w k then P.holes w proj k else some fun _ => false) = some hole := by
    rw [← hw]; exact hh
  unfold Problem.cutBoundaryHoles_
  simp only [hp', hh', Option.bind_eq_bind, Option.bind_some]
  subst hw
  refine ⟨_, rfl, rfl, rfl, h.ov, fun g => rfl, fun m k hm => ?_, fun m k hm => ?_⟩
  · dsimp only [Problem.writeOverlaps]
    rw [if_pos]
    · rfl
    · rw [← hm]; exact congrFun (congrFun (ovExists_congr h.ov) m) k
  · obtain ⟨h1, h2⟩ := h.empty m k hm
    exact ⟨updateOverlap_empty h1 h2, h2⟩

/-- Locating the outer fringe. -/
theorem sim_outer {s : Mem d n} {v v' : St d n} (h : Sim P s v) (hv : P.locateOuterFringe_ v = some v') :
    ∃ s', P.reOuter s = some s' ∧ s'.kept.pairOccl = s.kept.pairOccl ∧ Sim P s' v' ∧
      ∀ g, s'.kept.outer g = some (v'.outer g) := by
  unfold Problem.reOuter
  rw [h.readGrids, h.bare]
  simp only [Option.bind_eq_bind, Option.bind_some]
  generalize hw : ({ flags := v.flags, active := v.active, domBdry := v.domBdry, intBdry := v.intBdry
                     ov := v.ov } : St d n) = w
  unfold Problem.locateOuterFringe_ at hv
  simp only [Option.bind_eq_bind, Option.bind_eq_some_iff] at hv
  obtain ⟨outer, ho, hv⟩ := hv
  cases hv
  have ho' : (forAll fun k => if P.fringeSize k = 0 then some fun _ => false else P.outerMask w k) = some outer := by
    rw [← hw]; exact ho
  unfold Problem.locateOuterFringe_
  simp only [ho', Option.bind_eq_bind, Option.bind_some]
  subst hw
  exact ⟨_, rfl, rfl, ⟨rfl, h.ov, fun g => h.aux g, h.overlap, h.empty⟩, fun g => rfl⟩

theorem reMutual_of {v : St d n} {sel : Fin n → Fin n → Bool} {po po' : Fin n → Fin n → Mask d}
    {e : Fin n → Fin n → Option (Mask d)} (h : P.mutualPass v sel po = some po')
    (he : ∀ m k, P.ovExists v m k = true → e m k = some (po m k))
    (hb : ∀ m k, P.ovExists v m k = false → po m k = blank) :
    ∃ e', P.reMutual v sel e = some e' ∧ (∀ m k, P.ovExists v m k = true → e' m k = some (po' m k)) ∧
      ∀ m k, P.ovExists v m k = false → po' m k = blank := by
  unfold Problem.mutualPass at h
  split at h
  · cases h
  rename_i hno
  cases h
  refine ⟨fun m k => if P.ovExists v m k then _ else e m k, forAll_of fun m => forAll_of fun k => ?_,
    fun m k hmk => if_pos hmk, fun m k hmk => ?_⟩
  · by_cases hc : (P.ovExists v m k && P.mutually m k && sel m k) = true
    · have hc' := hc
      simp only [Bool.and_eq_true] at hc'
      have hkm : P.ovExists v k m = true := by
        by_contra hne
        exact hno ⟨m, k, hc'.1.1, hc'.1.2, hc'.2, by simpa using hne⟩
      rw [if_pos hc, he k m hkm, he m k hc'.1.1, if_pos hc'.1.1]
      simp only [Option.bind_eq_bind, Option.bind_some]
      congr 2
      funext p
      rw [if_pos hc]
      rfl
    · rw [if_neg hc]
      cases hx : P.ovExists v m k
      · simp
      · rw [if_pos rfl, he m k hx]
        congr 2
        funext p
        exact (if_neg hc).symm
  · rw [← hb m k hmk]
    funext p
    exact if_neg (by simp [hmk])

theorem reDisallow_of {v : St d n} {po : Fin n → Fin n → Mask d} {e : Fin n → Fin n → Option (Mask d)}
    (he : ∀ m k, P.ovExists v m k = true → e m k = some (po m k)) {m k : Fin n} {r : Mask d}
    (h : P.disallow v po m k = some r) : P.reDisallow v e m k = some r := by
  unfold Problem.disallow at h
  split at h
  · cases h
  rename_i hno
  unfold Problem.reDisallow
  by_cases ho : P.occludes k m = .none
  · rw [if_neg (by simp [ho]), ← h]
    simp [ho]
  · have hkm : P.ovExists v k m = true := by
      by_contra hne
      exact hno ⟨ho, by simpa using hne⟩
    rw [if_pos ho, he k m hkm, ← h]
    rfl

theorem detectOccluded_eq (v : St d n) : P.detectOccluded_ v =
    (P.mutualPass v (fun m k => decide (m ≤ k)) (P.pairwise v)).bind fun po =>
    (P.mutualPass v (fun m k => decide (k ≤ m)) po).bind fun po =>
    (forAll fun m => forAll fun k => if P.occPair v m k then P.disallow v po m k else some fun _ => false).bind fun dis =>
    (P.padded v po dis).bind fun r =>
    some { v.write (fun k => decide ((P.grid k).count (r.2 k) ≠ 0)) r.2 (·.or [.occluded]) with
      pairOccl := r.1, occl := r.2 } := by
  unfold Problem.detectOccluded_ Problem.padded
  simp only [Option.bind_eq_bind, Option.bind_assoc, Option.bind_some]
  rfl

theorem padded_congr {v : St d n} {po pt dis : Fin n → Fin n → Mask d}
    {r : (Fin n → Fin n → Mask d) × (Fin n → Mask d)} (h : P.padded v po dis = some r)
    (he : ∀ m k, P.occPair v m k = true → pt m k = po m k) :
    ∃ r', P.padded v pt dis = some r' ∧ r'.2 = r.2 ∧ (∀ m k, P.occPair v m k = true → r'.1 m k = r.1 m k) ∧
      ∀ m k, P.occPair v m k = false → r.1 m k = po m k := by
  unfold Problem.padded at h ⊢
  simp only [Option.bind_eq_bind, Option.bind_eq_some_iff] at h
  obtain ⟨occ, ho, h⟩ := h
  cases h
  have ho' : (forAll fun k => P.smooth k (fun p => decide (∃ m, P.occPair v m k = true ∧ pt m k p = true))
      fun p => decide (∃ m, P.occPair v m k = true ∧ (pt m k p && !(pt m k p && !(match v.ov m k p with
    | some cell => ((P.grid m).verts cell).all fun q => !dis m k q
    | none => false))) = true)) = some occ := by
    rw [← ho]
    congr 1
    funext k
    congr 1
    · funext p
      refine decide_eq_decide.2 (exists_congr fun m => and_congr_right fun hc => ?_)
      rw [he m k hc]
    · funext p
      refine decide_eq_decide.2 (exists_congr fun m => and_congr_right fun hc => ?_)
      rw [he m k hc]
      exact Iff.rfl
  simp only [Option.bind_eq_bind]
  erw [ho']
  refine ⟨_, rfl, ?_, fun m k hc => ?_, fun m k hc => ?_⟩
  · funext k p
    refine decide_eq_decide.2 (exists_congr fun m => and_congr_right fun hc => ?_)
    rw [if_pos hc, if_pos hc, he m k hc]
  · funext p
    dsimp only
    rw [if_pos hc, if_pos hc, he m k hc]
  · funext p
    exact if_neg (by simp [hc])

/-- Detecting occluded points. -/
theorem sim_occluded {s : Mem d n} {v v' : St d n} (h : Sim P s v) (hv : P.detectOccluded_ v = some v') :
    ∃ s', P.reOccluded s = some s' ∧ s'.kept.outer = s.kept.outer ∧ Sim P s' v' ∧ v'.outer = v.outer ∧ v'.ov = v.ov ∧
      (∀ g, s'.kept.occl g = some (v'.occl g)) ∧
      ∀ m k, P.ovExists v m k = true → s'.kept.pairOccl m k = some (v'.pairOccl m k) := by
  unfold Problem.reOccluded
  rw [h.readGrids, h.bare]
  simp only [Option.bind_eq_bind, Option.bind_some]
  rw [h.readOverlaps]
  simp only [Option.bind_some]
  generalize hw : ({ flags := v.flags, active := v.active, domBdry := v.domBdry, intBdry := v.intBdry
                     ov := v.ov, overlap := v.overlap } : St d n) = w
  rw [detectOccluded_eq] at hv
  simp only [Option.bind_eq_some_iff] at hv
  obtain ⟨po1, h1, po2, h2, dis, hdis, r, hr, hv⟩ := hv
  cases hv
  have hov : w.ov = v.ov := by rw [← hw]
  have hex : P.ovExists w = P.ovExists v := ovExists_congr hov
  have hop : P.occPair w = P.occPair v := occPair_congr hov
  have h1' : P.mutualPass w (fun m k => decide (m ≤ k)) (P.pairwise w) = some po1 := by rw [← hw]; exact h1
  have h2' : P.mutualPass w (fun m k => decide (k ≤ m)) po1 = some po2 := by rw [← hw]; exact h2
  obtain ⟨e1, he1, ha1, hb1⟩ := reMutual_of (e := fun m k => if P.ovExists w m k then some (P.pairwise w m k)
      else s.kept.pairOccl m k) h1' (fun m k hm => if_pos hm) fun m k hm => by
    rw [hex] at hm
    obtain ⟨ho, hn⟩ := h.empty m k hm
    funext p
    unfold Problem.pairwise
    rw [hov, hn, ← hw]
    dsimp only
    rw [ho]
    split <;> rfl
  obtain ⟨e2, he2, ha2, hb2⟩ := reMutual_of h2' ha1 hb1
  have hd : (forAll fun m => forAll fun k => if P.occPair w m k then P.reDisallow w e2 m k else some blank) =
      some dis := by
    refine forAll_of fun m => forAll_of fun k => ?_
    have := forAll_some (forAll_some hdis m) k
    rw [hop]
    cases hc : P.occPair v m k
    · rw [hc] at this; exact this
    · rw [hc, if_pos rfl] at this
      rw [if_pos rfl]
      refine reDisallow_of ha2 ?_
      rw [← hw]; exact this
  have hocx : ∀ m k, P.occPair v m k = true → P.ovExists v m k = true := by
    intro m k hc
    unfold Problem.occPair at hc
    rw [Bool.and_eq_true] at hc
    exact hc.1
  have hpt : readPairs (P.occPair w) e2 = some fun m k => if P.occPair v m k then po2 m k else blank := by
    refine readPairs_of (fun m k hc => ?_) fun m k hc => ?_
    · rw [hop] at hc
      rw [if_pos hc]
      exact ha2 m k (by rw [hex]; exact hocx m k hc)
    · rw [hop] at hc
      rw [if_neg (by simp [hc])]
  have hr' : P.padded w po2 dis = some r := by rw [← hw]; exact hr
  obtain ⟨r', hr', hr2, hr1, hrn⟩ := padded_congr (pt := fun m k => if P.occPair v m k then po2 m k else blank) hr'
    fun m k hc => by rw [hop] at hc; exact if_pos hc
  simp only [he1, he2, hd, hpt, hr', Option.bind_some]
  refine ⟨_, rfl, rfl, ⟨?_, h.ov, h.aux, h.overlap, h.empty⟩, rfl, rfl, fun g => ?_, fun m k hm => ?_⟩
  · rw [hr2, ← hw]; rfl
  · rw [hr2]
  · dsimp only
    rw [hop]
    cases hc : P.occPair v m k
    · rw [hrn m k (by rw [hop]; exact hc)]
      exact ha2 m k (by rw [hex]; exact hm)
    · rw [if_pos rfl, hr1 m k (by rw [hop]; exact hc)]

/-- Minimizing overlap. -/
theorem sim_minimize {s : Mem d n} {v v' : St d n} (h : Sim P s v) (ho : ∀ g, s.kept.outer g = some (v.outer g))
    (hc : ∀ g, s.kept.occl g = some (v.occl g))
    (hp : ∀ m k, P.ovExists v m k = true → s.kept.pairOccl m k = some (v.pairOccl m k))
    (hv : P.minimizeOverlap_ v = some v') :
    ∃ s', P.reMinimize s = some s' ∧ Sim P s' v' ∧ (∀ g, s'.kept.outer g = some (v'.outer g)) ∧
      (∀ g, s'.kept.occl g = some (v'.occl g)) ∧ ∀ g, s'.kept.inner g = some (v'.inner g) := by
  unfold Problem.reMinimize
  rw [h.readGrids, h.bare]
  simp only [Option.bind_eq_bind, Option.bind_some]
  rw [h.readOverlaps]
  simp only [Option.bind_some]
  rw [forAll_of ho, forAll_of hc]
  simp only [Option.bind_some]
  have hop : ∀ w : St d n, w.ov = v.ov → readPairs (P.occPair w) s.kept.pairOccl =
      some fun m k => if P.occPair v m k then v.pairOccl m k else blank := by
    intro w hw
    rw [occPair_congr hw]
    refine readPairs_of (fun m k hc => ?_) fun m k hc => if_neg (by simp [hc])
    rw [if_pos hc]
    refine hp m k ?_
    unfold Problem.occPair at hc
    rw [Bool.and_eq_true] at hc
    exact hc.1
  rw [hop { flags := v.flags, active := v.active, domBdry := v.domBdry, intBdry := v.intBdry
            ov := v.ov, overlap := v.overlap } rfl]
  simp only [Option.bind_some]
  generalize hw : ({ flags := v.flags, active := v.active, domBdry := v.domBdry, intBdry := v.intBdry
                     ov := v.ov, overlap := v.overlap, outer := v.outer, occl := v.occl
                     pairOccl := fun m k => if P.occPair v m k then v.pairOccl m k else blank } : St d n) = w
  unfold Problem.minimizeOverlap_ at hv
  simp only [Option.bind_eq_bind, Option.bind_eq_some_iff] at hv
  obtain ⟨mk, hm, hv⟩ := hv
  cases hv
  have hm' : (forAll fun k => P.minimizeMasks w k) = some mk := by
    rw [← hm]
    congr 1
    funext k
    have e : (fun p => decide (∃ m, P.occPair w m k = true ∧ P.minimizeOverlap m k = true ∧ w.pairOccl m k p = true)) =
        fun p => decide (∃ m, P.occPair v m k = true ∧ P.minimizeOverlap m k = true ∧ v.pairOccl m k p = true) := by
      rw [occPair_congr (t := v) (by rw [← hw])]
      funext p
      refine decide_eq_decide.2 (exists_congr fun m => and_congr_right fun hc => and_congr_right fun _ => ?_)
      rw [← hw]
      dsimp only
      rw [if_pos hc]
    unfold Problem.minimizeMasks
    rw [e, ← hw]
  unfold Problem.minimizeOverlap_
  simp only [hm', Option.bind_eq_bind, Option.bind_some]
  subst hw
  refine ⟨_, rfl, ⟨rfl, h.ov, fun g => rfl, fun m k hm => ?_, fun m k hm => ?_⟩, fun g => rfl, hc, fun g => rfl⟩
  · dsimp only [Problem.writeOverlaps]
    rw [if_pos]
    · rfl
    · rw [← hm]; exact congrFun (congrFun (ovExists_congr h.ov) m) k
  · obtain ⟨h1, h2⟩ := h.empty m k hm
    exact ⟨updateOverlap_empty h1 h2, h2⟩

/-- Generating connectivity. -/
theorem sim_generate {s : Mem d n} {v : St d n} {r : St d n × Problem.Conn d n} (h : Sim P s v)
    (ho : ∀ g, s.kept.outer g = some (v.outer g)) (hc : ∀ g, s.kept.occl g = some (v.occl g))
    (hi : ∀ g, s.kept.inner g = some (v.inner g)) (hv : P.generate_ v = some r) :
    ∃ s', P.reGenerate s = some (s', r.2) ∧ s'.flags = r.1.flags ∧ s'.ov = r.1.ov := by
  unfold Problem.reGenerate
  rw [h.readGrids, h.bare]
  simp only [Option.bind_eq_bind, Option.bind_some]
  rw [h.readOverlaps]
  simp only [Option.bind_some]
  rw [forAll_of ho, forAll_of hc, forAll_of hi]
  simp only [Option.bind_some]
  generalize hw : ({ flags := v.flags, active := v.active, domBdry := v.domBdry, intBdry := v.intBdry
                     ov := v.ov, overlap := v.overlap, outer := v.outer, occl := v.occl
                     inner := v.inner } : St d n) = w
  unfold Problem.generate_ at hv
  simp only [Option.bind_eq_bind, Option.bind_eq_some_iff] at hv
  obtain ⟨dist, hd, hv⟩ := hv
  cases hv
  have hd' : (forAll fun k => Problem.receiverDistances (P.grid k) (receivers w k) (P.maxDistance w k)) = some dist := by
    rw [← hw]; exact hd
  unfold Problem.generate_
  simp only [hd', Option.bind_eq_bind, Option.bind_some]
  subst hw
  exact ⟨_, rfl, rfl, h.ov⟩

/-- Whatever earlier assemblies left behind: if an assembly without such data is defined, an assembly with it gives
the same flags, overlaps, and connectivity. -/
theorem C102_same (hL : Ovk.Spec.Layouts P) (hG : Spec.OnGrid P) {flags : Fin n → Tup d → Flags}
    {r : St d n × Problem.Conn d n} (h : P.assemble flags = some r) (kept : AsmData d n) :
    Spec.seen (P.reassemble kept flags) = some (r.1.flags, r.1.ov, r.2) := by
  unfold Problem.assemble at h
  simp only [Option.bind_eq_bind, Option.bind_eq_some_iff] at h
  obtain ⟨v1, h1, v2, h2, v3, h3, v4, h4, v5, h5, h6⟩ := h
  obtain ⟨s0, e0, -, S0⟩ := sim_overlap hL hG kept flags
  obtain ⟨s1, e1, -, S1⟩ := sim_infer S0 h1
  obtain ⟨s2, e2, -, S2⟩ := sim_cut S1 h2
  obtain ⟨s3, e3, -, S3, o3⟩ := sim_outer S2 h3
  obtain ⟨s4, e4, o4, S4, o4', hov, c4, p4⟩ := sim_occluded S3 h4
  obtain ⟨s5, e5, S5, o5, c5, i5⟩ := sim_minimize S4 (fun g => by rw [o4, o3, o4']) c4
    (fun m k hm => p4 m k (by rwa [ovExists_congr hov] at hm)) h5
  obtain ⟨s6, e6, f6, ov6⟩ := sim_generate S5 o5 c5 i5 h6
  unfold Problem.reassemble
  simp only [e0, e1, e2, e3, e4, e5, e6, Option.bind_eq_bind, Option.bind_some]
  unfold Spec.seen
  rw [Option.map_some, f6, ov6]

/-- C102 if two grids that occlude each other overlap in both directions or not at all; `fuel` and the condition on
cutting are those of `C70_partial`, under which assembly is defined.  `kept` is arbitrary, in particular what any
sequence of assemblies leaves.  Missing: pairs of grids that overlap in one direction only (`C102_false`). -/
theorem C102_partial (hV : Spec.Valid P) (hG : Spec.OnGrid P) (flags : Fin n → Tup d → Flags)
    (hfuel : ∀ k i, (P.grid k).cart.range.e i - (P.grid k).cart.range.b i ≤ P.fuel)
    (hrev : ∀ m k, P.occludes m k ≠ .none → P.occludes k m ≠ .none → Spec.Overlaps P flags m k →
      Spec.Overlaps P flags k m)
    (hcut : ∀ m k, P.cutBoundaryHoles m k = true → (∃ i, (P.grid m).cart.periodic i = false) ∨
      ∃ p, Ovk.Spec.pts (P.grid m).cart.range p ∧
        ((initAssembly flags).flags m p .active = false ∨ P.found k m p = none))
    (kept : AsmData d n) :
    Spec.seen (P.reassemble kept flags) = Spec.seen (P.reassemble {} flags) ∧
      (Spec.seen (P.reassemble {} flags)).isSome = true := by
  obtain ⟨r, hr⟩ := C70_partial hV flags hfuel hrev hcut
  rw [C102_same hV.layouts hG hr, C102_same hV.layouts hG hr]
  exact ⟨rfl, rfl⟩

/-- A pair of lines that overlap in both directions; the first one is coarser if `c`. -/
def exBefore (c : Bool) : Problem 1 2 :=
  { exCoarse with
    found := fun m k p => if m ≠ k ∧ 0 ≤ p 0 ∧ p 0 < 3 then some p else none
    vol := fun g _ => if (g = 0) = (c = true) then 3 else 1 }

/-- The second line now lies inside one cell of the first one and is coarser. -/
def exMoved : Problem 1 2 := { exInside with vol := fun g _ => if g = 1 then 3 else 1 }

theorem exMoved_valid : Spec.Valid exMoved :=
  ⟨exInside_valid.layouts, exInside_valid.nonempty, exInside_valid.cells, exInside_valid.group⟩

theorem exMoved_onGrid : Spec.OnGrid exMoved := by
  intro m k p hp
  show (if m = 0 ∧ k = 1 ∧ 0 ≤ p 0 ∧ p 0 < 4 then some fun _ => 1 else none : Option (Tup 1)) = none
  refine if_neg fun h => hp fun i => ?_
  obtain rfl : i = 0 := Subsingleton.elim _ _
  exact h.2.2

/-- The occluded points of the second grid. -/
def exOccluded (before : List (Problem 1 2 × (Fin 2 → Tup 1 → Flags))) : Option (List Bool) :=
  (Spec.after before {}).bind fun kept => (exMoved.reassemble kept exFlags).map fun r =>
    [0, 1, 2, 3].map fun (i : Int) => r.1.flags 1 (fun _ => i) .occluded

/-- C102: what a new assembler leaves undefined depends on what was assembled before: the masks of a pair of grids
that no longer overlap decide which points of the other grid are occluded. -/
theorem C102_stale : exOccluded [] = none ∧
    exOccluded [(exBefore false, exFlags)] = some [true, true, true, true] ∧
    exOccluded [(exBefore true, exFlags)] = some [false, false, false, false] := by decide +kernel

/-- C102 is false as stated. -/
theorem C102_false : ¬ C102_statement := by
  intro h
  obtain ⟨h0, h1, -⟩ := C102_stale
  unfold exOccluded at h0 h1
  rw [Option.bind_eq_some_iff] at h1
  obtain ⟨kept, hk, h1⟩ := h1
  have := h 1 2 _ kept exMoved exFlags hk exMoved_valid exMoved_onGrid
  rw [show Spec.after [] {} = some {} from rfl, Option.bind_some, Option.map_eq_none_iff] at h0
  rw [h0] at this
  obtain ⟨r, hr, -⟩ := Option.map_eq_some_iff.1 h1
  rw [hr] at this
  cases this

/- A history and a problem that meet the hypotheses of `C102_partial`. -/
example : Spec.Valid (exBefore true) ∧ Spec.OnGrid (exBefore true) ∧ Spec.Overlaps (exBefore true) exFlags 0 1 ∧
    Spec.Overlaps (exBefore true) exFlags 1 0 ∧ (Spec.after [(exBefore false, exFlags)] {}).isSome = true := by
  refine ⟨⟨fun _ => line_layout (by omega) false, fun k r i => by show (0 : Int) < 4; omega, ?_,
    fun r => by simp [exBefore, exCoarse, CC.groupOne]⟩, ?_,
    ⟨fun _ => 0, fun i => by show (0 : Int) ≤ 0 ∧ (0 : Int) < 4; omega, rfl, rfl⟩,
    ⟨fun _ => 0, fun i => by show (0 : Int) ≤ 0 ∧ (0 : Int) < 4; omega, rfl, rfl⟩, by decide +kernel⟩
  · intro m k p cell hp h i _
    have h : (if m ≠ k ∧ 0 ≤ p 0 ∧ p 0 < 3 then some p else none) = some cell := h
    split at h
    · rename_i hc
      cases h
      obtain rfl : i = 0 := Subsingleton.elim _ _
      show (0 : Int) ≤ p 0 ∧ p 0 + 1 < 4
      omega
    · cases h
  · intro m k p hp
    show (if m ≠ k ∧ 0 ≤ p 0 ∧ p 0 < 3 then some p else none) = none
    refine if_neg fun h => hp fun i => ?_
    obtain rfl : i = 0 := Subsingleton.elim _ _
    show (0 : Int) ≤ p 0 ∧ p 0 < 4
    omega

end Ovk.Asm
