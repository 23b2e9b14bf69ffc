/-
Property C46: choice of donors, orphans and connectivity entries.
Property C63: donor cells of disjoint connections.
-/
import Verif.Props.ReceiverDistance

namespace Ovk.Asm
variable {d n : Nat}

namespace Spec
/-- Grid `m` can donate to point `p` of grid `k`: the connection is enabled, the point was found in a cell of
`m` whose vertices are all active, and for disjoint connections all of them have a positive distance. -/
def Eligible (P : Problem d n) (found : Fin n → Fin n → Tup d → Option (Tup d)) (active : Fin n → Mask d)
    (dist : Fin n → Tup d → Int) (k : Fin n) (p : Tup d) (m : Fin n) : Prop :=
  P.connected m k = true ∧ ∃ cell, found m k p = some cell ∧
    (∀ v ∈ (P.grid m).verts cell, active m v = true) ∧
    (P.disjoint m k = true → ∀ v ∈ (P.grid m).verts cell, 0 < dist m v)

/-- What the connectivity data of a grid has to satisfy. -/
structure Connected (P : Problem d n) (s : St d n) (c : Problem.Conn d n) (dist : Fin n → Tup d → Int)
    (k : Fin n) (p : Tup d) : Prop where
  receiverFlag : s.flags k p .receiver = c.receiver k p
  assigned : c.receiver k p = true → ((c.donor k p).isSome = true ↔ ∃ m, Eligible P s.ov s.active dist k p m)
  eligible : ∀ m, c.donor k p = some m → c.receiver k p = true ∧ Eligible P s.ov s.active dist k p m
  orphan : s.flags k p .orphan = true ↔ c.receiver k p = true ∧ ∀ m, ¬ Eligible P s.ov s.active dist k p m
  entry : ∀ m cell, (p, cell) ∈ c.entries m k ↔ c.donor k p = some m ∧ s.ov m k p = some cell
  once : ∀ m, ((c.entries m k).map Prod.fst).count p ≤ 1
end Spec

variable {P : Problem d n} {s s' : St d n}

theorem verts_ne (g : Grid d) (cell : Tup d) : g.verts cell ≠ [] := by
  intro h
  have : g.cart.periodicAdjust cell ∈ g.verts cell := by
    unfold Grid.verts
    exact List.mem_map_of_mem ((Rng.mem_points _ _).2 fun i => by constructor <;> simp)
  rw [h] at this; cases this

theorem foldl_min_pos (f : Tup d → Int) (l : List (Tup d)) : ∀ a : Int,
    0 < l.foldl (fun a q => min a (f q)) a ↔ 0 < a ∧ ∀ v ∈ l, 0 < f v := by
  induction l with
  | nil => intro a; simp
  | cons v l ih =>
    intro a
    rw [List.foldl_cons, ih, Int.lt_min]
    simp only [List.forall_mem_cons]
    tauto

/-- The distance of a cell is positive iff that of all vertices is. -/
theorem cellDistance_pos (g : Grid d) (dist : Tup d → Int) (cell : Tup d) :
    0 < Problem.cellDistance g dist cell ↔ ∀ v ∈ g.verts cell, 0 < dist v := by
  unfold Problem.cellDistance
  have := verts_ne g cell
  cases h : g.verts cell with
  | nil => exact absurd h this
  | cons v vs =>
    dsimp only
    rw [foldl_min_pos]
    simp

theorem normalized_pos (x : Int) (w : Nat) : 0 < Problem.normalized x w ↔ 0 < x := by
  unfold Problem.normalized
  have hw : (0 : Rat) < ((1 + w : Nat) : Rat) := by exact_mod_cast (by omega : 0 < 1 + w)
  rw [lt_min_iff]
  constructor
  · rintro ⟨h, -⟩
    by_contra hx
    have : (x : Rat) / ((1 + w : Nat) : Rat) ≤ 0 :=
      div_nonpos_of_nonpos_of_nonneg (by exact_mod_cast (not_lt.1 hx)) hw.le
    exact absurd h (not_lt.2 this)
  · intro h
    exact ⟨div_pos (by exact_mod_cast h) hw, by norm_num⟩

/-- Whether the loop body offers grid `m` as a donor. -/
def offers (P : Problem d n) (s : St d n) (recv : Mask d) (dist : Fin n → Tup d → Int) (k : Fin n)
    (p : Tup d) (m : Fin n) : Prop :=
  P.ovExists s m k = true ∧ P.connected m k = true ∧ ∃ cell, s.ov m k p = some cell ∧
    recv p = true ∧ s.overlap m k p = true ∧
    (P.disjoint m k = true → 0 < Problem.normalized (Problem.cellDistance (P.grid m) (dist m) cell) (P.edgePadding m k))

theorem chooseStep_spec (disj : Bool) (occ : Fin n → Occl) (m : Fin n) (x vol : Rat)
    (acc : Option (Problem.Choice n)) (ok : Prop) (hok : ok ↔ (disj = true → 0 < x)) :
    ((Problem.chooseStep disj occ m x vol acc).isSome = true ↔ acc.isSome = true ∨ ok) ∧
    ∀ c, Problem.chooseStep disj occ m x vol acc = some c → (c.grid = m ∧ ok) ∨ acc = some c := by
  have hb : (!disj || decide (x > 0)) = true ↔ ok := by rw [hok]; cases disj <;> simp
  unfold Problem.chooseStep
  dsimp only
  by_cases h : ok
  · rw [hb.2 h]
    cases acc with
    | none => simp [h]
    | some old =>
      dsimp only
      split
      · simp [h]
      · simp
  · have : (!disj || decide (x > 0)) = false := by
      rw [← Bool.not_eq_true, hb]; exact h
    rw [this]
    cases acc with
    | none => simp [h]
    | some old => simp

theorem donorStep_spec (recv : Mask d) (dist : Fin n → Tup d → Int) (k : Fin n) (p : Tup d) (m : Fin n)
    (acc : Option (Problem.Choice n)) :
    ((P.donorStep s recv dist k p acc m).isSome = true ↔ acc.isSome = true ∨ offers P s recv dist k p m) ∧
    ∀ c, P.donorStep s recv dist k p acc m = some c → acc = some c ∨ offers P s recv dist k p c.grid := by
  unfold Problem.donorStep
  by_cases h1 : (P.ovExists s m k && P.connected m k) = true
  · rw [if_pos h1]
    cases hov : s.ov m k p with
    | none =>
      have : ¬ offers P s recv dist k p m := by
        rintro ⟨-, -, c, hc, -⟩; rw [hov] at hc; cases hc
      exact ⟨by simp [this], fun c hc => .inl hc⟩
    | some cell =>
      dsimp only
      by_cases h2 : (recv p && s.overlap m k p) = true
      · rw [if_pos h2]
        rw [Bool.and_eq_true] at h1 h2
        have hok : offers P s recv dist k p m ↔ (P.disjoint m k = true → 0 < Problem.normalized
            (Problem.cellDistance (P.grid m) (dist m) cell) (P.edgePadding m k)) := by
          constructor
          · rintro ⟨-, -, c, hc, -, -, h⟩
            rw [hov] at hc; cases hc; exact h
          · intro h; exact ⟨h1.1, h1.2, cell, hov, h2.1, h2.2, h⟩
        obtain ⟨a, b⟩ := chooseStep_spec (P.disjoint m k) (fun o => P.occludes o m) m _
          (P.ovVol m k p) acc _ hok
        refine ⟨a, fun c hc => ?_⟩
        rcases b c hc with ⟨h, h'⟩ | h
        · right; rw [h]; exact h'
        · exact .inl h
      · rw [if_neg h2]
        have : ¬ offers P s recv dist k p m := by
          rintro ⟨-, -, c, hc, hr, ho, -⟩; exact h2 (by rw [hr, ho]; rfl)
        exact ⟨by simp [this], fun c hc => .inl hc⟩
  · rw [if_neg h1]
    have : ¬ offers P s recv dist k p m := by
      rintro ⟨ha, hb, -⟩; exact h1 (by rw [ha, hb]; rfl)
    exact ⟨by simp [this], fun c hc => .inl hc⟩

theorem choose_spec (recv : Mask d) (dist : Fin n → Tup d → Int) (k : Fin n) (p : Tup d) :
    ((P.chooseDonor s recv dist k p).isSome = true ↔ ∃ m, offers P s recv dist k p m) ∧
    ∀ c, P.chooseDonor s recv dist k p = some c → offers P s recv dist k p c.grid := by
  have key : ∀ (l : List (Fin n)) (acc : Option (Problem.Choice n)),
      ((l.foldl (P.donorStep s recv dist k p) acc).isSome = true ↔
        acc.isSome = true ∨ ∃ m ∈ l, offers P s recv dist k p m) ∧
      ∀ c, l.foldl (P.donorStep s recv dist k p) acc = some c →
        acc = some c ∨ offers P s recv dist k p c.grid := by
    intro l
    induction l with
    | nil => intro acc; exact ⟨by simp, fun c hc => .inl hc⟩
    | cons m l ih =>
      intro acc
      rw [List.foldl_cons]
      obtain ⟨s1, s2⟩ := donorStep_spec (P := P) (s := s) recv dist k p m acc
      obtain ⟨i1, i2⟩ := ih (P.donorStep s recv dist k p acc m)
      refine ⟨?_, fun c hc => ?_⟩
      · rw [i1, s1]
        simp only [List.mem_cons, exists_eq_or_imp]
        tauto
      · rcases i2 c hc with h | h
        · exact s2 c h
        · exact .inr h
  obtain ⟨a, b⟩ := key (List.finRange n) none
  unfold Problem.chooseDonor
  refine ⟨by rw [a]; simp, fun c hc => ?_⟩
  rcases b c hc with h | h
  · cases h
  · exact h

/-- After an update, the overlap mask of a found point is whether its cell is active. -/
theorem update_overlap (sel : Fin n → Fin n → Bool) (m k : Fin n) (p cell : Tup d)
    (h : s.ov m k p = some cell) :
    (P.updateOverlap s sel).overlap m k p = ((P.grid m).verts cell).all (s.active m) := by
  show (match s.ov m k p with | some cell => _ | none => _) = _
  rw [h]

/-- Found points of the grid make an overlap exist. -/
theorem exists_of_found (hL : Ovk.Spec.Layouts P) {m k : Fin n} {p cell : Tup d}
    (hp : Ovk.Spec.pts (P.grid k).cart.range p) (h : s.ov m k p = some cell) : P.ovExists s m k = true := by
  unfold Problem.ovExists
  rw [List.any_eq_true]
  exact ⟨p, (mem_gridPoints (hL k) p).2 hp, by rw [h]; rfl⟩

/-- C46: donors, orphans and connectivity entries of every grid after an assembly. -/
theorem C46_donors (hL : Ovk.Spec.Layouts P) {flags : Fin n → Tup d → Flags}
    {r : St d n × Problem.Conn d n} (h : P.assemble flags = some r) :
    ∃ dist : Fin n → Tup d → Int,
      (∀ m, Problem.receiverDistances (P.grid m) (r.2.receiver m) (P.maxDistance r.1 m) = some (dist m)) ∧
      (∀ k p, Ovk.Spec.pts (P.grid k).cart.range p → Spec.Connected P r.1 r.2 dist k p) ∧
      ∀ m k, ∀ e ∈ r.2.entries m k, Ovk.Spec.pts (P.grid k).cart.range e.1 := by
  unfold Problem.assemble at h
  simp only [Option.bind_eq_bind, Option.bind_eq_some_iff] at h
  obtain ⟨s1, h1, s2, h2, s3, h3, s4, h4, s5, h5, h6⟩ := h
  have h5' := h5
  unfold Problem.minimizeOverlap_ at h5'
  simp only [Option.bind_eq_bind, Option.bind_eq_some_iff] at h5'
  obtain ⟨mk, hmk, h5'⟩ := h5'
  obtain ⟨s5', hs5⟩ : ∃ s5', s5 = P.updateOverlap s5' fun _ _ => true := ⟨_, (Option.some.inj h5').symm⟩
  clear h5'
  have hupd : ∀ m k p cell, s5.ov m k p = some cell →
      (s5.overlap m k p = true ↔ ∀ v ∈ (P.grid m).verts cell, s5.active m v = true) := by
    intro m k p cell hc
    subst hs5
    have hc' : s5'.ov m k p = some cell := hc
    rw [update_overlap _ m k p cell hc', List.all_eq_true]
    exact Iff.rfl
  have hflag0 : ∀ k p, Ovk.Spec.pts (P.grid k).cart.range p → ∀ x, x ∈ [Flag.receiver, .orphan] →
      s5.flags k p x = false := by
    intro k p hp x hx
    have i3 := inv_outer (inv_cut (inv_infer hL (inv_overlap (P := P) flags) (fun k p => by
      show (resetFlags (flags k p) .active && resetFlags (flags k p) .domainBoundary) = _
      rw [overlap_other _ (by simp), overlap_other _ (by simp)]
      rfl) h1) h2) h3
    obtain ⟨mk, -, hfl⟩ := minimize_flags hL h5
    have hx : x = .receiver ∨ x = .orphan := by simpa using hx
    rw [hfl k p hp, minimizeFlags_other _ _ _ (by rcases hx with rfl | rfl <;> simp),
      occluded_other h4 i3.sub (by rcases hx with rfl | rfl <;> simp)]
    exact before_occluded h1 h2 h3 k p (by rcases hx with rfl | rfl <;> simp)
  unfold Problem.generate_ at h6
  simp only [Option.bind_eq_bind, Option.bind_eq_some_iff] at h6
  obtain ⟨dist, hdist, h6⟩ := h6
  cases h6
  refine ⟨dist, fun m => forAll_some hdist m, fun k p hp => ?_, ?_⟩
  case refine_2 =>
    intro m k e he
    dsimp only at he
    split at he
    · rw [List.mem_filterMap] at he
      obtain ⟨q, hq, hc⟩ := he
      have hq := (mem_gridPoints (hL k) q).1 hq
      split at hc
      · split at hc
        · cases hc; exact hq
        · cases hc
      · cases hc
    · cases he
  have hoff : ∀ m, offers P s5 (receivers s5 k) dist k p m ↔
      receivers s5 k p = true ∧ Spec.Eligible P s5.ov s5.active dist k p m := by
    intro m
    constructor
    · rintro ⟨-, hc, cell, hcell, hr, ho, hd⟩
      refine ⟨hr, hc, cell, hcell, (hupd m k p cell hcell).1 ho, fun hdis => ?_⟩
      rw [← cellDistance_pos, ← normalized_pos]; exact hd hdis
    · rintro ⟨hr, hc, cell, hcell, ha, hd⟩
      refine ⟨exists_of_found hL hp hcell, hc, cell, hcell, hr, (hupd m k p cell hcell).2 ha, fun hdis => ?_⟩
      rw [normalized_pos, cellDistance_pos]; exact hd hdis
  obtain ⟨c1, c2⟩ := choose_spec (P := P) (s := s5) (receivers s5 k) dist k p
  have hdon : ∀ m, ((P.chooseDonor s5 (receivers s5 k) dist k p).map Problem.Choice.grid) = some m →
      receivers s5 k p = true ∧ Spec.Eligible P s5.ov s5.active dist k p m := by
    intro m hm
    rw [Option.map_eq_some_iff] at hm
    obtain ⟨c, hc, rfl⟩ := hm
    exact (hoff _).1 (c2 c hc)
  have hsome : ((P.chooseDonor s5 (receivers s5 k) dist k p).map Problem.Choice.grid).isSome = true ↔
      receivers s5 k p = true ∧ ∃ m, Spec.Eligible P s5.ov s5.active dist k p m := by
    rw [Option.isSome_map, c1]
    constructor
    · rintro ⟨m, hm⟩; exact ⟨((hoff m).1 hm).1, m, ((hoff m).1 hm).2⟩
    · rintro ⟨hr, m, hm⟩; exact ⟨m, (hoff m).2 ⟨hr, hm⟩⟩
  have hcount : ∀ m : Mask d, m p = true → (P.grid k).count m ≠ 0 := by
    intro m hm hz
    rw [(count_zero (hL k) m).1 hz p hp] at hm; cases hm
  have hnodup : (P.grid k).points.Nodup := by
    unfold Grid.points
    rw [List.nodup_flatMap]
    refine ⟨fun j _ => Rng.nodup_points _, ?_⟩
    refine List.Pairwise.imp ?_ (List.nodup_iff_pairwise_ne.1 (List.nodup_finRange _))
    intro a b hab q ha hb
    rw [Rng.mem_points] at ha hb
    obtain ⟨j, -, hu⟩ := (hL k).tiles.2 q (fun i => by have := (hL k).tiles.1 a i; have := ha i; omega)
    exact hab ((hu a ha).trans (hu b hb).symm)
  constructor
  · dsimp only
    rw [write_other _ _ (by simp)]
    show (if _ then _ else _ : Flags) .receiver = receivers s5 k p
    cases hr : receivers s5 k p with
    | false => rw [if_neg (by simp [hr])]; exact hflag0 k p hp .receiver (by simp)
    | true =>
      rw [if_pos]
      · simp [Flags.or]
      · simp [hr, hcount _ hr]
  · intro hr
    show ((P.chooseDonor s5 (receivers s5 k) dist k p).map Problem.Choice.grid).isSome = true ↔ _
    rw [hsome]
    have hr : receivers s5 k p = true := hr
    exact ⟨fun h => h.2, fun h => ⟨hr, h⟩⟩
  · exact hdon
  · show (if _ then Flags.or _ _ else _ : Flags) .orphan = true ↔ _
    have h0 := hflag0 k p hp .orphan (by simp)
    show _ ↔ receivers s5 k p = true ∧ ∀ m, ¬ Spec.Eligible P s5.ov s5.active dist k p m
    rw [← not_exists]
    cases hr : receivers s5 k p with
    | false =>
      rw [if_neg (by simp [hr]), write_other _ _ (by simp), h0]
      simp
    | true =>
      cases hd : ((P.chooseDonor s5 (receivers s5 k) dist k p).map Problem.Choice.grid) with
      | some m =>
        rw [if_neg (by simp only [hr, hd]; simp), write_other _ _ (by simp), h0]
        have := hsome.1 (by rw [hd]; rfl)
        simp only [Bool.false_eq_true, true_and, false_iff, not_not]
        exact this.2
      | none =>
        rw [if_pos]
        · have : ¬ ∃ m, Spec.Eligible P s5.ov s5.active dist k p m := by
            intro he
            have := hsome.2 ⟨hr, he⟩
            rw [hd] at this; cases this
          simp [Flags.or, this]
        · simp only [hr, hd]
          simp [hcount _ hr]
  · intro m cell
    dsimp only
    constructor
    · intro hc
      split at hc
      · rw [List.mem_filterMap] at hc
        obtain ⟨q, hq, hc⟩ := hc
        split at hc
        · rename_i cell' hcell
          split at hc
          · rename_i hcond
            cases hc
            simp only [Bool.and_eq_true, decide_eq_true_eq] at hcond
            exact ⟨hcond.2, hcell⟩
          · cases hc
        · cases hc
      · cases hc
    · rintro ⟨hm, hcell⟩
      replace hcell : s5.ov m k p = some cell := hcell
      obtain ⟨hr, hc, -⟩ := hdon m hm
      rw [if_pos]
      · rw [List.mem_filterMap]
        refine ⟨p, (mem_gridPoints (hL k) p).2 hp, ?_⟩
        rw [hcell]
        simp only [hr, hm]
        simp
      · rw [hc, exists_of_found hL hp hcell]
        simp only [Bool.true_and, List.any_eq_true]
        refine ⟨p, (mem_gridPoints (hL k) p).2 hp, ?_⟩
        rw [hcell]
        simp [hm]
  · intro m
    refine (List.nodup_iff_count_le_one.1 ?_) p
    dsimp only
    split
    · refine hnodup.sublist ?_
      rw [List.map_filterMap]
      generalize (P.grid k).points = l
      induction l with
      | nil => exact List.Sublist.slnil
      | cons q l ih =>
        rw [List.filterMap_cons]
        split
        · exact ih.cons q
        · rename_i b hb
          have : b = q := by
            split at hb
            · split at hb
              · cases hb; rfl
              · cases hb
            · cases hb
          rw [this]
          exact ih.cons_cons q
    · exact List.nodup_nil

/-- C46: at most one connectivity lists a point, and one does exactly for the receivers that are not orphans. -/
theorem C46_unique (hL : Ovk.Spec.Layouts P) {flags : Fin n → Tup d → Flags}
    {r : St d n × Problem.Conn d n} (h : P.assemble flags = some r) (k : Fin n) (p : Tup d)
    (hp : Ovk.Spec.pts (P.grid k).cart.range p) :
    (∀ m m' cell cell', (p, cell) ∈ r.2.entries m k → (p, cell') ∈ r.2.entries m' k → m = m' ∧ cell = cell') ∧
    ((∃ m cell, (p, cell) ∈ r.2.entries m k) ↔
      r.1.flags k p .receiver = true ∧ r.1.flags k p .orphan = false) := by
  obtain ⟨dist, -, hc, -⟩ := C46_donors hL h
  have hc := hc k p hp
  refine ⟨fun m m' cell cell' h1 h2 => ?_, ?_⟩
  · obtain ⟨a1, b1⟩ := (hc.entry m cell).1 h1
    obtain ⟨a2, b2⟩ := (hc.entry m' cell').1 h2
    obtain rfl : m = m' := Option.some.inj (a1.symm.trans a2)
    exact ⟨rfl, Option.some.inj (b1.symm.trans b2)⟩
  · rw [hc.receiverFlag]
    constructor
    · rintro ⟨m, cell, he⟩
      obtain ⟨hr, hel⟩ := hc.eligible m ((hc.entry m cell).1 he).1
      refine ⟨hr, ?_⟩
      rw [← Bool.not_eq_true, hc.orphan]
      exact fun ho => ho.2 m hel
    · rintro ⟨hr, ho⟩
      rw [← Bool.not_eq_true, hc.orphan] at ho
      have hex : ∃ m, Spec.Eligible P r.1.ov r.1.active dist k p m := by
        by_contra hne
        exact ho ⟨hr, fun m hm => hne ⟨m, hm⟩⟩
      obtain ⟨m, hm⟩ := Option.isSome_iff_exists.1 ((hc.assigned hr).2 hex)
      obtain ⟨-, -, cell, hcell, -⟩ := hc.eligible m hm
      exact ⟨m, cell, (hc.entry m cell).2 ⟨hm, hcell⟩⟩

/-! C63 -/

namespace Spec
/-- A grid point that is a corner of a cell. -/
def Corner (c : Cart d) (cell v : Tup d) : Prop :=
  Ovk.Spec.pts c.range v ∧ ∃ x : Tup d, (∀ i, x i = cell i ∨ x i = cell i + 1) ∧ Ovk.Spec.SamePoint c x v
end Spec

/-- The property as stated: with disjoint connections, no donor point is itself a receiver. -/
def C63_statement : Prop := ∀ (d n : Nat) (P : Problem d n) (flags : Fin n → Tup d → Flags)
  (r : St d n × Problem.Conn d n), Ovk.Spec.Layouts P → P.assemble flags = some r →
  ∀ m k, P.disjoint m k = true → ∀ e ∈ r.2.entries m k, ∀ v, Spec.Corner (P.grid m).cart e.2 v →
    r.1.flags m v .receiver = false

theorem corner_verts {g : Grid d} (h : Ovk.Spec.Layout g.cart g.loc g.ext) {cell v : Tup d}
    (hv : Spec.Corner g.cart cell v) : v ∈ g.verts cell := by
  obtain ⟨hp, x, hx, hs⟩ := hv
  unfold Grid.verts
  rw [List.mem_map]
  refine ⟨x, (Rng.mem_points _ _).2 fun i => ?_, canonical_in_range h.proper h.unique hp hs⟩
  show cell i ≤ x i ∧ x i < cell i + 2
  have := hx i; omega

/-- C63 (the part that holds): a donor point that is a receiver is farther from the boundary of the receiver
region of its grid than the distances are computed. -/
theorem C63_partial (hL : Ovk.Spec.Layouts P) {flags : Fin n → Tup d → Flags}
    {r : St d n × Problem.Conn d n} (h : P.assemble flags = some r) (m k : Fin n) (hd : P.disjoint m k = true)
    (e : Tup d × Tup d) (he : e ∈ r.2.entries m k) (v : Tup d) (hv : Spec.Corner (P.grid m).cart e.2 v)
    (hr : r.1.flags m v .receiver = true) :
    ¬ Spec.Reachable (P.grid m).cart (r.2.receiver m) (P.maxDistance r.1 m - 1) v := by
  intro hreach
  obtain ⟨dist, hdist, hc, hpts⟩ := C46_donors hL h
  have hk := hc k e.1 (hpts m k e he)
  obtain ⟨hdon, hov⟩ := (hk.entry m e.2).1 he
  obtain ⟨-, -, cell, hcell, -, hpos⟩ := hk.eligible m hdon
  obtain rfl : e.2 = cell := Option.some.inj (hov.symm.trans hcell)
  have hpos := hpos hd v (corner_verts (hL m) hv)
  obtain ⟨dist', h1, h2⟩ := C45_partial (hL m) (r.2.receiver m) (cap := P.maxDistance r.1 m) (by
    unfold Problem.maxDistance
    have : ∀ (l : List (Fin n)) (a : Nat), 1 ≤ a → 1 ≤ l.foldl (fun a k =>
        if P.ovExists r.1 m k then max a (1 + P.edgePadding m k) else a) a := by
      intro l
      induction l with
      | nil => intro a ha; exact ha
      | cons b l ih => intro a ha; rw [List.foldl_cons]; apply ih; split <;> omega
    exact this _ 1 (by omega))
  obtain rfl : dist m = dist' := Option.some.inj ((hdist m).symm.trans h1)
  rw [(hc m v hv.1).receiverFlag] at hr
  obtain ⟨j, -, hj⟩ := (h2 v hv.1).1 (.inr hreach)
  rw [hj, hr] at hpos
  simp at hpos
  omega

/-- A line of four points with a fringe of width two, and a line of two points of which the first lies between the two points
in the middle of the other. -/
def exDeep : Problem 1 2 where
  grid := fun g => if g = 0 then line 4 false else line 2 false
  group := CC.groupOne
  inferBoundaries := fun _ => false
  cutBoundaryHoles := fun _ _ => false
  fringeSize := fun g => if g = 0 then 2 else 1
  occludes := fun _ _ => .none
  edgePadding := fun _ _ => 0
  edgeSmoothing := fun _ => 0
  minimizeOverlap := fun _ _ => false
  connected := fun _ _ => true
  disjoint := fun _ _ => true
  found := fun m k p => if m = 0 ∧ k = 1 ∧ p 0 = 0 then some (fun _ => 1) else none
  vol := fun _ _ => 1
  ovVol := fun _ _ _ => 1
  fuel := 1

theorem exDeep_layouts : Ovk.Spec.Layouts exDeep := by
  intro k
  by_cases h : k = 0
  · subst h; exact line_layout (m := 4) (by omega) false
  · have : exDeep.grid k = line 2 false := if_neg h
    rw [this]; exact line_layout (m := 2) (by omega) false

theorem exDeep_run : ((exDeep.assemble fun _ _ x => decide (x = .active)).map fun r =>
    (r.1.flags 0 (fun _ => 1) .receiver, decide (((fun _ => 0, fun _ => 1) : Tup 1 × Tup 1) ∈ r.2.entries 0 1))) =
    some (true, true) := by decide +kernel

/-- C63 is false as stated. -/
theorem C63_false : ¬ C63_statement := by
  intro h
  have hrun := exDeep_run
  rw [Option.map_eq_some_iff] at hrun
  obtain ⟨r, hr, hrun⟩ := hrun
  rw [Prod.mk.injEq, decide_eq_true_eq] at hrun
  have := h 1 2 exDeep _ r exDeep_layouts hr 0 1 rfl _ hrun.2 (fun _ => 1)
    ⟨fun i => by show (0 : Int) ≤ 1 ∧ (1 : Int) < 4; omega, fun _ => 1, fun i => .inl rfl, samePoint_refl _ _⟩
  rw [hrun.1] at this
  cases this

/- Hypotheses of C46 and of the partial theorem: -/
example : ((exProblem.assemble exFlags).map fun r => [0, 1, 2, 3].map fun (i : Int) =>
    (r.1.flags 1 (fun _ => i) .receiver, r.1.flags 1 (fun _ => i) .orphan,
      decide (((fun _ => i, fun _ => i) : Tup 1 × Tup 1) ∈ r.2.entries 0 1))) =
    some [(false, false, false), (false, false, false), (true, false, true), (true, true, false)] := by decide +kernel

end Ovk.Asm
