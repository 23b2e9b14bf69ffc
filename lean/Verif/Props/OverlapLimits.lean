/-
Properties C86 and C87, what is missing in them: a cell that is not affine accepts, within the tolerance, a point
outside its enlarged bounds; the bin of an isolated active point may be on a process without fragments.
-/
import Verif.Props.OverlapComplete
import Mathlib.Tactic.Ring
import Mathlib.Tactic.FieldSimp
import Mathlib.Tactic.Linarith

namespace Ovk.Ovl

/-! ### Worlds that are not periodic and fully active -/

theorem activeCell_full {d n : Nat} {W : World d n} {g : Nat} (hact : ∀ p, W.active g p = true)
    (hper : ∀ i, (W.cart g).periodic i = false) {c : Tup (d + 2)} :
    Spec.ActiveCell W g c ↔ Ovk.Spec.IsCell (W.cart g) c := by
  refine ⟨fun h => h.1, fun h => ⟨h, fun v hv => ⟨v, samePoint_refl _ _, fun i => ?_, hact v⟩⟩⟩
  have h1 := h i
  have h2 := hv i
  rw [if_neg (by simp [hper i])] at h1
  omega

theorem discovered_all {d n : Nat} {W : World d n} (ho : ∀ k, W.order k = List.range n) :
    DHash.Discovered DHash.ratOps (fragOps W) W.order W.nb W.mult ((List.finRange n).map (localFragments W)) := by
  intro h _ src rs r hsrc _ dst _ _ _
  rw [ho, List.mem_range]
  have := (List.getElem?_eq_some_iff.1 hsrc).1
  simpa using this

theorem frame_id {d : Nat} (x : Pt (d + 2)) : Spec.frame (fun i j => if i = j then 1 else 0) x = x := by
  funext i; unfold Spec.frame; simp

theorem ortho_id {d : Nat} (i j : Fin (d + 2)) :
    ∑ k : Fin (d + 2), (if i = k then (1 : Rat) else 0) * (if j = k then 1 else 0) = if i = j then 1 else 0 := by
  simp

/-! ### A bent cell -/

/-- Grid 0 is one cell with the vertices (0,0), (1,0), (0,1), (2,1); grid 1 is a unit square. -/
def bentPos (g : Nat) (p : Tup 2) : Pt 2 :=
  if g = 0 then ![(p 0 : Rat) * (1 + p 1), p 1] else ![15 / 4 + p 0, 3 / 2 + p 1]

def bent : World 0 1 where
  grids := [0, 1]
  cart _ := ⟨⟨![0, 0], ![2, 2]⟩, fun _ => false, .unique⟩
  loc _ _ := ⟨![0, 0], ![2, 2]⟩
  active _ _ := true
  coord := bentPos
  overlappable m k := m != k
  tol _ _ := 1 / 2
  orient _ _ i j := if i = j then 1 else 0
  bounds g _ _ := if g = 0 then ⟨![0, 0], ![2, 1]⟩ else ⟨![15 / 4, 3 / 2], ![19 / 4, 5 / 2]⟩
  coordsIn m _ t x :=
    let u : Pt 2 := if m = 0 then ![x 0 / (1 + x 1), x 1] else ![x 0 - 15 / 4, x 1 - 3 / 2]
    if ∀ i, -t ≤ u i ∧ u i ≤ 1 + t then some u else none
  compact _ _ _ := true
  depth _ _ := 0
  nb := ![1, 1]
  mult _ := 1
  order _ := List.range 1
  tiny := 0
  big := 1
  axes _ := []
  binScale _ _ := 1
  isLeaf _ _ _ := true
  maxDepth _ _ := 0
  sort := argSort

theorem bent_cell {g : Nat} {c : Tup 2} (h : Spec.ActiveCell bent g c) : c = ![0, 0] := by
  have h0 := h.1 0
  have h1 := h.1 1
  simp [bent] at h0 h1
  funext i
  fin_cases i <;> simp <;> omega

theorem bent_active (g : Nat) : Spec.ActiveCell bent g ![0, 0] :=
  (activeCell_full (fun _ => rfl) (fun _ => rfl)).2 (by intro i; fin_cases i <;> simp [bent])

theorem bent_base : Spec.Base bent where
  grid g _ := by
    refine ⟨?_, ?_, ?_⟩
    · intro i; fin_cases i <;> simp [bent, Ovk.Spec.periodLen]
    · intro k i; exact ⟨le_refl _, le_refl _⟩
    · intro p hp; exact ⟨0, hp, fun k _ => Subsingleton.elim _ _⟩
  flags _ _ _ _ _ _ _ := rfl
  ortho _ _ i j := ortho_id i j
  solid g hg f c _ _ i := by
    have hg : g = 0 ∨ g = 1 := by simpa [bent] using hg
    rcases hg with rfl | rfl <;> fin_cases i <;> simp [bent] <;> norm_num
  inhabited := ⟨0, by simp [bent], _, bent_active 0⟩
  scale _ _ := by simp [bent]
  bins i := by fin_cases i <;> simp [bent]
  fit := by decide +kernel
  mult _ := by simp [bent]
  discovered := discovered_all fun _ => rfl
  sorts := argSort_sorted

theorem sum_corners2 (F : (Fin (0 + 2) → Bool) → Rat) :
    ∑ s, F s = F ![true, true] + F ![true, false] + (F ![false, true] + F ![false, false]) := by
  rw [← (finTwoArrowEquiv Bool).symm.sum_comp F, Fintype.sum_prod_type]
  simp [finTwoArrowEquiv]

theorem bent_blend (m : Nat) (hm : m = 0 ∨ m = 1) (u : Pt 2) : Spec.blend (d := 0) (bentPos m) ![0, 0] u =
    if m = 0 then ![u 0 * (1 + u 1), u 1] else ![15 / 4 + u 0, 3 / 2 + u 1] := by
  funext j
  unfold Spec.blend
  rw [sum_corners2]
  rcases hm with rfl | rfl <;> fin_cases j <;>
    simp [bentPos, Spec.corner, Fin.prod_univ_two] <;> ring

theorem bent_geometric : Spec.Geometric bent bentPos where
  coord _ _ _ _ := rfl
  bounds g hg f c _ hc i := by
    rw [bent_cell hc]
    have hfr : ∀ x, Spec.frame (bent.orient g f) x = x := fun x => frame_id x
    simp_rw [hfr]
    have hg : g = 0 ∨ g = 1 := by simpa [bent] using hg
    rcases hg with rfl | rfl
    · have h0 : ∀ s, bentPos 0 (Spec.corner ![0, 0] s) =
          ![(if s 0 then 1 else 0) * (1 + if s 1 then 1 else 0), if s 1 then 1 else 0] := by
        intro s; unfold bentPos Spec.corner; cases s 0 <;> cases s 1 <;> simp
      simp_rw [h0]
      refine ⟨fun s => ?_, ⟨fun _ => false, ?_⟩, ⟨fun _ => true, ?_⟩⟩
      · fin_cases i <;> cases s 0 <;> cases s 1 <;> simp [bent] <;> norm_num
      · fin_cases i <;> simp [bent]
      · fin_cases i <;> simp [bent] <;> norm_num
    · have h0 : ∀ s, bentPos 1 (Spec.corner ![0, 0] s) =
          ![15 / 4 + if s 0 then 1 else 0, 3 / 2 + if s 1 then 1 else 0] := by
        intro s; unfold bentPos Spec.corner; cases s 0 <;> cases s 1 <;> simp
      simp_rw [h0]
      refine ⟨fun s => ?_, ⟨fun _ => false, ?_⟩, ⟨fun _ => true, ?_⟩⟩
      · fin_cases i <;> cases s 0 <;> cases s 1 <;> simp [bent] <;> norm_num
      · fin_cases i <;> simp [bent]
      · fin_cases i <;> simp [bent] <;> norm_num
  local_ m hm k _ c hc x u := by
    rw [bent_cell hc]
    have hm : m = 0 ∨ m = 1 := by simpa [bent] using hm
    rw [bent_blend m hm u]
    rcases hm with rfl | rfl
    · simp only [bent, if_true, Option.ite_none_right_eq_some, Option.some.injEq]
      constructor
      · rintro ⟨hr, rfl⟩
        refine ⟨?_, hr⟩
        have h1 := (hr 1).1
        simp only [Matrix.cons_val_one, Matrix.cons_val_zero] at h1 ⊢
        have h2 : 1 + x 1 ≠ 0 := by intro h; linarith
        funext i
        fin_cases i
        · simp; field_simp
        · rfl
      · rintro ⟨rfl, hr⟩
        have h1 := (hr 1).1
        have h2 : 1 + u 1 ≠ 0 := by intro h; linarith
        have h3 : (![u 0 * (1 + u 1) / (1 + u 1), u 1] : Pt 2) = u := by
          funext i
          fin_cases i
          · simp; field_simp
          · rfl
        simp only [Matrix.cons_val_one, Matrix.cons_val_zero]
        rw [h3]
        exact ⟨hr, rfl⟩
    · simp only [bent, Nat.one_ne_zero, if_false, Option.ite_none_right_eq_some, Option.some.injEq]
      constructor
      · rintro ⟨hr, rfl⟩
        refine ⟨?_, hr⟩
        funext i
        fin_cases i <;> simp
      · rintro ⟨rfl, hr⟩
        have h3 : (![15 / 4 + u 0 - 15 / 4, 3 / 2 + u 1 - 3 / 2] : Pt 2) = u := by
          funext i
          fin_cases i <;> simp
        simp only [Matrix.cons_val_one, Matrix.cons_val_zero]
        rw [h3]
        exact ⟨hr, rfl⟩
  tol _ _ := by simp [bent]

theorem bent_attached : Spec.Attached bent := by
  intro g _ p hp _
  refine ⟨![0, 0], bent_active g, fun i => decide (p i = 1), ?_⟩
  have h0 := hp 0
  have h1 := hp 1
  simp [bent] at h0 h1
  funext i
  unfold Spec.corner
  fin_cases i <;> simp <;> split <;> omega

/-- The point (15/4, 3/2) is in the cell at the local coordinates (3/2, 3/2), within the tolerance of 1/2. -/
theorem bent_accepts : Spec.Accepts bent 0 1 ![0, 0] ![0, 0] ![3 / 2, 3 / 2] :=
  ⟨bent_active 0, by
    have : bent.coordsIn 0 ![0, 0] (bent.tol 0 1) (bent.coord 1 ![0, 0]) = some ![3 / 2, 3 / 2] := by
      decide +kernel
    exact this⟩

/-- It is not found. -/
theorem bent_missed : ((hash bent).bind fun h => (overlapN bent h 0 1 0).map List.length) = some 0 := by
  decide +kernel

theorem C86_false : ¬ C86_statement := by
  intro h
  obtain ⟨hs, hh, hd⟩ := h 0 1 bent bentPos bent_base bent_geometric bent_attached
  obtain ⟨N, hN, hC⟩ := (hd 0 (by simp [bent]) 1 (by simp [bent])).1 0
  rw [if_pos (by decide)] at hC
  obtain ⟨e, he, _⟩ := (hC.points ![0, 0]).2 ⟨by intro i; fin_cases i <;> simp [bent], rfl, _, _, bent_accepts⟩
  have h1 := bent_missed
  rw [hh, Option.bind_some, hN, Option.map_some, Option.some.injEq, List.length_eq_zero_iff] at h1
  rw [h1] at he
  simp at he

/-! ### Straight grids meet the hypotheses -/

theorem linear_corner (org step : Pt 2) (c : Tup 2) (s : Fin 2 → Bool) (j : Fin 2) :
    linear org step (Spec.corner (d := 0) c s) j =
      linear org step c j + ∑ i, if s i then (if i = j then step j else 0) else 0 := by
  have : ∑ i, (if s i then (if i = j then step j else 0) else 0) = if s j then step j else 0 := by
    rw [Finset.sum_eq_single j (fun b _ hb => by simp [hb]) (by simp)]
    simp
  rw [this]
  unfold linear Spec.corner
  cases s j <;> simp
  ring

section
variable {n : Nat} {grids : List Nat} {cart : Nat → Cart 2} {loc : Nat → Fin n → Rng 2} {active : Nat → Tup 2 → Bool}
  {org step : Nat → Pt 2} {tol : Rat} {nb : Tup 2}

theorem uniform_geometric (hstep : ∀ g i, 0 < step g i) (htol : 0 ≤ tol) :
    Spec.Geometric (uniform grids cart loc active org step tol nb) fun g => linear (org g) (step g) where
  coord _ _ _ _ := rfl
  bounds g hg f c _ hc i := by
    have hfr : ∀ x, Spec.frame ((uniform grids cart loc active org step tol nb).orient g f) x = x := fun x => frame_id x
    simp_rw [hfr]
    have hs := hstep g i
    have hb : ((uniform grids cart loc active org step tol nb).bounds g f c).b i = linear (org g) (step g) (Spec.corner (d := 0) c fun _ => false) i := by
      show linear (org g) (step g) c i = _
      simp [linear, Spec.corner]
    have he : ((uniform grids cart loc active org step tol nb).bounds g f c).e i = linear (org g) (step g) (Spec.corner (d := 0) c fun _ => true) i := by
      show linear (org g) (step g) (fun i => c i + 1) i = _
      simp [linear, Spec.corner]
    refine ⟨fun s => ?_, ⟨_, hb⟩, ⟨_, he⟩⟩
    rw [hb, he]
    unfold linear Spec.corner
    cases s i <;> constructor <;> simp <;> linarith
  local_ m hm k _ c hc x u := by
    have hbl : Spec.blend (d := 0) (linear (org m) (step m)) c u =
        fun j => linear (org m) (step m) c j + u j * step m j := by
      funext j
      rw [blend_affine (linear_corner _ _ c) u j]
      congr 1
      rw [Finset.sum_eq_single j (fun b _ hb => by simp [hb]) (by simp)]
      simp
    show (if ∀ i, -tol ≤ (x i - linear (org m) (step m) c i) / step m i ∧
      (x i - linear (org m) (step m) c i) / step m i ≤ 1 + tol then
        some (fun i => (x i - linear (org m) (step m) c i) / step m i) else none) = some u ↔
      x = Spec.blend (d := 0) (linear (org m) (step m)) c u ∧ ∀ i, -tol ≤ u i ∧ u i ≤ 1 + tol
    rw [hbl, Option.ite_none_right_eq_some, Option.some.injEq]
    constructor
    · rintro ⟨hr, rfl⟩
      refine ⟨?_, hr⟩
      funext j
      have := (hstep m j).ne'
      field_simp
      ring
    · rintro ⟨rfl, hr⟩
      have h3 : (fun j => (linear (org m) (step m) c j + u j * step m j -
          linear (org m) (step m) c j) / step m j) = u := by
        funext j
        have := (hstep m j).ne'
        field_simp
        ring
      refine ⟨fun i => ?_, h3⟩
      rw [congrFun h3 i]
      exact hr i
  tol _ _ := htol

theorem uniform_solid (hstep : ∀ g i, 0 < step g i) (g : Nat) (f : Rng 2) (c : Tup 2) (i : Fin 2) :
    ((uniform grids cart loc active org step tol nb).bounds g f c).b i <
    ((uniform grids cart loc active org step tol nb).bounds g f c).e i := by
  have := hstep g i
  show linear (org g) (step g) c i < linear (org g) (step g) (fun i => c i + 1) i
  unfold linear
  push_cast
  linarith

end

def exOrg (g : Nat) : Pt 2 := if g = 0 then ![0, 0] else ![5 / 4, 1 / 4]
def exStep (g : Nat) : Pt 2 := if g = 0 then ![1, 1] else ![1, 1 / 2]

theorem exStep_pos (g : Nat) (i : Fin 2) : 0 < exStep g i := by
  unfold exStep
  split <;> fin_cases i <;> simp

theorem exWorld_base : Spec.Base exWorld where
  grid g hg := exGrid_ok g (by simpa [exWorld, uniform] using hg)
  flags _ _ _ _ _ _ _ := rfl
  ortho _ _ i j := ortho_id i j
  solid g _ f c _ _ i := uniform_solid exStep_pos g f c i
  inhabited := ⟨0, by simp [exWorld, uniform], ![0, 0], (activeCell_full (fun _ => rfl) (fun _ => rfl)).2 (by
    intro i; fin_cases i <;> simp [exWorld, uniform, exCart])⟩
  scale _ _ := by simp [exWorld, uniform]
  bins i := by fin_cases i <;> simp [exWorld, uniform]
  fit := by decide +kernel
  mult _ := by simp [exWorld, uniform]
  discovered := discovered_all fun _ => rfl
  sorts := argSort_sorted

theorem exWorld_attached : Spec.Attached exWorld := by
  intro g hg p hp _
  have hg : g = 0 ∨ g = 1 := by simpa [exWorld, uniform] using hg
  have h0 := hp 0
  have h1 := hp 1
  refine ⟨fun i => if p i = 0 then 0 else p i - 1, (activeCell_full (fun _ => rfl) (fun _ => rfl)).2 ?_,
    fun i => decide (p i ≠ 0), ?_⟩
  · intro i
    rcases hg with rfl | rfl <;> simp [exWorld, uniform, exCart] at h0 h1 ⊢ <;> fin_cases i <;> simp <;>
      split <;> omega
  · funext i
    unfold Spec.corner
    by_cases h : p i = 0 <;> simp [h]

/-- C86 applies to the example of C85. -/
example : Spec.Detects exWorld := C86_partial exWorld_base (uniform_geometric exStep_pos le_rfl) exWorld_attached fun _ _ _ _ => .inl rfl

example : Spec.Defined exWorld :=
  C87_partial exWorld_base (covered_of_attached (uniform_geometric exStep_pos le_rfl) exWorld_attached)

/-! ### An isolated active point -/

def gapCart (g : Nat) : Cart 2 :=
  ⟨⟨![0, 0], if g = 0 then ![7, 2] else ![2, 2]⟩, fun _ => false, .unique⟩

/-- The first process has grid 0, the last one grid 1. -/
def gapLoc (g : Nat) (r : Fin 3) : Rng 2 :=
  if (g = 0 ∧ r = 0) ∨ (g ≠ 0 ∧ r = 2) then (gapCart g).range else ⟨![0, 0], ![0, 0]⟩

/-- One active cell, and active points far away from it. -/
def gapActive (g : Nat) (p : Tup 2) : Bool := if g = 0 then decide (p 0 ≤ 1 ∨ p 0 = 5) else true

def gapOrg (g : Nat) : Pt 2 := if g = 0 then ![0, 0] else ![9, 0]

def gap : World 0 3 := uniform [0, 1] gapCart gapLoc gapActive gapOrg (fun _ => ![1, 1]) 0 ![3, 1]

theorem one_pos' (g : Nat) (i : Fin 2) : (0 : Rat) < (fun _ : Nat => (![1, 1] : Pt 2)) g i := by
  fin_cases i <;> simp

theorem gap_base : Spec.Base gap where
  grid g hg := by
    have hg : g = 0 ∨ g = 1 := by simpa [gap, uniform] using hg
    refine ⟨?_, ?_, ?_⟩
    · intro i
      rcases hg with rfl | rfl <;> fin_cases i <;> simp [gap, uniform, gapCart, Ovk.Spec.periodLen]
    · rcases hg with rfl | rfl <;> decide +kernel
    · intro p hp
      rcases hg with rfl | rfl
      · refine ⟨0, by simpa [gap, uniform, gapLoc] using hp, ?_⟩
        intro k hk
        by_contra hne
        have := hk 0
        simp [gap, uniform, gapLoc, hne] at this
        omega
      · refine ⟨2, by simpa [gap, uniform, gapLoc] using hp, ?_⟩
        intro k hk
        by_contra hne
        have := hk 0
        simp [gap, uniform, gapLoc, hne] at this
        omega
  flags _ _ v w _ _ h := by
    have : v = w := by
      funext i
      have := h i
      rw [if_neg (by simp [gap, uniform, gapCart])] at this
      exact this.symm
    rw [this]
  ortho _ _ i j := ortho_id i j
  solid g _ f c _ _ i := uniform_solid one_pos' g f c i
  inhabited := ⟨1, by simp [gap, uniform], ![0, 0], (activeCell_full (fun _ => rfl) (fun _ => rfl)).2 (by
    intro i; fin_cases i <;> simp [gap, uniform, gapCart])⟩
  scale _ _ := by simp [gap, uniform]
  bins i := by fin_cases i <;> simp [gap, uniform]
  fit := by decide +kernel
  mult _ := by simp [gap, uniform]
  discovered := discovered_all fun _ => rfl
  sorts := argSort_sorted

/-- The bin of the isolated points is on the second process, which holds no fragments. -/
theorem gap_undefined : ((hash gap).map fun h => (overlapN gap h 1 0 0).isNone) = some true := by
  decide +kernel

theorem C87_false : ¬ C87_statement := by
  intro h
  obtain ⟨hs, hh, hd⟩ := h 0 3 gap _ gap_base (uniform_geometric one_pos' le_rfl)
  obtain ⟨N, hN⟩ := (hd 1 (by simp [gap, uniform]) 0 (by simp [gap, uniform])).1 0
  have h1 := gap_undefined
  rw [hh, Option.map_some, hN] at h1
  simp at h1

end Ovk.Ovl
