/-
Property C88, what is missing in it: a process that holds vertices of an active cell but no active cell at them, a
period that shifts coordinates, duplicated periodic storage.
-/
import Verif.Props.OverlapCollect
import Verif.Props.OverlapLimits

namespace Ovk.Ovl

/-- One process holds everything of every grid, or two processes share grid 0 in the first dimension. -/
def pairCart (len : Int) (periodic : Bool) (storage : PStorage) (g : Nat) : Cart 2 :=
  if g = 0 then ⟨⟨![0, 0], ![len, 2]⟩, ![periodic, false], storage⟩
  else ⟨⟨![0, 0], ![2, 2]⟩, ![false, false], .unique⟩

/-- Grid 0 is split at 2; grid 1 is on the first process. -/
def pairLoc (len : Int) (g : Nat) (r : Fin 2) : Rng 2 :=
  if g = 0 then (if r = 0 then ⟨![0, 0], ![2, 2]⟩ else ⟨![2, 0], ![len, 2]⟩)
  else if r = 0 then ⟨![0, 0], ![2, 2]⟩ else ⟨![0, 0], ![0, 0]⟩

def pairNbrs (r : Fin 2) : List (Fin 2) := if r = 0 then [1] else [0]

/-- Points with first index 0 to 2 are active: the second process holds the last of them and has no active
cell. -/
def strand : World 0 2 := uniform [0, 1] (pairCart 4 false .unique) (pairLoc 4)
  (fun g p => g != 0 || decide (p 0 ≤ 2)) (fun g => if g = 0 then ![0, 0] else ![5 / 4, 1 / 4])
  (fun g => if g = 0 then ![1, 1] else ![1 / 2, 1 / 2]) 0 ![2, 1]

/-- All points are active; grid 0 may be periodic in the first dimension. -/
def turn (per : Bool) (storage : PStorage) (len : Int) (org step : Rat) : World 0 2 :=
  uniform [0, 1] (pairCart len per storage) (pairLoc len) (fun _ _ => true)
    (fun g => if g = 0 then ![0, 0] else ![org, 1 / 4]) (fun g => if g = 0 then ![1, 1] else ![step, 1 / 2]) 0 ![2, 1]

/-- The points of grid 1 are in the cell from the last point of grid 0 to its first one. -/
abbrev seam : World 0 2 := turn true .unique 4 (13 / 4) (1 / 2)

/-- The second process holds one layer of points of grid 0; the points of grid 1 are in the last cell. -/
abbrev layer : World 0 2 := turn false .unique 3 (5 / 4) (1 / 2)

/-- The points of grid 1 are in the first and the last cell. -/
abbrev twice : World 0 2 := turn true .duplicated 5 (1 / 2) 3

theorem pair_ok {len : Int} (hlen : 2 < len) (per : Bool) (st : PStorage) (g : Nat) :
    Ovk.Spec.Proper (pairCart len per st g) ∧ Ovk.Spec.Tiles (pairCart len per st g) (pairLoc len g) := by
  refine ⟨?_, ?_, ?_⟩
  · intro i
    unfold pairCart
    by_cases hg : g = 0 <;> simp only [hg, if_true, if_false] <;> unfold Ovk.Spec.periodLen <;>
      fin_cases i <;> cases st <;> simp <;> omega
  · intro k i
    unfold pairCart pairLoc
    by_cases hg : g = 0 <;> simp only [hg, if_true, if_false] <;> split <;> fin_cases i <;> simp <;> omega
  · intro p hp
    have h0 := hp 0
    have h1 := hp 1
    unfold pairCart at h0 h1
    unfold pairLoc Ovk.Spec.pts
    by_cases hg : g = 0
    · simp only [hg, if_true] at h0 h1 ⊢
      simp at h0 h1
      by_cases hx : p 0 < 2
      · refine ⟨0, ?_, ?_⟩
        · intro i; fin_cases i <;> simp <;> omega
        · intro k hk
          by_contra hne
          have hk := hk 0
          simp only [hne, if_false] at hk
          simp at hk
          omega
      · refine ⟨1, ?_, ?_⟩
        · intro i; fin_cases i <;> simp <;> omega
        · intro k hk
          by_contra hne
          have hk0 : k = 0 := by omega
          have hk := hk 0
          simp only [hk0, if_true] at hk
          simp at hk
          omega
    · simp only [hg, if_false] at h0 h1 ⊢
      simp at h0 h1
      refine ⟨0, ?_, ?_⟩
      · intro i; fin_cases i <;> simp <;> omega
      · intro k hk
        by_contra hne
        have hk := hk 0
        simp only [hne, if_false] at hk
        simp at hk
        omega

theorem pair_nbrs {W : World 0 2} : Spec.Neighbors W 0 pairNbrs where
  irrefl a := by fin_cases a <;> decide
  nodup a := by fin_cases a <;> decide
  near a b c hab _ _ _ := by
    fin_cases a <;> fin_cases b <;> first | exact absurd rfl hab | decide

/-- The collect operation of grids 0 and 1 on a process, for a field that is zero. -/
def stuck (W : World 0 2) (r : Fin 2) : Option Bool :=
  (hash W).bind fun h => (collectSetup W h pairNbrs (W.loc 0) 0 1).map fun S =>
    (Coll.collect S (fun _ _ => (0 : Int)) (fun _ a _ v => a + v) 0 (fun _ => 0) r).isNone

theorem not_collects {W : World 0 2} (hg : W.grids = [0, 1]) {r : Fin 2} (h : stuck W r = some true) :
    ¬ Spec.Collects W 0 := by
  rintro ⟨hs, hh, hc⟩
  obtain ⟨S, M, hS, hM⟩ := hc 1 (by simp [hg]) pairNbrs (W.loc 0) pair_nbrs fun _ _ h => h
  obtain ⟨_, hr⟩ := hM r
  have := hr Int Int (fun _ _ => 0) (fun _ => 0) ⟨fun _ _ _ => rfl, fun _ _ _ => rfl⟩ (fun _ a _ v => a + v) 0 fun _ => 0
  unfold stuck at h
  rw [hh, Option.bind_some, hS, Option.map_some, this] at h
  simp at h

theorem strand_stuck : stuck strand 0 = some true := by decide +kernel

theorem layer_stuck : stuck layer 0 = some true := by decide +kernel

theorem seam_stuck : stuck seam 1 = some true := by decide +kernel

theorem twice_stuck : stuck twice 0 = some true := by decide +kernel

theorem strand_step (g : Nat) (i : Fin 2) :
    (0 : Rat) < (fun g : Nat => if g = 0 then (![1, 1] : Pt 2) else ![1 / 2, 1 / 2]) g i := by
  dsimp only
  split <;> fin_cases i <;> simp

theorem strand_cell {g : Nat} {c : Tup 2} : Spec.ActiveCell strand g c ↔
    Ovk.Spec.IsCell (pairCart 4 false .unique g) c ∧ (g = 0 → c 0 ≤ 1) := by
  have hper : ∀ i, (strand.cart g).periodic i = false := by
    intro i
    show (pairCart 4 false .unique g).periodic i = false
    unfold pairCart
    split <;> fin_cases i <;> rfl
  constructor
  · intro h
    refine ⟨h.1, fun hg => ?_⟩
    obtain ⟨w, h1, _, h3⟩ := h.2 (fun i => c i + 1) fun i => .inr rfl
    have h4 := h1 0
    rw [if_neg (by simp [hper])] at h4
    dsimp only at h4
    have h5 : (g != 0 || decide (w 0 ≤ 2)) = true := h3
    simp [hg] at h5
    omega
  · rintro ⟨h1, h2⟩
    refine ⟨h1, fun v hv => ⟨v, samePoint_refl _ _, fun i => ?_, ?_⟩⟩
    · have h3 := h1 i
      have h4 := hv i
      rw [if_neg (by intro h; exact absurd h.1 (by simpa [strand, uniform] using hper i))] at h3
      show (pairCart 4 false .unique g).range.b i ≤ v i ∧ v i < (pairCart 4 false .unique g).range.e i
      omega
    · show (g != 0 || decide (v 0 ≤ 2)) = true
      by_cases hg : g = 0
      · have := hv 0
        have := h2 hg
        simp [hg]; omega
      · simp [hg]

theorem strand_base : Spec.Base strand where
  grid g _ := ⟨(pair_ok (by norm_num) _ _ g).1, (pair_ok (by norm_num) _ _ g).2⟩
  flags g _ v w _ _ h := by
    have : v = w := by
      funext i
      have := h i
      rw [if_neg (by
        show ¬ (pairCart 4 false .unique g).periodic i = true
        unfold pairCart
        split <;> fin_cases i <;> simp)] at this
      exact this.symm
    rw [this]
  ortho _ _ i j := ortho_id i j
  solid g _ f c _ _ i := uniform_solid strand_step g f c i
  inhabited := ⟨1, by simp [strand, uniform], ![0, 0], strand_cell.2 ⟨by
    intro i; fin_cases i <;> simp [pairCart], by simp⟩⟩
  scale _ _ := by simp [strand, uniform]
  bins i := by fin_cases i <;> simp [strand, uniform]
  fit := by decide +kernel
  mult _ := by simp [strand, uniform]
  discovered := discovered_all fun _ => rfl
  sorts := argSort_sorted

theorem strand_attached : Spec.Attached strand := by
  intro g hg p hp ha
  have hg : g = 0 ∨ g = 1 := by simpa [strand, uniform] using hg
  have h0 := hp 0
  have h1 := hp 1
  have h2 : (g != 0 || decide (p 0 ≤ 2)) = true := ha
  refine ⟨fun i => if p i = 0 then 0 else p i - 1, strand_cell.2 ⟨?_, ?_⟩, fun i => decide (p i ≠ 0), ?_⟩
  · intro i
    rcases hg with rfl | rfl <;> simp [strand, uniform, pairCart] at h0 h1 h2 ⊢ <;> fin_cases i <;> simp <;>
      split <;> omega
  · rintro rfl
    simp at h2 ⊢
    split <;> omega
  · funext i
    unfold Spec.corner
    by_cases h : p i = 0 <;> simp [h]

theorem uniform_images {n : Nat} {grids : List Nat} {cart : Nat → Cart 2} {loc : Nat → Fin n → Rng 2}
    {active : Nat → Tup 2 → Bool} {org step : Nat → Pt 2} {tol : Rat} {nb : Tup 2} (hstep : ∀ g i, 0 < step g i)
    (htol : 0 ≤ tol) {m : Nat} (hm : m ∈ grids) (hper : ∀ i, (cart m).periodic i = false) :
    Spec.Images (uniform grids cart loc active org step tol nb) m := by
  intro f c c' hc hcc _
  obtain rfl : c = c' := by
    funext i
    have := hcc i
    rw [if_neg (by
      show ¬ (cart m).periodic i = true
      simp [hper i])] at this
    exact this.symm
  refine ⟨fun i => uniform_solid hstep m f c i, fun k hk x u hu => ?_⟩
  have := encloses (uniform_geometric (grids := grids) (cart := cart) (loc := loc) (active := active) (org := org)
    (nb := nb) hstep htol) (f := vertices c) hm hk (pts_vertices.2 fun i => .inl rfl) hc hu
    (.inr ⟨fun i j => if i = j then step m j else 0, linear_corner (org m) (step m) c⟩)
  exact this

theorem C88_false : ¬ C88_statement := by
  intro h
  refine not_collects rfl strand_stuck (h 0 2 strand _ strand_base (uniform_geometric strand_step le_rfl)
    strand_attached (fun _ _ => rfl) 0 (by simp [strand, uniform]) rfl ?_)
  refine uniform_images strand_step le_rfl (by simp) fun i => ?_
  fin_cases i <;> rfl

/-! ### Periodic grids -/

theorem turn_step {step : Rat} (hs : 0 < step) (g : Nat) (i : Fin 2) :
    (0 : Rat) < (fun g : Nat => if g = 0 then (![1, 1] : Pt 2) else ![step, 1 / 2]) g i := by
  dsimp only
  split <;> fin_cases i <;> simp [hs]

theorem turn_cell {per : Bool} {st : PStorage} {len : Int} (hlen : 2 < len) {org step : Rat} {g : Nat} {c : Tup 2}
    (hc : Ovk.Spec.IsCell (pairCart len per st g) c) : Spec.ActiveCell (turn per st len org step) g c := by
  have hp := (pair_ok hlen per st g).1
  refine ⟨hc, fun v hv => ⟨(pairCart len per st g).periodicAdjust v, C03_same_point _ hp v, fun i => ?_, rfl⟩⟩
  show (pairCart len per st g).range.b i ≤ (pairCart len per st g).periodicAdjust v i ∧
    (pairCart len per st g).periodicAdjust v i < (pairCart len per st g).range.e i
  by_cases hper : (pairCart len per st g).periodic i = true
  · have h1 := C03_first_period _ hp v i hper
    have h2 := hp i
    unfold Ovk.Spec.periodLen at h1 h2
    split at h1 <;> omega
  · have h1 := (C03_same_point _ hp v) i
    rw [if_neg hper] at h1
    have h2 := hc i
    have h3 := hv i
    rw [if_neg (by simp [hper])] at h2
    omega

theorem turn_base {per : Bool} {st : PStorage} {len : Int} (hlen : 2 < len) {org step : Rat} (hs : 0 < step) :
    Spec.Base (turn per st len org step) where
  grid g _ := ⟨(pair_ok hlen _ _ g).1, (pair_ok hlen _ _ g).2⟩
  flags _ _ _ _ _ _ _ := rfl
  ortho _ _ i j := ortho_id i j
  solid g _ f c _ _ i := uniform_solid (turn_step hs) g f c i
  inhabited := ⟨1, by simp [turn, uniform], ![0, 0], turn_cell hlen (by intro i; fin_cases i <;> simp [pairCart])⟩
  scale _ _ := by simp [turn, uniform]
  bins i := by fin_cases i <;> simp [turn, uniform]
  fit := by
    show (binRangeOf (![2, 1] : Tup 2)).count ≤ ((2 : Nat) : Int)
    decide +kernel
  mult _ := by simp [turn, uniform]
  discovered := discovered_all fun _ => rfl
  sorts := argSort_sorted

theorem seam_rooted : Spec.Rooted seam 0 := by
  rintro c hc r ⟨v, w, h1, h2, h3⟩
  refine ⟨![v 0, c 1], ![w 0, c 1], ?_, ?_, ?_, turn_cell (by norm_num) ?_⟩
  · intro i
    have := h1 0
    fin_cases i
    · exact this
    · exact .inl rfl
  · intro i
    have := h2 0
    fin_cases i
    · exact this
    · exact rfl
  · have hc1 := hc.1 1
    have h30 := h3 0
    have h31 := h3 1
    have e : seam.cart 0 = pairCart 4 true .unique 0 := rfl
    rw [e] at hc1
    show Ovk.Spec.pts (pairLoc 4 0 r) _
    have h30 : (pairLoc 4 0 r).b 0 ≤ w 0 ∧ w 0 < (pairLoc 4 0 r).e 0 := h30
    simp [pairCart] at hc1
    intro i
    fin_cases i
    · exact h30
    · fin_cases r <;> simp [pairLoc] <;> omega
  · have hc1 := hc.1 1
    have h30 : (pairLoc 4 0 r).b 0 ≤ w 0 ∧ w 0 < (pairLoc 4 0 r).e 0 := h3 0
    have e : seam.cart 0 = pairCart 4 true .unique 0 := rfl
    rw [e] at hc1
    simp [pairCart] at hc1
    intro i
    fin_cases i
    · fin_cases r <;> simp [pairLoc, pairCart] at h30 ⊢ <;> omega
    · simp [pairCart]; omega

/-- All points active, not periodic: the second process holds the last layer of points and owns no cell, so it
is not asked for the last cell, which has vertices on it. -/
theorem C88_layer_false : Spec.Base layer ∧ Spec.Images layer 0 ∧ (layer.cart 0).storage = .unique ∧
    (∀ g p, layer.active g p = true) ∧ ¬ Spec.Collects layer 0 :=
  ⟨turn_base (by norm_num) (by norm_num), uniform_images (turn_step (by norm_num)) le_rfl (by simp) (by
    intro i; fin_cases i <;> rfl), rfl, fun _ _ => rfl, not_collects rfl layer_stuck⟩

/-- A grid with a period that shifts coordinates, all points active: the process at the begin of the grid
is not asked for the cell at the end that has vertices on it. -/
theorem C88_period_false : Spec.Base seam ∧ Spec.Rooted seam 0 ∧ (seam.cart 0).storage = .unique ∧
    ¬ Spec.Collects seam 0 :=
  ⟨turn_base (by norm_num) (by norm_num), seam_rooted, rfl, not_collects rfl seam_stuck⟩

/-- Duplicated storage, all points active: the process at the begin of the grid expects the last point but one
from the process that holds it, which does not send it. -/
theorem C88_duplicated_false : Spec.Base twice ∧ (twice.cart 0).storage = .duplicated ∧
    (∀ g p, twice.active g p = true) ∧ ¬ Spec.Collects twice 0 :=
  ⟨turn_base (by norm_num) (by norm_num), rfl, fun _ _ => rfl, not_collects rfl twice_stuck⟩

/-! ### A world that meets the hypotheses -/

theorem exWorld_rooted : Spec.Rooted exWorld 0 := by
  rintro c hc r ⟨v, w, h1, h2, h3⟩
  have hv : w = v := by
    funext i
    have := h2 i
    rwa [if_neg (by simp [exWorld, uniform, exCart])] at this
  subst hv
  have hc0 := hc.1 0
  have hc1 := hc.1 1
  have h10 := h1 0
  have h30 := h3 0
  have h31 := h3 1
  simp [exWorld, uniform, exCart] at hc0 hc1
  have hr : r = 0 ∨ r = 1 := by omega
  refine ⟨![if w 0 = 3 then 2 else w 0, 0], ![if w 0 = 3 then 2 else w 0, 0], ?_, samePoint_refl _ _, ?_,
    (activeCell_full (fun _ => rfl) (fun _ => rfl)).2 ?_⟩
  · intro i
    fin_cases i
    · simp; split <;> omega
    · simp; omega
  · rcases hr with rfl | rfl <;> simp [exWorld, uniform, exLoc] at h30 h31 <;> intro i <;> fin_cases i <;>
      simp [exWorld, uniform, exLoc] <;> (try split) <;> omega
  · rcases hr with rfl | rfl <;> simp [exWorld, uniform, exLoc] at h30 h31 <;> intro i <;> fin_cases i <;>
      simp [exWorld, uniform, exCart] <;> (try split) <;> omega

/-- C88 applies to the example of C85: the cell from point 1 to point 2 has vertices on both processes. -/
example : Spec.Collects exWorld 0 := by
  refine C88_partial ⟨exWorld_base, ?_, covered_of_attached (uniform_geometric exStep_pos le_rfl) exWorld_attached⟩
    (by simp [exWorld, uniform]) rfl exWorld_rooted (uniform_images exStep_pos le_rfl (by simp) fun _ => rfl)
  intro m hm k hk f c x u hf hc hu
  exact encloses (uniform_geometric exStep_pos le_rfl) hm hk hf hc hu (.inl rfl)

end Ovk.Ovl
