/-
Property C76: dimensions of a Cartesian process grid.
-/
import Verif.Model.DecompDims
import Mathlib.Data.Fin.VecNotation
import Mathlib.Algebra.Order.BigOperators.Group.Finset
import Mathlib.Tactic.FinCases
import Mathlib.Tactic.Linarith
import Mathlib.Tactic.Ring
import Mathlib.Tactic.IntervalCases

namespace Ovk
namespace Spec
/-- `v` is the smallest sum of squared deviations of the dimensions from an integer. -/
def Spread {d : Nat} (dims : Fin d → Nat) (v : Int) : Prop :=
  (∃ m : Int, v = ∑ i, ((dims i : Int) - m) ^ 2) ∧ ∀ m : Int, v ≤ ∑ i, ((dims i : Int) - m) ^ 2
end Spec

namespace Dims
variable {d : Nat}

theorem spread_unique {dims : Fin d → Nat} {v v' : Int} (h : Spec.Spread dims v) (h' : Spec.Spread dims v') :
    v = v' := by
  obtain ⟨m, e⟩ := h.1
  obtain ⟨m', e'⟩ := h'.1
  have h1 := h.2 m'
  have h2 := h'.2 m
  omega

theorem int_of {x y : Int} (h : int x = some y) : y = x := by
  unfold int at h
  split at h
  · exact (Option.some.inj h).symm
  · simp at h

theorem int_ok {x : Int} (h1 : -2147483648 ≤ x) (h2 : x ≤ 2147483647) : int x = some x := by
  unfold int; rw [if_pos ⟨h1, h2⟩]

/-- A checked loop of additions gives the sum. -/
theorem foldlM_sum {ι : Type} (g : ι → Option Int) (f : ι → Int) (hg : ∀ i y, g i = some y → y = f i) :
    ∀ (l : List ι) (s t : Int),
    l.foldlM (fun s i => (g i).bind fun y => int (s + y)) s = some t → t = s + (l.map f).sum := by
  intro l
  induction l with
  | nil => intro s t h; simp at h; simp [h]
  | cons i l ih =>
    intro s t h
    rw [List.foldlM_cons] at h
    cases hy : g i with
    | none => rw [hy] at h; simp at h
    | some y =>
      rw [hy] at h
      simp only [Option.bind_some] at h
      cases hz : int (s + y) with
      | none => rw [hz] at h; simp at h
      | some z =>
        rw [hz] at h
        have := ih z t h
        rw [this, int_of hz, hg i y hy, List.map_cons, List.sum_cons]; ring

/-- Without overflow it is defined. -/
theorem foldlM_ok {ι : Type} (g : ι → Option Int) (f : ι → Int) (hg : ∀ i, g i = some (f i))
    (hf : ∀ i, 0 ≤ f i) : ∀ (l : List ι) (s : Int), 0 ≤ s → s + (l.map f).sum ≤ 2147483647 →
    l.foldlM (fun s i => (g i).bind fun y => int (s + y)) s = some (s + (l.map f).sum) := by
  intro l
  induction l with
  | nil => intro s _ _; simp
  | cons i l ih =>
    intro s h0 hb
    rw [List.map_cons, List.sum_cons] at hb ⊢
    have hs : 0 ≤ (l.map f).sum := List.sum_nonneg (by
      intro x hx; obtain ⟨j, _, rfl⟩ := List.mem_map.1 hx; exact hf j)
    have hi := hf i
    rw [List.foldlM_cons, hg, Option.bind_some, int_ok (by omega) (by omega)]
    show l.foldlM _ (s + f i) = _
    rw [ih (s + f i) (by omega) (by omega)]
    congr 1; ring

theorem sum_list (f : Fin d → Int) : ((List.finRange d).map f).sum = ∑ i, f i := by
  rw [← List.ofFn_eq_map, List.sum_ofFn]

/-- The integer nearest to the mean. -/
def mean (dims : Fin d → Nat) : Int := (2 * (∑ i, (dims i : Int)) + d).tdiv (2 * d)

theorem variance_eq {dims : Fin d → Nat} {v : Int} (h : variance dims = some v) :
    v = ∑ i, ((dims i : Int) - mean dims) ^ 2 := by
  unfold variance at h
  obtain ⟨s, hs, h⟩ := Option.bind_eq_some_iff.1 h
  have hs' := foldlM_sum (fun i : Fin d => some (dims i : Int)) (fun i => (dims i : Int))
    (by intro i y e; exact (Option.some.inj e).symm) _ _ _ hs
  have hm : (2 * s + d).tdiv (2 * d) = mean dims := by
    unfold mean; rw [hs', sum_list, zero_add]
  dsimp only at h
  rw [hm] at h
  have := foldlM_sum (fun i : Fin d => (int ((dims i : Int) - mean dims)).bind fun dev => int (dev * dev))
    (fun i => ((dims i : Int) - mean dims) ^ 2) (by
      intro i y e
      obtain ⟨z, hz, e⟩ := Option.bind_eq_some_iff.1 e
      rw [int_of e, int_of hz]; ring) (List.finRange d) 0 v (by
        rw [← h]; congr 1; funext v i
        cases int ((dims i : Int) - mean dims) <;> rfl)
  rw [this, sum_list, zero_add]

/-- The sum of squares about the rounded mean is minimal. -/
theorem mean_spread (dims : Fin d → Nat) : Spec.Spread dims (∑ i, ((dims i : Int) - mean dims) ^ 2) := by
  refine ⟨⟨_, rfl⟩, ?_⟩
  intro m
  rcases Nat.eq_zero_or_pos d with rfl | hd
  · simp
  have expand : ∀ a : Int, ∑ i, ((dims i : Int) - a) ^ 2 =
      (∑ i, (dims i : Int) ^ 2) - 2 * a * (∑ i, (dims i : Int)) + d * a ^ 2 := by
    intro a
    have : ∀ i, ((dims i : Int) - a) ^ 2 = (dims i : Int) ^ 2 - 2 * a * (dims i : Int) + a ^ 2 := fun i => by ring
    simp only [this, Finset.sum_add_distrib, Finset.sum_sub_distrib, ← Finset.mul_sum, Finset.sum_const,
      Finset.card_univ, Fintype.card_fin, nsmul_eq_mul]
  rw [expand, expand]
  have hS : 0 ≤ ∑ i, (dims i : Int) := Finset.sum_nonneg fun i _ => Int.natCast_nonneg _
  have hmean : mean dims = (2 * (∑ i, (dims i : Int)) + d) / (2 * d) := by
    unfold mean; rw [Int.tdiv_eq_ediv_of_nonneg (by omega)]
  generalize (∑ i, (dims i : Int)) = S at *
  generalize (∑ i, (dims i : Int) ^ 2) = Q
  have hd' : (0 : Int) < d := by exact_mod_cast hd
  have h1 : 2 * (d : Int) * mean dims ≤ 2 * S + d := by
    rw [hmean]; exact Int.mul_ediv_self_le (by omega)
  have h2 : 2 * S + d < 2 * (d : Int) * (mean dims + 1) := by
    have := Int.lt_mul_ediv_self_add (x := 2 * S + d) (k := 2 * d) (by omega)
    rw [← hmean] at this
    linarith
  generalize mean dims = a at *
  -- a = m: equal; otherwise the difference is at least d (k² - |k|)
  rcases Int.lt_trichotomy m a with hlt | heq | hgt
  · have hk : 0 < a - m := by omega
    nlinarith [mul_nonneg (le_of_lt hk) (show (0 : Int) ≤ (a - m) - 1 by omega),
      mul_nonneg (le_of_lt hd') (mul_nonneg (le_of_lt hk) (show (0 : Int) ≤ (a - m) - 1 by omega)),
      mul_nonneg (le_of_lt hk) (show (0 : Int) ≤ 2 * S + d - 2 * d * a by linarith)]
  · rw [heq]
  · have hk : 0 < m - a := by omega
    nlinarith [mul_nonneg (le_of_lt hd') (mul_nonneg (le_of_lt hk) (show (0 : Int) ≤ (m - a) - 1 by omega)),
      mul_nonneg (le_of_lt hk) (show (0 : Int) ≤ 2 * d * (a + 1) - 2 * S - d by linarith)]

theorem variance_spread {dims : Fin d → Nat} {v : Int} (h : variance dims = some v) : Spec.Spread dims v := by
  rw [variance_eq h]; exact mean_spread dims

/-- The properties of dimensions that all steps keep. -/
structure Good (size : Nat) (input dims : Fin d → Nat) : Prop where
  kept : ∀ i, input i ≠ 0 → dims i = input i
  product : ∏ i, dims i = size
  positive : 0 < size

theorem Good.pos {size : Nat} {input dims : Fin d → Nat} (h : Good size input dims) (i : Fin d) : 0 < dims i := by
  rcases Nat.eq_zero_or_pos (dims i) with e | e
  · have := Finset.prod_eq_zero (Finset.mem_univ i) e
    have := h.product
    have := h.positive
    omega
  · exact e

theorem Good.le {size : Nat} {input dims : Fin d → Nat} (h : Good size input dims) (i : Fin d) :
    dims i ≤ size := by
  have : dims i ∣ ∏ i, dims i := Finset.dvd_prod_of_mem dims (Finset.mem_univ i)
  rw [h.product] at this
  exact Nat.le_of_dvd h.positive this

theorem variance_ok {size : Nat} {input dims : Fin d → Nat} (h : Good size input dims) (hs : size ≤ 26754)
    (hd : d ≤ 3) : ∃ v, variance dims = some v := by
  have hS0 : 0 ≤ ∑ i, (dims i : Int) := Finset.sum_nonneg fun i _ => Int.natCast_nonneg _
  have hS1 : ∑ i, (dims i : Int) ≤ d * size := by
    have := Finset.sum_le_card_nsmul Finset.univ (fun i => (dims i : Int)) (size : Int)
      fun i _ => by exact_mod_cast h.le i
    simpa using this
  have hdS : (d : Int) * size ≤ 3 * 26754 := by
    have h1 : (d : Int) ≤ 3 := by exact_mod_cast hd
    have h2 : (size : Int) ≤ 26754 := by exact_mod_cast hs
    nlinarith [Int.natCast_nonneg d, Int.natCast_nonneg size]
  rcases Nat.eq_zero_or_pos d with rfl | hd0
  · exact ⟨0, rfl⟩
  have hd' : (0 : Int) < d := by exact_mod_cast hd0
  have hmean : mean dims = (2 * (∑ i, (dims i : Int)) + d) / (2 * d) := by
    unfold mean; rw [Int.tdiv_eq_ediv_of_nonneg (by omega)]
  have hm0 : 0 ≤ mean dims := by rw [hmean]; exact Int.ediv_nonneg (by omega) (by omega)
  have hm1 : mean dims ≤ size := by
    rw [hmean]
    have : (2 * (∑ i, (dims i : Int)) + d) / (2 * d) < (size : Int) + 1 := by
      apply Int.ediv_lt_of_lt_mul (by omega)
      nlinarith
    omega
  have hdev : ∀ i, -(26754 : Int) ≤ (dims i : Int) - mean dims ∧ (dims i : Int) - mean dims ≤ 26754 := by
    intro i
    have := h.le i
    have := h.pos i
    constructor <;> omega
  have hsq : ∀ i, 0 ≤ ((dims i : Int) - mean dims) * ((dims i : Int) - mean dims) ∧
      ((dims i : Int) - mean dims) * ((dims i : Int) - mean dims) ≤ 715776516 := by
    intro i
    obtain ⟨h1, h2⟩ := hdev i
    exact ⟨mul_self_nonneg _, by nlinarith⟩
  refine ⟨∑ i, ((dims i : Int) - mean dims) * ((dims i : Int) - mean dims), ?_⟩
  unfold variance
  have e1 := foldlM_ok (fun i : Fin d => some (dims i : Int)) (fun i => (dims i : Int)) (fun _ => rfl)
    (fun _ => Int.natCast_nonneg _) (List.finRange d) 0 le_rfl (by rw [sum_list]; omega)
  have e1' : (List.finRange d).foldlM (fun s i => int (s + dims i)) 0 = some (∑ i, (dims i : Int)) := by
    rw [sum_list, zero_add] at e1; exact e1
  rw [e1', Option.bind_some]
  dsimp only
  have hm : (2 * (∑ i, (dims i : Int)) + d).tdiv (2 * d) = mean dims := rfl
  rw [hm]
  have e2 := foldlM_ok (fun i : Fin d => (int ((dims i : Int) - mean dims)).bind fun dev => int (dev * dev))
    (fun i => ((dims i : Int) - mean dims) * ((dims i : Int) - mean dims)) (by
      intro i
      obtain ⟨h1, h2⟩ := hdev i
      obtain ⟨h3, h4⟩ := hsq i
      rw [int_ok (by omega) (by omega), Option.bind_some, int_ok (by omega) (by omega)])
    (fun i => (hsq i).1) (List.finRange d) 0 le_rfl (by
      rw [sum_list, zero_add]
      have := Finset.sum_le_card_nsmul Finset.univ
        (fun i => ((dims i : Int) - mean dims) * ((dims i : Int) - mean dims)) 715776516 fun i _ => (hsq i).2
      simp only [Finset.card_univ, Fintype.card_fin, nsmul_eq_mul] at this
      have h1 : (d : Int) ≤ 3 := by exact_mod_cast hd
      omega)
  rw [sum_list, zero_add] at e2
  rw [← e2]
  congr 1; funext v i
  cases int ((dims i : Int) - mean dims) <;> rfl

/-! ### Prime factors -/

theorem strip_ok (p : Nat) (hp : 2 ≤ p) : ∀ (fuel r : Nat), 0 < r → r < fuel →
    ∃ fs r', strip fuel p r = some (fs, r') ∧ fs.prod * r' = r ∧ 0 < r' ∧ ∀ f ∈ fs, 0 < f := by
  intro fuel
  induction fuel with
  | zero => intro r _ h; omega
  | succ fuel ih =>
    intro r hr hf
    unfold strip
    by_cases hm : r % p = 0
    · rw [if_pos hm]
      have hlt : r / p < r := Nat.div_lt_self hr hp
      have hpos : 0 < r / p := Nat.div_pos (Nat.le_of_dvd hr (Nat.dvd_of_mod_eq_zero hm)) (by omega)
      obtain ⟨fs, r', h1, h2, h3, h4⟩ := ih (r / p) hpos (by omega)
      refine ⟨p :: fs, r', by rw [h1]; rfl, ?_, h3, ?_⟩
      · rw [List.prod_cons, mul_assoc, h2]
        exact Nat.mul_div_cancel' (Nat.dvd_of_mod_eq_zero hm)
      · intro f hf
        rcases List.mem_cons.1 hf with rfl | hf
        · omega
        · exact h4 f hf
    · rw [if_neg hm]
      exact ⟨[], r, rfl, by simp, hr, by simp⟩

theorem factors_ok : ∀ (ps : List Nat), (∀ p ∈ ps, 2 ≤ p) → ∀ r, 0 < r →
    ∃ fs, factors ps r = some fs ∧ fs.prod ∣ r ∧ ∀ f ∈ fs, 0 < f := by
  intro ps
  induction ps with
  | nil => intro _ r _; exact ⟨[], rfl, by simp, by simp⟩
  | cons p ps ih =>
    intro hps r hr
    unfold factors
    by_cases hp : p > r
    · rw [if_pos hp]; exact ⟨[], rfl, by simp, by simp⟩
    · rw [if_neg hp]
      obtain ⟨fs, r', h1, h2, h3, h4⟩ := strip_ok p (hps p (by simp)) (r + 1) r hr (by omega)
      obtain ⟨gs, g1, g2, g3⟩ := ih (fun q hq => hps q (by simp [hq])) r' h3
      refine ⟨fs ++ gs, by rw [h1, Option.bind_some, g1]; rfl, ?_, ?_⟩
      · rw [List.prod_append, ← h2]; exact Nat.mul_dvd_mul_left _ g2
      · intro f hf
        rcases List.mem_append.1 hf with hf | hf
        · exact h4 f hf
        · exact g3 f hf

/-! ### Moving factors -/

theorem move_prod (dims : Fin d → Nat) {i j : Fin d} (hij : i ≠ j) {f : Nat} (hf : f ∣ dims i) :
    ∏ k, move dims i j f k = ∏ k, dims k := by
  rw [← Finset.mul_prod_erase Finset.univ (move dims i j f) (Finset.mem_univ i),
    ← Finset.mul_prod_erase Finset.univ dims (Finset.mem_univ i),
    ← Finset.mul_prod_erase (Finset.univ.erase i) (move dims i j f) (a := j) (by simp [hij.symm]),
    ← Finset.mul_prod_erase (Finset.univ.erase i) dims (a := j) (by simp [hij.symm])]
  have h1 : move dims i j f i = dims i / f := by unfold move; simp [hij]
  have h2 : move dims i j f j = dims j * f := by unfold move; simp
  have h3 : ∏ k ∈ (Finset.univ.erase i).erase j, move dims i j f k =
      ∏ k ∈ (Finset.univ.erase i).erase j, dims k := by
    apply Finset.prod_congr rfl
    intro k hk
    simp only [Finset.mem_erase] at hk
    unfold move; rw [if_neg hk.1, if_neg hk.2.1]
  rw [h1, h2, h3]
  obtain ⟨c, hc⟩ := hf
  rcases Nat.eq_zero_or_pos f with rfl | hf
  · simp [hc]
  · rw [hc, Nat.mul_div_cancel_left _ hf]; ring

theorem move_good {size : Nat} {input dims : Fin d → Nat} (h : Good size input dims) {i j : Fin d} (hij : i ≠ j)
    {f : Nat} (hf : f ∣ dims i) (hi : input i = 0) (hj : input j = 0) : Good size input (move dims i j f) := by
  refine ⟨?_, by rw [move_prod dims hij hf]; exact h.product, h.positive⟩
  intro k hk
  have h1 : k ≠ i := fun e => hk (e ▸ hi)
  have h2 : k ≠ j := fun e => hk (e ▸ hj)
  unfold move
  rw [if_neg h2, if_neg h1]
  exact h.kept k hk

/-- The smallest spread is at most that of the given dimensions. -/
def NotWorse (dims dims' : Fin d → Nat) : Prop := ∀ v v', Spec.Spread dims v → Spec.Spread dims' v' → v' ≤ v

theorem NotWorse.refl (dims : Fin d → Nat) : NotWorse dims dims := fun _ _ h h' => le_of_eq (spread_unique h' h)

theorem NotWorse.trans {a b c : Fin d → Nat} (h : NotWorse a b) (h' : NotWorse b c) : NotWorse a c :=
  fun v v' hv hv' => le_trans (h' _ v' (mean_spread b) hv') (h v _ hv (mean_spread b))

theorem improve_ok {size : Nat} {input dims : Fin d → Nat} (h : Good size input dims) (hs : size ≤ 26754)
    (hd : d ≤ 3) {i : Fin d} (hi : input i = 0) {f : Nat} (hf : f ∣ dims i) :
    ∃ dims', improve input dims i f = some dims' ∧ Good size input dims' ∧ NotWorse dims dims' ∧
      (dims' i = dims i ∨ dims' i = dims i / f) := by
  obtain ⟨v0, hv0⟩ := variance_ok h hs hd
  have key : ∀ (l : List Nat), (∀ k ∈ l, k < d - 1) → ∀ (best : (Fin d → Nat) × Int),
      Good size input best.1 → variance best.1 = some best.2 → best.2 ≤ v0 →
      (best.1 i = dims i ∨ best.1 i = dims i / f) →
      ∃ r : (Fin d → Nat) × Int, l.foldlM (fun (best : (Fin d → Nat) × Int) k =>
        let j : Fin d := ⟨((i : Nat) + 1 + k) % d, Nat.mod_lt _ (Nat.lt_of_le_of_lt (Nat.zero_le _) i.2)⟩
        if input j ≠ 0 then some best
        else (int ((dims j * f : Nat) : Int)).bind fun _ =>
          let new := move dims i j f
          (variance new).map fun v => if v < best.2 then (new, v) else best) best = some r ∧
        Good size input r.1 ∧ variance r.1 = some r.2 ∧ r.2 ≤ v0 ∧ (r.1 i = dims i ∨ r.1 i = dims i / f) := by
    intro l
    induction l with
    | nil => intro _ best h1 h2 h3 h4; exact ⟨best, rfl, h1, h2, h3, h4⟩
    | cons k l ih =>
      intro hl best h1 h2 h3 h4
      rw [List.foldlM_cons]
      have hk := hl k (by simp)
      have hl' : ∀ k ∈ l, k < d - 1 := fun k hk => hl k (by simp [hk])
      dsimp only
      generalize hj : (⟨((i : Nat) + 1 + k) % d, Nat.mod_lt _ (Nat.lt_of_le_of_lt (Nat.zero_le _) i.2)⟩ : Fin d) = j
      have hij : i ≠ j := by
        intro e
        have hv : ((i : Nat) + 1 + k) % d = (i : Nat) := by
          have := congrArg Fin.val (hj.trans e.symm); exact this
        have hi2 := i.2
        by_cases hlt : (i : Nat) + 1 + k < d
        · rw [Nat.mod_eq_of_lt hlt] at hv; omega
        · rw [Nat.mod_eq_sub_mod (by omega), Nat.mod_eq_of_lt (by omega)] at hv; omega
      by_cases hinp : input j ≠ 0
      · rw [if_pos hinp]
        exact ih hl' best h1 h2 h3 h4
      · rw [if_neg hinp]
        push Not at hinp
        have hg := move_good h hij hf hi hinp
        obtain ⟨v, hv⟩ := variance_ok hg hs hd
        have hle := hg.le j
        have he : move dims i j f j = dims j * f := by unfold move; simp
        rw [he] at hle
        rw [int_ok (by omega) (by omega), Option.bind_some, hv, Option.map_some]
        by_cases hb : v < best.2
        · rw [if_pos hb]
          refine ih hl' (move dims i j f, v) hg hv (by show v ≤ v0; omega) (.inr ?_)
          unfold move; simp [hij]
        · rw [if_neg hb]
          exact ih hl' best h1 h2 h3 h4
  obtain ⟨r, r1, r2, r3, r4, r5⟩ := key (List.range (d - 1)) (fun k hk => List.mem_range.1 hk) (dims, v0) h hv0
    le_rfl (.inl rfl)
  refine ⟨r.1, ?_, r2, ?_, r5⟩
  · unfold improve
    rw [hv0, Option.bind_some, r1]; rfl
  · intro v v' hv hv'
    rw [spread_unique hv (variance_spread hv0), spread_unique hv' (variance_spread r3)]
    exact r4

theorem improveDim_ok {size : Nat} {input dims : Fin d → Nat} (h : Good size input dims) (hs : size ≤ 26754)
    (hd : d ≤ 3) (i : Fin d) :
    ∃ dims', improveDim input dims i = some dims' ∧ Good size input dims' ∧ NotWorse dims dims' := by
  unfold improveDim
  by_cases hi : input i ≠ 0
  · rw [if_pos hi]; exact ⟨dims, rfl, h, .refl _⟩
  · rw [if_neg hi]
    push Not at hi
    obtain ⟨fs, f1, f2, f3⟩ := factors_ok smallPrimes (by decide +kernel) (dims i) (h.pos i)
    rw [f1, Option.bind_some]
    clear f1
    induction fs generalizing dims with
    | nil => exact ⟨dims, rfl, h, .refl _⟩
    | cons f fs ih =>
      rw [List.prod_cons] at f2
      obtain ⟨dims1, e1, e2, e3, e4⟩ := improve_ok h hs hd hi (dvd_trans (Dvd.intro _ rfl) f2)
      have hdv : fs.prod ∣ dims1 i := by
        rcases e4 with e | e
        · rw [e]; exact dvd_trans (Dvd.intro_left _ rfl) f2
        · rw [e]
          obtain ⟨c, hc⟩ := f2
          rw [hc, mul_assoc, Nat.mul_div_cancel_left _ (f3 f (by simp))]
          exact Dvd.intro _ rfl
      obtain ⟨dims2, g1, g2, g3⟩ := ih e2 hdv fun g hg => f3 g (by simp [hg])
      refine ⟨dims2, ?_, g2, e3.trans g3⟩
      rw [List.foldlM_cons, e1]
      exact g1

/-! ### Putting in order -/

theorem order_cases (input dims : Fin d → Nat) (i j : Nat) :
    order input dims i j = dims ∨ ∃ (a b : Fin d), (a : Nat) = i ∧ (b : Nat) = j ∧ input a = 0 ∧ input b = 0 ∧
      order input dims i j = dims ∘ Equiv.swap a b := by
  unfold order
  split
  · rename_i h
    split
    · rename_i h'
      refine .inr ⟨⟨i, h.1⟩, ⟨j, h.2⟩, rfl, rfl, h'.1, h'.2.1, ?_⟩
      funext k
      rw [Function.comp_apply, Equiv.swap_apply_def]
      by_cases h1 : (k : Nat) = i
      · have : k = ⟨i, h.1⟩ := Fin.ext h1
        simp [this]
      · have n1 : k ≠ ⟨i, h.1⟩ := fun e => h1 (congrArg Fin.val e)
        rw [if_neg h1, if_neg n1]
        by_cases h2 : (k : Nat) = j
        · have : k = ⟨j, h.2⟩ := Fin.ext h2
          simp [this]
        · have n2 : k ≠ ⟨j, h.2⟩ := fun e => h2 (congrArg Fin.val e)
          rw [if_neg h2, if_neg n2]
    · exact .inl rfl
  · exact .inl rfl

theorem order_good {size : Nat} {input dims : Fin d → Nat} (h : Good size input dims) (i j : Nat) :
    Good size input (order input dims i j) ∧ NotWorse dims (order input dims i j) := by
  rcases order_cases input dims i j with e | ⟨a, b, _, _, ha, hb, e⟩
  · rw [e]; exact ⟨h, .refl _⟩
  · rw [e]
    refine ⟨⟨?_, ?_, h.positive⟩, ?_⟩
    · intro k hk
      have h1 : k ≠ a := fun e => hk (e ▸ ha)
      have h2 : k ≠ b := fun e => hk (e ▸ hb)
      rw [Function.comp_apply, Equiv.swap_apply_of_ne_of_ne h1 h2]
      exact h.kept k hk
    · rw [← h.product]
      exact Equiv.prod_comp (Equiv.swap a b) dims
    · intro v v' hv hv'
      obtain ⟨m, hm⟩ := hv.1
      have := hv'.2 m
      rw [hm]
      refine le_trans this (le_of_eq ?_)
      exact Equiv.sum_comp (Equiv.swap a b) fun i => ((dims i : Int) - m) ^ 2

theorem order_sorted (hd : d ≤ 3) (input dims : Fin d → Nat) :
    ∀ i j : Fin d, i < j → input i = 0 → input j = 0 →
      order input (order input (order input dims 0 1) 0 2) 1 2 j ≤
        order input (order input (order input dims 0 1) 0 2) 1 2 i := by
  interval_cases d
  · intro i; exact i.elim0
  · intro i j h; omega
  · intro i j h hi hj
    have e1 : i = 0 := by omega
    have e2 : j = 1 := by omega
    subst e1; subst e2
    simp only [order, Nat.zero_lt_succ, Nat.one_lt_ofNat, Nat.lt_irrefl, and_self, and_false, dite_true, dite_false]
    simp only [Fin.zero_eta, Fin.mk_one, hi, hj, true_and]
    split_ifs <;> simp <;> omega
  · have v : ∀ (dims : Fin 3 → Nat) (i j : Nat) (hi : i < 3) (hj : j < 3) (k : Fin 3), order input dims i j k =
        if input ⟨i, hi⟩ = 0 ∧ input ⟨j, hj⟩ = 0 ∧ dims ⟨i, hi⟩ < dims ⟨j, hj⟩ then
          if (k : Nat) = i then dims ⟨j, hj⟩ else if (k : Nat) = j then dims ⟨i, hi⟩ else dims k
        else dims k := by
      intro dims i j hi hj k
      unfold order
      rw [dif_pos ⟨hi, hj⟩]
      by_cases hc : input ⟨i, hi⟩ = 0 ∧ input ⟨j, hj⟩ = 0 ∧ dims ⟨i, hi⟩ < dims ⟨j, hj⟩
      · rw [if_pos hc, if_pos hc]
      · rw [if_neg hc, if_neg hc]
    intro i j h hi hj
    have v01 := fun k => v dims 0 1 (by decide) (by decide) k
    generalize order input dims 0 1 = d1 at *
    have v02 := fun k => v d1 0 2 (by decide) (by decide) k
    generalize order input d1 0 2 = d2 at *
    have v12 := fun k => v d2 1 2 (by decide) (by decide) k
    generalize order input d2 1 2 = d3 at *
    clear v
    have a0 := v01 0; have a1 := v01 1; have a2 := v01 2
    have b0 := v02 0; have b1 := v02 1; have b2 := v02 2
    have c0 := v12 0; have c1 := v12 1; have c2 := v12 2
    clear v01 v02 v12
    have e : ∀ (h : 2 < 3), (⟨2, h⟩ : Fin 3) = 2 := fun _ => rfl
    simp only [Fin.zero_eta, Fin.mk_one, e, Fin.val_zero, Fin.val_one, Fin.val_two, if_true, if_false,
      OfNat.ofNat_ne_zero, OfNat.zero_ne_ofNat, one_ne_zero, zero_ne_one, OfNat.one_ne_ofNat, OfNat.ofNat_ne_one] at *
    generalize dims 0 = x0 at *
    generalize dims 1 = x1 at *
    generalize dims 2 = x2 at *
    generalize d1 0 = y0 at *
    generalize d1 1 = y1 at *
    generalize d1 2 = y2 at *
    generalize d2 0 = z0 at *
    generalize d2 1 = z1 at *
    generalize d2 2 = z2 at *
    have hcases : (i = 0 ∧ j = 1) ∨ (i = 0 ∧ j = 2) ∨ (i = 1 ∧ j = 2) := by omega
    rcases hcases with ⟨rfl, rfl⟩ | ⟨rfl, rfl⟩ | ⟨rfl, rfl⟩
    · rw [c0, c1]; simp only [hi, hj, true_and] at *; split_ifs at * <;> omega
    · rw [c0, c2]; simp only [hi, hj, true_and] at *; split_ifs at * <;> omega
    · rw [c1, c2]; simp only [hi, hj, true_and] at *; split_ifs at * <;> omega

end Dims

open Dims

/-- The full statement of C76: any number of processes that fits in an `int`. -/
def C76_statement : Prop := ∀ (d size : Nat) (input dims : Fin d → Nat), d ≤ 3 → size ≤ 2147483647 →
  Created size input dims → ∃ out, create input dims = some out ∧ Created size input out ∧
    ∀ v v', Spec.Spread dims v → Spec.Spread out v' → v' ≤ v

/-- C76, for up to 26754 processes.  Missing: more processes, for which the claim is false (`C76_false`: the
variance overflows). -/
theorem C76_partial (d size : Nat) (input dims : Fin d → Nat) (hd : d ≤ 3) (hs : size ≤ 26754)
    (h : Created size input dims) : ∃ out, create input dims = some out ∧ Created size input out ∧
      ∀ v v', Spec.Spread dims v → Spec.Spread out v' → v' ≤ v := by
  have h0 : Good size input dims := ⟨h.kept, h.product, h.positive⟩
  have key : ∀ (l : List (Fin d)) (a : Fin d → Nat), Good size input a → ∃ b,
      l.foldlM (fun dims i => improveDim input dims i) a = some b ∧ Good size input b ∧ NotWorse a b := by
    intro l
    induction l with
    | nil => intro a ha; exact ⟨a, rfl, ha, .refl _⟩
    | cons i l ih =>
      intro a ha
      obtain ⟨b, b1, b2, b3⟩ := improveDim_ok ha hs hd i
      obtain ⟨c, c1, c2, c3⟩ := ih b b2
      exact ⟨c, by rw [List.foldlM_cons, b1]; exact c1, c2, b3.trans c3⟩
  obtain ⟨b, b1, b2, b3⟩ := key (List.finRange d) dims h0
  obtain ⟨c1, c2⟩ := order_good b2 0 1
  obtain ⟨c3, c4⟩ := order_good c1 0 2
  obtain ⟨c5, c6⟩ := order_good c3 1 2
  refine ⟨_, by unfold create; rw [b1]; rfl, ⟨c5.kept, c5.product, c5.positive, order_sorted hd input b⟩, ?_⟩
  exact ((b3.trans c2).trans c4).trans c6

/-- 257 * 257 processes in two dimensions, with the result of `MPI_Dims_create` that the code means to improve. -/
theorem C76_false : ¬ C76_statement := by
  intro h
  obtain ⟨out, h1, _⟩ := h 2 66049 ![0, 0] ![66049, 1] (by decide) (by decide)
    ⟨by decide, by decide, by decide, by decide⟩
  have : (create ![0, 0] ![66049, 1] : Option (Fin 2 → Nat)) = none := by
    have h2 : variance (![66049, 1] : Fin 2 → Nat) = none := by decide +kernel
    have h3 : factors smallPrimes 66049 = some [257, 257] := by decide +kernel
    unfold create
    have h4 : improveDim (![0, 0] : Fin 2 → Nat) ![66049, 1] 0 = none := by
      unfold improveDim
      rw [if_neg (by decide)]
      show (factors smallPrimes 66049).bind _ = none
      rw [h3, Option.bind_some, List.foldlM_cons]
      unfold improve
      rw [h2]; rfl
    show Option.map _ (List.foldlM _ _ [0, 1]) = none
    rw [List.foldlM_cons, h4]; rfl
  rw [this] at h1
  simp at h1

/-- The case named in the code, the square of a prime: `(N*N, 1)` becomes `(N, N)`, for the primes of the list for
which nothing overflows. -/
theorem C76_square (N : Nat) (hN : N ∈ smallPrimes) (hs : N ≤ 251) :
    (create ![0, 0] ![N * N, 1]).map (fun f => (f 0, f 1)) = some (N, N) := by
  have : ∀ N ∈ smallPrimes, N ≤ 251 →
    (create ![0, 0] ![N * N, 1]).map (fun f => (f 0, f 1)) = some (N, N) := by decide +kernel
  exact this N hN hs

/- Sixty processes; the second dimension is given. -/
example : Created 60 ![0, 5, 0] ![12, 5, 1] ∧
    (create ![0, 5, 0] ![12, 5, 1]).map (fun f => [f 0, f 1, f 2]) = some [4, 5, 3] := by
  refine ⟨⟨by decide, by decide, by decide, by decide⟩, by decide +kernel⟩

example : Spec.Spread ![12, 5, 1] 62 ∧ Spec.Spread ![4, 5, 3] 2 := by
  refine ⟨?_, ?_⟩
  · have := Dims.mean_spread ![12, 5, 1]
    have e : (∑ i, (((![12, 5, 1] : Fin 3 → Nat) i : Int) - Dims.mean ![12, 5, 1]) ^ 2) = 62 := by decide +kernel
    rwa [e] at this
  · have := Dims.mean_spread ![4, 5, 3]
    have e : (∑ i, (((![4, 5, 3] : Fin 3 → Nat) i : Int) - Dims.mean ![4, 5, 3]) ^ 2) = 2 := by decide +kernel
    rwa [e] at this

end Ovk
