/-
Properties C03, C04, C05: periodic index spaces.
-/
import Verif.Lemmas.Cart
import Verif.Props.Range
import Mathlib.Data.Fin.VecNotation

namespace Ovk
variable {d : Nat}

namespace Spec
/-- Length of one period along a dimension: with duplicated storage the last point of a periodic
dimension is a copy of the first one. -/
def periodLen (c : Cart d) (i : Fin d) : Int :=
  if c.storage = .duplicated ∧ c.periodic i = true then c.range.e i - c.range.b i - 1
  else c.range.e i - c.range.b i

/-- Every dimension has a positive extent, and a positive period if it is periodic. -/
def Proper (c : Cart d) : Prop := ∀ i, 0 < periodLen c i

/-- Two tuples denote the same point of the (possibly periodic) index space. -/
def SamePoint (c : Cart d) (t u : Tup d) : Prop :=
  ∀ i, if c.periodic i = true then ∃ k : Int, u i = t i + k * periodLen c i else u i = t i
end Spec

theorem periodSize_eq (c : Cart d) (h : Spec.Proper c) (i : Fin d) :
    c.periodSize i = Spec.periodLen c i := by
  have := h i
  unfold Spec.periodLen at *
  unfold Cart.periodSize Rng.size
  cases hs : c.storage <;> cases hp : c.periodic i <;> simp [hs, hp] at this ⊢ <;> omega

theorem samePoint_refl (c : Cart d) (t : Tup d) : Spec.SamePoint c t t := by
  intro i; split
  · exact ⟨0, by omega⟩
  · rfl

theorem samePoint_symm {c : Cart d} {t u : Tup d} (h : Spec.SamePoint c t u) :
    Spec.SamePoint c u t := by
  intro i; have := h i; split at this <;> rename_i hp <;> simp only [hp, if_true]
  · obtain ⟨k, hk⟩ := this; exact ⟨-k, by rw [hk]; ring⟩
  · simpa using this.symm

theorem samePoint_trans {c : Cart d} {t u v : Tup d} (h : Spec.SamePoint c t u)
    (h' : Spec.SamePoint c u v) : Spec.SamePoint c t v := by
  intro i; have a := h i; have b := h' i
  split at a <;> rename_i hp <;> simp only [hp, if_true] at *
  · obtain ⟨k, hk⟩ := a; obtain ⟨l, hl⟩ := b; exact ⟨k + l, by rw [hl, hk]; ring⟩
  · simp at *; rw [b, a]

/-- C03: the adjusted tuple denotes the same point. -/
theorem C03_same_point (c : Cart d) (hc : Spec.Proper c) (t : Tup d) :
    Spec.SamePoint c t (c.periodicAdjust t) := by
  intro i
  split
  · rename_i hp
    have hs : 0 < c.periodSize i := by rw [periodSize_eq c hc]; exact hc i
    rw [c.periodicAdjust_periodic t i hp hs, periodSize_eq c hc]
    refine ⟨-((t i - c.range.b i) / Spec.periodLen c i), ?_⟩
    have := Int.emod_add_mul_ediv (t i - c.range.b i) (Spec.periodLen c i)
    linarith
  · rename_i hp
    exact c.periodicAdjust_nonperiodic t i (by simpa using hp)

/-- C03: periodic dimensions land in the first period. -/
theorem C03_first_period (c : Cart d) (hc : Spec.Proper c) (t : Tup d) (i : Fin d)
    (hp : c.periodic i = true) :
    c.range.b i ≤ c.periodicAdjust t i ∧
      c.periodicAdjust t i < c.range.b i + Spec.periodLen c i := by
  have hs : 0 < c.periodSize i := by rw [periodSize_eq c hc]; exact hc i
  rw [c.periodicAdjust_periodic t i hp hs, periodSize_eq c hc] at *
  have := Int.emod_nonneg (t i - c.range.b i) (by omega : Spec.periodLen c i ≠ 0)
  have := Int.emod_lt_of_pos (t i - c.range.b i) hs
  omega

/-- Two points of the same period that are images of each other coincide. -/
theorem image_unique {P a x k : Int} (h1 : a ≤ x) (h2 : x < a + P) (h3 : a ≤ x + k * P)
    (h4 : x + k * P < a + P) : k = 0 := by
  have hP : 0 < P := by omega
  by_contra hk
  rcases Int.lt_or_gt_of_ne hk with h | h
  · have : k * P ≤ (-1) * P := Int.mul_le_mul_of_nonneg_right (by omega) (by omega)
    omega
  · have : 1 * P ≤ k * P := Int.mul_le_mul_of_nonneg_right (by omega) (by omega)
    omega

/-- C03: two tuples have the same adjusted tuple iff they denote the same point. -/
theorem C03_canonical (c : Cart d) (hc : Spec.Proper c) (t u : Tup d) :
    c.periodicAdjust t = c.periodicAdjust u ↔ Spec.SamePoint c t u := by
  constructor
  · intro h
    have h1 := C03_same_point c hc t
    have h2 := C03_same_point c hc u
    rw [← h] at h2
    exact samePoint_trans h1 (samePoint_symm h2)
  · intro h
    have h' := samePoint_trans (samePoint_trans (samePoint_symm (C03_same_point c hc t)) h)
      (C03_same_point c hc u)
    funext i
    have hi := h' i
    by_cases hp : c.periodic i = true
    · simp only [hp, if_true] at hi
      obtain ⟨k, hk⟩ := hi
      have a := C03_first_period c hc t i hp
      have b := C03_first_period c hc u i hp
      rw [hk] at b
      have : k = 0 := image_unique a.1 a.2 b.1 b.2
      rw [hk, this]; omega
    · simp only [hp] at hi; simpa using hi.symm

/-- C03: adjusting is idempotent. -/
theorem C03_idempotent (c : Cart d) (hc : Spec.Proper c) (t : Tup d) :
    c.periodicAdjust (c.periodicAdjust t) = c.periodicAdjust t :=
  ((C03_canonical c hc _ _).2 (C03_same_point c hc t)).symm

/-- A proper two-dimensional index space, periodic with duplicated storage in the first dimension. -/
def exCart : Cart 2 := ⟨⟨![0, 0], ![10, 5]⟩, ![true, false], .duplicated⟩

example : Spec.Proper exCart := by unfold Spec.Proper Spec.periodLen exCart; decide
example : exCart.periodicAdjust ![-20, 3] = ![7, 3] := by decide

/-- C04, as stated in properties.jsonl. -/
def C04_statement : Prop :=
  ∀ (d : Nat) (c : Cart d) (r : Rng d) (t : Tup d), Spec.Proper c →
    (∀ m, c.mapTupleToRange r t = some m → Spec.pts r m ∧ Spec.SamePoint c t m) ∧
    (c.mapTupleToRange r t = none → ¬ ∃ m, Spec.pts r m ∧ Spec.SamePoint c t m)

/-- C04 is false of the code: in a non-periodic dimension a tuple left of the target range is moved
by the extent of the index space. -/
theorem C04_false : ¬ C04_statement := by
  intro h
  have := (h 1 ⟨⟨![0], ![10]⟩, ![false], .unique⟩ ⟨![5], ![8]⟩ ![-4]
    (by unfold Spec.Proper Spec.periodLen; decide)).1 ![6] (by decide)
  have := this.2 0
  simp at this

/-- C04 (partial): the claim holds whenever, in non-periodic dimensions, the tuple does not lie before
the start and the target range does not extend past the end of the index space.  Missing: arbitrary
positions in non-periodic dimensions, where the code is wrong (`C04_false`). -/
theorem C04_partial (c : Cart d) (hc : Spec.Proper c) (r : Rng d) (t : Tup d)
    (hin : ∀ i, c.periodic i = false → c.range.b i ≤ t i ∧ r.e i ≤ c.range.e i) :
    (∀ m, c.mapTupleToRange r t = some m → Spec.pts r m ∧ Spec.SamePoint c t m) ∧
    (c.mapTupleToRange r t = none → ¬ ∃ m, Spec.pts r m ∧ Spec.SamePoint c t m) := by
  have hnp : ∀ i, c.periodic i = false → c.periodSize i = c.range.e i - c.range.b i := by
    intro i hi; rw [periodSize_eq c hc]; simp [Spec.periodLen, hi]
  constructor
  · intro m hm
    simp only [Cart.mapTupleToRange] at hm
    split at hm
    · rename_i hcon
      obtain rfl : _ = m := by simpa using hm
      have hpts := (contains_iff_pts _ _).1 hcon
      refine ⟨hpts, ?_⟩
      intro i
      by_cases hp : c.periodic i = true
      · simp only [hp, if_true]
        have hs : 0 < c.periodSize i := by rw [periodSize_eq c hc]; exact hc i
        obtain ⟨k, hk⟩ := (c.mapCandidate_periodic r t i hp hs).1
        exact ⟨k, by rw [hk, periodSize_eq c hc]; ring⟩
      · simp only [hp]
        have hp' : c.periodic i = false := by simpa using hp
        have h1 := hpts i
        rw [c.mapCandidate_nonperiodic r t i hp'] at h1 ⊢
        have := hin i hp'; have := hnp i hp'
        split at h1
        · omega
        · rename_i hlt; simp [hlt]
    · simp at hm
  · intro hn
    simp only [Cart.mapTupleToRange] at hn
    split at hn
    · simp at hn
    · rename_i hcon
      rw [contains_iff_pts] at hcon
      rintro ⟨m, hm, hsame⟩
      apply hcon
      intro i
      have h1 := hm i
      have h2 := hsame i
      by_cases hp : c.periodic i = true
      · simp only [hp, if_true] at h2
        have hs : 0 < c.periodSize i := by rw [periodSize_eq c hc]; exact hc i
        obtain ⟨⟨k, hk⟩, h3, h4⟩ := c.mapCandidate_periodic r t i hp hs
        obtain ⟨l, hl⟩ := h2
        refine ⟨h3, ?_⟩
        rw [periodSize_eq c hc] at *
        by_contra hge
        have e : m i - c.mapCandidate r t i = Spec.periodLen c i * (l - k) := by rw [hk, hl]; ring
        have hlt : Spec.periodLen c i * (l - k) < Spec.periodLen c i * 0 := by omega
        have := Int.lt_of_mul_lt_mul_left hlt (by omega)
        have : Spec.periodLen c i * (l - k) ≤ Spec.periodLen c i * (-1) :=
          Int.mul_le_mul_of_nonneg_left (by omega) (by omega)
        omega
      · have hp' : c.periodic i = false := by simpa using hp
        simp only [hp'] at h2
        simp at h2
        rw [c.mapCandidate_nonperiodic r t i hp']
        split <;> omega

/-- The hypotheses of `C04_partial` are met, and the mapping is non-trivial. -/
example : (∀ i, exCart.periodic i = false → exCart.range.b i ≤ (![13, 2] : Tup 2) i ∧
    (⟨![-3, 1], ![2, 4]⟩ : Rng 2).e i ≤ exCart.range.e i) ∧
    exCart.mapTupleToRange ⟨![-6, 1], ![2, 4]⟩ ![13, 2] = some ![-5, 2] := by decide

/-- C05, as stated in properties.jsonl (for non-empty ranges). -/
def C05_statement : Prop :=
  ∀ (d : Nat) (c : Cart d) (r o : Rng d), Spec.Proper c → (∃ p, Spec.pts r p) →
    (∃ p, Spec.pts o p) → ∃ res, c.mapRangeToRange r o = .ok res ∧
      (∀ m, res = some m → Spec.SamePoint c o.b m.b ∧ (∀ i, m.e i - m.b i = o.e i - o.b i) ∧
        ∃ p, Spec.pts r p ∧ Spec.pts m p) ∧
      (res = none → ∀ nb, Spec.SamePoint c o.b nb →
        ¬ ∃ p, Spec.pts r p ∧ Spec.pts ⟨nb, fun i => nb i + (o.e i - o.b i)⟩ p)

/-- C05 is false of the code: a target range outside the first period gets an image overlapping the
*adjusted* target, not the target itself. -/
theorem C05_false : ¬ C05_statement := by
  intro h
  obtain ⟨res, h1, h2, _⟩ := h 1 ⟨⟨![0], ![10]⟩, ![true], .unique⟩ ⟨![12], ![15]⟩ ⟨![18], ![23]⟩
    (by unfold Spec.Proper Spec.periodLen; decide) ⟨![12], by unfold Spec.pts; decide⟩
    ⟨![18], by unfold Spec.pts; decide⟩
  have e : Cart.mapRangeToRange (⟨⟨![0], ![10]⟩, ![true], .unique⟩ : Cart 1) ⟨![12], ![15]⟩
    ⟨![18], ![23]⟩ = .ok (some ⟨![-2], ![3]⟩) := by decide
  rw [e] at h1
  obtain ⟨p, hp, hq⟩ := (h2 ⟨![-2], ![3]⟩ (by simpa using h1.symm)).2.2
  have := hp 0; have := hq 0; simp at *; omega

/-- C05: the code can also dereference an empty optional (undefined behaviour), here for two ranges
beyond the end of a non-periodic index space. -/
theorem C05_undefined : ∃ (c : Cart 1) (r o : Rng 1), Spec.Proper c ∧ (∃ p, Spec.pts r p) ∧
    (∃ p, Spec.pts o p) ∧ c.mapRangeToRange r o = .undef :=
  ⟨⟨⟨![0], ![10]⟩, ![false], .unique⟩, ⟨![20], ![21]⟩, ⟨![30], ![31]⟩,
    by unfold Spec.Proper Spec.periodLen; decide, ⟨![20], by unfold Spec.pts; decide⟩,
    ⟨![30], by unfold Spec.pts; decide⟩, by decide⟩

/-- C05 (partial): the claim holds when the target range lies inside the first period and the other
range is no longer than a period; in non-periodic dimensions both must lie inside the index space.
Missing: target ranges reaching outside the first period (`C05_false`). -/
theorem C05_partial (c : Cart d) (hc : Spec.Proper c) (r o : Rng d)
    (hr : ∃ p, Spec.pts r p) (ho : ∃ p, Spec.pts o p)
    (hrin : ∀ i, c.range.b i ≤ r.b i ∧ r.e i ≤ c.range.b i + Spec.periodLen c i)
    (hop : ∀ i, c.periodic i = true → o.e i - o.b i ≤ Spec.periodLen c i)
    (hon : ∀ i, c.periodic i = false → c.range.b i ≤ o.b i ∧ o.e i ≤ c.range.e i) :
    ∃ res, c.mapRangeToRange r o = .ok res ∧
      (∀ m, res = some m → Spec.SamePoint c o.b m.b ∧ (∀ i, m.e i - m.b i = o.e i - o.b i) ∧
        ∃ p, Spec.pts r p ∧ Spec.pts m p) ∧
      (res = none → ∀ nb, Spec.SamePoint c o.b nb →
        ¬ ∃ p, Spec.pts r p ∧ Spec.pts ⟨nb, fun i => nb i + (o.e i - o.b i)⟩ p) := by
  have hr' := (exists_pts_iff r).1 hr
  have ho' := (exists_pts_iff o).1 ho
  have hlen : ∀ i, c.periodic i = false → Spec.periodLen c i = c.range.e i - c.range.b i := by
    intro i hi; simp [Spec.periodLen, hi]
  have hle : ∀ i, Spec.periodLen c i ≤ c.range.e i - c.range.b i := by
    intro i; unfold Spec.periodLen; split <;> omega
  -- shape of a successful single-tuple mapping
  have hsize : ∀ i, o.size i = o.e i - o.b i := by intro i; have := ho' i; unfold Rng.size; omega
  have hsizer : ∀ i, r.size i = r.e i - r.b i := by intro i; have := hr' i; unfold Rng.size; omega
  unfold Cart.mapRangeToRange
  split
  · rename_i hov
    refine ⟨some o, rfl, ?_, by simp⟩
    intro m hm
    obtain rfl : o = m := by simpa using hm
    exact ⟨samePoint_refl _ _, fun _ => rfl, (C02_overlap _ _).1 hov⟩
  · have p1 := C04_partial c hc r o.b (fun i hi => ⟨(hon i hi).1, by
      have := hrin i; have := hlen i hi; omega⟩)
    split
    · rename_i nb hnb
      refine ⟨_, rfl, ?_, by simp⟩
      intro m hm
      obtain rfl : Cart.rebase o nb = m := by simpa using hm
      have := p1.1 nb hnb
      refine ⟨this.2, fun i => by simp only [Cart.rebase, hsize]; omega, nb, this.1, ?_⟩
      intro i; simp only [Cart.rebase, hsize]; have := ho' i; omega
    · rename_i hnone
      have q1 := C04_partial c hc c.range r.b (fun i hi => ⟨(hrin i).1, by omega⟩)
      have q2 := C04_partial c hc c.range o.b (fun i hi => ⟨(hon i hi).1, by omega⟩)
      -- the range's own lower corner is already in the first period
      have e1 : c.mapTupleToRange c.range r.b = some r.b := by
        cases hm : c.mapTupleToRange c.range r.b with
        | none =>
          exact absurd ⟨r.b, fun i => ⟨(hrin i).1, by
            have := hrin i; have := hr' i; have := hle i; omega⟩, samePoint_refl _ _⟩ (q1.2 hm)
        | some m =>
          have := q1.1 m hm
          congr 1
          funext i
          have h2 := this.2 i
          by_cases hp : c.periodic i = true
          · simp only [hp, if_true] at h2
            obtain ⟨k, hk⟩ := h2
            have hs : 0 < c.periodSize i := by rw [periodSize_eq c hc]; exact hc i
            have h3 := c.mapCandidate_periodic c.range r.b i hp hs
            have : m = c.mapCandidate c.range r.b := by
              simp only [Cart.mapTupleToRange] at hm; split at hm <;> simp_all
            rw [← this, periodSize_eq c hc] at h3
            have a := hrin i; have b := hr' i
            have : k = 0 := image_unique (a := c.range.b i) (P := Spec.periodLen c i) a.1 (by omega)
              (by rw [← hk]; exact h3.2.1) (by rw [← hk]; exact h3.2.2)
            rw [hk, this]; omega
          · simp only [hp] at h2; simpa using h2
      obtain ⟨ob, e2⟩ : ∃ ob, c.mapTupleToRange c.range o.b = some ob := by
        cases hm : c.mapTupleToRange c.range o.b with
        | none =>
          refine absurd ⟨c.periodicAdjust o.b, ?_, C03_same_point c hc o.b⟩ (q2.2 hm)
          intro i
          by_cases hp : c.periodic i = true
          · have := C03_first_period c hc o.b i hp; have := hle i; omega
          · have hp' : c.periodic i = false := by simpa using hp
            rw [c.periodicAdjust_nonperiodic _ _ hp']
            have := hon i hp'; have := ho' i; omega
        | some m => exact ⟨m, rfl⟩
      rw [e1, e2]
      have hob := q2.1 ob e2
      have hob2 : ∀ i, c.periodic i = true → c.range.b i ≤ ob i ∧
          ob i < c.range.b i + Spec.periodLen c i := by
        intro i hp
        have hs : 0 < c.periodSize i := by rw [periodSize_eq c hc]; exact hc i
        have h3 := c.mapCandidate_periodic c.range o.b i hp hs
        have : ob = c.mapCandidate c.range o.b := by
          simp only [Cart.mapTupleToRange] at e2; split at e2 <;> simp_all
        rw [← this, periodSize_eq c hc] at h3
        exact h3.2
      have hob3 : ∀ i, c.periodic i = false → ob i = o.b i := by
        intro i hp; have := hob.2 i; simpa [hp] using this
      have hadj : Cart.rebase r r.b = r := by
        have : ∀ i, r.b i + r.size i = r.e i := by intro i; rw [hsizer]; omega
        cases r; simp only [Cart.rebase] at *; congr 1; funext i; exact this i
      simp only [hadj]
      set P := fun k => rangesOverlap r (c.shift (Cart.rebase o ob) k) with hP
      have hf := foldl_last P (fun k => c.shift (Cart.rebase o ob) k) (periodSearch d) none
      refine ⟨_, rfl, ?_, ?_⟩
      · intro m hm
        rcases hf.1 m hm with h | ⟨k, hk, hov, rfl⟩
        · simp at h
        · have hk' := (mem_periodSearch k).1 hk
          have hov' := (C02_overlap _ _).1 hov
          refine ⟨?_, fun i => by simp only [Cart.shift, Cart.rebase, hsize]; omega, hov'⟩
          refine samePoint_trans hob.2 ?_
          intro i
          by_cases hp : c.periodic i = true
          · simp only [hp, if_true]
            exact ⟨k i, by simp only [Cart.shift, Cart.rebase, periodSize_eq c hc]; ring⟩
          · simp only [hp]
            have hp' : c.periodic i = false := by simpa using hp
            obtain ⟨p, hp1, hp2⟩ := hov'
            have a1 := hp1 i; have a2 := hp2 i
            simp only [Cart.shift, Cart.rebase, hsize, periodSize_eq c hc, hob3 i hp'] at a2 ⊢
            have := hlen i hp'; have := hon i hp'; have := hrin i
            rcases hk' i with h | h
            · rw [h] at a2; omega
            · rw [h]; simp
      · intro hn
        have hall := (hf.2 hn).2
        rintro nb hnb ⟨p, hp1, hp2⟩
        -- choose the period vector that realises `nb`
        have hs := samePoint_trans (samePoint_symm hob.2) hnb
        have hex : ∀ i, ∃ k : Int, nb i = ob i + k * Spec.periodLen c i ∧ (k = -1 ∨ k = 0) := by
          intro i
          have h1 := hs i
          by_cases hp : c.periodic i = true
          · simp only [hp, if_true] at h1
            obtain ⟨k, hk⟩ := h1
            refine ⟨k, hk, ?_⟩
            have := hob2 i hp; have a1 := hp1 i; have a2 := hp2 i; have := hop i hp
            have := hrin i
            simp only [hk] at a2
            have hpos := hc i
            by_contra hne
            have : k ≤ -2 ∨ 1 ≤ k := by omega
            rcases this with h | h
            · have : k * Spec.periodLen c i ≤ (-2) * Spec.periodLen c i :=
                Int.mul_le_mul_of_nonneg_right h (by omega)
              omega
            · have : 1 * Spec.periodLen c i ≤ k * Spec.periodLen c i :=
                Int.mul_le_mul_of_nonneg_right h (by omega)
              omega
          · simp only [hp] at h1
            exact ⟨0, by simpa using h1, by omega⟩
        choose k hk using hex
        have hno := hall k ((mem_periodSearch k).2 (fun i => (hk i).2))
        have hyes : P k = true := by
          rw [hP]; simp only; rw [C02_overlap]
          refine ⟨p, hp1, ?_⟩
          intro i
          have := hp2 i
          simp only [Cart.shift, Cart.rebase, hsize, periodSize_eq c hc]
          have e := (hk i).1
          have : Spec.periodLen c i * k i = k i * Spec.periodLen c i := Int.mul_comm _ _
          simp only at *; omega
        rw [hyes] at hno; simp at hno

/-- The hypotheses of `C05_partial` are met by a case that exercises the period search: the end of the
other range wraps around into the target range. -/
example : exCart.mapRangeToRange ⟨![0, 1], ![2, 4]⟩ ⟨![7, 2], ![10, 5]⟩ =
    .ok (some ⟨![-2, 2], ![1, 5]⟩) ∧
    (∀ i, exCart.range.b i ≤ (![0, 1] : Tup 2) i ∧
      (![2, 4] : Tup 2) i ≤ exCart.range.b i + Spec.periodLen exCart i) ∧
    (∀ i, exCart.periodic i = true →
      (![10, 5] : Tup 2) i - (![7, 2] : Tup 2) i ≤ Spec.periodLen exCart i) ∧
    (∀ i, exCart.periodic i = false → exCart.range.b i ≤ (![7, 2] : Tup 2) i ∧
      (![10, 5] : Tup 2) i ≤ exCart.range.e i) := by
  unfold Spec.periodLen; decide

end Ovk
