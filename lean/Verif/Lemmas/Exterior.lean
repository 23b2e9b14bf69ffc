import Verif.Props.Masks
/-! Decomposition of an index space extended by the exterior points. -/
namespace Ovk
variable {d n : Nat} {c : Cart d} {loc ext : Fin n → Rng d}

/-- Where an extended range ends, in terms of the local range. -/
theorem offers_coord (hc : Spec.Proper c) (hs : c.storage = .unique) {loc ext : Rng d}
    (hne : ∀ i, loc.b i < loc.e i) (hr : ∀ i, c.range.b i ≤ loc.b i ∧ loc.e i ≤ c.range.e i)
    (ho : Spec.Offers c loc ext) (i : Fin d) (y : Int) (hy : loc.b i - 1 ≤ y ∧ y ≤ loc.e i)
    (hex : c.periodic i = false → c.range.b i ≤ y ∧ y < c.range.e i) : ext.b i ≤ y ∧ y < ext.e i := by
  let p : Tup d := fun j => if j = i then max (loc.b i) (min y (loc.e i - 1)) else loc.b j
  let x : Tup d := fun j => if j = i then y else loc.b j
  have hp : Spec.pts loc p := by
    intro j
    have := hne j
    by_cases h : j = i
    · subst h; simp only [p, if_true]; omega
    · simp only [p, h, if_false]; omega
  have hx : ∀ j, p j - 1 ≤ x j ∧ x j ≤ p j + 1 := by
    intro j
    have := hne j
    by_cases h : j = i
    · subst h; simp only [p, x, if_true]; omega
    · simp only [p, x, h, if_false]; omega
  have := (ho p hp x hx).2 ((exists_iff hc hs x).2 fun j hj => by
    by_cases h : j = i
    · subst h; simp only [x, if_true]; exact hex hj
    · have := hr j; have := hne j
      simp only [x, h, if_false]; omega) i
  simpa only [x, if_true] using this

/-- The ranges extended by the exterior points decompose the extended index space. -/
theorem layout_exterior (h : Spec.Layout c loc ext) (hne : ∀ k i, (loc k).b i < (loc k).e i) :
    Spec.Layout (cartIncludeExterior c) (fun k => rangeIncludeExterior c (loc k))
      (fun k => rangeIncludeExterior c (ext k)) := by
  have hlt : ∀ i, c.range.b i < c.range.e i := by
    intro i; have := h.proper i; rw [periodLen_unique h.unique] at this; omega
  have hu : (cartIncludeExterior c).storage = .unique := h.unique
  have hpr : Spec.Proper (cartIncludeExterior c) := by
    intro i
    rw [periodLen_unique hu]
    have := hlt i
    simp only [cartIncludeExterior]
    split_ifs <;> omega
  have clamp : ∀ (k : Fin n) (p : Tup d), Spec.pts (cartIncludeExterior c).range p →
      (Spec.pts (rangeIncludeExterior c (loc k)) p ↔
        Spec.pts (loc k) fun i => max (c.range.b i) (min (p i) (c.range.e i - 1))) := by
    intro k p hp
    unfold Spec.pts
    refine forall_congr' fun i => ?_
    have h1 := hlt i
    have h2 := hne k i
    have h3 := h.tiles.1 k i
    have h4 := hp i
    simp only [cartIncludeExterior] at h4
    simp only [rangeIncludeExterior]
    cases hi : c.periodic i
    · simp only [hi, if_true, true_and] at h4 ⊢
      split_ifs <;> omega
    · simp only [hi, Bool.true_eq_false, if_false, false_and] at h4 ⊢; omega
  refine ⟨hpr, hu, ⟨fun k i => ?_, fun p hp => ?_⟩, fun k p hp x hx => ?_, fun k i hi => ?_⟩
  · have := h.tiles.1 k i
    have := hne k i
    simp only [cartIncludeExterior, rangeIncludeExterior]
    cases hi : c.periodic i
    · simp only [if_true, true_and]; split_ifs <;> omega
    · simp only [Bool.true_eq_false, if_false, false_and]; omega
  · obtain ⟨k, hk, huq⟩ := h.tiles.2 (fun i => max (c.range.b i) (min (p i) (c.range.e i - 1)))
      (fun i => by have := hlt i; dsimp only; omega)
    exact ⟨k, (clamp k p hp).2 hk, fun k' hk' => huq k' ((clamp k' p hp).1 hk')⟩
  · have hcoord := offers_coord h.proper h.unique (hne k) (h.tiles.1 k) (h.offers k)
    show _ ↔ Spec.Exists (cartIncludeExterior c) x
    rw [exists_iff hpr hu]
    have key : ∀ i, ((rangeIncludeExterior c (ext k)).b i ≤ x i ∧ x i < (rangeIncludeExterior c (ext k)).e i) ↔
        (c.periodic i = false → c.range.b i - 1 ≤ x i ∧ x i < c.range.e i + 1) := by
      intro i
      have h1 := hlt i
      have h2 := hne k i
      have h3 := h.tiles.1 k i
      have h4 := hp i
      have h5 := hx i
      have hc := hcoord i
      have ht := h.tight k i
      simp only [rangeIncludeExterior] at h4 ⊢
      cases hi : c.periodic i
      · simp only [hi, if_true, true_and, forall_const] at h4 hc ht ⊢
        have ca := hc ((loc k).b i - 1) (by omega)
        have cb := hc ((loc k).e i) (by omega)
        have cm := hc ((loc k).b i) (by omega)
        have ce := hc ((loc k).e i - 1) (by omega)
        split_ifs at h4 ⊢ <;> omega
      · simp only [hi, Bool.true_eq_false, if_false, false_and, false_imp_iff, iff_true] at h4 hc ⊢
        have := hc (x i) (by omega) trivial
        omega
    refine forall_congr' fun i => ?_
    rw [key i]
    simp only [cartIncludeExterior]
    cases hi : c.periodic i <;> simp
  · replace hi : c.periodic i = false := hi
    have ht := h.tight k i hi
    have := h.tiles.1 k i
    simp only [cartIncludeExterior, rangeIncludeExterior, hi, if_true, true_and]
    split_ifs <;> omega

end Ovk
