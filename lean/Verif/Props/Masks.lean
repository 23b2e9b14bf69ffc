/-
Property C17: edges, dilation and erosion of masks.  C50: counting.
-/
import Verif.Model.Masks
import Verif.Props.Components

namespace Ovk
variable {d : Nat}

namespace Spec
/-- The tuple denotes a point of the index space. -/
def Exists (c : Cart d) (x : Tup d) : Prop := ∃ q, pts c.range q ∧ SamePoint c x q

/-- Coordinates differ by at most `n`. -/
def Near (n : Nat) (p x : Tup d) : Prop := ∀ i, p i - n ≤ x i ∧ x i ≤ p i + n

/-- `y` is the closest tuple to `x` that denotes a point. -/
def Closest (c : Cart d) (x y : Tup d) : Prop := ∀ i,
  if c.periodic i = true then y i = x i
  else (x i < c.range.b i ∧ y i = c.range.b i) ∨ (c.range.e i - 1 < x i ∧ y i = c.range.e i - 1) ∨
    (c.range.b i ≤ x i ∧ x i ≤ c.range.e i - 1 ∧ y i = x i)

/-- The value of a mask at a tuple, using the boundary condition where no point exists. -/
def Reads (c : Cart d) (bc : MaskBC) (mask : Tup d → Bool) (x : Tup d) (v : Bool) : Prop :=
  (∃ q, pts c.range q ∧ SamePoint c x q ∧ mask q = v) ∨
  (¬ Exists c x ∧ match bc with
    | .true => v = true
    | .false => v = false
    | .mirror => ∃ y q, Closest c x y ∧ pts c.range q ∧ SamePoint c y q ∧ mask q = v)

/-- An extended range does not extend past a non-periodic end the local range touches. -/
def Tight (c : Cart d) (loc ext : Rng d) : Prop :=
  ∀ i, c.periodic i = false → (loc.b i = c.range.b i → ext.b i = c.range.b i) ∧
    (loc.e i = c.range.e i → ext.e i = c.range.e i)

/-- The ranges of the processes are a tiling with sufficient extended ranges. -/
structure Layout {n : Nat} (c : Cart d) (loc ext : Fin n → Rng d) : Prop where
  proper : Proper c
  unique : c.storage = .unique
  tiles : Tiles c loc
  offers : ∀ k, Offers c (loc k) (ext k)
  tight : ∀ k, Tight c (loc k) (ext k)
end Spec

/-- Ranges of all processes, in rank order. -/
def rangesOf {n : Nat} (loc ext : Fin n → Rng d) : List (Rng d × Rng d) :=
  (List.finRange n).map fun k => (loc k, ext k)

section
variable {c : Cart d}

theorem periodLen_unique (hs : c.storage = .unique) (i : Fin d) :
    Spec.periodLen c i = c.range.e i - c.range.b i := by simp [Spec.periodLen, hs]

theorem exists_iff (hc : Spec.Proper c) (hs : c.storage = .unique) (x : Tup d) :
    Spec.Exists c x ↔ ∀ i, c.periodic i = false → c.range.b i ≤ x i ∧ x i < c.range.e i := by
  constructor
  · rintro ⟨q, hq, h⟩ i hi
    have h1 := h i
    simp [hi] at h1
    rw [← h1]; exact hq i
  · intro h
    refine ⟨c.periodicAdjust x, fun i => ?_, C03_same_point c hc x⟩
    by_cases hp : c.periodic i = true
    · have := C03_first_period c hc x i hp
      rw [periodLen_unique hs] at this; omega
    · have hp : c.periodic i = false := by simpa using hp
      rw [c.periodicAdjust_nonperiodic x i hp]; exact h i hp

theorem exists_of_pts {q : Tup d} (h : Spec.pts c.range q) : Spec.Exists c q := ⟨q, h, samePoint_refl c q⟩

theorem reads_fn (hc : Spec.Proper c) (hs : c.storage = .unique) {bc : MaskBC} {mask : Tup d → Bool}
    {x : Tup d} {v w : Bool} (h1 : Spec.Reads c bc mask x v) (h2 : Spec.Reads c bc mask x w) : v = w := by
  have key : ∀ {y q q' : Tup d}, Spec.pts c.range q → Spec.SamePoint c y q → Spec.pts c.range q' →
      Spec.SamePoint c y q' → q = q' := fun hq h hq' h' =>
    (canonical_in_range hc hs hq h).symm.trans (canonical_in_range hc hs hq' h')
  rcases h1 with ⟨q, hq, hx, rfl⟩ | ⟨hn, h1⟩ <;> rcases h2 with ⟨q', hq', hx', rfl⟩ | ⟨hn', h2⟩
  · rw [key hq hx hq' hx']
  · exact absurd ⟨q, hq, hx⟩ hn'
  · exact absurd ⟨q', hq', hx'⟩ hn
  · cases bc with
    | true => exact h1.trans h2.symm
    | false => exact h1.trans h2.symm
    | mirror =>
      obtain ⟨y, q, hy, hq, hyq, rfl⟩ := h1
      obtain ⟨y', q', hy', hq', hyq', rfl⟩ := h2
      have : y = y' := by
        funext i
        have a := hy i; have b := hy' i
        split at a <;> rename_i hp <;> simp only [hp, if_true] at b
        · rw [a, b]
        · simp at b
          have := hc i
          rw [periodLen_unique hs] at this
          omega
      subst this
      rw [key hq hyq hq' hyq']

/-- What an extended range has to provide around the points of `L` whose edge flags are computed. -/
def Around (c : Cart d) (L ext : Rng d) : Prop :=
  ∀ p, Spec.pts L p →
    (∀ i, c.range.b i - 1 ≤ p i ∧ p i ≤ c.range.e i) ∧
    (∀ i, c.periodic i = true → c.range.b i ≤ p i ∧ p i < c.range.e i) ∧
    ∀ x, Spec.Near 1 p x → (Spec.pts ext x ↔ Spec.Exists c x)

theorem around_local {loc ext : Rng d}
    (hr : ∀ i, c.range.b i ≤ loc.b i ∧ loc.e i ≤ c.range.e i) (ho : Spec.Offers c loc ext) :
    Around c loc ext := by
  intro p hp
  refine ⟨fun i => ?_, fun i _ => ?_, fun x hx => ho p hp x (fun i => by simpa using hx i)⟩
  · have := hp i; have := hr i; omega
  · have := hp i; have := hr i; omega

theorem around_exterior (hc : Spec.Proper c) (hs : c.storage = .unique) {loc ext : Rng d}
    (hne : ∀ i, loc.b i < loc.e i)
    (hr : ∀ i, c.range.b i ≤ loc.b i ∧ loc.e i ≤ c.range.e i) (ho : Spec.Offers c loc ext)
    (ht : Spec.Tight c loc ext) : Around c (rangeIncludeExterior c loc) ext := by
  intro p hp
  have hp' : ∀ i, (c.periodic i = true → loc.b i ≤ p i ∧ p i < loc.e i) ∧
      (c.periodic i = false → (loc.b i ≤ p i ∨ (loc.b i = c.range.b i ∧ p i = loc.b i - 1)) ∧
        (p i < loc.e i ∨ (loc.e i = c.range.e i ∧ p i = loc.e i))) := by
    intro i
    have := hp i
    simp only [rangeIncludeExterior] at this
    refine ⟨fun h => ?_, fun h => ?_⟩
    · simp only [h] at this; simpa using this
    · simp only [h, true_and] at this
      split_ifs at this with h1 h2 h2
      · constructor
        · by_cases h : loc.b i ≤ p i
          · exact .inl h
          · exact .inr ⟨h1, by omega⟩
        · by_cases h : p i < loc.e i
          · exact .inl h
          · exact .inr ⟨h2, by omega⟩
      · constructor
        · by_cases h : loc.b i ≤ p i
          · exact .inl h
          · exact .inr ⟨h1, by omega⟩
        · exact .inl this.2
      · constructor
        · exact .inl this.1
        · by_cases h : p i < loc.e i
          · exact .inl h
          · exact .inr ⟨h2, by omega⟩
      · exact ⟨.inl this.1, .inl this.2⟩
  refine ⟨fun i => ?_, fun i hi => ?_, fun x hx => ?_⟩
  · have h1 := hp' i; have h2 := hr i
    cases hi : c.periodic i
    · have := h1.2 hi; omega
    · have := h1.1 hi; omega
  · have := (hp' i).1 hi; have := hr i; omega
  · -- clamp the exterior point into the local range
    let p' : Tup d := fun i => max (loc.b i) (min (p i) (loc.e i - 1))
    have hloc : Spec.pts loc p' := by intro i; have := hne i; simp only [p']; omega
    have main : (∀ i, c.periodic i = false → c.range.b i ≤ x i ∧ x i < c.range.e i) →
        ∀ i, p' i - 1 ≤ x i ∧ x i ≤ p' i + 1 := by
      intro hex i
      have h1 := hp' i
      have h2 := hx i
      have h3 := hne i
      have h4 := hr i
      simp only [p']
      cases hi : c.periodic i
      · have := h1.2 hi; have := hex i hi; omega
      · have := h1.1 hi; omega
    constructor
    · intro hxe
      have hin : ∀ i, p' i - 1 ≤ x i ∧ x i ≤ p' i + 1 := by
        intro i
        have h1 := hp' i
        have h2 := hx i
        have h3 := hne i
        have h5 := hxe i
        simp only [p']
        cases hi : c.periodic i
        · have := h1.2 hi
          have t1 := (ht i hi).1
          have t2 := (ht i hi).2
          have u1 := hr i
          by_cases e1 : loc.b i = c.range.b i <;> by_cases e2 : loc.e i = c.range.e i
          · have := t1 e1; have := t2 e2; omega
          · have := t1 e1; omega
          · have := t2 e2; omega
          · omega
        · have := h1.1 hi; omega
      obtain ⟨q, hq, hxq⟩ := (ho p' hloc x hin).1 hxe
      exact ⟨q, hq, hxq⟩
    · intro hex
      obtain ⟨q, hq, hxq⟩ := hex
      exact (ho p' hloc x (main ((exists_iff hc hs x).1 ⟨q, hq, hxq⟩))).2 ⟨q, hq, hxq⟩

theorem mirror_eq (x : Tup d) (i : Fin d) (h : c.range.b i < c.range.e i) :
    mirrorPoint c x i = max (c.range.b i) (min (x i) (c.range.e i - 1)) := by
  unfold mirrorPoint; omega

/-- What the code reads near a point of `L`. -/
theorem getMaskValue_spec (hc : Spec.Proper c) (hs : c.storage = .unique) {L ext : Rng d}
    (ha : Around c L ext) {p : Tup d} (hp : Spec.pts L p) {x : Tup d} (hx : Spec.Near 1 p x)
    (bc : MaskBC) (mask : Tup d → Bool) :
    (∀ q, Spec.pts c.range q → Spec.SamePoint c x q → getMaskValue c ext bc mask x = some (mask q)) ∧
    (¬ Spec.Exists c x → getMaskValue c ext bc mask x = match bc with
      | .true => some true
      | .false => some false
      | .mirror => some (mask (mirrorPoint c x))) ∧
    Spec.pts c.range (mirrorPoint c x) ∧ Spec.Near 1 p (mirrorPoint c x) := by
  obtain ⟨hb, -, hext⟩ := ha p hp
  have hlt : ∀ i, c.range.b i < c.range.e i := by
    intro i; have := hc i; rw [periodLen_unique hs] at this; omega
  have hm : Spec.pts c.range (mirrorPoint c x) := by
    intro i; rw [mirror_eq x i (hlt i)]; have := hlt i; omega
  have hmn : Spec.Near 1 p (mirrorPoint c x) := by
    intro i; rw [mirror_eq x i (hlt i)]; have := hlt i; have := hb i; have := hx i; omega
  refine ⟨?_, ?_, hm, hmn⟩
  · intro q hq hxq
    have h1 : ext.contains x = true := (contains_iff_pts _ _).2 ((hext x hx).2 ⟨q, hq, hxq⟩)
    simp [getMaskValue, readMask, h1, canonical_in_range hc hs hq hxq]
  · intro hn
    have h1 : ext.contains x = false := by
      rw [← Bool.not_eq_true, contains_iff_pts, hext x hx]; exact hn
    have h2 : ext.contains (mirrorPoint c x) = true :=
      (contains_iff_pts _ _).2 ((hext _ hmn).2 (exists_of_pts hm))
    cases bc <;> simp [getMaskValue, readMask, h1, h2,
      canonical_in_range hc hs hm (samePoint_refl c _)]

theorem closest_exists (hc : Spec.Proper c) (hs : c.storage = .unique) {x y : Tup d}
    (h : Spec.Closest c x y) : Spec.Exists c y := by
  rw [exists_iff hc hs]
  intro i hi
  have := h i
  simp [hi] at this
  have := hc i
  rw [periodLen_unique hs] at this
  omega

theorem closest_near {x y p : Tup d} {n : Nat} (h : Spec.Closest c x y)
    (hp : ∀ i, c.range.b i - n ≤ p i ∧ p i ≤ c.range.e i - 1 + n) (hx : Spec.Near n p x) :
    Spec.Near n p y := by
  intro i
  have h1 := h i
  have h2 := hx i
  have h3 := hp i
  split at h1
  · omega
  · omega

theorem closest_of (c : Cart d) (x : Tup d) : ∃ y, Spec.Closest c x y := by
  refine ⟨fun i => if c.periodic i = true then x i else if x i < c.range.b i then c.range.b i else
    if c.range.e i - 1 < x i then c.range.e i - 1 else x i, fun i => ?_⟩
  dsimp only
  split_ifs <;> simp_all

/-- The loop body computes the edge flag. -/
theorem edgeAt_spec (hc : Spec.Proper c) (hs : c.storage = .unique) {L ext : Rng d}
    (ha : Around c L ext) {p : Tup d} (hp : Spec.pts L p) (bc : MaskBC) (inner : Bool)
    (mask : Tup d → Bool) :
    ∃ e, edgeAt c ext bc inner mask p = some e ∧ (e = true ↔ Spec.Reads c bc mask p inner ∧
      ∃ x, Spec.Near 1 p x ∧ Spec.Reads c bc mask x (!inner)) := by
  obtain ⟨hb, hper, hext⟩ := ha p hp
  have hlt : ∀ i, c.range.b i < c.range.e i := by
    intro i; have := hc i; rw [periodLen_unique hs] at this; omega
  have hpp : Spec.Near 1 p p := fun i => by omega
  -- value at the point itself
  have hself : ∃ v, getMaskValue c ext bc mask p = some v ∧ Spec.Reads c bc mask p v := by
    by_cases hex : Spec.Exists c p
    · obtain ⟨q, hq, hpq⟩ := hex
      exact ⟨_, (getMaskValue_spec hc hs ha hp hpp bc mask).1 q hq hpq, .inl ⟨q, hq, hpq, rfl⟩⟩
    · have h := (getMaskValue_spec hc hs ha hp hpp bc mask).2
      refine ⟨match bc with | .true => true | .false => false | .mirror => mask (mirrorPoint c p),
        ?_, .inr ⟨hex, ?_⟩⟩
      · rw [h.1 hex]; cases bc <;> rfl
      · cases bc with
        | true => rfl
        | false => rfl
        | mirror =>
          refine ⟨mirrorPoint c p, mirrorPoint c p, fun i => ?_, h.2.1, samePoint_refl c _, rfl⟩
          rw [mirror_eq p i (hlt i)]
          have := hlt i
          split
          · rename_i hi; have := hper i hi; omega
          · omega
  -- all neighbours can be read
  have hall : ∀ x, Spec.Near 1 p x → ∃ v, getMaskValue c ext bc mask x = some v := by
    intro x hx
    have h := getMaskValue_spec hc hs ha hp hx bc mask
    by_cases hex : Spec.Exists c x
    · obtain ⟨q, hq, hxq⟩ := hex; exact ⟨_, h.1 q hq hxq⟩
    · rw [h.2.1 hex]; cases bc <;> exact ⟨_, rfl⟩
  have hval : ∀ v, (∃ x, Spec.Near 1 p x ∧ getMaskValue c ext bc mask x = some v) ↔
      ∃ x, Spec.Near 1 p x ∧ Spec.Reads c bc mask x v := by
    intro v
    constructor
    · rintro ⟨x, hx, hv⟩
      have h := getMaskValue_spec hc hs ha hp hx bc mask
      by_cases hex : Spec.Exists c x
      · obtain ⟨q, hq, hxq⟩ := hex
        rw [h.1 q hq hxq] at hv
        exact ⟨x, hx, .inl ⟨q, hq, hxq, by simpa using hv⟩⟩
      · rw [h.2.1 hex] at hv
        cases bc with
        | true => exact ⟨x, hx, .inr ⟨hex, by simpa using hv.symm⟩⟩
        | false => exact ⟨x, hx, .inr ⟨hex, by simpa using hv.symm⟩⟩
        | mirror =>
          exact ⟨mirrorPoint c x, h.2.2.2, .inl ⟨_, h.2.2.1, samePoint_refl c _, by simpa using hv⟩⟩
    · rintro ⟨x, hx, hv⟩
      have h := getMaskValue_spec hc hs ha hp hx bc mask
      rcases hv with ⟨q, hq, hxq, rfl⟩ | ⟨hex, hv⟩
      · exact ⟨x, hx, h.1 q hq hxq⟩
      · cases bc with
        | true => exact ⟨x, hx, by rw [h.2.1 hex, hv]⟩
        | false => exact ⟨x, hx, by rw [h.2.1 hex, hv]⟩
        | mirror =>
          obtain ⟨y, q, hy, hq, hyq, rfl⟩ := hv
          have hyn : Spec.Near 1 p y := closest_near hy (fun i => by have := hb i; omega) hx
          exact ⟨y, hyn, (getMaskValue_spec hc hs ha hp hyn .mirror mask).1 q hq hyq⟩
  obtain ⟨v, hv, hr⟩ := hself
  have hbox : ∀ x, x ∈ (Rng.points (d := d) ⟨fun i => p i - 1, fun i => p i + 2⟩) ↔ Spec.Near 1 p x := by
    intro x; rw [Rng.mem_points]
    constructor <;> intro h i <;> have := h i <;> dsimp only at * <;> omega
  have hmap := CC.mapM_some (getMaskValue c ext bc mask)
    (fun x => (getMaskValue c ext bc mask x).getD false)
    (Rng.points (d := d) ⟨fun i => p i - 1, fun i => p i + 2⟩) (by
      intro x hx
      obtain ⟨w, hw⟩ := hall x ((hbox x).1 hx)
      rw [hw]; rfl)
  unfold edgeAt
  simp only [hv, Option.bind_eq_bind, Option.bind_some, hmap]
  by_cases hvi : v = inner
  · subst hvi
    refine ⟨_, by rw [if_pos rfl], ?_⟩
    rw [← hval (!v)]
    simp only [hr, true_and, List.any_map, List.any_eq_true, Function.comp, hbox]
    constructor
    · rintro ⟨x, hx, hne⟩
      obtain ⟨w, hw⟩ := hall x hx
      refine ⟨x, hx, ?_⟩
      rw [hw] at hne ⊢
      cases v <;> cases w <;> simp_all
    · rintro ⟨x, hx, hw⟩
      refine ⟨x, hx, ?_⟩
      rw [hw]; cases v <;> rfl
  · refine ⟨false, by rw [if_neg hvi], ?_⟩
    simp only [Bool.false_eq_true, false_iff, not_and]
    intro h; exact absurd (reads_fn hc hs hr h) hvi

theorem detectEdge_spec (hc : Spec.Proper c) (hs : c.storage = .unique) (bc : MaskBC)
    (inner exterior : Bool) (mask : Tup d → Bool) : ∀ (ranges : List (Rng d × Rng d)),
    (∀ r ∈ ranges, Around c (edgeLocalRange c exterior r.1) r.2) →
    ∃ edge, detectEdge c bc inner exterior mask ranges = some edge ∧
      ∀ p, (∃ r ∈ ranges, Spec.pts (edgeLocalRange c exterior r.1) p) →
        (edge p = true ↔ Spec.Reads c bc mask p inner ∧
          ∃ x, Spec.Near 1 p x ∧ Spec.Reads c bc mask x (!inner)) := by
  intro ranges
  induction ranges with
  | nil => intro _; exact ⟨_, rfl, by simp⟩
  | cons r ranges ih =>
    intro ha
    obtain ⟨loc, ext⟩ := r
    have ha0 := ha (loc, ext) (by simp)
    obtain ⟨edge, he, hedge⟩ := ih (fun r hr => ha r (by simp [hr]))
    have hmap := CC.mapM_some (edgeAt c ext bc inner mask)
      (fun p => (edgeAt c ext bc inner mask p).getD false) (edgeLocalRange c exterior loc).points (by
        intro p hp
        obtain ⟨e, he, -⟩ := edgeAt_spec hc hs ha0 ((Rng.mem_points _ _).1 hp) bc inner mask
        rw [he]; rfl)
    refine ⟨fun p => if (edgeLocalRange c exterior loc).contains p then
        (edgeAt c ext bc inner mask p).getD false else edge p,
      by simp only [detectEdge, hmap, he, Option.bind_eq_bind, Option.bind_some], ?_⟩
    intro p hp
    dsimp only
    by_cases hin : Spec.pts (edgeLocalRange c exterior loc) p
    · rw [if_pos ((contains_iff_pts _ _).2 hin)]
      obtain ⟨e, he, hiff⟩ := edgeAt_spec hc hs ha0 hin bc inner mask
      rw [he]; exact hiff
    · rw [if_neg (by rw [contains_iff_pts]; exact hin)]
      refine hedge p ?_
      obtain ⟨r, hr, h⟩ := hp
      rcases List.mem_cons.1 hr with rfl | hr
      · exact absurd h hin
      · exact ⟨r, hr, h⟩

end

section
variable {n : Nat} {c : Cart d} {loc ext : Fin n → Rng d}

theorem mem_rangesOf (r : Rng d × Rng d) : r ∈ rangesOf loc ext ↔ ∃ k, r = (loc k, ext k) := by
  simp [rangesOf, eq_comm]

/-- C17, edges: a point is on the inner (outer) edge iff its value is true (false) and some neighbour has
the other value, where tuples that denote no point take the value of the boundary condition (for `MIRROR`
that of the closest point).  The points considered include, if requested, those one step beyond
non-periodic ends. -/
theorem C17_edge (h : Spec.Layout c loc ext) (hne : ∀ k i, (loc k).b i < (loc k).e i)
    (bc : MaskBC) (inner exterior : Bool) (mask : Tup d → Bool) :
    ∃ edge, detectEdge c bc inner exterior mask (rangesOf loc ext) = some edge ∧
      ∀ p, (if exterior then Spec.pts (cartIncludeExterior c).range p else Spec.pts c.range p) →
        (∃ k, Spec.pts (edgeLocalRange c exterior (loc k)) p) ∧
        (edge p = true ↔ Spec.Reads c bc mask p inner ∧
          ∃ x, Spec.Near 1 p x ∧ Spec.Reads c bc mask x (!inner)) := by
  have ha : ∀ r ∈ rangesOf loc ext, Around c (edgeLocalRange c exterior r.1) r.2 := by
    intro r hr
    obtain ⟨k, rfl⟩ := (mem_rangesOf r).1 hr
    cases exterior
    · exact around_local (h.tiles.1 k) (h.offers k)
    · exact around_exterior h.proper h.unique (hne k) (h.tiles.1 k) (h.offers k) (h.tight k)
  obtain ⟨edge, he, hedge⟩ := detectEdge_spec h.proper h.unique bc inner exterior mask _ ha
  refine ⟨edge, he, fun p hp => ?_⟩
  have hk : ∃ k, Spec.pts (edgeLocalRange c exterior (loc k)) p := by
    cases exterior
    · obtain ⟨k, hk, -⟩ := h.tiles.2 p (by simpa using hp)
      exact ⟨k, hk⟩
    · have hp : Spec.pts (cartIncludeExterior c).range p := by simpa using hp
      have hlt : ∀ i, c.range.b i < c.range.e i := by
        intro i; have := h.proper i; rw [periodLen_unique h.unique] at this; omega
      -- the closest point of the index space
      let q : Tup d := fun i => max (c.range.b i) (min (p i) (c.range.e i - 1))
      obtain ⟨k, hk, -⟩ := h.tiles.2 q (fun i => by have := hlt i; simp only [q]; omega)
      refine ⟨k, fun i => ?_⟩
      have h1 := hk i
      have h2 := hp i
      have h3 := hlt i
      have h4 := h.tiles.1 k i
      simp only [q] at h1
      simp only [edgeLocalRange, if_true, rangeIncludeExterior]
      simp only [cartIncludeExterior] at h2
      cases hi : c.periodic i
      · simp only [hi, if_true, true_and] at h2 ⊢
        split_ifs <;> omega
      · simp only [hi, Bool.true_eq_false, if_false, false_and] at h2 ⊢; omega
  refine ⟨hk, hedge p ?_⟩
  obtain ⟨k, hk⟩ := hk
  exact ⟨_, (mem_rangesOf _).2 ⟨k, rfl⟩, hk⟩

namespace Spec
/-- The tuple denotes a set point, or lies outside where the boundary condition says `true`. -/
def Set (c : Cart d) (bc : MaskBC) (mask : Tup d → Bool) (x : Tup d) : Prop :=
  (∃ q, pts c.range q ∧ SamePoint c x q ∧ mask q = true) ∨ (bc = .true ∧ ¬ Exists c x)
end Spec

theorem samePoint_shift {x q y : Tup d} (h : Spec.SamePoint c x q) :
    Spec.SamePoint c (fun i => y i + (q i - x i)) y := by
  intro i
  have := h i
  split <;> rename_i hp <;> simp only [hp, if_true] at this
  · obtain ⟨k, hk⟩ := this; exact ⟨-k, by dsimp only; rw [hk]; ring⟩
  · simp at this; dsimp only; rw [this]; omega

theorem set_same {bc : MaskBC} {mask : Tup d → Bool} {x y : Tup d} (h : Spec.SamePoint c x y)
    (hx : Spec.Set c bc mask x) : Spec.Set c bc mask y := by
  rcases hx with ⟨q, hq, hxq, hm⟩ | ⟨hb, hn⟩
  · exact .inl ⟨q, hq, samePoint_trans (samePoint_symm h) hxq, hm⟩
  · exact .inr ⟨hb, fun ⟨q, hq, hyq⟩ => hn ⟨q, hq, samePoint_trans h hyq⟩⟩

theorem fillStep_spec (h : Spec.Layout c loc ext) (bc : MaskBC) (mask : Tup d → Bool) :
    ∃ out, fillStep c bc true (rangesOf loc ext) mask = some out ∧ ∀ p, Spec.pts c.range p →
      (out p = true ↔ ∃ x, Spec.Near 1 p x ∧ Spec.Set c bc mask x) := by
  have ha : ∀ r ∈ rangesOf loc ext, Around c (edgeLocalRange c false r.1) r.2 := by
    intro r hr
    obtain ⟨k, rfl⟩ := (mem_rangesOf r).1 hr
    exact around_local (h.tiles.1 k) (h.offers k)
  obtain ⟨edge, he, hedge⟩ := detectEdge_spec h.proper h.unique bc false false mask _ ha
  refine ⟨fun p => if edge p then true else mask p,
    by simp only [fillStep, Bool.not_true, he, Option.bind_eq_bind, Option.bind_some], ?_⟩
  intro p hp
  obtain ⟨k, hk, -⟩ := h.tiles.2 p hp
  have hpe := hedge p ⟨_, (mem_rangesOf _).2 ⟨k, rfl⟩, hk⟩
  have hrp : Spec.Reads c bc mask p (mask p) := .inl ⟨p, hp, samePoint_refl c p, rfl⟩
  have hset : (∃ x, Spec.Near 1 p x ∧ Spec.Reads c bc mask x true) ↔
      ∃ x, Spec.Near 1 p x ∧ Spec.Set c bc mask x := by
    constructor
    · rintro ⟨x, hx, hr⟩
      rcases hr with ⟨q, hq, hxq, hm⟩ | ⟨hex, hv⟩
      · exact ⟨x, hx, .inl ⟨q, hq, hxq, hm⟩⟩
      · cases bc with
        | true => exact ⟨x, hx, .inr ⟨rfl, hex⟩⟩
        | false => simp at hv
        | mirror =>
          obtain ⟨y, q, hy, hq, hyq, hm⟩ := hv
          exact ⟨y, closest_near hy (fun i => by have := hp i; omega) hx, .inl ⟨q, hq, hyq, hm⟩⟩
    · rintro ⟨x, hx, hr⟩
      rcases hr with ⟨q, hq, hxq, hm⟩ | ⟨rfl, hex⟩
      · exact ⟨x, hx, .inl ⟨q, hq, hxq, hm⟩⟩
      · exact ⟨x, hx, .inr ⟨hex, rfl⟩⟩
  rw [← hset]
  have hpp : Spec.Near 1 p p := fun i => by omega
  cases hm : mask p
  · rw [hm] at hrp
    simp only [Bool.not_false] at hpe
    simp only [hrp, true_and] at hpe
    rw [← hpe]
    cases he : edge p <;> simp [he, hm]
  · rw [hm] at hrp
    have : edge p = false := by
      rw [← Bool.not_eq_true, hpe]
      rintro ⟨h1, -⟩
      exact absurd (reads_fn h.proper h.unique h1 hrp) (by simp)
    simp only [this, Bool.false_eq_true, if_false, hm, true_iff]
    exact ⟨p, hpp, hrp⟩

theorem fillLoop_spec (h : Spec.Layout c loc ext) (bc : MaskBC) : ∀ (m : Nat) (mask : Tup d → Bool),
    ∃ out, fillLoop c bc true (rangesOf loc ext) m mask = some out ∧ ∀ p, Spec.pts c.range p →
      (out p = true ↔ ∃ x, Spec.Near m p x ∧ Spec.Set c bc mask x) := by
  intro m
  induction m with
  | zero =>
    intro mask
    refine ⟨mask, rfl, fun p hp => ⟨fun hm => ⟨p, fun i => by omega, .inl ⟨p, hp, samePoint_refl c p, hm⟩⟩, ?_⟩⟩
    rintro ⟨x, hx, hs⟩
    have : x = p := by funext i; have := hx i; simp at this; omega
    subst this
    rcases hs with ⟨q, hq, hxq, hm⟩ | ⟨-, hex⟩
    · have e1 := canonical_in_range h.proper h.unique hq hxq
      have e2 := canonical_in_range h.proper h.unique hp (samePoint_refl c x)
      rw [← hm, ← e1, e2]
    · exact absurd (exists_of_pts hp) hex
  | succ m ih =>
    intro mask
    obtain ⟨mask', he, hstep⟩ := fillStep_spec h bc mask
    obtain ⟨out, he', hout⟩ := ih mask'
    refine ⟨out, by simp only [fillLoop, he, Option.bind_some, he'], fun p hp => ?_⟩
    rw [hout p hp]
    constructor
    · rintro ⟨x, hx, hs⟩
      rcases hs with ⟨q, hq, hxq, hm⟩ | ⟨hb, hex⟩
      · obtain ⟨y, hy, hs⟩ := (hstep q hq).1 hm
        refine ⟨fun i => y i + (x i - q i), fun i => ?_,
          set_same (samePoint_symm (samePoint_shift (samePoint_symm hxq))) hs⟩
        have := hx i; have := hy i; dsimp only; push_cast at *; omega
      · exact ⟨x, fun i => by have := hx i; push_cast; omega, .inr ⟨hb, hex⟩⟩
    · rintro ⟨z, hz, hs⟩
      let x : Tup d := fun i => max (p i - m) (min (z i) (p i + m))
      have hxp : Spec.Near m p x := fun i => by simp only [x]; omega
      have hxz : Spec.Near 1 x z := fun i => by
        have := hz i; simp only [x]; push_cast at *; omega
      refine ⟨x, hxp, ?_⟩
      by_cases hex : Spec.Exists c x
      · obtain ⟨q, hq, hxq⟩ := hex
        refine .inl ⟨q, hq, hxq, (hstep q hq).2 ⟨fun i => z i + (q i - x i), fun i => ?_, ?_⟩⟩
        · have := hxz i; dsimp only; push_cast at *; omega
        · exact set_same (samePoint_symm (samePoint_shift hxq)) hs
      · rcases hs with ⟨q, hq, hzq, -⟩ | ⟨hb, -⟩
        · exfalso
          apply hex
          rw [exists_iff h.proper h.unique]
          intro i hi
          have h1 := (exists_iff h.proper h.unique z).1 ⟨q, hq, hzq⟩ i hi
          have h2 := hp i
          simp only [x]; omega
        · exact .inr ⟨hb, hex⟩

/-- C17: dilating by `m` sets exactly the points with a set point (or, for boundary condition `TRUE`, a
tuple outside) within `m` in every dimension, up to periodicity. -/
theorem C17_dilate (h : Spec.Layout c loc ext) (bc : MaskBC) (m : Nat) (mask : Tup d → Bool) :
    ∃ out, dilateMask c (rangesOf loc ext) mask m bc = some out ∧ ∀ p, Spec.pts c.range p →
      (out p = true ↔ ∃ x, Spec.Near m p x ∧ Spec.Set c bc mask x) := by
  obtain ⟨out, he, hout⟩ := fillLoop_spec h bc m mask
  refine ⟨out, ?_, hout⟩
  unfold dilateMask dilateErode
  by_cases hm : m = 0
  · subst hm; rw [← he]; rfl
  · rw [if_neg (by omega)]
    have : decide ((m : Int) > 0) = true := by simp; omega
    rw [this, Int.natAbs_natCast, he]

/-- Opposite boundary condition. -/
def MaskBC.neg : MaskBC → MaskBC
  | .true => .false
  | .false => .true
  | .mirror => .mirror

theorem getMaskValue_neg (ext : Rng d) (bc : MaskBC) (mask : Tup d → Bool) (x : Tup d) :
    getMaskValue c ext bc.neg (fun p => !mask p) x = (getMaskValue c ext bc mask x).map (!·) := by
  unfold getMaskValue readMask
  cases bc <;> dsimp only [MaskBC.neg] <;> split_ifs <;> rfl

theorem mapM_neg (f : Tup d → Option Bool) (l : List (Tup d)) :
    l.mapM (fun x => (f x).map (!·)) = (l.mapM f).map (List.map (!·)) := by
  induction l with
  | nil => rfl
  | cons a l ih =>
    simp only [List.mapM_cons, ih]
    cases f a <;> cases l.mapM f <;> rfl

theorem edgeAt_neg (ext : Rng d) (bc : MaskBC) (inner : Bool) (mask : Tup d → Bool) (p : Tup d) :
    edgeAt c ext bc.neg (!inner) (fun p => !mask p) p = edgeAt c ext bc inner mask p := by
  unfold edgeAt
  have : getMaskValue c ext bc.neg (fun p => !mask p) =
      fun x => (getMaskValue c ext bc mask x).map (!·) := funext (getMaskValue_neg ext bc mask)
  rw [this, mapM_neg]
  dsimp only
  cases getMaskValue c ext bc mask p with
  | none => rfl
  | some v =>
    simp only [Option.map_some, Option.bind_eq_bind, Option.bind_some]
    have e : ((!v) = !inner) ↔ v = inner := by cases v <;> cases inner <;> simp
    by_cases hv : v = inner
    · rw [if_pos (e.2 hv), if_pos hv]
      cases List.mapM (getMaskValue c ext bc mask)
        (Rng.points ⟨fun i => p i - 1, fun i => p i + 2⟩) with
      | none => rfl
      | some vs =>
        simp only [Option.map_some, Option.bind_some, List.any_map]
        congr 2
        funext w
        cases w <;> cases v <;> rfl
    · rw [if_neg (fun h => hv (e.1 h)), if_neg hv]

theorem detectEdge_neg (bc : MaskBC) (inner exterior : Bool) (mask : Tup d → Bool)
    (ranges : List (Rng d × Rng d)) :
    detectEdge c bc.neg (!inner) exterior (fun p => !mask p) ranges =
      detectEdge c bc inner exterior mask ranges := by
  induction ranges with
  | nil => rfl
  | cons r ranges ih =>
    obtain ⟨loc, ext⟩ := r
    have : edgeAt c ext bc.neg (!inner) (fun p => !mask p) = edgeAt c ext bc inner mask :=
      funext (edgeAt_neg ext bc inner mask)
    simp only [detectEdge, ih, this]

theorem fillLoop_neg (bc : MaskBC) (ranges : List (Rng d × Rng d)) : ∀ (m : Nat) (mask : Tup d → Bool),
    fillLoop c bc false ranges m mask =
      (fillLoop c bc.neg true ranges m (fun p => !mask p)).map (fun out p => !out p) := by
  intro m
  induction m with
  | zero => intro mask; simp [fillLoop]
  | succ m ih =>
    intro mask
    simp only [fillLoop, fillStep]
    have := detectEdge_neg (c := c) bc true false mask ranges
    simp only [Bool.not_true] at this
    simp only [Bool.not_true, Bool.not_false, this]
    cases detectEdge c bc true false mask ranges with
    | none => rfl
    | some edge =>
      simp only [Option.bind_eq_bind, Option.bind_some]
      rw [ih]
      congr 2
      funext p
      cases edge p <;> simp

/-- C17: eroding is dilating the complement with the opposite boundary condition. -/
theorem C17_dual (ranges : List (Rng d × Rng d)) (bc : MaskBC) (m : Nat) (mask : Tup d → Bool) :
    erodeMask c ranges mask m bc =
      (dilateMask c ranges (fun p => !mask p) m bc.neg).map (fun out p => !out p) := by
  unfold erodeMask dilateMask dilateErode
  by_cases hm : m = 0
  · subst hm; simp
  · rw [if_neg (by omega), if_neg (by omega)]
    have e1 : decide ((m : Int) > 0) = true := by simp; omega
    have e2 : decide (-(m : Int) > 0) = false := by simp
    rw [e1, e2, Int.natAbs_neg, Int.natAbs_natCast]
    exact fillLoop_neg bc ranges m mask

/-- C17: eroding by `m` keeps exactly the points all of whose neighbours within `m` are set, where the
outside counts as unset only for the boundary condition `FALSE`. -/
theorem C17_erode (h : Spec.Layout c loc ext) (bc : MaskBC) (m : Nat) (mask : Tup d → Bool) :
    ∃ out, erodeMask c (rangesOf loc ext) mask m bc = some out ∧ ∀ p, Spec.pts c.range p →
      (out p = true ↔ ∀ x, Spec.Near m p x →
        (∀ q, Spec.pts c.range q → Spec.SamePoint c x q → mask q = true) ∧
        (¬ Spec.Exists c x → bc ≠ .false)) := by
  obtain ⟨out, he, hout⟩ := C17_dilate h bc.neg m (fun p => !mask p)
  refine ⟨fun p => !out p, by rw [C17_dual, he]; rfl, fun p hp => ?_⟩
  have h1 := hout p hp
  have h2 : (!out p) = true ↔ ¬ out p = true := by cases out p <;> simp
  rw [h2, h1]
  constructor
  · intro hno x hx
    refine ⟨fun q hq hxq => ?_, fun hex hb => ?_⟩
    · by_contra hm
      exact hno ⟨x, hx, .inl ⟨q, hq, hxq, by simpa using hm⟩⟩
    · exact hno ⟨x, hx, .inr ⟨by rw [hb]; rfl, hex⟩⟩
  · rintro hall ⟨x, hx, hs⟩
    obtain ⟨a, b⟩ := hall x hx
    rcases hs with ⟨q, hq, hxq, hm⟩ | ⟨hb, hex⟩
    · simp [a q hq hxq] at hm
    · refine b hex ?_
      cases bc <;> simp_all [MaskBC.neg]

/-- C17: a negative amount makes the two operations swap roles. -/
theorem C17_negative (ranges : List (Rng d × Rng d)) (bc : MaskBC) (m : Int) (mask : Tup d → Bool) :
    dilateMask c ranges mask (-m) bc = erodeMask c ranges mask m bc ∧
      erodeMask c ranges mask (-m) bc = dilateMask c ranges mask m bc := by
  simp [dilateMask, erodeMask]

/-- The extended ranges of the code are tight. -/
theorem C17_extension_tight (r : Rng d) (m : Int) : Spec.Tight c r (extendLocalRange c r m) := by
  intro i hi
  simp [extendLocalRange, hi]
  exact ⟨fun h => by simp [h], fun h => by simp [h]⟩

theorem C17_grid_tight (r : Rng d) : Spec.Tight c r (gridExtendedRange c r) := by
  intro i hi
  simp [gridExtendedRange, rangeCellToPointAll, cellExtendedRange, extendLocalRange,
    cellLocalRange, rangePointToCell, cartPointToCell, hi]
  exact ⟨fun h => by simp [h], fun h => by simp [h]⟩

/-! ### C50 -/

theorem foldl_count (mask : Tup d → Bool) (l : List (Tup d)) (a : Nat) :
    l.foldl (fun n p => n + (mask p).toNat) a = a + l.countP mask := by
  induction l generalizing a with
  | nil => simp
  | cons x l ih =>
    rw [List.foldl_cons, ih, List.countP_cons]
    cases mask x <;> (simp; try omega)

/-- C50: every set point is counted once, whatever the decomposition. -/
theorem C50_count (ht : Spec.Tiles c loc) (mask : Tup d → Bool) :
    countDistributedMask (rangesOf loc ext) mask = (c.range.points.filter mask).length := by
  have hperm : ((List.finRange n).flatMap fun k => (loc k).points).Perm c.range.points := by
    rw [List.perm_ext_iff_of_nodup]
    · intro p
      simp only [List.mem_flatMap, List.mem_finRange, true_and, Rng.mem_points]
      constructor
      · rintro ⟨k, hk⟩ i; have := ht.1 k i; have := hk i; omega
      · intro hp; obtain ⟨k, hk, -⟩ := ht.2 p hp; exact ⟨k, hk⟩
    · rw [List.nodup_flatMap]
      refine ⟨fun k _ => Rng.nodup_points _, ?_⟩
      refine List.Pairwise.imp ?_ (List.nodup_iff_pairwise_ne.1 (List.nodup_finRange n))
      intro a b hab p ha hb
      rw [Rng.mem_points] at ha hb
      obtain ⟨k, -, hu⟩ := ht.2 p (fun i => by have := ht.1 a i; have := ha i; omega)
      exact hab ((hu a ha).trans (hu b hb).symm)
    · exact Rng.nodup_points _
  rw [← List.countP_eq_length_filter, ← hperm.countP_eq]
  unfold countDistributedMask rangesOf
  rw [List.countP_flatMap, List.map_map]
  congr 1
  refine List.map_congr_left fun k _ => ?_
  simp only [Function.comp, foldl_count, Nat.zero_add]

end

/- A ring of six points on two processes is a layout. -/
theorem exRing_layout : Spec.Layout exRing exRingLoc fun k => extendLocalRange exRing (exRingLoc k) 1 where
  proper := by unfold Spec.Proper Spec.periodLen exRing; decide
  unique := rfl
  tiles := by
    refine ⟨by unfold exRing exRingLoc; decide, ?_⟩
    intro p hp
    have h := hp 0
    simp only [exRing, Matrix.cons_val_zero] at h
    by_cases hx : p 0 < 2
    · refine ⟨0, fun i => ?_, ?_⟩
      · have : i = 0 := Subsingleton.elim _ _
        subst this; exact ⟨h.1, hx⟩
      · intro k hk
        fin_cases k
        · rfl
        · have : (2 : Int) ≤ p 0 := (hk 0).1
          omega
    · refine ⟨1, fun i => ?_, ?_⟩
      · have : i = 0 := Subsingleton.elim _ _
        subst this; exact ⟨by show (2 : Int) ≤ p 0; omega, h.2⟩
      · intro k hk
        fin_cases k
        · have : p 0 < 2 := (hk 0).2
          omega
        · rfl
  offers := fun k => C15_extension_offers (by unfold Spec.Proper Spec.periodLen exRing; decide) rfl _
    (by revert k; unfold exRing exRingLoc; decide) 1 (by omega)
  tight := fun k => C17_extension_tight _ _

example : ∀ k i, (exRingLoc k).b i < (exRingLoc k).e i := by unfold exRingLoc; decide

/- Dilating {0} by one on the ring sets 5, 0, 1. -/
example : ((dilateMask exRing (rangesOf exRingLoc fun k => extendLocalRange exRing (exRingLoc k) 1)
      (fun p => decide (p 0 = 0)) 1 .false).map fun f => [0, 1, 2, 3, 4, 5].map fun x => f ![x]) =
    some [true, true, false, false, false, true] := by decide +kernel

example : countDistributedMask (rangesOf exRingLoc fun k => extendLocalRange exRing (exRingLoc k) 1)
    (fun p => decide (p 0 ≤ 3)) = 4 := by decide +kernel

end Ovk
