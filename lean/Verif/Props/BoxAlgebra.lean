/-
Property C120: the operations on boxes agree with operations on the sets of points that the boxes denote.

The specification is `Spec.bpts`, the closed set of points between the corners, and set operations, distances and
affine maps written with it.
-/
import Verif.Model.BoxAlgebra
import Mathlib.Data.Fin.VecNotation
import Mathlib.Tactic.Linarith
import Mathlib.Tactic.Ring
import Mathlib.Tactic.FieldSimp
import Mathlib.Tactic.ByContra
import Mathlib.Algebra.BigOperators.Fin
import Mathlib.Algebra.Order.BigOperators.Ring.Finset
import Mathlib.Algebra.Order.Ring.Rat
import Mathlib.Algebra.Order.Field.Rat

namespace Ovk.BoxA
namespace Spec
/-- The points of a box: a closed set. -/
def bpts {d : Nat} (r : Box d) (p : Pt d) : Prop := ∀ i, r.b i ≤ p i ∧ p i ≤ r.e i

/-- `s` is the smallest box whose points include all points in `A`. -/
def Smallest {d : Nat} (s : Box d) (A : Pt d → Prop) : Prop :=
  (∀ p, A p → bpts s p) ∧ ∀ o : Box d, (∀ p, A p → bpts o p) → ∀ p, bpts s p → bpts o p

/-- Points within the distance `a i` of `p` in every dimension `i`. -/
def near {d : Nat} (a : Pt d) (p q : Pt d) : Prop := ∀ i, |p i - q i| ≤ a i

/-- The image of `q` under scaling about `c`. -/
def scaled {d : Nat} (c f q : Pt d) : Pt d := fun i => c i + f i * (q i - c i)

/-- The point in the middle of the corners. -/
def middle {d : Nat} (r : Box d) : Pt d := fun i => (r.b i + r.e i) / 2
end Spec

open Spec
variable {d : Nat}

theorem empty_iff (r : Box d) : r.empty = true ↔ ∃ i, r.e i < r.b i := by simp [Box.empty]

theorem empty_false_iff (r : Box d) : r.empty = false ↔ ∀ i, r.b i ≤ r.e i := by simp [Box.empty]

theorem exists_bpts (r : Box d) : (∃ p, bpts r p) ↔ ∀ i, r.b i ≤ r.e i :=
  ⟨fun ⟨_, h⟩ i => le_trans (h i).1 (h i).2, fun h => ⟨r.b, fun i => ⟨le_refl _, h i⟩⟩⟩

/-- C120: `Contains` tells whether a point belongs to the box. -/
theorem C120_contains (r : Box d) (p : Pt d) : r.contains p = true ↔ bpts r p := by
  simp [Box.contains, bpts]

/-- C120: `Empty` holds exactly for the boxes without points. -/
theorem C120_empty (r : Box d) : r.empty = true ↔ ¬ ∃ p, bpts r p := by
  rw [exists_bpts, empty_iff]; simp

/-- C120: `MakeEmptyBox(NumDims)` has no points if there is at least one dimension. -/
theorem C120_make_empty (nd : Nat) (h0 : 0 < nd) (hd : 0 < d) (p : Pt d) : ¬ bpts (makeEmpty d nd) p := by
  intro h
  have := h ⟨0, hd⟩
  simp [makeEmpty, h0] at this
  linarith

/-- C120: `Includes` is inclusion of the sets of points. -/
theorem C120_includes (r o : Box d) : includes r o = true ↔ ∀ p, bpts o p → bpts r p := by
  simp only [includes, Bool.or_eq_true, decide_eq_true_eq]
  constructor
  · rintro (h | h) p hp
    · exact absurd ⟨p, hp⟩ ((C120_empty o).1 h)
    · intro i; have := hp i; have := h i; constructor <;> linarith
  · intro h
    by_cases ho : ∃ p, bpts o p
    · right
      rw [exists_bpts] at ho
      intro i
      exact ⟨(h o.b (fun j => ⟨le_refl _, ho j⟩) i).1, (h o.e (fun j => ⟨ho j, le_refl _⟩) i).2⟩
    · left; exact (C120_empty o).2 ho

/-- C120: `IntersectBoxes` denotes the intersection. -/
theorem C120_intersect (l r : Box d) (p : Pt d) : bpts (intersect l r) p ↔ bpts l p ∧ bpts r p := by
  simp only [bpts, intersect, max_le_iff, le_min_iff]
  constructor
  · intro h; exact ⟨fun i => ⟨(h i).1.1, (h i).2.1⟩, fun i => ⟨(h i).1.2, (h i).2.2⟩⟩
  · rintro ⟨h1, h2⟩ i; exact ⟨⟨(h1 i).1, (h2 i).1⟩, (h1 i).2, (h2 i).2⟩

/-- C120: `BoxesOverlap` holds exactly if the boxes share a point. -/
theorem C120_overlap (l r : Box d) : overlap l r = true ↔ ∃ p, bpts l p ∧ bpts r p := by
  simp only [← C120_intersect, exists_bpts, overlap, Bool.and_eq_true, Bool.not_eq_true', empty_false_iff,
    decide_eq_true_eq, intersect, max_le_iff, le_min_iff]
  constructor
  · rintro ⟨⟨h1, h2⟩, h3⟩ i; exact ⟨⟨h1 i, (h3 i).2⟩, (h3 i).1, h2 i⟩
  · intro h; exact ⟨⟨fun i => (h i).1.1, fun i => (h i).2.2⟩, fun i => ⟨(h i).2.1, (h i).1.2⟩⟩

/-- C120: `UnionBoxes` is the smallest box with the points of both boxes. -/
theorem C120_union (l r : Box d) : Smallest (unionBoxes l r) fun p => bpts l p ∨ bpts r p := by
  unfold unionBoxes
  split
  · rename_i hl
    have := (C120_empty l).1 hl
    refine ⟨fun p hp => hp.resolve_left fun h => this ⟨p, h⟩, fun o ho p hp => ho p (.inr hp)⟩
  · rename_i hl
    split
    · rename_i hr
      have := (C120_empty r).1 hr
      refine ⟨fun p hp => hp.resolve_right fun h => this ⟨p, h⟩, fun o ho p hp => ho p (.inl hp)⟩
    · rename_i hr
      have hl := (empty_false_iff l).1 (by simpa using hl)
      have hr := (empty_false_iff r).1 (by simpa using hr)
      refine ⟨?_, fun o ho p hp i => ?_⟩
      · rintro p (h | h) i
        · exact ⟨le_trans (min_le_left _ _) (h i).1, le_trans (h i).2 (le_max_left _ _)⟩
        · exact ⟨le_trans (min_le_right _ _) (h i).1, le_trans (h i).2 (le_max_right _ _)⟩
      · have a := (ho l.b (.inl fun j => ⟨le_refl _, hl j⟩) i).1
        have b := (ho l.e (.inl fun j => ⟨hl j, le_refl _⟩) i).2
        have a' := (ho r.b (.inr fun j => ⟨le_refl _, hr j⟩) i).1
        have b' := (ho r.e (.inr fun j => ⟨hr j, le_refl _⟩) i).2
        exact ⟨le_trans (le_min a a') (hp i).1, le_trans (hp i).2 (max_le b b')⟩

/-- C120: `ExtendBox` is the smallest box with the points of the box and the point. -/
theorem C120_extend (r : Box d) (x : Pt d) : Smallest (extend r x) fun p => bpts r p ∨ p = x := by
  unfold extend
  split
  · rename_i hr
    have hr := (empty_false_iff r).1 (by simpa using hr)
    refine ⟨?_, fun o ho p hp i => ?_⟩
    · rintro p (h | h) i
      · exact ⟨le_trans (min_le_left _ _) (h i).1, le_trans (h i).2 (le_max_left _ _)⟩
      · subst h; exact ⟨min_le_right _ _, le_max_right _ _⟩
    · have a := (ho r.b (.inl fun j => ⟨le_refl _, hr j⟩) i).1
      have b := (ho r.e (.inl fun j => ⟨hr j, le_refl _⟩) i).2
      have c := ho x (.inr rfl) i
      exact ⟨le_trans (le_min a c.1) (hp i).1, le_trans (hp i).2 (max_le b c.2)⟩
  · rename_i hr
    have hr := (C120_empty r).1 (by simpa using hr)
    refine ⟨?_, fun o ho p hp => ?_⟩
    · rintro p (h | h) i
      · exact absurd ⟨p, h⟩ hr
      · subst h; exact ⟨le_refl _, le_refl _⟩
    · have : p = x := funext fun i => le_antisymm (hp i).2 (hp i).1
      subst this; exact ho p (.inr rfl)

/-- C120: extending the empty box by points one after the other gives the smallest box with these points. -/
theorem C120_extend_all (nd : Nat) (h0 : 0 < nd) (hd : 0 < d) (xs : List (Pt d)) :
    Smallest (xs.foldl extend (makeEmpty d nd)) fun p => p ∈ xs := by
  have key : ∀ (xs : List (Pt d)) (r : Box d) (A : Pt d → Prop), Smallest r A →
      Smallest (xs.foldl extend r) fun p => A p ∨ p ∈ xs := by
    intro xs
    induction xs with
    | nil => intro r A h; simpa using h
    | cons x xs ih =>
      intro r A h
      have h' : Smallest (extend r x) fun p => A p ∨ p = x := by
        have he := C120_extend r x
        refine ⟨fun p hp => he.1 p (hp.imp (h.1 p) id), fun o ho => he.2 o ?_⟩
        rintro p (hp | hp)
        · exact h.2 o (fun q hq => ho q (.inl hq)) p hp
        · exact ho p (.inr hp)
      have := ih _ _ h'
      simpa [or_assoc] using this
  have := key xs (makeEmpty d nd) (fun _ => False)
    ⟨fun _ h => h.elim, fun o _ p hp => absurd hp (C120_make_empty nd h0 hd p)⟩
  simpa using this

/-- C120: `ClampToBox` for a box with points gives the nearest point of the box: no other point of the box is nearer in
any dimension. -/
theorem C120_clamp (r : Box d) (p : Pt d) (h : ∃ q, bpts r q) :
    bpts r (clamp r p) ∧ ∀ q, bpts r q → ∀ i, |p i - clamp r p i| ≤ |p i - q i| := by
  rw [exists_bpts] at h
  constructor
  · intro i
    have := h i
    simp only [clamp]
    split
    · exact ⟨le_refl _, this⟩
    · split
      · exact ⟨this, le_refl _⟩
      · constructor <;> linarith
  · intro q hq i
    have := hq i
    simp only [clamp]
    split
    · rw [abs_of_nonpos (by linarith), abs_of_nonpos (by linarith)]; linarith
    · split
      · rw [abs_of_nonneg (by linarith), abs_of_nonneg (by linarith)]; linarith
      · simp

/-- C120: `ClampToBox` leaves the points of the box alone, and no others. -/
theorem C120_clamp_fixed (r : Box d) (p : Pt d) (h : ∃ q, bpts r q) : clamp r p = p ↔ bpts r p := by
  constructor
  · intro e; rw [← e]; exact (C120_clamp r p h).1
  · intro hp
    funext i
    have := (C120_clamp r p h).2 p hp i
    simp only [sub_self, abs_zero] at this
    have := abs_eq_zero.1 (le_antisymm this (abs_nonneg _))
    linarith

/-- C120: in exact arithmetic `MoveBox` moves every point. -/
theorem C120_move (r : Box d) (a p : Pt d) :
    bpts (move id r a) p ↔ ∃ q, bpts r q ∧ ∀ i, p i = q i + a i := by
  constructor
  · intro h
    refine ⟨fun i => p i - a i, fun i => ?_, fun i => by ring⟩
    have := h i
    simp only [move, id] at this
    constructor <;> simp only <;> linarith
  · rintro ⟨q, hq, e⟩ i
    have := hq i
    simp only [move, id, e]
    constructor <;> linarith

/-- C120: with rounding, the moved box still has every moved and rounded point. -/
theorem C120_move_rounded (rnd : Rat → Rat) (hm : Monotone rnd) (r : Box d) (a q : Pt d) (hq : bpts r q) :
    bpts (move rnd r a) fun i => rnd (q i + a i) := by
  intro i
  have := hq i
  exact ⟨hm (by linarith), hm (by linarith)⟩

/-- C120: growing by amounts that are not negative gives the points near the box; an empty box stays empty. -/
theorem C120_grow (r : Box d) (a p : Pt d) (ha : ∀ i, 0 ≤ a i) :
    bpts (grow id r a) p ↔ ∃ q, bpts r q ∧ near a p q := by
  unfold grow
  split
  · rename_i h
    have h := (C120_empty r).1 h
    exact ⟨fun hp => absurd ⟨p, hp⟩ h, fun ⟨q, hq, _⟩ => absurd ⟨q, hq⟩ h⟩
  · rename_i h
    have hr := (empty_false_iff r).1 (by simpa using h)
    constructor
    · intro hp
      refine ⟨clamp r p, (C120_clamp r p ((exists_bpts r).2 hr)).1, fun i => ?_⟩
      have := hp i
      have := ha i
      have := hr i
      simp only [id] at *
      simp only [clamp]
      rw [abs_le]
      split
      · constructor <;> linarith
      · split <;> constructor <;> linarith
    · rintro ⟨q, hq, hn⟩ i
      have := hq i
      have := abs_le.1 (hn i)
      simp only [id]
      constructor <;> linarith

/-- C120: growing by amounts that are not positive gives the points whose whole neighbourhood is in the box. -/
theorem C120_shrink (r : Box d) (a p : Pt d) (ha : ∀ i, 0 ≤ a i) :
    bpts (grow id r (fun i => - a i)) p ↔ ∀ q, near a p q → bpts r q := by
  unfold grow
  split
  · rename_i h
    have h := (C120_empty r).1 h
    refine ⟨fun hp => absurd ⟨p, hp⟩ h, fun hn => hn p fun i => ?_⟩
    simpa using ha i
  · constructor
    · intro hp q hn i
      have := hp i
      have := abs_le.1 (hn i)
      simp only [id] at *
      constructor <;> linarith
    · intro hn i
      have h1 := (hn (fun j => p j - a j) (fun j => by simp [abs_of_nonneg (ha j)]) i).1
      have h2 := (hn (fun j => p j + a j) (fun j => by simp [abs_of_nonneg (ha j)]) i).2
      simp only [id] at *
      constructor <;> linarith

/-- C120: with rounding, growing by amounts that are not negative loses no points, if the corners are representable. -/
theorem C120_grow_rounded (rnd : Rat → Rat) (hm : Monotone rnd) (r : Box d) (a : Pt d) (ha : ∀ i, 0 ≤ a i)
    (hb : ∀ i, rnd (r.b i) = r.b i) (he : ∀ i, rnd (r.e i) = r.e i) (p : Pt d) (hp : bpts r p) :
    bpts (grow rnd r a) p := by
  unfold grow
  split
  · exact hp
  · intro i
    have h1 : rnd (r.b i - a i) ≤ rnd (r.b i) := hm (by have := ha i; linarith)
    have h2 : rnd (r.e i) ≤ rnd (r.e i + a i) := hm (by have := ha i; linarith)
    rw [hb] at h1
    rw [he] at h2
    exact ⟨le_trans h1 (hp i).1, le_trans (hp i).2 h2⟩

/-- C120, for boxes with points or positive factors: `ScaleBox` scales every point about the middle of the box. -/
theorem C120_scale_partial (r : Box d) (f p : Pt d) (hf : ∀ i, 0 ≤ f i)
    (h : (∃ q, bpts r q) ∨ ∀ i, 0 < f i) :
    bpts (scale id r f) p ↔ ∃ q, bpts r q ∧ p = scaled (middle r) f q := by
  have dim : ∀ i, ((scale id r f).b i ≤ p i ∧ p i ≤ (scale id r f).e i) ↔
      (- (f i * (r.e i - r.b i)) ≤ 2 * p i - (r.b i + r.e i) ∧
        2 * p i - (r.b i + r.e i) ≤ f i * (r.e i - r.b i)) := by
    intro i
    simp only [scale, id]
    constructor <;> rintro ⟨h1, h2⟩ <;> constructor <;> nlinarith
  constructor
  · intro hp
    have hp' := fun i => (dim i).1 (hp i)
    refine ⟨fun i => if f i = 0 then middle r i else middle r i + (p i - middle r i) / f i, fun i => ?_, ?_⟩
    · have hi := hp' i
      simp only [middle]
      by_cases h0 : f i = 0
      · rw [if_pos h0]
        have hr : r.b i ≤ r.e i := by
          rcases h with h | h
          · exact (exists_bpts r).1 h i
          · exact absurd h0 (ne_of_gt (h i))
        constructor <;> linarith
      · rw [if_neg h0]
        have hpos : 0 < f i := lt_of_le_of_ne (hf i) (Ne.symm h0)
        have e : f i * ((p i - (r.b i + r.e i) / 2) / f i) = p i - (r.b i + r.e i) / 2 := by field_simp
        generalize (p i - (r.b i + r.e i) / 2) / f i = t at e
        constructor
        · by_contra hc
          push Not at hc
          nlinarith [mul_lt_mul_of_pos_left hc hpos]
        · by_contra hc
          push Not at hc
          nlinarith [mul_lt_mul_of_pos_left hc hpos]
    · funext i
      simp only [scaled]
      by_cases h0 : f i = 0
      · have hi := hp' i
        rw [h0] at hi
        simp only [h0, if_true, middle]
        linarith
      · rw [if_neg h0]
        field_simp
        ring
  · rintro ⟨q, hq, e⟩ i
    rw [dim]
    subst e
    have := hq i
    simp only [scaled, middle]
    constructor <;> nlinarith [mul_le_mul_of_nonneg_left this.1 (hf i), mul_le_mul_of_nonneg_left this.2 (hf i)]

/-- The claim for all boxes and all factors that are not negative. -/
def C120_scale_statement : Prop := ∀ (d : Nat) (r : Box d) (f p : Pt d), (∀ i, 0 ≤ f i) →
  (bpts (scale id r f) p ↔ ∃ q, bpts r q ∧ p = scaled (middle r) f q)

/-- C120: the claim is false: scaled by 0, the empty box has a point. -/
theorem C120_scale_false : ¬ C120_scale_statement := by
  intro h
  have := (h 3 (makeEmpty 3 3) (fun _ => 0) (fun _ => -1 / 2) (fun _ => le_refl _)).1
    (fun i => by simp [scale, makeEmpty]; norm_num)
  obtain ⟨q, hq, _⟩ := this
  exact C120_make_empty 3 (by omega) (by omega) q hq

/-- C120: a negative factor leaves no points in a box that is not flat, and makes a point or a region of an empty
one. -/
theorem C120_scale_negative (r : Box d) (f : Pt d) (hf : ∀ i, f i < 0) :
    ((∀ i, r.b i < r.e i) → 0 < d → ¬ ∃ p, bpts (scale id r f) p) ∧
      ((∀ i, r.e i ≤ r.b i) → ∃ p, bpts (scale id r f) p) := by
  simp only [exists_bpts, scale, id]
  constructor
  · intro h hd hc
    have h1 := hc ⟨0, hd⟩
    have h2 := h ⟨0, hd⟩
    have h3 := hf ⟨0, hd⟩
    nlinarith
  · intro h i
    have h2 := h i
    have h3 := hf i
    nlinarith

/-- The claim that moving an empty box leaves it empty whatever the rounding. -/
def C120_move_empty_statement : Prop := ∀ (rnd : Rat → Rat), Monotone rnd → (∀ x, rnd (rnd x) = rnd x) →
  ∀ (a : Pt 3), (∀ i, rnd (a i) = a i) → (move rnd (makeEmpty 3 3) a).empty = true

/-- C120: as soon as the spacing of the floating-point numbers near the amount hides a difference of 1, the empty box
becomes a point when it is moved. -/
theorem C120_move_empty_rounded (rnd : Rat → Rat) (a : Pt 3) (h : ∀ i, rnd (a i - 1) = rnd (a i)) (p : Pt 3) :
    bpts (move rnd (makeEmpty 3 3) a) p ↔ ∀ i, p i = rnd (a i) := by
  have e : ∀ i : Fin 3, rnd ((if i.val < 3 then (-1 : Rat) else 0) + a i) = rnd (a i) := by
    intro i
    rw [if_pos i.isLt, ← h i]
    congr 1
    ring
  simp only [bpts, move, makeEmpty, zero_add, e]
  exact ⟨fun hp i => le_antisymm (hp i).2 (hp i).1, fun hp i => ⟨ge_of_eq (hp i), le_of_eq (hp i)⟩⟩

/-- A rounding with the spacing 2 from 8 on. -/
def coarse (x : Rat) : Rat := if x < 8 then x else 2 * (⌈x / 2⌉ : Int)

theorem coarse_mono : Monotone coarse := by
  intro x y h
  unfold coarse
  have up : ∀ z : Rat, z ≤ 2 * (⌈z / 2⌉ : Int) := fun z => by have := Int.le_ceil (z / 2); linarith
  split
  · split
    · exact h
    · exact le_trans h (up y)
  · rw [if_neg (by linarith)]
    have : ⌈x / 2⌉ ≤ ⌈y / 2⌉ := Int.ceil_mono (by linarith)
    have : ((⌈x / 2⌉ : Int) : Rat) ≤ (⌈y / 2⌉ : Int) := by exact_mod_cast this
    linarith

theorem coarse_idem (x : Rat) : coarse (coarse x) = coarse x := by
  unfold coarse
  split
  · rfl
  · rename_i h
    have : x ≤ 2 * (⌈x / 2⌉ : Int) := by have := Int.le_ceil (x / 2); linarith
    rw [if_neg (by linarith)]
    simp

/-- C120: moving an empty box does not always leave it empty. -/
theorem C120_move_empty_false : ¬ C120_move_empty_statement := by
  intro h
  have c10 : coarse 10 = 10 := by unfold coarse; norm_num
  have c9 : coarse (10 - 1) = 10 := by
    unfold coarse
    have : (⌈((10 : Rat) - 1) / 2⌉ : Int) = 5 := by rw [Int.ceil_eq_iff]; norm_num
    rw [this]; norm_num
  have := h coarse coarse_mono coarse_idem (fun _ => 10) (fun _ => c10)
  rw [C120_empty] at this
  exact this ⟨fun _ => coarse 10, (C120_move_empty_rounded coarse (fun _ => 10) (fun _ => by rw [c9, c10]) _).2
    fun _ => rfl⟩

theorem product_eq (l : List Rat) : product id l = l.prod := by
  induction l with
  | nil => rfl
  | cons a l ih =>
    cases l with
    | nil => simp [product]
    | cons b l => simp only [product, id, List.prod_cons] at *; rw [ih]

theorem volume_eq (r : Box d) : volume id r = ∏ i, max (r.e i - r.b i) 0 := by
  rw [volume, product_eq, ← Fin.prod_univ_def]
  rfl

/-- C120: the volume is the product of the extents, 0 for a box without points or a flat one. -/
theorem C120_volume (r : Box d) :
    ((∀ i, r.b i ≤ r.e i) → volume id r = ∏ i, (r.e i - r.b i)) ∧
      ((∃ i, r.e i ≤ r.b i) → volume id r = 0) := by
  rw [volume_eq]
  constructor
  · intro h
    exact Finset.prod_congr rfl fun i _ => max_eq_left (by have := h i; linarith)
  · rintro ⟨i, h⟩
    exact Finset.prod_eq_zero (Finset.mem_univ i) (max_eq_right (by linarith))

/-- C120: a box with more points does not have a smaller volume. -/
theorem C120_volume_mono (r o : Box d) (h : ∀ p, bpts o p → bpts r p) : volume id o ≤ volume id r := by
  by_cases ho : ∃ p, bpts o p
  · rw [exists_bpts] at ho
    rw [volume_eq, volume_eq]
    refine Finset.prod_le_prod (fun i _ => le_max_right _ _) fun i _ => max_le_max ?_ (le_refl _)
    have h1 := (h o.b (fun j => ⟨le_refl _, ho j⟩) i).1
    have h2 := (h o.e (fun j => ⟨ho j, le_refl _⟩) i).2
    linarith
  · obtain ⟨i, hi⟩ := (empty_iff o).1 ((C120_empty o).2 ho)
    rw [(C120_volume o).2 ⟨i, le_of_lt hi⟩, volume_eq]
    exact Finset.prod_nonneg fun i _ => le_max_right _ _

/-- C120: moving keeps the volume, and scaling by factors that are not negative multiplies it by all of them. -/
theorem C120_volume_maps (r : Box d) (a f : Pt d) (hf : ∀ i, 0 ≤ f i) :
    volume id (move id r a) = volume id r ∧ volume id (scale id r f) = (∏ i, f i) * volume id r := by
  simp only [volume_eq, ← Finset.prod_mul_distrib]
  constructor
  · exact Finset.prod_congr rfl fun i _ => by simp [move]
  · refine Finset.prod_congr rfl fun i _ => ?_
    have e : (scale id r f).e i - (scale id r f).b i = f i * (r.e i - r.b i) := by simp only [scale, id]; ring
    rw [e, mul_max_of_nonneg _ _ (hf i), mul_zero]

/-- The boxes of the examples. -/
def ex1 : Box 3 := ⟨![0, 0, 0], ![2, 2, 1]⟩
def ex2 : Box 3 := ⟨![1, -1, 1/2], ![4, 1, 3]⟩

example : overlap ex1 ex2 = true ∧ includes ex1 (intersect ex1 ex2) = true ∧ includes ex1 ex2 = false := by
  decide +kernel
example : (intersect ex1 ex2).b = ![1, 0, 1/2] ∧ (intersect ex1 ex2).e = ![2, 1, 1] := by decide +kernel
example : (unionBoxes ex1 ex2).b = ![0, -1, 0] ∧ (unionBoxes ex1 ex2).e = ![4, 2, 3] := by decide +kernel
example : clamp ex1 ![5, 1, -1] = ![2, 1, 0] := by decide +kernel
example : (extend (extend (makeEmpty 3 2) ![1, 2, 0]) ![3, 1, 0]).b = ![1, 1, 0] := by decide +kernel
example : (grow id ex1 ![1, 0, 2]).b = ![-1, 0, -2] ∧ (grow id ex1 ![-2, 0, 0]).empty = true := by decide +kernel
example : (scale id ex1 ![2, 1/2, 0]).b = ![-1, 1/2, 1/2] ∧ (scale id ex1 ![2, 1/2, 0]).e = ![3, 3/2, 1/2] := by
  decide +kernel
example : volume id ex1 = 4 ∧ volume id (scale id ex1 ![2, 3, 1]) = 24 ∧ volume id (ofSize ![2, 3, 4] : Box 3) = 24 := by
  decide +kernel
example : (move id ex1 ![1, 1, 1]).contains ![3, 3, 2] = true := by decide +kernel
/-- Where the claims fail. -/
example : (scale id (makeEmpty 3 3) fun _ => 0).contains (fun _ => -1/2) = true ∧
    (move coarse (makeEmpty 3 3) fun _ => 10).empty = false := by decide +kernel

end Ovk.BoxA
