/-
C126: in a program that stores `MAX_DIMS` dimensions, grids with fewer dimensions behave like grids with just their own
dimensions: the dimensions that are not used are 0 to 1 and not periodic in the parameters, and stay so.
-/
import Verif.Model.Padding
import Mathlib.Tactic.ByContra
import Mathlib.Tactic.SplitIfs
import Mathlib.Tactic.Ring
import Mathlib.Data.Fintype.BigOperators
import Mathlib.Algebra.BigOperators.Fin

namespace Ovk.Pad

namespace Spec
variable {d : Nat}

/-- A tuple, with 0 in the dimensions that are not used. -/
def tup (D : Nat) (t : Tup d) : Tup D := fun i => if h : i.val < d then t ⟨i.val, h⟩ else 0

/-- A range, from 0 to 1 in the dimensions that are not used. -/
def rng (D : Nat) (r : Rng d) : Rng D :=
  ⟨fun i => if h : i.val < d then r.b ⟨i.val, h⟩ else 0, fun i => if h : i.val < d then r.e ⟨i.val, h⟩ else 1⟩

/-- A cart, not periodic in the dimensions that are not used. -/
def cart (D : Nat) (c : Cart d) : PCart D :=
  ⟨d, rng D c.range, fun i => if h : i.val < d then c.periodic ⟨i.val, h⟩ else false, c.storage⟩

/-- Parameters of a grid of their dimension. -/
structure Fits (p : Params) : Prop where
  dims : p.dims = 2 ∨ p.dims = 3
  cart : p.cart.dims = p.dims
  unused : ∀ i : Fin 3, p.dims ≤ i.val → p.cart.range.b i = 0 ∧ p.cart.range.e i = 1 ∧ p.cart.periodic i = false ∧
    p.loc.b i = 0 ∧ p.loc.e i = 1
  storage : p.cart.storage = .unique
  nonempty : ∀ i, p.cart.range.b i < p.cart.range.e i ∧ p.loc.b i < p.loc.e i

/-- The latest call that says something about the global range in a dimension decides; calls are listed newest first. -/
def bounds (i : Fin 3) : List Call → Int × Int
  | .globalRange r :: _ => (r.b i, r.e i)
  | .cart c :: _ => (c.range.b i, c.range.e i)
  | .dimension k :: cs => if k ≤ i.val then (0, 1) else bounds i cs
  | _ :: cs => bounds i cs
  | [] => (0, 1)

def localBounds (i : Fin 3) : List Call → Int × Int
  | .localRange r :: _ => (r.b i, r.e i)
  | .dimension k :: cs => if k ≤ i.val then (0, 1) else localBounds i cs
  | _ :: cs => localBounds i cs
  | [] => (0, 1)

def periodic (i : Fin 3) : List Call → Bool
  | .periodic q :: _ => q i
  | .cart c :: _ => c.periodic i
  | .dimension k :: cs => if k ≤ i.val then false else periodic i cs
  | _ :: cs => periodic i cs
  | [] => false

def dims : List Call → Nat
  | .dimension k :: _ => k
  | _ :: cs => dims cs
  | [] => 2

def name : List Call → List Char
  | .name s :: _ => s
  | _ :: cs => name cs
  | [] => "Grid".toList

def comm : List Call → Option Nat
  | .comm c :: _ => c
  | _ :: cs => comm cs
  | [] => none

/-- A cart that is given as a whole is one of its dimension. -/
def Sound : Call → Prop
  | .cart c => ∀ i : Fin 3, c.dims ≤ i.val → c.range.e i = 1 ∧ c.periodic i = false
  | _ => True

end Spec

open Spec
variable {d D : Nat}

theorem rng_ext {a b : Rng D} (h : ∀ i, a.b i = b.b i ∧ a.e i = b.e i) : a = b := by
  cases a; cases b
  simp only [Rng.mk.injEq]
  exact ⟨funext fun i => (h i).1, funext fun i => (h i).2⟩

theorem tup_lt (t : Tup d) {i : Fin D} (h : i.val < d) : tup D t i = t ⟨i.val, h⟩ := by simp [tup, h]
theorem tup_ge (t : Tup d) {i : Fin D} (h : ¬ i.val < d) : tup D t i = 0 := by simp [tup, h]
theorem rngb_lt (r : Rng d) {i : Fin D} (h : i.val < d) : (rng D r).b i = r.b ⟨i.val, h⟩ := by simp [rng, h]
theorem rngb_ge (r : Rng d) {i : Fin D} (h : ¬ i.val < d) : (rng D r).b i = 0 := by simp [rng, h]
theorem rnge_lt (r : Rng d) {i : Fin D} (h : i.val < d) : (rng D r).e i = r.e ⟨i.val, h⟩ := by simp [rng, h]
theorem rnge_ge (r : Rng d) {i : Fin D} (h : ¬ i.val < d) : (rng D r).e i = 1 := by simp [rng, h]
theorem per_lt (c : Cart d) {i : Fin D} (h : i.val < d) : (Spec.cart D c).periodic i = c.periodic ⟨i.val, h⟩ := by
  simp [Spec.cart, h]
theorem per_ge (c : Cart d) {i : Fin D} (h : ¬ i.val < d) : (Spec.cart D c).periodic i = false := by simp [Spec.cart, h]

/-- Something holds in all dimensions if it does in those that are used. -/
theorem forall_dims (h : d ≤ D) {P : Fin D → Prop} (hP : ∀ i : Fin D, ¬ i.val < d → P i) :
    (∀ i, P i) ↔ ∀ i : Fin d, P ⟨i.val, by omega⟩ :=
  ⟨fun H i => H _, fun H i => by
    by_cases hi : i.val < d
    · exact H ⟨i.val, hi⟩
    · exact hP i hi⟩

theorem tup_self (t : Tup d) : tup d t = t := by funext i; simp [tup]
theorem rng_self (r : Rng d) : rng d r = r := rng_ext fun i => by simp [rng]

theorem tup_inj (h : d ≤ D) {s t : Tup d} : tup D s = tup D t ↔ s = t := by
  constructor
  · intro e
    funext i
    have := congrFun e ⟨i.val, by omega⟩
    simpa [tup] using this
  · rintro rfl; rfl

theorem rng_inj (h : d ≤ D) {s t : Rng d} : rng D s = rng D t ↔ s = t := by
  constructor
  · intro e
    refine rng_ext fun i => ?_
    have hb := congrFun (congrArg Rng.b e) (⟨i.val, by omega⟩ : Fin D)
    have he := congrFun (congrArg Rng.e e) (⟨i.val, by omega⟩ : Fin D)
    simp only [rng, i.isLt, dif_pos] at hb he
    exact ⟨hb, he⟩
  · rintro rfl; rfl

/-! ### Ranges -/

theorem size_lt (r : Rng d) {i : Fin D} (h : i.val < d) : (rng D r).size i = r.size ⟨i.val, h⟩ := by
  simp [Rng.size, rngb_lt r h, rnge_lt r h]

theorem size_ge (r : Rng d) {i : Fin D} (h : ¬ i.val < d) : (rng D r).size i = 1 := by
  simp [Rng.size, rngb_ge r h, rnge_ge r h]

theorem empty_rng (h : d ≤ D) (r : Rng d) : (rng D r).empty = r.empty := by
  unfold Rng.empty
  rw [decide_eq_decide]
  constructor
  · rintro ⟨i, hi⟩
    by_cases hd : i.val < d
    · exact ⟨⟨i.val, hd⟩, by rwa [rngb_lt r hd, rnge_lt r hd] at hi⟩
    · rw [rngb_ge r hd, rnge_ge r hd] at hi; omega
  · rintro ⟨i, hi⟩
    refine ⟨⟨i.val, by omega⟩, ?_⟩
    simpa [rng] using hi

theorem contains_rng (h : d ≤ D) (r : Rng d) (t : Tup d) : (rng D r).contains (tup D t) = r.contains t := by
  unfold Rng.contains
  rw [decide_eq_decide, forall_dims h]
  · refine forall_congr' fun i => ?_
    simp [rng, tup]
  · intro i hi
    rw [tup_ge t hi, rngb_ge r hi, rnge_ge r hi]
    omega

theorem overlap_rng (h : d ≤ D) (r s : Rng d) : rangesOverlap (rng D r) (rng D s) = rangesOverlap r s := by
  unfold rangesOverlap
  rw [empty_rng h, empty_rng h]
  congr 1
  rw [decide_eq_decide, forall_dims h]
  · refine forall_congr' fun i => ?_
    simp [rng]
  · intro i hi
    rw [rngb_ge r hi, rnge_ge r hi, rngb_ge s hi, rnge_ge s hi]
    omega

theorem count_rng (h : d ≤ D) (r : Rng d) : (rng D r).count = r.count := by
  induction D with
  | zero =>
    obtain rfl : d = 0 := by omega
    rw [rng_self]
  | succ D ih =>
    rcases Nat.lt_or_ge D d with hd | hd
    · obtain rfl : d = D + 1 := by omega
      rw [rng_self]
    · rw [← ih hd]
      unfold Rng.count
      rw [Fin.prod_univ_castSucc, size_ge r (i := Fin.last D) (by simpa using hd), mul_one]
      rfl

theorem intRange_one : intRange 0 1 = [0] := by decide

theorem points_rng (h : d ≤ D) (r : Rng d) : (rng D r).points = r.points.map (tup D) := by
  induction D with
  | zero =>
    obtain rfl : d = 0 := by omega
    rw [rng_self]
    exact (List.map_id'' tup_self _).symm
  | succ D ih =>
    rcases Nat.lt_or_ge D d with hd | hd
    · obtain rfl : d = D + 1 := by omega
      rw [rng_self]
      exact (List.map_id'' tup_self _).symm
    · have hl : ¬ (Fin.last D).val < d := by simpa using hd
      rw [Rng.points, rngb_ge r hl, rnge_ge r hl, intRange_one]
      have e : (⟨fun i => (rng (D + 1) r).b i.castSucc, fun i => (rng (D + 1) r).e i.castSucc⟩ : Rng D) = rng D r := rfl
      rw [e, ih hd]
      simp only [List.flatMap_cons, List.flatMap_nil, List.append_nil, List.map_map]
      refine List.map_congr_left fun t _ => ?_
      funext i
      refine Fin.lastCases ?_ (fun i => ?_) i
      · simp [tup_ge t hl]
      · simp [tup]

theorem union_rng (h : d ≤ D) (r s : Rng d) : unionRanges (rng D r) (rng D s) = rng D (unionRanges r s) := by
  unfold unionRanges
  rw [empty_rng h, empty_rng h]
  split_ifs
  · rfl
  · rfl
  · refine rng_ext fun i => ?_
    by_cases hi : i.val < d <;> simp [rng, hi]

theorem intersect_rng (r s : Rng d) : intersectRanges (rng D r) (rng D s) = rng D (intersectRanges r s) := by
  refine rng_ext fun i => ?_
  by_cases hi : i.val < d <;> simp [intersectRanges, rng, hi]

theorem extend_rng (h : d ≤ D) (r : Rng d) (t : Tup d) : extendRange (rng D r) (tup D t) = rng D (extendRange r t) := by
  unfold extendRange
  rw [empty_rng h]
  split_ifs <;> refine rng_ext fun i => ?_ <;> by_cases hi : i.val < d <;> simp [rng, tup, hi]

theorem clamp_rng (r : Rng d) (t : Tup d) : clampToRange (rng D r) (tup D t) = tup D (clampToRange r t) := by
  funext i
  by_cases hi : i.val < d <;> simp [clampToRange, rng, tup, hi]

theorem assign_rng (b e : Tup d) {b' e' : Tup D} {r : Rng D} (hr : ∀ i : Fin D, ¬ i.val < d → r.b i = 0 ∧ r.e i = 1)
    (hb : ∀ (i : Fin D) (h : i.val < d), b' i = b ⟨i.val, h⟩) (he : ∀ (i : Fin D) (h : i.val < d), e' i = e ⟨i.val, h⟩) :
    assign d r b' e' = rng D ⟨b, e⟩ := by
  refine rng_ext fun i => ?_
  by_cases hi : i.val < d
  · simp [assign, rng, hi, hb i hi, he i hi]
  · simp [assign, rng, hi, (hr i hi).1, (hr i hi).2]

theorem emptyRange_rng : (emptyRange d : Rng D) = rng D (makeEmptyRange d) :=
  assign_rng _ _ (fun _ _ => ⟨rfl, rfl⟩) (fun _ _ => rfl) fun _ _ => rfl

theorem emptyRange_unused (i : Fin D) (h : ¬ i.val < d) : (emptyRange d : Rng D).b i = 0 ∧ (emptyRange d : Rng D).e i = 1 := by
  rw [emptyRange_rng, rngb_ge _ h, rnge_ge _ h]
  exact ⟨rfl, rfl⟩

/-! ### Periodic index spaces -/

theorem periodSize_lt (c : Cart d) {i : Fin D} (h : i.val < d) :
    (Spec.cart D c).cart.periodSize i = c.periodSize ⟨i.val, h⟩ := by
  unfold Cart.periodSize
  have e := size_lt (D := D) c.range h
  have p := per_lt (D := D) c h
  cases hs : c.storage <;> simp only [PCart.cart, Spec.cart, hs] at e p ⊢ <;> simp [e, h]

theorem periodSize_ge (c : Cart d) {i : Fin D} (h : ¬ i.val < d) : (Spec.cart D c).cart.periodSize i = 1 := by
  unfold Cart.periodSize
  have e := size_ge (D := D) c.range h
  cases hs : c.storage <;> simp only [PCart.cart, Spec.cart, hs] at e ⊢ <;> simp [e, h]

theorem period_lt (c : Cart d) (t : Tup D) (u : Tup d) {i : Fin D} (h : i.val < d) (ht : t i = u ⟨i.val, h⟩) :
    (Spec.cart D c).cart.period t i = c.period u ⟨i.val, h⟩ := by
  unfold Cart.period
  rw [periodSize_lt c h]
  have hb : (Spec.cart D c).cart.range.b i = c.range.b ⟨i.val, h⟩ := rngb_lt c.range h
  have hp : (Spec.cart D c).cart.periodic i = c.periodic ⟨i.val, h⟩ := per_lt c h
  rw [hb, hp, ht]

theorem period_ge (c : Cart d) (t : Tup D) {i : Fin D} (h : ¬ i.val < d) : (Spec.cart D c).cart.period t i = 0 := by
  unfold Cart.period
  have hp : (Spec.cart D c).cart.periodic i = false := per_ge c h
  rw [hp]
  rfl

theorem adjust_cart (c : Cart d) (t : Tup d) :
    (Spec.cart D c).cart.periodicAdjust (tup D t) = tup D (c.periodicAdjust t) := by
  funext i
  unfold Cart.periodicAdjust
  by_cases h : i.val < d
  · have hb : (Spec.cart D c).cart.range.b i = c.range.b ⟨i.val, h⟩ := rngb_lt c.range h
    have hp : (Spec.cart D c).cart.periodic i = c.periodic ⟨i.val, h⟩ := per_lt c h
    rw [hb, hp, periodSize_lt c h, tup_lt _ h, tup_lt _ h]
  · have hp : (Spec.cart D c).cart.periodic i = false := per_ge c h
    rw [hp, tup_ge _ h, tup_ge _ h]
    rfl

theorem mapTuple_cart (h : d ≤ D) (c : Cart d) (r : Rng d) (t : Tup d) :
    (Spec.cart D c).cart.mapTupleToRange (rng D r) (tup D t) = (c.mapTupleToRange r t).map (tup D) := by
  have e : (Spec.cart D c).cart.mapCandidate (rng D r) (tup D t) = tup D (c.mapCandidate r t) := by
    funext i
    unfold Cart.mapCandidate
    by_cases hi : i.val < d
    · rw [periodSize_lt c hi, period_lt c _ r.b hi (rngb_lt r hi), period_lt c _ t hi (tup_lt t hi), rngb_lt r hi,
        tup_lt t hi, tup_lt _ hi]
    · rw [periodSize_ge c hi, period_ge c _ hi, period_ge c _ hi, rngb_ge r hi, tup_ge t hi, tup_ge _ hi]
      simp
  unfold Cart.mapTupleToRange
  simp only [e, contains_rng h]
  split_ifs <;> rfl

theorem rebase_rng (r : Rng d) (t : Tup d) : Cart.rebase (rng D r) (tup D t) = rng D (Cart.rebase r t) := by
  refine rng_ext fun i => ?_
  by_cases hi : i.val < d
  · have := size_lt r hi
    simp [Cart.rebase, this, tup_lt t hi, rngb_lt _ hi, rnge_lt _ hi]
  · have := size_ge r hi
    simp [Cart.rebase, this, tup_ge t hi, rngb_ge _ hi, rnge_ge _ hi]

theorem shift_rng (c : Cart d) (r : Rng d) (k : Tup d) :
    (Spec.cart D c).cart.shift (rng D r) (tup D k) = rng D (c.shift r k) := by
  refine rng_ext fun i => ?_
  by_cases hi : i.val < d
  · simp [Cart.shift, periodSize_lt c hi, tup_lt k hi, rng, hi]
  · simp [Cart.shift, tup_ge k hi, rng, hi]

theorem periodSearch_eq (d : Nat) : (⟨fun _ => -1, fun _ => 1⟩ : Rng d).points = periodSearch d := by
  induction d with
  | zero => rfl
  | succ d ih =>
    rw [Rng.points, periodSearch, ← ih]
    rfl

theorem foldl_last {α β : Type} (g : α → β) (f : α → Option α) (f' : β → Option β) (hf : ∀ a, f' (g a) = (f a).map g)
    (l : List α) (acc : Option α) :
    (l.map g).foldl (fun x k => (f' k).or x) (acc.map g) = (l.foldl (fun x k => (f k).or x) acc).map g := by
  induction l generalizing acc with
  | nil => rfl
  | cons a l ih =>
    simp only [List.map_cons, List.foldl_cons, hf]
    rw [← ih]
    congr 1
    cases f a <;> rfl

/-- What `MapToRange` returns for the padded index space. -/
def padRes (D : Nat) : Res (Option (Rng d)) → Res (Option (Rng D))
  | .undef => .undef
  | .ok x => .ok (x.map (rng D))

theorem mapRange_cart (h : d ≤ D) (c : Cart d) (r o : Rng d) :
    (Spec.cart D c).mapRange (rng D r) (rng D o) = padRes D (c.mapRangeToRange r o) := by
  unfold PCart.mapRange Cart.mapRangeToRange
  rw [overlap_rng h]
  split_ifs with h1
  · rfl
  · have eb : ∀ r : Rng d, (rng D r).b = tup D r.b := fun r => rfl
    rw [eb, mapTuple_cart h]
    cases c.mapTupleToRange r o.b with
    | some nb => simp only [Option.map_some, padRes, rebase_rng]
    | none =>
      have er : (Spec.cart D c).range = rng D c.range := rfl
      rw [er, eb, mapTuple_cart h, mapTuple_cart h]
      simp only [Option.map_none]
      cases c.mapTupleToRange c.range r.b with
      | none => rfl
      | some rb =>
        cases c.mapTupleToRange c.range o.b with
        | none => rfl
        | some ob =>
          simp only [Option.map_some, padRes]
          congr 1
          have es : (assign (Spec.cart D c).dims unit (fun _ => -1) fun _ => 1 : Rng D) =
              rng D (⟨fun _ => -1, fun _ => 1⟩ : Rng d) :=
            assign_rng _ _ (fun _ _ => ⟨rfl, rfl⟩) (fun _ _ => rfl) fun _ _ => rfl
          rw [es, points_rng h, periodSearch_eq]
          generalize periodSearch d = l
          generalize hacc : (none : Option (Rng D)) = acc
          generalize hacc' : (none : Option (Rng d)) = acc'
          have ha : acc = acc'.map (rng D) := by subst hacc; subst hacc'; rfl
          clear hacc hacc'
          subst ha
          induction l generalizing acc' with
          | nil => rfl
          | cons k l ih =>
            simp only [List.map_cons, List.foldl_cons]
            rw [← ih]
            congr 1
            rw [rebase_rng, rebase_rng, shift_rng, overlap_rng h]
            split_ifs <;> rfl

/-! ### Decomposition -/

theorem extendLocal_cart (c : Cart d) (r : Rng d) (n : Int) :
    (Spec.cart D c).extendLocal (rng D r) n = rng D (extendLocalRange c r n) := by
  refine assign_rng _ _ (fun i h => ⟨rngb_ge r h, rnge_ge r h⟩) (fun i h => ?_) fun i h => ?_
  · have := per_lt (D := D) c h
    have hb : (Spec.cart D c).range.b i = c.range.b ⟨i.val, h⟩ := rngb_lt c.range h
    simp only [rngb_lt r h, hb, this]
    rfl
  · have := per_lt (D := D) c h
    have hb : (Spec.cart D c).range.e i = c.range.e ⟨i.val, h⟩ := rnge_lt c.range h
    simp only [rnge_lt r h, hb, this]
    rfl

theorem pointToCell_cart (c : Cart d) : (Spec.cart D c).pointToCell = Spec.cart D (cartPointToCell c) := by
  unfold PCart.pointToCell
  have : assign (Spec.cart D c).dims (emptyRange (Spec.cart D c).dims) (Spec.cart D c).range.b
      (fun i => if (Spec.cart D c).periodic i = true ∧ (Spec.cart D c).storage = .unique then (Spec.cart D c).range.e i
        else (Spec.cart D c).range.e i - 1) = rng D (cartPointToCell c).range := by
    refine assign_rng _ _ (fun i h => emptyRange_unused i h) (fun i h => ?_) fun i h => ?_
    · exact rngb_lt c.range h
    · have hp := per_lt (D := D) c h
      have hb : (Spec.cart D c).range.e i = c.range.e ⟨i.val, h⟩ := rnge_lt c.range h
      have hs : (Spec.cart D c).storage = c.storage := rfl
      rw [hp, hb, hs]
      rfl
  rw [this]
  rfl

theorem rangePointToCell_cart (c : Cart d) (r : Rng d) :
    (Spec.cart D c).rangePointToCell (rng D r) = rng D (Ovk.rangePointToCell c r) := by
  refine assign_rng _ _ (fun i h => emptyRange_unused i h) (fun i h => rngb_lt r h) fun i h => ?_
  have hp := per_lt (D := D) c h
  have hb : (Spec.cart D c).range.e i = c.range.e ⟨i.val, h⟩ := rnge_lt c.range h
  have hs : (Spec.cart D c).storage = c.storage := rfl
  rw [hp, hb, hs, rnge_lt r h]
  rfl

theorem rangeCellToPointAll_cart (c : Cart d) (r : Rng d) :
    (Spec.cart D c).rangeCellToPointAll (rng D r) = rng D (Ovk.rangeCellToPointAll r) :=
  assign_rng _ _ (fun i h => emptyRange_unused i h) (fun i h => rngb_lt r h) fun i h => congrArg (· + 1) (rnge_lt r h)

theorem includeExterior_cart (c : Cart d) : (Spec.cart D c).includeExterior = Spec.cart D (cartIncludeExterior c) := by
  unfold PCart.includeExterior
  have : assign (Spec.cart D c).dims (emptyRange (Spec.cart D c).dims)
      (fun i => if (Spec.cart D c).periodic i = false then (Spec.cart D c).range.b i - 1 else (Spec.cart D c).range.b i)
      (fun i => if (Spec.cart D c).periodic i = false then (Spec.cart D c).range.e i + 1 else (Spec.cart D c).range.e i) =
        rng D (cartIncludeExterior c).range := by
    refine assign_rng _ _ (fun i h => emptyRange_unused i h) (fun i h => ?_) fun i h => ?_
    · have hb : (Spec.cart D c).range.b i = c.range.b ⟨i.val, h⟩ := rngb_lt c.range h
      rw [per_lt c h, hb]
      rfl
    · have hb : (Spec.cart D c).range.e i = c.range.e ⟨i.val, h⟩ := rnge_lt c.range h
      rw [per_lt c h, hb]
      rfl
  rw [this]
  rfl

theorem rangeIncludeExterior_cart (c : Cart d) (r : Rng d) :
    (Spec.cart D c).rangeIncludeExterior (rng D r) = rng D (Ovk.rangeIncludeExterior c r) := by
  refine assign_rng _ _ (fun i h => emptyRange_unused i h) (fun i h => ?_) fun i h => ?_
  · have hb : (Spec.cart D c).range.b i = c.range.b ⟨i.val, h⟩ := rngb_lt c.range h
    rw [per_lt c h, hb, rngb_lt r h]
    rfl
  · have hb : (Spec.cart D c).range.e i = c.range.e ⟨i.val, h⟩ := rnge_lt c.range h
    rw [per_lt c h, hb, rnge_lt r h]
    rfl

theorem cellCover_cart (c : Cart d) (r : Rng d) :
    (Spec.cart D c).cellCover (rng D r) = rng D (makeCellCoverRange c r) := by
  refine assign_rng _ _ (fun i h => emptyRange_unused i h) (fun i h => ?_) fun i h => rnge_lt r h
  have hb : (Spec.cart D c).range.b i = c.range.b ⟨i.val, h⟩ := rngb_lt c.range h
  have he : (Spec.cart D c).range.e i = c.range.e ⟨i.val, h⟩ := rnge_lt c.range h
  rw [per_lt c h, hb, he, rngb_lt r h, rnge_lt r h]
  rfl

theorem around_rng (lo hi : Int) (t : Tup d) :
    around d lo hi (tup D t) = rng D ⟨fun i => t i + lo, fun i => t i + hi⟩ :=
  assign_rng _ _ (fun _ _ => ⟨rfl, rfl⟩) (fun i h => by rw [tup_lt t h]) fun i h => by rw [tup_lt t h]

theorem finRange_filter (h : d ≤ D) :
    (List.finRange D).filter (fun i => decide (i.val < d)) = (List.finRange d).map (Fin.castLE h) := by
  induction D with
  | zero =>
    obtain rfl : d = 0 := by omega
    rfl
  | succ D ih =>
    rcases Nat.lt_or_ge D d with hd | hd
    · obtain rfl : d = D + 1 := by omega
      have : (fun i : Fin (D + 1) => decide (i.val < D + 1)) = fun _ => true := by funext i; simp
      rw [this]
      simp
    · rw [List.finRange_succ_last, List.filter_append, List.filter_map]
      have e : ((fun i : Fin (D + 1) => decide (i.val < d)) ∘ Fin.castSucc) = fun i : Fin D => decide (i.val < d) := rfl
      rw [e, ih hd]
      have : ¬ D < d := by omega
      simp [this]

theorem longest_rng (h : d ≤ D) (r : Rng (d + 1)) : (longest (d + 1) (rng (D + 1) r)).val = (longestDim r).val := by
  unfold longest longestDim
  rw [finRange_filter (by omega : d + 1 ≤ D + 1), List.foldl_map]
  generalize List.finRange (d + 1) = l
  have key : ∀ (a : Fin (D + 1)) (b : Fin (d + 1)), a.val = b.val →
      (l.foldl (fun best i => if (rng (D + 1) r).size (Fin.castLE (by omega) i) > (rng (D + 1) r).size best
        then Fin.castLE (by omega) i else best) a).val =
      (l.foldl (fun best i => if r.size i > r.size best then i else best) b).val := by
    induction l with
    | nil => exact fun a b e => e
    | cons i l ih =>
      intro a b e
      simp only [List.foldl_cons]
      refine ih _ _ ?_
      have ha : a.val < d + 1 := by omega
      rw [size_lt r (i := (Fin.castLE (by omega) i : Fin (D + 1))) i.isLt, size_lt r ha]
      have e1 : (⟨(Fin.castLE (by omega : d + 1 ≤ D + 1) i).val, i.isLt⟩ : Fin (d + 1)) = i := rfl
      have e2 : (⟨a.val, ha⟩ : Fin (d + 1)) = b := Fin.ext e
      rw [e1, e2]
      split_ifs
      · rfl
      · exact e
  exact key _ _ rfl

theorem subregions_rng (h : d + 1 ≤ D) (r : Rng (d + 1)) (n : Nat) :
    subregions (d + 1) (rng D r) n = (createSubregions (Fin.last d) r n).map (List.map (rng D)) := by
  unfold subregions
  have hd : d + 1 - 1 < D := by omega
  rw [dif_pos hd]
  unfold createSubregions
  split_ifs with hn
  · rfl
  · simp only [Option.map_some, List.map_map, Option.some.injEq]
    have hl : (⟨d + 1 - 1, hd⟩ : Fin D).val < d + 1 := by simp
    rw [size_lt r hl, rngb_lt r hl]
    have el : (⟨(⟨d + 1 - 1, hd⟩ : Fin D).val, hl⟩ : Fin (d + 1)) = Fin.last d := rfl
    rw [el]
    refine List.map_congr_left fun k _ => ?_
    refine rng_ext fun i => ?_
    by_cases hi : i.val < d + 1
    · have : i = ⟨d + 1 - 1, hd⟩ ↔ (⟨i.val, hi⟩ : Fin (d + 1)) = Fin.last d := by
        rw [Fin.ext_iff, Fin.ext_iff]; rfl
      simp only [Function.comp, rng, hi, dif_pos, this, and_self]
    · have : i ≠ ⟨d + 1 - 1, hd⟩ := fun e => hi (by rw [e]; simp)
      simp only [Function.comp, rng, hi, this, if_false, dite_false, and_self]

/-! ### Indices -/

theorem prodExt_pad (k : Nat) (ext : List (Int × Int)) :
    Indexer.prodExt (ext ++ List.replicate k (0, 1)) = Indexer.prodExt ext := by
  induction ext with
  | nil => induction k with
    | zero => rfl
    | succ k ih => simpa [List.replicate_succ, Indexer.prodExt, Indexer.extent] using ih
  | cons x xs ih => simp [Indexer.prodExt, ih]

theorem dot_zero (k : Nat) (ss : List Int) : Indexer.dot ss (List.replicate k (0, 1)) (List.replicate k 0) = 0 := by
  induction k generalizing ss with
  | zero => cases ss <;> rfl
  | succ k ih => cases ss with
    | nil => rfl
    | cons s ss => simp [List.replicate_succ, Indexer.dot, ih]

theorem toIndex_pad (l : Indexer.Layout) (k : Nat) (ext : List (Int × Int)) (t : List Int) (h : t.length = ext.length) :
    Indexer.toIndex l (ext ++ List.replicate k (0, 1)) (t ++ List.replicate k 0) = Indexer.toIndex l ext t := by
  unfold Indexer.toIndex
  cases l with
  | row =>
    simp only [Indexer.strides]
    induction ext generalizing t with
    | nil =>
      obtain rfl : t = [] := List.length_eq_zero_iff.1 h
      exact dot_zero k _
    | cons x xs ih =>
      cases t with
      | nil => simp at h
      | cons a t =>
        simp only [List.cons_append, Indexer.stridesR, Indexer.dot, prodExt_pad]
        rw [ih t (by simpa using h)]
  | col =>
    simp only [Indexer.strides]
    suffices H : ∀ acc : Int, Indexer.dot (Indexer.stridesC acc (ext ++ List.replicate k (0, 1)))
        (ext ++ List.replicate k (0, 1)) (t ++ List.replicate k 0) = Indexer.dot (Indexer.stridesC acc ext) ext t from H 1
    intro acc
    induction ext generalizing t acc with
    | nil =>
      obtain rfl : t = [] := List.length_eq_zero_iff.1 h
      exact dot_zero k _
    | cons x xs ih =>
      cases t with
      | nil => simp at h
      | cons a t =>
        simp only [List.cons_append, Indexer.stridesC, Indexer.dot]
        rw [ih t (by simpa using h)]

/-! ### C126 -/

/-- C126: sets of points.  Whatever is computed from ranges and points with unused dimensions is what is computed without
them. -/
theorem C126_ranges (h : d ≤ D) (r s : Rng d) (t : Tup d) :
    (rng D r).empty = r.empty ∧ (rng D r).count = r.count ∧ (rng D r).contains (tup D t) = r.contains t ∧
    (rng D r).points = r.points.map (tup D) ∧ rangesOverlap (rng D r) (rng D s) = rangesOverlap r s ∧
    unionRanges (rng D r) (rng D s) = rng D (unionRanges r s) ∧
    intersectRanges (rng D r) (rng D s) = rng D (intersectRanges r s) ∧
    extendRange (rng D r) (tup D t) = rng D (extendRange r t) ∧
    clampToRange (rng D r) (tup D t) = tup D (clampToRange r t) ∧ emptyRange d = rng D (makeEmptyRange d) ∧
    (∀ lo hi, around d lo hi (tup D t) = rng D ⟨fun i => t i + lo, fun i => t i + hi⟩) ∧
    (∀ (l : Indexer.Layout) (k : Nat) (ext : List (Int × Int)) (u : List Int), u.length = ext.length →
      Indexer.toIndex l (ext ++ List.replicate k (0, 1)) (u ++ List.replicate k 0) = Indexer.toIndex l ext u) :=
  ⟨empty_rng h r, count_rng h r, contains_rng h r t, points_rng h r, overlap_rng h r s, union_rng h r s, intersect_rng r s,
    extend_rng h r t, clamp_rng r t, emptyRange_rng, fun lo hi => around_rng lo hi t, toIndex_pad⟩

/-- C126: index spaces, cells and pieces of ranges. -/
theorem C126_carts (h : d ≤ D) (c : Cart d) (r s : Rng d) (t : Tup d) :
    (Spec.cart D c).cart.periodicAdjust (tup D t) = tup D (c.periodicAdjust t) ∧
    (Spec.cart D c).cart.mapTupleToRange (rng D r) (tup D t) = (c.mapTupleToRange r t).map (tup D) ∧
    (Spec.cart D c).mapRange (rng D r) (rng D s) = padRes D (c.mapRangeToRange r s) ∧
    (∀ n, (Spec.cart D c).extendLocal (rng D r) n = rng D (extendLocalRange c r n)) ∧
    (Spec.cart D c).pointToCell = Spec.cart D (cartPointToCell c) ∧
    (Spec.cart D c).rangePointToCell (rng D r) = rng D (Ovk.rangePointToCell c r) ∧
    (Spec.cart D c).rangeCellToPointAll (rng D r) = rng D (Ovk.rangeCellToPointAll r) ∧
    (Spec.cart D c).includeExterior = Spec.cart D (cartIncludeExterior c) ∧
    (Spec.cart D c).rangeIncludeExterior (rng D r) = rng D (Ovk.rangeIncludeExterior c r) ∧
    (Spec.cart D c).cellCover (rng D r) = rng D (makeCellCoverRange c r) :=
  ⟨adjust_cart c t, mapTuple_cart h c r t, mapRange_cart h c r s, extendLocal_cart c r, pointToCell_cart c,
    rangePointToCell_cart c r, rangeCellToPointAll_cart c r, includeExterior_cart c, rangeIncludeExterior_cart c r,
    cellCover_cart c r⟩

/-- C126: ranges are cut in the same dimension and into the same pieces. -/
theorem C126_pieces (h : d ≤ D) (r : Rng (d + 1)) (n : Nat) :
    (longest (d + 1) (rng (D + 1) r)).val = (longestDim r).val ∧
    subregions (d + 1) (rng (D + 1) r) n = (createSubregions (Fin.last d) r n).map (List.map (rng (D + 1))) :=
  ⟨longest_rng h r, subregions_rng (by omega) r n⟩

/-- C126: the ranges of a grid. -/
theorem C126_grid (c : Cart d) (r : Rng d) :
    create (Spec.cart D c) (rng D r) = ⟨Spec.cart D c, rng D r, rng D (gridExtendedRange c r), Spec.cart D (cartPointToCell c),
      rng D (cellLocalRange c r), rng D (cellExtendedRange c r)⟩ := by
  unfold create
  simp only [pointToCell_cart, rangePointToCell_cart, extendLocal_cart, rangeCellToPointAll_cart]
  rfl

/-- Nothing is lost by looking at the dimensions that are used only. -/
theorem C126_faithful (h : d ≤ D) (s t : Tup d) (q r : Rng d) :
    (tup D s = tup D t ↔ s = t) ∧ (rng D q = rng D r ↔ q = r) :=
  ⟨tup_inj h, rng_inj h⟩

/-- The values of the parameters are those of the history of calls, newest first. -/
structure Agrees (p : Params) (h : List Call) : Prop where
  name : p.name = Spec.name h
  dims : p.dims = Spec.dims h
  comm : p.comm = Spec.comm h
  bounds : ∀ i, (p.cart.range.b i, p.cart.range.e i) = Spec.bounds i h
  loc : ∀ i, (p.loc.b i, p.loc.e i) = Spec.localBounds i h
  periodic : ∀ i, p.cart.periodic i = Spec.periodic i h

theorem agrees_apply {p : Params} {h : List Call} (H : Agrees p h) (c : Call) : Agrees (p.apply c) (c :: h) := by
  obtain ⟨h1, h2, h3, h4, h5, h6⟩ := H
  cases c with
  | dimension k =>
    refine ⟨h1, rfl, h3, fun i => ?_, fun i => ?_, fun i => ?_⟩
    · simp only [Params.apply, Params.setDimension, Spec.bounds]
      by_cases hk : k ≤ i.val
      · rw [if_pos hk]
        simp [assign, emptyRange, unit, Nat.not_lt.2 hk]
      · rw [if_neg hk, ← h4]
        simp [assign, Nat.not_le.1 hk]
    · simp only [Params.apply, Params.setDimension, Spec.localBounds]
      by_cases hk : k ≤ i.val
      · simp [hk]
      · simp only [hk, if_false]
        exact h5 i
    · simp only [Params.apply, Params.setDimension, Spec.periodic]
      by_cases hk : k ≤ i.val
      · simp [hk]
      · simp only [hk, if_false, Nat.not_le.1 hk, if_true]
        exact h6 i
  | name s => exact ⟨rfl, h2, h3, h4, h5, h6⟩
  | comm c => exact ⟨h1, h2, rfl, h4, h5, h6⟩
  | cart c => exact ⟨h1, h2, h3, fun _ => rfl, h5, fun _ => rfl⟩
  | globalRange r => exact ⟨h1, h2, h3, fun _ => rfl, h5, h6⟩
  | localRange r => exact ⟨h1, h2, h3, h4, fun _ => rfl, h6⟩
  | periodic q => exact ⟨h1, h2, h3, h4, h5, fun _ => rfl⟩
  | storage s => exact ⟨h1, h2, h3, h4, h5, h6⟩

theorem agrees_run {p q : Params} {h cs : List Call} (H : Agrees p h) (e : p.run cs = some q) : Agrees q (cs.reverse ++ h) := by
  induction cs generalizing p h with
  | nil =>
    obtain rfl : p = q := by simpa [Params.run] using e
    exact H
  | cons c cs ih =>
    rw [Params.run] at e
    split_ifs at e
    have := ih (agrees_apply H c) e
    simpa using this

/-- C126: every parameter, in every dimension, is what the latest call that concerns it says. -/
theorem C126_last (cs : List Call) (p : Params) (h : Params.start.run cs = some p) :
    p.name = Spec.name cs.reverse ∧ p.dims = Spec.dims cs.reverse ∧ p.comm = Spec.comm cs.reverse ∧
    ∀ i, (p.cart.range.b i, p.cart.range.e i) = Spec.bounds i cs.reverse ∧
      (p.loc.b i, p.loc.e i) = Spec.localBounds i cs.reverse ∧ p.cart.periodic i = Spec.periodic i cs.reverse := by
  have h0 : Agrees Params.start [] := ⟨rfl, rfl, rfl, fun _ => rfl, fun _ => rfl, fun _ => rfl⟩
  have H := agrees_run h0 h
  rw [List.append_nil] at H
  exact ⟨H.name, H.dims, H.comm, fun i => ⟨H.bounds i, H.loc i, H.periodic i⟩⟩

/-- C126: arrays of the C interface keep their meaning. -/
theorem C126_arrays (r : Rng 3) (a b : Nat → Int) :
    fromArrays (toArray r.b a) (toArray r.e b) = r ∧ ∀ k, 3 ≤ k → toArray r.b a k = a k := by
  refine ⟨rng_ext fun i => ?_, fun k hk => ?_⟩
  · simp [fromArrays, toArray]
  · simp [toArray, Nat.not_lt.2 hk]

theorem not_empty {r : Rng 3} (h : (!r.empty) = true) (i : Fin 3) : r.b i < r.e i := by
  by_contra hc
  have : r.empty = true := by
    unfold Rng.empty
    exact decide_eq_true ⟨i, by omega⟩
  rw [this] at h
  exact Bool.noConfusion h

theorem fits_start : Fits Params.start :=
  ⟨Or.inl rfl, rfl, by decide, rfl, by decide⟩

theorem fits_apply {p : Params} (H : Fits p) (c : Call) (ha : p.allows c = true) (hs : Sound c) : Fits (p.apply c) := by
  obtain ⟨h1, h2, h3, h4, h5⟩ := H
  cases c with
  | name s => exact ⟨h1, h2, h3, h4, h5⟩
  | comm c => exact ⟨h1, h2, h3, h4, h5⟩
  | storage s =>
    simp only [Params.allows, decide_eq_true_eq] at ha
    exact ⟨h1, h2, h3, ha, h5⟩
  | periodic q =>
    simp only [Params.allows, decide_eq_true_eq] at ha
    exact ⟨h1, h2, fun i hi => ⟨(h3 i hi).1, (h3 i hi).2.1, ha i hi, (h3 i hi).2.2.2⟩, h4, h5⟩
  | localRange r =>
    simp only [Params.allows, Bool.and_eq_true, decide_eq_true_eq] at ha
    exact ⟨h1, h2, fun i hi => ⟨(h3 i hi).1, (h3 i hi).2.1, (h3 i hi).2.2.1, ha.2 i hi⟩, h4,
      fun i => ⟨(h5 i).1, not_empty ha.1 i⟩⟩
  | globalRange r =>
    simp only [Params.allows, Bool.and_eq_true, decide_eq_true_eq] at ha
    exact ⟨h1, h2, fun i hi => ⟨(ha.2 i hi).1, (ha.2 i hi).2, (h3 i hi).2.2⟩, h4, fun i => ⟨not_empty ha.1 i, (h5 i).2⟩⟩
  | cart c =>
    simp only [Params.allows, Bool.and_eq_true, decide_eq_true_eq, beq_iff_eq] at ha
    obtain ⟨⟨⟨a1, a2⟩, a3⟩, a4⟩ := ha
    refine ⟨h1, a1, fun i hi => ⟨a2 i, ?_, ?_, (h3 i hi).2.2.2⟩, a4, fun i => ⟨?_, (h5 i).2⟩⟩
    · exact (hs i (by rw [a1]; exact hi)).1
    · exact (hs i (by rw [a1]; exact hi)).2
    · have := a3 i
      simp only [Rng.size] at this
      show c.range.b i < c.range.e i
      omega
  | dimension k =>
    simp only [Params.allows, Bool.or_eq_true, beq_iff_eq] at ha
    refine ⟨ha, rfl, fun i hi => ?_, h4, fun i => ?_⟩
    · have hk : k ≤ i.val := hi
      simp [Params.apply, Params.setDimension, assign, emptyRange, unit, Nat.not_lt.2 hk, hk]
    · by_cases hk : k ≤ i.val
      · simp [Params.apply, Params.setDimension, assign, emptyRange, unit, Nat.not_lt.2 hk, hk]
      · have := h5 i
        simpa [Params.apply, Params.setDimension, assign, Nat.not_le.1 hk, hk] using this

theorem fits_run {p q : Params} {cs : List Call} (H : Fits p) (hs : ∀ c ∈ cs, Sound c) (e : p.run cs = some q) : Fits q := by
  induction cs generalizing p with
  | nil =>
    obtain rfl : p = q := by simpa [Params.run] using e
    exact H
  | cons c cs ih =>
    rw [Params.run] at e
    split_ifs at e with ha
    exact ih (fits_apply H c ha (hs c (by simp))) (fun c hc => hs c (by simp [hc])) e

theorem fits_pad {p : Params} (H : Fits p) :
    ∃ (c : Cart p.dims) (r : Rng p.dims), p.cart = Spec.cart 3 c ∧ p.loc = rng 3 r := by
  have hd : p.dims ≤ 3 := by rcases H.dims with h | h <;> omega
  let f : Fin p.dims → Fin 3 := Fin.castLE hd
  refine ⟨⟨⟨fun i => p.cart.range.b (f i), fun i => p.cart.range.e (f i)⟩, fun i => p.cart.periodic (f i), p.cart.storage⟩,
    ⟨fun i => p.loc.b (f i), fun i => p.loc.e (f i)⟩, ?_, ?_⟩
  · have e1 := H.cart
    have e2 := H.unused
    generalize p.cart = x at e1 e2 ⊢
    obtain ⟨xd, xr, xp, xs⟩ := x
    simp only at e1 e2
    subst e1
    simp only [Spec.cart, PCart.mk.injEq, true_and, and_true]
    refine ⟨rng_ext fun i => ?_, funext fun i => ?_⟩
    · by_cases hi : i.val < p.dims
      · simp [rng, hi, f]
      · simp [rng, hi, e2 i (by omega)]
    · by_cases hi : i.val < p.dims
      · simp [hi, f]
      · simp [hi, e2 i (by omega)]
  · refine rng_ext fun i => ?_
    by_cases hi : i.val < p.dims
    · simp [rng, hi, f]
    · simp [rng, hi, H.unused i (by omega)]

/-- C126 as one would like it: parameters that pass the checks are those of a grid of their dimension. -/
def C126_statement : Prop := ∀ (cs : List Call) (p : Params), Params.start.run cs = some p → Fits p

/-- It fails: `SetCart` does not look at the dimensions that are not used. -/
theorem C126_false : ¬ C126_statement := by
  intro h
  have hp : Params.start.run [.cart ⟨2, ⟨fun _ => 0, fun _ => 7⟩, fun _ => true, .unique⟩] =
      some (Params.start.apply (.cart ⟨2, ⟨fun _ => 0, fun _ => 7⟩, fun _ => true, .unique⟩)) := by
    rw [Params.run, if_pos (by decide)]
    rfl
  have := (h _ _ hp).unused 2 (by decide)
  exact absurd this.2.1 (by decide)

/-- C126, if the carts that are given as a whole are carts of their dimension: after any calls that pass the checks, the
parameters are those of a grid of the dimension last set, and the ranges of the grid are those without unused dimensions. -/
theorem C126_params_partial (cs : List Call) (hs : ∀ c ∈ cs, Sound c) (p : Params) (h : Params.start.run cs = some p) :
    Fits p ∧ ∃ (c : Cart p.dims) (r : Rng p.dims), p.cart = Spec.cart 3 c ∧ p.loc = rng 3 r ∧
      create p.cart p.loc = ⟨Spec.cart 3 c, rng 3 r, rng 3 (gridExtendedRange c r), Spec.cart 3 (cartPointToCell c),
        rng 3 (cellLocalRange c r), rng 3 (cellExtendedRange c r)⟩ := by
  have hf := fits_run fits_start hs h
  obtain ⟨c, r, hc, hr⟩ := fits_pad hf
  exact ⟨hf, c, r, hc, hr, by rw [hc, hr, C126_grid]⟩

/-! ### Examples -/

/-- A grid of 5 by 4 points, periodic in the first dimension. -/
def cart54 : Cart 2 := ⟨⟨fun _ => 0, fun i => if i = 0 then 5 else 4⟩, fun i => i == 0, .unique⟩

/-- Calls that make it, after the program had set up three dimensions. -/
def calls : List Call :=
  [.dimension 3, .globalRange ⟨fun _ => 0, fun i => if i = 0 then 5 else 4⟩, .periodic fun i => i == 0, .name "A".toList,
    .dimension 2, .comm (some 3), .localRange ⟨fun i => if i = 0 then 2 else 0, fun i => if i = 0 then 5 else if i = 1 then 4 else 1⟩]

example : (Params.start.run calls).map (fun p => (p.dims, p.cart.range.e 1, p.cart.range.e 2, p.loc.b 0)) =
    some (2, 4, 1, 2) := by decide +kernel

example : ∀ c ∈ calls, Sound c := by
  intro c hc
  simp only [calls, List.mem_cons, List.not_mem_nil, or_false] at hc
  rcases hc with rfl | rfl | rfl | rfl | rfl | rfl | rfl <;> trivial

example : (Params.start.run calls).map (fun p => (p.cart.dims, decide (∀ i, p.cart.range.e i = (Spec.cart 3 cart54).range.e i ∧
    p.cart.periodic i = (Spec.cart 3 cart54).periodic i))) = some (2, true) := by decide +kernel

-- The second process has the points 2 to 5; cells wrap around, and the third dimension stays as it is.
example : let g := create (Spec.cart 3 cart54) (rng 3 (d := 2) ⟨fun i => if i = 0 then 2 else 0, fun i => if i = 0 then 5 else 4⟩)
    (g.extended.b 0, g.extended.e 0, g.extended.b 1, g.extended.e 1, g.extended.b 2, g.extended.e 2) = (0, 8, 0, 4, 0, 1) := by
  decide +kernel

example : (subregions 2 (rng 3 cart54.range) 2).map (List.map fun r => (r.b 1, r.e 1, r.e 0, r.e 2)) =
    some [(0, 2, 5, 1), (2, 4, 5, 1)] := by decide +kernel

end Ovk.Pad
