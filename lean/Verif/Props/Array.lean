import Verif.Model.Array
import Verif.Props.Indexer
import Mathlib.Tactic.Ring
import Mathlib.Tactic.Linarith
import Mathlib.Tactic.SplitIfs

/-
Properties C34 (resizing keeps the surviving elements), C54 (assigning a sequence) and C55 (one-dimensional arrays).
-/
namespace Ovk.Arr
open Indexer (Layout toIndex strides stridesR stridesC prodExt extent dot Inside AllPos)

namespace Spec
open Indexer.Spec (InExtents)

/-- The vector has exactly one cell per tuple. -/
def Fits (a : Arr α) : Prop := a.values.length = count a.ext

/-- The array is the sequence `s` with first index `b`. -/
def Is (a : Arr α) (b : Int) (s : List α) : Prop :=
  a.ext = [(b, b + (s.length : Int))] ∧ a.values.length = s.length ∧
    ∀ i : Nat, i < s.length → a.get .row [b + (i : Int)] = s[i]?

/-- What a call does to a sequence with first index; `none` when the call is not allowed. -/
def effect (b : Int) (s : List α) : Op α → Option (Int × List α)
  | .append v => some (b, s ++ [v])
  | .insert i v => if i ≤ s.length then some (b, s.insertIdx i v) else none
  | .erase i => if i < s.length then some (b, s.eraseIdx i) else none
  | .clear => some (0, [])
  | .fill b' e' v => if b' ≤ e' then some (b', List.replicate (e' - b').toNat v) else none
  | .resize b' e' v => if b' ≤ e' then some (b', (List.range (e' - b').toNat).map fun k : Nat =>
      if b ≤ b' + (k : Int) then s.getD (b' + (k : Int) - b).toNat v else v) else none

end Spec

open Indexer.Spec (InExtents)

theorem count_spec : ∀ ext : List (Int × Int), (count ext : Int) = Indexer.Spec.count ext
  | [] => by simp [count, Indexer.Spec.count]
  | x :: xs => by
    have := count_spec xs
    unfold Indexer.Spec.count at this ⊢
    rw [List.map_cons, List.prod_cons, ← this, count, Nat.cast_mul]
    congr 1
    omega

theorem contains_iff : ∀ (ext : List (Int × Int)) (t : List Int), contains ext t = true ↔ InExtents ext t
  | [], [] => by simp [contains, InExtents]
  | x :: xs, t :: ts => by
    have := contains_iff xs ts
    unfold InExtents at this ⊢
    rw [contains, List.forall₂_cons, ← this]
    simp
  | [], _ :: _ => by
    simp only [contains, InExtents, Bool.false_eq_true, false_iff]; intro h; cases h
  | _ :: _, [] => by
    simp only [contains, InExtents, Bool.false_eq_true, false_iff]; intro h; cases h

theorem mem_ints (x : Int × Int) (i : Int) : i ∈ ints x ↔ x.1 ≤ i ∧ i < x.2 := by
  unfold ints
  rw [List.mem_map]
  constructor
  · rintro ⟨k, hk, rfl⟩
    rw [List.mem_range] at hk
    omega
  · rintro ⟨h1, h2⟩
    exact ⟨(i - x.1).toNat, by rw [List.mem_range]; omega, by omega⟩

theorem mem_tuples (l : Layout) : ∀ (ext : List (Int × Int)) (t : List Int), t ∈ tuples l ext ↔ InExtents ext t
  | [], t => by
    unfold InExtents
    cases t with
    | nil => simp [tuples]
    | cons _ _ =>
      simp only [tuples, List.mem_singleton, reduceCtorEq, false_iff]; intro h; cases h
  | x :: xs, t => by
    have ih := mem_tuples l xs
    unfold InExtents at ih ⊢
    cases t with
    | nil =>
      have hf : ¬ List.Forall₂ (fun (x : Int × Int) v => x.1 ≤ v ∧ v < x.2) (x :: xs) [] := by intro h; cases h
      cases l <;> simp [tuples, hf]
    | cons i ts =>
      rw [List.forall₂_cons]
      cases l with
      | row =>
        simp only [tuples, List.mem_flatMap, List.mem_map, mem_ints, List.cons.injEq]
        constructor
        · rintro ⟨j, hj, u, hu, rfl, rfl⟩
          exact ⟨hj, (ih u).1 hu⟩
        · rintro ⟨hj, hu⟩
          exact ⟨i, hj, ts, (ih ts).2 hu, rfl, rfl⟩
      | col =>
        simp only [tuples, List.mem_flatMap, List.mem_map, mem_ints, List.cons.injEq]
        constructor
        · rintro ⟨u, hu, j, hj, rfl, rfl⟩
          exact ⟨hj, (ih u).1 hu⟩
        · rintro ⟨hj, hu⟩
          exact ⟨ts, (ih ts).2 hu, i, hj, rfl, rfl⟩

theorem index_nat (l : Layout) {ext : List (Int × Int)} {t : List Int} (h : InExtents ext t) :
    0 ≤ toIndex l ext t ∧ (toIndex l ext t).toNat < count ext := by
  have h1 := Indexer.C01_index_in_range l ext t h
  rw [← count_spec] at h1
  omega

theorem cell_eq (l : Layout) {ext : List (Int × Int)} {t : List Int} (h : InExtents ext t) (vals : List α) :
    cell l ext vals t = vals[(toIndex l ext t).toNat]? := by
  unfold cell
  rw [if_pos (index_nat l h).1]

theorem resizeVec_length (n : Nat) (v : α) (l : List α) : (resizeVec n v l).length = n := by
  unfold resizeVec
  rw [List.length_append, List.length_take, List.length_replicate]
  omega

theorem resizeVec_get (n : Nat) (v : α) (l : List α) (j : Nat) (h : j < n) :
    (resizeVec n v l)[j]? = some (l[j]?.getD v) := by
  unfold resizeVec
  by_cases hj : j < l.length
  · rw [List.getElem?_append_left (by rw [List.length_take]; omega), List.getElem?_take_of_lt h,
      List.getElem?_eq_getElem hj]
    rfl
  · rw [List.getElem?_append_right (by rw [List.length_take]; omega), List.getElem?_replicate, List.length_take,
      if_pos (by omega), List.getElem?_eq_none (by omega)]
    rfl

/-! ### Equal indexers -/

theorem dot_congr : ∀ (ss : List Int) (x y : List (Int × Int)) (t : List Int), x.map Prod.fst = y.map Prod.fst →
    dot ss x t = dot ss y t
  | [], x, y, t, _ => by simp [dot]
  | s :: ss, [], [], t, _ => rfl
  | s :: ss, [], _ :: _, t, h => by simp at h
  | s :: ss, _ :: _, [], t, h => by simp at h
  | s :: ss, a :: x, b :: y, [], _ => by simp [dot]
  | s :: ss, a :: x, b :: y, t :: ts, h => by
    rw [List.map_cons, List.map_cons, List.cons.injEq] at h
    rw [dot, dot, dot_congr ss x y ts h.2, h.1]

theorem rowTail_eq : ∀ {x y : List (Int × Int)}, AllPos y → x.map Prod.fst = y.map Prod.fst →
    stridesR x = stridesR y → prodExt x = prodExt y → x = y
  | [], [], _, _, _, _ => rfl
  | [], _ :: _, _, h, _, _ => by simp at h
  | _ :: _, [], _, h, _, _ => by simp at h
  | a :: x, b :: y, hp, hb, hs, hpr => by
    rw [List.map_cons, List.map_cons, List.cons.injEq] at hb
    rw [stridesR, stridesR, List.cons.injEq] at hs
    have hp' : AllPos y := fun z hz => hp z (by simp [hz])
    have e := rowTail_eq hp' hb.2 hs.2 hs.1
    subst e
    have hpos := Indexer.allPos_prod hp'
    rw [prodExt, prodExt] at hpr
    have := Int.eq_of_mul_eq_mul_right (by omega) hpr
    unfold extent at this
    have : a = b := Prod.ext hb.1 (by omega)
    rw [this]

theorem row_outside {x y : List (Int × Int)} {t : List Int} (hy : Inside y t) (hx : ¬ Inside x t)
    (hb : x.map Prod.fst = y.map Prod.fst) (hs : stridesR x = stridesR y) :
    (count x : Int) ≤ dot (stridesR x) x t := by
  match x, y, t with
  | [], [], [] => exact absurd hy hx
  | [], _ :: _, _ => simp at hb
  | _ :: _, [], _ => simp at hb
  | [], [], _ :: _ => simp [Inside] at hy
  | _ :: _, _ :: _, [] => simp [Inside] at hy
  | a :: x, b :: y, t :: ts =>
    rw [List.map_cons, List.map_cons, List.cons.injEq] at hb
    rw [stridesR, stridesR, List.cons.injEq] at hs
    rw [Inside] at hy hx
    have hp' := Indexer.allPos_of_inside hy.2.2
    have e := rowTail_eq hp' hb.2 hs.2 hs.1
    subst e
    have ht : a.2 ≤ t := by
      by_contra hc
      exact hx ⟨by omega, by omega, hy.2.2⟩
    have hpos := Indexer.allPos_prod hp'
    have hd := (Indexer.dotR_bounds hy.2.2).1
    have hc : (count x : Int) = prodExt x := by rw [count_spec, Indexer.count_eq hp']
    rw [stridesR, dot, count, Nat.cast_mul, hc]
    have h1 : ((a.2 - a.1).toNat : Int) ≤ t - a.1 := by omega
    have h2 := Int.mul_le_mul_of_nonneg_right h1 (by omega : 0 ≤ prodExt x)
    rw [Int.mul_comm (t - a.1)] at h2
    omega

theorem col_outside : ∀ {x y : List (Int × Int)} {t : List Int} {c : Int}, 0 < c → Inside y t → ¬ Inside x t →
    x.map Prod.fst = y.map Prod.fst → stridesC c x = stridesC c y →
    c * (count x : Int) ≤ dot (stridesC c x) x t
  | [], [], [], c, _, hy, hx, _, _ => absurd hy hx
  | [], _ :: _, _, _, _, _, _, hb, _ => by simp at hb
  | _ :: _, [], _, _, _, _, _, hb, _ => by simp at hb
  | [], [], _ :: _, _, _, hy, _, _, _ => by simp [Inside] at hy
  | _ :: _, _ :: _, [], _, _, hy, _, _, _ => by simp [Inside] at hy
  | [a], [b], [t], c, hc, hy, hx, hb, _ => by
    simp only [Inside, and_true] at hy hx
    simp only [List.map_cons, List.map_nil, List.cons.injEq, and_true] at hb
    simp only [stridesC, dot, count]
    have ht : a.2 ≤ t := by
      by_contra hc
      exact hx ⟨by omega, by omega⟩
    have h1 : (((a.2 - a.1).toNat * 1 : Nat) : Int) ≤ t - a.1 := by omega
    have := Int.mul_le_mul_of_nonneg_left h1 (by omega : 0 ≤ c)
    omega
  | [_], [_], _ :: _ :: _, _, _, hy, _, _, _ => by simp [Inside] at hy
  | [_], _ :: _ :: _, _, _, _, _, _, hb, _ => by simp at hb
  | _ :: _ :: _, [_], _, _, _, _, _, hb, _ => by simp at hb
  | _ :: _ :: _, _ :: _ :: _, [_], _, _, hy, _, _, _ => by simp [Inside] at hy
  | a :: a' :: x, b :: b' :: y, t :: t' :: ts, c, hc, hy, hx, hb, hs => by
    rw [List.map_cons, List.map_cons (l := b' :: y), List.cons.injEq] at hb
    have hs := (List.cons.inj (show c :: stridesC (extent a * c) (a' :: x) = c :: stridesC (extent b * c) (b' :: y)
      from hs))
    have he : extent a * c = extent b * c := (List.cons.inj (show extent a * c :: stridesC _ x =
      extent b * c :: stridesC _ y from hs.2)).1
    have he' := Int.eq_of_mul_eq_mul_right (by omega : c ≠ 0) he
    have hab : a = b := Prod.ext hb.1 (by unfold extent at he'; omega)
    subst hab
    rw [Inside] at hy hx
    have hx' : ¬ Inside (a' :: x) (t' :: ts) := fun h => hx ⟨hy.1, hy.2.1, h⟩
    have hpos : 0 < extent a := by unfold extent; omega
    have ih := col_outside (Int.mul_pos hpos hc) hy.2.2 hx' hb.2 hs.2
    rw [stridesC, dot, count, Nat.cast_mul]
    have h1 : ((a.2 - a.1).toNat : Int) = extent a := by unfold extent at *; omega
    rw [h1]
    have h2 : 0 ≤ c * (t - a.1) := Int.mul_nonneg (by omega) (by omega)
    have h3 : c * (extent a * (count (a' :: x) : Int)) = extent a * c * (count (a' :: x) : Int) := by ring
    omega

theorem same_outside (l : Layout) {x y : List (Int × Int)} {t : List Int} (h : sameIndexer l y x = true)
    (hy : InExtents y t) (hx : ¬ InExtents x t) : (count x : Int) ≤ toIndex l x t := by
  unfold sameIndexer at h
  rw [Bool.and_eq_true, decide_eq_true_eq, decide_eq_true_eq] at h
  rw [Indexer.inExtents_iff] at hy hx
  cases l with
  | row => exact row_outside hy hx h.1.symm h.2.symm
  | col =>
    have := col_outside (c := 1) (by omega) hy hx h.1.symm h.2.symm
    rw [Int.one_mul] at this
    exact this

theorem same_index (l : Layout) {x y : List (Int × Int)} (t : List Int) (h : sameIndexer l y x = true) :
    toIndex l y t = toIndex l x t := by
  unfold sameIndexer at h
  rw [Bool.and_eq_true, decide_eq_true_eq, decide_eq_true_eq] at h
  unfold toIndex
  rw [h.2]
  exact dot_congr _ _ _ _ h.1

/-! ### Copying -/

theorem copy_loop (l : Layout) (old : List (Int × Int)) (vals : List α) (hv : vals.length = count old)
    (ext : List (Int × Int)) : ∀ (ts : List (List Int)) (fresh : List α), (∀ t ∈ ts, InExtents old t) →
    fresh.length = count ext →
    ∃ r, ts.foldlM (fun w t => if contains ext t then (cell l old vals t).bind (put l ext w t) else some w) fresh =
        some r ∧ r.length = count ext ∧
      ∀ t, InExtents ext t → r[(toIndex l ext t).toNat]? =
        if t ∈ ts then vals[(toIndex l old t).toNat]? else fresh[(toIndex l ext t).toNat]? := by
  intro ts
  induction ts with
  | nil => intro fresh _ hf; exact ⟨fresh, rfl, hf, by simp⟩
  | cons u us ih =>
    intro fresh hin hf
    rw [List.foldlM_cons]
    have hu := hin u (by simp)
    by_cases hc : contains ext u = true
    · have hue := (contains_iff ext u).1 hc
      have hi := index_nat l hu
      have hi' := index_nat l hue
      have hlt : (toIndex l old u).toNat < vals.length := by omega
      rw [if_pos hc, cell_eq l hu, List.getElem?_eq_getElem hlt]
      dsimp only [Option.bind_some]
      unfold put
      rw [if_pos ⟨hi'.1, by omega⟩]
      obtain ⟨r, r1, r2, r3⟩ := ih (fresh.set (toIndex l ext u).toNat vals[(toIndex l old u).toNat])
        (fun t ht => hin t (by simp [ht])) (by simpa using hf)
      refine ⟨r, r1, r2, fun t ht => ?_⟩
      rw [r3 t ht]
      by_cases htu : t = u
      · subst htu
        rw [if_pos (List.mem_cons_self ..), List.getElem?_set_self (by omega), List.getElem?_eq_getElem hlt]
        simp
      · have hne : (toIndex l ext u).toNat ≠ (toIndex l ext t).toNat := by
          intro e
          have hi2 := index_nat l ht
          exact htu (Indexer.C01_injective l ext t u ht hue (by omega))
        rw [List.getElem?_set_ne hne]
        simp [List.mem_cons, htu]
    · rw [if_neg hc]
      obtain ⟨r, r1, r2, r3⟩ := ih fresh (fun t ht => hin t (by simp [ht])) hf
      refine ⟨r, r1, r2, fun t ht => ?_⟩
      rw [r3 t ht]
      have : t ≠ u := fun e => hc ((contains_iff ext u).2 (e ▸ ht))
      simp [List.mem_cons, this]

open Classical in
/-- **C34**: resizing never fails, keeps the value of every tuple in both the old and the new extents, and gives every
other tuple of the new extents the fill value. -/
theorem C34_resize (l : Layout) (v : α) (a : Arr α) (ext : List (Int × Int)) (h : Spec.Fits a) :
    ∃ a', a.resize l v ext = some a' ∧ a'.ext = ext ∧ Spec.Fits a' ∧
      ∀ t, InExtents ext t → a'.get l t = if InExtents a.ext t then a.get l t else some v := by
  unfold Spec.Fits at h ⊢
  unfold Arr.resize Arr.get
  by_cases hs : sameIndexer l ext a.ext = true
  · rw [if_pos hs]
    refine ⟨_, rfl, rfl, resizeVec_length _ _ _, fun t ht => ?_⟩
    dsimp only
    have hi := index_nat l ht
    rw [cell_eq l ht, resizeVec_get _ _ _ _ hi.2]
    split_ifs with ho
    · have hio := index_nat l ho
      rw [cell_eq l ho, same_index l t hs, List.getElem?_eq_getElem (by omega)]
      rfl
    · have := same_outside l hs ht ho
      rw [List.getElem?_eq_none]
      · rfl
      · rw [same_index l t hs]
        omega
  · rw [if_neg hs, if_neg (by omega)]
    dsimp only
    rw [List.take_of_length_le (by omega), List.drop_of_length_le (by omega), List.append_nil]
    obtain ⟨r, r1, r2, r3⟩ := copy_loop l a.ext a.values h ext (tuples l a.ext)
      (resizeVec (count ext) v (List.replicate (count a.ext) v)) (fun t => (mem_tuples l a.ext t).1)
      (resizeVec_length _ _ _)
    rw [r1]
    refine ⟨_, rfl, rfl, r2, fun t ht => ?_⟩
    dsimp only
    have hi := index_nat l ht
    rw [cell_eq l ht, r3 t ht]
    split_ifs with h1 h2 h2
    · rw [cell_eq l h2]
    · exact absurd ((mem_tuples l a.ext t).1 h1) h2
    · exact absurd ((mem_tuples l a.ext t).2 h2) h1
    · rw [resizeVec_get _ _ _ _ hi.2, List.getElem?_replicate]
      split_ifs <;> rfl

/-- A 2x3 array becomes 3x2 with another begin; one of the old columns survives. -/
def exArr : Arr Nat := ⟨[1, 2, 3, 4, 5, 6], [(0, 2), (0, 3)]⟩

example : Spec.Fits exArr := rfl
example : (exArr.resize .row 0 [(0, 3), (1, 3)]).map Arr.values = some [2, 3, 5, 6, 0, 0] := by decide
example : (exArr.resize .col 0 [(0, 3), (1, 3)]).map Arr.values = some [3, 4, 0, 5, 6, 0] := by decide
-- equal indexers, different extents
example : (exArr.resize .row 0 [(0, 3), (0, 3)]).map Arr.values = some [1, 2, 3, 4, 5, 6, 0, 0, 0] := by decide

/-! ### C54: assigning a sequence -/

/-- Full statement: assigning a sequence having one value per tuple of the extents makes it the content. -/
def C54_statement : Prop := ∀ (a : Arr Nat) (ext : List (Int × Int)) (src : List Nat), Spec.Fits a →
  src.length = count ext → ∃ a', a.assignIter ext src = some a' ∧ a'.ext = ext ∧ a'.values = src

/-- **C54 (partial)**: it holds when the array does not shrink.  Missing: shrinking, see `C54_false`. -/
theorem C54_partial (a : Arr α) (ext : List (Int × Int)) (src : List α) (h : Spec.Fits a)
    (hl : src.length = count ext) (hg : count a.ext ≤ count ext) :
    ∃ a', a.assignIter ext src = some a' ∧ a'.ext = ext ∧ a'.values = src ∧ Spec.Fits a' := by
  unfold Spec.Fits at h ⊢
  unfold Arr.assignIter
  dsimp only
  rw [if_neg (by omega)]
  have : (src.drop a.values.length).take ((count ext : Int) - (count a.ext : Int)).toNat =
      src.drop a.values.length := by
    rw [List.take_of_length_le]
    rw [List.length_drop]
    omega
  refine ⟨_, rfl, rfl, ?_, ?_⟩
  · dsimp only
    rw [this, List.take_append_drop]
  · dsimp only
    rw [this, List.take_append_drop, hl]

/-- **C54 is false**: assigning two values to an array of three reads behind the end of the source. -/
theorem C54_false : ¬ C54_statement := by
  intro h
  obtain ⟨a', h1, -⟩ := h ⟨[1, 2, 3], [(0, 3)]⟩ [(0, 2)] [7, 8] rfl rfl
  have : (Arr.assignIter (⟨[1, 2, 3], [(0, 3)]⟩ : Arr Nat) [(0, 2)] [7, 8]).isNone = true := by decide
  rw [h1] at this
  cases this

/-- **C54 (what is read)**: assigning reads as many values as the larger of the old and the new array has. -/
theorem C54_reads (a : Arr α) (ext : List (Int × Int)) (src : List α) (h : Spec.Fits a) :
    a.assignIter ext src = none ↔ src.length < max (count a.ext) (count ext) := by
  unfold Spec.Fits at h
  unfold Arr.assignIter
  dsimp only
  split <;> simp <;> omega

/-- **C54 (shrinking)**: even if the source can be read further, the array afterwards holds cells outside its extents,
and the next appended value cannot be found at the end. -/
theorem C54_append_false : ∃ (a a' : Arr Nat), Spec.Fits a ∧ a.assignIter [(0, 2)] [7, 8, 9] = some a' ∧
    ¬ Spec.Fits a' ∧ (a'.append 5).ext = [(0, 3)] ∧ (a'.append 5).get .row [2] ≠ some 5 :=
  ⟨⟨[1, 2, 3], [(0, 3)]⟩, ⟨[7, 8, 9], [(0, 2)]⟩, rfl, rfl, by unfold Spec.Fits; decide, rfl, by decide⟩

example : Spec.Fits exArr ∧ [9, 8, 7, 6, 5, 4, 3, 2].length = count [(1, 3), (0, 4)] ∧
    count exArr.ext ≤ count [(1, 3), (0, 4)] := by
  unfold Spec.Fits; decide

/-! ### C55: one-dimensional arrays -/

theorem get_one (b e : Int) (vals : List α) (i : Nat) :
    Arr.get .row ⟨vals, [(b, e)]⟩ [b + (i : Int)] = vals[i]? := by
  have : toIndex .row [(b, e)] [b + (i : Int)] = (i : Int) := by
    simp [toIndex, strides, stridesR, dot, prodExt]
  unfold Arr.get cell
  rw [this, if_pos (by omega)]
  simp

theorem is_iff (a : Arr α) (b : Int) (s : List α) :
    Spec.Is a b s ↔ a.ext = [(b, b + (s.length : Int))] ∧ a.values = s := by
  obtain ⟨vals, ext⟩ := a
  unfold Spec.Is
  dsimp only
  constructor
  · rintro ⟨rfl, h1, h2⟩
    refine ⟨rfl, List.ext_getElem? fun i => ?_⟩
    by_cases hi : i < s.length
    · have := h2 i hi
      rw [get_one] at this
      exact this
    · rw [List.getElem?_eq_none (by omega), List.getElem?_eq_none (by omega)]
  · rintro ⟨rfl, rfl⟩
    exact ⟨rfl, rfl, fun i _ => get_one _ _ _ _⟩

theorem insertIdx_split : ∀ (s : List α) (i : Nat) (v : α), i ≤ s.length →
    s.insertIdx i v = s.take i ++ v :: s.drop i
  | _, 0, _, _ => by simp
  | [], i + 1, _, h => by simp at h
  | x :: s, i + 1, v, h => by
    rw [List.insertIdx_succ_cons, insertIdx_split s i v (by simpa using h)]
    simp

theorem step_is (a : Arr α) (b : Int) (s : List α) (h : Spec.Is a b s) (o : Op α) (b' : Int) (s' : List α)
    (he : Spec.effect b s o = some (b', s')) : ∃ a', step a o = some a' ∧ Spec.Is a' b' s' := by
  obtain ⟨h1, h2⟩ := (is_iff a b s).1 h
  obtain ⟨vals, ext⟩ := a
  dsimp only at h1 h2
  subst h1 h2
  cases o with
  | append v =>
    simp only [Spec.effect, Option.some.injEq, Prod.mk.injEq] at he
    obtain ⟨rfl, rfl⟩ := he
    refine ⟨_, rfl, (is_iff _ _ _).2 ⟨?_, rfl⟩⟩
    simp only [Arr.append, grow, List.length_append, List.length_singleton, Nat.cast_add, Nat.cast_one,
      Int.add_assoc]
  | insert i v =>
    simp only [Spec.effect] at he
    split_ifs at he with hi
    rw [Option.some.injEq, Prod.mk.injEq] at he
    obtain ⟨rfl, rfl⟩ := he
    refine ⟨_, if_pos hi, (is_iff _ _ _).2 ⟨?_, ?_⟩⟩
    · simp only [grow, List.length_insertIdx, if_pos hi, Nat.cast_add, Nat.cast_one, Int.add_assoc]
    · simp only
      exact (insertIdx_split vals i v hi).symm
  | erase i =>
    simp only [Spec.effect] at he
    split_ifs at he with hi
    rw [Option.some.injEq, Prod.mk.injEq] at he
    obtain ⟨rfl, rfl⟩ := he
    refine ⟨_, if_pos hi, (is_iff _ _ _).2 ⟨?_, ?_⟩⟩
    · simp only [grow, List.length_eraseIdx, if_pos hi]
      rw [show b + (vals.length : Int) + -1 = b + ((vals.length - 1 : Nat) : Int) by omega]
    · simp only
      rw [List.eraseIdx_eq_take_drop_succ]
  | clear =>
    simp only [Spec.effect, Option.some.injEq, Prod.mk.injEq] at he
    obtain ⟨rfl, rfl⟩ := he
    exact ⟨_, rfl, (is_iff _ _ _).2 ⟨rfl, rfl⟩⟩
  | fill b2 e2 v =>
    simp only [Spec.effect] at he
    split_ifs at he with hi
    rw [Option.some.injEq, Prod.mk.injEq] at he
    obtain ⟨rfl, rfl⟩ := he
    refine ⟨_, rfl, (is_iff _ _ _).2 ⟨?_, ?_⟩⟩
    · simp only [Arr.assignFill, List.length_replicate]
      rw [show b2 + (((e2 - b2).toNat : Nat) : Int) = e2 by omega]
    · simp [Arr.assignFill, count]
  | resize b2 e2 v =>
    simp only [Spec.effect] at he
    split_ifs at he with hi
    rw [Option.some.injEq, Prod.mk.injEq] at he
    obtain ⟨rfl, rfl⟩ := he
    obtain ⟨a', r1, r2, r3, r4⟩ := C34_resize .row v (⟨vals, [(b, b + (vals.length : Int))]⟩ : Arr α) [(b2, e2)]
      (by unfold Spec.Fits; simp [count])
    obtain ⟨vals', ext'⟩ := a'
    dsimp only at r2
    subst r2
    unfold Spec.Fits at r3
    simp only [count, Nat.mul_one] at r3
    refine ⟨_, r1, ?_⟩
    refine ⟨?_, ?_, ?_⟩
    · simp only [List.length_map, List.length_range]
      rw [show b2 + (((e2 - b2).toNat : Nat) : Int) = e2 by omega]
    · simp [r3]
    · intro i hil
      simp only [List.length_map, List.length_range] at hil
      have hin : InExtents [(b2, e2)] [b2 + (i : Int)] := by
        unfold InExtents
        refine List.Forall₂.cons ⟨?_, ?_⟩ List.Forall₂.nil
        · show b2 ≤ b2 + (i : Int)
          omega
        · show b2 + (i : Int) < e2
          omega
      rw [r4 _ hin]
      have hio : InExtents [(b, b + (vals.length : Int))] [b2 + (i : Int)] ↔
          b ≤ b2 + (i : Int) ∧ b2 + (i : Int) < b + (vals.length : Int) := by
        unfold InExtents
        simp
      rw [List.getElem?_map, List.getElem?_range hil]
      dsimp only [Option.map_some]
      by_cases hb : b ≤ b2 + (i : Int)
      · by_cases he : b2 + (i : Int) < b + (vals.length : Int)
        · rw [if_pos (hio.2 ⟨hb, he⟩), if_pos hb]
          have hlt : (b2 + (i : Int) - b).toNat < vals.length := by omega
          have := get_one b (b + (vals.length : Int)) vals (b2 + (i : Int) - b).toNat
          rw [show b + (((b2 + (i : Int) - b).toNat : Nat) : Int) = b2 + (i : Int) by omega] at this
          rw [this, List.getD_eq_getElem?_getD, List.getElem?_eq_getElem hlt]
          rfl
        · rw [if_neg (fun h => he (hio.1 h).2), if_pos hb, List.getD_eq_getElem?_getD,
            List.getElem?_eq_none (by omega)]
          rfl
      · rw [if_neg (fun h => hb (hio.1 h).1), if_neg hb]

/-- **C55**: a one-dimensional array is a sequence with a first index: after any history of allowed calls it has the
contents and extents of the sequence treated in the same way. -/
theorem C55_history (ops : List (Op α)) : ∀ (a : Arr α) (b : Int) (s : List α), Spec.Is a b s →
    ∀ b' s', ops.foldlM (fun q o => Spec.effect q.1 q.2 o) (b, s) = some (b', s') →
    ∃ a', ops.foldlM step a = some a' ∧ Spec.Is a' b' s' := by
  induction ops with
  | nil =>
    intro a b s h b' s' e
    cases e
    exact ⟨a, rfl, h⟩
  | cons o os ih =>
    intro a b s h b' s' e
    rw [List.foldlM_cons] at e ⊢
    cases ho : Spec.effect b s o with
    | none => rw [ho] at e; cases e
    | some q =>
      obtain ⟨b1, s1⟩ := q
      rw [ho] at e
      obtain ⟨a1, h1, h2⟩ := step_is a b s h o b1 s1 ho
      rw [h1]
      exact ih a1 b1 s1 h2 b' s' e

example : Spec.Is (⟨[], [(0, 0)]⟩ : Arr Nat) 0 [] := (is_iff _ _ _).2 ⟨rfl, rfl⟩
example : ([Op.append 4, .append 5, .insert 1 9, .resize (-1) 2 7, .erase 1] : List (Op Nat)).foldlM
    (fun q o => Spec.effect q.1 q.2 o) (0, []) = some (-1, [7, 9]) := by decide +kernel
example : (([Op.append 4, .append 5, .insert 1 9, .resize (-1) 2 7, .erase 1] : List (Op Nat)).foldlM step
    ⟨[], [(0, 0)]⟩).map Arr.values = some [7, 9] := by decide +kernel

end Ovk.Arr
