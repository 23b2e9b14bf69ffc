/-
C117: ForEach visits every tuple of an interval once, in the order of the layout.
-/
import Mathlib.Data.List.Sort
import Verif.Model.ForEach
import Verif.Props.Array

namespace Ovk.Each

open Indexer (Layout toIndex toTuple)
open Indexer.Spec (InExtents)
open Arr (ints tuples)

variable {σ : Type}

/-! ### Specification -/

namespace Spec

/-- The order of a layout: the first difference decides, from the first dimension or from the last one. -/
def Before : Layout → List Int → List Int → Prop
  | .row, t, u => t < u
  | .col, t, u => t.reverse < u.reverse

end Spec

/-! ### Loops -/

theorem loop_eq (body : σ → Int → σ) : ∀ (m : Nat) (i : Int) (s : σ),
    loop body m i s = ((List.range m).map fun k : Nat => i + (k : Int)).foldl body s
  | 0, _, _ => rfl
  | m + 1, i, s => by
    rw [loop, loop_eq body m, List.range_succ_eq_map, List.map_cons, List.foldl_cons, List.map_map]
    have : (fun k : Nat => i + 1 + (k : Int)) = (fun k : Nat => i + (k : Int)) ∘ Nat.succ := by
      funext k
      simp only [Function.comp_apply]
      omega
    rw [this]
    simp

theorem over_eq {ext : List (Int × Int)} {dim : Nat} {x : Int × Int} (h : ext[dim]? = some x) (body : σ → Int → σ) (s : σ) :
    over ext dim body s = (ints x).foldl body s := by
  rw [over, h]
  exact loop_eq body _ _ _

theorem foldl_flatMap' {α β : Type} (f : σ → β → σ) (g : α → List β) : ∀ (l : List α) (s : σ),
    (l.flatMap g).foldl f s = l.foldl (fun s a => (g a).foldl f s) s
  | [], _ => rfl
  | a :: l, s => by rw [List.flatMap_cons, List.foldl_append, List.foldl_cons, foldl_flatMap' f g l]

theorem row_eq (ext : List (Int × Int)) (func : σ → List Int → σ) : ∀ (I : Nat) (pre : List Int) (s : σ), I < ext.length →
    row ext func I pre s = (tuples .row (ext.drop (ext.length - 1 - I))).foldl (fun s t => func s (pre ++ t)) s
  | 0, pre, s, h => by
    have hx : ext[ext.length - 1]? = some ext[ext.length - 1] := List.getElem?_eq_getElem (by omega)
    rw [row, over_eq hx, Nat.sub_zero, List.drop_eq_getElem_cons (by omega)]
    have : ext.drop (ext.length - 1 + 1) = [] := List.drop_eq_nil_of_le (by omega)
    rw [this, tuples, foldl_flatMap']
    simp [tuples]
  | I + 1, pre, s, h => by
    have hx : ext[ext.length - 1 - (I + 1)]? = some ext[ext.length - 1 - (I + 1)] := List.getElem?_eq_getElem (by omega)
    rw [row, over_eq hx, List.drop_eq_getElem_cons (by omega), tuples, foldl_flatMap']
    congr 1
    funext s i
    rw [row_eq ext func I (pre ++ [i]) s (by omega)]
    have : ext.length - 1 - (I + 1) + 1 = ext.length - 1 - I := by omega
    rw [this, List.foldl_map]
    simp

theorem tuples_col_append : ∀ (xs : List (Int × Int)) (x : Int × Int),
    tuples .col (xs ++ [x]) = (ints x).flatMap fun i => (tuples .col xs).map (· ++ [i])
  | [], x => by simp [tuples, List.map_eq_flatMap]
  | y :: xs, x => by
    rw [List.cons_append, tuples, tuples_col_append xs x, List.flatMap_assoc]
    congr 1
    funext i
    rw [tuples, List.flatMap_map, List.map_flatMap]
    congr 1
    funext ts
    rw [List.map_map]
    rfl

theorem col_eq (ext : List (Int × Int)) (func : σ → List Int → σ) : ∀ (I : Nat) (post : List Int) (s : σ), I < ext.length →
    col ext func I post s = (tuples .col (ext.take (I + 1))).foldl (fun s t => func s (t ++ post)) s
  | 0, post, s, h => by
    have hx : ext[0]? = some ext[0] := List.getElem?_eq_getElem h
    rw [col, over_eq hx, List.take_add_one, hx]
    simp [tuples, List.foldl_map]
  | I + 1, post, s, h => by
    have hx : ext[I + 1]? = some ext[I + 1] := List.getElem?_eq_getElem h
    rw [col, over_eq hx, List.take_add_one, hx, Option.toList_some, tuples_col_append, foldl_flatMap']
    congr 1
    funext s i
    rw [col_eq ext func I (i :: post) s (by omega), List.foldl_map]
    simp

theorem forEach_eq (l : Layout) {ext : List (Int × Int)} (h : ext ≠ []) (func : σ → List Int → σ) (s : σ) :
    forEach l ext func s = (tuples l ext).foldl func s := by
  have hl : 0 < ext.length := List.length_pos_iff.mpr h
  cases l with
  | row =>
    rw [forEach, row_eq ext func (ext.length - 1) [] s (by omega), Nat.sub_self]
    simp
  | col =>
    rw [forEach, col_eq ext func (ext.length - 1) [] s (by omega)]
    have : ext.length - 1 + 1 = ext.length := by omega
    rw [this, List.take_length]
    simp

/-! ### Order -/

theorem ints_pairwise (x : Int × Int) : (ints x).Pairwise (· < ·) := by
  rw [ints, List.pairwise_map]
  exact List.pairwise_lt_range.imp fun h => by omega

theorem pairwise_flatMap {α β : Type} {R : α → α → Prop} {S : β → β → Prop} (g : α → List β) :
    ∀ {l : List α}, l.Pairwise R → (∀ a, (g a).Pairwise S) → (∀ a b, R a b → ∀ x ∈ g a, ∀ y ∈ g b, S x y) →
      (l.flatMap g).Pairwise S
  | [], _, _, _ => List.Pairwise.nil
  | a :: l, hl, hg, hs => by
    rw [List.flatMap_cons, List.pairwise_append]
    have h := List.pairwise_cons.mp hl
    refine ⟨hg a, pairwise_flatMap g h.2 hg hs, ?_⟩
    intro x hx y hy
    obtain ⟨b, hb, hy⟩ := List.mem_flatMap.mp hy
    exact hs a b (h.1 b hb) x hx y hy

theorem row_pairwise : ∀ ext : List (Int × Int), (tuples .row ext).Pairwise (Spec.Before .row)
  | [] => List.pairwise_singleton _ _
  | x :: xs => by
    rw [tuples]
    refine pairwise_flatMap _ (ints_pairwise x) ?_ ?_
    · intro i
      rw [List.pairwise_map]
      exact (row_pairwise xs).imp fun {t u} h => by
        simp only [Spec.Before] at h ⊢
        exact List.cons_lt_cons_iff.mpr (Or.inr ⟨rfl, h⟩)
    · intro i j hij t ht u hu
      obtain ⟨t, -, rfl⟩ := List.mem_map.mp ht
      obtain ⟨u, -, rfl⟩ := List.mem_map.mp hu
      exact List.cons_lt_cons_iff.mpr (Or.inl hij)

theorem append_lt {t u : List Int} (h : t < u) (hl : t.length = u.length) (a b : List Int) : t ++ a < u ++ b := by
  induction t generalizing u with
  | nil =>
    cases u with
    | nil => exact absurd h (List.lt_irrefl _)
    | cons => simp at hl
  | cons x t ih =>
    cases u with
    | nil => simp at hl
    | cons y u =>
      rcases List.cons_lt_cons_iff.mp h with h | ⟨h, h'⟩
      · exact List.cons_lt_cons_iff.mpr (Or.inl h)
      · exact List.cons_lt_cons_iff.mpr (Or.inr ⟨h, ih h' (by simpa using hl)⟩)

theorem append_lt_left {a b : List Int} (h : a < b) : ∀ t : List Int, t ++ a < t ++ b
  | [] => h
  | _ :: t => List.cons_lt_cons_iff.mpr (Or.inr ⟨rfl, append_lt_left h t⟩)

theorem tuples_length (l : Layout) {ext : List (Int × Int)} {t : List Int} (h : t ∈ tuples l ext) : t.length = ext.length :=
  (((Arr.mem_tuples l ext t).mp h).length_eq).symm

theorem col_pairwise : ∀ ext : List (Int × Int), (tuples .col ext).Pairwise (Spec.Before .col)
  | [] => List.pairwise_singleton _ _
  | x :: xs => by
    have key : ((tuples .col xs).flatMap fun ts => (ints x).map (· :: ts)).Pairwise (Spec.Before .col) := by
      have hp : (tuples .col xs).Pairwise fun t u => Spec.Before .col t u ∧ t.length = u.length := by
        refine (List.Pairwise.and_mem.mp (col_pairwise xs)).imp fun {t u} h => ?_
        exact ⟨h.2.2, by rw [tuples_length .col h.1, tuples_length .col h.2.1]⟩
      refine pairwise_flatMap _ hp ?_ ?_
      · intro ts
        rw [List.pairwise_map]
        refine (ints_pairwise x).imp fun {i j} h => ?_
        simp only [Spec.Before, List.reverse_cons]
        exact append_lt_left (List.cons_lt_cons_iff.mpr (Or.inl h)) _
      · intro t u h a ha b hb
        obtain ⟨i, -, rfl⟩ := List.mem_map.mp ha
        obtain ⟨j, -, rfl⟩ := List.mem_map.mp hb
        simp only [Spec.Before, List.reverse_cons] at h ⊢
        exact append_lt h.1 (by simpa using h.2) _ _
    exact key

theorem tuples_pairwise (l : Layout) (ext : List (Int × Int)) : (tuples l ext).Pairwise (Spec.Before l) := by
  cases l
  · exact row_pairwise ext
  · exact col_pairwise ext

theorem before_index (l : Layout) {ext : List (Int × Int)} {t u : List Int} (ht : InExtents ext t) (hu : InExtents ext u)
    (h : Spec.Before l t u) : toIndex l ext t < toIndex l ext u := by
  cases l with
  | row => exact Indexer.C01_row_major_lex ext t u ht hu h
  | col =>
    rw [Indexer.C01_col_major_reverse ext t ht, Indexer.C01_col_major_reverse ext u hu]
    refine Indexer.C01_row_major_lex _ _ _ ?_ ?_ h
    · exact List.forall₂_reverse_iff.mpr ht
    · exact List.forall₂_reverse_iff.mpr hu

/-! ### C117 -/

/-- C117: `ForEach` calls the function once for each tuple of the interval, in the order of the layout. -/
theorem C117_each (l : Layout) {ext : List (Int × Int)} (h : ext ≠ []) : ∃ calls : List (List Int),
    (∀ (σ : Type) (func : σ → List Int → σ) (s : σ), forEach l ext func s = calls.foldl func s) ∧
    (∀ t, t ∈ calls ↔ InExtents ext t) ∧ calls.Pairwise (Spec.Before l) :=
  ⟨tuples l ext, fun _ func s => forEach_eq l h func s, Arr.mem_tuples l ext, tuples_pairwise l ext⟩

/-- C117: the calls follow the indices of arrays with the same layout: the call with number `k` is for the tuple with
index `k`. -/
theorem C117_index (l : Layout) {ext : List (Int × Int)} (h : ext ≠ []) (func : σ → List Int → σ) (s : σ) :
    forEach l ext func s =
      ((List.range (Indexer.Spec.count ext).toNat).map fun k : Nat => toTuple l ext (k : Int)).foldl func s := by
  rw [forEach_eq l h]
  congr 1
  have h1 : ((tuples l ext).map (toIndex l ext)).Pairwise (· < ·) := by
    rw [List.pairwise_map]
    refine (List.Pairwise.and_mem.mp (tuples_pairwise l ext)).imp fun {t u} h => ?_
    exact before_index l ((Arr.mem_tuples l ext t).mp h.1) ((Arr.mem_tuples l ext u).mp h.2.1) h.2.2
  have h2 : ((List.range (Indexer.Spec.count ext).toNat).map fun k : Nat => (k : Int)).Pairwise (· < ·) := by
    rw [List.pairwise_map]
    exact List.pairwise_lt_range.imp fun h => by omega
  have h3 : (tuples l ext).map (toIndex l ext) = (List.range (Indexer.Spec.count ext).toNat).map fun k : Nat => (k : Int) := by
    refine List.Pairwise.eq_of_mem_iff h1 h2 ?_
    intro i
    rw [List.mem_map, List.mem_map]
    constructor
    · rintro ⟨t, ht, rfl⟩
      have := Indexer.C01_index_in_range l ext t ((Arr.mem_tuples l ext t).mp ht)
      exact ⟨(toIndex l ext t).toNat, List.mem_range.mpr (by omega), by omega⟩
    · rintro ⟨k, hk, rfl⟩
      have hk := List.mem_range.mp hk
      have := Indexer.C01_index_roundtrip l ext (k : Int) (by omega) (by omega)
      exact ⟨_, (Arr.mem_tuples l ext _).mpr this.1, this.2⟩
  have h4 : (tuples l ext).map (toTuple l ext ∘ toIndex l ext) = tuples l ext := by
    conv => rhs; rw [← List.map_id (tuples l ext)]
    refine List.map_congr_left fun t ht => ?_
    exact Indexer.C01_tuple_roundtrip l ext t ((Arr.mem_tuples l ext t).mp ht)
  rw [← h4, ← List.map_map, h3, List.map_map]
  rfl

theorem put_get {α : Type} (l : Layout) {ext : List (Int × Int)} {t : List Int} (ht : InExtents ext t) (values : List α)
    (hv : values.length = Arr.count ext) (v : α) : ∃ values', Arr.put l ext values t v = some values' ∧
      values'.length = Arr.count ext ∧
      ∀ u, InExtents ext u → Arr.cell l ext values' u = if u = t then some v else Arr.cell l ext values u := by
  have hc := Arr.count_spec ext
  have h1 := Indexer.C01_index_in_range l ext t ht
  have hlt : (toIndex l ext t).toNat < values.length := by omega
  refine ⟨values.set (toIndex l ext t).toNat v, by rw [Arr.put, if_pos ⟨h1.1, hlt⟩], by simp [hv], ?_⟩
  intro u hu
  have h2 := Indexer.C01_index_in_range l ext u hu
  rw [Arr.cell, if_pos h2.1, Arr.cell, if_pos h2.1, List.getElem?_set]
  by_cases he : u = t
  · subst he
    simp [hlt]
  · have : toIndex l ext t ≠ toIndex l ext u := fun hx => he (Indexer.C01_injective l ext u t hu ht hx.symm)
    rw [if_neg he, if_neg (by omega)]

theorem fill_loop {α : Type} (l : Layout) {ext : List (Int × Int)} (v : α) : ∀ (ts : List (List Int)) (values : List α),
    (∀ t ∈ ts, InExtents ext t) → values.length = Arr.count ext →
    ∃ values', ts.foldl (fun (s : Option (List α)) t => s.bind fun values => Arr.put l ext values t v) (some values) =
      some values' ∧ values'.length = Arr.count ext ∧
      ∀ u, InExtents ext u → (u ∈ ts → Arr.cell l ext values' u = some v) ∧
        (u ∉ ts → Arr.cell l ext values' u = Arr.cell l ext values u)
  | [], values, _, hv => ⟨values, rfl, hv, fun u _ => ⟨fun h => by simp at h, fun _ => rfl⟩⟩
  | t :: ts, values, ht, hv => by
    obtain ⟨v1, h1, h2, h3⟩ := put_get l (ht t (by simp)) values hv v
    obtain ⟨v2, h4, h5, h6⟩ := fill_loop l v ts v1 (fun t h => ht t (by simp [h])) h2
    refine ⟨v2, by rw [List.foldl_cons, Option.bind_some, h1]; exact h4, h5, ?_⟩
    intro u hu
    by_cases hm : u ∈ ts
    · exact ⟨fun _ => (h6 u hu).1 hm, fun h => absurd (List.mem_cons_of_mem _ hm) h⟩
    · rw [(h6 u hu).2 hm, h3 u hu]
      refine ⟨fun h => ?_, fun h => ?_⟩
      · have : u = t := by simpa [hm] using h
        rw [if_pos this]
      · have : u ≠ t := fun he => h (by simp [he])
        rw [if_neg this]

/-- C117: filling an interval that lies within an array sets the elements with tuples in the interval, and no others. -/
theorem C117_fill {α : Type} (l : Layout) (a : Arr.Arr α) (interval : List (Int × Int)) (v : α) (hi : interval ≠ [])
    (ha : a.values.length = Arr.count a.ext) (hin : ∀ t, InExtents interval t → InExtents a.ext t) :
    ∃ a', fill l a interval v = some a' ∧ a'.ext = a.ext ∧
      ∀ t, InExtents a.ext t → (InExtents interval t → a'.get l t = some v) ∧ (¬ InExtents interval t → a'.get l t = a.get l t) := by
  obtain ⟨values, h1, -, h3⟩ := fill_loop l (ext := a.ext) v (tuples l interval) a.values
    (fun t ht => hin t ((Arr.mem_tuples l interval t).mp ht)) ha
  refine ⟨⟨values, a.ext⟩, by rw [fill, forEach_eq l hi, h1]; rfl, rfl, ?_⟩
  intro t ht
  have := h3 t ht
  rw [Arr.mem_tuples] at this
  exact this

/-- A part of a row-major array. -/
example : (fill .row ⟨[1, 2, 3, 4, 5, 6], [(0, 2), (1, 4)]⟩ [(0, 2), (2, 3)] 9).map (·.values) = some [1, 9, 3, 4, 9, 6] := by
  decide +kernel

/-- Two dimensions with different begins. -/
example : forEach .row [(1, 3), (5, 7)] (fun s t => s ++ [t]) [] = [[1, 5], [1, 6], [2, 5], [2, 6]] ∧
    forEach .col [(1, 3), (5, 7)] (fun s t => s ++ [t]) [] = [[1, 5], [2, 5], [1, 6], [2, 6]] := by decide +kernel

end Ovk.Each
