/-
C115: operations on whole arrays use every element once.
-/
import Mathlib.Tactic.ByContra
import Mathlib.Tactic.NormNum
import Mathlib.Data.List.Basic
import Verif.Model.ArrayOps

namespace Ovk.ArrOps

variable {α β γ : Type}

/-! ### Specification -/

namespace Spec

/-- Calling a function with one element after the other. -/
def walk (func : γ → α → γ × α) (s : γ) : List α → γ × List α
  | [] => (s, [])
  | x :: l => ((walk func (func s x).1 l).1, (func s x).2 :: (walk func (func s x).1 l).2)

end Spec

/-! ### Lemmas -/

theorem toInt32_eq (i : Nat) (h : i < 2 ^ 31) : toInt32 i = i := by
  unfold toInt32
  norm_num at h ⊢
  omega

theorem at32_eq (values : List α) (i : Nat) (h : i < 2 ^ 31) : at32 values i = values[i]? := by
  unfold at32
  rw [toInt32_eq i h]
  simp

theorem at32_large (values : List α) : at32 values (2 ^ 31) = Option.none := by
  unfold at32
  rw [if_neg]
  unfold toInt32
  norm_num

theorem loop_eq (func : β → α → β) (values : List α) : ∀ (m i : Nat) (s : β), i + m = values.length → i + m ≤ 2 ^ 31 →
    loop func values m i s = some ((values.drop i).foldl func s)
  | 0, i, s, h, _ => by
    rw [loop, List.drop_of_length_le (by omega), List.foldl_nil]
  | m + 1, i, s, h, hl => by
    have hi : i < values.length := by omega
    rw [loop, at32_eq values i (by omega), List.getElem?_eq_getElem hi, Option.bind_some,
      loop_eq func values m (i + 1) _ (by omega) (by omega), List.drop_eq_getElem_cons hi, List.foldl_cons]

theorem loop_none (func : β → α → β) (values : List α) : ∀ (m i : Nat) (s : β), i ≤ 2 ^ 31 → 2 ^ 31 < i + m →
    loop func values m i s = Option.none
  | 0, i, s, h, hl => by omega
  | m + 1, i, s, h, hl => by
    rcases Nat.lt_or_ge i (2 ^ 31) with hi | hi
    · rw [loop]
      cases at32 values i with
      | none => rfl
      | some x => exact loop_none func values m (i + 1) _ hi (by omega)
    · rw [loop, show i = 2 ^ 31 by omega, at32_large]; rfl

theorem loopInt_eq (func : β → α → β) (values : List α) : ∀ (m i : Nat) (s : β), i + m = values.length →
    i + m ≤ intMax → loopInt func values m i s = some ((values.drop i).foldl func s)
  | 0, i, s, h, _ => by
    rw [loopInt, List.drop_of_length_le (by omega), List.foldl_nil]
  | m + 1, i, s, h, hl => by
    have hi : i < values.length := by omega
    have hm : intMax < 2 ^ 31 := by unfold intMax; norm_num
    rw [loopInt, at32_eq values i (by omega), List.getElem?_eq_getElem hi, Option.bind_some, if_pos (by omega),
      loopInt_eq func values m (i + 1) _ (by omega) (by omega), List.drop_eq_getElem_cons hi, List.foldl_cons]

theorem loopInt_none (func : β → α → β) (values : List α) : ∀ (m i : Nat) (s : β), i ≤ intMax → intMax < i + m →
    loopInt func values m i s = Option.none
  | 0, i, s, h, hl => by omega
  | m + 1, i, s, h, hl => by
    rw [loopInt]
    cases at32 values i with
    | none => rfl
    | some x =>
      rw [Option.bind_some]
      split
      · exact loopInt_none func values m (i + 1) _ (by omega) (by omega)
      · rfl

theorem forEach_eq (func : γ → α → γ × α) : ∀ (rest pre : List α) (s : γ), pre.length + rest.length ≤ 2 ^ 31 →
    forEach func rest.length pre.length s (pre ++ rest) =
      some ((Spec.walk func s rest).1, pre ++ (Spec.walk func s rest).2)
  | [], pre, s, _ => by simp [forEach, Spec.walk]
  | x :: rest, pre, s, h => by
    simp only [List.length_cons] at h
    rw [List.length_cons, forEach, at32_eq _ _ (by omega), toInt32_eq _ (by omega)]
    have h1 : (pre ++ x :: rest)[pre.length]? = some x := by simp
    rw [h1, Option.bind_some]
    have h2 : (pre ++ x :: rest).set (pre.length : Int).toNat (func s x).2 = (pre ++ [(func s x).2]) ++ rest := by
      simp
    rw [h2]
    have := forEach_eq func rest (pre ++ [(func s x).2]) (func s x).1 (by simp; omega)
    rw [List.length_append, List.length_singleton] at this
    rw [this]
    simp [Spec.walk]

theorem transform_eq (func : α → β) (values : List α) : ∀ (rest pre : List β), pre.length + rest.length = values.length →
    values.length ≤ 2 ^ 31 →
    transform func values rest.length pre.length (pre ++ rest) = some (pre ++ (values.drop pre.length).map func)
  | [], pre, h, _ => by
    rw [List.length_nil, transform, List.drop_of_length_le (by simp at h; omega)]
    simp
  | y :: rest, pre, h, hl => by
    simp only [List.length_cons] at h
    have hi : pre.length < values.length := by omega
    rw [List.length_cons, transform, at32_eq _ _ (by omega), at32_eq _ _ (by omega), toInt32_eq _ (by omega),
      List.getElem?_eq_getElem hi, Option.bind_some]
    have h1 : (pre ++ y :: rest)[pre.length]? = some y := by simp
    rw [h1, Option.bind_some]
    have h2 : (pre ++ y :: rest).set (pre.length : Int).toNat (func values[pre.length]) =
        (pre ++ [func values[pre.length]]) ++ rest := by simp
    rw [h2]
    have := transform_eq func values rest (pre ++ [func values[pre.length]]) (by simp; omega) hl
    rw [List.length_append, List.length_singleton] at this
    rw [this, List.drop_eq_getElem_cons hi, List.map_cons, List.append_assoc, List.singleton_append]

/-! ### C115 -/

/-- C115: reducing, changing, transforming and collapsing use every element once, in order, for arrays of any size. -/
def C115_statement : Prop :=
  (∀ (α β : Type) (func : β → α → β) (base : β) (values : List α),
    reduce func base values = some (values.foldl func base)) ∧
  (∀ (α γ : Type) (func : γ → α → γ × α) (s : γ) (values : List α),
    forEach func values.length 0 s values = some (Spec.walk func s values)) ∧
  (∀ (α β : Type) (func : α → β) (values : List α) (out : List β), out.length = values.length →
    transform func values values.length 0 out = some (values.map func)) ∧
  (∀ (α : Type) (func : α → α → α) (x : α) (l : List α), collapse func (x :: l) = some (l.foldl func x)) ∧
  ∀ (α : Type) (func : α → α → α) (x : α) (l : List α), collapseView func (x :: l) = some (l.foldl func x)

/-- C115 for arrays with up to 2^31 elements, and views with less than that many. Missing: larger ones, for which it is
false. -/
theorem C115_partial :
    (∀ (α β : Type) (func : β → α → β) (base : β) (values : List α), values.length ≤ 2 ^ 31 →
      reduce func base values = some (values.foldl func base)) ∧
    (∀ (α γ : Type) (func : γ → α → γ × α) (s : γ) (values : List α), values.length ≤ 2 ^ 31 →
      forEach func values.length 0 s values = some (Spec.walk func s values)) ∧
    (∀ (α β : Type) (func : α → β) (values : List α) (out : List β), values.length ≤ 2 ^ 31 →
      out.length = values.length → transform func values values.length 0 out = some (values.map func)) ∧
    (∀ (α : Type) (func : α → α → α) (x : α) (l : List α), l.length < 2 ^ 31 →
      collapse func (x :: l) = some (l.foldl func x)) ∧
    ∀ (α : Type) (func : α → α → α) (x : α) (l : List α), l.length < 2 ^ 31 - 1 →
      collapseView func (x :: l) = some (l.foldl func x) := by
  refine ⟨?_, ?_, ?_, ?_, ?_⟩
  · intro α β func base values h
    rw [reduce, loop_eq func values values.length 0 base (by omega) (by omega), List.drop_zero]
  · intro α γ func s values h
    simpa using forEach_eq func values [] s (by simpa using h)
  · intro α β func values out h ho
    have := transform_eq func values out [] (by simpa using ho) h
    rw [ho] at this
    simpa using this
  · intro α func x l h
    rw [collapse, at32_eq _ _ (by norm_num)]
    simp only [List.getElem?_cons_zero, Option.bind_some]
    rw [loop_eq func (x :: l) _ 1 x (by simp; omega) (by simp; omega)]
    rfl
  · intro α func x l h
    have hm : intMax = 2 ^ 31 - 1 := rfl
    rw [collapseView, at32_eq _ _ (by norm_num)]
    simp only [List.getElem?_cons_zero, Option.bind_some]
    rw [loopInt_eq func (x :: l) _ 1 x (by simp; omega) (by simp; omega)]
    rfl

/-- C115: larger arrays are accessed outside of their elements. -/
theorem C115_large (func : β → α → β) (base : β) (values : List α) (h : 2 ^ 31 < values.length) :
    reduce func base values = Option.none := loop_none func values values.length 0 base (by norm_num) (by omega)

/-- C115: collapsing a view with 2^31 elements overflows the counter. -/
theorem C115_view (func : α → α → α) (values : List α) (h : 2 ^ 31 ≤ values.length) :
    collapseView func values = Option.none := by
  have hm : intMax = 2 ^ 31 - 1 := rfl
  have h1 : 1 ≤ intMax := by rw [hm]; norm_num
  rw [collapseView]
  cases at32 values 0 with
  | none => rfl
  | some x => exact loopInt_none func values _ 1 x h1 (by omega)

theorem iterate_eq (func : β → α → β) (values : List α) (m i : Nat) (s : β) (h : i + m = values.length) :
    iterate func values m i s = some ((values.drop i).foldl func s) := by
  induction m generalizing i s with
  | zero =>
    rw [iterate, if_pos (by omega), List.drop_of_length_le (by omega)]; rfl
  | succ m ih =>
    have hi : i < values.length := by omega
    rw [iterate, if_neg (by omega), List.getElem?_eq_getElem hi, Option.bind_some, ih (i + 1) _ (by omega),
      List.drop_eq_getElem_cons hi]; rfl

/-- C115: reducing a view uses every element once, in order, for views of any size. -/
theorem C115_reduce_view (func : β → α → β) (base : β) (values : List α) :
    reduceView func base values = some (values.foldl func base) := by
  rw [reduceView, iterate_eq func values _ 0 base (by omega), List.drop_zero]

theorem C115_false : ¬ C115_statement := by
  intro h
  have := h.1 Unit Unit (fun _ _ => ()) () (List.replicate (2 ^ 31 + 1) ())
  rw [C115_large _ _ _ (by rw [List.length_replicate]; omega)] at this
  cases this

/-- C115: what the tests of all elements say. -/
theorem C115_tests (cond : α → Bool) (values : List α) (h : values.length ≤ 2 ^ 31) :
    (∃ b, none cond values = some b ∧ (b = true ↔ ∀ x ∈ values, cond x = false)) ∧
    (∃ b, any cond values = some b ∧ (b = true ↔ ∃ x ∈ values, cond x = true)) ∧
    (∃ b, notAll cond values = some b ∧ (b = true ↔ ∃ x ∈ values, cond x = false)) ∧
    ∃ b, all cond values = some b ∧ (b = true ↔ ∀ x ∈ values, cond x = true) := by
  have hand : ∀ (f : α → Bool) (l : List α) (b : Bool), l.foldl (fun p x => p && f x) b = (b && l.all f) := by
    intro f l
    induction l with
    | nil => intro b; simp
    | cons x l ih => intro b; rw [List.foldl_cons, ih, List.all_cons, Bool.and_assoc]
  have hor : ∀ (f : α → Bool) (l : List α) (b : Bool), l.foldl (fun p x => p || f x) b = (b || l.any f) := by
    intro f l
    induction l with
    | nil => intro b; simp
    | cons x l ih => intro b; rw [List.foldl_cons, ih, List.any_cons, Bool.or_assoc]
  refine ⟨⟨_, C115_partial.1 _ _ _ _ _ h, ?_⟩, ⟨_, C115_partial.1 _ _ _ _ _ h, ?_⟩, ⟨_, C115_partial.1 _ _ _ _ _ h, ?_⟩,
    ⟨_, C115_partial.1 _ _ _ _ _ h, ?_⟩⟩
  · rw [hand (fun x => !cond x)]; simp
  · rw [hor]; simp
  · rw [hor (fun x => !cond x)]; simp
  · rw [hand]; simp

/-- C115: the minimum and the maximum are elements, and bounds of all; the sum is the sum. -/
theorem C115_extrema (values : List Int) (h0 : values ≠ []) (h : values.length ≤ 2 ^ 31) :
    (∃ m ∈ values, min values = some m ∧ ∀ x ∈ values, m ≤ x) ∧
    (∃ m ∈ values, max values = some m ∧ ∀ x ∈ values, x ≤ m) ∧
    sum values = some values.sum := by
  obtain ⟨y, l, rfl⟩ := List.exists_cons_of_ne_nil h0
  have hl : l.length < 2 ^ 31 := by rw [List.length_cons] at h; omega
  have hmin : ∀ (l : List Int) (y : Int), l.foldl (fun p x => if x < p then x else p) y ∈ y :: l ∧
      ∀ x ∈ y :: l, l.foldl (fun p x => if x < p then x else p) y ≤ x := by
    intro l
    induction l with
    | nil => intro y; simp
    | cons z l ih =>
      intro y
      rw [List.foldl_cons]
      obtain ⟨h1, h2⟩ := ih (if z < y then z else y)
      have h3 := h2 _ List.mem_cons_self
      constructor
      · rcases List.mem_cons.mp h1 with h | h
        · rw [h]; split <;> simp
        · exact List.mem_cons_of_mem _ (List.mem_cons_of_mem _ h)
      · intro x hx
        rcases List.mem_cons.mp hx with rfl | hx
        · refine Int.le_trans h3 ?_; split <;> omega
        · rcases List.mem_cons.mp hx with rfl | hx
          · refine Int.le_trans h3 ?_; split <;> omega
          · exact h2 x (List.mem_cons_of_mem _ hx)
  have hmax : ∀ (l : List Int) (y : Int), l.foldl (fun p x => if p < x then x else p) y ∈ y :: l ∧
      ∀ x ∈ y :: l, x ≤ l.foldl (fun p x => if p < x then x else p) y := by
    intro l
    induction l with
    | nil => intro y; simp
    | cons z l ih =>
      intro y
      rw [List.foldl_cons]
      obtain ⟨h1, h2⟩ := ih (if y < z then z else y)
      have h3 := h2 _ List.mem_cons_self
      constructor
      · rcases List.mem_cons.mp h1 with h | h
        · rw [h]; split <;> simp
        · exact List.mem_cons_of_mem _ (List.mem_cons_of_mem _ h)
      · intro x hx
        rcases List.mem_cons.mp hx with rfl | hx
        · refine Int.le_trans ?_ h3; split <;> omega
        · rcases List.mem_cons.mp hx with rfl | hx
          · refine Int.le_trans ?_ h3; split <;> omega
          · exact h2 x (List.mem_cons_of_mem _ hx)
  have hsum : ∀ (l : List Int) (y : Int), l.foldl (fun p x => p + x) y = y + l.sum := by
    intro l
    induction l with
    | nil => intro y; simp
    | cons z l ih => intro y; rw [List.foldl_cons, ih, List.sum_cons]; omega
  refine ⟨⟨_, (hmin l y).1, C115_partial.2.2.2.1 _ _ _ _ hl, (hmin l y).2⟩,
    ⟨_, (hmax l y).1, C115_partial.2.2.2.1 _ _ _ _ hl, (hmax l y).2⟩, ?_⟩
  rw [sum, C115_partial.2.2.2.1 _ _ _ _ hl, hsum, List.sum_cons]

/-- C115: filling takes the values from the source in order; a source that is too short is read behind its end. -/
theorem C115_fill (values src : List α) (h : values.length ≤ 2 ^ 31) :
    fillFrom values src = if values.length ≤ src.length then some (src.take values.length) else Option.none := by
  let func : Option (List α) → α → Option (List α) × α := fun s x => match s with
    | some (y :: s) => (some s, y)
    | _ => (Option.none, x)
  have hn : ∀ l : List α, (Spec.walk func Option.none l).1 = Option.none := by
    intro l
    induction l with
    | nil => rfl
    | cons x l ih => exact ih
  have hw : ∀ (l src : List α), (l.length ≤ src.length →
      Spec.walk func (some src) l = (some (src.drop l.length), src.take l.length)) ∧
      (src.length < l.length → (Spec.walk func (some src) l).1 = Option.none) := by
    intro l
    induction l with
    | nil => intro src; simp [Spec.walk]
    | cons x l ih =>
      intro src
      cases src with
      | nil => exact ⟨fun h => by simp at h, fun _ => hn l⟩
      | cons y src =>
        refine ⟨fun h => ?_, fun h => (ih src).2 (by simpa using h)⟩
        have := (ih src).1 (by simpa using h)
        rw [Spec.walk]
        change ((Spec.walk func (some src) l).1, y :: (Spec.walk func (some src) l).2) = _
        rw [this]
        simp
  have hf : fillFrom values src = (forEach func values.length 0 (some src) values).bind fun q =>
      match q.1 with
      | some _ => some q.2
      | Option.none => Option.none := rfl
  rw [hf, C115_partial.2.1 _ _ _ _ _ h, Option.bind_some]
  by_cases hs : values.length ≤ src.length
  · rw [if_pos hs, (hw values src).1 hs]
  · rw [if_neg hs, (hw values src).2 (by omega)]

example : min [3, 1, 2] = some 1 ∧ max [3, 1, 2] = some 3 ∧ sum [3, 1, 2] = some 6 ∧ none (· == 4) [3, 1, 2] = some true ∧
    fillFrom [0, 0] [5, 6, 7] = some [5, 6] ∧ transform (· + 1) [1, 2] 2 0 [0, 0] = some [2, 3] ∧
    reduceView (· - ·) 9 [3, 1] = some 5 := by decide +kernel

end Ovk.ArrOps
