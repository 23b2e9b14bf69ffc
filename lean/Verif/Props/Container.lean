import Verif.Lemmas.Container
import Mathlib.Tactic.SplitIfs
import Mathlib.Data.List.Induction
import Mathlib.Data.List.Basic
/-!
# C10, C11, C12: sorted sets, sorted maps, fresh IDs
-/
namespace Ovk

namespace Spec

/-- A call that takes `v` out of a set. -/
def Removes (v : α) : OSet.Op α → Prop
  | .insert _ => False
  | .erase w => w = v
  | .eraseIf p => p v = true
  | .clear => True

/-- `v` was inserted at some point of the history and nothing since then removed it. -/
def InSet (ops : List (OSet.Op α)) (v : α) : Prop :=
  ∃ pre post, ops = pre ++ OSet.Op.insert v :: post ∧ ∀ op ∈ post, ¬ Removes v op

/-- A mathematical map from keys to values, changed by one call. -/
def mapStep [DecidableEq κ] (f : κ → Option ν) : OMap.Op κ ν → κ → Option ν
  | .insert k v => fun k' => if k' = k then some v else f k'
  | .fetch k v => fun k' => if k' = k then (f k').or (some v) else f k'
  | .erase k => fun k' => if k' = k then none else f k'
  | .eraseIf p => fun k' => (f k').filter (fun v => !p (k', v))
  | .clear => fun _ => none

/-- The mathematical map after a history. -/
def mapOf [DecidableEq κ] (ops : List (OMap.Op κ ν)) : κ → Option ν :=
  ops.foldl mapStep (fun _ => none)

end Spec

/-! ## Comparators in use are strict total orders -/

theorem intLess_sto : IsSTO intLess where
  irrefl a := by simp [intLess]
  trans a b c := by simp only [intLess, decide_eq_true_eq]; omega
  tri a b := by simp only [intLess, decide_eq_false_iff_not]; omega

theorem elemLessFrom_irrefl (l : List Int) : elemLessFrom l l = false := by
  induction l with
  | nil => rfl
  | cons x l ih =>
    cases l with
    | nil => simp [elemLessFrom]
    | cons y l => simp only [elemLessFrom] at *; simp [ih]

theorem elemLessFrom_cons (x y : Int) (l r : List Int) (h : l.length = r.length) :
    elemLessFrom (x :: l) (y :: r) = (decide (x < y) || (x == y && elemLessFrom l r)) := by
  cases l <;> cases r <;> simp_all [elemLessFrom]

theorem elemLessFrom_trans (l : List Int) : ∀ m r : List Int, l.length = m.length →
    m.length = r.length → elemLessFrom l m = true → elemLessFrom m r = true →
    elemLessFrom l r = true := by
  induction l with
  | nil =>
    intro m r h1 h2 h; cases m <;> simp_all [elemLessFrom]
  | cons x l ih =>
    intro m r h1 h2
    cases m with
    | nil => simp at h1
    | cons y m =>
      cases r with
      | nil => simp at h2
      | cons z r =>
        simp only [List.length_cons, Nat.add_right_cancel_iff] at h1 h2
        rw [elemLessFrom_cons _ _ _ _ h1, elemLessFrom_cons _ _ _ _ h2,
          elemLessFrom_cons _ _ _ _ (h1.trans h2)]
        simp only [Bool.or_eq_true, decide_eq_true_eq, Bool.and_eq_true, beq_iff_eq]
        rintro (h | ⟨rfl, h⟩) (h' | ⟨rfl, h'⟩)
        · left; omega
        · left; omega
        · left; omega
        · right; exact ⟨rfl, ih m r h1 h2 h h'⟩

theorem elemLessFrom_tri (l : List Int) : ∀ m : List Int, l.length = m.length →
    elemLessFrom l m = false → elemLessFrom m l = false → l = m := by
  induction l with
  | nil => intro m h; cases m <;> simp_all
  | cons x l ih =>
    intro m h
    cases m with
    | nil => simp at h
    | cons y m =>
      simp only [List.length_cons, Nat.add_right_cancel_iff] at h
      rw [elemLessFrom_cons _ _ _ _ h, elemLessFrom_cons _ _ _ _ h.symm]
      simp only [Bool.or_eq_false_iff, decide_eq_false_iff_not, Bool.and_eq_false_iff, beq_eq_false_iff_ne]
      rintro ⟨h1, h2⟩ ⟨h3, h4⟩
      have hxy : x = y := by omega
      subst hxy
      rw [ih m h (by simpa using h2) (by simpa using h4)]

/-- The comparator of integer tuples is a strict total order, in both layouts. -/
theorem elemLess_sto (n : Nat) : IsSTO (elemLess (n := n)) ∧ IsSTO (elemLessCol (n := n)) := by
  constructor
  · exact ⟨fun a => elemLessFrom_irrefl _,
      fun a b c => elemLessFrom_trans _ _ _ (by rw [a.2, b.2]) (by rw [b.2, c.2]),
      fun a b h1 h2 => Subtype.ext (elemLessFrom_tri _ _ (by rw [a.2, b.2]) h1 h2)⟩
  · exact ⟨fun a => elemLessFrom_irrefl _,
      fun a b c => elemLessFrom_trans _ _ _ (by simp [a.2, b.2]) (by simp [b.2, c.2]),
      fun a b h1 h2 => Subtype.ext (List.reverse_injective
        (elemLessFrom_tri _ _ (by simp [a.2, b.2]) h1 h2))⟩

/-! ## C10 -/

theorem run_inv {lt : α → α → Bool} (h : IsSTO lt) (ops : List (OSet.Op α)) :
    Sorted lt (OSet.run lt ops) ∧ ∀ v, v ∈ OSet.run lt ops ↔ Spec.InSet ops v := by
  induction ops using List.reverseRecOn with
  | nil => refine ⟨List.Pairwise.nil, fun v => ?_⟩; simp [OSet.run, Spec.InSet]
  | append_singleton ops op ih =>
    obtain ⟨hs, hm⟩ := ih
    have e : OSet.run lt (ops ++ [op]) = OSet.step lt (OSet.run lt ops) op := by
      simp [OSet.run]
    have inset : ∀ v, Spec.InSet (ops ++ [op]) v ↔
        op = .insert v ∨ (Spec.InSet ops v ∧ ¬ Spec.Removes v op) := by
      intro v
      constructor
      · rintro ⟨pre, post, he, hp⟩
        rcases List.eq_nil_or_concat post with rfl | ⟨post, o, rfl⟩
        · left
          obtain ⟨-, h2⟩ := List.append_inj' he rfl
          simpa using h2
        · right
          have he' : ops ++ [op] = (pre ++ OSet.Op.insert v :: post) ++ [o] := by simpa using he
          obtain ⟨h1, h2⟩ := List.append_inj' he' rfl
          have : op = o := by simpa using h2
          subst this
          exact ⟨⟨pre, post, h1, fun o ho => hp o (by simp [ho])⟩, hp _ (by simp)⟩
      · rintro (rfl | ⟨⟨pre, post, rfl, hp⟩, hr⟩)
        · exact ⟨ops, [], by simp, by simp⟩
        · refine ⟨pre, post ++ [op], by simp, ?_⟩
          intro o ho
          rcases List.mem_append.1 ho with ho | ho
          · exact hp o ho
          · simp at ho; subst ho; exact hr
    rw [e]
    cases op with
    | insert w =>
      obtain ⟨h1, h2⟩ := oset_insert_spec h hs w
      refine ⟨h1, fun v => ?_⟩
      show v ∈ OSet.insert lt _ w ↔ _
      rw [h2, inset, hm]
      simp [Spec.Removes, eq_comm]
    | erase w =>
      obtain ⟨h1, h2⟩ := oset_erase_spec h hs w
      refine ⟨h1, fun v => ?_⟩
      show v ∈ OSet.erase lt _ w ↔ _
      rw [h2, inset, hm]
      simp [Spec.Removes, eq_comm, and_comm]
    | eraseIf p =>
      have h1 : OSet.step lt (OSet.run lt ops) (.eraseIf p) =
        (OSet.run lt ops).filter (fun x => !p x) := oset_eraseIf_eq p _
      rw [h1]
      refine ⟨List.Pairwise.filter _ hs, fun v => ?_⟩
      rw [inset, List.mem_filter, hm]
      simp [Spec.Removes]
    | clear =>
      refine ⟨List.Pairwise.nil, fun v => ?_⟩
      rw [inset]
      simp [OSet.step, Spec.Removes]

/-- C10: the iterated values are exactly those inserted and not removed since. -/
theorem C10_elements {lt : α → α → Bool} (h : IsSTO lt) (ops : List (OSet.Op α)) (v : α) :
    v ∈ OSet.run lt ops ↔ Spec.InSet ops v := (run_inv h ops).2 v

/-- C10: membership queries are answered correctly. -/
theorem C10_contains {lt : α → α → Bool} (h : IsSTO lt) (ops : List (OSet.Op α)) (v : α) :
    OSet.contains lt (OSet.run lt ops) v = true ↔ Spec.InSet ops v := by
  rw [oset_contains_iff h (run_inv h ops).1, C10_elements h]

/-- C10: iteration is strictly increasing. -/
theorem C10_increasing {lt : α → α → Bool} (h : IsSTO lt) (ops : List (OSet.Op α)) :
    (OSet.run lt ops).Pairwise (fun a b => lt a b = true) := (run_inv h ops).1

/-- C10: no value is stored twice. -/
theorem C10_nodup {lt : α → α → Bool} (h : IsSTO lt) (ops : List (OSet.Op α)) :
    (OSet.run lt ops).Nodup := by
  refine (run_inv h ops).1.imp ?_
  rintro a b hab rfl
  rw [h.irrefl] at hab; cases hab

/-- C10: `Find` yields the position of a stored value, the end position otherwise. -/
theorem C10_find {lt : α → α → Bool} (h : IsSTO lt) (ops : List (OSet.Op α)) (v : α) :
    (Spec.InSet ops v → (OSet.run lt ops)[OSet.find lt (OSet.run lt ops) v]? = some v) ∧
    (¬ Spec.InSet ops v → OSet.find lt (OSet.run lt ops) v = (OSet.run lt ops).length) := by
  constructor
  · intro hv; exact oset_find_mem h (run_inv h ops).1 v ((C10_elements h ops v).2 hv)
  · intro hv
    exact oset_find_absent h (run_inv h ops).1 v (fun hx => hv ((C10_elements h ops v).1 hx))

/-- C10: the lower (upper) bound splits the iteration into the values below (not above) the argument
and the rest. -/
theorem C10_bounds {lt : α → α → Bool} (h : IsSTO lt) (ops : List (OSet.Op α)) (v : α) (i : Nat) (x : α)
    (hx : (OSet.run lt ops)[i]? = some x) :
    (i < OSet.lowerBound lt (OSet.run lt ops) v ↔ lt x v = true) ∧
    (i < OSet.upperBound lt (OSet.run lt ops) v ↔ lt v x = false) := by
  constructor
  · obtain ⟨a, b, hl, hlb, ha, hb⟩ := lowerBound_split h (run_inv h ops).1 v
    rw [hlb]; rw [hl] at hx
    rcases Nat.lt_or_ge i a.length with hi | hi
    · rw [List.getElem?_append_left hi] at hx
      simp [hi, ha x (List.mem_of_getElem? hx)]
    · rw [List.getElem?_append_right hi] at hx
      simp [hi, hb x (List.mem_of_getElem? hx)]
  · obtain ⟨a, b, hl, hlb, ha, hb⟩ := upperBound_split h (run_inv h ops).1 v
    rw [hlb]; rw [hl] at hx
    rcases Nat.lt_or_ge i a.length with hi | hi
    · rw [List.getElem?_append_left hi] at hx
      simp [hi, ha x (List.mem_of_getElem? hx)]
    · rw [List.getElem?_append_right hi] at hx
      simp [hi, hb x (List.mem_of_getElem? hx)]

/-- Non-vacuity: a history with insertions out of order, a duplicate, and both kinds of removal. -/
example : OSet.run intLess [.insert 5, .insert 2, .insert 9, .insert 2, .insert 7, .erase 5,
    .eraseIf (fun x => decide (8 < x))] = [2, 7] := by decide +kernel

/-! ## C11 -/

theorem map_run_inv [DecidableEq κ] {lt : κ → κ → Bool} (h : IsSTO lt) (ops : List (OMap.Op κ ν)) :
    (OMap.run lt ops).WF lt ∧
    ∀ k v, (k, v) ∈ (OMap.run lt ops).entries ↔ Spec.mapOf ops k = some v := by
  induction ops using List.reverseRecOn with
  | nil => exact ⟨⟨rfl, List.Pairwise.nil⟩, by simp [OMap.run, Spec.mapOf]⟩
  | append_singleton ops op ih =>
    obtain ⟨hw, hm⟩ := ih
    have e : OMap.run lt (ops ++ [op]) = OMap.step lt (OMap.run lt ops) op := by simp [OMap.run]
    have e2 : Spec.mapOf (ops ++ [op]) = Spec.mapStep (Spec.mapOf ops) op := by simp [Spec.mapOf]
    rw [e, e2]
    cases op with
    | insert k v =>
      obtain ⟨h1, h2⟩ := omap_insert_spec h hw k v
      refine ⟨h1, fun k' v' => ?_⟩
      show (k', v') ∈ (OMap.insert lt _ k v).entries ↔ _
      rw [h2, hm]; simp only [Spec.mapStep]
      by_cases hk : k' = k
      · simp [hk, eq_comm]
      · simp [hk]
    | fetch k v =>
      obtain ⟨h1, h2⟩ := omap_fetch_spec h hw k v
      refine ⟨h1, fun k' v' => ?_⟩
      show (k', v') ∈ (OMap.fetch lt _ k v).entries ↔ _
      rw [h2, hm]; simp only [hm, Spec.mapStep]
      by_cases hk : k' = k
      · subst hk
        cases hf : Spec.mapOf ops k' <;> simp [hf, eq_comm]
      · simp [hk]
    | erase k =>
      obtain ⟨h1, h2⟩ := omap_erase_spec h hw k
      refine ⟨h1, fun k' v' => ?_⟩
      show (k', v') ∈ (OMap.erase lt _ k).entries ↔ _
      rw [h2, hm]; simp only [Spec.mapStep]
      by_cases hk : k' = k <;> simp [hk]
    | eraseIf p =>
      have h1 : OMap.step lt (OMap.run lt ops) (.eraseIf p) =
        ⟨((OMap.run lt ops).entries.filter (fun x => !p x)).map Prod.fst,
          (OMap.run lt ops).entries.filter (fun x => !p x)⟩ := by
        rw [← omap_eraseIf_eq, ← hw.1]; rfl
      rw [h1]
      refine ⟨⟨rfl, ?_⟩, fun k' v' => ?_⟩
      · have := hw.2
        rw [hw.1] at this
        exact List.Pairwise.sublist (List.filter_sublist.map _) this
      · simp only [List.mem_filter, hm, Spec.mapStep, Option.filter_eq_some_iff]
    | clear =>
      refine ⟨⟨rfl, List.Pairwise.nil⟩, ?_⟩
      simp [OMap.step, Spec.mapStep]

/-- C11: visiting the entries shows exactly the key/value pairs of the mathematical map. -/
theorem C11_entries [DecidableEq κ] {lt : κ → κ → Bool} (h : IsSTO lt) (ops : List (OMap.Op κ ν))
    (k : κ) (v : ν) : (k, v) ∈ (OMap.run lt ops).entries ↔ Spec.mapOf ops k = some v :=
  (map_run_inv h ops).2 k v

/-- C11: looking up a stored key returns the stored value (and does not go out of bounds). -/
theorem C11_lookup [DecidableEq κ] {lt : κ → κ → Bool} (h : IsSTO lt) (ops : List (OMap.Op κ ν))
    (k : κ) (v : ν) (hk : Spec.mapOf ops k = some v) : (OMap.run lt ops).get? lt k = some v :=
  omap_get_spec h (map_run_inv h ops).1 k v ((C11_entries h ops k v).2 hk)

/-- C11: membership and search answer exactly for the keys of the mathematical map. -/
theorem C11_contains [DecidableEq κ] {lt : κ → κ → Bool} (h : IsSTO lt) (ops : List (OMap.Op κ ν))
    (k : κ) :
    ((OMap.run lt ops).contains lt k = true ↔ (Spec.mapOf ops k).isSome = true) ∧
    (OMap.run lt ops).find? lt k = (Spec.mapOf ops k).map (fun v => (k, v)) := by
  have hi := map_run_inv h ops
  constructor
  · rw [omap_contains_spec h hi.1, Option.isSome_iff_exists]
    simp [hi.2]
  · cases hf : Spec.mapOf ops k with
    | none =>
      simpa using omap_find_none h hi.1 k (fun v => by rw [hi.2, hf]; simp)
    | some v => exact (omap_find_spec h hi.1 k v).2 ((hi.2 k v).2 hf)

/-- C11: entries are visited in strictly increasing key order, and the key view shows the same keys. -/
theorem C11_order [DecidableEq κ] {lt : κ → κ → Bool} (h : IsSTO lt) (ops : List (OMap.Op κ ν)) :
    (OMap.run lt ops).entries.Pairwise (fun a b => lt a.1 b.1 = true) ∧
    (OMap.run lt ops).keys = (OMap.run lt ops).entries.map Prod.fst := by
  have hi := (map_run_inv (ν := ν) h ops).1
  refine ⟨?_, hi.1⟩
  have := hi.2
  rw [hi.1] at this
  exact List.pairwise_map.1 this

/-- Non-vacuity: overwriting, fetching a present and an absent key, erasing. -/
example : (OMap.run intLess [.insert 3 'a', .insert 1 'b', .insert 3 'c', .fetch 1 'x', .fetch 2 'y',
    .erase 7, .insert 0 'z', .erase 0]).entries = [(1, 'b'), (2, 'y'), (3, 'c')] := by decide +kernel

/-! ## C12 -/

theorem nextIDFrom_spec : ∀ (l : List Int) (prev : Int), (prev :: l).Pairwise (· < ·) →
    prev < nextIDFrom prev l ∧ nextIDFrom prev l ∉ l ∧
    ∀ j, prev < j → j < nextIDFrom prev l → j ∈ l := by
  intro l
  induction l with
  | nil => intro prev _; refine ⟨?_, ?_, ?_⟩ <;> simp only [nextIDFrom] <;> intros <;> first | omega | simp
  | cons x l ih =>
    intro prev hs
    obtain ⟨h1, h2⟩ := List.pairwise_cons.1 hs
    obtain ⟨h3, -⟩ := List.pairwise_cons.1 h2
    have hx := h1 x (by simp)
    simp only [nextIDFrom]
    split_ifs with hc
    · refine ⟨by omega, ?_, fun j _ _ => by omega⟩
      intro hm
      rcases List.mem_cons.1 hm with hm | hm
      · omega
      · have := h3 _ hm; omega
    · obtain ⟨i1, i2, i3⟩ := ih x h2
      refine ⟨by omega, ?_, ?_⟩
      · intro hm
        rcases List.mem_cons.1 hm with hm | hm
        · omega
        · exact i2 hm
      · intro j hj1 hj2
        by_cases hjx : j = x
        · simp [hjx]
        · exact List.mem_cons_of_mem _ (i3 j (by omega) hj2)

/-- C12: for any set of non-negative IDs built by any history of calls, the chosen ID is the smallest
non-negative integer not in use. -/
theorem C12_next_id (ops : List (OSet.Op Int)) (hnn : ∀ v, Spec.InSet ops v → 0 ≤ v) :
    0 ≤ nextAvailableID (OSet.run intLess ops) ∧
    ¬ Spec.InSet ops (nextAvailableID (OSet.run intLess ops)) ∧
    ∀ j, 0 ≤ j → j < nextAvailableID (OSet.run intLess ops) → Spec.InSet ops j := by
  have hs : (-1 :: OSet.run intLess ops).Pairwise (· < ·) := by
    refine List.pairwise_cons.2 ⟨?_, ?_⟩
    · intro v hv
      have := hnn v ((C10_elements intLess_sto ops v).1 hv); omega
    · exact (C10_increasing intLess_sto ops).imp (by intro a b h; simpa [intLess] using h)
  obtain ⟨h1, h2, h3⟩ := nextIDFrom_spec _ _ hs
  refine ⟨?_, ?_, ?_⟩
  · unfold nextAvailableID; omega
  · rw [← C10_elements intLess_sto]; exact h2
  · intro j hj1 hj2
    rw [← C10_elements intLess_sto]
    exact h3 j (by omega) hj2

/-- C12: an ID in use is not handed out again, and an ID just freed can be. -/
theorem C12_fresh (ops : List (OSet.Op Int)) (hnn : ∀ v, Spec.InSet ops v → 0 ≤ v) (v : Int)
    (hv : Spec.InSet ops v) : nextAvailableID (OSet.run intLess ops) ≠ v := by
  rintro rfl; exact (C12_next_id ops hnn).2.1 hv

example : nextAvailableID (OSet.run intLess [.insert 3, .insert 0, .insert 1, .insert 2, .erase 2]) = 2 :=
  by decide +kernel

end Ovk
