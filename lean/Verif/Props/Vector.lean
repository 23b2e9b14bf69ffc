/-
C114: assigning a list of values to a vector.
-/
import Mathlib.Tactic.ByContra
import Verif.Model.Vector

namespace Ovk.Vec

theorem overwrite_eq {α : Type} : ∀ values src : List α, values.length ≤ src.length →
    overwrite values src = some (src.take values.length, src.drop values.length)
  | [], src, _ => by simp [overwrite]
  | v :: vs, [], h => by simp at h
  | v :: vs, x :: src, h => by
    rw [overwrite, overwrite_eq vs src (by simpa using h)]
    simp

theorem overwrite_none {α : Type} : ∀ values src : List α, src.length < values.length → overwrite values src = none
  | [], src, h => by simp at h
  | v :: vs, [], _ => rfl
  | v :: vs, x :: src, h => by
    rw [overwrite, overwrite_none vs src (by simpa using h)]
    rfl

theorem pushAll_eq {α : Type} : ∀ vs src : List α, pushAll vs src = vs ++ src
  | vs, [] => by simp [pushAll]
  | vs, x :: src => by rw [pushAll, pushAll_eq]; simp

/-! ### C114 -/

/-- C114: whatever a vector contains, after a list is assigned it contains the list, also if its elements are `bool`. -/
def C114_statement : Prop :=
  (∀ (α : Type) (values src : List α), assign values src = some src) ∧
  ∀ values src : List Bool, assignBool values src = some src

/-- C114 holds for elements that are not `bool`, and for `bool` if the list is at least as long as the vector. Missing:
shorter lists, for which it is false. -/
theorem C114_partial : (∀ (α : Type) (values src : List α), assign values src = some src) ∧
    ∀ values src : List Bool, values.length ≤ src.length → assignBool values src = some src := by
  refine ⟨fun _ _ _ => rfl, fun values src h => ?_⟩
  rw [assignBool, overwrite_eq values src h, Option.map_some, pushAll_eq, List.take_append_drop]

/-- C114: a shorter list is read behind its end, always. -/
theorem C114_shorter (values src : List Bool) : assignBool values src = none ↔ src.length < values.length := by
  constructor
  · intro h
    by_contra hlt
    rw [C114_partial.2 values src (by omega)] at h
    cases h
  · intro h
    rw [assignBool, overwrite_none values src h]; rfl

theorem C114_false : ¬ C114_statement := by
  intro h
  have := h.2 [true, false, true] [false, true]
  rw [(C114_shorter [true, false, true] [false, true]).mpr (by decide)] at this
  cases this

/-- C114: construction from a list does what it should, also for `bool`. -/
theorem C114_construct (src : List Bool) : constructBool src = src := by rw [constructBool, pushAll_eq, List.nil_append]

/-- C114: the same for arrays: replacing an array of `bool` by one with fewer elements is undefined, although the extents
fit the list. -/
theorem C114_array (a : Arr.Arr Bool) (ext : List (Int × Int)) (src : List Bool) (h : src.length = Arr.count ext) :
    arrAssign assignBool a ext src = if Arr.count ext < a.values.length then none else some ⟨src, ext⟩ := by
  unfold arrAssign
  split
  · rw [(C114_shorter a.values src).mpr (by omega)]; rfl
  · rw [C114_partial.2 a.values src (by omega)]; rfl

example : assignBool [true] [false, true] = some [false, true] := by decide

example : arrAssign assignBool ⟨[true, true, true], [(0, 3)]⟩ [(0, 2)] [false, true] = none ∧
    [false, true].length = Arr.count [(0, 2)] := ⟨rfl, rfl⟩

end Ovk.Vec
