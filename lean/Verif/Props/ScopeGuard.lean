/-
C113: scope guards call every function once, unless they are dismissed.
-/
import Mathlib.Data.List.Perm.Basic
import Mathlib.Data.List.Range
import Mathlib.Tactic.Cases
import Verif.Model.ScopeGuard

namespace Ovk.Guard

/-! ### Specification -/

namespace Spec

/-- What a guard still has to call. -/
def pending : Option ScopeGuard → Option Nat
  | some ⟨f, false⟩ => some f
  | _ => none

/-- No guard is left. -/
def Over (s : State) : Prop := ∀ x ∈ s.guards, x = none

end Spec

def armed (l : List (Option ScopeGuard)) : List Nat := l.filterMap Spec.pending

theorem armed_append (l m : List (Option ScopeGuard)) : armed (l ++ m) = armed l ++ armed m := by
  simp [armed]

theorem armed_set : ∀ (l : List (Option ScopeGuard)) (i : Nat) (x y : Option ScopeGuard), l[i]? = some x →
    (armed (l.set i y) ++ (Spec.pending x).toList).Perm (armed l ++ (Spec.pending y).toList)
  | [], i, x, y, h => by simp at h
  | a :: l, 0, x, y, h => by
    simp only [List.getElem?_cons_zero, Option.some.injEq] at h
    subst h
    have hc : ∀ z, armed (z :: l) = (Spec.pending z).toList ++ armed l := by
      intro z
      simp only [armed, List.filterMap_cons]
      cases Spec.pending z <;> rfl
    rw [List.set_cons_zero, hc, hc]
    refine (List.perm_append_comm).trans ?_
    rw [← List.append_assoc, List.append_assoc]
    have := (List.perm_append_comm (l₁ := (Spec.pending y).toList) (l₂ := armed l)).append_left (Spec.pending a).toList
    simpa using this
  | a :: l, i + 1, x, y, h => by
    have ih := armed_set l i x y (by simpa using h)
    have hc : ∀ (z : Option ScopeGuard) (l : List (Option ScopeGuard)),
        armed (z :: l) = (Spec.pending z).toList ++ armed l := by
      intro z l
      simp only [armed, List.filterMap_cons]
      cases Spec.pending z <;> rfl
    rw [List.set_cons_succ, hc, hc, List.append_assoc, List.append_assoc]
    exact ih.append_left _

/-- Every function was called, was dropped, or is pending in one guard. -/
def Inv (s : State) : Prop := (s.calls ++ (s.dropped ++ armed s.guards)).Perm (List.range s.made)

theorem get_some {s : State} {g : Nat} {x : ScopeGuard} (h : s.get g = some x) : s.guards[g]? = some (some x) := by
  unfold State.get at h
  cases hg : s.guards[g]? with
  | none => simp [hg] at h
  | some y => rw [hg] at h; simp at h; rw [h]

theorem count_inv (s : State) : Inv s ↔
    ∀ f, s.calls.count f + s.dropped.count f + (armed s.guards).count f = (List.range s.made).count f := by
  unfold Inv
  rw [List.perm_iff_count]
  simp only [List.count_append, Nat.add_assoc]

theorem count_set (l : List (Option ScopeGuard)) (i : Nat) (x y : Option ScopeGuard) (h : l[i]? = some x) (f : Nat) :
    (armed (l.set i y)).count f + (Spec.pending x).toList.count f =
      (armed l).count f + (Spec.pending y).toList.count f := by
  have := (armed_set l i x y h).count_eq f
  simpa only [List.count_append] using this

theorem Inv.step {s t : State} (hi : Inv s) {o : Op} (h : step s o = some t) : Inv t := by
  rw [count_inv] at hi ⊢
  intro f
  have hf := hi f
  cases o with
  | create =>
    simp only [Guard.step, Option.some.injEq] at h
    subst h
    simp only [armed_append, List.count_append, List.range_succ]
    have : armed [some ⟨s.made, false⟩] = [s.made] := rfl
    rw [this]
    omega
  | moveNew o =>
    simp only [Guard.step, Option.map_eq_some_iff] at h
    obtain ⟨x, hx, rfl⟩ := h
    have hs := count_set s.guards o (some x) (some { x with dismissed := true }) (get_some hx) f
    simp only [State.put, armed_append, List.count_append]
    have : armed [some x] = (Spec.pending (some x)).toList := by
      simp only [armed, List.filterMap_cons, List.filterMap_nil]
      cases Spec.pending (some x) <;> rfl
    rw [this]
    simp only [Spec.pending, Option.toList_none, List.count_nil] at hs ⊢
    omega
  | assign g o =>
    simp only [Guard.step, Option.bind_eq_some_iff, Option.map_eq_some_iff] at h
    obtain ⟨x, hx, y, hy, z, hz, rfl⟩ := h
    have hg : (s.fire x).guards = s.guards := by unfold State.fire; split <;> rfl
    have hm : (s.fire x).made = s.made := by unfold State.fire; split <;> rfl
    have hd : (s.fire x).dropped = s.dropped := by unfold State.fire; split <;> rfl
    have hc : (s.fire x).calls.count f = s.calls.count f + (Spec.pending (some x)).toList.count f := by
      unfold State.fire
      obtain ⟨fn, d⟩ := x
      cases d <;> simp [Spec.pending]
    have h1 := count_set s.guards g (some x) (some y) (get_some hx) f
    have h2 := count_set (s.guards.set g (some y)) o (some z) (some { z with dismissed := true })
      (by have := get_some hz; simpa only [State.put, hg] using this) f
    have hzy : z = y := by
      have := get_some hz
      simp only [State.put, hg, List.getElem?_set] at this
      split_ifs at this with a b
      · simpa using this.symm
      · rw [get_some hy] at this; simpa using this.symm
    subst hzy
    simp only [State.put, hg, hm, hd, hc]
    have hp : Spec.pending (some { z with dismissed := true }) = none := rfl
    rw [hp, Option.toList_none, List.count_nil] at h2
    omega
  | dismiss g =>
    simp only [Guard.step, Option.map_eq_some_iff] at h
    obtain ⟨x, hx, rfl⟩ := h
    have hs := count_set s.guards g (some x) (some { x with dismissed := true }) (get_some hx) f
    obtain ⟨fn, d⟩ := x
    cases d <;> simp only [Spec.pending, Option.toList_none, Option.toList_some, List.count_nil, State.put,
      List.count_append, if_true, Bool.false_eq_true, if_false] at hs ⊢ <;> omega
  | destroy g =>
    simp only [Guard.step, Option.map_eq_some_iff] at h
    obtain ⟨x, hx, rfl⟩ := h
    have hs := count_set s.guards g (some x) none (get_some hx) f
    obtain ⟨fn, d⟩ := x
    cases d <;> simp only [Spec.pending, Option.toList_none, Option.toList_some, List.count_nil, State.put, State.fire,
      List.count_append, if_true, Bool.false_eq_true, if_false] at hs ⊢ <;> omega

theorem Inv.run : ∀ {os : List Op} {s t : State}, Inv s → run os s = some t → Inv t
  | [], s, t, hi, h => by simp only [Guard.run, Option.some.injEq] at h; exact h ▸ hi
  | o :: os, s, t, hi, h => by
    simp only [Guard.run, Option.bind_eq_some_iff] at h
    obtain ⟨u, hu, ht⟩ := h
    exact Inv.run (hi.step hu) ht

/-! ### C113 -/

/-- C113: whatever is done with guards, no function is called twice, none is called after its guard was dismissed, and
only functions that were given to guards are called. -/
theorem C113_once {os : List Op} {s : State} (h : run os State.init = some s) :
    (s.calls ++ s.dropped).Nodup ∧ ∀ f ∈ s.calls, f < s.made := by
  have hi : Inv s := Inv.run (by simp [Inv, State.init, armed]) h
  unfold Inv at hi
  rw [← List.append_assoc] at hi
  have hn := hi.nodup_iff.mpr List.nodup_range
  refine ⟨(List.nodup_append.mp hn).1, fun f hf => ?_⟩
  have := hi.mem_iff.mp (List.mem_append_left _ (List.mem_append_left _ hf))
  simpa using this

/-- C113: when all guards are gone, every function was called, except for those that were dismissed. -/
theorem C113_all {os : List Op} {s : State} (h : run os State.init = some s) (ho : Spec.Over s) (f : Nat) :
    f ∈ s.calls ↔ f < s.made ∧ f ∉ s.dropped := by
  have hi : Inv s := Inv.run (by simp [Inv, State.init, armed]) h
  have ha : armed s.guards = [] := by
    rw [armed, List.filterMap_eq_nil_iff]
    intro x hx
    rw [ho x hx]; rfl
  unfold Inv at hi
  rw [ha, List.append_nil] at hi
  have hn := hi.nodup_iff.mpr List.nodup_range
  constructor
  · intro hf
    refine ⟨by simpa using hi.mem_iff.mp (List.mem_append_left _ hf), fun hd => ?_⟩
    exact (List.nodup_append.mp hn).2.2 f hf f hd rfl
  · rintro ⟨hf, hd⟩
    rcases List.mem_append.mp (hi.mem_iff.mpr (List.mem_range.mpr hf)) with h | h
    · exact h
    · exact absurd h hd

/-- C113: destroying a guard that was neither dismissed nor moved from calls its function then, and nothing else does
so in between: operations on other guards do not call it. -/
theorem C113_when {s t : State} {o : Op} (h : step s o = some t) :
    t.calls = s.calls ∨ ∃ g f, s.get g = some ⟨f, false⟩ ∧ t.calls = s.calls ++ [f] ∧
      (o = .destroy g ∨ ∃ g', o = .assign g g') := by
  have hfire : ∀ x : ScopeGuard, (s.fire x).calls = s.calls ∨ x.dismissed = false ∧ (s.fire x).calls = s.calls ++ [x.fn] := by
    intro x
    unfold State.fire
    cases hd : x.dismissed <;> simp
  cases o with
  | create => simp only [Guard.step, Option.some.injEq] at h; subst h; exact Or.inl rfl
  | moveNew o =>
    simp only [Guard.step, Option.map_eq_some_iff] at h
    obtain ⟨x, hx, rfl⟩ := h
    exact Or.inl rfl
  | dismiss g =>
    simp only [Guard.step, Option.map_eq_some_iff] at h
    obtain ⟨x, hx, rfl⟩ := h
    refine Or.inl ?_
    split <;> rfl
  | assign g o =>
    simp only [Guard.step, Option.bind_eq_some_iff, Option.map_eq_some_iff] at h
    obtain ⟨x, hx, y, hy, z, hz, rfl⟩ := h
    rcases hfire x with hf | ⟨hd, hf⟩
    · exact Or.inl hf
    · refine Or.inr ⟨g, x.fn, ?_, hf, Or.inr ⟨o, rfl⟩⟩
      rw [hx, ← hd]
  | destroy g =>
    simp only [Guard.step, Option.map_eq_some_iff] at h
    obtain ⟨x, hx, rfl⟩ := h
    rcases hfire x with hf | ⟨hd, hf⟩
    · exact Or.inl hf
    · refine Or.inr ⟨g, x.fn, ?_, hf, Or.inl rfl⟩
      rw [hx, ← hd]

/-- C113: leaving the scope of a guard that is still armed does call its function. -/
theorem C113_exit {s : State} {g f : Nat} (hg : s.get g = some ⟨f, false⟩) :
    ∃ t, step s (.destroy g) = some t ∧ t.calls = s.calls ++ [f] := by
  refine ⟨_, by rw [step, hg]; rfl, rfl⟩

/-- Guards 0 and 1 are made, 0 is moved to 2, 1 is assigned to 2, which calls function 0, and the guards are destroyed;
function 2 belongs to a guard that is dismissed. -/
example : (run [.create, .create, .moveNew 0, .assign 2 1, .create, .dismiss 3, .destroy 3, .destroy 2, .destroy 1,
    .destroy 0] State.init).map (fun s => (s.made, s.calls, s.dropped, s.guards.all (·.isNone))) =
      some (3, [0, 1], [2], true) := by
  decide +kernel

/-- Assigning a guard to itself calls the function at once. -/
example : (run [.create, .assign 0 0, .destroy 0] State.init).map (fun s => s.calls) = some [0] := by decide +kernel

end Ovk.Guard
