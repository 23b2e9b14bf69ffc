/-
C112: Serialize executes a function on one process after the other.
-/
import Mathlib.Data.List.FinRange
import Verif.Model.Serialize

namespace Ovk.Serial

variable {E R : Type} {n : Nat}

/-! ### Specification -/

namespace Spec

/-- A function that performs these actions and has this outcome, and does not use the communicator. -/
def does : List E → R → Prog E R
  | [], r => .ret r
  | e :: es, r => .act e (does es r)

/-- The actions of all processes in the order of their ranks. -/
def inOrder (es : Fin n → List E) : List (Fin n × E) := (List.finRange n).flatMap fun p => (es p).map fun e => (p, e)

end Spec

/-! ### Invariant -/

def acts : List E → Prog E R → Prog E R
  | [], k => k
  | e :: es, k => .act e (acts es k)

theorem closing_does (es : List E) (r : R) (m : Nat) :
    closing (barriers m (.ret ())) (Spec.does es r) = acts es (barriers m (.ret r)) := by
  have hb : ∀ m, (barriers m (.ret ()) : Prog E Unit).bind (fun _ => (.ret r : Prog E R)) = barriers m (.ret r) := by
    intro m
    induction m with
    | zero => rfl
    | succ m ih => simp only [barriers, Prog.bind, ih]
  induction es with
  | nil => exact hb m
  | cons e es ih =>
    unfold closing at ih ⊢
    simp only [Spec.does, Prog.bind, acts, ih]

def firsts (es : Fin n → List E) (j : Nat) : List (Fin n × E) :=
  ((List.finRange n).take j).flatMap fun p => (es p).map fun e => (p, e)

theorem firsts_all (es : Fin n → List E) : firsts es n = Spec.inOrder es := by
  unfold firsts Spec.inOrder
  rw [List.take_of_length_le (by simp)]

theorem firsts_succ (es : Fin n → List E) (j : Nat) (h : j < n) :
    firsts es (j + 1) = firsts es j ++ (es ⟨j, h⟩).map fun e => (⟨j, h⟩, e) := by
  unfold firsts
  rw [List.take_add_one, List.getElem?_eq_getElem (by simpa using h)]
  simp

/-- `j` barriers have been left. -/
structure Inv (es : Fin n → List E) (r : Fin n → R) (s : State n E R) (j : Nat) : Prop where
  le : j ≤ n
  early : ∀ p : Fin n, p.val < j → s.prog p = barriers (n - j) (.ret (r p))
  late : ∀ p : Fin n, j < p.val → s.prog p = barriers (p.val - j) (acts (es p) (barriers (n - p.val) (.ret (r p))))
  now : (j = n ∧ s.trace = firsts es n) ∨ ∃ h : j < n, ∃ pre suf, es ⟨j, h⟩ = pre ++ suf ∧
    s.prog ⟨j, h⟩ = acts suf (barriers (n - j) (.ret (r ⟨j, h⟩))) ∧
    s.trace = firsts es j ++ pre.map fun e => (⟨j, h⟩, e)

theorem inv_start (es : Fin n → List E) (r : Fin n → R) : Inv es r (start fun p => Spec.does (es p) (r p)) 0 := by
  refine ⟨Nat.zero_le _, fun p h => absurd h (by omega), ?_, ?_⟩
  · intro p _
    simp only [start, serialize, closing_does, Nat.sub_zero]
  · by_cases h : 0 < n
    · refine Or.inr ⟨h, [], es ⟨0, h⟩, rfl, ?_, by simp [start, firsts]⟩
      simp only [start, serialize, closing_does, barriers]
    · obtain rfl : n = 0 := by omega
      exact Or.inl ⟨rfl, by simp [start, firsts]⟩

theorem barriers_act {m : Nat} {k : Prog E R} {e : E} {k' : Prog E R} (h : barriers (m + 1) k = .act e k') : False := by
  cases h

theorem Inv.step {es : Fin n → List E} {r : Fin n → R} {s t : State n E R} {j : Nat} (hi : Inv es r s j)
    (hs : Step s t) : ∃ j', Inv es r t j' ∧ t.trace.length + j' = s.trace.length + j + 1 := by
  cases hs with
  | act p e k hp =>
    -- only the process with rank `j` can act
    rcases lt_trichotomy p.val j with h | h | h
    · rw [hi.early p h] at hp
      cases hm : n - j with
      | zero => rw [hm] at hp; cases hp
      | succ m => rw [hm] at hp; cases hp
    · rcases hi.now with ⟨hj, -⟩ | ⟨hj, pre, suf, h1, h2, h3⟩
      · exact absurd p.isLt (by omega)
      · obtain rfl : p = ⟨j, hj⟩ := Fin.ext h
        rw [h2] at hp
        cases suf with
        | nil =>
          rw [show n - j = (n - j - 1) + 1 by omega] at hp
          cases hp
        | cons f suf =>
          simp only [acts, Prog.act.injEq] at hp
          obtain ⟨rfl, rfl⟩ := hp
          refine ⟨j, ⟨hi.le, ?_, ?_, Or.inr ⟨hj, pre ++ [f], suf, by simp [h1], by simp, by simp [h3]⟩⟩, by simp; omega⟩
          · intro q hq
            have : q ≠ ⟨j, hj⟩ := fun hx => by rw [hx] at hq; simp at hq
            simp only [if_neg this]
            exact hi.early q hq
          · intro q hq
            have : q ≠ ⟨j, hj⟩ := fun hx => by rw [hx] at hq; simp at hq
            simp only [if_neg this]
            exact hi.late q hq
    · rw [hi.late p h, show p.val - j = (p.val - j - 1) + 1 by omega] at hp
      cases hp
  | barrier k hn hp =>
    rcases hi.now with ⟨hj, -⟩ | ⟨hj, pre, suf, h1, h2, h3⟩
    · have h0 := hp ⟨0, hn⟩
      rw [hi.early ⟨0, hn⟩ (by simp; omega), show n - j = 0 by omega] at h0
      cases h0
    · have hc := hp ⟨j, hj⟩
      rw [h2] at hc
      cases suf with
      | cons f suf => cases hc
      | nil =>
        simp only [List.append_nil] at h1
        simp only [acts] at hc
        rw [show n - j = (n - (j + 1)) + 1 by omega] at hc
        simp only [barriers, Prog.barrier.injEq] at hc
        have htr : s.trace = firsts es (j + 1) := by rw [firsts_succ es j hj, h3, h1]
        refine ⟨j + 1, ⟨hj, ?_, ?_, ?_⟩, by simp; omega⟩
        · intro p h
          rcases Nat.lt_succ_iff_lt_or_eq.mp h with h | h
          · have := hp p
            rw [hi.early p h, show n - j = (n - (j + 1)) + 1 by omega] at this
            simp only [barriers, Prog.barrier.injEq] at this
            exact this.symm
          · obtain rfl : p = ⟨j, hj⟩ := Fin.ext h
            exact hc.symm
        · intro p h
          have := hp p
          rw [hi.late p (by omega), show p.val - j = (p.val - (j + 1)) + 1 by omega] at this
          simp only [barriers, Prog.barrier.injEq] at this
          exact this.symm
        · by_cases hl : j + 1 < n
          · refine Or.inr ⟨hl, [], es ⟨j + 1, hl⟩, rfl, ?_, by simp [htr]⟩
            have := hp ⟨j + 1, hl⟩
            rw [hi.late ⟨j + 1, hl⟩ (by simp), show (⟨j + 1, hl⟩ : Fin n).val - j = 0 + 1 by simp] at this
            simp only [barriers, Prog.barrier.injEq] at this
            exact this.symm
          · have : j + 1 = n := by omega
            exact Or.inl ⟨this, by rw [htr, this]⟩

theorem Inv.execution {es : Fin n → List E} {r : Fin n → R} {m : Nat} {s : State n E R}
    (h : Execution (start fun p => Spec.does (es p) (r p)) m s) :
    ∃ j, Inv es r s j ∧ s.trace.length + j = m := by
  induction h with
  | none => exact ⟨0, inv_start es r, rfl⟩
  | step _ hs ih =>
    obtain ⟨j, hj, hm⟩ := ih
    obtain ⟨j', hj', hm'⟩ := hj.step hs
    exact ⟨j', hj', by omega⟩

theorem Inv.prefix {es : Fin n → List E} {r : Fin n → R} {s : State n E R} {j : Nat} (hi : Inv es r s j) :
    s.trace <+: Spec.inOrder es := by
  rcases hi.now with ⟨-, h⟩ | ⟨hj, pre, suf, h1, -, h3⟩
  · rw [h, firsts_all]; exact List.prefix_refl _
  · rw [← firsts_all]
    have hf : ∀ d, firsts es (j + 1) <+: firsts es (j + 1 + d) := by
      intro d
      unfold firsts
      rw [List.take_add (l := List.finRange n) (i := j + 1), List.flatMap_append]
      exact List.prefix_append _ _
    have := hf (n - (j + 1))
    rw [show j + 1 + (n - (j + 1)) = n by omega] at this
    refine List.IsPrefix.trans ?_ this
    rw [firsts_succ es j hj, h3, h1, List.map_append, ← List.append_assoc]
    exact List.prefix_append _ _

/-! ### C112 -/

/-- C112: at any time, what was done is a beginning of what the processes do in the order of their ranks; in particular no
process starts before those with lower ranks are done. -/
theorem C112_order (es : Fin n → List E) (r : Fin n → R) {m : Nat} {s : State n E R}
    (h : Execution (start fun p => Spec.does (es p) (r p)) m s) : s.trace <+: Spec.inOrder es := by
  obtain ⟨j, hj, -⟩ := Inv.execution h
  exact hj.prefix

/-- C112: when one process returns, with its own result or exception, all have executed the function. -/
theorem C112_returns (es : Fin n → List E) (r : Fin n → R) {m : Nat} {s : State n E R}
    (h : Execution (start fun p => Spec.does (es p) (r p)) m s) (p : Fin n) (x : R) (hp : s.prog p = .ret x) :
    x = r p ∧ s.trace = Spec.inOrder es := by
  obtain ⟨j, hj, -⟩ := Inv.execution h
  have hn : j = n := by
    by_contra hne
    have hlt : j < n := by have := hj.le; omega
    rcases lt_trichotomy p.val j with h | h | h
    · rw [hj.early p h, show n - j = (n - j - 1) + 1 by omega] at hp
      cases hp
    · rcases hj.now with ⟨hx, -⟩ | ⟨hx, pre, suf, h1, h2, h3⟩
      · exact hne hx
      · obtain rfl : p = ⟨j, hx⟩ := Fin.ext h
        rw [h2] at hp
        cases suf with
        | cons f suf => cases hp
        | nil => rw [show n - j = (n - j - 1) + 1 by omega] at hp; cases hp
    · rw [hj.late p h, show p.val - j = (p.val - j - 1) + 1 by omega] at hp
      cases hp
  subst hn
  rw [hj.early p p.isLt, Nat.sub_self] at hp
  simp only [barriers, Prog.ret.injEq] at hp
  refine ⟨hp.symm, ?_⟩
  rcases hj.now with ⟨-, h⟩ | ⟨hx, -⟩
  · rw [h, firsts_all]
  · omega

/-- C112: no process waits forever: as long as one has not returned, there is a step. -/
theorem C112_progress (es : Fin n → List E) (r : Fin n → R) {m : Nat} {s : State n E R}
    (h : Execution (start fun p => Spec.does (es p) (r p)) m s) :
    (∃ t, Step s t) ∨ ∀ p, s.prog p = .ret (r p) := by
  obtain ⟨j, hj, -⟩ := Inv.execution h
  rcases hj.now with ⟨hx, -⟩ | ⟨hx, pre, suf, h1, h2, h3⟩
  · refine Or.inr fun p => ?_
    rw [hj.early p (by omega), show n - j = 0 by omega]
    rfl
  · refine Or.inl ?_
    cases suf with
    | cons f suf => exact ⟨_, Step.act s ⟨j, hx⟩ f _ h2⟩
    | nil =>
      have hall : ∀ p, ∃ k, s.prog p = .barrier k := by
        intro p
        rcases lt_trichotomy p.val j with h | h | h
        · rw [hj.early p h, show n - j = (n - j - 1) + 1 by omega]; exact ⟨_, rfl⟩
        · obtain rfl : p = ⟨j, hx⟩ := Fin.ext h
          rw [h2, show n - j = (n - j - 1) + 1 by omega]; exact ⟨_, rfl⟩
        · rw [hj.late p h, show p.val - j = (p.val - j - 1) + 1 by omega]; exact ⟨_, rfl⟩
      choose k hk using hall
      exact ⟨_, Step.barrier s k (by omega) hk⟩

/-- C112: every execution ends, after as many steps as there are actions and processes. -/
theorem C112_ends (es : Fin n → List E) (r : Fin n → R) {m : Nat} {s : State n E R}
    (h : Execution (start fun p => Spec.does (es p) (r p)) m s) : m ≤ (Spec.inOrder es).length + n := by
  obtain ⟨j, hj, hm⟩ := Inv.execution h
  have := hj.prefix.length_le
  have := hj.le
  omega

/-- Three processes, the second of which throws: the only complete trace. -/
example : Spec.inOrder (n := 3) (fun p => if p = 0 then ["a", "b"] else if p = 1 then [] else ["c"]) =
    [(0, "a"), (0, "b"), (2, "c")] := by decide +kernel

/-- The function must not use the communicator: two processes that call a barrier in the function between two actions can
act at the same time. -/
theorem C112_barrier : ∃ (m : Nat) (s : State 2 String Unit),
    Execution (start fun _ => .act "first" (.barrier (.act "second" (.ret ())))) m s ∧
      s.trace = [(0, "first"), (1, "first"), (0, "second")] := by
  refine ⟨4, _, .step (.step (.step (.step .none (.act _ 0 "first" _ rfl)) (.barrier _ (fun p =>
    if p = 0 then .act "second" (barriers 2 (.ret ())) else .act "first" (.barrier (.act "second" (barriers 1 (.ret ())))))
    (by decide) ?_)) (.act _ 1 "first" _ rfl)) (.act _ 0 "second" _ rfl), rfl⟩
  intro p
  match p with
  | 0 => rfl
  | 1 => rfl

end Ovk.Serial
