import Verif.Lemmas.Range
import Mathlib.Tactic.Linarith
import Mathlib.Tactic.Ring

namespace Ovk
variable {d : Nat}

theorem mem_periodSearch : ∀ {d : Nat} (k : Tup d), k ∈ periodSearch d ↔ ∀ i, k i = -1 ∨ k i = 0
  | 0, k => by
    simp only [periodSearch, List.mem_singleton]
    exact ⟨fun _ i => i.elim0, fun _ => funext fun i => i.elim0⟩
  | d + 1, k => by
    simp only [periodSearch, List.mem_flatMap, List.mem_map]
    constructor
    · rintro ⟨x, hx, t, ht, rfl⟩ i
      have ht' := (mem_periodSearch t).1 ht
      refine Fin.lastCases ?_ (fun j => ?_) i
      · simp only [Fin.snoc_last]; simpa using hx
      · simp only [Fin.snoc_castSucc]; exact ht' j
    · intro h
      refine ⟨k (Fin.last d), by simpa using h (Fin.last d), fun j => k j.castSucc,
        (mem_periodSearch _).2 (fun j => h _), ?_⟩
      exact Fin.snoc_init_self k

/-- The fold keeps a candidate satisfying the test iff there is one. -/
theorem foldl_last {α β : Type} (P : α → Bool) (f : α → β) (l : List α) (acc : Option β) :
    (∀ y, l.foldl (fun acc k => if P k then some (f k) else acc) acc = some y →
      acc = some y ∨ ∃ k ∈ l, P k = true ∧ y = f k) ∧
    (l.foldl (fun acc k => if P k then some (f k) else acc) acc = none →
      acc = none ∧ ∀ k ∈ l, P k = false) := by
  induction l generalizing acc with
  | nil => simp
  | cons x xs ih =>
    simp only [List.foldl_cons]
    have h := ih (if P x then some (f x) else acc)
    constructor
    · intro y hy
      rcases h.1 y hy with h1 | ⟨k, hk, h2⟩
      · split at h1
        · rename_i hp
          exact .inr ⟨x, by simp, hp, by simpa using h1.symm⟩
        · exact .inl h1
      · exact .inr ⟨k, by simp [hk], h2⟩
    · intro hn
      have := h.2 hn
      split at this
      · simp at this
      · rename_i hp
        refine ⟨this.1, ?_⟩
        intro k hk
        rcases List.mem_cons.1 hk with rfl | hk
        · simpa using hp
        · exact this.2 k hk

theorem Cart.mapCandidate_periodic (c : Cart d) (r : Rng d) (t : Tup d) (i : Fin d)
    (hp : c.periodic i = true) (hs : 0 < c.periodSize i) :
    (∃ k, c.mapCandidate r t i = t i + c.periodSize i * k) ∧
    r.b i ≤ c.mapCandidate r t i ∧ c.mapCandidate r t i < r.b i + c.periodSize i := by
  simp only [Cart.mapCandidate, c.period_periodic _ _ hp hs]
  have a1 := Int.emod_add_mul_ediv (r.b i - c.range.b i) (c.periodSize i)
  have a2 := Int.emod_add_mul_ediv (t i - c.range.b i) (c.periodSize i)
  have b1 := Int.emod_nonneg (r.b i - c.range.b i) (by omega : c.periodSize i ≠ 0)
  have b2 := Int.emod_lt_of_pos (r.b i - c.range.b i) hs
  have b3 := Int.emod_nonneg (t i - c.range.b i) (by omega : c.periodSize i ≠ 0)
  have b4 := Int.emod_lt_of_pos (t i - c.range.b i) hs
  split
  · rename_i h
    refine ⟨⟨(r.b i - c.range.b i) / c.periodSize i - (t i - c.range.b i) / c.periodSize i + 1,
      by ring⟩, ?_, ?_⟩ <;> rw [Int.mul_sub] at * <;> omega
  · rename_i h
    refine ⟨⟨_, rfl⟩, ?_, ?_⟩ <;> rw [Int.mul_sub] at * <;> omega

theorem Cart.mapCandidate_nonperiodic (c : Cart d) (r : Rng d) (t : Tup d) (i : Fin d)
    (hp : c.periodic i = false) :
    c.mapCandidate r t i = if t i < r.b i then t i + c.periodSize i else t i := by
  simp [Cart.mapCandidate, Cart.period, hp]

end Ovk
