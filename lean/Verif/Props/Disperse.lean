/-
Property C23: disperse operations.
-/
import Verif.Model.Disperse
import Verif.Lemmas.FieldIndex
import Verif.Props.Range
import Mathlib.Algebra.BigOperators.Group.List.Basic

namespace Ovk
variable {d : Nat} {V : Type}

namespace Spec
/-- The numbers of the entries of a list that are equal to `p`, in increasing order. -/
def positions (points : List (Tup d)) (p : Tup d) : List Nat :=
  (List.range points.length).filter fun k => decide (points[k]? = some p)
end Spec

namespace Disp

theorem storePoint_eq (op : V → V → V) (i : Int) (v : Nat → V) (f : Nat → Int → V) : ∀ (n : Nat),
    ∀ (c : Nat) (j : Int), storePoint op n i v f c j = if c < n ∧ j = i then op (f c j) (v c) else f c j := by
  intro n
  induction n with
  | zero => intro c j; simp [storePoint]
  | succ n ih =>
    intro c j
    have : storePoint op (n + 1) i v f = fun c' j =>
        if c' = n ∧ j = i then op (storePoint op n i v f c' j) (v n) else storePoint op n i v f c' j := by
      unfold storePoint; rw [List.range_succ, List.foldl_append]; rfl
    rw [this]
    dsimp only
    rw [ih]
    by_cases hj : j = i
    · by_cases h1 : c = n
      · subst h1; simp [hj]
      · by_cases h2 : c < n
        · have h3 : c < n + 1 := by omega
          simp [h1, h2, h3, hj]
        · have h3 : ¬ c < n + 1 := by omega
          simp [h1, h2, h3]
    · simp [hj]

/-- The values stored into point `p` by the rest of the loop. -/
def later (points : List (Tup d)) (k : Nat) (p : Tup d) : List Nat :=
  (Spec.positions points p).map (· + k)

theorem positions_cons (q : Tup d) (ps : List (Tup d)) (p : Tup d) :
    Spec.positions (q :: ps) p =
      (if q = p then [0] else []) ++ (Spec.positions ps p).map (· + 1) := by
  unfold Spec.positions
  rw [List.length_cons, List.range_succ_eq_map, List.filter_cons]
  have : ((List.range ps.length).map Nat.succ).filter (fun k => decide ((q :: ps)[k]? = some p)) =
      ((List.range ps.length).filter fun k => decide (ps[k]? = some p)).map (· + 1) := by
    rw [List.filter_map]; congr 1
  rw [this]
  by_cases h : q = p <;> simp [h]

theorem loop_spec (op : V → V → V) (l : Indexer.Layout) (r : Rng d) (count : Nat)
    (packed : Nat → Nat → V) : ∀ (points : List (Tup d)) (k : Nat) (field : Nat → Int → V),
    (∀ p ∈ points, Spec.pts r p) →
    ∃ out, loop op l r count packed k points field = some out ∧
      (∀ c p, c < count → Spec.pts r p → out c (r.index l p) =
        (later points k p).foldl (fun a m => op a (packed c m)) (field c (r.index l p))) ∧
      (∀ c j, (¬ c < count ∨ ∀ p ∈ points, r.index l p ≠ j) → out c j = field c j) := by
  intro points
  induction points with
  | nil => intro k field _; exact ⟨field, rfl, fun c p _ _ => by simp [later, Spec.positions], fun _ _ _ => rfl⟩
  | cons q ps ih =>
    intro k field h
    have hq := h q (by simp)
    have hb := Rng.index_bounds l r q hq
    obtain ⟨out, h1, h2, h3⟩ := ih (k + 1) (storePoint op count (r.index l q) (fun c => packed c k) field)
      (fun p hp => h p (by simp [hp]))
    refine ⟨out, ?_, ?_, ?_⟩
    · unfold loop; dsimp only; rw [if_pos hb]; exact h1
    · intro c p hc hp
      rw [h2 c p hc hp, storePoint_eq]
      have e : later (q :: ps) k p = (if q = p then [k] else []) ++ later ps (k + 1) p := by
        unfold later
        rw [positions_cons]
        by_cases hqp : q = p
        · simp [hqp, Function.comp_def]; intros; omega
        · simp [hqp, Function.comp_def]; intros; omega
      rw [e]
      by_cases hqp : q = p
      · subst hqp; simp [hc]
      · have : ¬ r.index l p = r.index l q := fun e => hqp (Rng.index_inj l r q p hq hp e.symm)
        simp [hqp, this]
    · intro c j hcj
      rw [h3 c j (hcj.imp id fun h p hp => h p (by simp [hp])), storePoint_eq]
      rw [if_neg]
      rintro ⟨hc, rfl⟩
      rcases hcj with hcj | hcj
      · exact hcj hc
      · exact hcj q (by simp) rfl

theorem mem_positions (points : List (Tup d)) (p : Tup d) (k : Nat) :
    k ∈ Spec.positions points p ↔ points[k]? = some p := by
  unfold Spec.positions
  rw [List.mem_filter, List.mem_range, decide_eq_true_eq]
  constructor
  · exact fun h => h.2
  · intro h; exact ⟨(List.getElem?_eq_some_iff.1 h).1, h⟩

theorem foldl_last {A : Type} (f : Nat → A) : ∀ (L : List Nat) (a : A),
    L.foldl (fun _ m => f m) a = (L.getLast?.map f).getD a
  | [], a => rfl
  | [m], a => rfl
  | m :: n :: L, a => by
    show (n :: L).foldl (fun _ m => f m) (f m) = _
    rw [foldl_last f (n :: L) (f m)]; simp [List.getLast?_cons_cons]
    rw [List.getLast?_cons]; simp

end Disp

/-- C23, overwrite: with all points in the values range the operation is defined; afterwards every point
of the range holds, in every component, the packed value of the *last* entry of the point list that names
it, or its old value if none does; nothing else in memory changes. -/
theorem C23_overwrite (l : Indexer.Layout) (r : Rng d) (count : Nat) (points : List (Tup d))
    (packed : Nat → Nat → V) (field : Nat → Int → V) (hp : ∀ p ∈ points, Spec.pts r p) :
    ∃ out, Disp.overwrite l r count points packed field = some out ∧
      (∀ c p k, c < count → points[k]? = some p → (∀ m, k < m → points[m]? ≠ some p) →
        out c (r.index l p) = packed c k) ∧
      (∀ c p, Spec.pts r p → p ∉ points → out c (r.index l p) = field c (r.index l p)) ∧
      (∀ c j, (¬ c < count ∨ ∀ p, Spec.pts r p → r.index l p ≠ j) → out c j = field c j) := by
  obtain ⟨out, h1, h2, h3⟩ := Disp.loop_spec (fun _ v => v) l r count packed points 0 field hp
  refine ⟨out, h1, ?_, ?_, ?_⟩
  · intro c p k hc hk hlast
    have hm : p ∈ points := List.mem_of_getElem? hk
    rw [h2 c p hc (hp p hm)]
    have e : Disp.later points 0 p = Spec.positions points p := by simp [Disp.later]
    rw [e, Disp.foldl_last]
    have hs : (Spec.positions points p).getLast? = some k := by
      have hkm := (Disp.mem_positions points p k).2 hk
      have hne : Spec.positions points p ≠ [] := fun e => by rw [e] at hkm; simp at hkm
      rw [List.getLast?_eq_some_getLast hne]
      have hle : k ≤ (Spec.positions points p).getLast hne := by
        have hs : (Spec.positions points p).Pairwise (· ≤ ·) := by
          unfold Spec.positions
          exact (List.pairwise_le_range).filter _
        exact List.Pairwise.rel_getLast hs hkm
      have hg := (Disp.mem_positions points p _).1 (List.getLast_mem hne)
      by_contra hcon
      exact hlast _ (lt_of_le_of_ne hle (fun e => hcon (by rw [← e]))) hg
    rw [hs]; rfl
  · intro c p hpr hnot
    by_cases hc : c < count
    · rw [h2 c p hc hpr]
      have : Disp.later points 0 p = [] := by
        unfold Disp.later
        rw [List.map_eq_nil_iff, List.eq_nil_iff_forall_not_mem]
        intro k hk
        exact hnot (List.mem_of_getElem? ((Disp.mem_positions points p k).1 hk))
      rw [this]; rfl
    · exact h3 c _ (Or.inl hc)
  · intro c j h
    exact h3 c j (h.imp id fun h p hm => h p (hp p hm))

/-- C23, append: every point of the range ends with its old value plus, in list order, the packed value of
every entry naming it, each exactly once; nothing else in memory changes.  No law is assumed of `add`. -/
theorem C23_append (add : V → V → V) (l : Indexer.Layout) (r : Rng d) (count : Nat) (points : List (Tup d))
    (packed : Nat → Nat → V) (field : Nat → Int → V) (hp : ∀ p ∈ points, Spec.pts r p) :
    ∃ out, Disp.append add l r count points packed field = some out ∧
      (∀ c p, c < count → Spec.pts r p → out c (r.index l p) =
        (Spec.positions points p).foldl (fun a k => add a (packed c k)) (field c (r.index l p))) ∧
      (∀ c j, (¬ c < count ∨ ∀ p, Spec.pts r p → r.index l p ≠ j) → out c j = field c j) := by
  obtain ⟨out, h1, h2, h3⟩ := Disp.loop_spec add l r count packed points 0 field hp
  refine ⟨out, h1, ?_, fun c j h => h3 c j (h.imp id fun h p hm => h p (hp p hm))⟩
  intro c p hc hpr
  rw [h2 c p hc hpr]
  simp [Disp.later]

/-- C23, append with an exact addition: the increase is the sum of the packed values of the point. -/
theorem C23_append_sum [AddCommMonoid V] (l : Indexer.Layout) (r : Rng d) (count : Nat)
    (points : List (Tup d)) (packed : Nat → Nat → V) (field : Nat → Int → V)
    (hp : ∀ p ∈ points, Spec.pts r p) :
    ∃ out, Disp.append (· + ·) l r count points packed field = some out ∧
      ∀ c p, c < count → Spec.pts r p → out c (r.index l p) =
        field c (r.index l p) + ((Spec.positions points p).map (packed c)).sum := by
  obtain ⟨out, h1, h2, _⟩ := C23_append (· + ·) l r count points packed field hp
  refine ⟨out, h1, fun c p hc hpr => ?_⟩
  rw [h2 c p hc hpr]
  generalize field c (r.index l p) = a
  generalize Spec.positions points p = L
  induction L generalizing a with
  | nil => simp
  | cons k L ih => rw [List.foldl_cons, ih, List.map_cons, List.sum_cons, add_assoc]

/-! Examples: two components, a point named twice. -/

def exDispRange : Rng 2 := ⟨![1, 0], ![3, 2]⟩
def exDispPoints : List (Tup 2) := [![1, 0], ![2, 1], ![1, 0]]

example : ∀ p ∈ exDispPoints, Spec.pts exDispRange p := by unfold Spec.pts; decide

example : (Disp.overwrite .row exDispRange 2 exDispPoints (fun c k => (10 * c + k : Nat))
    (fun _ _ => 99)).map (fun f => [f 0 0, f 0 1, f 0 2, f 0 3, f 1 0, f 1 3, f 2 0]) =
    some [2, 99, 99, 1, 12, 11, 99] := by decide +kernel

example : (Disp.append (· + ·) .col exDispRange 1 exDispPoints (fun _ k => k + 1)
    (fun _ _ => 100)).map (fun f => [f 0 0, f 0 1, f 0 2, f 0 3]) = some [104, 100, 100, 102] := by
  decide +kernel

end Ovk
