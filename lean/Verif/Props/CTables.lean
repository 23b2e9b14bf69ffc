/-
Property C121: programs in C see and change the tables of overlaps and connectivities as the C++ interface does.

The specification has no memory: a table is a function of a column and a position, and a variable holds a column.
-/
import Verif.Model.CTables
import Mathlib.Tactic.Ring
import Mathlib.Tactic.Linarith
import Mathlib.Data.List.Forall2

namespace Ovk.CTab
variable {V : Type}

namespace Spec
/-- The columns of a table: those of three dimensions, with two ends for extents and all points of the stencil for
coefficients; ranks have only one column. -/
def Column (stencil : Nat) (t : Table) (col : List Nat) : Prop :=
  match t, col with
  | .extents, [e, d] => e < 2 ∧ d < 3
  | .interpCoefs, [d, p] => d < 3 ∧ p < stencil
  | .destinationRanks, [] | .sourceRanks, [] | .oDestinationRanks, [] | .oSourceRanks, [] => True
  | .extents, _ | .interpCoefs, _ | .destinationRanks, _ | .sourceRanks, _ | .oDestinationRanks, _
  | .oSourceRanks, _ => False
  | _, [d] => d < 3
  | _, _ => False

/-- The size, the tables, how often editing each table was begun and not ended, what variables hold and whether it may be
used for writing, what listeners heard and what was read. -/
structure Abs (V : Type) where
  size : Nat
  stencil : Nat
  val : Table → List Nat → Nat → V
  sessions : Table → Nat
  var : Nat → Option (Table × List Nat × Bool)
  log : List Event
  out : List V

def Abs.hold (S : Abs V) (v : Nat) (x : Option (Table × List Nat × Bool)) : Abs V :=
  { S with var := fun w => if w = v then x else S.var w }

/-- One handle of the table is given back; listeners hear of it with the last one. -/
def Abs.ended (S : Abs V) (t : Table) : Abs V :=
  { S with
    sessions := fun u => if u = t then S.sessions t - 1 else S.sessions u
    log := S.log ++ if S.sessions t = 1 then [.changed t] else [] }

def Abs.begun (S : Abs V) (t : Table) : Abs V :=
  { S with sessions := fun u => if u = t then S.sessions t + 1 else S.sessions u }

def next (k : Obj) (init : Table → List Nat → V) (S : Abs V) : Op V → Abs V
  | .resize n st => { S with
      size := n, stencil := st, val := fun t col _ => init t col, var := fun _ => none
      log := S.log ++ .resized :: (tables k).map .changed }
  | .get t col v => S.hold v (some (t, col, false))
  | .getExtents d vb ve => (S.hold vb (some (.extents, [0, d], false))).hold ve (some (.extents, [1, d], false))
  | .edit t col v => (S.begun t).hold v (some (t, col, true))
  | .editExtents d vb ve =>
    ((S.begun .extents).hold vb (some (.extents, [0, d], true))).hold ve (some (.extents, [1, d], true))
  | .write v i x =>
    match S.var v with
    | none => S
    | some (t, col, _) => { S with val := fun u c j => if u = t ∧ c = col ∧ j = i then x else S.val u c j }
  | .read v i =>
    match S.var v with
    | none => S
    | some (t, col, _) => { S with out := S.out ++ [S.val t col i] }
  | .restore t v => (S.ended t).hold v none
  | .restoreExtents vb ve => ((S.ended .extents).hold vb none).hold ve none

/-- The size is changed while nothing is edited.  Variables are used with positions that exist, and only until the size
changes; writing is done with variables from `Edit` calls while the table is edited.  What is ended was begun. -/
def Legal (k : Obj) (S : Abs V) : Op V → Prop
  | .resize _ _ => ∀ t ∈ tables k, S.sessions t = 0
  | .get t col _ | .edit t col _ => t ∈ tables k ∧ Column S.stencil t col
  | .getExtents d _ _ | .editExtents d _ _ => .extents ∈ tables k ∧ d < 3
  | .write v i _ => ∃ t col, S.var v = some (t, col, true) ∧ S.sessions t ≠ 0 ∧ i < S.size
  | .read v i => S.var v ≠ none ∧ i < S.size
  | .restore t _ => t ∈ tables k ∧ S.sessions t ≠ 0
  | .restoreExtents _ _ => .extents ∈ tables k ∧ S.sessions .extents ≠ 0

def LegalAll (k : Obj) (init : Table → List Nat → V) : Abs V → List (Op V) → Prop
  | _, [] => True
  | S, o :: os => Legal k S o ∧ LegalAll k init (next k init S o) os

def fresh (init : Table → List Nat → V) : Abs V :=
  ⟨0, 1, fun t col _ => init t col, fun _ => 0, fun _ => none, [], []⟩

def after (k : Obj) (init : Table → List Nat → V) (os : List (Op V)) (S : Abs V) : Abs V := os.foldl (next k init) S
end Spec

open Spec

/-! ### Positions -/

theorem flat_lt {ns is : List Nat} (h : List.Forall₂ (· < ·) is ns) : flat ns is < prod ns := by
  induction h with
  | nil => simp [flat, prod]
  | @cons i n is ns h1 _ ih =>
    simp only [flat, prod]
    calc i * prod ns + flat ns is < i * prod ns + prod ns := by omega
      _ = (i + 1) * prod ns := by ring
      _ ≤ n * prod ns := Nat.mul_le_mul_right _ h1

theorem unflat_flat {ns is : List Nat} (h : List.Forall₂ (· < ·) is ns) : unflat ns (flat ns is) = is := by
  induction h with
  | nil => rfl
  | @cons i n is ns _ h2 ih =>
    have hl := flat_lt h2
    have hp : 0 < prod ns := by omega
    simp only [flat, unflat]
    rw [show i * prod ns + flat ns is = flat ns is + prod ns * i by ring, Nat.add_mul_div_left _ _ hp,
      Nat.div_eq_of_lt hl, Nat.add_mul_mod_self_left, Nat.mod_eq_of_lt hl, ih, Nat.zero_add]

theorem prod_snoc (ns : List Nat) (n : Nat) : prod (ns ++ [n]) = prod ns * n := by
  induction ns with
  | nil => simp [prod]
  | cons a ns ih => simp only [List.cons_append, prod, ih]; ring

theorem flat_snoc {ns is : List Nat} (h : is.length = ns.length) (n i : Nat) :
    flat (ns ++ [n]) (is ++ [i]) = flat ns is * n + i := by
  induction ns generalizing is with
  | nil =>
    cases is with
    | nil => simp [flat, prod]
    | cons => simp at h
  | cons a ns ih =>
    cases is with
    | nil => simp at h
    | cons b is =>
      simp only [List.cons_append, flat, prod_snoc]
      rw [ih (by simpa using h)]
      ring

theorem column_lead {st : Nat} {t : Table} {col : List Nat} (h : Column st t col) :
    List.Forall₂ (· < ·) col (lead st t) := by
  unfold Column at h
  split at h <;> first | exact h.elim | skip
  all_goals first
    | exact .cons h.1 (.cons h.2 .nil)
    | exact .nil
    | skip
  cases t <;> first | exact .cons h .nil | (exfalso; simp_all; done)

theorem lead_column {st : Nat} {t : Table} {col : List Nat} (h : List.Forall₂ (· < ·) col (lead st t)) :
    Column st t col := by
  cases t <;> simp only [lead] at h <;> (cases h <;> try trivial) <;> rename_i h1 h2 <;> cases h2 <;>
    first
    | exact h1
    | (rename_i h3 h4; cases h4; exact ⟨h1, h3⟩)

/-- The memory of the model against the specification. -/
structure Rel (S : Abs V) (s : State V) : Prop where
  size : s.size = S.size
  stencil : s.stencil = S.stencil
  log : s.log = S.log
  out : s.out = S.out
  len : ∀ t, (s.data t).length = prod (lead s.stencil t) * s.size
  val : ∀ t col (i : Nat), Column s.stencil t col → i < s.size →
    (s.data t)[flat (lead s.stencil t) col * s.size + i]? = some (S.val t col i)
  refs : ∀ t, s.refs t = S.sessions t
  active : ∀ t, s.active t = decide (S.sessions t ≠ 0)
  var : ∀ v t col w, S.var v = some (t, col, w) →
    Column s.stencil t col ∧ s.var v = some ⟨t, flat (lead s.stencil t) col * s.size, s.gen⟩

theorem dataPtr_eq {s : State V} {t : Table} {col : List Nat} (h : Column s.stencil t col) :
    dataPtr s t col = ⟨t, flat (lead s.stencil t) col * s.size, s.gen⟩ := by
  simp only [dataPtr]
  rw [flat_snoc (column_lead h).length_eq, Nat.add_zero]

theorem pos_lt {st n : Nat} {t : Table} {col : List Nat} {i : Nat} (h : Column st t col) (hi : i < n) :
    flat (lead st t) col * n + i < prod (lead st t) * n := by
  have := flat_lt (column_lead h)
  calc _ < flat (lead st t) col * n + n := by omega
    _ = (flat (lead st t) col + 1) * n := by ring
    _ ≤ _ := Nat.mul_le_mul_right _ this

theorem pos_inj {st n : Nat} {t : Table} {c c' : List Nat} {i i' : Nat} (h : Column st t c) (h' : Column st t c')
    (hi : i < n) (hi' : i' < n) (e : flat (lead st t) c * n + i = flat (lead st t) c' * n + i') : c = c' ∧ i = i' := by
  have d : (flat (lead st t) c * n + i) / n = flat (lead st t) c := by
    rw [Nat.add_comm, Nat.add_mul_div_right _ _ (by omega), Nat.div_eq_of_lt hi, Nat.zero_add]
  have d' : (flat (lead st t) c' * n + i') / n = flat (lead st t) c' := by
    rw [Nat.add_comm, Nat.add_mul_div_right _ _ (by omega), Nat.div_eq_of_lt hi', Nat.zero_add]
  have ef : flat (lead st t) c = flat (lead st t) c' := by rw [← d, ← d', e]
  refine ⟨?_, by rw [ef] at e; omega⟩
  rw [← unflat_flat (column_lead h), ← unflat_flat (column_lead h'), ef]

theorem Rel.hold {S : Abs V} {s : State V} (h : Rel S s) {v : Nat} {t : Table} {col : List Nat} (w : Bool)
    (hc : Column s.stencil t col) : Rel (S.hold v (some (t, col, w))) (setVar s v (some (dataPtr s t col))) := by
  refine ⟨h.size, h.stencil, h.log, h.out, h.len, h.val, h.refs, h.active, fun v' t' col' w' hv => ?_⟩
  simp only [Spec.Abs.hold] at hv
  simp only [setVar, Function.update_apply]
  split at hv
  · cases hv
    exact ⟨hc, by rw [if_pos ‹_›, dataPtr_eq hc]⟩
  · rw [if_neg ‹_›]
    exact h.var _ _ _ _ hv

theorem Rel.drop {S : Abs V} {s : State V} (h : Rel S s) (v : Nat) : Rel (S.hold v none) (setVar s v none) := by
  refine ⟨h.size, h.stencil, h.log, h.out, h.len, h.val, h.refs, h.active, fun v' t' col' w' hv => ?_⟩
  simp only [Spec.Abs.hold] at hv
  simp only [setVar, Function.update_apply]
  split at hv
  · cases hv
  · rw [if_neg ‹_›]
    exact h.var _ _ _ _ hv

theorem Rel.begun {S : Abs V} {s : State V} (h : Rel S s) (t : Table) : Rel (S.begun t) (beginEdit s t) := by
  refine ⟨h.size, h.stencil, h.log, h.out, h.len, h.val, fun u => ?_, fun u => ?_, h.var⟩ <;>
    simp only [beginEdit, Spec.Abs.begun, Function.update_apply] <;> split
  · rw [h.refs]
  · exact h.refs u
  · simp
  · exact h.active u

theorem Rel.ended {S : Abs V} {s : State V} (h : Rel S s) {t : Table} (hs : S.sessions t ≠ 0) :
    ∃ s', endEdit s t = some s' ∧ Rel (S.ended t) s' := by
  have h1 : ¬ (s.active t = false ∨ s.refs t = 0) := by rw [h.active, h.refs]; simp [hs]
  simp only [endEdit]
  rw [if_neg h1]
  split
  · rename_i hr
    have hr' : S.sessions t = 1 := by rw [← h.refs, hr]
    refine ⟨_, rfl, h.size, h.stencil, ?_, h.out, h.len, h.val, fun u => ?_, fun u => ?_, h.var⟩
    · simp [Spec.Abs.ended, hr', h.log]
    · simp only [Spec.Abs.ended, Function.update_apply]
      split
      · rw [hr']
      · exact h.refs u
    · simp only [Spec.Abs.ended, Function.update_apply]
      split
      · rw [hr']; rfl
      · exact h.active u
  · rename_i hr
    have hr' : S.sessions t ≠ 1 := by rw [← h.refs]; exact hr
    refine ⟨_, rfl, h.size, h.stencil, ?_, h.out, h.len, h.val, fun u => ?_, fun u => ?_, h.var⟩
    · simp [Spec.Abs.ended, hr', h.log]
    · simp only [Spec.Abs.ended, Function.update_apply]
      split
      · rw [h.refs]
      · exact h.refs u
    · simp only [Spec.Abs.ended]
      split
      · subst u
        rw [h.active]
        have : S.sessions t - 1 ≠ 0 := by omega
        simp [hs, this]
      · exact h.active u

theorem Rel.target {S : Abs V} {s : State V} (h : Rel S s) {v i : Nat} {t : Table} {col : List Nat} {w : Bool}
    (hv : S.var v = some (t, col, w)) (hi : i < s.size) :
    target s v i = some (t, flat (lead s.stencil t) col * s.size + i) := by
  obtain ⟨hc, hv⟩ := h.var _ _ _ _ hv
  simp only [CTab.target, hv]
  rw [if_pos ⟨trivial, by rw [h.len]; exact pos_lt hc hi⟩]

theorem Rel.next {k : Obj} {init : Table → List Nat → V} {S : Abs V} {s : State V} (h : Rel S s) {o : Op V}
    (hl : Legal k S o) : ∃ s', step k init s o = some s' ∧ Rel (Spec.next k init S o) s' := by
  cases o with
  | resize n st =>
    have ha : ¬ ((tables k).any s.active = true) := by
      rw [List.any_eq_true]
      rintro ⟨t, ht, hc⟩
      rw [h.active] at hc
      simp [hl t ht] at hc
    simp only [step, CTab.resize]
    rw [if_neg ha]
    refine ⟨_, rfl, rfl, rfl, ?_, h.out, fun t => by simp only [List.length_map, List.length_range], fun t col i hc hi => ?_, h.refs, h.active, ?_⟩
    · simp [Spec.next, h.log]
    · simp only [Spec.next] at hc hi ⊢
      have hp := pos_lt hc hi
      rw [List.getElem?_map, List.getElem?_range hp]
      simp only [Option.map_some]
      rw [Nat.add_comm, Nat.add_mul_div_right _ _ (by omega), Nat.div_eq_of_lt hi, Nat.zero_add,
        unflat_flat (column_lead hc)]
    · intro v t col w hv
      simp [Spec.next] at hv
  | get t col v => exact ⟨_, rfl, h.hold false (by rw [h.stencil]; exact hl.2)⟩
  | getExtents d vb ve =>
    exact ⟨_, rfl, (h.hold (t := .extents) (col := [0, d]) false ⟨by omega, hl.2⟩).hold (t := .extents) (col := [1, d])
      false ⟨by omega, hl.2⟩⟩
  | edit t col v => exact ⟨_, rfl, (h.begun t).hold true (by rw [(h.begun t).stencil]; exact hl.2)⟩
  | editExtents d vb ve =>
    exact ⟨_, rfl, ((h.begun .extents).hold (t := .extents) (col := [0, d]) true ⟨by omega, hl.2⟩).hold (t := .extents)
      (col := [1, d]) true ⟨by omega, hl.2⟩⟩
  | write v i x =>
    obtain ⟨t, col, hv, -, hi⟩ := hl
    rw [← h.size] at hi
    have hc := (h.var _ _ _ _ hv).1
    simp only [step, h.target hv hi, Option.map_some, Spec.next, hv]
    refine ⟨_, rfl, h.size, h.stencil, h.log, h.out, fun u => ?_, fun u c j hc' hj => ?_, h.refs, h.active, h.var⟩
    · simp only [Function.update_apply]
      split
      · subst u
        rw [List.length_set, h.len]
      · exact h.len u
    · simp only [Function.update_apply]
      dsimp only at hc' hj
      by_cases hu : u = t
      · subst u
        rw [if_pos rfl, List.getElem?_set]
        by_cases he : c = col ∧ j = i
        · obtain ⟨rfl, rfl⟩ := he
          rw [if_pos rfl, if_pos (by rw [h.len]; exact pos_lt hc hi), if_pos ⟨rfl, rfl, rfl⟩]
        · rw [if_neg fun e => he (by
            obtain ⟨a, b⟩ := pos_inj hc hc' hi hj e
            exact ⟨a.symm, b.symm⟩), if_neg fun e => he e.2]
          exact h.val _ _ _ hc' hj
      · rw [if_neg hu, if_neg fun e => hu e.1]
        exact h.val _ _ _ hc' hj
  | read v i =>
    obtain ⟨hv, hi⟩ := hl
    rw [← h.size] at hi
    obtain ⟨⟨t, col, w⟩, hv⟩ := Option.ne_none_iff_exists'.1 hv
    have hc := (h.var _ _ _ _ hv).1
    simp only [step, h.target hv hi, Option.bind_some, h.val _ _ _ hc hi, Option.map_some, Spec.next, hv]
    exact ⟨_, rfl, h.size, h.stencil, h.log, by rw [h.out], h.len, h.val, h.refs, h.active, h.var⟩
  | restore t v =>
    obtain ⟨s', e, h'⟩ := h.ended hl.2
    exact ⟨_, by simp only [step, e]; rfl, h'.drop v⟩
  | restoreExtents vb ve =>
    obtain ⟨s', e, h'⟩ := h.ended hl.2
    exact ⟨_, by simp only [step, e]; rfl, (h'.drop vb).drop ve⟩

theorem Rel.run {k : Obj} {init : Table → List Nat → V} {os : List (Op V)} {S : Abs V} {s : State V} (h : Rel S s)
    (hl : LegalAll k init S os) : ∃ s', run k init os s = some s' ∧ Rel (after k init os S) s' := by
  induction os generalizing S s with
  | nil => exact ⟨s, rfl, h⟩
  | cons o os ih =>
    obtain ⟨s1, e, h1⟩ := h.next (init := init) hl.1
    obtain ⟨s2, e2, h2⟩ := ih h1 hl.2
    exact ⟨s2, by simp only [CTab.run, e, Option.bind_some, e2], h2⟩

theorem Rel.start (init : Table → List Nat → V) : Rel (fresh init) (start : State V) :=
  ⟨rfl, rfl, rfl, rfl, fun _ => rfl, fun _ _ _ _ h => absurd h (Nat.not_lt_zero _), fun _ => rfl, fun _ => rfl,
    fun _ _ _ _ h => by simp [fresh] at h⟩

/-- **C121.** Every program that keeps to the rules runs; then the C++ interface shows at each place what was written
there last, or the initial value; the program has read what the rules say; a table is being edited exactly while handles
are left; and listeners heard one event for each time the last handle of a table was given back, and the events of
changes of the size. -/
theorem C121_tables (k : Obj) (init : Table → List Nat → V) (os : List (Op V)) (hl : LegalAll k init (fresh init) os) :
    ∃ s, run k init os start = some s ∧ s.size = (after k init os (fresh init)).size ∧
      (∀ t ∈ tables k, ∀ col i, Column s.stencil t col → i < s.size →
        entry s t col i = some ((after k init os (fresh init)).val t col i)) ∧
      s.out = (after k init os (fresh init)).out ∧
      (∀ t, s.active t = true ↔ (after k init os (fresh init)).sessions t ≠ 0) ∧
      s.log = (after k init os (fresh init)).log := by
  obtain ⟨s, e, h⟩ := (Rel.start init).run hl
  refine ⟨s, e, h.size, fun t _ col i hc hi => ?_, h.out, fun t => by rw [h.active]; simp, h.log⟩
  rw [← h.val t col i hc hi, entry, flat_snoc (column_lead hc).length_eq]

/-- Two donors with stencils of four points: their extents are set with two handles, one point is read back, and the
coefficient of one point of the stencil of the second donor is set. -/
def exampleOps : List (Op Int) :=
  [.resize 2 4, .editExtents 1 0 1, .editExtents 2 2 3, .write 0 0 5, .write 1 0 7, .write 2 1 9, .restoreExtents 0 1,
    .restoreExtents 2 3, .getExtents 1 0 1, .read 1 0, .read 1 1, .edit .interpCoefs [1, 3] 4, .write 4 1 8,
    .restore .interpCoefs 4]

def exampleInit : Table → List Nat → Int
  | .extents, [1, _] => 1
  | _, _ => 0

example : LegalAll .connM exampleInit (fresh exampleInit) exampleOps := by
  refine ⟨fun _ _ => rfl, ?_⟩
  simp [LegalAll, Legal, Spec.next, fresh, tables, Column, Spec.Abs.hold, Spec.Abs.begun, Spec.Abs.ended]

example : (after .connM exampleInit exampleOps (fresh exampleInit)).out = [7, 1] ∧
    (after .connM exampleInit exampleOps (fresh exampleInit)).val .interpCoefs [1, 3] 1 = 8 ∧
    (after .connM exampleInit exampleOps (fresh exampleInit)).val .extents [0, 2] 1 = 9 ∧
    (after .connM exampleInit exampleOps (fresh exampleInit)).log =
      [.resized, .changed .extents, .changed .coords, .changed .interpCoefs, .changed .destinations,
        .changed .destinationRanks, .changed .extents, .changed .interpCoefs] := by
  decide +kernel

/-! ### Programs that can be linked -/

/-- Whatever programs did, they can end editing all tables, with functions that can be linked. -/
def C121_statement : Prop :=
  ∀ (k : Obj) (init : Table → List Nat → Unit) (os : List (Op Unit)), LegalAll k init (fresh init) os →
    (∀ o ∈ os, Links o = true) →
    ∃ more, (∀ o ∈ more, Links o = true) ∧ LegalAll k init (after k init os (fresh init)) more ∧
      ∀ t ∈ tables k, (after k init more (after k init os (fresh init))).sessions t = 0

/-- Editing source ranks cannot be ended: whatever calls follow, as long as the program can be linked, the table remains
being edited, listeners do not hear of the change, and the size cannot be changed any more. -/
theorem C121_stuck (k : Obj) (t : Table) (ht : t = .sourceRanks ∨ t = .oSourceRanks) (hk : t ∈ tables k)
    (init : Table → List Nat → V) (s s' : State V) (ha : s.active t = true) (os : List (Op V))
    (hl : ∀ o ∈ os, Links o = true) (hr : run k init os s = some s') :
    s'.active t = true ∧ s'.log.count (.changed t) = s.log.count (.changed t) ∧ ∀ n st, step k init s' (.resize n st) = none := by
  have fail : ∀ (s : State V) n st, s.active t = true → resize k init s n st = none := fun s n st h => by
    simp only [resize]
    rw [if_pos (List.any_eq_true.2 ⟨t, hk, h⟩)]
  have setV : ∀ (s : State V) v p, (setVar s v p).active = s.active ∧ (setVar s v p).log = s.log := fun _ _ _ => ⟨rfl, rfl⟩
  have beg : ∀ (s : State V) u, s.active t = true → (beginEdit s u).active t = true ∧ (beginEdit s u).log = s.log :=
    fun s u h => ⟨by simp only [beginEdit, Function.update_apply]; split <;> simp [h], rfl⟩
  have fin : ∀ (s s1 : State V) u, u ≠ t → s.active t = true → endEdit s u = some s1 →
      s1.active t = true ∧ s1.log.count (.changed t) = s.log.count (.changed t) := by
    intro s s1 u hu h e
    unfold endEdit at e
    split at e
    · cases e
    · split at e <;> cases e
      · refine ⟨by simp only [Function.update_apply]; rw [if_neg (Ne.symm hu)]; exact h, ?_⟩
        simp [List.count_append, hu]
      · exact ⟨h, rfl⟩
  induction os generalizing s with
  | nil =>
    cases hr
    exact ⟨ha, rfl, fun n st => fail _ n st ha⟩
  | cons o os ih =>
    simp only [run] at hr
    obtain ⟨s1, e1, e2⟩ := Option.bind_eq_some_iff.1 hr
    suffices h : s1.active t = true ∧ s1.log.count (.changed t) = s.log.count (.changed t) by
      obtain ⟨a, b, c⟩ := ih s1 h.1 (fun o ho => hl o (List.mem_cons_of_mem _ ho)) e2
      exact ⟨a, b.trans h.2, c⟩
    have ho := hl o List.mem_cons_self
    cases o with
    | resize n st =>
      simp only [step, fail s n st ha] at e1
      cases e1
    | get u col v => cases e1; exact ⟨ha, rfl⟩
    | getExtents d vb ve => cases e1; exact ⟨ha, rfl⟩
    | edit u col v => cases e1; exact ⟨(beg s u ha).1, rfl⟩
    | editExtents d vb ve => cases e1; exact ⟨(beg s _ ha).1, rfl⟩
    | write v i x =>
      simp only [step] at e1
      obtain ⟨a, -, rfl⟩ := Option.map_eq_some_iff.1 e1
      exact ⟨ha, rfl⟩
    | read v i =>
      simp only [step] at e1
      obtain ⟨a, -, e1⟩ := Option.bind_eq_some_iff.1 e1
      obtain ⟨x, -, rfl⟩ := Option.map_eq_some_iff.1 e1
      exact ⟨ha, rfl⟩
    | restore u v =>
      simp only [step] at e1
      obtain ⟨a, e, rfl⟩ := Option.map_eq_some_iff.1 e1
      refine fin s a u ?_ ha e
      rintro rfl
      rcases ht with rfl | rfl <;> simp [Links, definedAs, declaredAs] at ho
    | restoreExtents vb ve =>
      simp only [step] at e1
      obtain ⟨a, e, rfl⟩ := Option.map_eq_some_iff.1 e1
      refine fin s a .extents ?_ ha e
      rintro rfl
      rcases ht with h | h <;> cases h

/-- The names in the headers and in the library differ for the source ranks of both classes. -/
theorem C121_false : ¬ C121_statement := by
  intro h
  let init : Table → List Nat → Unit := fun _ _ => ()
  have hl : LegalAll .connN init (fresh init) [.resize 1 0, .edit .sourceRanks [] 0] :=
    ⟨fun _ _ => rfl, ⟨by simp [tables], trivial⟩, trivial⟩
  obtain ⟨more, m1, m2, m3⟩ := h .connN init _ hl (by simp [Links])
  obtain ⟨s, e, r⟩ := (Rel.start init).run hl
  obtain ⟨s', e', r'⟩ := r.run m2
  have := (C121_stuck .connN .sourceRanks (Or.inl rfl) (by simp [tables]) init s s' (by rw [r.active]; rfl) more m1 e').1
  rw [r'.active, m3 _ (by simp [tables])] at this
  simp at this

/-- **C121, the part that holds.** If source ranks were not edited, programs can end editing, with functions that can be
linked: one call for each handle that is left. -/
theorem C121_partial (k : Obj) (init : Table → List Nat → V) (S : Abs V)
    (hs : ∀ t, t = .sourceRanks ∨ t = .oSourceRanks → S.sessions t = 0) :
    ∃ more, (∀ o ∈ more, Links o = true) ∧ LegalAll k init S more ∧
      ∀ t ∈ tables k, (after k init more S).sessions t = 0 := by
  have one : ∀ (n : Nat) (t : Table) (S : Abs V), t ∈ tables k → t ≠ .sourceRanks → t ≠ .oSourceRanks → S.sessions t = n →
      ∃ more : List (Op V), (∀ o ∈ more, Links o = true) ∧ LegalAll k init S more ∧ (after k init more S).sessions t = 0 ∧
        ∀ u, u ≠ t → (after k init more S).sessions u = S.sessions u := by
    intro n t
    induction n with
    | zero => intro S _ _ _ h; exact ⟨[], by simp, trivial, h, fun _ _ => rfl⟩
    | succ n ih =>
      intro S ht h1 h2 h
      obtain ⟨more, a, b, c, d⟩ := ih (Spec.next k init S (.restore t 0)) ht h1 h2
        (by simp [Spec.next, Spec.Abs.hold, Spec.Abs.ended, h])
      refine ⟨.restore t 0 :: more, ?_, ⟨⟨ht, by omega⟩, b⟩, c, fun u hu => ?_⟩
      · intro o ho
        rcases List.mem_cons.1 ho with rfl | ho
        · cases t <;> first | rfl | exact absurd rfl h1 | exact absurd rfl h2
        · exact a o ho
      · refine (d u hu).trans ?_
        simp [Spec.next, Spec.Abs.hold, Spec.Abs.ended, hu]
  have all : ∀ (l : List Table) (S : Abs V), (∀ t ∈ l, t ∈ tables k) →
      (∀ t, t = .sourceRanks ∨ t = .oSourceRanks → S.sessions t = 0) →
      ∃ more : List (Op V), (∀ o ∈ more, Links o = true) ∧ LegalAll k init S more ∧
        (∀ t ∈ l, (after k init more S).sessions t = 0) ∧
        ∀ u, S.sessions u = 0 → (after k init more S).sessions u = 0 := by
    intro l
    induction l with
    | nil => intro S _ _; exact ⟨[], by simp, trivial, by simp, fun _ h => h⟩
    | cons t l ih =>
      intro S hl h
      have step1 : ∃ more : List (Op V), (∀ o ∈ more, Links o = true) ∧ LegalAll k init S more ∧
          (after k init more S).sessions t = 0 ∧ ∀ u, u ≠ t → (after k init more S).sessions u = S.sessions u := by
        by_cases h1 : t = .sourceRanks ∨ t = .oSourceRanks
        · exact ⟨[], by simp, trivial, h t h1, fun _ _ => rfl⟩
        · push Not at h1
          exact one _ t S (hl t List.mem_cons_self) h1.1 h1.2 rfl
      obtain ⟨m1, a1, b1, c1, d1⟩ := step1
      have keep : ∀ u, S.sessions u = 0 → (after k init m1 S).sessions u = 0 := fun u hu => by
        by_cases e : u = t
        · rw [e]; exact c1
        · rw [d1 u e, hu]
      obtain ⟨m2, a2, b2, c2, d2⟩ := ih (after k init m1 S) (fun u hu => hl u (List.mem_cons_of_mem _ hu))
        fun u hu => keep u (h u hu)
      have happ : after k init (m1 ++ m2) S = after k init m2 (after k init m1 S) := List.foldl_append
      have hleg : ∀ (m : List (Op V)) (S : Abs V), LegalAll k init S m → LegalAll k init (after k init m S) m2 →
          LegalAll k init S (m ++ m2) := by
        intro m
        induction m with
        | nil => intro S _ h2; exact h2
        | cons o m ih' => intro S h1 h2; exact ⟨h1.1, ih' _ h1.2 h2⟩
      refine ⟨m1 ++ m2, ?_, hleg m1 S b1 b2, ?_, ?_⟩
      · intro o ho
        rcases List.mem_append.1 ho with ho | ho
        · exact a1 o ho
        · exact a2 o ho
      · intro u hu
        rw [happ]
        rcases List.mem_cons.1 hu with rfl | hu
        · exact d2 _ c1
        · exact c2 u hu
      · intro u hu
        rw [happ]
        exact d2 u (keep u hu)
  obtain ⟨more, a, b, c, -⟩ := all (tables k) S (fun _ h => h) hs
  exact ⟨more, a, b, c⟩

/-- A receiver whose points are being edited twice and whose sources are being edited once. -/
example : ∃ S : Abs Int, S = after .connN (fun _ _ => 0) [.resize 1 0, .edit .points [0] 0, .edit .points [1] 1,
      .edit .sources [2] 2] (fresh fun _ _ => 0) ∧ S.sessions .points = 2 ∧ S.sessions .sources = 1 ∧
    ∀ t, t = .sourceRanks ∨ t = .oSourceRanks → S.sessions t = 0 := by
  refine ⟨_, rfl, by decide +kernel, by decide +kernel, ?_⟩
  rintro t (rfl | rfl) <;> decide +kernel

end Ovk.CTab
