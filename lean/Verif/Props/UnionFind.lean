import Verif.Lemmas.Relabel
import Mathlib.Logic.Relation
import Mathlib.Data.List.Induction
/-!
# C13, C14: union-find
-/
namespace Ovk.UF

namespace Spec

/-- `e` was inserted during the history. -/
def Inserted (ops : List Op) (e : Int) : Prop := Op.insert e ∈ ops

/-- A union of two elements that were both already inserted. -/
def Joined (ops : List Op) (a b : Int) : Prop :=
  ∃ pre post, ops = pre ++ Op.union a b :: post ∧ Inserted pre a ∧ Inserted pre b

/-- Connected by the unions performed so far: the smallest equivalence relation containing them. -/
def Connected (ops : List Op) : Int → Int → Prop := Relation.EqvGen (Joined ops)

end Spec

open Spec

theorem run_append (ops : List Op) (op : Op) (s : UF) :
    run (ops ++ [op]) s = (run ops s).bind (fun s => s.step op) := by
  induction ops generalizing s with
  | nil => simp [run]
  | cons o ops ih =>
    simp only [List.cons_append, run]
    cases s.step o with
    | none => rfl
    | some s => simpa using ih s

theorem joined_append (ops : List Op) (op : Op) (a b : Int) :
    Joined (ops ++ [op]) a b ↔
      Joined ops a b ∨ (op = .union a b ∧ Inserted ops a ∧ Inserted ops b) := by
  constructor
  · rintro ⟨pre, post, he, h1, h2⟩
    rcases List.eq_nil_or_concat post with rfl | ⟨post, o, rfl⟩
    · right
      obtain ⟨h3, h4⟩ := List.append_inj' he rfl
      subst h3
      exact ⟨by simpa using h4, h1, h2⟩
    · left
      have he' : ops ++ [op] = (pre ++ Op.union a b :: post) ++ [o] := by simpa using he
      exact ⟨pre, post, (List.append_inj' he' rfl).1, h1, h2⟩
  · rintro (⟨pre, post, rfl, h1, h2⟩ | ⟨rfl, h1, h2⟩)
    · exact ⟨pre, post ++ [op], by simp, h1, h2⟩
    · exact ⟨ops, [], rfl, h1, h2⟩

theorem eqvGen_imp {R S : Int → Int → Prop} (h : ∀ x y, R x y → S x y) {a b : Int}
    (hab : Relation.EqvGen R a b) : Relation.EqvGen S a b := by
  induction hab with
  | rel x y hxy => exact .rel _ _ (h _ _ hxy)
  | refl x => exact .refl x
  | symm _ _ _ ih => exact .symm _ _ ih
  | trans _ _ _ _ _ ih1 ih2 => exact .trans _ _ _ ih1 ih2

theorem connected_mono (ops : List Op) (op : Op) {a b : Int} (h : Connected ops a b) :
    Connected (ops ++ [op]) a b :=
  eqvGen_imp (fun _ _ h => (joined_append _ _ _ _).2 (.inl h)) h

theorem connected_same (ops : List Op) (op : Op)
    (h : ∀ a b, op = .union a b → ¬ (Inserted ops a ∧ Inserted ops b)) (a b : Int) :
    Connected (ops ++ [op]) a b ↔ Connected ops a b := by
  refine ⟨fun hc => ?_, connected_mono ops op⟩
  refine eqvGen_imp (fun x y hxy => ?_) hc
  rcases (joined_append _ _ _ _).1 hxy with h1 | ⟨h1, h2⟩
  · exact h1
  · exact absurd h2 (h x y h1)

theorem abs_union_rep (A : Abs) (hid : ∀ x, A.rep (A.rep x) = A.rep x) (u v x y : Int) :
    (A.union u v).rep x = (A.union u v).rep y ↔
      A.rep x = A.rep y ∨ (A.rep x = A.rep u ∧ A.rep y = A.rep v) ∨
        (A.rep x = A.rep v ∧ A.rep y = A.rep u) := by
  have _ := hid
  unfold Abs.union
  simp only
  by_cases h0 : A.rep u = A.rep v
  · rw [if_pos h0]
    constructor
    · exact .inl
    · rintro (h | ⟨h1, h2⟩ | ⟨h1, h2⟩)
      · exact h
      · rw [h1, h2, h0]
      · rw [h1, h2, h0]
  · rw [if_neg h0]
    split_ifs <;>
    · dsimp only
      split_ifs with h1 h2 h2 <;> constructor <;> intro h <;> (simp_all; try tauto)

theorem connected_union (ops : List Op) (u v : Int) (hu : Inserted ops u) (hv : Inserted ops v)
    (x y : Int) : Connected (ops ++ [.union u v]) x y ↔
      Connected ops x y ∨ (Connected ops x u ∧ Connected ops y v) ∨
        (Connected ops x v ∧ Connected ops y u) := by
  have eqv : Equivalence (Connected ops) := Relation.EqvGen.is_equivalence _
  constructor
  · intro h
    induction h with
    | rel x y h =>
      rcases (joined_append _ _ _ _).1 h with h1 | ⟨h1, -⟩
      · exact .inl (.rel _ _ h1)
      · cases h1; exact .inr (.inl ⟨eqv.refl _, eqv.refl _⟩)
    | refl x => exact .inl (eqv.refl x)
    | symm x y _ ih =>
      rcases ih with h | ⟨h1, h2⟩ | ⟨h1, h2⟩
      · exact .inl (eqv.symm h)
      · exact .inr (.inr ⟨h2, h1⟩)
      · exact .inr (.inl ⟨h2, h1⟩)
    | trans x y z _ _ ih1 ih2 =>
      rcases ih1 with h | ⟨h1, h2⟩ | ⟨h1, h2⟩ <;> rcases ih2 with g | ⟨g1, g2⟩ | ⟨g1, g2⟩
      · exact .inl (eqv.trans h g)
      · exact .inr (.inl ⟨eqv.trans h g1, g2⟩)
      · exact .inr (.inr ⟨eqv.trans h g1, g2⟩)
      · exact .inr (.inl ⟨h1, eqv.trans (eqv.symm g) h2⟩)
      · exact .inr (.inl ⟨h1, g2⟩)
      · exact .inl (eqv.trans h1 (eqv.symm g2))
      · exact .inr (.inr ⟨h1, eqv.trans (eqv.symm g) h2⟩)
      · exact .inl (eqv.trans h1 (eqv.symm g2))
      · exact .inr (.inr ⟨h1, g2⟩)
  · have m := @connected_mono ops (.union u v)
    have huv : Connected (ops ++ [.union u v]) u v :=
      .rel _ _ ((joined_append _ _ _ _).2 (.inr ⟨rfl, hu, hv⟩))
    rintro (h | ⟨h1, h2⟩ | ⟨h1, h2⟩)
    · exact m h
    · exact .trans _ _ _ (m h1) (.trans _ _ _ huv (.symm _ _ (m h2)))
    · exact .trans _ _ _ (m h1) (.trans _ _ _ (.symm _ _ huv) (.symm _ _ (m h2)))

/-- Invariant of every history. -/
theorem run_inv (ops : List Op) : ∃ s A, run ops UF.empty = some s ∧ Ref s A ∧
    (∀ e, e ∈ s.elems ↔ Inserted ops e) ∧ (∀ x y, A.rep x = A.rep y ↔ Connected ops x y) := by
  induction ops using List.reverseRecOn with
  | nil =>
    refine ⟨UF.empty, Abs.init, rfl, Ref.init, by simp [UF.empty, Inserted], ?_⟩
    intro x y
    constructor
    · intro h; have : x = y := h; subst this; exact .refl _
    · intro h
      induction h with
      | rel x y h => obtain ⟨pre, post, h, -⟩ := h; simp at h
      | refl => rfl
      | symm _ _ _ ih => exact ih.symm
      | trans _ _ _ _ _ ih1 ih2 => exact ih1.trans ih2
  | append_singleton ops op ih =>
    obtain ⟨s, A, hrun, hR, hel, hrep⟩ := ih
    rw [run_append, hrun]
    simp only [Option.bind_some]
    cases op with
    | insert e =>
      obtain ⟨hR', hel'⟩ := hR.insert e
      refine ⟨s.insert e, A, rfl, hR', ?_, ?_⟩
      · intro x; rw [hel', hel]; simp [Inserted, or_comm]
      · intro x y; rw [hrep, connected_same _ _ (by simp)]
    | find e =>
      by_cases he : e ∈ s.elems
      · obtain ⟨s', hf, hR', hel'⟩ := hR.find he
        refine ⟨s', A, by simp [step, hf], hR', ?_, ?_⟩
        · intro x; rw [hel', hel]; simp [Inserted]
        · intro x y; rw [hrep, connected_same _ _ (by simp)]
      · refine ⟨s, A, by simp [step, hR.find_absent he], hR, ?_, ?_⟩
        · intro x; rw [hel]; simp [Inserted]
        · intro x y; rw [hrep, connected_same _ _ (by simp)]
    | union a b =>
      by_cases hab : a ∈ s.elems ∧ b ∈ s.elems
      · obtain ⟨s', hf, hR', hel'⟩ := hR.union hab.1 hab.2
        refine ⟨s', A.union a b, by simp [step, hf], hR', ?_, ?_⟩
        · intro x; rw [hel', hel]; simp [Inserted]
        · intro x y
          rw [abs_union_rep A hR.rep_rep, connected_union _ _ _ ((hel a).1 hab.1) ((hel b).1 hab.2)]
          simp only [hrep]
      · obtain ⟨s', x, hf, hR', hel'⟩ := hR.union_absent (a := a) (b := b) (by tauto)
        refine ⟨s', A, by simp [step, hf], hR', ?_, ?_⟩
        · intro x; rw [hel', hel]; simp [Inserted]
        · intro x y
          rw [hrep, connected_same]
          rintro a' b' h ⟨h1, h2⟩
          cases h
          exact hab ⟨(hel _).2 h1, (hel _).2 h2⟩
    | relabel =>
      obtain ⟨s', A', hf, hR', hel', hnew⟩ := hR.relabel
      refine ⟨s', A', by simp [step, hf], hR', ?_, ?_⟩
      · intro x; rw [hel', hel]; simp [Inserted]
      · intro x y
        rw [connected_same _ _ (by simp), ← hrep]
        by_cases hx : x ∈ s.elems
        · by_cases hy : y ∈ s.elems
          · constructor
            · intro h
              have h1 := (hnew x hx).same_class hR hx
              have h2 := (hnew y hy).same_class hR hy
              rw [← h1.1, ← h2.1, h]
            · intro h; exact (hnew x hx).fn h (hnew y hy)
          · constructor
            · intro h
              rw [hR'.orep y (by rw [hel']; exact hy)] at h
              have := ((hnew x hx).same_class hR hx).2
              rw [h] at this; exact absurd this hy
            · intro h
              rw [hR.orep y hy] at h
              have := (hR.rep_mem hx).1; rw [h] at this; exact absurd this hy
        · have hx' := hR'.orep x (by rw [hel']; exact hx)
          by_cases hy : y ∈ s.elems
          · constructor
            · intro h
              rw [hx'] at h
              have := ((hnew y hy).same_class hR hy).2
              rw [← h] at this; exact absurd this hx
            · intro h
              rw [hR.orep x hx] at h
              have := (hR.rep_mem hy).1; rw [← h] at this; exact absurd this hx
          · rw [hx', hR'.orep y (by rw [hel']; exact hy), hR.orep x hx, hR.orep y hy]

/-- C13: no history of calls makes the structure run forever or access out of bounds. -/
theorem C13_defined (ops : List Op) : ∃ s, run ops UF.empty = some s := by
  obtain ⟨s, _, h, _⟩ := run_inv ops; exact ⟨s, h⟩

/-- C13: two inserted elements report the same representative iff they are connected by the unions
performed so far; the representative is itself an inserted element connected to the argument. -/
theorem C13_find (ops : List Op) (s : UF) (hs : run ops UF.empty = some s) (a b : Int)
    (ha : Inserted ops a) (hb : Inserted ops b) :
    ∃ sa sb ra rb, s.find a = some (sa, ra) ∧ s.find b = some (sb, rb) ∧
      (ra = rb ↔ Connected ops a b) ∧ Inserted ops ra ∧ Connected ops ra a := by
  obtain ⟨s', A, h, hR, hel, hrep⟩ := run_inv ops
  rw [hs] at h; cases h
  obtain ⟨sa, h1, _⟩ := hR.find ((hel a).2 ha)
  obtain ⟨sb, h2, _⟩ := hR.find ((hel b).2 hb)
  exact ⟨sa, sb, _, _, h1, h2, hrep a b, (hel _).1 (hR.rep_mem ((hel a).2 ha)).1,
    (hrep _ _).1 (hR.rep_rep a)⟩

/-- C13: an element never inserted reports none (-1). -/
theorem C13_absent (ops : List Op) (s : UF) (hs : run ops UF.empty = some s) (e : Int)
    (he : ¬ Inserted ops e) : ∃ s', s.find e = some (s', -1) := by
  obtain ⟨s', A, h, hR, hel, hrep⟩ := run_inv ops
  rw [hs] at h; cases h
  exact ⟨s, hR.find_absent (fun h => he ((hel e).1 h))⟩

/-- C13: a union reports the common representative of the merged class. -/
theorem C13_union_result (ops : List Op) (s : UF) (hs : run ops UF.empty = some s) (a b : Int)
    (ha : Inserted ops a) (hb : Inserted ops b) :
    ∃ s' x sa sb, s.union a b = some (s', x) ∧ s'.find a = some (sa, x) ∧ s'.find b = some (sb, x) := by
  obtain ⟨s0, A, h, hR, hel, hrep⟩ := run_inv ops
  rw [hs] at h; cases h
  obtain ⟨s', h1, hR', hel'⟩ := hR.union ((hel a).2 ha) ((hel b).2 hb)
  obtain ⟨sa, h2, _⟩ := hR'.find (by rw [hel']; exact (hel a).2 ha)
  obtain ⟨sb, h3, _⟩ := hR'.find (by rw [hel']; exact (hel b).2 hb)
  have : (A.union a b).rep b = (A.union a b).rep a :=
    (abs_union_rep A hR.rep_rep a b b a).2 (.inr (.inr ⟨rfl, rfl⟩))
  rw [this] at h3
  exact ⟨s', _, sa, sb, h1, h2, h3⟩

/-- Non-vacuity: a history whose state has two classes, {0,1,2} and {5}. -/
example : ((run [.insert 5, .insert 1, .insert 2, .insert 0, .union 2 1, .union 1 0, .find 0]
    UF.empty).bind fun s => do
      let a ← s.find 0; let b ← s.find 1; let c ← s.find 5; let d ← s.find 9
      some (a.2 == b.2, a.2 == c.2, d.2)) = some (true, false, -1) := by decide +kernel

/-! ## C14 -/

/-- C14 as stated: after relabelling the representative is the smallest member of the class. -/
def C14_statement : Prop := ∀ (ops : List Op) (s s' t : UF) (e r : Int),
  run ops UF.empty = some s → s.relabel = some s' → Inserted ops e → s'.find e = some (t, r) →
  Inserted ops r ∧ Connected ops r e ∧ ∀ y, Inserted ops y → Connected ops y e → r ≤ y

/-- C14 is false of the code: after joining 2 with 1 and then with 0 the representative becomes 1. -/
theorem C14_false : ¬ C14_statement := by
  intro h
  have key : ∃ s s' t, run [.insert 0, .insert 1, .insert 2, .union 2 1, .union 2 0] UF.empty =
      some s ∧ s.relabel = some s' ∧ s'.find 2 = some (t, 1) :=
    ⟨⟨[0, 1, 2], [2, 2, 2], [0, 0, 1]⟩, ⟨[0, 1, 2], [1, 1, 1], [0, 1, 0]⟩,
      ⟨[0, 1, 2], [1, 1, 1], [0, 1, 0]⟩, by decide +kernel, by decide +kernel, by decide +kernel⟩
  obtain ⟨s, s', t, h1, h2, h3⟩ := key
  have := (h _ s s' t 2 1 h1 h2 (by simp [Inserted]) h3).2.2 0 (by simp [Inserted])
    (.symm _ _ (.rel _ _ ⟨[.insert 0, .insert 1, .insert 2, .union 2 1], [], rfl,
      by simp [Inserted], by simp [Inserted]⟩))
  omega

/-- C14: relabelling leaves the classes unchanged, always succeeds, and the new representative is a
member of the class not larger than the old one.  Exactly: it is the largest member below the old
representative if there is one, and the old representative otherwise. -/
theorem C14_relabel_exact (ops : List Op) (s : UF) (hs : run ops UF.empty = some s) (e : Int)
    (he : Inserted ops e) :
    ∃ s' t u old new, s.relabel = some s' ∧ s.find e = some (t, old) ∧ s'.find e = some (u, new) ∧
      Inserted ops new ∧ Connected ops new e ∧ new ≤ old ∧
      (∀ y, Inserted ops y → Connected ops y e → y < old → y ≤ new ∧ new < old) := by
  obtain ⟨s0, A, h, hR, hel, hrep⟩ := run_inv ops
  rw [hs] at h; cases h
  obtain ⟨s', A', hf, hR', hel', hnew⟩ := hR.relabel
  have hm := (hel e).2 he
  obtain ⟨t, h1, _⟩ := hR.find hm
  obtain ⟨u, h2, _⟩ := hR'.find (by rw [hel']; exact hm)
  have hsc := (hnew e hm).same_class hR hm
  refine ⟨s', t, u, _, _, hf, h1, h2, (hel _).1 hsc.2, (hrep _ _).1 hsc.1, ?_, ?_⟩
  · rcases hnew e hm with ⟨_, _, h3, _⟩ | ⟨h3, _⟩ <;> omega
  · intro y hy hye hlt
    rcases hnew e hm with ⟨_, _, h3, h4⟩ | ⟨_, h4⟩
    · exact ⟨h4 y ((hel y).2 hy) ((hrep _ _).2 hye) hlt, h3⟩
    · exact absurd hlt (h4 y ((hel y).2 hy) ((hrep _ _).2 hye))

/-- C14 (partial): the representative is the smallest member whenever at most one member of the class
is smaller than the representative before relabelling.  Missing: classes with several smaller members,
where the code picks the largest of those (`C14_false`). -/
theorem C14_partial (ops : List Op) (s s' t u : UF) (e old new : Int)
    (hs : run ops UF.empty = some s) (hr : s.relabel = some s') (he : Inserted ops e)
    (hold : s.find e = some (t, old)) (hnew : s'.find e = some (u, new))
    (hone : ∀ x y, Inserted ops x → Inserted ops y → Connected ops x e → Connected ops y e →
      x < old → y < old → x = y) :
    Inserted ops new ∧ Connected ops new e ∧ ∀ y, Inserted ops y → Connected ops y e → new ≤ y := by
  obtain ⟨s1, t1, u1, o1, n1, h1, h2, h3, h4, h5, h6, h7⟩ := C14_relabel_exact ops s hs e he
  rw [hr] at h1; cases h1
  rw [hold] at h2; cases h2
  rw [hnew] at h3; cases h3
  refine ⟨h4, h5, fun y hy hye => ?_⟩
  by_cases hlt : y < old
  · obtain ⟨g1, g2⟩ := h7 y hy hye hlt
    exact Int.le_of_eq (hone _ _ h4 hy h5 hye g2 hlt)
  · omega

/-- Non-vacuity of `C14_partial`: joining 1 to 2 makes 2 the representative, relabelling makes it 1. -/
example : ((run [.insert 1, .insert 2, .insert 7, .union 2 1] UF.empty).bind fun s => do
    let a ← s.find 1; let s' ← s.relabel; let b ← s'.find 2
    some (a.2, b.2)) = some (2, 1) := by decide +kernel

end Ovk.UF
