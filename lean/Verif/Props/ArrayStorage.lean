/-
C116: arrays are values: each owns its elements, and its view always points to them.
-/
import Mathlib.Tactic.ByContra
import Verif.Model.ArrayStorage

namespace Ovk.Store

open Arr (Arr)

variable {α : Type}

/-! ### Specification -/

namespace Spec

/-- Arrays as they should be: every name stands for extents and elements of its own, and there is no memory. -/
abbrev Env (α : Type) := Nat → Option (Arr α)

def upd (a : Env α) (x : Nat) (p : Option (Arr α)) : Env α := fun y => if y = x then p else a y

/-- The array without elements. -/
def empty (p : Arr α) : Arr α := ⟨[], p.ext.map fun _ => (0, 0)⟩

def effect (l : Indexer.Layout) (a : Env α) : Op α → Option (Env α)
  | .make x ext v => if (a x).isSome then none else some (upd a x (some ⟨List.replicate (Arr.count ext) v, ext⟩))
  | .copyNew x y => if (a x).isSome then none else (a y).map fun q => upd a x (some q)
  | .moveNew x y => if (a x).isSome then none else (a y).map fun q => upd (upd a x (some q)) y (some (empty q))
  | .copyTo x y => (a x).bind fun _ => (a y).map fun q => upd a x (some q)
  | .moveTo x y => if x = y then none else (a x).bind fun _ => (a y).map fun q =>
      upd (upd a x (some q)) y (some (empty q))
  | .fill x ext v => (a x).map fun _ => upd a x (some ⟨List.replicate (Arr.count ext) v, ext⟩)
  | .reserve x _ => (a x).map fun p => upd a x (some p)
  | .resize x ext v => (a x).bind fun p => (p.resize l v ext).map fun p' => upd a x (some p')
  | .append x v => (a x).map fun p => upd a x (some (p.append v))
  | .insert x i v => (a x).bind fun p => (p.insert i v).map fun p' => upd a x (some p')
  | .erase x i => (a x).bind fun p => (p.erase i).map fun p' => upd a x (some p')
  | .clear x => (a x).map fun p => upd a x (some (empty p))
  | .write x i v => (a x).bind fun p => if i < p.values.length then some (upd a x (some ⟨p.values.set i v, p.ext⟩)) else none
  | .destroy x => (a x).map fun _ => upd a x none

def effects (l : Indexer.Layout) : List (Op α) → Env α → Option (Env α)
  | [], a => some a
  | o :: os, a => (effect l a o).bind (effects l os)

end Spec

/-! ### Memory -/

/-- The owner of `old` now has `new`; nothing else changed. -/
structure Frame (m m' : Mem α) (old new : Option Nat) : Prop where
  keep : ∀ b, some b ≠ old → b < m.next → m'.heap b = m.heap b
  change : new = old ∨ new = none ∨ ∃ b, new = some b ∧ m.next ≤ b
  live : ∀ b, m'.heap b ≠ none → some b = new ∨ some b ≠ old ∧ m.heap b ≠ none
  fresh : ∀ b, m'.heap b ≠ none → b < m'.next

def Fresh (m : Mem α) : Prop := ∀ b, m.heap b ≠ none → b < m.next

theorem frame_alloc {m : Mem α} (hf : Fresh m) (cap : Nat) (vals : List α) (hc : vals.length ≤ cap) :
    Frame m (m.alloc cap vals).1 none (m.alloc cap vals).2.buf ∧
      contents (m.alloc cap vals).1 (m.alloc cap vals).2 = some vals ∧ (m.alloc cap vals).2.cap = cap ∧
      ((m.alloc cap vals).2.buf = none → cap = 0) := by
  unfold Mem.alloc
  by_cases h : cap = 0
  · rw [if_pos h]
    have : vals = [] := List.length_eq_zero_iff.mp (by omega)
    subst this
    exact ⟨⟨fun b _ _ => rfl, Or.inl rfl, fun b hb => Or.inr ⟨by simp, hb⟩, hf⟩, rfl, h.symm, fun _ => h⟩
  · rw [if_neg h]
    refine ⟨⟨?_, ?_, ?_, ?_⟩, ?_, rfl, fun hn => by cases hn⟩
    · intro b _ hb
      simp only [if_neg (Nat.ne_of_lt hb)]
    · exact Or.inr (Or.inr ⟨m.next, rfl, Nat.le_refl _⟩)
    · intro b hb
      by_cases hx : b = m.next
      · exact Or.inl (by rw [hx])
      · simp only [if_neg hx] at hb
        exact Or.inr ⟨by simp, hb⟩
    · intro b hb
      by_cases hx : b = m.next
      · rw [hx]; exact Nat.lt_succ_self _
      · simp only [if_neg hx] at hb
        exact Nat.lt_succ_of_lt (hf b hb)
    · simp [contents]

theorem frame_free {m : Mem α} (hf : Fresh m) (v : Vec) : Frame m (m.free v) v.buf none := by
  unfold Mem.free
  cases hv : v.buf with
  | none => exact ⟨fun b _ _ => rfl, Or.inl rfl, fun b hb => Or.inr ⟨by simp, hb⟩, hf⟩
  | some c =>
    refine ⟨?_, Or.inr (Or.inl rfl), ?_, ?_⟩
    · intro b hb _
      have : b ≠ c := fun h => hb (by rw [h])
      simp only [if_neg this]
    · intro b hb
      by_cases h : b = c
      · simp [h] at hb
      · simp only [if_neg h] at hb
        exact Or.inr ⟨by simpa using h, hb⟩
    · intro b hb
      by_cases h : b = c
      · simp [h] at hb
      · simp only [if_neg h] at hb
        exact hf b hb

theorem free_next (m : Mem α) (v : Vec) : (m.free v).next = m.next := by
  unfold Mem.free
  cases v.buf <;> rfl

theorem Frame.trans {m m' m'' : Mem α} {old new : Option Nat} (h : Frame m m' old none) (hn : m'.next = m.next)
    (h' : Frame m' m'' none new) : Frame m m'' old new := by
  refine ⟨?_, ?_, ?_, h'.fresh⟩
  · intro b hb hl
    rw [h'.keep b (by simp) (by omega), h.keep b hb hl]
  · rcases h'.change with hx | hx | ⟨b, hx, hb⟩
    · exact Or.inr (Or.inl hx)
    · exact Or.inr (Or.inl hx)
    · exact Or.inr (Or.inr ⟨b, hx, by omega⟩)
  · intro b hb
    rcases h'.live b hb with hx | ⟨-, hx⟩
    · exact Or.inl hx
    · rcases h.live b hx with hy | hy
      · simp at hy
      · exact Or.inr hy

/-- What holds for an array and its memory. -/
structure Good (m : Mem α) (o : Obj) (p : Arr α) : Prop where
  elems : contents m o.vec = some p.values
  fits : p.values.length ≤ o.vec.cap
  nocap : o.vec.buf = none → o.vec.cap = 0
  ext : o.ext = p.ext
  ptr : o.ptr = o.vec.buf ∨ o.ptr = none ∧ p.values = []

theorem frame_store {m : Mem α} (hf : Fresh m) (v : Vec) (old vals : List α) (ho : contents m v = some old)
    (hn : v.buf = none → v.cap = 0) :
    Frame m (m.store v vals).1 v.buf (m.store v vals).2.buf ∧
      contents (m.store v vals).1 (m.store v vals).2 = some vals ∧ vals.length ≤ (m.store v vals).2.cap ∧
      ((m.store v vals).2.buf = none → (m.store v vals).2.cap = 0) := by
  unfold Mem.store
  by_cases h : vals.length ≤ v.cap
  · rw [if_pos h]
    obtain ⟨buf, cap⟩ := v
    cases buf with
    | none =>
      have h0 := hn rfl
      simp only at h0 h
      have : vals = [] := List.length_eq_zero_iff.mp (by omega)
      subst this
      exact ⟨⟨fun b _ _ => rfl, Or.inl rfl, fun b hb => Or.inr ⟨by simp, hb⟩, hf⟩, rfl, h, hn⟩
    | some c =>
      have hc : m.heap c ≠ Option.none := by
        simp only [contents] at ho
        rw [ho]; simp
      refine ⟨⟨?_, Or.inl rfl, ?_, ?_⟩, by simp [contents], h, fun hx => by cases hx⟩
      · intro b hb _
        have : b ≠ c := fun h => hb (by rw [h])
        simp only [if_neg this]
      · intro b hb
        by_cases h : b = c
        · exact Or.inl (by rw [h])
        · simp only [if_neg h] at hb
          exact Or.inr ⟨by simpa using h, hb⟩
      · intro b hb
        by_cases h : b = c
        · rw [h]; exact hf c hc
        · simp only [if_neg h] at hb
          exact hf b hb
  · rw [if_neg h]
    have h1 := frame_free hf v
    have h2 := frame_alloc (m := m.free v) h1.fresh (max vals.length (2 * v.cap)) vals (by omega)
    exact ⟨h1.trans (free_next m v) h2.1, h2.2.1, by rw [h2.2.2.1]; omega, fun hx => by
      have := h2.2.2.2 hx
      omega⟩

theorem frame_reserve {m : Mem α} (hf : Fresh m) (v : Vec) (vals : List α) (n : Nat) (ho : contents m v = some vals)
    (hl : vals.length ≤ v.cap) (hn : v.buf = none → v.cap = 0) :
    Frame m (m.reserve v vals n).1 v.buf (m.reserve v vals n).2.buf ∧
      contents (m.reserve v vals n).1 (m.reserve v vals n).2 = some vals ∧ vals.length ≤ (m.reserve v vals n).2.cap ∧
      ((m.reserve v vals n).2.buf = none → (m.reserve v vals n).2.cap = 0) := by
  unfold Mem.reserve
  by_cases h : n ≤ v.cap
  · rw [if_pos h]
    refine ⟨⟨fun b _ _ => rfl, Or.inl rfl, fun b hb => ?_, hf⟩, ho, hl, hn⟩
    by_cases hx : some b = v.buf
    · exact Or.inl hx
    · exact Or.inr ⟨hx, hb⟩
  · rw [if_neg h]
    have h1 := frame_free hf v
    have h2 := frame_alloc (m := m.free v) h1.fresh n vals (by omega)
    exact ⟨h1.trans (free_next m v) h2.1, h2.2.1, by rw [h2.2.2.1]; omega, fun hx => by
      rw [h2.2.2.1]; exact h2.2.2.2 hx⟩

/-! ### Invariant -/

structure Inv (s : State α) (a : Spec.Env α) : Prop where
  dom : ∀ x, s.objs x = none ↔ a x = none
  good : ∀ x o p, s.objs x = some o → a x = some p → Good s.mem o p
  own : ∀ x y o q b, s.objs x = some o → s.objs y = some q → o.vec.buf = some b → q.vec.buf = some b → x = y
  fresh : Fresh s.mem
  live : ∀ b, s.mem.heap b ≠ none → ∃ x o, s.objs x = some o ∧ o.vec.buf = some b

theorem Good.heap {m : Mem α} {o : Obj} {p : Arr α} (h : Good m o p) {b : Nat} (hb : o.vec.buf = some b) :
    m.heap b = some p.values := by
  have := h.elems
  simpa only [contents, hb] using this

theorem Good.frame {m m' : Mem α} {o : Obj} {p : Arr α} (h : Good m o p)
    (hk : ∀ b, o.vec.buf = some b → m'.heap b = m.heap b) : Good m' o p := by
  refine ⟨?_, h.fits, h.nocap, h.ext, h.ptr⟩
  have := h.elems
  unfold contents at this ⊢
  cases hb : o.vec.buf with
  | none => simpa only [hb] using this
  | some b => simp only [hb] at this ⊢; rw [hk b hb, this]

/-- The block of the array with this name. -/
def bufOf (s : State α) (x : Nat) : Option Nat := (s.objs x).bind fun o => o.vec.buf

theorem Inv.get {s : State α} {a : Spec.Env α} (hi : Inv s a) {x : Nat} {o : Obj} (h : s.objs x = some o) :
    ∃ p, a x = some p ∧ Good s.mem o p := by
  cases hp : a x with
  | none => rw [(hi.dom x).mpr hp] at h; cases h
  | some p => exact ⟨p, rfl, hi.good x o p h hp⟩

/-- Others are not affected by what happens to the block of `x`. -/
theorem Inv.others {s : State α} {a : Spec.Env α} (hi : Inv s a) {x y : Nat} {o : Obj} (hy : s.objs y = some o)
    (hne : y ≠ x) {m' : Mem α} {new : Option Nat} (hf : Frame s.mem m' (bufOf s x) new) {b : Nat}
    (hb : o.vec.buf = some b) : m'.heap b = s.mem.heap b ∧ new ≠ some b := by
  obtain ⟨p, -, hg⟩ := hi.get hy
  have hlive : s.mem.heap b ≠ none := by rw [hg.heap hb]; simp
  have hlt := hi.fresh b hlive
  have hold : some b ≠ bufOf s x := by
    unfold bufOf
    cases hx : s.objs x with
    | none => simp
    | some q =>
      intro he
      exact hne (hi.own y x o q b hy hx hb he.symm)
  refine ⟨hf.keep b hold hlt, ?_⟩
  rcases hf.change with h | h | ⟨c, h, hc⟩
  · rw [h]; exact fun h => hold h.symm
  · rw [h]; simp
  · rw [h]
    intro he
    have : c = b := by simpa using he
    omega

theorem Inv.put {s : State α} {a : Spec.Env α} (hi : Inv s a) (x : Nat) {m' : Mem α} {o : Obj} {p : Arr α}
    (hf : Frame s.mem m' (bufOf s x) o.vec.buf) (hg : Good m' o p) :
    Inv ({ s with mem := m' }.set x (some o)) (Spec.upd a x (some p)) := by
  refine ⟨?_, ?_, ?_, hf.fresh, ?_⟩
  · intro y
    by_cases h : y = x
    · simp [State.set, Spec.upd, h]
    · simp [State.set, Spec.upd, h, hi.dom y]
  · intro y q r hq hr
    by_cases h : y = x
    · simp only [State.set, Spec.upd, h, if_true, Option.some.injEq] at hq hr
      subst hq hr
      exact hg
    · simp only [State.set, Spec.upd, if_neg h] at hq hr
      exact (hi.good y q r hq hr).frame fun b hb => (hi.others hq h hf hb).1
  · intro y z q r b hq hr hbq hbr
    simp only [State.set] at hq hr
    by_cases h : y = x
    · by_cases h' : z = x
      · rw [h, h']
      · rw [if_pos h] at hq
        rw [if_neg h'] at hr
        cases hq
        exact absurd hbq (hi.others hr h' hf hbr).2
    · rw [if_neg h] at hq
      by_cases h' : z = x
      · rw [if_pos h'] at hr
        cases hr
        exact absurd hbr (hi.others hq h hf hbq).2
      · rw [if_neg h'] at hr
        exact hi.own y z q r b hq hr hbq hbr
  · intro b hb
    rcases hf.live b hb with h | ⟨h1, h2⟩
    · exact ⟨x, o, by simp [State.set], h.symm⟩
    · obtain ⟨y, q, hq, hbq⟩ := hi.live b h2
      have hne : y ≠ x := by
        intro he
        apply h1
        rw [bufOf, ← he, hq]
        exact hbq.symm
      exact ⟨y, q, by simp [State.set, hne, hq], hbq⟩

theorem Inv.remove {s : State α} {a : Spec.Env α} (hi : Inv s a) (x : Nat) {m' : Mem α}
    (hf : Frame s.mem m' (bufOf s x) none) : Inv ({ s with mem := m' }.set x none) (Spec.upd a x none) := by
  refine ⟨?_, ?_, ?_, hf.fresh, ?_⟩
  · intro y
    by_cases h : y = x
    · simp [State.set, Spec.upd, h]
    · simp [State.set, Spec.upd, h, hi.dom y]
  · intro y q r hq hr
    by_cases h : y = x
    · simp [State.set, h] at hq
    · simp only [State.set, Spec.upd, if_neg h] at hq hr
      exact (hi.good y q r hq hr).frame fun b hb => (hi.others hq h hf hb).1
  · intro y z q r b hq hr hbq hbr
    simp only [State.set] at hq hr
    by_cases h : y = x
    · simp [h] at hq
    · by_cases h' : z = x
      · simp [h'] at hr
      · rw [if_neg h] at hq
        rw [if_neg h'] at hr
        exact hi.own y z q r b hq hr hbq hbr
  · intro b hb
    rcases hf.live b hb with h | ⟨h1, h2⟩
    · simp at h
    · obtain ⟨y, q, hq, hbq⟩ := hi.live b h2
      have hne : y ≠ x := by
        intro he
        apply h1
        rw [bufOf, ← he, hq]
        exact hbq.symm
      exact ⟨y, q, by simp [State.set, hne, hq], hbq⟩

theorem Inv.move {s : State α} {a : Spec.Env α} (hi : Inv s a) {x y : Nat} {o : Obj} {p : Arr α} (hx : s.objs x = none)
    (hy : s.objs y = some o) (hp : a y = some p) :
    Inv ((s.set x (some ⟨o.vec, o.ptr, o.ext⟩)).set y (some ⟨⟨none, 0⟩, none, emptyExt o.ext⟩))
      (Spec.upd (Spec.upd a x (some p)) y (some (Spec.empty p))) := by
  have hne : x ≠ y := fun h => by rw [h, hy] at hx; cases hx
  have hg := hi.good y o p hy hp
  refine ⟨?_, ?_, ?_, hi.fresh, ?_⟩
  · intro z
    by_cases h : z = y
    · simp [State.set, Spec.upd, h]
    · by_cases h' : z = x
      · simp [State.set, Spec.upd, h', hne]
      · simp [State.set, Spec.upd, h, h', hi.dom z]
  · intro z q r hq hr
    by_cases h : z = y
    · simp only [State.set, Spec.upd, h, if_true, Option.some.injEq] at hq hr
      subst hq hr
      exact ⟨rfl, Nat.le_refl 0, fun _ => rfl, by simp [emptyExt, Spec.empty, hg.ext], Or.inl rfl⟩
    · by_cases h' : z = x
      · simp only [State.set, Spec.upd, h', if_true, if_neg hne, Option.some.injEq] at hq hr
        subst hq hr
        exact ⟨hg.elems, hg.fits, hg.nocap, hg.ext, hg.ptr⟩
      · simp only [State.set, Spec.upd, if_neg h, if_neg h'] at hq hr
        exact hi.good z q r hq hr
  · have key : ∀ z q b, ((s.set x (some ⟨o.vec, o.ptr, o.ext⟩)).set y (some ⟨⟨none, 0⟩, none, emptyExt o.ext⟩)).objs z =
        some q → q.vec.buf = some b → ∃ w r, s.objs w = some r ∧ r.vec.buf = some b ∧
          ((z = x ∧ w = y) ∨ (z ≠ x ∧ w = z ∧ w ≠ y)) := by
      intro z q b hq hb
      simp only [State.set] at hq
      by_cases h : z = y
      · rw [if_pos h] at hq; cases hq; cases hb
      · rw [if_neg h] at hq
        by_cases h' : z = x
        · rw [if_pos h'] at hq; cases hq
          exact ⟨y, o, hy, hb, Or.inl ⟨h', rfl⟩⟩
        · rw [if_neg h'] at hq
          exact ⟨z, q, hq, hb, Or.inr ⟨h', rfl, h⟩⟩
    intro z w q r b hq hr hbq hbr
    obtain ⟨z', q', hq', hbq', hz⟩ := key z q b hq hbq
    obtain ⟨w', r', hr', hbr', hw⟩ := key w r b hr hbr
    have := hi.own z' w' q' r' b hq' hr' hbq' hbr'
    rcases hz with ⟨h1, h2⟩ | ⟨h1, h2, h3⟩ <;> rcases hw with ⟨h4, h5⟩ | ⟨h4, h5, h6⟩
    · rw [h1, h4]
    · exact absurd (by rw [← this, h2]) h6
    · exact absurd (by rw [this, h5]) h3
    · rw [← h2, ← h5, this]
  · intro b hb
    obtain ⟨z, q, hq, hbq⟩ := hi.live b hb
    by_cases h : z = y
    · rw [h, hy] at hq
      cases hq
      exact ⟨x, ⟨o.vec, o.ptr, o.ext⟩, by simp [State.set, hne], hbq⟩
    · have h' : z ≠ x := fun he => by rw [he, hx] at hq; cases hq
      exact ⟨z, q, by simp [State.set, h, h', hq], hbq⟩

theorem bufOf_some {s : State α} {x : Nat} {o : Obj} (h : s.objs x = some o) : bufOf s x = o.vec.buf := by
  rw [bufOf, h]; rfl

theorem bufOf_none {s : State α} {x : Nat} (h : s.objs x = none) : bufOf s x = none := by
  rw [bufOf, h]; rfl

theorem Inv.become {s : State α} {a : Spec.Env α} (hi : Inv s a) {x : Nat} {o : Obj} {p : Arr α} (hx : s.objs x = some o)
    (hp : a x = some p) (vals : List α) (ext : List (Int × Int)) :
    Inv (s.become x o vals ext) (Spec.upd a x (some ⟨vals, ext⟩)) := by
  have hg := hi.good x o p hx hp
  obtain ⟨h1, h2, h3, h4⟩ := frame_store hi.fresh o.vec p.values vals hg.elems hg.nocap
  exact hi.put x (m' := (s.mem.store o.vec vals).1)
    (o := ⟨(s.mem.store o.vec vals).2, (s.mem.store o.vec vals).2.buf, ext⟩) (by rw [bufOf_some hx]; exact h1)
    ⟨h2, h3, h4, rfl, Or.inl rfl⟩

/-- Both fail, or both succeed with related results. -/
def Both (r : Option (State α)) (q : Option (Spec.Env α)) : Prop :=
  (r = none ∧ q = none) ∨ ∃ s a, r = some s ∧ q = some a ∧ Inv s a

theorem both_some {s : State α} {a : Spec.Env α} (h : Inv s a) : Both (some s) (some a) := Or.inr ⟨s, a, rfl, rfl, h⟩

theorem set_twice (s : State α) (m : Mem α) (x y : Nat) (o q : Option Obj) (r : Option Obj) :
    (({ s with mem := m }.set x r).set x o).set y q = ({ s with mem := m }.set x o).set y q := by
  simp only [State.set, State.mk.injEq, true_and]
  funext z
  by_cases h : z = y
  · simp [h]
  · by_cases h' : z = x <;> simp [h, h']

theorem upd_twice (a : Spec.Env α) (x : Nat) (p q : Option (Arr α)) :
    Spec.upd (Spec.upd a x p) x q = Spec.upd a x q := by
  funext z
  by_cases h : z = x <;> simp [Spec.upd, h]

theorem Inv.step {s : State α} {a : Spec.Env α} (hi : Inv s a) (l : Indexer.Layout) (op : Op α) :
    Both (step l s op) (Spec.effect l a op) := by
  have hnone : ∀ {x}, s.objs x = none → a x = none := fun h => (hi.dom _).mp h
  cases op with
  | make x ext v =>
    cases hx : s.objs x with
    | some o =>
      obtain ⟨p, hp, -⟩ := hi.get hx
      exact Or.inl ⟨by simp [Store.step, hx], by simp [Spec.effect, hp]⟩
    | none =>
      simp only [Store.step, Spec.effect, hx, hnone hx, Option.isSome_none, Bool.false_eq_true, if_false]
      obtain ⟨h1, h2, h3, h4⟩ := frame_alloc hi.fresh (Arr.count ext) (List.replicate (Arr.count ext) v) (by simp)
      exact both_some (hi.put x (m' := (s.mem.alloc (Arr.count ext) (List.replicate (Arr.count ext) v)).1)
        (o := ⟨(s.mem.alloc (Arr.count ext) (List.replicate (Arr.count ext) v)).2,
          (s.mem.alloc (Arr.count ext) (List.replicate (Arr.count ext) v)).2.buf, ext⟩) (by rw [bufOf_none hx]; exact h1)
        ⟨h2, by simp [h3], fun h => by rw [h3]; exact h4 h, rfl, Or.inl rfl⟩)
  | copyNew x y =>
    cases hx : s.objs x with
    | some o =>
      obtain ⟨p, hp, -⟩ := hi.get hx
      exact Or.inl ⟨by simp [Store.step, hx], by simp [Spec.effect, hp]⟩
    | none =>
      simp only [Store.step, Spec.effect, hx, hnone hx, Option.isSome_none, Bool.false_eq_true, if_false]
      cases hy : s.objs y with
      | none => rw [hnone hy]; exact Or.inl ⟨rfl, rfl⟩
      | some o =>
        obtain ⟨p, hp, hg⟩ := hi.get hy
        rw [hp, Option.bind_some, hg.elems, Option.map_some, Option.map_some]
        obtain ⟨h1, h2, h3, h4⟩ := frame_alloc hi.fresh p.values.length p.values (Nat.le_refl _)
        exact both_some (hi.put x (m' := (s.mem.alloc p.values.length p.values).1)
          (o := ⟨(s.mem.alloc p.values.length p.values).2, (s.mem.alloc p.values.length p.values).2.buf, o.ext⟩)
          (by rw [bufOf_none hx]; exact h1)
          ⟨h2, by simp [h3], fun h => by rw [h3]; exact h4 h, hg.ext, Or.inl rfl⟩)
  | moveNew x y =>
    cases hx : s.objs x with
    | some o =>
      obtain ⟨p, hp, -⟩ := hi.get hx
      exact Or.inl ⟨by simp [Store.step, hx], by simp [Spec.effect, hp]⟩
    | none =>
      simp only [Store.step, Spec.effect, hx, hnone hx, Option.isSome_none, Bool.false_eq_true, if_false]
      cases hy : s.objs y with
      | none => rw [hnone hy]; exact Or.inl ⟨rfl, rfl⟩
      | some o =>
        obtain ⟨p, hp, hg⟩ := hi.get hy
        rw [hp]
        exact both_some (hi.move hx hy hp)
  | copyTo x y =>
    simp only [Store.step, Spec.effect]
    cases hx : s.objs x with
    | none => rw [hnone hx]; exact Or.inl ⟨rfl, rfl⟩
    | some o =>
      obtain ⟨p, hp, hg⟩ := hi.get hx
      rw [hp]
      cases hy : s.objs y with
      | none => rw [hnone hy]; exact Or.inl ⟨rfl, rfl⟩
      | some q =>
        obtain ⟨r, hr, hgr⟩ := hi.get hy
        rw [hr]
        simp only [Option.bind_some, hgr.elems, Option.map_some]
        have := hi.become hx hp r.values q.ext
        rw [hgr.ext] at this ⊢
        exact both_some this
  | moveTo x y =>
    simp only [Store.step, Spec.effect]
    by_cases hxy : x = y
    · rw [if_pos hxy, if_pos hxy]; exact Or.inl ⟨rfl, rfl⟩
    · rw [if_neg hxy, if_neg hxy]
      cases hx : s.objs x with
      | none => rw [hnone hx]; exact Or.inl ⟨rfl, rfl⟩
      | some o =>
        obtain ⟨p, hp, hg⟩ := hi.get hx
        rw [hp]
        cases hy : s.objs y with
        | none => rw [hnone hy]; exact Or.inl ⟨rfl, rfl⟩
        | some q =>
          obtain ⟨r, hr, hgr⟩ := hi.get hy
          rw [hr]
          simp only [Option.bind_some, Option.map_some]
          have h1 := hi.remove x (m' := s.mem.free o.vec) (by rw [bufOf_some hx]; exact frame_free hi.fresh o.vec)
          have h2 := h1.move (x := x) (y := y) (o := q) (p := r) (by simp [State.set])
            (by simp [State.set, Ne.symm hxy, hy]) (by simp [Spec.upd, Ne.symm hxy, hr])
          rw [set_twice s _ x y, upd_twice] at h2
          exact both_some h2
  | fill x ext v =>
    simp only [Store.step, Spec.effect]
    cases hx : s.objs x with
    | none => rw [hnone hx]; exact Or.inl ⟨rfl, rfl⟩
    | some o =>
      obtain ⟨p, hp, hg⟩ := hi.get hx
      rw [hp]
      exact both_some (hi.become hx hp _ _)
  | reserve x n =>
    simp only [Store.step, Spec.effect]
    cases hx : s.objs x with
    | none => rw [hnone hx]; exact Or.inl ⟨rfl, rfl⟩
    | some o =>
      obtain ⟨p, hp, hg⟩ := hi.get hx
      rw [hp, Option.bind_some, hg.elems, Option.map_some, Option.map_some]
      obtain ⟨h1, h2, h3, h4⟩ := frame_reserve hi.fresh o.vec p.values n hg.elems hg.fits hg.nocap
      exact both_some (hi.put x (m' := (s.mem.reserve o.vec p.values n).1)
        (o := ⟨(s.mem.reserve o.vec p.values n).2, (s.mem.reserve o.vec p.values n).2.buf, o.ext⟩)
        (by rw [bufOf_some hx]; exact h1) ⟨h2, h3, h4, hg.ext, Or.inl rfl⟩)
  | resize x ext v =>
    simp only [Store.step, Spec.effect]
    cases hx : s.objs x with
    | none => rw [hnone hx]; exact Or.inl ⟨rfl, rfl⟩
    | some o =>
      obtain ⟨p, hp, hg⟩ := hi.get hx
      rw [hp, Option.bind_some, hg.elems, Option.bind_some, Option.bind_some, hg.ext]
      cases Arr.Arr.resize l v ⟨p.values, p.ext⟩ ext with
      | none => exact Or.inl ⟨rfl, rfl⟩
      | some p' => exact both_some (hi.become hx hp p'.values p'.ext)
  | append x v =>
    simp only [Store.step, Spec.effect]
    cases hx : s.objs x with
    | none => rw [hnone hx]; exact Or.inl ⟨rfl, rfl⟩
    | some o =>
      obtain ⟨p, hp, hg⟩ := hi.get hx
      rw [hp, Option.bind_some, hg.elems, Option.map_some, Option.map_some, hg.ext]
      exact both_some (hi.become hx hp (p.values ++ [v]) (Arr.grow p.ext 1))
  | insert x i v =>
    simp only [Store.step, Spec.effect]
    cases hx : s.objs x with
    | none => rw [hnone hx]; exact Or.inl ⟨rfl, rfl⟩
    | some o =>
      obtain ⟨p, hp, hg⟩ := hi.get hx
      rw [hp, Option.bind_some, hg.elems, Option.bind_some, Option.bind_some, hg.ext]
      cases Arr.Arr.insert ⟨p.values, p.ext⟩ i v with
      | none => exact Or.inl ⟨rfl, rfl⟩
      | some p' => exact both_some (hi.become hx hp p'.values p'.ext)
  | erase x i =>
    simp only [Store.step, Spec.effect]
    cases hx : s.objs x with
    | none => rw [hnone hx]; exact Or.inl ⟨rfl, rfl⟩
    | some o =>
      obtain ⟨p, hp, hg⟩ := hi.get hx
      rw [hp, Option.bind_some, hg.elems, Option.bind_some, Option.bind_some, hg.ext]
      cases Arr.Arr.erase ⟨p.values, p.ext⟩ i with
      | none => exact Or.inl ⟨rfl, rfl⟩
      | some p' => exact both_some (hi.become hx hp p'.values p'.ext)
  | clear x =>
    simp only [Store.step, Spec.effect]
    cases hx : s.objs x with
    | none => rw [hnone hx]; exact Or.inl ⟨rfl, rfl⟩
    | some o =>
      obtain ⟨p, hp, hg⟩ := hi.get hx
      rw [hp, Option.map_some, Option.map_some]
      obtain ⟨h1, h2, h3, h4⟩ := frame_store hi.fresh o.vec p.values [] hg.elems hg.nocap
      exact both_some (hi.put x (m' := (s.mem.store o.vec []).1)
        (o := ⟨(s.mem.store o.vec []).2, none, emptyExt o.ext⟩) (p := Spec.empty p)
        (by rw [bufOf_some hx]; exact h1)
        ⟨h2, h3, h4, by simp [emptyExt, Spec.empty, hg.ext], Or.inr ⟨rfl, rfl⟩⟩)
  | write x i v =>
    simp only [Store.step, Spec.effect]
    cases hx : s.objs x with
    | none => rw [hnone hx]; exact Or.inl ⟨rfl, rfl⟩
    | some o =>
      obtain ⟨p, hp, hg⟩ := hi.get hx
      rw [hp, Option.bind_some, Option.bind_some]
      rcases hg.ptr with hptr | ⟨hptr, he⟩
      · rw [hptr]
        cases hb : o.vec.buf with
        | none =>
          have : p.values.length = 0 := by have := hg.fits; have := hg.nocap hb; omega
          rw [if_neg (by omega)]
          exact Or.inl ⟨rfl, rfl⟩
        | some b =>
          rw [Option.bind_some, hg.heap hb, Option.bind_some]
          by_cases hl : i < p.values.length
          · rw [if_pos hl, if_pos hl]
            refine Or.inr ⟨_, _, rfl, rfl, ?_⟩
            have := hi.put x (m' := { s.mem with heap := fun c => if c = b then some (p.values.set i v) else s.mem.heap c })
              (o := o) (p := ⟨p.values.set i v, p.ext⟩) (by
                rw [bufOf_some hx]
                refine ⟨?_, Or.inl rfl, ?_, ?_⟩
                · intro c hc _
                  rw [hb] at hc
                  have : c ≠ b := fun h => hc (by rw [h])
                  simp only [if_neg this]
                · intro c hc
                  by_cases h : c = b
                  · exact Or.inl (by rw [hb, h])
                  · simp only [if_neg h] at hc
                    exact Or.inr ⟨by rw [hb]; simpa using h, hc⟩
                · intro c hc
                  by_cases h : c = b
                  · rw [h]; exact hi.fresh b (by rw [hg.heap hb]; simp)
                  · simp only [if_neg h] at hc
                    exact hi.fresh c hc)
              ⟨by simp [contents, hb], by simpa using hg.fits, hg.nocap, hg.ext, Or.inl hptr⟩
            have hs : ({ s with mem := { s.mem with
                heap := fun c => if c = b then some (p.values.set i v) else s.mem.heap c } } : State α).set x (some o) =
                { s with mem := { s.mem with heap := fun c => if c = b then some (p.values.set i v) else s.mem.heap c } } := by
              simp only [State.set, State.mk.injEq, true_and]
              funext y
              by_cases h : y = x
              · simp [h, hx]
              · simp [h]
            rw [hs] at this
            exact this
          · rw [if_neg hl, if_neg hl]; exact Or.inl ⟨rfl, rfl⟩
      · rw [hptr, he]
        exact Or.inl ⟨rfl, by simp⟩
  | destroy x =>
    simp only [Store.step, Spec.effect]
    cases hx : s.objs x with
    | none => rw [hnone hx]; exact Or.inl ⟨rfl, rfl⟩
    | some o =>
      obtain ⟨p, hp, hg⟩ := hi.get hx
      rw [hp]
      exact both_some (hi.remove x (m' := s.mem.free o.vec) (by rw [bufOf_some hx]; exact frame_free hi.fresh o.vec))

theorem Inv.run (l : Indexer.Layout) : ∀ (ops : List (Op α)) {s : State α} {a : Spec.Env α}, Inv s a →
    Both (run l ops s) (Spec.effects l ops a)
  | [], _, _, h => both_some h
  | op :: ops, s, a, h => by
    rw [Store.run, Spec.effects]
    rcases h.step l op with ⟨h1, h2⟩ | ⟨s', a', h1, h2, h'⟩
    · rw [h1, h2]; exact Or.inl ⟨rfl, rfl⟩
    · rw [h1, h2]; exact Inv.run l ops h'

theorem inv_init : Inv (State.init : State α) (fun _ => none) := by
  refine ⟨fun _ => ⟨fun _ => rfl, fun _ => rfl⟩, ?_, ?_, fun _ h => absurd rfl h, fun _ h => absurd rfl h⟩
  · intro _ _ _ h
    cases h
  · intro _ _ _ _ _ h
    cases h

/-! ### C116 -/

/-- C116: a program with arrays is defined exactly if it is with arrays as plain values, and then all elements and extents are
those of the values: operations on one array never change another, and never access memory that was freed. -/
theorem C116_values (l : Indexer.Layout) (ops : List (Op α)) :
    (run l ops State.init = none ↔ Spec.effects l ops (fun _ => none) = none) ∧
    ∀ s a, run l ops State.init = some s → Spec.effects l ops (fun _ => none) = some a →
      (∀ x i, s.read x i = (a x).bind fun p => p.values[i]?) ∧
      ∀ x, (s.objs x).map (fun o => o.ext) = (a x).map fun p => p.ext := by
  rcases Inv.run l ops (inv_init (α := α)) with ⟨h1, h2⟩ | ⟨s, a, h1, h2, hi⟩
  · refine ⟨⟨fun _ => h2, fun _ => h1⟩, fun s a hs => ?_⟩
    rw [h1] at hs; cases hs
  · refine ⟨by rw [h1, h2]; simp, ?_⟩
    intro s' a' hs ha
    rw [h1] at hs
    rw [h2] at ha
    cases hs
    cases ha
    refine ⟨?_, ?_⟩
    · intro x i
      unfold State.read
      cases hx : s.objs x with
      | none => rw [(hi.dom x).mp hx]; rfl
      | some o =>
        obtain ⟨p, hp, hg⟩ := hi.get hx
        rw [hp, Option.bind_some, Option.bind_some]
        rcases hg.ptr with hptr | ⟨hptr, he⟩
        · rw [hptr]
          cases hb : o.vec.buf with
          | none =>
            have : p.values = [] := by
              have := hg.fits; have := hg.nocap hb
              exact List.length_eq_zero_iff.mp (by omega)
            rw [this]; rfl
          | some b => rw [Option.bind_some, hg.heap hb, Option.bind_some]
        · rw [hptr, he]; rfl
    · intro x
      cases hx : s.objs x with
      | none => rw [(hi.dom x).mp hx]; rfl
      | some o =>
        obtain ⟨p, hp, hg⟩ := hi.get hx
        rw [hp, Option.map_some, Option.map_some, hg.ext]

/-- C116: every block is owned by exactly one array, so that nothing is left when all arrays are gone. -/
theorem C116_owned (l : Indexer.Layout) (ops : List (Op α)) {s : State α} (h : run l ops State.init = some s) :
    (∀ b, s.mem.heap b ≠ none → ∃ x o, s.objs x = some o ∧ o.vec.buf = some b) ∧
    (∀ x y o q b, s.objs x = some o → s.objs y = some q → o.vec.buf = some b → q.vec.buf = some b → x = y) ∧
    ∀ x o b, s.objs x = some o → o.ptr = some b → o.vec.buf = some b := by
  rcases Inv.run l ops (inv_init (α := α)) with ⟨h1, -⟩ | ⟨s', a, h1, -, hi⟩
  · rw [h1] at h; cases h
  · rw [h1] at h
    cases h
    refine ⟨hi.live, hi.own, ?_⟩
    intro x o b hx hb
    obtain ⟨p, -, hg⟩ := hi.get hx
    rcases hg.ptr with hptr | ⟨hptr, -⟩
    · rw [← hptr, hb]
    · rw [hptr] at hb; cases hb

/-- An array is copied, the copy grows and the original is moved and destroyed. -/
example : ((run .row [.make 0 [(0, 2)] 7, .copyNew 1 0, .append 1 8, .write 1 0 9, .moveNew 2 0, .destroy 0, .append 2 5,
    .copyTo 1 2, .clear 2, .append 2 1] State.init).map fun s =>
      ([0, 1, 2].map fun i => s.read 1 i, s.read 2 0, s.read 2 1, (s.objs 0).isSome)) =
      some ([some 7, some 7, some 5], some 1, none, false) := by decide +kernel

end Ovk.Store
