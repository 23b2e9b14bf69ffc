/-
C133: views of arrays see the elements of their array, wherever it is moved, as long as it has room for its elements.
-/
import Mathlib.Tactic.ByContra
import Verif.Model.ArrayViews
import Verif.Props.ArrayStorage

namespace Ovk.Views

open Store (Mem Obj Frame Good Inv)
open Arr (Arr)

variable {α : Type}

/-! ### Specification -/

namespace Spec

/-- Arrays are values (`Store.Spec.Env`, C116), each with the number of elements it surely has room for. A view sees the
elements of an array from a position on, or it sees nothing. -/
structure World (α : Type) where
  arrays : Store.Spec.Env α
  room : Nat → Nat
  sees : Nat → Option (Nat × Nat)
  shape : Nat → List (Int × Int)

def World.init : World α := ⟨fun _ => none, fun _ => 0, fun _ => none, fun _ => [(0, 0)]⟩

def World.elems (w : World α) (x : Nat) : List α := ((w.arrays x).map fun p => p.values).getD []

/-- Where the elements of each array are after an operation, if they are still in the same place: they go along with moves, end
with destruction and when another array is moved over them, and may go away when the array needs more room than it has. -/
def follow (w : World α) (after : Store.Spec.Env α) : Store.Op α → Nat → Option Nat
  | .moveNew x y, z => if z = y then some x else some z
  | .moveTo x y, z => if z = y then some x else if z = x then none else some z
  | .destroy x, z => if z = x then none else some z
  | .reserve x n, z => if z = x ∧ w.room x < n then none else some z
  | .copyTo x _, z | .fill x _ _, z | .resize x _ _, z | .append x _, z | .insert x _ _, z | .erase x _, z =>
      if z = x ∧ w.room x < (((after x).map fun p => p.values).getD []).length then none else some z
  | .make _ _ _, z | .copyNew _ _, z | .clear _, z | .write _ _ _, z => some z

/-- The room each array has after an operation. -/
def roomAfter (w : World α) (after : Store.Spec.Env α) : Store.Op α → Nat → Nat
  | .moveNew x y, z => if z = y then 0 else if z = x then w.room y else w.room z
  | .moveTo x y, z => if z = y then 0 else if z = x then w.room y else w.room z
  | .reserve x n, z => if z = x then max (w.room x) n else w.room z
  | .make x _ _, z | .copyNew x _, z => if z = x then (((after x).map fun p => p.values).getD []).length else w.room z
  | .copyTo x _, z | .fill x _ _, z | .resize x _ _, z | .append x _, z | .insert x _ _, z | .erase x _, z =>
      if z = x then max (w.room x) (((after x).map fun p => p.values).getD []).length else w.room z
  | .clear _, z | .write _ _ _, z | .destroy _, z => w.room z

/-- The list with `l` in place of what was there from position `k` on; only if it was that long. -/
def splice (q : List α) (k : Nat) (l : List α) : Option (List α) :=
  if k + l.length ≤ q.length then some (q.take k ++ l ++ q.drop (k + l.length)) else none

def World.look (w : World α) (v : Nat) (see : Option (Nat × Nat)) (ext : List (Int × Int)) : World α :=
  { w with sees := fun u => if u = v then see else w.sees u, shape := fun u => if u = v then ext else w.shape u }

/-- The first elements that a view sees become `l`. -/
def World.assign (w : World α) (v : Nat) (l : List α) : Option (World α) :=
  if l = [] then some w
  else (w.sees v).bind fun t => (w.arrays t.1).bind fun p => (splice p.values t.2 l).map fun q =>
    { w with arrays := Store.Spec.upd w.arrays t.1 (some ⟨q, p.ext⟩) }

/-- `n` elements of a list from a position on, if there are so many. -/
def part (q : List α) (k n : Nat) : Option (List α) := if k + n ≤ q.length then some ((q.drop k).take n) else none

/-- Elements from position `k` of array `x` on can be copied one by one to what the view sees, without being overwritten before. -/
def World.apart (w : World α) (v x k n : Nat) : Prop := ∀ t, w.sees v = some t → t.1 = x → t.2 ≤ k ∨ k + n ≤ t.2

/-- The same for positions up to which both are known. -/
instance (w : World α) (v x k n : Nat) : Decidable (w.apart v x k n) :=
  match h : w.sees v with
  | none => isTrue (by intro t ht; rw [h] at ht; cases ht)
  | some t => decidable_of_iff (t.1 = x → t.2 ≤ k ∨ k + n ≤ t.2)
      ⟨fun hp u hu => by rw [h] at hu; cases hu; exact hp, fun hp => hp t h⟩

/-- What the program does; `none` if nothing is promised. -/
def next (l : Indexer.Layout) (w : World α) : Op α → Option (World α)
  | .array o => (Store.Spec.effect l w.arrays o).map fun a =>
      { w with arrays := a, room := roomAfter w a o, sees := fun v => (w.sees v).bind fun t => (follow w a o t.1).map fun x => (x, t.2) }
  | .view v x => (w.arrays x).map fun p => w.look v (if p.values = [] then none else some (x, 0)) p.ext
  | .viewAt v x k ext => (w.arrays x).bind fun p =>
      if k ≤ p.values.length then some (w.look v (if p.values = [] then none else some (x, k)) ext) else none
  | .copy v u => some (w.look v (w.sees u) (w.shape u))
  | .reshape v u ext => some (w.look v (w.sees u) ext)
  | .reset v => some (w.look v none [(0, 0)])
  | .put v i a => (w.sees v).bind fun t => (w.arrays t.1).bind fun p => (splice p.values (t.2 + i) [a]).map fun q =>
      { w with arrays := Store.Spec.upd w.arrays t.1 (some ⟨q, p.ext⟩) }
  | .fill v a => w.assign v (List.replicate (Arr.count (w.shape v)) a)
  | .fillList v q => (part q 0 (Arr.count (w.shape v))).bind (w.assign v)
  | .fillView v u => if Arr.count (w.shape v) = 0 then some w else (w.sees u).bind fun t =>
      if w.apart v t.1 t.2 (Arr.count (w.shape v)) then (part (w.elems t.1) t.2 (Arr.count (w.shape v))).bind (w.assign v) else none
  | .fillArray v x => if Arr.count (w.shape v) = 0 then some w else
      if w.apart v x 0 (Arr.count (w.shape v)) then (part (w.elems x) 0 (Arr.count (w.shape v))).bind (w.assign v) else none

def effects (l : Indexer.Layout) : List (Op α) → World α → Option (World α)
  | [], w => some w
  | o :: os, w => (next l w o).bind (effects l os)

end Spec

open Spec (World)

/-! ### Blocks of memory -/

theorem store_same (m : Mem α) (v : Store.Vec) (vals : List α) (h : vals.length ≤ v.cap) : (m.store v vals).2 = v := by
  unfold Mem.store
  rw [if_pos h]
  split <;> rfl

theorem store_cap (m : Mem α) (v : Store.Vec) (vals : List α) : max v.cap vals.length ≤ (m.store v vals).2.cap := by
  by_cases h : vals.length ≤ v.cap
  · rw [store_same m v vals h]; omega
  · unfold Mem.store
    rw [if_neg h]
    unfold Mem.alloc
    rw [if_neg (by omega)]
    show _ ≤ max vals.length (2 * v.cap)
    omega

/-- What happens to the blocks and capacities when the array `x` gets other elements. -/
theorem become_blocks {s : Store.State α} {a a' : Store.Spec.Env α} (hi : Inv s a) {x : Nat} {o : Obj}
    (hx : s.objs x = some o) (vals : List α) (ext : List (Int × Int)) (hi' : Inv (s.become x o vals ext) a') (r : Nat)
    (hr : r ≤ o.vec.cap) :
    (((a' x).map fun p => p.values).getD []).length = vals.length ∧
    (∀ z q b, s.objs z = some q → q.vec.buf = some b → ¬(z = x ∧ r < vals.length) →
      ∃ q', (s.become x o vals ext).objs z = some q' ∧ q'.vec.buf = some b) ∧
    (∀ q', (s.become x o vals ext).objs x = some q' → max r vals.length ≤ q'.vec.cap) ∧
    ∀ z, z ≠ x → (s.become x o vals ext).objs z = s.objs z := by
  obtain ⟨p, hp, hg⟩ := hi.get hx
  have hnew : (s.become x o vals ext).objs x =
      some ⟨(s.mem.store o.vec vals).2, (s.mem.store o.vec vals).2.buf, ext⟩ := by
    simp [Store.State.become, Store.State.set]
  have hold : ∀ z, z ≠ x → (s.become x o vals ext).objs z = s.objs z := by
    intro z hz
    simp [Store.State.become, Store.State.set, hz]
  have hmem : (s.become x o vals ext).mem = (s.mem.store o.vec vals).1 := by
    simp [Store.State.become, Store.State.set]
  obtain ⟨-, h2, -, -⟩ := Store.frame_store hi.fresh o.vec p.values vals hg.elems hg.nocap
  refine ⟨?_, ?_, ?_, hold⟩
  · obtain ⟨p', hp', hg'⟩ := hi'.get hnew
    have := hg'.elems
    rw [hmem, h2] at this
    rw [hp']
    simp only [Option.some.injEq] at this
    simp [← this]
  · intro z q b hq hb hn
    by_cases hz : z = x
    · subst hz
      rw [hx] at hq
      cases hq
      refine ⟨_, hnew, ?_⟩
      rw [store_same _ _ _ (by simp only [true_and] at hn; omega)]
      exact hb
    · exact ⟨q, by rw [hold z hz, hq], hb⟩
  · intro q' hq'
    rw [hnew] at hq'
    cases hq'
    have := store_cap s.mem o.vec vals
    show _ ≤ (s.mem.store o.vec vals).2.cap
    omega

/-- What holds between a program and what is promised. -/
structure Rel (s : State α) (w : World α) : Prop where
  inv : Inv s.arrays w.arrays
  room : ∀ x o, s.arrays.objs x = some o → w.room x ≤ o.vec.cap
  sees : ∀ v x k, w.sees v = some (x, k) → ∃ o b, s.arrays.objs x = some o ∧ o.vec.buf = some b ∧
    (s.views v).ptr = some (b, k)
  shape : ∀ v, (s.views v).ext = w.shape v

/-- Blocks after an operation on arrays. -/
def Kept (s t : Store.State α) (w : World α) (a : Store.Spec.Env α) (op : Store.Op α) : Prop :=
  (∀ z x q b, Spec.follow w a op z = some x → s.objs z = some q → q.vec.buf = some b →
    ∃ q', t.objs x = some q' ∧ q'.vec.buf = some b) ∧
  ∀ x q', t.objs x = some q' → Spec.roomAfter w a op x ≤ q'.vec.cap

theorem kept_become {s : Store.State α} {w : World α} {a' : Store.Spec.Env α} (hi : Inv s w.arrays)
    (hroom : ∀ x o, s.objs x = some o → w.room x ≤ o.vec.cap) {x : Nat} {o : Obj}
    (hx : s.objs x = some o) (vals : List α) (ext : List (Int × Int)) (hi' : Inv (s.become x o vals ext) a')
    (op : Store.Op α)
    (hf : ∀ z, Spec.follow w a' op z = if z = x ∧ w.room x < (((a' x).map fun p => p.values).getD []).length then none
      else some z)
    (hr : ∀ z, Spec.roomAfter w a' op z = if z = x then max (w.room x) (((a' x).map fun p => p.values).getD []).length
      else w.room z) : Kept s (s.become x o vals ext) w a' op := by
  obtain ⟨h1, h2, h3, h4⟩ := become_blocks hi hx vals ext hi' (w.room x) (hroom x o hx)
  refine ⟨?_, ?_⟩
  · intro z y q b hz hq hb
    rw [hf z, h1] at hz
    split at hz
    · cases hz
    · next hn =>
      cases hz
      exact h2 _ q b hq hb hn
  · intro z q' hq'
    rw [hr z, h1]
    by_cases hz : z = x
    · subst hz
      rw [if_pos rfl]
      exact h3 q' hq'
    · rw [if_neg hz]
      rw [h4 z hz] at hq'
      exact hroom z q' hq'

theorem kept_step {s t : Store.State α} {w : World α} {a : Store.Spec.Env α} (l : Indexer.Layout) (op : Store.Op α)
    (hi : Inv s w.arrays) (hroom : ∀ x o, s.objs x = some o → w.room x ≤ o.vec.cap) (hi' : Inv t a)
    (hs : Store.step l s op = some t) : Kept s t w a op := by
  cases op with
  | make x ext v =>
    simp only [Store.step] at hs
    split at hs
    · cases hs
    · next hx =>
      have hx : s.objs x = none := by simpa using hx
      cases hs
      have hne : ∀ {z q}, s.objs z = some q → z ≠ x := fun h he => by rw [he, hx] at h; cases h
      refine ⟨?_, ?_⟩
      · intro z y q b hz hq hb
        simp only [Spec.follow, Option.some.injEq] at hz
        subst hz
        exact ⟨q, by simp [Store.State.set, hne hq, hq], hb⟩
      · intro z q' hq'
        simp only [Spec.roomAfter]
        by_cases hz : z = x
        · rw [if_pos hz]
          subst hz
          obtain ⟨p', hp', hg'⟩ := hi'.get hq'
          rw [hp']
          exact hg'.fits
        · rw [if_neg hz]
          simp only [Store.State.set, if_neg hz] at hq'
          exact hroom z q' hq'
  | copyNew x y =>
    simp only [Store.step] at hs
    split at hs
    · cases hs
    · next hx =>
      have hx : s.objs x = none := by simpa using hx
      have hne : ∀ {z q}, s.objs z = some q → z ≠ x := fun h he => by rw [he, hx] at h; cases h
      simp only [Option.bind_eq_some_iff, Option.map_eq_some_iff] at hs
      obtain ⟨o, ho, vals, hvals, rfl⟩ := hs
      refine ⟨?_, ?_⟩
      · intro z y q b hz hq hb
        simp only [Spec.follow, Option.some.injEq] at hz
        subst hz
        exact ⟨q, by simp [Store.State.set, hne hq, hq], hb⟩
      · intro z q' hq'
        simp only [Spec.roomAfter]
        by_cases hz : z = x
        · rw [if_pos hz]
          subst hz
          obtain ⟨p', hp', hg'⟩ := hi'.get hq'
          rw [hp']
          exact hg'.fits
        · rw [if_neg hz]
          simp only [Store.State.set, if_neg hz] at hq'
          exact hroom z q' hq'
  | moveNew x y =>
    simp only [Store.step] at hs
    split at hs
    · cases hs
    · next hx =>
      have hx : s.objs x = none := by simpa using hx
      have hne : ∀ {z q}, s.objs z = some q → z ≠ x := fun h he => by rw [he, hx] at h; cases h
      simp only [Option.map_eq_some_iff] at hs
      obtain ⟨o, ho, rfl⟩ := hs
      have hxy : x ≠ y := fun h => by rw [h, ho] at hx; cases hx
      refine ⟨?_, ?_⟩
      · intro z u q b hz hq hb
        simp only [Spec.follow] at hz
        by_cases hy : z = y
        · rw [if_pos hy] at hz
          cases hz
          subst hy
          rw [ho] at hq
          cases hq
          exact ⟨_, by simp [Store.State.set, hxy], hb⟩
        · rw [if_neg hy] at hz
          cases hz
          exact ⟨q, by simp [Store.State.set, hy, hne hq, hq], hb⟩
      · intro z q' hq'
        simp only [Spec.roomAfter]
        by_cases hy : z = y
        · rw [if_pos hy]; omega
        · rw [if_neg hy]
          simp only [Store.State.set, if_neg hy] at hq'
          by_cases hzx : z = x
          · rw [if_pos hzx] at hq' ⊢
            cases hq'
            exact hroom y o ho
          · rw [if_neg hzx] at hq' ⊢
            exact hroom z q' hq'
  | moveTo x y =>
    simp only [Store.step] at hs
    split at hs
    · cases hs
    · next hxy =>
      simp only [Option.bind_eq_some_iff, Option.map_eq_some_iff] at hs
      obtain ⟨o, ho, q0, hq0, rfl⟩ := hs
      refine ⟨?_, ?_⟩
      · intro z u q b hz hq hb
        simp only [Spec.follow] at hz
        by_cases hy : z = y
        · rw [if_pos hy] at hz
          cases hz
          subst hy
          rw [hq0] at hq
          cases hq
          exact ⟨_, by simp [Store.State.set, hxy], hb⟩
        · rw [if_neg hy] at hz
          by_cases hzx : z = x
          · rw [if_pos hzx] at hz; cases hz
          · rw [if_neg hzx] at hz
            cases hz
            exact ⟨q, by simp [Store.State.set, hy, hzx, hq], hb⟩
      · intro z q' hq'
        simp only [Spec.roomAfter]
        by_cases hy : z = y
        · rw [if_pos hy]; omega
        · rw [if_neg hy]
          simp only [Store.State.set, if_neg hy] at hq'
          by_cases hzx : z = x
          · rw [if_pos hzx] at hq' ⊢
            cases hq'
            exact hroom y q0 hq0
          · rw [if_neg hzx] at hq' ⊢
            exact hroom z q' hq'
  | destroy x =>
    simp only [Store.step, Option.map_eq_some_iff] at hs
    obtain ⟨o, ho, rfl⟩ := hs
    refine ⟨?_, ?_⟩
    · intro z u q b hz hq hb
      simp only [Spec.follow] at hz
      by_cases hzx : z = x
      · rw [if_pos hzx] at hz; cases hz
      · rw [if_neg hzx] at hz
        cases hz
        exact ⟨q, by simp [Store.State.set, hzx, hq], hb⟩
    · intro z q' hq'
      simp only [Spec.roomAfter]
      simp only [Store.State.set] at hq'
      split at hq'
      · cases hq'
      · exact hroom z q' hq'
  | reserve x n =>
    simp only [Store.step, Option.bind_eq_some_iff, Option.map_eq_some_iff] at hs
    obtain ⟨o, ho, vals, hvals, rfl⟩ := hs
    have hle := hroom x o ho
    refine ⟨?_, ?_⟩
    · intro z u q b hz hq hb
      simp only [Spec.follow] at hz
      split at hz
      · cases hz
      · next hn =>
        cases hz
        by_cases hzx : z = x
        · subst hzx
          rw [ho] at hq
          cases hq
          have : n ≤ o.vec.cap := by simp only [true_and] at hn; omega
          exact ⟨_, by simp [Store.State.set]; rfl, by simp [Mem.reserve, this, hb]⟩
        · exact ⟨q, by simp [Store.State.set, hzx, hq], hb⟩
    · intro z q' hq'
      simp only [Spec.roomAfter]
      by_cases hzx : z = x
      · rw [if_pos hzx]
        simp only [Store.State.set, if_pos hzx, Option.some.injEq] at hq'
        subst hq'
        show _ ≤ (s.mem.reserve o.vec vals n).2.cap
        unfold Mem.reserve
        split
        · show _ ≤ o.vec.cap; omega
        · unfold Mem.alloc
          rw [if_neg (by omega)]
          show _ ≤ n
          omega
      · rw [if_neg hzx]
        simp only [Store.State.set, if_neg hzx] at hq'
        exact hroom z q' hq'
  | clear x =>
    simp only [Store.step, Option.map_eq_some_iff] at hs
    obtain ⟨o, ho, rfl⟩ := hs
    have hsame := store_same s.mem o.vec ([] : List α) (Nat.zero_le _)
    refine ⟨?_, ?_⟩
    · intro z u q b hz hq hb
      simp only [Spec.follow, Option.some.injEq] at hz
      subst hz
      by_cases hzx : z = x
      · subst hzx
        rw [ho] at hq
        cases hq
        exact ⟨_, by simp [Store.State.set]; rfl, by simp [hsame, hb]⟩
      · exact ⟨q, by simp [Store.State.set, hzx, hq], hb⟩
    · intro z q' hq'
      simp only [Spec.roomAfter]
      by_cases hzx : z = x
      · simp only [Store.State.set, if_pos hzx, Option.some.injEq] at hq'
        subst hq' hzx
        show _ ≤ (s.mem.store o.vec []).2.cap
        rw [hsame]
        exact hroom z o ho
      · simp only [Store.State.set, if_neg hzx] at hq'
        exact hroom z q' hq'
  | write x i v =>
    simp only [Store.step, Option.bind_eq_some_iff] at hs
    obtain ⟨o, ho, b, hb, vals, hvals, hs⟩ := hs
    split at hs
    · cases hs
      refine ⟨?_, fun z q' hq' => hroom z q' hq'⟩
      intro z u q b hz hq hb
      simp only [Spec.follow, Option.some.injEq] at hz
      subst hz
      exact ⟨q, hq, hb⟩
    · cases hs
  | copyTo x y =>
    simp only [Store.step, Option.bind_eq_some_iff, Option.map_eq_some_iff] at hs
    obtain ⟨o, ho, q, hq, vals, hvals, rfl⟩ := hs
    exact kept_become hi hroom ho _ _ hi' _ (fun z => rfl) (fun z => rfl)
  | fill x ext v =>
    simp only [Store.step, Option.map_eq_some_iff] at hs
    obtain ⟨o, ho, rfl⟩ := hs
    exact kept_become hi hroom ho _ _ hi' _ (fun z => rfl) (fun z => rfl)
  | resize x ext v =>
    simp only [Store.step, Option.bind_eq_some_iff, Option.map_eq_some_iff] at hs
    obtain ⟨o, ho, vals, hvals, a', ha', rfl⟩ := hs
    exact kept_become hi hroom ho _ _ hi' _ (fun z => rfl) (fun z => rfl)
  | append x v =>
    simp only [Store.step, Option.bind_eq_some_iff, Option.map_eq_some_iff] at hs
    obtain ⟨o, ho, vals, hvals, rfl⟩ := hs
    exact kept_become hi hroom ho _ _ hi' _ (fun z => rfl) (fun z => rfl)
  | insert x i v =>
    simp only [Store.step, Option.bind_eq_some_iff, Option.map_eq_some_iff] at hs
    obtain ⟨o, ho, vals, hvals, a', ha', rfl⟩ := hs
    exact kept_become hi hroom ho _ _ hi' _ (fun z => rfl) (fun z => rfl)
  | erase x i =>
    simp only [Store.step, Option.bind_eq_some_iff, Option.map_eq_some_iff] at hs
    obtain ⟨o, ho, vals, hvals, a', ha', rfl⟩ := hs
    exact kept_become hi hroom ho _ _ hi' _ (fun z => rfl) (fun z => rfl)

theorem Rel.array {s : State α} {w w' : World α} (h : Rel s w) (l : Indexer.Layout) (op : Store.Op α)
    (hn : Spec.next l w (.array op) = some w') : ∃ s', step l s (.array op) = some s' ∧ Rel s' w' := by
  simp only [Spec.next, Option.map_eq_some_iff] at hn
  obtain ⟨a, ha, rfl⟩ := hn
  rcases h.inv.step l op with ⟨-, h2⟩ | ⟨t, a', h1, h2, hi⟩
  · rw [ha] at h2; cases h2
  · rw [ha] at h2
    cases h2
    obtain ⟨k1, k2⟩ := kept_step (w := w) l op h.inv h.room hi h1
    refine ⟨{ s with arrays := t }, by simp [step, h1], ⟨hi, k2, ?_, h.shape⟩⟩
    intro v x k hv
    simp only [Option.bind_eq_some_iff, Option.map_eq_some_iff, Prod.mk.injEq] at hv
    obtain ⟨⟨z, k0⟩, hz, y, hy, rfl, rfl⟩ := hv
    obtain ⟨o, b, ho, hb, hp⟩ := h.sees v z k0 hz
    obtain ⟨q', hq', hb'⟩ := k1 z y o b hy ho hb
    exact ⟨q', b, hq', hb', hp⟩

/-! ### Writing through views -/

theorem Rel.write {s : State α} {w : World α} (h : Rel s w) {v x k : Nat} (hv : w.sees v = some (x, k)) {p : Arr α}
    (hp : w.arrays x = some p) (i : Nat) (a : α) (hi : k + i < p.values.length) :
    ∃ m, save s.arrays.mem (s.views v) i a = some m ∧
      Rel (s.withMem m) { w with arrays := Store.Spec.upd w.arrays x (some ⟨p.values.set (k + i) a, p.ext⟩) } := by
  obtain ⟨o, b, ho, hb, hptr⟩ := h.sees v x k hv
  have hg := h.inv.good x o p ho hp
  have hheap := hg.heap hb
  have hop : o.ptr = some b := by
    rcases hg.ptr with hq | ⟨-, hq⟩
    · rw [hq, hb]
    · rw [hq] at hi; simp at hi
  refine ⟨{ s.arrays.mem with heap := fun c => if c = b then some (p.values.set (k + i) a) else s.arrays.mem.heap c },
    by simp [save, hptr, hheap, hi], ?_⟩
  refine ⟨?_, h.room, h.sees, h.shape⟩
  rcases h.inv.step .row (.write x (k + i) a) with ⟨-, h2⟩ | ⟨t, a', h1, h2, hinv⟩
  · simp [Store.Spec.effect, hp, hi] at h2
  · simp only [Store.Spec.effect, hp, Option.bind_some, if_pos hi, Option.some.injEq] at h2
    simp only [Store.step, ho, Option.bind_some, hop, hheap, if_pos hi, Option.some.injEq] at h1
    subst h1 h2
    exact hinv

theorem splice_one (q : List α) (k : Nat) (a : α) : Spec.splice q k [a] = if k < q.length then some (q.set k a) else none := by
  unfold Spec.splice
  by_cases h : k < q.length
  · rw [if_pos h, if_pos (by simp; omega), List.set_eq_take_append_cons_drop, if_pos h]
    simp
  · rw [if_neg h, if_neg (by simp; omega)]

/-- The elements after `i` of them have been written. -/
def mid (q : List α) (k : Nat) (l : List α) (i : Nat) : List α := q.take k ++ l.take i ++ q.drop (k + i)

theorem mid_get (q : List α) (k : Nat) (l : List α) (i j : Nat) (hk : k + l.length ≤ q.length) (hi : i ≤ l.length) :
    (mid q k l i)[j]? = if k ≤ j ∧ j < k + i then l[j - k]? else q[j]? := by
  unfold mid
  have h1 : (q.take k).length = k := by simp; omega
  have h2 : (q.take k ++ l.take i).length = k + i := by simp; omega
  by_cases hj : j < k + i
  · rw [List.getElem?_append_left (by omega)]
    by_cases hk' : j < k
    · rw [List.getElem?_append_left (by omega), if_neg (by omega), List.getElem?_take_of_lt hk']
    · rw [List.getElem?_append_right (by omega), h1, if_pos (by omega), List.getElem?_take_of_lt (by omega)]
  · rw [List.getElem?_append_right (by omega), h2, if_neg (by omega), List.getElem?_drop]
    congr 1
    omega

theorem mid_length (q : List α) (k : Nat) (l : List α) (i : Nat) (hk : k + l.length ≤ q.length) (hi : i ≤ l.length) :
    (mid q k l i).length = q.length := by
  unfold mid
  simp
  omega

theorem mid_succ (q : List α) (k : Nat) (l : List α) (i : Nat) (a : α) (hk : k + l.length ≤ q.length)
    (ha : l[i]? = some a) : (mid q k l i).set (k + i) a = mid q k l (i + 1) := by
  have hi : i < l.length := by
    by_contra hn
    rw [List.getElem?_eq_none (by omega)] at ha
    cases ha
  apply List.ext_getElem?
  intro j
  rw [List.getElem?_set, mid_length q k l i hk (by omega), mid_get q k l i j hk (by omega), mid_get q k l (i + 1) j hk hi]
  by_cases hj : k + i = j
  · subst hj
    rw [if_pos rfl, if_pos (by omega), if_pos (by omega), Nat.add_sub_cancel_left, ha]
  · rw [if_neg hj]
    by_cases hc : k ≤ j ∧ j < k + i
    · rw [if_pos hc, if_pos (by omega)]
    · rw [if_neg hc, if_neg (by omega)]

/-- The world after `i` elements from `l` have been written to array `x` from position `k` on. -/
def during (w : World α) (x k : Nat) (p : Arr α) (l : List α) (i : Nat) : World α :=
  { w with arrays := Store.Spec.upd w.arrays x (some ⟨mid p.values k l i, p.ext⟩) }

theorem loop_ok {s : State α} {w : World α} {v x k : Nat} (hv : w.sees v = some (x, k)) (p : Arr α) (l : List α)
    (hk : k + l.length ≤ p.values.length) (src : Mem α → Nat → Option α)
    (hsrc : ∀ i, i < l.length → ∀ m, Rel (s.withMem m) (during w x k p l i) → src m i = l[i]?) :
    ∀ n i m, i + n = l.length → Rel (s.withMem m) (during w x k p l i) →
      ∃ m', fillLoop src (s.views v) i n m = some m' ∧ Rel (s.withMem m') (during w x k p l l.length)
  | 0, i, m, hin, hr => ⟨m, rfl, by rw [← hin]; exact hr⟩
  | n + 1, i, m, hin, hr => by
    have hi : i < l.length := by omega
    obtain ⟨a, ha⟩ : ∃ a, l[i]? = some a := ⟨_, List.getElem?_eq_getElem hi⟩
    have hlen := mid_length p.values k l i hk (by omega)
    obtain ⟨m1, h1, hr1⟩ := hr.write (v := v) (x := x) (k := k) (p := ⟨mid p.values k l i, p.ext⟩) hv
      (by simp [during, Store.Spec.upd]) i a (by show _ < (mid p.values k l i).length; rw [hlen]; omega)
    have hr2 : Rel (s.withMem m1) (during w x k p l (i + 1)) := by
      simp only [during, Store.upd_twice, mid_succ p.values k l i a hk ha] at hr1
      exact hr1
    obtain ⟨m', h2, hr3⟩ := loop_ok hv p l hk src hsrc n (i + 1) m1 (by omega) hr2
    refine ⟨m', ?_, hr3⟩
    have h1' : save m (s.views v) i a = some m1 := h1
    rw [fillLoop, hsrc i hi m hr, ha, Option.bind_some, h1', Option.bind_some, h2]

theorem Rel.assign {s : State α} {w w' : World α} (h : Rel s w) (v : Nat) (l : List α) (hn : w.assign v l = some w')
    (hl : Arr.count (w.shape v) = l.length) (src : Mem α → Nat → Option α)
    (hsrc : ∀ x k p, w.sees v = some (x, k) → w.arrays x = some p → k + l.length ≤ p.values.length →
      ∀ i, i < l.length → ∀ m, Rel (s.withMem m) (during w x k p l i) → src m i = l[i]?) :
    ∃ m', fillLoop src (s.views v) 0 (s.views v).count s.arrays.mem = some m' ∧ Rel (s.withMem m') w' := by
  have hc : (s.views v).count = l.length := by rw [View.count, h.shape v, hl]
  rw [hc]
  unfold World.assign at hn
  split at hn
  · next hnil =>
    cases hn
    subst hnil
    exact ⟨s.arrays.mem, rfl, h⟩
  · simp only [Option.bind_eq_some_iff, Option.map_eq_some_iff] at hn
    obtain ⟨⟨x, k⟩, hv, p, hp, q, hq, rfl⟩ := hn
    unfold Spec.splice at hq
    split at hq
    · next hk =>
      cases hq
      have h0 : during w x k p l 0 = w := by
        have : Store.Spec.upd w.arrays x (some p) = w.arrays := by
          funext z
          by_cases hz : z = x
          · simp [Store.Spec.upd, hz, hp]
          · simp [Store.Spec.upd, hz]
        simp [during, mid, this]
      obtain ⟨m', h1, h2⟩ := loop_ok hv p l hk src (hsrc x k p hv hp hk) l.length 0 s.arrays.mem (by omega)
        (by rw [h0]; exact h)
      refine ⟨m', h1, ?_⟩
      simpa [during, mid] using h2
    · cases hq

theorem read_inv {s : Store.State α} {a : Store.Spec.Env α} (hi : Inv s a) (x i : Nat) :
    s.read x i = (a x).bind fun p => p.values[i]? := by
  unfold Store.State.read
  cases hx : s.objs x with
  | none => rw [(hi.dom x).mp hx]; rfl
  | some o =>
    obtain ⟨p, hp, hg⟩ := hi.get hx
    rw [hp, Option.bind_some, Option.bind_some]
    rcases hg.ptr with hptr | ⟨hptr, he⟩
    · rw [hptr]
      cases hb : o.vec.buf with
      | none =>
        have : p.values = [] := by
          have := hg.fits; have := hg.nocap hb
          exact List.length_eq_zero_iff.mp (by omega)
        rw [this]; rfl
      | some b => rw [Option.bind_some, hg.heap hb, Option.bind_some]
    · rw [hptr, he]; rfl

theorem Rel.load {s : State α} {w : World α} (h : Rel s w) {v x k : Nat} (hv : w.sees v = some (x, k)) (i : Nat) :
    load s.arrays.mem (s.views v) i = (w.elems x)[k + i]? := by
  obtain ⟨o, b, ho, hb, hptr⟩ := h.sees v x k hv
  obtain ⟨p, hp, hg⟩ := h.inv.get ho
  simp [Views.load, hptr, hg.heap hb, World.elems, hp]

theorem part_some {q l : List α} {k n : Nat} (h : Spec.part q k n = some l) :
    l.length = n ∧ k + n ≤ q.length ∧ ∀ i, i < n → l[i]? = q[k + i]? := by
  unfold Spec.part at h
  split at h
  · cases h
    refine ⟨by simp; omega, by assumption, fun i hi => ?_⟩
    rw [List.getElem?_take_of_lt hi, List.getElem?_drop]
  · cases h

/-- The source is not overwritten before it is read. -/
theorem during_elems {w : World α} {x k y j : Nat} {p : Arr α} {l : List α} (hp : w.arrays x = some p)
    (hk : k + l.length ≤ p.values.length) (i : Nat) (hi : i < l.length) (ha : x = y → k ≤ j ∨ j + l.length ≤ k) :
    ((during w x k p l i).elems y)[j + i]? = (w.elems y)[j + i]? := by
  by_cases hy : y = x
  · subst hy
    have h1 : (during w y k p l i).elems y = mid p.values k l i := by simp [during, World.elems, Store.Spec.upd]
    have h2 : w.elems y = p.values := by simp [World.elems, hp]
    rw [h1, h2, mid_get p.values k l i _ hk (by omega), if_neg]
    rcases ha rfl with h | h <;> omega
  · have : (during w x k p l i).elems y = w.elems y := by simp [during, World.elems, Store.Spec.upd, hy]
    rw [this]

theorem Rel.look {s : State α} {w : World α} (h : Rel s w) (v : Nat) (see : Option (Nat × Nat)) (u : View)
    (hs : ∀ x k, see = some (x, k) → ∃ o b, s.arrays.objs x = some o ∧ o.vec.buf = some b ∧ u.ptr = some (b, k)) :
    Rel (s.setView v u) (w.look v see u.ext) := by
  refine ⟨h.inv, h.room, ?_, ?_⟩
  · intro z x k hz
    by_cases he : z = v
    · simp only [World.look, if_pos he] at hz
      obtain ⟨o, b, h1, h2, h3⟩ := hs x k hz
      exact ⟨o, b, h1, h2, by simp [State.setView, he, h3]⟩
    · simp only [World.look, if_neg he] at hz
      obtain ⟨o, b, h1, h2, h3⟩ := h.sees z x k hz
      exact ⟨o, b, h1, h2, by simp [State.setView, he, h3]⟩
  · intro z
    by_cases he : z = v
    · simp [State.setView, World.look, he]
    · simp [State.setView, World.look, he, h.shape z]

/-- An array with elements points to its block. -/
theorem Good.pointer {m : Mem α} {o : Obj} {p : Arr α} (hg : Good m o p) (hne : p.values ≠ []) :
    ∃ b, o.vec.buf = some b ∧ o.ptr = some b := by
  have hpos : 0 < p.values.length := List.length_pos_iff.mpr hne
  have := hg.fits
  cases hb : o.vec.buf with
  | none => have := hg.nocap hb; omega
  | some b =>
    rcases hg.ptr with h | ⟨-, h⟩
    · exact ⟨b, rfl, by rw [h, hb]⟩
    · exact absurd h hne

theorem Rel.step {s : State α} {w w' : World α} (h : Rel s w) (l : Indexer.Layout) (op : Op α)
    (hn : Spec.next l w op = some w') : ∃ s', step l s op = some s' ∧ Rel s' w' := by
  cases op with
  | array o => exact h.array l o hn
  | view v x =>
    simp only [Spec.next, Option.map_eq_some_iff] at hn
    obtain ⟨p, hp, rfl⟩ := hn
    cases hx : s.arrays.objs x with
    | none => rw [(h.inv.dom x).mp hx] at hp; cases hp
    | some o =>
      have hg := h.inv.good x o p hx hp
      refine ⟨s.setView v ⟨o.ptr.map fun b => (b, 0), o.ext⟩, by simp [Views.step, hx], ?_⟩
      rw [← hg.ext]
      refine h.look v _ ⟨o.ptr.map fun b => (b, 0), o.ext⟩ ?_
      intro y k hy
      split at hy
      · cases hy
      · next hne =>
        cases hy
        obtain ⟨b, h1, h2⟩ := Good.pointer hg hne
        exact ⟨o, b, hx, h1, by simp [h2]⟩
  | viewAt v x k ext =>
    simp only [Spec.next, Option.bind_eq_some_iff] at hn
    obtain ⟨p, hp, hn⟩ := hn
    split at hn
    · next hk =>
      cases hn
      cases hx : s.arrays.objs x with
      | none => rw [(h.inv.dom x).mp hx] at hp; cases hp
      | some o =>
        have hg := h.inv.good x o p hx hp
        by_cases hne : p.values = []
        · rw [if_pos hne]
          have hk0 : k = 0 := by rw [hne] at hk; simpa using hk
          subst hk0
          cases hptr : o.ptr with
          | none =>
            exact ⟨s.setView v ⟨none, ext⟩, by simp [Views.step, hx, hptr],
              h.look v none ⟨none, ext⟩ (fun _ _ hc => by cases hc)⟩
          | some b =>
            have hb : o.vec.buf = some b := by
              rcases hg.ptr with hq | ⟨hq, -⟩
              · rw [← hq, hptr]
              · rw [hq] at hptr; cases hptr
            exact ⟨s.setView v ⟨some (b, 0), ext⟩, by simp [Views.step, hx, hptr, hg.heap hb],
              h.look v none ⟨some (b, 0), ext⟩ (fun _ _ hc => by cases hc)⟩
        · rw [if_neg hne]
          obtain ⟨b, h1, h2⟩ := Good.pointer hg hne
          refine ⟨s.setView v ⟨some (b, k), ext⟩, by simp [Views.step, hx, h2, hg.heap h1, hk], ?_⟩
          refine h.look v _ ⟨some (b, k), ext⟩ ?_
          intro y j hy
          cases hy
          exact ⟨o, b, hx, h1, rfl⟩
    · cases hn
  | copy v u =>
    simp only [Spec.next, Option.some.injEq] at hn
    subst hn
    refine ⟨_, rfl, ?_⟩
    rw [← h.shape u]
    exact h.look v _ (s.views u) (fun x k hx => h.sees u x k hx)
  | reshape v u ext =>
    simp only [Spec.next, Option.some.injEq] at hn
    subst hn
    exact ⟨_, rfl, h.look v _ ⟨(s.views u).ptr, ext⟩ (fun x k hx => h.sees u x k hx)⟩
  | reset v =>
    simp only [Spec.next, Option.some.injEq] at hn
    subst hn
    exact ⟨_, rfl, h.look v none View.null (fun _ _ hc => by cases hc)⟩
  | put v i a =>
    simp only [Spec.next, Option.bind_eq_some_iff, Option.map_eq_some_iff] at hn
    obtain ⟨⟨x, k⟩, hv, p, hp, q, hq, rfl⟩ := hn
    rw [splice_one] at hq
    split at hq
    · next hlt =>
      cases hq
      obtain ⟨m, h1, h2⟩ := h.write hv hp i a hlt
      exact ⟨s.withMem m, by simp [Views.step, h1], h2⟩
    · cases hq
  | fill v a =>
    simp only [Spec.next] at hn
    obtain ⟨m, h1, h2⟩ := h.assign v _ hn (by simp) (fun _ _ => some a) (by
      intro x k p _ _ _ i hi m _
      simp only [List.length_replicate] at hi
      simp [hi])
    exact ⟨s.withMem m, by simp [Views.step, h1], h2⟩
  | fillList v q =>
    simp only [Spec.next, Option.bind_eq_some_iff] at hn
    obtain ⟨r, hr, hn⟩ := hn
    obtain ⟨p1, p2, p3⟩ := part_some hr
    obtain ⟨m, h1, h2⟩ := h.assign v _ hn p1.symm (fun _ i => q[i]?) (by
      intro x k p _ _ _ i hi m _
      rw [p3 i (by omega), Nat.zero_add])
    exact ⟨s.withMem m, by simp [Views.step, h1], h2⟩
  | fillView v u =>
    simp only [Spec.next] at hn
    split at hn
    · next h0 =>
      cases hn
      have : (s.views v).count = 0 := by rw [View.count, h.shape v, h0]
      exact ⟨s, by simp [Views.step, this, fillLoop, State.withMem], h⟩
    · simp only [Option.bind_eq_some_iff] at hn
      obtain ⟨⟨y, j⟩, hu, hn⟩ := hn
      split at hn
      · next hap =>
        simp only [Option.bind_eq_some_iff] at hn
        obtain ⟨r, hr, hn⟩ := hn
        obtain ⟨p1, p2, p3⟩ := part_some hr
        obtain ⟨m, h1, h2⟩ := h.assign v _ hn p1.symm (fun m i => Views.load m (s.views u) i) (by
          intro x k p hv hp hk i hi m hm
          have := hm.load (v := u) (x := y) (k := j) hu i
          rw [p3 i (by omega)]
          have h3 : Views.load m (s.views u) i = ((during w x k p r i).elems y)[j + i]? := this
          rw [h3, during_elems hp hk i hi]
          intro hxy
          rw [p1]
          exact hap (x, k) hv hxy)
        exact ⟨s.withMem m, by simp [Views.step, h1], h2⟩
      · cases hn
  | fillArray v y =>
    simp only [Spec.next] at hn
    split at hn
    · next h0 =>
      cases hn
      have : (s.views v).count = 0 := by rw [View.count, h.shape v, h0]
      exact ⟨s, by simp [Views.step, this, fillLoop, State.withMem], h⟩
    · split at hn
      · next hap =>
        simp only [Option.bind_eq_some_iff] at hn
        obtain ⟨r, hr, hn⟩ := hn
        obtain ⟨p1, p2, p3⟩ := part_some hr
        obtain ⟨m, h1, h2⟩ := h.assign v _ hn p1.symm
          (fun m i => Store.State.read { s.arrays with mem := m } y i) (by
          intro x k p hv hp hk i hi m hm
          rw [p3 i (by omega)]
          have h3 := read_inv hm.inv y i
          have h4 : Store.State.read { s.arrays with mem := m } y i =
              ((during w x k p r i).elems y)[0 + i]? := by
            refine Eq.trans h3 ?_
            rw [Nat.zero_add]
            unfold World.elems
            cases (during w x k p r i).arrays y <;> simp
          rw [h4, during_elems hp hk i hi]
          intro hxy
          rw [p1]
          exact hap (x, k) hv hxy)
        exact ⟨s.withMem m, by simp [Views.step, h1], h2⟩
      · cases hn

theorem Rel.run (l : Indexer.Layout) : ∀ (ops : List (Op α)) {s : State α} {w w' : World α}, Rel s w →
    Spec.effects l ops w = some w' → ∃ s', run l ops s = some s' ∧ Rel s' w'
  | [], s, w, w', h, hn => ⟨s, rfl, by cases hn; exact h⟩
  | op :: ops, s, w, w', h, hn => by
    simp only [Spec.effects, Option.bind_eq_some_iff] at hn
    obtain ⟨w1, hw1, hn⟩ := hn
    obtain ⟨s1, h1, hr1⟩ := h.step l op hw1
    obtain ⟨s', h2, hr2⟩ := Rel.run l ops hr1 hn
    exact ⟨s', by simp [Views.run, h1, h2], hr2⟩

theorem rel_init : Rel (State.init : State α) World.init :=
  ⟨Store.inv_init, fun x o h => by simp [State.init, Store.State.init] at h, fun v x k h => by simp [World.init] at h,
    fun _ => rfl⟩

/-! ### C133 -/

/-- C133: as long as a program uses views only to see arrays that exist and had room for their elements, it is defined, and
every view shows the elements of its array, wherever that has been moved; what is written through a view is written to the
array and to nothing else. -/
theorem C133 (l : Indexer.Layout) (ops : List (Op α)) {w : World α} (h : Spec.effects l ops World.init = some w) :
    ∃ s, run l ops State.init = some s ∧
      (∀ x i, s.arrays.read x i = (w.elems x)[i]?) ∧
      (∀ x, (s.arrays.objs x).map (fun o => o.ext) = (w.arrays x).map fun p => p.ext) ∧
      (∀ v x k, w.sees v = some (x, k) → ∀ i, s.read v i = (w.elems x)[k + i]?) ∧
      ∀ v, (s.views v).ext = w.shape v := by
  obtain ⟨s, h1, hr⟩ := Rel.run l ops rel_init h
  refine ⟨s, h1, ?_, ?_, fun v x k hv i => hr.load hv i, hr.shape⟩
  · intro x i
    rw [read_inv hr.inv x i]
    unfold World.elems
    cases w.arrays x <;> simp
  · intro x
    cases hx : s.arrays.objs x with
    | none => rw [(hr.inv.dom x).mp hx]; rfl
    | some o =>
      obtain ⟨p, hp, hg⟩ := hr.inv.get hx
      rw [hp, Option.map_some, Option.map_some, hg.ext]

/-- A view of memory that is gone. -/
theorem dead_view {s : State α} {v b k : Nat} (hp : (s.views v).ptr = some (b, k)) (hb : s.arrays.mem.heap b = none)
    (l : Indexer.Layout) (i : Nat) (a : α) : s.read v i = none ∧ step l s (.put v i a) = none := by
  simp [State.read, load, step, save, hp, hb]

/-- C133: when an array is destroyed or another one is moved over it, or it gets more room than it had, its views can no longer
be used: nothing keeps them up to date. -/
theorem C133_gone (l : Indexer.Layout) (ops : List (Op α)) {w : World α} (h : Spec.effects l ops World.init = some w)
    {s : State α} (hs : run l ops State.init = some s) {v x k : Nat} (hv : w.sees v = some (x, k)) (o : Store.Op α)
    (ho : o = .destroy x ∨ (∃ y, o = .moveTo x y) ∨
      ∃ n, o = .reserve x n ∧ ∀ q, s.arrays.objs x = some q → q.vec.cap < n)
    {s' : State α} (hs' : step l s (.array o) = some s') (i : Nat) (a : α) :
    s'.read v i = none ∧ step l s' (.put v i a) = none := by
  obtain ⟨s1, h1, hr⟩ := Rel.run l ops rel_init h
  rw [h1] at hs
  cases hs
  obtain ⟨q, b, hq, hb, hp⟩ := hr.sees v x k hv
  simp only [step, Option.map_eq_some_iff] at hs'
  obtain ⟨t, ht, rfl⟩ := hs'
  refine dead_view (s := { s with arrays := t }) (b := b) (k := k) hp ?_ l i a
  rcases ho with rfl | ⟨y, rfl⟩ | ⟨n, rfl, hn⟩
  · simp only [Store.step, hq, Option.map_some, Option.some.injEq] at ht
    subst ht
    simp [Store.State.set, Mem.free, hb]
  · simp only [Store.step] at ht
    split at ht
    · cases ht
    · simp only [hq, Option.bind_some, Option.map_eq_some_iff] at ht
      obtain ⟨q0, -, rfl⟩ := ht
      simp [Store.State.set, Mem.free, hb]
  · obtain ⟨p, hp', hg⟩ := hr.inv.get hq
    have hlt := hr.inv.fresh b (by rw [hg.heap hb]; simp)
    have hn := hn q hq
    simp only [Store.step, hq, Option.bind_some, hg.elems, Option.map_some, Option.some.injEq] at ht
    subst ht
    have h0 : n ≠ 0 := by omega
    have hnb : b ≠ (s.arrays.mem.free q.vec).next := by rw [Store.free_next]; omega
    simp only [Store.State.set, Mem.reserve, if_neg (Nat.not_le.mpr hn), Mem.alloc, if_neg h0, if_neg hnb]
    simp [Mem.free, hb]

/-- A loop that reaches an element behind the end of the block. -/
theorem loop_outside (src : Mem α → Nat → Option α) (w : View) {b k : Nat} (hp : w.ptr = some (b, k)) (n : Nat) :
    ∀ (m : Mem α) (q : List α) (i : Nat), m.heap b = some q → q.length < k + i + n → k + i ≤ q.length →
      fillLoop src w i n m = none := by
  induction n with
  | zero => intro m q i hb hn hi; omega
  | succ n ih =>
    intro m q i hb hn hi
    unfold fillLoop
    cases src m i with
    | none => rfl
    | some a =>
      by_cases hlt : k + i < q.length
      · have hs : save m w i a =
            some { m with heap := fun c => if c = b then some (q.set (k + i) a) else m.heap c } := by
          simp [save, hp, hb, hlt]
        rw [Option.bind_some, hs, Option.bind_some]
        refine ih _ (q.set (k + i) a) (i + 1) (by simp) ?_ ?_ <;> simp only [List.length_set] <;> omega
      · have hs : save m w i a = none := by simp [save, hp, hb, hlt]
        rw [Option.bind_some, hs]
        rfl

/-- C133: writing behind the last element of the array through a view is undefined, for one element as for filling a view that
is larger than what is left of the array. -/
theorem C133_outside (l : Indexer.Layout) (ops : List (Op α)) {w : World α} (h : Spec.effects l ops World.init = some w)
    {s : State α} (hs : run l ops State.init = some s) {v x k : Nat} (hv : w.sees v = some (x, k)) :
    (∀ i a, (w.elems x).length ≤ k + i → step l s (.put v i a) = none) ∧
    (k ≤ (w.elems x).length → (w.elems x).length < k + Arr.count (w.shape v) →
      (∀ a, step l s (.fill v a) = none) ∧ (∀ q, step l s (.fillList v q) = none) ∧
      (∀ u, step l s (.fillView v u) = none) ∧ ∀ y, step l s (.fillArray v y) = none) := by
  obtain ⟨s1, h1, hr⟩ := Rel.run l ops rel_init h
  rw [h1] at hs
  cases hs
  obtain ⟨q, b, hq, hb, hp⟩ := hr.sees v x k hv
  obtain ⟨p, hp', hg⟩ := hr.inv.get hq
  have hh := hg.heap hb
  have he : w.elems x = p.values := by simp [World.elems, hp']
  rw [he]
  refine ⟨fun i a hi => ?_, fun hk hn => ?_⟩
  · simp [step, save, hp, hh, Nat.not_lt.mpr hi]
  · have hc : (s.views v).count = Arr.count (w.shape v) := by rw [View.count, hr.shape]
    have key : ∀ src, fillLoop src (s.views v) 0 (s.views v).count s.arrays.mem = none := fun src =>
      loop_outside src _ hp _ _ _ 0 hh (by rw [hc]; omega) (by omega)
    refine ⟨fun a => ?_, fun q => ?_, fun u => ?_, fun y => ?_⟩ <;> simp [step, key]

example : (Spec.effects .row [.array (.make 0 [(0, 3)] 7), .viewAt 1 0 1 [(0, 3)]] (World.init : World Nat)).map
    (fun w => (w.sees 1, (w.elems 0).length, Arr.count (w.shape 1))) = some (some (0, 1), 3, 3) := by decide +kernel

/-- C133: writing through a view is seen by the array, by other views of the element, and by nothing else. -/
theorem C133_written (l : Indexer.Layout) (ops : List (Op α)) {w : World α} (h : Spec.effects l ops World.init = some w)
    {s : State α} (hs : run l ops State.init = some s) {v x k : Nat} (hv : w.sees v = some (x, k)) (i : Nat) (a : α)
    (hi : k + i < (w.elems x).length) :
    ∃ s', step l s (.put v i a) = some s' ∧
      (∀ y j, s'.arrays.read y j = if y = x ∧ j = k + i then some a else s.arrays.read y j) ∧
      ∀ u y m, w.sees u = some (y, m) → ∀ j, s'.read u j = if y = x ∧ m + j = k + i then some a else s.read u j := by
  obtain ⟨s1, h1, hr⟩ := Rel.run l ops rel_init h
  rw [h1] at hs
  cases hs
  obtain ⟨p, hp⟩ : ∃ p, w.arrays x = some p := by
    cases hp : w.arrays x with
    | none => simp [World.elems, hp] at hi
    | some p => exact ⟨p, rfl⟩
  have he : w.elems x = p.values := by simp [World.elems, hp]
  rw [he] at hi
  obtain ⟨m', h2, hr2⟩ := hr.write hv hp i a hi
  have hel : ∀ y j, (World.elems { w with arrays := Store.Spec.upd w.arrays x (some ⟨p.values.set (k + i) a, p.ext⟩) } y)[j]? =
      if y = x ∧ j = k + i then some a else (w.elems y)[j]? := by
    intro y j
    by_cases hy : y = x
    · subst hy
      rw [he]
      simp only [World.elems, Store.Spec.upd, if_true, Option.map_some, Option.getD_some, true_and]
      rw [List.getElem?_set]
      by_cases hj : k + i = j
      · subst hj; simp [hi]
      · rw [if_neg hj, if_neg (fun h => hj h.symm)]
    · simp [World.elems, Store.Spec.upd, hy]
  have hread : ∀ {t : State α} {u : World α}, Rel t u → ∀ y j, t.arrays.read y j = (u.elems y)[j]? := by
    intro t u ht y j
    rw [read_inv ht.inv y j]
    unfold World.elems
    cases u.arrays y <;> simp
  refine ⟨s.withMem m', by simp [step, h2], ?_, ?_⟩
  · intro y j
    rw [hread hr2, hread hr, hel y j]
  · intro u y m hu j
    have e1 := hr2.load (v := u) (x := y) (k := m) hu j
    have e2 := hr.load hu j
    rw [State.read, State.read, e1, e2, hel y (m + j)]

/-- An array is moved while a view sees part of it, and grows within the room reserved; the view is filled with another one. -/
example : ((Spec.effects .row [.array (.make 0 [(0, 3)] 7), .array (.reserve 0 5), .viewAt 1 0 1 [(0, 2)], .array (.moveNew 2 0),
    .put 1 0 8, .array (.append 2 9), .array (.destroy 0), .reshape 2 1 [(0, 1)], .array (.make 3 [(0, 2)] 4), .view 3 3, .fillView 2 3,
    .fillList 3 [5, 6]] World.init).map fun w => (w.elems 2, w.elems 3, w.sees 1, w.sees 2)) =
      some ([7, 4, 7, 9], [5, 6], some (2, 1), some (2, 1)) := by decide +kernel

example : ((run .row [.array (.make 0 [(0, 3)] 7), .array (.reserve 0 5), .viewAt 1 0 1 [(0, 2)], .array (.moveNew 2 0),
    .put 1 0 8, .array (.append 2 9), .array (.destroy 0), .reshape 2 1 [(0, 1)], .array (.make 3 [(0, 2)] 4), .view 3 3, .fillView 2 3,
    .fillList 3 [5, 6]] State.init).map fun s => ([0, 1, 2].map fun i => s.read 1 i, s.read 3 1)) =
      some ([some 4, some 7, some 9], some 6) := by decide +kernel

/-- Appending beyond the room of the array ends its views. -/
example : ((run .row [.array (.make 0 [(0, 3)] 7), .view 1 0, .array (.append 0 9)] State.init).map fun s => s.read 1 0) =
    some none := by decide +kernel

/-- C133: filling a view from one that starts before it in the same array does not copy the elements, it repeats the first ones;
this is why nothing is promised then. -/
theorem C133_overlap : ((run .row [.array (.make 0 [(0, 3)] 1), .view 1 0, .fillList 1 [1, 2, 3], .viewAt 2 0 1 [(0, 2)],
    .fillView 2 1] State.init).map fun s => [0, 1, 2].map fun i => s.read 1 i) = some [some 1, some 1, some 1] := by
  decide +kernel

end Ovk.Views
