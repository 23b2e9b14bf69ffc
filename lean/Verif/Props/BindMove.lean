/-
C132: what is bound to a domain stays bound to it wherever the domain and the bound object are moved; events of the
domain reach exactly what is bound to it.
-/
import Verif.Model.BindMove
import Mathlib.Data.List.Nodup
import Mathlib.Data.List.Perm.Basic
import Mathlib.Tactic.ByContra
import Mathlib.Tactic.SplitIfs

namespace Ovk.BindMove

namespace Spec

/-- What a user knows: which domain and which client is at an address (`some none`: one that was moved from), and
which domain a client is bound to.  Domains and clients are numbered in the order of their creation. -/
structure View where
  dom : Nat → Option (Option Nat)
  cli : Nat → Option (Option Nat)
  bound : Nat → Option Nat
  nd : Nat
  nc : Nat

def empty : View := ⟨fun _ => none, fun _ => none, fun _ => none, 0, 0⟩

def put {α : Type} (f : Nat → α) (k : Nat) (v : α) : Nat → α := fun j => if j = k then v else f j

/-- The client that was at an address no longer exists, hence is not bound. -/
def forget (bound : Nat → Option Nat) : Option (Option Nat) → Nat → Option Nat
  | some (some g) => put bound g none
  | _ => bound

def next (v : View) : Op → View
  | .createDomain a => { v with dom := put v.dom a (some (some v.nd)), nd := v.nd + 1 }
  | .moveDomain a b => { v with dom := put (put v.dom b (some none)) a (v.dom b) }
  | .assignDomain a b => { v with dom := put (put v.dom b (some none)) a (v.dom b) }
  | .destroyDomain a => { v with dom := put v.dom a none }
  | .createClient x => { v with cli := put v.cli x (some (some v.nc)), nc := v.nc + 1 }
  | .moveClient x y => { v with cli := put (put v.cli y (some none)) x (v.cli y) }
  | .assignClient x y => { v with cli := put (put v.cli y (some none)) x (v.cli y), bound := forget v.bound (v.cli x) }
  | .destroyClient x => { v with cli := put v.cli x none, bound := forget v.bound (v.cli x) }
  | .bind x a =>
    match v.cli x, v.dom a with
    | some (some g), some (some i) => { v with bound := put v.bound g (some i) }
    | _, _ => v
  | .unbind x => { v with bound := forget v.bound (v.cli x) }
  | .use _ => v
  | .trigger _ => v

/-- There is a domain or client that was not moved from. -/
def Alive (o : Option (Option Nat)) : Prop := (o.bind id).isSome

instance (o : Option (Option Nat)) : Decidable (Alive o) := inferInstanceAs (Decidable (_ = true))

/-- The client at `x` is bound. -/
def Bound (v : View) (x : Nat) : Prop := (((v.cli x).bind id).bind v.bound).isSome

instance (v : View) (x : Nat) : Decidable (Bound v x) := inferInstanceAs (Decidable (_ = true))

/-- What C++ and the assertions in the code demand: objects are made where there is none, objects that are used exist
and were not moved from, and only what is not bound is bound and only what is bound is unbound. -/
def Accepted (v : View) : Op → Prop
  | .createDomain a => v.dom a = none
  | .moveDomain a b => v.dom a = none ∧ Alive (v.dom b)
  | .assignDomain a b => a ≠ b ∧ v.dom a ≠ none ∧ Alive (v.dom b)
  | .destroyDomain a => v.dom a ≠ none
  | .createClient x => v.cli x = none
  | .moveClient x y => v.cli x = none ∧ Alive (v.cli y)
  | .assignClient x y => x ≠ y ∧ v.cli x ≠ none ∧ Alive (v.cli y)
  | .destroyClient x => v.cli x ≠ none
  | .bind x a => Alive (v.cli x) ∧ ¬ Bound v x ∧ Alive (v.dom a)
  | .unbind x => Bound v x
  | .use x => Bound v x
  | .trigger a => Alive (v.dom a)

instance (v : View) (o : Op) : Decidable (Accepted v o) := by
  cases o <;> unfold Accepted <;> infer_instance

/-- Nothing is bound to the domain at `a`. -/
def Free (v : View) (a : Nat) : Prop := ∀ g < v.nc, v.bound g = none ∨ v.dom a ≠ some (v.bound g)

instance (v : View) (a : Nat) : Decidable (Free v a) := inferInstanceAs (Decidable (∀ _ < _, _))

/-- A domain ends only when nothing is bound to it. -/
def Keeps (v : View) : Op → Prop
  | .assignDomain a _ => Free v a
  | .destroyDomain a => Free v a
  | _ => True

instance (v : View) (o : Op) : Decidable (Keeps v o) := by
  cases o <;> unfold Keeps <;> infer_instance

/-- All operations of a program satisfy `P`. -/
def Follows (P : View → Op → Prop) : View → List Op → Prop
  | _, [] => True
  | v, o :: os => P v o ∧ Follows P (next v o) os

def decFollows (P : View → Op → Prop) [∀ v o, Decidable (P v o)] : ∀ v ops, Decidable (Follows P v ops)
  | _, [] => isTrue trivial
  | v, o :: os =>
    have := decFollows P (next v o) os
    inferInstanceAs (Decidable (P v o ∧ _))

instance (P : View → Op → Prop) [∀ v o, Decidable (P v o)] (v : View) (ops : List Op) : Decidable (Follows P v ops) :=
  decFollows P v ops

def Ok (v : View) (o : Op) : Prop := Accepted v o ∧ Keeps v o

instance (v : View) (o : Op) : Decidable (Ok v o) := inferInstanceAs (Decidable (_ ∧ _))

def after (ops : List Op) : View := ops.foldl next empty

end Spec

open Spec

/-! ### the list of listeners -/

def Sorted (l : List (Nat × Nat)) : Prop := l.Pairwise fun a b => a.1 < b.1

theorem insertNew_spec (g : Nat) (l : List (Nat × Nat)) : ∀ k : Nat, Sorted l → (∀ e ∈ l, k ≤ e.1) →
    k ≤ (insertNew g k l).1 ∧ (∀ e ∈ l, e.1 ≠ (insertNew g k l).1) ∧
      (∀ e, e ∈ (insertNew g k l).2 ↔ e = ((insertNew g k l).1, g) ∨ e ∈ l) ∧ Sorted (insertNew g k l).2 := by
  induction l with
  | nil => intro k _ _; simp [insertNew, Sorted]
  | cons e es ih =>
    obtain ⟨j, c⟩ := e
    intro k hs hk
    have hs' := hs
    unfold Sorted at hs'
    rw [List.pairwise_cons] at hs'
    obtain ⟨h1, h2⟩ := hs'
    unfold insertNew
    split_ifs with hj
    · subst hj
      obtain ⟨i1, i2, i3, i4⟩ := ih (j + 1) h2 (fun e he => h1 e he)
      refine ⟨by dsimp only; omega, ?_, ?_, ?_⟩
      · intro e he
        rcases List.mem_cons.1 he with rfl | he
        · dsimp only; omega
        · exact i2 e he
      · intro e
        simp only [List.mem_cons, i3]
        tauto
      · refine List.pairwise_cons.2 ⟨fun e he => ?_, i4⟩
        rcases (i3 e).1 he with rfl | he
        · dsimp only; omega
        · exact h1 e he
    · have hj' : k < j := by have := hk (j, c) (by simp); dsimp only at this; omega
      refine ⟨Nat.le_refl _, ?_, by simp, ?_⟩
      · intro e he
        rcases List.mem_cons.1 he with rfl | he
        · dsimp only; omega
        · have := h1 e he; dsimp only at *; omega
      · refine List.pairwise_cons.2 ⟨fun e he => ?_, hs⟩
        rcases List.mem_cons.1 he with rfl | he
        · exact hj'
        · have := h1 e he; dsimp only at *; omega

/-! ### the invariant -/

/-- The domain that a user sees as `o`. -/
def domRec (L : Nat → List (Nat × Nat)) (o : Option Nat) : Domain := ⟨o, o, (o.map L).getD []⟩

/-- The client that a user sees as `o`. -/
def cliRec (v : View) (h : Nat → Nat) (o : Option Nat) : Client :=
  ⟨o, o.bind v.bound, (o.bind v.bound).map fun i => ⟨(o.map h).getD 0, i⟩⟩

/-- `L` are the listeners of each domain, `h` the IDs of the listeners of each client. -/
structure Rel (s : State) (v : View) (L : Nat → List (Nat × Nat)) (h : Nat → Nat) : Prop where
  doms : ∀ a, s.doms a = (v.dom a).map (domRec L)
  clis : ∀ x, s.clis x = (v.cli x).map (cliRec v h)
  dcell : ∀ a i, v.dom a = some (some i) → s.dcell.cell i = some a ∧ s.ecell.cell i = some a ∧ i < v.nd
  ccell : ∀ x g, v.cli x = some (some g) → s.ccell.cell g = some x ∧ g < v.nc
  dnext : s.dcell.next = v.nd
  enext : s.ecell.next = v.nd
  cnext : s.ccell.next = v.nc
  mem : ∀ i id g, (id, g) ∈ L i ↔ v.bound g = some i ∧ id = h g
  sorted : ∀ i, Sorted (L i)
  bcli : ∀ g i, v.bound g = some i → ∃ x, v.cli x = some (some g)
  bdom : ∀ g i, v.bound g = some i → ∃ a, v.dom a = some (some i)

theorem rel_initial : Rel initial empty (fun _ => []) fun _ => 0 := by
  constructor <;> simp [initial, empty, Sorted]

theorem alive_iff (o : Option (Option Nat)) : Alive o ↔ ∃ i, o = some (some i) := by
  rcases o with _ | _ | i <;> simp [Alive]

theorem bound_iff (v : View) (x : Nat) :
    Bound v x ↔ ∃ g i, v.cli x = some (some g) ∧ v.bound g = some i := by
  unfold Bound
  rcases v.cli x with _ | _ | g
  · simp
  · simp
  · simp [Option.isSome_iff_exists]

section
variable {s : State} {v : View} {L : Nat → List (Nat × Nat)} {h : Nat → Nat}

theorem Rel.free (R : Rel s v L h) {a i : Nat} (ha : v.dom a = some (some i)) (hf : Free v a) (g : Nat) :
    v.bound g ≠ some i := by
  intro hb
  obtain ⟨x, hx⟩ := R.bcli g i hb
  rcases hf g (R.ccell x g hx).2 with h | h
  · rw [hb] at h; exact absurd h (by simp)
  · rw [hb] at h; exact h ha

theorem Rel.createDomain (R : Rel s v L h) {a : Nat} (ha : v.dom a = none) :
    ∃ s', BindMove.createDomain s a = some s' ∧ Rel s' (next v (.createDomain a)) (put L v.nd []) h := by
  have e : s.doms a = none := by rw [R.doms, ha]; rfl
  have hold : ∀ a' i, v.dom a' = some (some i) → i ≠ v.nd := fun a' i hi => by
    have := (R.dcell a' i hi).2.2; omega
  have hbn : ∀ g, v.bound g ≠ some v.nd := fun g hg => by
    obtain ⟨a', ha'⟩ := R.bdom g _ hg
    exact hold a' _ ha' rfl
  unfold BindMove.createDomain
  rw [e]
  refine ⟨_, rfl, ?_⟩
  constructor
  · intro b
    simp only [next, put, Function.update_apply]
    split_ifs with hb
    · simp [domRec, R.dnext, R.enext, put]
    · rw [R.doms b]
      rcases hv : v.dom b with _ | _ | i
      · rfl
      · rfl
      · simp [domRec, put, hold b i hv]
  · exact R.clis
  · intro b i hi
    simp only [next, put] at hi ⊢
    simp only [Heap.alloc, Function.update_apply, R.dnext, R.enext]
    split_ifs at hi with hb
    · simp only [Option.some.injEq] at hi
      subst hi
      simp [hb]
    · have := R.dcell b i hi
      rw [if_neg (hold b i hi), if_neg (hold b i hi)]
      exact ⟨this.1, this.2.1, by omega⟩
  · exact R.ccell
  · simp [Heap.alloc, next, R.dnext]
  · simp [Heap.alloc, next, R.enext]
  · exact R.cnext
  · intro i id g
    simp only [put]
    split_ifs with hi
    · subst hi; simp [next, hbn g]
    · exact R.mem i id g
  · intro i
    simp only [put]
    split_ifs with hi
    · exact List.Pairwise.nil
    · exact R.sorted i
  · exact R.bcli
  · intro g i hg
    obtain ⟨b, hb⟩ := R.bdom g i hg
    refine ⟨b, ?_⟩
    have : b ≠ a := by rintro rfl; rw [ha] at hb; exact absurd hb (by simp)
    simp [next, put, this, hb]

/-- Moving the domain `i` from `b` to `a`, with heaps in which its cells say so. -/
theorem Rel.placed (R : Rel s v L h) {a b i : Nat} (hab : a ≠ b) (hb : v.dom b = some (some i))
    (hf : ∀ g j, v.bound g = some j → v.dom a ≠ some (some j)) {dc ec : Heap}
    (hd : dc.next = s.dcell.next) (he : ec.next = s.ecell.next) (hdi : dc.cell i = some a) (hei : ec.cell i = some a)
    (hdo : ∀ j, j ≠ i → v.dom a ≠ some (some j) → dc.cell j = s.dcell.cell j)
    (heo : ∀ j, j ≠ i → v.dom a ≠ some (some j) → ec.cell j = s.ecell.cell j) :
    Rel { s with doms := Function.update (Function.update s.doms b (some ⟨none, none, []⟩)) a (some (domRec L (some i))), dcell := dc, ecell := ec }
      { v with dom := put (put v.dom b (some none)) a (v.dom b) } L h := by
  have uniq : ∀ a' a'' j, v.dom a' = some (some j) → v.dom a'' = some (some j) → a' = a'' := fun a' a'' j h1 h2 => by
    have e1 := (R.dcell a' j h1).1
    rw [(R.dcell a'' j h2).1] at e1
    exact (Option.some.inj e1).symm
  constructor
  · intro c
    simp only [put, Function.update_apply]
    split_ifs with h1 h2
    · rw [hb]; rfl
    · rfl
    · exact R.doms c
  · exact R.clis
  · intro c j hj
    simp only [put] at hj
    split_ifs at hj with h1 h2
    · rw [hb] at hj
      simp only [Option.some.injEq] at hj
      subst hj; subst h1
      exact ⟨hdi, hei, (R.dcell b _ hb).2.2⟩
    · exact absurd hj (by simp)
    · have n1 : j ≠ i := by rintro rfl; exact h2 (uniq c b _ hj hb)
      have n2 : v.dom a ≠ some (some j) := fun ha => h1 (uniq c a j hj ha)
      have := R.dcell c j hj
      exact ⟨(hdo j n1 n2).trans this.1, (heo j n1 n2).trans this.2.1, this.2.2⟩
  · exact R.ccell
  · exact hd.trans R.dnext
  · exact he.trans R.enext
  · exact R.cnext
  · exact R.mem
  · exact R.sorted
  · exact R.bcli
  · intro g j hg
    obtain ⟨c, hc⟩ := R.bdom g j hg
    by_cases hcb : c = b
    · subst hcb
      exact ⟨a, by simp [put, hc]⟩
    · have : c ≠ a := by rintro rfl; exact hf g j hg hc
      exact ⟨c, by simp [put, this, hcb, hc]⟩

theorem Heap.store_of {H : Heap} {c a v : Nat} (hc : H.cell c = some v) :
    H.store a (some c) = some { H with cell := Function.update H.cell c (some a) } := by
  simp [Heap.store, hc]

theorem Rel.moveDomain (R : Rel s v L h) {a b : Nat} (ha : v.dom a = none) (hb : Alive (v.dom b)) :
    ∃ s', BindMove.moveDomain s a b = some s' ∧ Rel s' (next v (.moveDomain a b)) L h := by
  obtain ⟨i, hb⟩ := (alive_iff _).1 hb
  have ea : s.doms a = none := by rw [R.doms, ha]; rfl
  have eb : s.doms b = some (domRec L (some i)) := by rw [R.doms, hb]; rfl
  have hab : a ≠ b := by rintro rfl; rw [ha] at hb; exact absurd hb (by simp)
  unfold BindMove.moveDomain
  rw [ea, eb]
  dsimp only [domRec]
  rw [Heap.store_of (R.dcell b i hb).1, Heap.store_of (R.dcell b i hb).2.1]
  refine ⟨_, rfl, ?_⟩
  refine R.placed hab hb (by simp [ha]) rfl rfl (by simp) (by simp) ?_ ?_
  · intro j hj _; simp [hj]
  · intro j hj _; simp [hj]

theorem Rel.assignDomain (R : Rel s v L h) {a b : Nat} (hab : a ≠ b) (ha : v.dom a ≠ none) (hb : Alive (v.dom b))
    (hf : Free v a) :
    ∃ s', BindMove.assignDomain s a b = some s' ∧ Rel s' (next v (.assignDomain a b)) L h := by
  obtain ⟨i, hb⟩ := (alive_iff _).1 hb
  have eb : s.doms b = some (domRec L (some i)) := by rw [R.doms, hb]; rfl
  obtain ⟨o, ho⟩ := Option.ne_none_iff_exists'.1 ha
  have ea : s.doms a = some (domRec L o) := by rw [R.doms, ho]; rfl
  have hoi : o ≠ some i := by
    rintro rfl
    have e1 := (R.dcell a i ho).1
    rw [(R.dcell b i hb).1] at e1
    exact hab (Option.some.inj e1).symm
  have key : ∀ H : Heap, H.cell i = some b → ∃ H', (H.free o).store a (some i) = some H' ∧ H'.next = H.next ∧
      H'.cell i = some a ∧ ∀ j, j ≠ i → v.dom a ≠ some (some j) → H'.cell j = H.cell j := by
    intro H hH
    have e : (H.free o).cell i = some b := by
      cases o with
      | none => exact hH
      | some k =>
        have : i ≠ k := by rintro rfl; exact hoi rfl
        simp [Heap.free, this, hH]
    refine ⟨_, Heap.store_of e, ?_, by simp, ?_⟩
    · cases o <;> rfl
    · intro j hj hja
      cases o with
      | none => simp [Heap.free, hj]
      | some k =>
        have : j ≠ k := by rintro rfl; exact hja ho
        simp [Heap.free, hj, this]
  obtain ⟨dc, e1, d1, d2, d3⟩ := key s.dcell (R.dcell b i hb).1
  obtain ⟨ec, e2, f1, f2, f3⟩ := key s.ecell (R.dcell b i hb).2.1
  unfold BindMove.assignDomain
  rw [ea, eb]
  dsimp only [domRec]
  rw [if_neg hab, e1, e2]
  refine ⟨_, rfl, ?_⟩
  refine R.placed hab hb (fun g j hg hj => R.free hj hf g hg) d1 f1 d2 f2 d3 f3

theorem Rel.destroyDomain (R : Rel s v L h) {a : Nat} (ha : v.dom a ≠ none) (hf : Free v a) :
    ∃ s', BindMove.destroyDomain s a = some s' ∧ Rel s' (next v (.destroyDomain a)) L h := by
  obtain ⟨o, ho⟩ := Option.ne_none_iff_exists'.1 ha
  have ea : s.doms a = some (domRec L o) := by rw [R.doms, ho]; rfl
  unfold BindMove.destroyDomain
  rw [ea]
  refine ⟨_, rfl, ?_⟩
  constructor
  · intro c
    simp only [next, put, Function.update_apply]
    split_ifs with h1
    · rfl
    · exact R.doms c
  · exact R.clis
  · intro c j hj
    simp only [next, put] at hj ⊢
    split_ifs at hj with h1
    have := R.dcell c j hj
    have key : ∀ H : Heap, H.cell j = some c → (H.free o).cell j = some c := by
      intro H hH
      cases o with
      | none => exact hH
      | some k =>
        have : j ≠ k := by
          rintro rfl
          have e1 := (R.dcell a j ho).1
          rw [this.1] at e1
          exact h1 (Option.some.inj e1)
        simp [Heap.free, this, hH]
    exact ⟨key _ this.1, key _ this.2.1, this.2.2⟩
  · exact R.ccell
  · exact (by cases o <;> rfl : (s.dcell.free o).next = s.dcell.next).trans R.dnext
  · exact (by cases o <;> rfl : (s.ecell.free o).next = s.ecell.next).trans R.enext
  · exact R.cnext
  · exact R.mem
  · exact R.sorted
  · exact R.bcli
  · intro g j hg
    obtain ⟨c, hc⟩ := R.bdom g j hg
    have : c ≠ a := by rintro rfl; exact R.free hc hf g hg
    exact ⟨c, by simp [next, put, this, hc]⟩

theorem Rel.createClient (R : Rel s v L h) {x : Nat} (hx : v.cli x = none) :
    ∃ s', BindMove.createClient s x = some s' ∧ Rel s' (next v (.createClient x)) L h := by
  have e : s.clis x = none := by rw [R.clis, hx]; rfl
  have hbn : v.bound v.nc = none := by
    by_contra hb
    obtain ⟨i, hi⟩ := Option.ne_none_iff_exists'.1 hb
    obtain ⟨y, hy⟩ := R.bcli _ _ hi
    have := (R.ccell y _ hy).2
    omega
  unfold BindMove.createClient
  rw [e]
  refine ⟨_, rfl, ?_⟩
  constructor
  · exact R.doms
  · intro y
    simp only [next, put, Function.update_apply]
    split_ifs with hy
    · simp [cliRec, R.cnext, hbn]
    · exact R.clis y
  · exact R.dcell
  · intro y g hg
    simp only [next, put] at hg ⊢
    simp only [Heap.alloc, Function.update_apply, R.cnext]
    split_ifs at hg with hy
    · simp only [Option.some.injEq] at hg
      subst hg
      simp [hy]
    · have := R.ccell y g hg
      rw [if_neg (by omega)]
      exact ⟨this.1, by omega⟩
  · exact R.dnext
  · exact R.enext
  · simp [Heap.alloc, next, R.cnext]
  · exact R.mem
  · exact R.sorted
  · intro g i hg
    obtain ⟨y, hy⟩ := R.bcli g i hg
    have : y ≠ x := by rintro rfl; rw [hx] at hy; exact absurd hy (by simp)
    exact ⟨y, by simp [next, put, this, hy]⟩
  · exact R.bdom

theorem Rel.moveClient (R : Rel s v L h) {x y : Nat} (hx : v.cli x = none) (hy : Alive (v.cli y)) :
    ∃ s', BindMove.moveClient s x y = some s' ∧ Rel s' (next v (.moveClient x y)) L h := by
  obtain ⟨g, hy⟩ := (alive_iff _).1 hy
  have ex : s.clis x = none := by rw [R.clis, hx]; rfl
  have ey : s.clis y = some (cliRec v h (some g)) := by rw [R.clis, hy]; rfl
  unfold BindMove.moveClient
  rw [ex, ey]
  dsimp only [cliRec]
  rw [Heap.store_of (R.ccell y g hy).1]
  refine ⟨_, rfl, ?_⟩
  constructor
  · exact R.doms
  · intro z
    simp only [next, put, Function.update_apply]
    split_ifs with h1 h2
    · rw [hy]; rfl
    · rfl
    · exact R.clis z
  · exact R.dcell
  · intro z k hk
    simp only [next, put] at hk ⊢
    simp only [Function.update_apply]
    split_ifs at hk with h1 h2
    · rw [hy] at hk
      simp only [Option.some.injEq] at hk
      subst hk
      exact ⟨by simp [h1], (R.ccell y _ hy).2⟩
    · exact absurd hk (by simp)
    · have := R.ccell z k hk
      have hkg : k ≠ g := by
        rintro rfl
        have e1 := (R.ccell y _ hy).1
        rw [this.1] at e1
        exact h2 (Option.some.inj e1)
      rw [if_neg hkg]
      exact this
  · exact R.dnext
  · exact R.enext
  · exact R.cnext
  · exact R.mem
  · exact R.sorted
  · intro k i hk
    obtain ⟨z, hz⟩ := R.bcli k i hk
    by_cases hzy : z = y
    · subst hzy
      exact ⟨x, by simp [next, put, hz]⟩
    · have : z ≠ x := by rintro rfl; rw [hx] at hz; exact absurd hz (by simp)
      exact ⟨z, by simp [next, put, this, hzy, hz]⟩
  · exact R.bdom

/-- The listeners when client `g` is no longer bound. -/
def dropFrom (L : Nat → List (Nat × Nat)) (h : Nat → Nat) (bound : Nat → Option Nat) (g : Nat) : Nat → List (Nat × Nat) :=
  fun i => if bound g = some i then (L i).filter fun e => e.1 != h g else L i

theorem sorted_inj (l : List (Nat × Nat)) (hs : Sorted l) {a b : Nat × Nat} (ha : a ∈ l) (hb : b ∈ l)
    (hab : a.1 = b.1) : a = b := by
  induction l with
  | nil => exact absurd ha (by simp)
  | cons e es ih =>
    have hs' := hs
    unfold Sorted at hs'
    rw [List.pairwise_cons] at hs'
    rcases List.mem_cons.1 ha with rfl | ha1 <;> rcases List.mem_cons.1 hb with rfl | hb1
    · rfl
    · have := hs'.1 b hb1; omega
    · have := hs'.1 a ha1; omega
    · exact ih hs'.2 ha1 hb1

theorem dropFrom_mem (R : Rel s v L h) (g i id k : Nat) :
    (id, k) ∈ dropFrom L h v.bound g i ↔ put v.bound g none k = some i ∧ id = h k := by
  unfold dropFrom put
  have inj : v.bound g = some i → v.bound k = some i → h k = h g → k = g := by
    intro h1 h2 h3
    have m1 := (R.mem i (h g) g).2 ⟨h1, rfl⟩
    have m2 := (R.mem i (h k) k).2 ⟨h2, rfl⟩
    by_contra hne
    exact hne (Prod.mk.inj (sorted_inj _ (R.sorted i) m1 m2 h3.symm)).2.symm
  split_ifs with h1 h2 h2
  · subst h2
    simp [R.mem]
  · simp only [List.mem_filter, R.mem, bne_iff_ne, ne_eq]
    constructor
    · exact fun h => h.1
    · rintro ⟨h3, rfl⟩
      exact ⟨⟨h3, rfl⟩, fun h4 => h2 (inj h1 h3 h4)⟩
  · subst h2
    simp [R.mem, h1]
  · exact R.mem i id k

theorem dropFrom_sorted (R : Rel s v L h) (g i : Nat) : Sorted (dropFrom L h v.bound g i) := by
  unfold dropFrom
  split_ifs
  · exact (R.sorted i).filter _
  · exact R.sorted i

/-- `Reset` of the handle of client `g`. -/
theorem Rel.reset (R : Rel s v L h) (g : Nat) {t : State} (e1 : t.doms = s.doms) (e2 : t.ecell = s.ecell) :
    ∃ t', BindMove.reset t ((v.bound g).map fun i => ⟨h g, i⟩) = some t' ∧ t'.clis = t.clis ∧ t'.dcell = t.dcell ∧
      t'.ecell = t.ecell ∧ t'.ccell = t.ccell ∧
      ∀ a, t'.doms a = (v.dom a).map (domRec (dropFrom L h v.bound g)) := by
  cases hb : v.bound g with
  | none =>
    refine ⟨t, rfl, rfl, rfl, rfl, rfl, fun a => ?_⟩
    rw [e1, R.doms]
    have : dropFrom L h v.bound g = L := by funext i; simp [dropFrom, hb]
    rw [this]
  | some i =>
    obtain ⟨a, ha⟩ := R.bdom g i hb
    have ea : s.doms a = some (domRec L (some i)) := by rw [R.doms, ha]; rfl
    simp only [Option.map_some, BindMove.reset]
    rw [e2, (R.dcell a i ha).2.1, Option.bind_some, e1, ea]
    refine ⟨_, rfl, rfl, rfl, rfl, rfl, fun c => ?_⟩
    simp only [Function.update_apply]
    split_ifs with hc
    · subst hc
      rw [ha]
      simp [domRec, dropFrom, hb]
    · rw [R.doms c]
      rcases hv : v.dom c with _ | _ | j
      · rfl
      · rfl
      · have : i ≠ j := by
          rintro rfl
          have e1 := (R.dcell a i ha).1
          rw [(R.dcell c i hv).1] at e1
          exact hc (Option.some.inj e1)
        simp [domRec, dropFrom, hb, this]

/-- Client `g` stops being bound. -/
theorem Rel.dropped (R : Rel s v L h) (g : Nat) {t : State} {cli : Nat → Option (Option Nat)}
    (hd : ∀ a, t.doms a = (v.dom a).map (domRec (dropFrom L h v.bound g)))
    (hc : ∀ x, t.clis x = (cli x).map (cliRec { v with bound := put v.bound g none } h))
    (e1 : t.dcell = s.dcell) (e2 : t.ecell = s.ecell) (e3 : t.ccell.next = s.ccell.next)
    (hcc : ∀ x k, cli x = some (some k) → t.ccell.cell k = some x ∧ k < v.nc)
    (hb : ∀ k i, k ≠ g → v.bound k = some i → ∃ x, cli x = some (some k)) :
    Rel t { v with cli := cli, bound := put v.bound g none } (dropFrom L h v.bound g) h := by
  constructor
  · exact hd
  · exact hc
  · rw [e1, e2]; exact R.dcell
  · exact hcc
  · rw [e1]; exact R.dnext
  · rw [e2]; exact R.enext
  · exact e3.trans R.cnext
  · exact fun i id k => dropFrom_mem R g i id k
  · exact dropFrom_sorted R g
  · intro k i hk
    simp only [put] at hk
    split_ifs at hk with h1
    exact hb k i h1 hk
  · intro k i hk
    simp only [put] at hk
    split_ifs at hk with h1
    exact R.bdom k i hk

/-- Only client `g` sees that it is no longer bound. -/
theorem cliRec_other (v : View) (h : Nat → Nat) (g : Nat) {o : Option Nat} (ho : o ≠ some g) :
    cliRec { v with bound := put v.bound g none } h o = cliRec v h o := by
  cases o with
  | none => rfl
  | some k =>
    have : k ≠ g := by rintro rfl; exact ho rfl
    simp [cliRec, put, this]

theorem Rel.cli_uniq (R : Rel s v L h) {x y g : Nat} (hx : v.cli x = some (some g)) (hy : v.cli y = some (some g)) :
    x = y := by
  have e1 := (R.ccell x g hx).1
  rw [(R.ccell y g hy).1] at e1
  exact (Option.some.inj e1).symm

theorem Rel.clis_other (R : Rel s v L h) {x g : Nat} (hx : v.cli x = some (some g)) {z : Nat} (hz : z ≠ x) :
    s.clis z = (v.cli z).map (cliRec { v with bound := put v.bound g none } h) := by
  rw [R.clis z]
  rcases hv : v.cli z with _ | o
  · rfl
  · rw [Option.map_some, Option.map_some, cliRec_other]
    rintro rfl
    exact hz (R.cli_uniq hv hx)

theorem Rel.domainOf (R : Rel s v L h) {x g i a : Nat} (hx : v.cli x = some (some g)) (hb : v.bound g = some i)
    (ha : v.dom a = some (some i)) : BindMove.domainOf s x = some a := by
  unfold BindMove.domainOf
  rw [R.clis, hx]
  simp [cliRec, hb, (R.dcell a i ha).1]

theorem Rel.unbind (R : Rel s v L h) {x : Nat} (hx : Bound v x) :
    ∃ s' L', BindMove.unbind s x = some s' ∧ Rel s' (next v (.unbind x)) L' h ∧ s'.ccell = s.ccell := by
  obtain ⟨g, i, hx, hb⟩ := (bound_iff _ _).1 hx
  obtain ⟨a, ha⟩ := R.bdom g i hb
  have ea : s.doms a = some (domRec L (some i)) := by rw [R.doms, ha]; rfl
  unfold BindMove.unbind
  rw [R.domainOf hx hb ha, R.clis, hx]
  simp only [Option.map_some, Option.bind_some, ea]
  obtain ⟨t', e, c1, c2, c3, c4, hd⟩ :=
    R.reset g (t := { s with clis := Function.update s.clis x (some ⟨(cliRec v h (some g)).gen, none, none⟩) }) rfl rfl
  refine ⟨t', dropFrom L h v.bound g, ?_, ?_, c4⟩
  · exact e
  have hv : next v (.unbind x) = { v with cli := v.cli, bound := put v.bound g none } := by
    simp [next, forget, hx]
  rw [hv]
  refine R.dropped g hd ?_ c2 c3 (by rw [c4]) (by rw [c4]; exact R.ccell) (fun k j _ hk => R.bcli k j hk)
  intro z
  rw [c1]
  simp only [Function.update_apply]
  split_ifs with hz
  · subst hz
    rw [hx]
    simp [cliRec, put]
  · exact R.clis_other hx hz

/-- A client that is not bound ends. -/
theorem Rel.destroyFree (R : Rel s v L h) {x : Nat} {o : Option Nat} (ho : v.cli x = some o)
    (hb : ∀ g, o = some g → v.bound g = none) :
    Rel { s with clis := Function.update s.clis x none, ccell := s.ccell.free o } { v with cli := put v.cli x none } L h := by
  constructor
  · exact R.doms
  · intro z
    simp only [put, Function.update_apply]
    split_ifs with hz
    · rfl
    · exact R.clis z
  · exact R.dcell
  · intro z k hk
    simp only [put] at hk
    split_ifs at hk with hz
    have := R.ccell z k hk
    refine ⟨?_, this.2⟩
    cases o with
    | none => exact this.1
    | some g =>
      have hkg : k ≠ g := by rintro rfl; exact hz (R.cli_uniq hk ho)
      simp [Heap.free, hkg, this.1]
  · exact R.dnext
  · exact R.enext
  · exact (by cases o <;> rfl : (s.ccell.free o).next = s.ccell.next).trans R.cnext
  · exact R.mem
  · exact R.sorted
  · intro k i hk
    obtain ⟨z, hz⟩ := R.bcli k i hk
    have : z ≠ x := by
      rintro rfl
      rw [ho] at hz
      rw [hb k (Option.some.inj hz)] at hk
      exact absurd hk (by simp)
    exact ⟨z, by simp [put, this, hz]⟩
  · exact R.bdom

theorem put_self {α : Type} (f : Nat → α) (k : Nat) : put f k (f k) = f := by
  funext j
  simp only [put]
  split_ifs with h
  · rw [h]
  · rfl

theorem Rel.destroyClient (R : Rel s v L h) {x : Nat} (hx : v.cli x ≠ none) :
    ∃ s' L', BindMove.destroyClient s x = some s' ∧ Rel s' (next v (.destroyClient x)) L' h := by
  obtain ⟨o, ho⟩ := Option.ne_none_iff_exists'.1 hx
  by_cases hb : Bound v x
  · obtain ⟨g, i, hg, hi⟩ := (bound_iff _ _).1 hb
    obtain ⟨s1, L1, e, R1, c⟩ := R.unbind hb
    have hv : next v (.unbind x) = { v with bound := put v.bound g none } := by simp [next, forget, hg]
    rw [hv] at R1
    have := R1.destroyFree (x := x) (o := some g) hg (by intro k hk; cases hk; simp [put])
    refine ⟨{ s1 with clis := Function.update s1.clis x none, ccell := s1.ccell.free (some g) }, L1, ?_, ?_⟩
    rotate_left
    · have hv' : next v (.destroyClient x) = { v with cli := put v.cli x none, bound := put v.bound g none } := by
        simp [next, forget, hg]
      rw [hv']
      exact this
    · unfold BindMove.destroyClient
      rw [R.clis, hg]
      simp [cliRec, hi, e]
  · have hn : ∀ g, o = some g → v.bound g = none := by
      rintro g rfl
      by_contra hi
      obtain ⟨i, hi⟩ := Option.ne_none_iff_exists'.1 hi
      exact hb ((bound_iff _ _).2 ⟨g, i, ho, hi⟩)
    refine ⟨{ s with clis := Function.update s.clis x none, ccell := s.ccell.free o }, L, ?_, ?_⟩
    rotate_left
    · have hv' : next v (.destroyClient x) = { v with cli := put v.cli x none } := by
        cases o with
        | none => simp [next, forget, ho]
        | some g =>
          simp only [next, forget, ho]
          congr 1
          have := put_self v.bound g
          rw [hn g rfl] at this
          exact this
      rw [hv']
      exact R.destroyFree ho hn
    · unfold BindMove.destroyClient
      rw [R.clis, ho]
      have : o.bind v.bound = none := by
        cases o with
        | none => rfl
        | some g => exact hn g rfl
      simp [cliRec, this]

theorem Rel.assignClient (R : Rel s v L h) {x y : Nat} (hxy : x ≠ y) (hx : v.cli x ≠ none) (hy : Alive (v.cli y)) :
    ∃ s' L', BindMove.assignClient s x y = some s' ∧ Rel s' (next v (.assignClient x y)) L' h := by
  obtain ⟨o, ho⟩ := Option.ne_none_iff_exists'.1 hx
  obtain ⟨k, hk⟩ := (alive_iff _).1 hy
  have hok : o ≠ some k := by rintro rfl; exact hxy (R.cli_uniq ho hk)
  have ex : s.clis x = some (cliRec v h o) := by rw [R.clis, ho]; rfl
  have ey : s.clis y = some (cliRec v h (some k)) := by rw [R.clis, hk]; rfl
  have ek : (s.ccell.free o).cell k = some y := by
    cases o with
    | none => exact (R.ccell y k hk).1
    | some g =>
      have : k ≠ g := by rintro rfl; exact hok rfl
      simp [Heap.free, this, (R.ccell y k hk).1]
  unfold BindMove.assignClient
  rw [ex, ey]
  dsimp only
  rw [if_neg hxy, show (cliRec v h (some k)).gen = some k from rfl, show (cliRec v h o).gen = o from rfl,
    Heap.store_of ek, Option.bind_some]
  cases o with
  | none =>
    refine ⟨_, L, rfl, ?_⟩
    have hv : next v (.assignClient x y) = { v with cli := put (put v.cli y (some none)) x (some (some k)) } := by
      simp [next, forget, ho, hk]
    rw [hv]
    constructor
    · exact R.doms
    · intro z
      simp only [put, Function.update_apply]
      split_ifs with h1 h2
      · rfl
      · rfl
      · exact R.clis z
    · exact R.dcell
    · intro z j hj
      simp only [put] at hj
      simp only [Function.update_apply, Heap.free]
      split_ifs at hj with h1 h2
      · simp only [Option.some.injEq] at hj
        subst hj
        exact ⟨by simp [h1], (R.ccell y _ hk).2⟩
      · exact absurd hj (by simp)
      · have := R.ccell z j hj
        have hjk : j ≠ k := by rintro rfl; exact h2 (R.cli_uniq hj hk)
        rw [if_neg hjk]
        exact this
    · exact R.dnext
    · exact R.enext
    · exact R.cnext
    · exact R.mem
    · exact R.sorted
    · intro j i hj
      obtain ⟨z, hz⟩ := R.bcli j i hj
      by_cases hzy : z = y
      · subst hzy
        rw [hk] at hz
        exact ⟨x, by simp only [put, if_true]; exact hz⟩
      · have : z ≠ x := by rintro rfl; rw [ho] at hz; exact absurd hz (by simp)
        exact ⟨z, by simp [put, this, hzy, hz]⟩
    · exact R.bdom
  | some g =>
    have hkg : k ≠ g := by rintro rfl; exact hok rfl
    obtain ⟨t', e, c1, c2, c3, c4, hd⟩ := R.reset g
      (t := { s with clis := Function.update (Function.update s.clis y (some ⟨none, none, none⟩)) x (some (cliRec v h (some k))), ccell := { s.ccell.free (some g) with cell := Function.update (s.ccell.free (some g)).cell k (some x) } }) rfl rfl
    refine ⟨t', dropFrom L h v.bound g, ?_, ?_⟩
    · exact e
    have hv : next v (.assignClient x y) =
        { v with cli := put (put v.cli y (some none)) x (some (some k)), bound := put v.bound g none } := by
      simp [next, forget, ho, hk]
    rw [hv]
    refine R.dropped g hd ?_ c2 c3 (by rw [c4]; rfl) ?_ ?_
    · intro z
      rw [c1]
      simp only [Function.update_apply, put]
      split_ifs with h1 h2
      · rw [Option.map_some]
        exact congrArg some (cliRec_other v h g hok.symm).symm
      · rfl
      · exact R.clis_other ho h1
    · intro z j hj
      rw [c4]
      simp only [put] at hj
      simp only [Function.update_apply, Heap.free]
      split_ifs at hj with h1 h2
      · simp only [Option.some.injEq] at hj
        subst hj
        exact ⟨by simp [h1], (R.ccell y _ hk).2⟩
      · exact absurd hj (by simp)
      · have := R.ccell z j hj
        have hjk : j ≠ k := by rintro rfl; exact h2 (R.cli_uniq hj hk)
        have hjg : j ≠ g := by rintro rfl; exact h1 (R.cli_uniq hj ho)
        rw [if_neg hjk, if_neg hjg]
        exact this
    · intro j i hjg hj
      obtain ⟨z, hz⟩ := R.bcli j i hj
      by_cases hzy : z = y
      · subst hzy
        rw [hk] at hz
        exact ⟨x, by simp only [put, if_true]; exact hz⟩
      · have : z ≠ x := by
          rintro rfl
          rw [ho] at hz
          exact hjg (Option.some.inj (Option.some.inj hz)).symm
        exact ⟨z, by simp [put, this, hzy, hz]⟩

theorem Rel.bind (R : Rel s v L h) {x a : Nat} (hx : Alive (v.cli x)) (hn : ¬ Bound v x) (ha : Alive (v.dom a)) :
    ∃ s' L' h', BindMove.bind s x a = some s' ∧ Rel s' (next v (.bind x a)) L' h' := by
  obtain ⟨g, hx⟩ := (alive_iff _).1 hx
  obtain ⟨i, ha⟩ := (alive_iff _).1 ha
  have hbn : v.bound g = none := by
    by_contra hi
    obtain ⟨i, hi⟩ := Option.ne_none_iff_exists'.1 hi
    exact hn ((bound_iff _ _).2 ⟨g, i, hx, hi⟩)
  have ex : s.clis x = some ⟨some g, none, none⟩ := by rw [R.clis, hx]; simp [cliRec, hbn]
  have ea : s.doms a = some ⟨some i, some i, L i⟩ := by rw [R.doms, ha]; rfl
  obtain ⟨-, i2, i3, i4⟩ := insertNew_spec g (L i) 0 (R.sorted i) (by simp)
  unfold BindMove.bind
  rw [ex, ea]
  refine ⟨_, put L i (insertNew g 0 (L i)).2, put h g (insertNew g 0 (L i)).1, rfl, ?_⟩
  have hv : next v (.bind x a) = { v with bound := put v.bound g (some i) } := by simp [next, hx, ha]
  rw [hv]
  constructor
  · intro c
    simp only [Function.update_apply]
    split_ifs with hc
    · subst hc
      rw [ha]
      simp [domRec, put]
    · rw [R.doms c]
      rcases hd : v.dom c with _ | _ | j
      · rfl
      · rfl
      · have : j ≠ i := by
          rintro rfl
          have e1 := (R.dcell a j ha).1
          rw [(R.dcell c j hd).1] at e1
          exact hc (Option.some.inj e1)
        simp [domRec, put, this]
  · intro z
    simp only [Function.update_apply]
    split_ifs with hz
    · subst hz
      rw [hx]
      simp [cliRec, put]
    · rw [R.clis z]
      rcases hc : v.cli z with _ | _ | k
      · rfl
      · rfl
      · have : k ≠ g := by rintro rfl; exact hz (R.cli_uniq hc hx)
        simp [cliRec, put, this]
  · exact R.dcell
  · exact R.ccell
  · exact R.dnext
  · exact R.enext
  · exact R.cnext
  · intro j id k
    simp only [put]
    have old := R.mem j id k
    by_cases hj : j = i
    · subst hj
      rw [if_pos rfl, i3]
      by_cases hk : k = g
      · subst hk
        have : (id, k) ∉ L j := by rw [old, hbn]; simp
        simp [this]
      · simp [hk, old]
    · rw [if_neg hj]
      by_cases hk : k = g
      · subst hk
        rw [old, hbn]
        simp [Ne.symm hj]
      · simp [hk, old]
  · intro j
    simp only [put]
    split_ifs with hj
    · exact i4
    · exact R.sorted j
  · intro k j hk
    simp only [put] at hk
    split_ifs at hk with h1
    · exact ⟨x, by rw [h1]; exact hx⟩
    · exact R.bcli k j hk
  · intro k j hk
    simp only [put] at hk
    split_ifs at hk with h1
    · exact ⟨a, by rw [← hk]; exact ha⟩
    · exact R.bdom k j hk

theorem mapM_of {α β : Type} (f : α → Option β) (k : α → β) (l : List α) (hl : ∀ e ∈ l, f e = some (k e)) :
    l.mapM f = some (l.map k) := by
  induction l with
  | nil => rfl
  | cons e es ih =>
    rw [List.mapM_cons, hl e (by simp), ih fun e he => hl e (by simp [he])]
    rfl

theorem Rel.trigger (R : Rel s v L h) {a i : Nat} (ha : v.dom a = some (some i)) :
    ∃ l, BindMove.trigger s a = some l ∧ l.Nodup ∧
      ∀ x, x ∈ l ↔ ∃ g, v.cli x = some (some g) ∧ v.bound g = some i := by
  have ea : s.doms a = some ⟨some i, some i, L i⟩ := by rw [R.doms, ha]; rfl
  have key : ∀ e ∈ L i, ∃ x, v.cli x = some (some e.2) ∧ s.ccell.cell e.2 = some x := by
    rintro ⟨id, g⟩ he
    obtain ⟨hb, -⟩ := (R.mem i id g).1 he
    obtain ⟨x, hx⟩ := R.bcli g i hb
    exact ⟨x, hx, (R.ccell x g hx).1⟩
  refine ⟨(L i).map fun e => (s.ccell.cell e.2).getD 0, ?_, ?_, ?_⟩
  · unfold BindMove.trigger
    rw [ea, Option.bind_some]
    refine mapM_of _ _ _ fun e he => ?_
    obtain ⟨x, -, hx⟩ := key e he
    simp [hx]
  · refine List.Nodup.map_on ?_ ?_
    · rintro ⟨id, g⟩ h1 ⟨id', g'⟩ h2 e
      obtain ⟨x, c1, hx⟩ := key _ h1
      obtain ⟨y, c2, hy⟩ := key _ h2
      dsimp only at *
      rw [hx, hy] at e
      simp only [Option.getD_some] at e
      subst e
      rw [c1] at c2
      have hg : g = g' := Option.some.inj (Option.some.inj c2)
      subst hg
      rw [((R.mem i id g).1 h1).2, ((R.mem i id' g).1 h2).2]
    · exact (R.sorted i).imp fun h e => absurd h (by rw [e]; omega)
  · intro x
    rw [List.mem_map]
    constructor
    · rintro ⟨e, he, rfl⟩
      obtain ⟨x, c, hx⟩ := key e he
      refine ⟨e.2, by rw [hx]; exact c, ((R.mem i e.1 e.2).1 he).1⟩
    · rintro ⟨g, hx, hb⟩
      exact ⟨(h g, g), (R.mem i _ g).2 ⟨hb, rfl⟩, by simp [(R.ccell x g hx).1]⟩

theorem Rel.step (R : Rel s v L h) (o : Op) (ho : Ok v o) :
    ∃ s' L' h', BindMove.step s o = some s' ∧ Rel s' (next v o) L' h' := by
  obtain ⟨ho, hk⟩ := ho
  cases o with
  | createDomain a => obtain ⟨s', e, r⟩ := R.createDomain ho; exact ⟨s', _, _, e, r⟩
  | moveDomain a b => obtain ⟨s', e, r⟩ := R.moveDomain ho.1 ho.2; exact ⟨s', _, _, e, r⟩
  | assignDomain a b => obtain ⟨s', e, r⟩ := R.assignDomain ho.1 ho.2.1 ho.2.2 hk; exact ⟨s', _, _, e, r⟩
  | destroyDomain a => obtain ⟨s', e, r⟩ := R.destroyDomain ho hk; exact ⟨s', _, _, e, r⟩
  | createClient x => obtain ⟨s', e, r⟩ := R.createClient ho; exact ⟨s', _, _, e, r⟩
  | moveClient x y => obtain ⟨s', e, r⟩ := R.moveClient ho.1 ho.2; exact ⟨s', _, _, e, r⟩
  | assignClient x y => obtain ⟨s', L', e, r⟩ := R.assignClient ho.1 ho.2.1 ho.2.2; exact ⟨s', _, _, e, r⟩
  | destroyClient x => obtain ⟨s', L', e, r⟩ := R.destroyClient ho; exact ⟨s', _, _, e, r⟩
  | bind x a => exact R.bind ho.1 ho.2.1 ho.2.2
  | unbind x => obtain ⟨s', L', e, r, -⟩ := R.unbind ho; exact ⟨s', _, _, e, r⟩
  | use x =>
    obtain ⟨g, i, hx, hb⟩ := (bound_iff _ _).1 ho
    obtain ⟨a, ha⟩ := R.bdom g i hb
    refine ⟨s, L, h, ?_, R⟩
    simp only [BindMove.step]
    rw [R.domainOf hx hb ha, Option.bind_some, R.doms, ha]
    rfl
  | trigger a =>
    obtain ⟨i, ha⟩ := (alive_iff _).1 ho
    obtain ⟨l, hl, -⟩ := R.trigger ha
    refine ⟨s, L, h, ?_, R⟩
    simp only [BindMove.step]
    rw [hl]
    rfl

theorem Rel.run (ops : List Op) : ∀ {s : State} {v : View} {L : Nat → List (Nat × Nat)} {h : Nat → Nat},
    Rel s v L h → Follows Ok v ops → ∃ s' L' h', BindMove.run s ops = some s' ∧ Rel s' (ops.foldl next v) L' h' := by
  induction ops with
  | nil => intro s v L h R _; exact ⟨s, L, h, rfl, R⟩
  | cons o os ih =>
    intro s v L h R hf
    obtain ⟨s1, L1, h1, e1, R1⟩ := R.step o hf.1
    obtain ⟨s2, L2, h2, e2, R2⟩ := ih R1 hf.2
    refine ⟨s2, L2, h2, ?_, R2⟩
    unfold BindMove.run at *
    rw [List.foldlM_cons, e1]
    exact e2

end

/-! ### C132 -/

/-- Every program that the assertions accept is defined. -/
def C132_statement : Prop :=
  ∀ ops, Follows Accepted empty ops → ∃ s, run initial ops = some s

/-- If a domain is only destroyed or assigned to when nothing is bound to it, every program is defined; the reference
of each bound client then gives the place where the domain it was bound to is now. -/
theorem C132_partial (ops : List Op) (hf : Follows Ok empty ops) :
    ∃ s, run initial ops = some s ∧
      (∀ x, bound s x = true ↔ Bound (after ops) x) ∧
      ∀ x g i, (after ops).cli x = some (some g) → (after ops).bound g = some i →
        ∃ a, domainOf s x = some a ∧ (after ops).dom a = some (some i) := by
  obtain ⟨s, L, h, e, R⟩ := Rel.run ops rel_initial hf
  refine ⟨s, e, fun x => ?_, fun x g i hx hb => ?_⟩
  · unfold bound Bound
    rw [R.clis]
    rcases hv : (after ops).cli x with _ | o
    · change (match (((after ops).cli x).map _ : Option Client) with | some C => C.dom.isSome | none => false) = true ↔ _
      rw [hv]; simp
    · change (match (((after ops).cli x).map _ : Option Client) with | some C => C.dom.isSome | none => false) = true ↔ _
      rw [hv]
      simp only [Option.map_some, Option.bind_some, id]
      rfl
  · obtain ⟨a, ha⟩ := R.bdom g i hb
    exact ⟨a, R.domainOf hx hb ha, ha⟩

/-- An event of a domain calls exactly the clients that are bound to it, each once and where it is now. -/
theorem C132_events_partial (ops : List Op) (hf : Follows Ok empty ops) (a i : Nat)
    (ha : (after ops).dom a = some (some i)) :
    ∃ s l, run initial ops = some s ∧ trigger s a = some l ∧ l.Nodup ∧
      ∀ x, x ∈ l ↔ ∃ g, (after ops).cli x = some (some g) ∧ (after ops).bound g = some i := by
  obtain ⟨s, L, h, e, R⟩ := Rel.run ops rel_initial hf
  obtain ⟨l, hl⟩ := R.trigger ha
  exact ⟨s, l, e, hl⟩

/-- What is not accepted is undefined: it would follow a null pointer or violate an assertion.  (An event of a domain that was
moved from is accepted by the code, and calls nobody.) -/
theorem C132_refused (ops : List Op) (hf : Follows Ok empty ops) (op : Op) (hn : ¬ Accepted (after ops) op)
    (ht : ∀ a, op ≠ .trigger a) : ∃ s, run initial ops = some s ∧ step s op = none := by
  obtain ⟨s, L, h, e, R⟩ := Rel.run ops rel_initial hf
  refine ⟨s, e, ?_⟩
  have R : Rel s (after ops) L h := R
  generalize after ops = v at R hn
  have hd := R.doms
  have hc := R.clis
  cases op with
  | createDomain a =>
    rcases hv : v.dom a with _ | o
    · exact absurd hv hn
    · simp [step, createDomain, hd a, hv]
  | moveDomain a b =>
    simp only [step, moveDomain, hd a, hd b]
    rcases hv : v.dom a with _ | o
    · rcases hw : v.dom b with _ | _ | j
      · simp
      · simp [domRec, Heap.store]
      · exact absurd ⟨hv, by rw [hw]; rfl⟩ hn
    · simp
  | assignDomain a b =>
    simp only [step, assignDomain, hd a, hd b]
    by_cases hab : a = b
    · rcases v.dom a with _ | o <;> rcases v.dom b with _ | o <;> simp [hab]
    · rcases hv : v.dom a with _ | o
      · simp
      · rcases hw : v.dom b with _ | _ | j
        · simp
        · simp [domRec, Heap.store]
        · exact absurd ⟨hab, by rw [hv]; simp, by rw [hw]; rfl⟩ hn
  | destroyDomain a =>
    have hv : v.dom a = none := by by_contra hx; exact hn hx
    simp [step, destroyDomain, hd a, hv]
  | createClient x =>
    rcases hv : v.cli x with _ | o
    · exact absurd hv hn
    · simp [step, createClient, hc x, hv]
  | moveClient x y =>
    simp only [step, moveClient, hc x, hc y]
    rcases hv : v.cli x with _ | o
    · rcases hw : v.cli y with _ | _ | j
      · simp
      · simp [cliRec, Heap.store]
      · exact absurd ⟨hv, by rw [hw]; rfl⟩ hn
    · simp
  | assignClient x y =>
    simp only [step, assignClient, hc x, hc y]
    by_cases hxy : x = y
    · rcases v.cli x with _ | o <;> rcases v.cli y with _ | o <;> simp [hxy]
    · rcases hv : v.cli x with _ | o
      · simp
      · rcases hw : v.cli y with _ | _ | j
        · simp
        · simp [cliRec, Heap.store]
        · exact absurd ⟨hxy, by rw [hv]; simp, by rw [hw]; rfl⟩ hn
  | destroyClient x =>
    have hv : v.cli x = none := by by_contra hx; exact hn hx
    simp [step, destroyClient, hc x, hv]
  | bind x a =>
    simp only [step, BindMove.bind, hc x, hd a]
    rcases hv : v.cli x with _ | _ | g
    · simp
    · rcases v.dom a with _ | o <;> simp [cliRec]
    · rcases hw : v.dom a with _ | _ | j
      · simp
      · rcases hb : v.bound g with _ | i <;> simp [cliRec, domRec, hb]
      · rcases hb : v.bound g with _ | i
        · exact absurd ⟨by rw [hv]; rfl, by simp [Bound, hv, hb], by rw [hw]; rfl⟩ hn
        · simp [cliRec, hb]
  | unbind x =>
    have hv : ¬ Bound v x := hn
    simp only [step, BindMove.unbind, domainOf, hc x]
    rcases hw : v.cli x with _ | _ | g
    · simp
    · simp [cliRec]
    · have : v.bound g = none := by
        rcases hb : v.bound g with _ | i
        · rfl
        · exact absurd (by simp [Bound, hw, hb]) hv
      simp [cliRec, this]
  | use x =>
    have hv : ¬ Bound v x := hn
    simp only [step, domainOf, hc x]
    rcases hw : v.cli x with _ | _ | g
    · simp
    · simp [cliRec]
    · have : v.bound g = none := by
        rcases hb : v.bound g with _ | i
        · rfl
        · exact absurd (by simp [Bound, hw, hb]) hv
      simp [cliRec, this]
  | trigger a => exact absurd rfl (ht a)

/-- A domain that was moved from cannot be moved on or be bound to. -/
example : Follows Ok empty [.createDomain 0, .moveDomain 1 0, .createClient 0] ∧
    ¬ Accepted (after [.createDomain 0, .moveDomain 1 0, .createClient 0]) (.moveDomain 2 0) ∧
    ¬ Accepted (after [.createDomain 0, .moveDomain 1 0, .createClient 0]) (.bind 0 0) := by decide +kernel

/-- A client whose domain was destroyed still says that it is bound, but cannot be used, unbound or destroyed. -/
theorem C132_destroyed (ops : List Op) (hf : Follows Ok empty ops) (x g a i : Nat)
    (hx : (after ops).cli x = some (some g)) (hb : (after ops).bound g = some i)
    (ha : (after ops).dom a = some (some i)) :
    ∃ s, run initial (ops ++ [.destroyDomain a]) = some s ∧ bound s x = true ∧
      step s (.use x) = none ∧ step s (.unbind x) = none ∧ step s (.destroyClient x) = none := by
  obtain ⟨s, L, h, e, R⟩ := Rel.run ops rel_initial hf
  have ex : s.clis x = some ⟨some g, some i, some ⟨h g, i⟩⟩ := by
    rw [R.clis]
    change ((after ops).cli x).map _ = _
    rw [hx]
    change some (cliRec (after ops) h (some g)) = _
    simp [cliRec, hb]
  have ea : s.doms a = some ⟨some i, some i, L i⟩ := by
    rw [R.doms]
    change ((after ops).dom a).map _ = _
    rw [ha]; rfl
  refine ⟨{ s with doms := Function.update s.doms a none, dcell := s.dcell.free (some i), ecell := s.ecell.free (some i) }, ?_, ?_, ?_⟩
  · unfold run at *
    rw [List.foldlM_append, e]
    simp [step, destroyDomain, ea]
  · simp [bound, ex]
  · simp [step, domainOf, unbind, destroyClient, ex, Heap.free]

/-- The same if another domain is moved into the one that a client is bound to. -/
theorem C132_overwritten (ops : List Op) (hf : Follows Ok empty ops) (x g a i b : Nat)
    (hx : (after ops).cli x = some (some g)) (hb : (after ops).bound g = some i)
    (ha : (after ops).dom a = some (some i)) (hab : a ≠ b) (hbl : Alive ((after ops).dom b)) :
    ∃ s, run initial (ops ++ [.assignDomain a b]) = some s ∧ bound s x = true ∧
      step s (.use x) = none ∧ step s (.unbind x) = none ∧ step s (.destroyClient x) = none := by
  obtain ⟨s, L, h, e, R⟩ := Rel.run ops rel_initial hf
  obtain ⟨j, hj⟩ := (alive_iff _).1 hbl
  have ex : s.clis x = some ⟨some g, some i, some ⟨h g, i⟩⟩ := by
    rw [R.clis]
    change ((after ops).cli x).map _ = _
    rw [hx]
    change some (cliRec (after ops) h (some g)) = _
    simp [cliRec, hb]
  have ea : s.doms a = some ⟨some i, some i, L i⟩ := by
    rw [R.doms]
    change ((after ops).dom a).map _ = _
    rw [ha]; rfl
  have eb : s.doms b = some ⟨some j, some j, L j⟩ := by
    rw [R.doms]
    change ((after ops).dom b).map _ = _
    rw [hj]; rfl
  have hij : i ≠ j := by
    rintro rfl
    have e1 := (R.dcell a i ha).1
    rw [(R.dcell b i hj).1] at e1
    exact hab (Option.some.inj e1).symm
  have c1 : (s.dcell.free (some i)).cell j = some b := by simp [Heap.free, hij.symm, (R.dcell b j hj).1]
  have c2 : (s.ecell.free (some i)).cell j = some b := by simp [Heap.free, hij.symm, (R.dcell b j hj).2.1]
  have es : ∃ s', assignDomain s a b = some s' ∧ s'.clis = s.clis ∧ s'.dcell.cell i = none := by
    unfold assignDomain
    rw [ea, eb]
    dsimp only
    rw [if_neg hab, Heap.store_of c1, Heap.store_of c2]
    exact ⟨_, rfl, rfl, by simp [Heap.free, hij]⟩
  obtain ⟨s', e1, e2, e3⟩ := es
  rw [← e2] at ex
  refine ⟨s', ?_, ?_, ?_⟩
  · unfold run at *
    rw [List.foldlM_append, e]
    simp [step, e1]
  · simp [bound, ex]
  · simp [step, domainOf, unbind, destroyClient, ex, e3]

/-- Two clients bound to a domain, one of them moved, the domain moved; one client replaced by another; everything
destroyed in an order that keeps the domain until nothing is bound. -/
def sampleProg : List Op :=
  [.createDomain 0, .createClient 0, .createClient 1, .bind 0 0, .bind 1 0, .moveClient 5 0, .moveDomain 3 0,
   .destroyDomain 0, .createClient 7, .assignClient 1 7, .bind 1 3, .trigger 3]

example : Follows Ok empty sampleProg := by decide +kernel

example : ((run initial sampleProg).bind fun s => trigger s 3) = some [5, 1] := by decide +kernel

example : ((run initial sampleProg).bind fun s => domainOf s 5) = some 3 := by decide +kernel

example : Follows Ok empty (sampleProg ++ [.unbind 5, .destroyClient 1, .destroyDomain 3, .destroyClient 5]) := by
  decide +kernel

example : (after sampleProg).cli 5 = some (some 0) ∧ (after sampleProg).bound 0 = some 0 ∧
    (after sampleProg).dom 3 = some (some 0) := by decide +kernel

example : Follows Ok empty (sampleProg ++ [.createDomain 8]) ∧ Alive ((after (sampleProg ++ [.createDomain 8])).dom 8) := by
  decide +kernel

/-- The assertions accept that a domain is destroyed before what is bound to it. -/
theorem C132_false : ¬ C132_statement := by
  intro hs
  obtain ⟨s, e⟩ := hs [.createDomain 0, .createClient 0, .bind 0 0, .destroyDomain 0, .destroyClient 0] (by decide +kernel)
  have : (run initial [.createDomain 0, .createClient 0, .bind 0 0, .destroyDomain 0, .destroyClient 0]).isSome = false := by
    decide +kernel
  rw [e] at this
  exact absurd this (by simp)

end Ovk.BindMove
