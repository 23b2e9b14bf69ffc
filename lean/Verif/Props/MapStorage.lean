import Verif.Model.MapStorage
import Verif.Lemmas.Container
import Mathlib.Data.List.Nodup
/-!
# C128: values of maps that are not contiguous stay where they are

The values of a `map_noncontig` are objects of their own.  Histories of calls on any number of maps
create, keep and destroy exactly the objects an ordinary reader expects: a value keeps its object until
it is erased or replaced, whatever happens to the entries around it and also when the map is moved; a
copy has objects of its own; every object is destroyed once.
-/
namespace Ovk
namespace MapMem

/-! ## Specification -/
namespace Spec

/-- What a program sees: for each map variable in existence, for each key, the object holding the value
and the value. -/
abbrev Maps (κ ν : Type) := Nat → Option (κ → Option (Nat × ν))

/-- No map holds the object `a`. -/
def Free (A : Maps κ ν) (a : Nat) : Prop := ∀ x m k v, A x = some m → m k ≠ some (a, v)

/-- All variables but `x` are unchanged, with their objects and values. -/
def Same (A A' : Maps κ ν) (x : Nat) : Prop := ∀ y, y ≠ x → A' y = A y

/-- `m'` is a copy of `m`: the same keys and values, in new objects, one for each key. -/
def Copied (A : Maps κ ν) (m m' : κ → Option (Nat × ν)) : Prop :=
  (∀ k, (m' k).map Prod.snd = (m k).map Prod.snd) ∧
  (∀ k a v, m' k = some (a, v) → Free A a) ∧
  (∀ k k' a v v', m' k = some (a, v) → m' k' = some (a, v') → k = k')

/-- Which calls a program may make. -/
def Legal (A : Maps κ ν) : Op κ ν → Prop
  | .construct x => A x = none
  | .insert x _ _ _ | .fetch x _ _ _ | .erase x _ | .eraseIf x _ | .clear x | .reserve x _
  | .destroy x => A x ≠ none
  | .write x k _ => ∃ m, A x = some m ∧ m k ≠ none
  | .copy x y | .move x y => A x ≠ none ∧ A y = none
  | .copyAssign x y _ => A x ≠ none ∧ A y ≠ none
  | .moveAssign x y => A x ≠ none ∧ A y ≠ none ∧ x ≠ y

/-- What each call does. -/
def Step (A A' : Maps κ ν) : Op κ ν → Prop
  | .construct x => A' x = some (fun _ => none) ∧ Same A A' x
  | .insert x k v _ => ∃ m m' a, A x = some m ∧ A' x = some m' ∧ Free A a ∧ m' k = some (a, v) ∧
      (∀ k', k' ≠ k → m' k' = m k') ∧ Same A A' x
  | .fetch x k v _ => ∃ m m', A x = some m ∧ A' x = some m' ∧
      (m k ≠ none → m' k = m k) ∧ (m k = none → ∃ a, Free A a ∧ m' k = some (a, v)) ∧
      (∀ k', k' ≠ k → m' k' = m k') ∧ Same A A' x
  | .erase x k => ∃ m m', A x = some m ∧ A' x = some m' ∧ m' k = none ∧
      (∀ k', k' ≠ k → m' k' = m k') ∧ Same A A' x
  | .eraseIf x p => ∃ m m', A x = some m ∧ A' x = some m' ∧
      (∀ k, m' k = (m k).filter fun e => !p k e.2) ∧ Same A A' x
  | .clear x => A' x = some (fun _ => none) ∧ Same A A' x
  | .reserve _ _ => A' = A
  | .write x k v => ∃ m m' a v0, A x = some m ∧ A' x = some m' ∧ m k = some (a, v0) ∧
      m' k = some (a, v) ∧ (∀ k', k' ≠ k → m' k' = m k') ∧ Same A A' x
  | .copy x y => ∃ m m', A x = some m ∧ A' y = some m' ∧ Copied A m m' ∧ Same A A' y
  | .move x y => A' y = A x ∧ A' x = some (fun _ => none) ∧ ∀ z, z ≠ x → z ≠ y → A' z = A z
  | .copyAssign x y _ => (x = y ∧ A' = A) ∨
      (x ≠ y ∧ ∃ m m', A x = some m ∧ A' y = some m' ∧ Copied A m m' ∧ Same A A' y)
  | .moveAssign x y => A' y = A x ∧ A' x = some (fun _ => none) ∧ ∀ z, z ≠ x → z ≠ y → A' z = A z
  | .destroy x => A' x = none ∧ Same A A' x

/-- A call keeps the value at `k` in variable `x`, and it is then in variable `y`, under the same key. -/
def Keeps (x : Nat) (k : κ) (y : Nat) : Op κ ν → Prop
  | .construct z | .copy _ z => y = x ∧ z ≠ x
  | .insert z k' _ _ | .erase z k' => y = x ∧ (z ≠ x ∨ k' ≠ k)
  | .eraseIf z p => y = x ∧ (z ≠ x ∨ ∀ v, p k v = false)
  | .clear z | .destroy z => y = x ∧ z ≠ x
  | .fetch _ _ _ _ | .reserve _ _ | .write _ _ _ => y = x
  | .move z w | .moveAssign z w => (z = x ∧ y = w) ∨ (z ≠ x ∧ w ≠ x ∧ y = x)
  | .copyAssign z w _ => y = x ∧ (w ≠ x ∨ z = w)

/-- The calls keep the value at `k`, taking it from variable `x` to variable `y`. -/
def KeepsAll (k : κ) : Nat → Nat → List (Op κ ν) → Prop
  | x, y, [] => x = y
  | x, y, op :: ops => ∃ z, Keeps x k z op ∧ KeepsAll k z y ops

end Spec

/-- What the program sees of a state, by `map::Find`. -/
def abs (lt : κ → κ → Bool) (s : State κ ν) : Spec.Maps κ ν :=
  fun x => (s.maps x).map fun m k => find lt s.heap m k

/-- All calls of a program are legal. -/
def LegalRun (lt : κ → κ → Bool) : State κ ν → List (Op κ ν) → Prop
  | _, [] => True
  | s, op :: ops => Spec.Legal (abs lt s) op ∧ ∀ s', step lt s op = some s' → LegalRun lt s' ops

/-- States a program can reach. -/
def Reach (lt : κ → κ → Bool) (s : State κ ν) : Prop :=
  ∃ ops, LegalRun lt State.init ops ∧ run lt State.init ops = some s

/-! ## Entries that hold objects -/

/-- Entries all of which hold an object. -/
def lift (l : List (κ × Nat)) : List (Slot κ) := l.map fun e => (e.1, some e.2)

/-- A map all of whose entries hold an object. -/
def liftM (m : OMap κ Nat) : NMap κ := ⟨m.keys, lift m.entries⟩

/-- The heap without some objects. -/
def Heap.drop (h : Heap ν) (as : List Nat) : Heap ν :=
  ⟨h.next, fun a => if a ∈ as then none else h.cell a⟩

@[simp] theorem lift_nil : lift ([] : List (κ × Nat)) = [] := rfl
@[simp] theorem lift_cons (e : κ × Nat) (l : List (κ × Nat)) :
    lift (e :: l) = (e.1, some e.2) :: lift l := rfl
@[simp] theorem lift_append (a b : List (κ × Nat)) : lift (a ++ b) = lift a ++ lift b := by
  simp [lift]
@[simp] theorem lift_length (l : List (κ × Nat)) : (lift l).length = l.length := by simp [lift]

theorem free_eq {h : Heap ν} {a : Nat} {v : ν} (ha : h.cell a = some v) :
    h.free a = some (h.drop [a]) := by
  simp [Heap.free, ha, Heap.drop]

theorem drop_drop (h : Heap ν) (a b : List Nat) : (h.drop a).drop b = h.drop (a ++ b) := by
  simp only [Heap.drop, List.mem_append, Heap.mk.injEq, true_and]
  funext x
  by_cases h1 : x ∈ a <;> by_cases h2 : x ∈ b <;> simp [h1, h2]

theorem drop_nil (h : Heap ν) : h.drop [] = h := by simp [Heap.drop]

theorem shiftDown_eq (l : List (κ × Nat)) : ∀ (h : Heap ν) (k : κ) (p : Ptr),
    shiftDown h (k, p) (lift l) = (destroyPtr h p).map fun h' => (h', lift l) := by
  induction l with
  | nil => intro h k p; rfl
  | cons e l ih =>
    intro h k p
    simp only [lift_cons, shiftDown, moveAssignPtr, assignPtr, movePtr]
    cases hp : destroyPtr h p with
    | none => simp
    | some h1 => simp [ih, destroyPtr]

theorem vecErase_eq (b : List (κ × Nat)) (e : κ × Nat) (h : Heap ν) : ∀ a : List (κ × Nat),
    vecErase h (lift (a ++ e :: b)) a.length = (h.free e.2).map fun h' => (h', lift (a ++ b)) := by
  intro a
  induction a with
  | nil => simp [vecErase, shiftDown_eq, destroyPtr]
  | cons x a ih =>
    simp only [List.cons_append, lift_cons, List.length_cons, vecErase, ih, Option.map_map]
    rfl

theorem shiftUp_eq (l : List (κ × Nat)) (h : Heap ν) : ∀ (k : κ) (a : Nat),
    shiftUp h (k, some a) (lift l) = some (h, (k, none), (k, some a) :: lift l) := by
  induction l with
  | nil => intro k a; rfl
  | cons e l ih =>
    intro k a
    simp [shiftUp, ih, moveAssignPtr, assignPtr, movePtr, destroyPtr]

theorem vecInsertInPlace_eq (b : List (κ × Nat)) (k : κ) (x : Nat) (h : Heap ν) :
    ∀ a : List (κ × Nat),
    vecInsertInPlace h (lift (a ++ b)) a.length (k, some x) = some (h, lift (a ++ (k, x) :: b)) := by
  intro a
  induction a with
  | nil =>
    cases b with
    | nil => rfl
    | cons e b =>
      simp [vecInsertInPlace, shiftUp_eq, moveAssignPtr, assignPtr, movePtr, destroyPtr]
  | cons e a ih => simpa [vecInsertInPlace] using ih

theorem destroyAll_null (l : List (Slot κ)) (h : Heap ν) :
    destroyAll h (relocate l).2 = some h := by
  induction l with
  | nil => rfl
  | cons s l ih => simpa [relocate, destroyAll, movePtr, destroyPtr] using ih

theorem relocate_fst (l : List (Slot κ)) : (relocate l).1 = l := by
  simp [relocate, movePtr]

theorem vecInsertGrow_eq (a b : List (κ × Nat)) (k : κ) (x : Nat) (h : Heap ν) :
    vecInsertGrow h (lift (a ++ b)) a.length (k, some x) = some (h, lift (a ++ (k, x) :: b)) := by
  have e1 : (lift (a ++ b)).take a.length = lift a := by
    rw [lift_append, List.take_append_of_le_length (by simp), List.take_of_length_le (by simp)]
  have e2 : (lift (a ++ b)).drop a.length = lift b := by
    rw [lift_append, List.drop_append_of_le_length (by simp), List.drop_of_length_le (by simp)]
    rfl
  unfold vecInsertGrow
  rw [if_pos (by simp), destroyAll_null]
  simp only [relocate_fst, e1, e2, movePtr, destroyPtr, Option.map_some]
  simp

theorem entriesInsert_eq (a b : List (κ × Nat)) (k : κ) (v : ν) (g : Bool) (h : Heap ν) :
    entriesInsert h (lift (a ++ b)) a.length k v g =
      some ((h.alloc v).1, lift (a ++ (k, h.next) :: b)) := by
  unfold entriesInsert
  simp only [Heap.alloc]
  cases g
  · simp only [Bool.false_eq_true, if_false]; exact vecInsertInPlace_eq _ _ _ _ _
  · simp only [if_true]; exact vecInsertGrow_eq _ _ _ _ _

theorem entriesReplace_eq (a b : List (κ × Nat)) (e : κ × Nat) (k : κ) (v v0 : ν) (h : Heap ν)
    (he : h.cell e.2 = some v0) (hlt : e.2 < h.next) :
    entriesReplace h (lift (a ++ e :: b)) a.length k v =
      some ((h.alloc v).1.drop [e.2], lift (a ++ (k, h.next) :: b)) := by
  have e1 : (lift (a ++ e :: b))[a.length]? = some (e.1, some e.2) := by
    rw [lift_append, List.getElem?_append_right (by simp)]; simp
  have e2 : (h.alloc v).1.cell e.2 = some v0 := by
    simp only [Heap.alloc]; rw [if_neg (by omega)]; exact he
  unfold entriesReplace
  rw [e1]
  simp only [moveAssignPtr, assignPtr, movePtr, destroyPtr, free_eq e2, Option.map_some]
  congr 2
  rw [lift_append, lift_append, List.set_append_right _ _ (by simp)]
  simp [Heap.alloc]

theorem destroyAll_eq (l : List (κ × Nat)) : ∀ h : Heap ν, (∀ e ∈ l, h.cell e.2 ≠ none) →
    (l.map Prod.snd).Nodup → destroyAll h (lift l) = some (h.drop (l.map Prod.snd)) := by
  induction l with
  | nil => intro h _ _; simp [destroyAll, drop_nil]
  | cons e l ih =>
    intro h hl hn
    rw [List.map_cons, List.nodup_cons] at hn
    obtain ⟨v, hv⟩ := Option.ne_none_iff_exists'.1 (hl e (by simp))
    simp only [lift_cons, destroyAll, destroyPtr, free_eq hv, Option.bind_some]
    rw [ih _ _ hn.2, drop_drop]
    · rfl
    · intro e' he'
      have : e'.2 ≠ e.2 := by
        intro hh; exact hn.1 (hh ▸ List.mem_map_of_mem he')
      simpa [Heap.drop, this] using hl e' (by simp [he'])

/-! ## One map -/

variable {κ ν : Type} {lt : κ → κ → Bool}

/-- The objects of a map exist, one for each entry. -/
structure Good (lt : κ → κ → Bool) (h : Heap ν) (m : OMap κ Nat) : Prop where
  wf : m.WF lt
  live : ∀ e ∈ m.entries, h.cell e.2 ≠ none
  nodup : (m.entries.map Prod.snd).Nodup

/-- Every object has an old name. -/
def Heap.Old (h : Heap ν) : Prop := ∀ a, h.cell a ≠ none → a < h.next

/-- What a call on one map may do to the objects: keep some of its own, destroy the others, create new
ones, and leave all other objects alone. -/
structure Loc (lt : κ → κ → Bool) (h : Heap ν) (m : OMap κ Nat) (h' : Heap ν) (m' : OMap κ Nat) :
    Prop where
  good : Good lt h' m'
  old : h'.Old
  next : h.next ≤ h'.next
  frame : ∀ a, a ∉ m.entries.map Prod.snd → a ∉ m'.entries.map Prod.snd → h'.cell a = h.cell a
  dead : ∀ a, a ∈ m.entries.map Prod.snd → a ∉ m'.entries.map Prod.snd → h'.cell a = none
  src : ∀ a, a ∈ m'.entries.map Prod.snd → a ∈ m.entries.map Prod.snd ∨ h.next ≤ a

theorem find_iff (hlt : IsSTO lt) {h : Heap ν} {m : OMap κ Nat} (hm : m.WF lt) (k : κ) (a : Nat)
    (v : ν) : find lt h (liftM m) k = some (a, v) ↔ (k, a) ∈ m.entries ∧ h.cell a = some v := by
  have e : find lt h (liftM m) k = (m.find? lt k).bind fun e => (h.cell e.2).map fun v => (e.2, v) := by
    simp only [find, liftM, OMap.find?, lift, List.getElem?_map]
    cases m.entries[OSet.find lt m.keys k]? <;> rfl
  rw [e]
  by_cases hk : ∃ b, (k, b) ∈ m.entries
  · obtain ⟨b, hb⟩ := hk
    have := (omap_find_spec hlt hm k b).2 hb
    rw [this]
    simp only [Option.bind_some, Option.map_eq_some_iff, Prod.mk.injEq]
    constructor
    · rintro ⟨w, hw, rfl, rfl⟩; exact ⟨hb, hw⟩
    · rintro ⟨ha, hv⟩
      have h2 := (omap_find_spec hlt hm k a).2 ha
      rw [this] at h2
      simp only [Option.some.injEq, Prod.mk.injEq, true_and] at h2
      subst h2
      exact ⟨v, hv, rfl, rfl⟩
  · have : ∀ v, (k, v) ∉ m.entries := fun b hb => hk ⟨b, hb⟩
    rw [omap_find_none hlt hm k this]
    constructor
    · intro hh; cases hh
    · rintro ⟨ha, _⟩; exact absurd ha (this a)

theorem find_none_iff (hlt : IsSTO lt) {h : Heap ν} {m : OMap κ Nat} (hg : Good lt h m) (k : κ) :
    find lt h (liftM m) k = none ↔ ∀ a, (k, a) ∉ m.entries := by
  constructor
  · intro hf a ha
    obtain ⟨v, hv⟩ := Option.ne_none_iff_exists'.1 (hg.live _ ha)
    have := (find_iff hlt (h := h) hg.wf k a v).2 ⟨ha, hv⟩
    rw [hf] at this; cases this
  · intro hk
    cases hf : find lt h (liftM m) k with
    | none => rfl
    | some p => exact absurd ((find_iff hlt hg.wf k p.1 p.2).1 hf).1 (hk _)

/-- Two lookups agree if the entries under the key and their values do. -/
theorem find_congr (hlt : IsSTO lt) {h h' : Heap ν} {m m' : OMap κ Nat} (hm : m.WF lt)
    (hm' : m'.WF lt) {k : κ} (h1 : ∀ a, (k, a) ∈ m'.entries ↔ (k, a) ∈ m.entries)
    (h2 : ∀ a, (k, a) ∈ m.entries → h'.cell a = h.cell a) :
    find lt h' (liftM m') k = find lt h (liftM m) k := by
  apply Option.ext
  rintro ⟨a, v⟩
  rw [find_iff hlt hm', find_iff hlt hm, h1]
  constructor
  · rintro ⟨ha, hv⟩; exact ⟨ha, (h2 a ha) ▸ hv⟩
  · rintro ⟨ha, hv⟩; exact ⟨ha, (h2 a ha).trans hv⟩

theorem mem_snd {l : List (κ × Nat)} {a : Nat} : a ∈ l.map Prod.snd ↔ ∃ k, (k, a) ∈ l := by
  simp

/-- The map with the given entries. -/
def mk (l : List (κ × Nat)) : OMap κ Nat := ⟨l.map Prod.fst, l⟩

theorem old_lt {h : Heap ν} (ho : h.Old) {a : Nat} (ha : h.cell a ≠ none) : a < h.next := ho a ha

theorem fresh_not_mem {h : Heap ν} {m : OMap κ Nat} (hg : Good lt h m) (ho : h.Old) {a : Nat}
    (ha : h.next ≤ a) : a ∉ m.entries.map Prod.snd := by
  intro hm
  obtain ⟨k, hk⟩ := mem_snd.1 hm
  have := ho _ (hg.live _ hk)
  simp only at this
  omega

/-- Dropping some of a map's objects together with their entries. -/
theorem loc_drop {h : Heap ν} {l l' : List (κ × Nat)} {as : List Nat} (hg : Good lt h (mk l))
    (ho : h.Old) (hs : l'.Sublist l) (has : ∀ a, a ∈ as ↔ a ∈ l.map Prod.snd ∧ a ∉ l'.map Prod.snd) :
    Loc lt h (mk l) (h.drop as) (mk l') := by
  have hsnd : (l'.map Prod.snd).Sublist (l.map Prod.snd) := hs.map _
  refine ⟨⟨⟨rfl, hg.wf.2.sublist (hs.map _)⟩, ?_, hg.nodup.sublist hsnd⟩, ?_, Nat.le_refl _, ?_, ?_,
    fun a ha => Or.inl (hsnd.subset ha)⟩
  · intro e he
    have h1 : e.2 ∉ as := fun hh => ((has _).1 hh).2 (List.mem_map_of_mem he)
    simp only [Heap.drop, if_neg h1]
    exact hg.live e (hs.subset he)
  · intro a ha
    simp only [Heap.drop] at ha
    split at ha
    · exact absurd rfl ha
    · exact ho a ha
  · intro a h1 _
    simp only [Heap.drop]
    rw [if_neg (fun hh => h1 ((has _).1 hh).1)]
  · intro a h1 h2
    simp only [Heap.drop]
    rw [if_pos ((has _).2 ⟨h1, h2⟩)]

theorem alloc_old {h : Heap ν} (ho : h.Old) (v : ν) : (h.alloc v).1.Old := by
  intro a ha
  simp only [Heap.alloc] at ha ⊢
  split at ha
  · omega
  · exact Nat.lt_succ_of_lt (ho a ha)

/-- A new entry with a new object. -/
theorem loc_insert {h : Heap ν} {a b : List (κ × Nat)} {k : κ} (v : ν) (hg : Good lt h (mk (a ++ b)))
    (ho : h.Old) (ha : ∀ x ∈ a, lt x.1 k = true) (hb : ∀ x ∈ b, lt k x.1 = true) :
    Loc lt h (mk (a ++ b)) (h.alloc v).1 (mk (a ++ (k, h.next) :: b)) := by
  have hfr := fresh_not_mem hg ho (Nat.le_refl h.next)
  refine ⟨⟨⟨rfl, sorted_replace ha hb hg.wf.2 _⟩, ?_, ?_⟩, alloc_old ho v, Nat.le_succ _, ?_, ?_, ?_⟩
  · intro e he
    simp only [Heap.alloc]
    split
    · simp
    · rename_i hne
      refine hg.live e ?_
      simp only [mk, List.mem_append, List.mem_cons] at he ⊢
      rcases he with he | rfl | he
      · exact Or.inl he
      · exact absurd rfl hne
      · exact Or.inr he
  · have := hg.nodup
    simp only [mk, List.map_append, List.map_cons] at this hfr ⊢
    exact (List.perm_middle.nodup_iff).2 (List.nodup_cons.2 ⟨hfr, this⟩)
  · intro x _ h2
    simp only [Heap.alloc]
    rw [if_neg]
    rintro rfl
    exact h2 (by simp [mk])
  · intro x h1 h2
    exfalso; apply h2
    simp only [mk, List.map_append, List.map_cons, List.mem_append, List.mem_cons] at h1 ⊢
    rcases h1 with h1 | h1
    · exact Or.inl h1
    · exact Or.inr (Or.inr h1)
  · intro x hx
    simp only [mk, List.map_append, List.map_cons, List.mem_append, List.mem_cons] at hx ⊢
    rcases hx with hx | rfl | hx
    · exact Or.inl (Or.inl hx)
    · exact Or.inr (Nat.le_refl _)
    · exact Or.inl (Or.inr hx)

theorem loc_trans {h h' h'' : Heap ν} {m m' m'' : OMap κ Nat} (h0 : h.Old) (hg : Good lt h m)
    (h1 : Loc lt h m h' m') (h2 : Loc lt h' m' h'' m'') : Loc lt h m h'' m'' := by
  refine ⟨h2.good, h2.old, Nat.le_trans h1.next h2.next, ?_, ?_, ?_⟩
  · intro a ha ha''
    by_cases hm : a ∈ m'.entries.map Prod.snd
    · rw [h2.dead a hm ha'']
      rcases h1.src a hm with hh | hh
      · exact absurd hh ha
      · cases hc : h.cell a with
        | none => rfl
        | some v => exact absurd (h0 a (by simp [hc])) (by omega)
    · rw [h2.frame a hm ha'', h1.frame a ha hm]
  · intro a ha ha''
    by_cases hm : a ∈ m'.entries.map Prod.snd
    · exact h2.dead a hm ha''
    · rw [h2.frame a hm ha'', h1.dead a ha hm]
  · intro a ha
    rcases h2.src a ha with hh | hh
    · exact h1.src a hh
    · exact Or.inr (Nat.le_trans h1.next hh)

theorem loc_refl {h : Heap ν} {m : OMap κ Nat} (hg : Good lt h m) (ho : h.Old) : Loc lt h m h m :=
  ⟨hg, ho, Nat.le_refl _, fun _ _ _ => rfl, fun _ h1 h2 => absurd h1 h2, fun _ h1 => Or.inl h1⟩

/-- Values of entries that stay are unchanged by `drop` and `alloc`. -/
theorem nodup_ne {l : List (κ × Nat)} {a b : List (κ × Nat)} {e : κ × Nat} (hl : l = a ++ e :: b)
    (hn : (l.map Prod.snd).Nodup) : e.2 ∉ (a ++ b).map Prod.snd := by
  subst hl
  rw [List.map_append, List.map_cons] at hn
  rw [List.map_append]
  exact (List.nodup_cons.1 ((List.perm_middle.nodup_iff).1 hn)).1

theorem loc_erase {h : Heap ν} {a b : List (κ × Nat)} {e : κ × Nat}
    (hg : Good lt h (mk (a ++ e :: b))) (ho : h.Old) :
    Loc lt h (mk (a ++ e :: b)) (h.drop [e.2]) (mk (a ++ b)) := by
  have hne := nodup_ne rfl hg.nodup
  refine loc_drop hg ho (List.Sublist.append_left (List.sublist_cons_self _ _) _) ?_
  intro x
  simp only [List.mem_singleton]
  constructor
  · rintro rfl; exact ⟨by simp, hne⟩
  · rintro ⟨h1, h2⟩
    simp only [List.map_append, List.map_cons, List.mem_append, List.mem_cons] at h1 h2
    rcases h1 with h1 | h1 | h1
    · exact absurd (Or.inl h1) h2
    · exact h1
    · exact absurd (Or.inr h1) h2

theorem drop_alloc {h : Heap ν} {x : Nat} (hx : x < h.next) (v : ν) :
    (h.alloc v).1.drop [x] = ((h.drop [x]).alloc v).1 := by
  simp only [Heap.alloc, Heap.drop, List.mem_singleton, Heap.mk.injEq, true_and]
  funext a
  by_cases h1 : a = x
  · subst h1
    rw [if_pos rfl, if_neg (by omega), if_pos rfl]
  · simp [h1]

/-- `Insert`: an entry with a new object for the key, all others kept. -/
theorem insert_ok (hlt : IsSTO lt) {h : Heap ν} {m : OMap κ Nat} (hg : Good lt h m) (ho : h.Old)
    (k : κ) (v : ν) (g : Bool) : ∃ h' m', insert lt h (liftM m) k v g = some (h', liftM m') ∧
      Loc lt h m h' m' ∧ (k, h.next) ∈ m'.entries ∧ h'.cell h.next = some v ∧
      (∀ k', k' ≠ k → ∀ a, (k', a) ∈ m'.entries ↔ (k', a) ∈ m.entries) ∧
      (∀ k', k' ≠ k → ∀ a, (k', a) ∈ m.entries → h'.cell a = h.cell a) := by
  rcases mlook hlt hg.wf k with ⟨a, b, rfl, hlb, ha, hb⟩ | ⟨a, b, x, rfl, hlb, ha, hb⟩
  · refine ⟨_, mk (a ++ (k, h.next) :: b), ?_, loc_insert v hg ho ha hb, by simp [mk],
      by simp [Heap.alloc], ?_, ?_⟩
    · simp only at hlb
      simp only [insert, liftM, mk, hlb]
      have e2 := insertAt_absent hlt (a := a) (b := b) (k := k) hb
      have e3 := entriesInsert_eq a b k v g h
      simp only [e2, e3]
      cases b with
      | nil => simp
      | cons y b =>
        have h1 : ((a ++ y :: b).map Prod.fst)[a.length]? = some y.1 := by
          rw [List.map_append, List.getElem?_append_right (by simp)]; simp
        rw [h1]
        simp [hb y]
    · intro k' hk x
      simp [mk, hk]
    · intro k' hk x hx
      simp only [Heap.alloc]
      rw [if_neg]
      rintro rfl
      exact fresh_not_mem hg ho (Nat.le_refl _) (mem_snd.2 ⟨k', hx⟩)
  · have hx : h.cell x ≠ none := hg.live (k, x) (by simp)
    obtain ⟨v0, hv0⟩ := Option.ne_none_iff_exists'.1 hx
    have hxl : x < h.next := ho x hx
    have he := loc_erase (lt := lt) (h := h) (a := a) (b := b) (e := (k, x)) hg ho
    refine ⟨(h.alloc v).1.drop [x], mk (a ++ (k, h.next) :: b), ?_, ?_, by simp [mk], ?_, ?_, ?_⟩
    · simp only at hlb
      simp only [insert, liftM, mk, hlb]
      have h1 : ((a ++ (k, x) :: b).map Prod.fst)[a.length]? = some k := by
        rw [List.map_append, List.getElem?_append_right (by simp)]; simp
      have h2 := entriesReplace_eq a b (k, x) k v v0 h hv0 hxl
      rw [h1]
      simp only [hlt.irrefl, Bool.false_eq_true, if_false]
      rw [h2]
      simp
    · rw [drop_alloc hxl]
      exact loc_trans ho hg he (loc_insert (k := k) v he.good he.old ha hb)
    · rw [drop_alloc hxl]; simp [Heap.alloc, Heap.drop]
    · intro k' hk y
      simp [mk, hk]
    · intro k' hk y hy
      have hne := nodup_ne rfl hg.nodup
      have hy' : y ∈ (a ++ b).map Prod.snd := by
        refine mem_snd.2 ⟨k', ?_⟩
        simpa [hk] using hy
      have h1 : y ≠ x := fun hh => hne (by simpa [hh] using hy')
      have h2 : y ≠ h.next := by
        have := ho y (hg.live _ hy); omega
      simp [Heap.drop, Heap.alloc, h1, h2]

/-- `Fetch`: the entry of the key is kept; without one, a new entry with a new object. -/
theorem fetch_ok (hlt : IsSTO lt) {h : Heap ν} {m : OMap κ Nat} (hg : Good lt h m) (ho : h.Old)
    (k : κ) (v : ν) (g : Bool) : ∃ h' m', fetch lt h (liftM m) k v g = some (h', liftM m') ∧
      Loc lt h m h' m' ∧
      (∀ k' a, (k', a) ∈ m.entries → (k', a) ∈ m'.entries ∧ h'.cell a = h.cell a) ∧
      (∀ k', k' ≠ k → ∀ a, (k', a) ∈ m'.entries ↔ (k', a) ∈ m.entries) ∧
      ((∀ a, (k, a) ∉ m.entries) → (k, h.next) ∈ m'.entries ∧ h'.cell h.next = some v) := by
  rcases mlook hlt hg.wf k with ⟨a, b, rfl, hlb, ha, hb⟩ | ⟨a, b, x, rfl, hlb, ha, hb⟩
  · refine ⟨_, mk (a ++ (k, h.next) :: b), ?_, loc_insert v hg ho ha hb, ?_, ?_,
      fun _ => ⟨by simp [mk], by simp [Heap.alloc]⟩⟩
    · simp only at hlb
      simp only [fetch, liftM, mk, hlb]
      have e2 := insertAt_absent hlt (a := a) (b := b) (k := k) hb
      have e3 := entriesInsert_eq a b k v g h
      simp only [e2, e3]
      cases b with
      | nil => simp
      | cons y b =>
        have h1 : ((a ++ y :: b).map Prod.fst)[a.length]? = some y.1 := by
          rw [List.map_append, List.getElem?_append_right (by simp)]; simp
        rw [h1]
        simp [hb y]
    · intro k' x hx
      constructor
      · simp only [mk, List.mem_append, List.mem_cons] at hx ⊢
        rcases hx with hx | hx
        · exact Or.inl hx
        · exact Or.inr (Or.inr hx)
      · simp only [Heap.alloc]
        rw [if_neg]
        rintro rfl
        exact fresh_not_mem hg ho (Nat.le_refl _) (mem_snd.2 ⟨k', hx⟩)
    · intro k' hk x
      simp [mk, hk]
  · refine ⟨h, _, ?_, loc_refl hg ho, fun k' y hy => ⟨hy, rfl⟩, fun _ _ _ => Iff.rfl,
      fun hh => absurd (by simp) (hh x)⟩
    simp only at hlb
    simp only [fetch, liftM, hlb]
    have h1 : ((a ++ (k, x) :: b).map Prod.fst)[a.length]? = some k := by
      rw [List.map_append, List.getElem?_append_right (by simp)]; simp
    rw [h1]
    simp [hlt.irrefl]

theorem drop_cell {h : Heap ν} {as : List Nat} {a : Nat} (ha : a ∉ as) :
    (h.drop as).cell a = h.cell a := by simp [Heap.drop, ha]

/-- `Erase`: the entry of the key goes, with its object. -/
theorem erase_ok (hlt : IsSTO lt) {h : Heap ν} {m : OMap κ Nat} (hg : Good lt h m) (ho : h.Old)
    (k : κ) : ∃ h' m', erase lt h (liftM m) k = some (h', liftM m') ∧ Loc lt h m h' m' ∧
      (∀ a, (k, a) ∉ m'.entries) ∧
      (∀ k', k' ≠ k → ∀ a, (k', a) ∈ m'.entries ↔ (k', a) ∈ m.entries) ∧
      (∀ k', k' ≠ k → ∀ a, (k', a) ∈ m.entries → h'.cell a = h.cell a) := by
  rcases mlook hlt hg.wf k with ⟨a, b, rfl, hlb, ha, hb⟩ | ⟨a, b, x, rfl, hlb, ha, hb⟩
  · have hna := not_mem_absent hlt ha hb
    refine ⟨h, _, ?_, loc_refl hg ho, ?_, fun _ _ _ => Iff.rfl, fun _ _ _ _ => rfl⟩
    · simp only at hlb
      simp only [erase, liftM, hlb]
      cases b with
      | nil => simp
      | cons y b =>
        have h1 : ((a ++ y :: b).map Prod.fst)[a.length]? = some y.1 := by
          rw [List.map_append, List.getElem?_append_right (by simp)]; simp
        rw [h1]
        simp [hb y]
    · intro x hx
      rcases List.mem_append.1 hx with hx | hx
      · exact hna.1 x hx
      · exact hna.2 x hx
  · have hna := not_mem_absent hlt ha hb
    have hx : h.cell x ≠ none := hg.live (k, x) (by simp)
    obtain ⟨v0, hv0⟩ := Option.ne_none_iff_exists'.1 hx
    refine ⟨_, mk (a ++ b), ?_, loc_erase hg ho, ?_, ?_, ?_⟩
    · simp only at hlb
      simp only [erase, liftM, mk, hlb]
      have h1 : ((a ++ (k, x) :: b).map Prod.fst)[a.length]? = some k := by
        rw [List.map_append, List.getElem?_append_right (by simp)]; simp
      have h2 : ((a ++ (k, x) :: b).map Prod.fst).eraseIdx a.length = (a ++ b).map Prod.fst := by
        rw [List.map_append, List.eraseIdx_append_of_length_le (by simp)]; simp
      have h3 := vecErase_eq b (k, x) h a
      rw [free_eq hv0] at h3
      rw [h1]
      simp only [hlt.irrefl, Bool.false_eq_true, if_false]
      rw [h2, h3]
      rfl
    · intro y hy
      rcases List.mem_append.1 hy with hy | hy
      · exact hna.1 y hy
      · exact hna.2 y hy
    · intro k' hk y
      simp [mk, hk]
    · intro k' hk y hy
      have hne := nodup_ne rfl hg.nodup
      have hy' : y ∈ (a ++ b).map Prod.snd := by
        refine mem_snd.2 ⟨k', ?_⟩
        simpa [hk] using hy
      exact drop_cell (by simpa using fun hh : y = x => hne (by simpa [hh] using hy'))

/-- The predicate of `EraseIf` on an entry. -/
def hit (p : κ → ν → Bool) (h : Heap ν) (e : κ × Nat) : Bool :=
  match h.cell e.2 with
  | some v => p e.1 v
  | none => false

theorem eraseIfFrom_ok (p : κ → ν → Bool) (b : List (κ × Nat)) : ∀ (a : List (κ × Nat)) (h : Heap ν)
    (fuel : Nat), b.length ≤ fuel → (∀ e ∈ b, h.cell e.2 ≠ none) → (b.map Prod.snd).Nodup →
    eraseIfFrom p fuel h (liftM (mk (a ++ b))) a.length =
      some (h.drop ((b.filter (hit p h)).map Prod.snd),
        liftM (mk (a ++ b.filter fun e => !hit p h e))) := by
  induction b with
  | nil =>
    intro a h fuel _ _ _
    cases fuel with
    | zero => simp [eraseIfFrom, liftM, mk, drop_nil]
    | succ f => simp [eraseIfFrom, liftM, mk, drop_nil]
  | cons e b ih =>
    intro a h fuel hf hl hn
    obtain ⟨f, rfl⟩ : ∃ f, fuel = f + 1 := ⟨fuel - 1, by simp at hf; omega⟩
    simp only [List.length_cons, Nat.add_le_add_iff_right] at hf
    rw [List.map_cons, List.nodup_cons] at hn
    obtain ⟨v, hv⟩ := Option.ne_none_iff_exists'.1 (hl e (by simp))
    have h1 : (lift (a ++ e :: b))[a.length]? = some (e.1, some e.2) := by
      rw [lift_append, List.getElem?_append_right (by simp)]; simp
    have hh : hit p h e = p e.1 v := by simp [hit, hv]
    simp only [eraseIfFrom]
    rw [show (liftM (mk (a ++ e :: b))).slots = lift (a ++ e :: b) from rfl, h1]
    simp only [getPtr, hv]
    cases hp : p e.1 v
    · have := ih (a ++ [e]) h f hf (fun x hx => hl x (by simp [hx])) hn.2
      simp only [List.length_append, List.length_singleton, List.append_assoc,
        List.singleton_append] at this
      rw [hp] at hh
      simp only [Bool.false_eq_true, if_false, this, List.filter_cons, hh, Bool.not_false, if_true]
    · rw [hp] at hh
      have h3 := vecErase_eq b e h a
      rw [free_eq hv] at h3
      have h2 : ((a ++ e :: b).map Prod.fst).eraseIdx a.length = (a ++ b).map Prod.fst := by
        rw [List.map_append, List.eraseIdx_append_of_length_le (by simp)]; simp
      have hne : ∀ x ∈ b, x.2 ∉ [e.2] := by
        intro x hx hh
        rw [List.mem_singleton] at hh
        exact hn.1 (hh ▸ List.mem_map_of_mem hx)
      have h4 := ih a (h.drop [e.2]) f hf (fun x hx => by
        rw [drop_cell (hne x hx)]; exact hl x (by simp [hx])) hn.2
      have hq : ∀ x ∈ b, hit p (h.drop [e.2]) x = hit p h x := by
        intro x hx
        simp only [hit]; rw [drop_cell (hne x hx)]
      have hq' : ∀ x ∈ b, (!hit p (h.drop [e.2]) x) = !hit p h x := fun x hx => by rw [hq x hx]
      rw [List.filter_congr hq, List.filter_congr hq', drop_drop] at h4
      simp only [if_true, h3, Option.map_some]
      rw [show (liftM (mk (a ++ e :: b))).keys = (a ++ e :: b).map Prod.fst from rfl, h2]
      have h5 : (⟨(a ++ b).map Prod.fst, lift (a ++ b)⟩ : NMap κ) = liftM (mk (a ++ b)) := rfl
      rw [h5, h4]
      simp [List.filter_cons, hh]

/-- `EraseIf`: the entries satisfying the predicate go, with their objects. -/
theorem eraseIf_ok {h : Heap ν} {m : OMap κ Nat} (hg : Good lt h m) (ho : h.Old)
    (p : κ → ν → Bool) : ∃ h' m', eraseIf p h (liftM m) = some (h', liftM m') ∧ Loc lt h m h' m' ∧
      (∀ k a, (k, a) ∈ m'.entries ↔ (k, a) ∈ m.entries ∧ hit p h (k, a) = false) ∧
      (∀ k a, (k, a) ∈ m'.entries → h'.cell a = h.cell a) := by
  obtain ⟨keys, l⟩ := m
  obtain rfl : keys = l.map Prod.fst := hg.wf.1
  have h1 := eraseIfFrom_ok p l [] h l.length (Nat.le_refl _) hg.live hg.nodup
  have key : ∀ e ∈ l, e.2 ∈ (l.filter (hit p h)).map Prod.snd → hit p h e = true := by
    intro e he hh
    obtain ⟨e', he', h2⟩ := List.mem_map.1 hh
    rw [List.mem_filter] at he'
    have := List.inj_on_of_nodup_map hg.nodup he'.1 he h2
    rw [← this]; exact he'.2
  refine ⟨h.drop ((l.filter (hit p h)).map Prod.snd), mk (l.filter fun e => !hit p h e), ?_, ?_, ?_, ?_⟩
  · simp only [eraseIf, liftM, mk, List.nil_append, List.length_nil, lift_length] at h1 ⊢
    exact h1
  · refine loc_drop hg ho List.filter_sublist ?_
    intro a
    constructor
    · intro ha
      obtain ⟨e, he, rfl⟩ := List.mem_map.1 ha
      rw [List.mem_filter] at he
      refine ⟨List.mem_map_of_mem he.1, fun hh => ?_⟩
      obtain ⟨e', he', h2⟩ := List.mem_map.1 hh
      rw [List.mem_filter] at he'
      have := List.inj_on_of_nodup_map hg.nodup he'.1 he.1 h2
      rw [this, he.2] at he'
      simp at he'
    · rintro ⟨ha, hb⟩
      obtain ⟨e, he, rfl⟩ := List.mem_map.1 ha
      refine List.mem_map_of_mem (List.mem_filter.2 ⟨he, ?_⟩)
      cases hh : hit p h e with
      | true => rfl
      | false => exact absurd (List.mem_map_of_mem (List.mem_filter.2 ⟨he, by simp [hh]⟩)) hb
  · intro k a
    simp [mk, List.mem_filter]
  · intro k a ha
    refine drop_cell (fun hh => ?_)
    simp only [mk, List.mem_filter] at ha
    have := key (k, a) ha.1 hh
    simp [this] at ha

theorem clear_ok {h : Heap ν} {m : OMap κ Nat} (hg : Good lt h m) (ho : h.Old) :
    ∃ h', clear h (liftM m) = some (h', liftM (mk [])) ∧ Loc lt h m h' (mk []) := by
  obtain ⟨keys, l⟩ := m
  obtain rfl : keys = l.map Prod.fst := hg.wf.1
  refine ⟨h.drop (l.map Prod.snd), ?_, loc_drop hg ho (List.nil_sublist _) (by simp)⟩
  simp only [clear, liftM, destroyAll_eq l h hg.live hg.nodup, Option.map_some]
  rfl

theorem reserve_ok (h : Heap ν) (m : NMap κ) (g : Bool) : reserve h m g = some (h, m) := by
  cases g
  · rfl
  · simp [reserve, destroyAll_null, relocate_fst]

theorem write_ok (hlt : IsSTO lt) {h : Heap ν} {m : OMap κ Nat} (hg : Good lt h m) (ho : h.Old)
    (k : κ) (v : ν) {x : Nat} (hk : (k, x) ∈ m.entries) :
    ∃ h', write lt h (liftM m) k v = some (h', liftM m) ∧ Loc lt h m h' m ∧ h'.cell x = some v ∧
      (∀ a, a ≠ x → h'.cell a = h.cell a) := by
  obtain ⟨v0, hv0⟩ := Option.ne_none_iff_exists'.1 (hg.live _ hk)
  simp only at hv0
  have hget := omap_get_spec hlt hg.wf k x hk
  have h1 : ∃ k', (lift m.entries)[OSet.lowerBound lt m.keys k]? = some (k', some x) := by
    simp only [OMap.get?, Option.map_eq_some_iff] at hget
    obtain ⟨e, he, rfl⟩ := hget
    exact ⟨e.1, by simp [lift, he]⟩
  obtain ⟨k', h1⟩ := h1
  have hx : x ∈ m.entries.map Prod.snd := mem_snd.2 ⟨k, hk⟩
  refine ⟨⟨h.next, fun b => if b = x then some v else h.cell b⟩, ?_, ⟨⟨hg.wf, ?_, hg.nodup⟩, ?_,
    Nat.le_refl _, ?_, ?_, fun a ha => Or.inl ha⟩, by simp, fun a ha => by simp [ha]⟩
  · simp only [write, liftM, h1, Heap.write, hv0, Option.map_some]
  · intro e he
    simp only
    split
    · simp
    · exact hg.live e he
  · intro a ha
    simp only at ha ⊢
    split at ha
    · rename_i hh; subst hh; exact ho _ (by simp [hv0])
    · exact ho a ha
  · intro a ha _
    simp only
    rw [if_neg]
    rintro rfl; exact ha hx
  · intro a h1 h2; exact absurd h1 h2

/-! ## Copies -/

/-- Entries copied one by one: the same keys and values in new objects. -/
structure Copies (h : Heap ν) (l : List (κ × Nat)) (gone : List Nat) (h' : Heap ν)
    (l' : List (κ × Nat)) : Prop where
  keys : l'.map Prod.fst = l.map Prod.fst
  to_ : ∀ k a, (k, a) ∈ l → ∃ a', (k, a') ∈ l' ∧ h'.cell a' = h.cell a
  from_ : ∀ k a', (k, a') ∈ l' → ∃ a, (k, a) ∈ l ∧ h'.cell a' = h.cell a
  new : ∀ a ∈ l'.map Prod.snd, h.next ≤ a
  nodup : (l'.map Prod.snd).Nodup
  next : h.next ≤ h'.next
  old : h'.Old
  rest : ∀ a, a ∉ l'.map Prod.snd → h'.cell a = if a ∈ gone then none else h.cell a

theorem copies_nil {h : Heap ν} (ho : h.Old) (d : List Nat) :
    Copies h ([] : List (κ × Nat)) d (h.drop d) [] := by
  refine ⟨rfl, by simp, by simp, by simp, by simp, Nat.le_refl _, ?_, fun a _ => rfl⟩
  intro a ha
  simp only [Heap.drop] at ha
  split at ha
  · exact absurd rfl ha
  · exact ho a ha

/-- One entry more: its object is created, and an object `as` (at most one) destroyed. -/
theorem copies_cons {h : Heap ν} (ho : h.Old) {k : κ} {a : Nat} {v : ν} {as d : List Nat}
    {l l' : List (κ × Nat)} {h' : Heap ν} (hv : h.cell a = some v)
    (has : ∀ x ∈ as, h.cell x ≠ none) (hd : ∀ x ∈ d, h.cell x ≠ none)
    (hl : ∀ e ∈ l, h.cell e.2 ≠ none ∧ e.2 ∉ as)
    (hc : Copies ((h.alloc v).1.drop as) l d h' l') :
    Copies h ((k, a) :: l) (as ++ d) h' ((k, h.next) :: l') := by
  have hnext : ((h.alloc v).1.drop as).next = h.next + 1 := rfl
  have hn1 : h.next ∉ l'.map Prod.snd := by
    intro hh; have := hc.new _ hh; rw [hnext] at this; omega
  have hn2 : h.next ∉ d := fun hh => Nat.lt_irrefl _ (ho _ (hd _ hh))
  have hn3 : h.next ∉ as := fun hh => Nat.lt_irrefl _ (ho _ (has _ hh))
  have hcell : h'.cell h.next = some v := by
    rw [hc.rest _ hn1, if_neg hn2]
    simp [Heap.drop, Heap.alloc, hn3]
  have hsame : ∀ e ∈ l, ((h.alloc v).1.drop as).cell e.2 = h.cell e.2 := by
    intro e he
    have h1 := hl e he
    have h2 := ho _ h1.1
    rw [drop_cell h1.2]
    simp only [Heap.alloc]
    rw [if_neg (by omega)]
  refine ⟨by simp [hc.keys], ?_, ?_, ?_, ?_, ?_, hc.old, ?_⟩
  · intro k' x hx
    rcases List.mem_cons.1 hx with hx | hx
    · simp only [Prod.mk.injEq] at hx
      obtain ⟨rfl, rfl⟩ := hx
      exact ⟨h.next, by simp, by rw [hcell, hv]⟩
    · obtain ⟨a', h1, h2⟩ := hc.to_ k' x hx
      exact ⟨a', by simp [h1], h2.trans (hsame _ hx)⟩
  · intro k' x hx
    rcases List.mem_cons.1 hx with hx | hx
    · simp only [Prod.mk.injEq] at hx
      obtain ⟨rfl, rfl⟩ := hx
      exact ⟨a, by simp, by rw [hcell, hv]⟩
    · obtain ⟨a', h1, h2⟩ := hc.from_ k' x hx
      exact ⟨a', by simp [h1], h2.trans (hsame _ h1)⟩
  · intro x hx
    rcases List.mem_cons.1 hx with rfl | hx
    · exact Nat.le_refl _
    · have := hc.new x hx; rw [hnext] at this; omega
  · exact List.nodup_cons.2 ⟨hn1, hc.nodup⟩
  · have := hc.next; rw [hnext] at this; omega
  · intro x hx
    rw [List.map_cons, List.mem_cons, not_or] at hx
    rw [hc.rest x hx.2]
    have hx1 : x ≠ h.next := hx.1
    by_cases h1 : x ∈ d
    · simp [h1]
    · by_cases h2 : x ∈ as
      · simp [h1, h2, Heap.drop]
      · simp [h1, h2, Heap.drop, Heap.alloc, hx1]

theorem copyAll_ok (l : List (κ × Nat)) : ∀ h : Heap ν, h.Old → (∀ e ∈ l, h.cell e.2 ≠ none) →
    ∃ h' l', copyAll h (lift l) = some (h', lift l') ∧ Copies h l [] h' l' := by
  induction l with
  | nil => intro h ho _; exact ⟨h, [], rfl, by simpa [drop_nil] using copies_nil ho []⟩
  | cons e l ih =>
    intro h ho hl
    obtain ⟨v, hv⟩ := Option.ne_none_iff_exists'.1 (hl e (by simp))
    have ho1 := alloc_old ho v
    obtain ⟨h', l', h1, h2⟩ := ih (h.alloc v).1 ho1 (by
      intro e' he'
      simp only [Heap.alloc]
      split
      · simp
      · exact hl e' (by simp [he']))
    refine ⟨h', (e.1, h.next) :: l', ?_, ?_⟩
    · simp only [lift_cons, copyAll, copyPtr, getPtr, hv, h1, Option.map_some]
      rfl
    · exact copies_cons (k := e.1) (as := []) (d := []) ho hv (by simp) (by simp)
        (fun e' he' => ⟨hl e' (by simp [he']), by simp⟩) (by rw [drop_nil]; exact h2)

theorem assignAll_ok (s : List (κ × Nat)) : ∀ (d : List (κ × Nat)) (h : Heap ν), h.Old →
    (∀ e ∈ s, h.cell e.2 ≠ none) → (∀ e ∈ d, h.cell e.2 ≠ none) → (d.map Prod.snd).Nodup →
    (∀ e ∈ s, e.2 ∉ d.map Prod.snd) →
    ∃ h' l', assignAll h (lift d) (lift s) = some (h', lift l') ∧
      Copies h s (d.map Prod.snd) h' l' := by
  induction s with
  | nil =>
    intro d h ho _ hd hn _
    refine ⟨h.drop (d.map Prod.snd), [], ?_, copies_nil ho _⟩
    cases d with
    | nil => simp [assignAll, destroyAll, drop_nil]
    | cons e d =>
      have := destroyAll_eq (e :: d) h hd hn
      rw [lift_cons] at this
      simp only [lift_cons, lift_nil, assignAll, this, Option.map_some]
  | cons e s ih =>
    intro d h ho hs hd hn hsd
    cases d with
    | nil =>
      obtain ⟨h', l', h1, h2⟩ := copyAll_ok (e :: s) h ho hs
      exact ⟨h', l', by simpa [assignAll] using h1, h2⟩
    | cons c d =>
      obtain ⟨v, hv⟩ := Option.ne_none_iff_exists'.1 (hs e (by simp))
      obtain ⟨w, hw⟩ := Option.ne_none_iff_exists'.1 (hd c (by simp))
      have hc : (h.alloc v).1.cell c.2 = some w := by
        have := ho c.2 (by simp [hw])
        simp only [Heap.alloc]; rw [if_neg (by omega)]; exact hw
      rw [List.map_cons, List.nodup_cons] at hn
      have hold : ((h.alloc v).1.drop [c.2]).Old := by
        intro a ha
        simp only [Heap.drop] at ha
        split at ha
        · exact absurd rfl ha
        · exact alloc_old ho v a ha
      have hkeep : ∀ a, h.cell a ≠ none → a ≠ c.2 → ((h.alloc v).1.drop [c.2]).cell a ≠ none := by
        intro a ha hac
        rw [drop_cell (by simpa using hac)]
        simp only [Heap.alloc]
        split
        · simp
        · exact ha
      obtain ⟨h', l', h1, h2⟩ := ih d ((h.alloc v).1.drop [c.2]) hold
        (fun x hx => hkeep _ (hs x (by simp [hx])) (fun hh => hsd x (by simp [hx]) (by simp [hh])))
        (fun x hx => hkeep _ (hd x (by simp [hx]))
          (fun hh => hn.1 (hh ▸ List.mem_map_of_mem hx))) hn.2
        (fun x hx hh => hsd x (by simp [hx]) (by rw [List.map_cons]; exact List.mem_cons_of_mem _ hh))
      refine ⟨h', (e.1, h.next) :: l', ?_, ?_⟩
      · simp only [lift_cons, assignAll, copyAssignPtr, copyPtr, getPtr, hv, assignPtr, destroyPtr,
          free_eq hc, h1, Option.map_some]
        rfl
      · have := copies_cons (k := e.1) (as := [c.2]) (d := d.map Prod.snd) ho hv
          (by simp [hw]) (fun x hx => by
            obtain ⟨y, hy, rfl⟩ := List.mem_map.1 hx
            exact hd y (by simp [hy]))
          (fun e' he' => ⟨hs e' (by simp [he']), fun hh => hsd e' (by simp [he']) (by
            rw [List.mem_singleton] at hh; simp [hh])⟩) h2
        simpa using this

/-- A copy as a change of the map that receives it. -/
theorem loc_copies {h h' : Heap ν} {m : OMap κ Nat} {l l' : List (κ × Nat)} (ho : h.Old)
    (hm : Good lt h (mk l)) (hd : Good lt h m) (hc : Copies h l (m.entries.map Prod.snd) h' l') :
    Loc lt h m h' (mk l') := by
  refine ⟨⟨⟨rfl, ?_⟩, ?_, hc.nodup⟩, hc.old, hc.next, ?_, ?_, fun a ha => Or.inr (hc.new a ha)⟩
  · have := hm.wf.2
    simp only [mk] at this ⊢
    rw [hc.keys]; exact this
  · intro e he
    obtain ⟨a, h1, h2⟩ := hc.from_ e.1 e.2 he
    rw [h2]; exact hm.live _ h1
  · intro a h1 h2
    rw [hc.rest a h2, if_neg h1]
  · intro a h1 h2
    rw [hc.rest a h2, if_pos h1]

theorem copyAssign_ok {h : Heap ν} {d s : OMap κ Nat} (ho : h.Old) (hd : Good lt h d)
    (hs : Good lt h s) (hds : ∀ e ∈ s.entries, e.2 ∉ d.entries.map Prod.snd) (g : Bool) :
    ∃ h' l', copyAssign h (liftM d) (liftM s) g = some (h', liftM (mk l')) ∧
      Copies h s.entries (d.entries.map Prod.snd) h' l' := by
  cases g
  · obtain ⟨h', l', h1, h2⟩ := assignAll_ok s.entries d.entries h ho hs.live hd.live hd.nodup hds
    refine ⟨h', l', ?_, h2⟩
    simp only [copyAssign, liftM, Bool.false_eq_true, if_false, h1, Option.map_some, mk, h2.keys,
      hs.wf.1]
  · obtain ⟨h1, l', h2, h3⟩ := copyAll_ok s.entries h ho hs.live
    have hfr : ∀ a ∈ d.entries.map Prod.snd, a ∉ l'.map Prod.snd := by
      intro a ha hh
      exact fresh_not_mem hd ho (h3.new a hh) ha
    have h4 := destroyAll_eq d.entries h1 (by
      intro e he
      rw [h3.rest _ (hfr _ (List.mem_map_of_mem he))]
      simpa using hd.live e he) hd.nodup
    refine ⟨h1.drop (d.entries.map Prod.snd), l', ?_, ?_⟩
    · simp only [copyAssign, liftM, if_true, h2, h4, Option.map_some, mk, h3.keys, hs.wf.1]
    · have hk : ∀ k a, (k, a) ∈ l' → (h1.drop (d.entries.map Prod.snd)).cell a = h1.cell a := by
        intro k a ha
        exact drop_cell (fun hh => hfr a hh (mem_snd.2 ⟨k, ha⟩))
      refine ⟨h3.keys, ?_, ?_, h3.new, h3.nodup, h3.next, ?_, ?_⟩
      · intro k a ha
        obtain ⟨a', h5, h6⟩ := h3.to_ k a ha
        exact ⟨a', h5, (hk _ _ h5).trans h6⟩
      · intro k a ha
        obtain ⟨a', h5, h6⟩ := h3.from_ k a ha
        exact ⟨a', h5, (hk _ _ ha).trans h6⟩
      · intro a ha
        simp only [Heap.drop] at ha
        split at ha
        · exact absurd rfl ha
        · exact h3.old a ha
      · intro a ha
        simp only [Heap.drop]
        split
        · rfl
        · rw [h3.rest a ha]; simp

/-! ## All maps -/

/-- The map in a variable; a variable without a map holds nothing. -/
def con : Option (OMap κ Nat) → OMap κ Nat
  | some m => m
  | none => mk []

/-- Every live object belongs to one entry of one map. -/
structure Inv (lt : κ → κ → Bool) (s : State κ ν) (A : Nat → Option (OMap κ Nat)) : Prop where
  maps : ∀ x, s.maps x = (A x).map liftM
  good : ∀ x, Good lt s.heap (con (A x))
  old : s.heap.Old
  owned : ∀ a, s.heap.cell a ≠ none → ∃ x, a ∈ (con (A x)).entries.map Prod.snd
  disj : ∀ x y a, a ∈ (con (A x)).entries.map Prod.snd → a ∈ (con (A y)).entries.map Prod.snd → x = y

/-- Variable `x` replaced. -/
def upd (A : Nat → Option (OMap κ Nat)) (x : Nat) (o : Option (OMap κ Nat)) :
    Nat → Option (OMap κ Nat) := fun y => if y = x then o else A y

@[simp] theorem upd_same (A : Nat → Option (OMap κ Nat)) (x : Nat) (o : Option (OMap κ Nat)) :
    upd A x o x = o := by simp [upd]
theorem upd_ne (A : Nat → Option (OMap κ Nat)) {x y : Nat} (o : Option (OMap κ Nat)) (h : y ≠ x) :
    upd A x o y = A y := by simp [upd, h]

theorem abs_eq {s : State κ ν} {A : Nat → Option (OMap κ Nat)} (hI : Inv lt s A) (x : Nat) :
    abs lt s x = (A x).map fun m k => find lt s.heap (liftM m) k := by
  simp only [abs, hI.maps]
  cases A x <;> rfl

theorem abs_some {s : State κ ν} {A : Nat → Option (OMap κ Nat)} (hI : Inv lt s A) {x : Nat}
    {m : OMap κ Nat} (hx : A x = some m) : abs lt s x = some fun k => find lt s.heap (liftM m) k := by
  rw [abs_eq hI, hx]; rfl

theorem good_nil (h : Heap ν) : Good lt h (mk ([] : List (κ × Nat))) :=
  ⟨⟨rfl, List.Pairwise.nil⟩, by simp [mk], by simp [mk]⟩

theorem free_new (hlt : IsSTO lt) {s : State κ ν} {A : Nat → Option (OMap κ Nat)} (hI : Inv lt s A)
    {a : Nat} (ha : s.heap.next ≤ a) : Spec.Free (abs lt s) a := by
  intro x f k v hx hk
  rw [abs_eq hI] at hx
  cases hA : A x with
  | none => rw [hA] at hx; cases hx
  | some m =>
    rw [hA] at hx
    simp only [Option.map_some, Option.some.injEq] at hx
    subst hx
    have hg := hI.good x
    rw [hA] at hg
    have := ((find_iff hlt hg.wf k a v).1 hk).2
    have := hI.old a (by simp [this])
    omega

/-- A change of one variable. -/
theorem inv_put (hlt : IsSTO lt) {s : State κ ν} {A : Nat → Option (OMap κ Nat)} (hI : Inv lt s A)
    {x : Nat} {h' : Heap ν} {o : Option (OMap κ Nat)}
    (hL : Loc lt s.heap (con (A x)) h' (con o)) :
    Inv lt (s.put x h' (o.map liftM)) (upd A x o) ∧
      Spec.Same (abs lt s) (abs lt (s.put x h' (o.map liftM))) x := by
  have hother : ∀ y, y ≠ x → ∀ a, a ∈ (con (A y)).entries.map Prod.snd → h'.cell a = s.heap.cell a := by
    intro y hy a ha
    refine hL.frame a (fun hh => hy (hI.disj _ _ _ ha hh)) (fun hh => ?_)
    rcases hL.src a hh with h1 | h1
    · exact hy (hI.disj _ _ _ ha h1)
    · exact fresh_not_mem (hI.good y) hI.old h1 ha
  have hInv : Inv lt (s.put x h' (o.map liftM)) (upd A x o) := by
    refine ⟨?_, ?_, hL.old, ?_, ?_⟩
    · intro y
      simp only [State.put, upd]
      split
      · rfl
      · exact hI.maps y
    · intro y
      by_cases hy : y = x
      · subst hy; rw [upd_same]; exact hL.good
      · rw [upd_ne _ _ hy]
        refine ⟨(hI.good y).wf, ?_, (hI.good y).nodup⟩
        intro e he
        have := hother y hy e.2 (List.mem_map_of_mem he)
        simp only [State.put]
        rw [this]
        exact (hI.good y).live e he
    · intro a ha
      simp only [State.put] at ha
      by_cases h1 : a ∈ (con o).entries.map Prod.snd
      · exact ⟨x, by rw [upd_same]; exact h1⟩
      · by_cases h2 : a ∈ (con (A x)).entries.map Prod.snd
        · exact absurd (hL.dead a h2 h1) ha
        · rw [hL.frame a h2 h1] at ha
          obtain ⟨y, hy⟩ := hI.owned a ha
          have hyx : y ≠ x := by rintro rfl; exact h2 hy
          exact ⟨y, by rw [upd_ne _ _ hyx]; exact hy⟩
    · have key : ∀ y a, y ≠ x → a ∈ (con o).entries.map Prod.snd →
          a ∈ (con (A y)).entries.map Prod.snd → False := by
        intro y a hy h1 h2
        rcases hL.src a h1 with h3 | h3
        · exact hy (hI.disj _ _ _ h2 h3)
        · exact fresh_not_mem (hI.good y) hI.old h3 h2
      intro y z a hy hz
      by_cases h1 : y = x <;> by_cases h2 : z = x
      · rw [h1, h2]
      · rw [h1, upd_same] at hy; rw [upd_ne _ _ h2] at hz
        exact (key z a h2 hy hz).elim
      · rw [h2, upd_same] at hz; rw [upd_ne _ _ h1] at hy
        exact (key y a h1 hz hy).elim
      · rw [upd_ne _ _ h1] at hy; rw [upd_ne _ _ h2] at hz
        exact hI.disj _ _ _ hy hz
  refine ⟨hInv, ?_⟩
  intro y hy
  rw [abs_eq hInv, abs_eq hI, upd_ne _ _ hy]
  cases hA : A y with
  | none => rfl
  | some m =>
    have hg := hI.good y
    rw [hA] at hg
    simp only [Option.map_some, Option.some.injEq]
    funext k
    refine find_congr hlt hg.wf hg.wf (fun _ => Iff.rfl) ?_
    intro a ha
    simp only [State.put]
    exact hother y hy a (by rw [hA]; exact mem_snd.2 ⟨k, ha⟩)

/-- A map moved to a variable which holds nothing. -/
theorem inv_move {s : State κ ν} {A : Nat → Option (OMap κ Nat)} (hI : Inv lt s A)
    {x y : Nat} {m : OMap κ Nat} (hx : A x = some m) (hy : (con (A y)).entries = []) (hxy : x ≠ y) :
    ∃ A', Inv lt ((s.put y s.heap (some (liftM m))).put x s.heap (some NMap.empty)) A' ∧
      A' y = some m ∧ A' x = some (mk []) ∧ ∀ z, z ≠ x → z ≠ y → A' z = A z := by
  have e1 : ∀ z, z ≠ x → z ≠ y → upd (upd A y (some m)) x (some (mk [])) z = A z := by
    intro z h1 h2; rw [upd_ne _ _ h1, upd_ne _ _ h2]
  have e2 : upd (upd A y (some m)) x (some (mk [])) y = some m := by
    rw [upd_ne _ _ (Ne.symm hxy), upd_same]
  -- where an object is after the move
  have key : ∀ z a, a ∈ (con (upd (upd A y (some m)) x (some (mk [])) z)).entries.map Prod.snd →
      (z = y ∧ a ∈ (con (A x)).entries.map Prod.snd) ∨
        (z ≠ x ∧ z ≠ y ∧ a ∈ (con (A z)).entries.map Prod.snd) := by
    intro z a ha
    by_cases h1 : z = x
    · subst h1; rw [upd_same] at ha; simp [con, mk] at ha
    · by_cases h2 : z = y
      · subst h2; rw [e2] at ha; rw [hx]; exact Or.inl ⟨rfl, ha⟩
      · rw [e1 z h1 h2] at ha; exact Or.inr ⟨h1, h2, ha⟩
  refine ⟨upd (upd A y (some m)) x (some (mk [])), ⟨?_, ?_, hI.old, ?_, ?_⟩, e2, upd_same _ _ _, e1⟩
  · intro z
    simp only [State.put, upd]
    split
    · rfl
    · split
      · rfl
      · exact hI.maps z
  · intro z
    by_cases h1 : z = x
    · subst h1; rw [upd_same]; exact good_nil _
    · by_cases h2 : z = y
      · subst h2; rw [e2]
        have := hI.good x
        rw [hx] at this; exact this
      · rw [e1 z h1 h2]; exact hI.good z
  · intro a ha
    obtain ⟨z, hz⟩ := hI.owned a ha
    by_cases h1 : z = x
    · subst h1; exact ⟨y, by rw [e2]; rw [hx] at hz; exact hz⟩
    · by_cases h2 : z = y
      · subst h2; rw [hy] at hz; simp at hz
      · exact ⟨z, by rw [e1 z h1 h2]; exact hz⟩
  · intro z w a hz hw
    rcases key z a hz with ⟨rfl, h1⟩ | ⟨h1, h2, h3⟩ <;> rcases key w a hw with ⟨rfl, h4⟩ | ⟨h4, h5, h6⟩
    · rfl
    · exact absurd (hI.disj _ _ _ h1 h6).symm h4
    · exact absurd (hI.disj _ _ _ h3 h4) h1
    · exact hI.disj _ _ _ h3 h6

theorem copied_of (hlt : IsSTO lt) {s : State κ ν} {A : Nat → Option (OMap κ Nat)} (hI : Inv lt s A)
    {m : OMap κ Nat} (hm : Good lt s.heap m) {h' : Heap ν} {gone : List Nat} {l' : List (κ × Nat)}
    (hc : Copies s.heap m.entries gone h' l') (hg' : Good lt h' (mk l')) :
    Spec.Copied (abs lt s) (fun k => find lt s.heap (liftM m) k)
      (fun k => find lt h' (liftM (mk l')) k) := by
  refine ⟨?_, ?_, ?_⟩
  · intro k
    apply Option.ext
    intro v
    simp only [Option.map_eq_some_iff]
    constructor
    · rintro ⟨⟨a, w⟩, h1, rfl⟩
      obtain ⟨h2, h3⟩ := (find_iff hlt hg'.wf k a w).1 h1
      obtain ⟨a', h4, h5⟩ := hc.from_ k a h2
      exact ⟨(a', w), (find_iff hlt hm.wf k a' w).2 ⟨h4, h5 ▸ h3⟩, rfl⟩
    · rintro ⟨⟨a, w⟩, h1, rfl⟩
      obtain ⟨h2, h3⟩ := (find_iff hlt hm.wf k a w).1 h1
      obtain ⟨a', h4, h5⟩ := hc.to_ k a h2
      exact ⟨(a', w), (find_iff hlt hg'.wf k a' w).2 ⟨h4, h5.trans h3⟩, rfl⟩
  · intro k a v hk
    obtain ⟨h1, _⟩ := (find_iff hlt hg'.wf k a v).1 hk
    exact free_new hlt hI (hc.new a (mem_snd.2 ⟨k, h1⟩))
  · intro k k' a v v' h1 h2
    have h3 := ((find_iff hlt hg'.wf k a v).1 h1).1
    have h4 := ((find_iff hlt hg'.wf k' a v').1 h2).1
    exact congrArg Prod.fst (List.inj_on_of_nodup_map hg'.nodup h3 h4 rfl)

/-- Every legal call succeeds and does what the specification says. -/
theorem step_ok (hlt : IsSTO lt) {s : State κ ν} {A : Nat → Option (OMap κ Nat)} (hI : Inv lt s A)
    (op : Op κ ν) (hl : Spec.Legal (abs lt s) op) :
    ∃ s' A', step lt s op = some s' ∧ Inv lt s' A' ∧ Spec.Step (abs lt s) (abs lt s') op := by
  have hsome : ∀ x, abs lt s x ≠ none → ∃ m, A x = some m := by
    intro x hx
    rw [abs_eq hI] at hx
    cases hA : A x with
    | none => rw [hA] at hx; exact absurd rfl hx
    | some m => exact ⟨m, rfl⟩
  have hnone : ∀ x, abs lt s x = none → A x = none := by
    intro x hx
    rw [abs_eq hI] at hx
    cases hA : A x with
    | none => rfl
    | some m => rw [hA] at hx; cases hx
  have hgood : ∀ x m, A x = some m → Good lt s.heap m := by
    intro x m hx
    have := hI.good x
    rw [hx] at this; exact this
  have hmaps : ∀ x m, A x = some m → s.maps x = some (liftM m) := by
    intro x m hx; rw [hI.maps, hx]; rfl
  -- a member function on a variable
  have hon : ∀ x m f h' m', A x = some m → f s.heap (liftM m) = some (h', liftM m') →
      Loc lt s.heap m h' m' → ∃ s', s.on x f = some s' ∧ Inv lt s' (upd A x (some m')) ∧
        Spec.Same (abs lt s) (abs lt s') x ∧ s'.heap = h' ∧
        abs lt s' x = some fun k => find lt h' (liftM m') k := by
    intro x m f h' m' hx hf hL
    have hL' : Loc lt s.heap (con (A x)) h' (con (some m')) := by rw [hx]; exact hL
    obtain ⟨h1, h2⟩ := inv_put hlt hI hL'
    refine ⟨s.put x h' (some (liftM m')), ?_, h1, h2, rfl, ?_⟩
    · simp only [State.on, hmaps x m hx, hf, Option.map_some]
    · have := abs_some h1 (upd_same A x (some m'))
      exact this
  cases op with
  | construct x =>
    have hx := hnone x hl
    have hL : Loc lt s.heap (con (A x)) s.heap (con (some (mk []))) := by
      rw [hx]; exact loc_refl (good_nil _) hI.old
    obtain ⟨h1, h2⟩ := inv_put hlt hI hL
    refine ⟨s.put x s.heap (some NMap.empty), _, ?_, h1, ?_, h2⟩
    · simp only [step, hI.maps, hx, Option.map_none]
    · have := abs_some h1 (upd_same A x (some (mk [])))
      refine this.trans ?_
      congr 1
  | insert x k v g =>
    obtain ⟨m, hx⟩ := hsome x hl
    have hg := hgood x m hx
    obtain ⟨h', m', h1, h2, h3, h4, h5, h6⟩ := insert_ok hlt hg hI.old k v g
    obtain ⟨s', h7, h8, h9, _, h10⟩ := hon x m (fun h m => insert lt h m k v g) h' m' hx h1 h2
    refine ⟨s', _, h7, h8, _, _, s.heap.next, abs_some hI hx, h10, free_new hlt hI (Nat.le_refl _),
      (find_iff hlt h2.good.wf k _ v).2 ⟨h3, h4⟩, ?_, h9⟩
    intro k' hk
    exact find_congr hlt hg.wf h2.good.wf (h5 k' hk) (h6 k' hk)
  | fetch x k v g =>
    obtain ⟨m, hx⟩ := hsome x hl
    have hg := hgood x m hx
    obtain ⟨h', m', h1, h2, h3, h4, h5⟩ := fetch_ok hlt hg hI.old k v g
    obtain ⟨s', h7, h8, h9, _, h10⟩ := hon x m (fun h m => fetch lt h m k v g) h' m' hx h1 h2
    refine ⟨s', _, h7, h8, _, _, abs_some hI hx, h10, ?_, ?_, ?_, h9⟩
    · intro hk
      cases hf : find lt s.heap (liftM m) k with
      | none => exact absurd hf hk
      | some p =>
        obtain ⟨h11, h12⟩ := (find_iff hlt hg.wf k p.1 p.2).1 hf
        have := h3 k p.1 h11
        exact (find_iff hlt h2.good.wf k p.1 p.2).2 ⟨this.1, this.2.trans h12⟩
    · intro hk
      have := h5 ((find_none_iff hlt hg k).1 hk)
      exact ⟨_, free_new hlt hI (Nat.le_refl _), (find_iff hlt h2.good.wf k _ v).2 this⟩
    · intro k' hk
      exact find_congr hlt hg.wf h2.good.wf (h4 k' hk) (fun a ha => (h3 k' a ha).2)
  | erase x k =>
    obtain ⟨m, hx⟩ := hsome x hl
    have hg := hgood x m hx
    obtain ⟨h', m', h1, h2, h3, h4, h5⟩ := erase_ok hlt hg hI.old k
    obtain ⟨s', h7, h8, h9, _, h10⟩ := hon x m (fun h m => erase lt h m k) h' m' hx h1 h2
    refine ⟨s', _, h7, h8, _, _, abs_some hI hx, h10, (find_none_iff hlt h2.good k).2 h3, ?_, h9⟩
    intro k' hk
    exact find_congr hlt hg.wf h2.good.wf (h4 k' hk) (h5 k' hk)
  | eraseIf x p =>
    obtain ⟨m, hx⟩ := hsome x hl
    have hg := hgood x m hx
    obtain ⟨h', m', h1, h2, h3, h4⟩ := eraseIf_ok hg hI.old p
    obtain ⟨s', h7, h8, h9, _, h10⟩ := hon x m (fun h m => eraseIf p h m) h' m' hx h1 h2
    refine ⟨s', _, h7, h8, _, _, abs_some hI hx, h10, ?_, h9⟩
    intro k
    apply Option.ext
    rintro ⟨a, v⟩
    rw [find_iff hlt h2.good.wf, Option.filter_eq_some_iff, find_iff hlt hg.wf, h3]
    constructor
    · rintro ⟨⟨h11, h12⟩, h13⟩
      have h14 : s.heap.cell a = some v := (h4 k a ((h3 k a).2 ⟨h11, h12⟩)) ▸ h13
      refine ⟨⟨h11, h14⟩, ?_⟩
      simpa [hit, h14] using h12
    · rintro ⟨⟨h11, h12⟩, h13⟩
      have h14 : hit p s.heap (k, a) = false := by simpa [hit, h12] using h13
      exact ⟨⟨h11, h14⟩, (h4 k a ((h3 k a).2 ⟨h11, h14⟩)).trans h12⟩
  | clear x =>
    obtain ⟨m, hx⟩ := hsome x hl
    have hg := hgood x m hx
    obtain ⟨h', h1, h2⟩ := clear_ok hg hI.old
    obtain ⟨s', h7, h8, h9, _, h10⟩ := hon x m clear h' _ hx h1 h2
    refine ⟨s', _, h7, h8, ?_, h9⟩
    rw [h10]
    congr 1
  | reserve x g =>
    obtain ⟨m, hx⟩ := hsome x hl
    have hg := hgood x m hx
    obtain ⟨s', h7, h8, h9, _, h10⟩ := hon x m (fun h m => reserve h m g) s.heap m hx
      (reserve_ok _ _ _) (loc_refl hg hI.old)
    refine ⟨s', _, h7, h8, ?_⟩
    funext y
    by_cases hy : y = x
    · subst hy; rw [h10, abs_some hI hx]
    · exact h9 y hy
  | write x k v =>
    obtain ⟨f, hf, hk⟩ := hl
    obtain ⟨m, hx⟩ := hsome x (by rw [hf]; simp)
    have hg := hgood x m hx
    rw [abs_some hI hx] at hf
    simp only [Option.some.injEq] at hf
    subst hf
    obtain ⟨⟨a, v0⟩, hk'⟩ := Option.ne_none_iff_exists'.1 hk
    obtain ⟨hmem, hv0⟩ := (find_iff hlt hg.wf k a v0).1 hk'
    obtain ⟨h', h1, h2, h3, h4⟩ := write_ok hlt hg hI.old k v hmem
    obtain ⟨s', h7, h8, h9, _, h10⟩ := hon x m (fun h m => write lt h m k v) h' m hx h1 h2
    refine ⟨s', _, h7, h8, _, _, a, v0, abs_some hI hx, h10, hk',
      (find_iff hlt h2.good.wf k a v).2 ⟨hmem, h3⟩, ?_, h9⟩
    intro k' hne
    refine find_congr hlt hg.wf h2.good.wf (fun _ => Iff.rfl) ?_
    intro b hb
    refine h4 b ?_
    rintro rfl
    exact hne (congrArg Prod.fst (List.inj_on_of_nodup_map hg.nodup hb hmem rfl))
  | copy x y =>
    obtain ⟨hx0, hy0⟩ := hl
    obtain ⟨m, hx⟩ := hsome x hx0
    have hy := hnone y hy0
    have hg := hgood x m hx
    obtain ⟨h', l', h1, h2⟩ := copyAll_ok m.entries s.heap hI.old hg.live
    have hmm : Good lt s.heap (mk m.entries) := by
      obtain ⟨keys, l⟩ := m
      obtain rfl : keys = l.map Prod.fst := hg.wf.1
      exact hg
    have hL : Loc lt s.heap (con (A y)) h' (con (some (mk l'))) := by
      rw [hy]
      exact loc_copies hI.old hmm (good_nil _) h2
    obtain ⟨h3, h4⟩ := inv_put hlt hI hL
    refine ⟨s.put y h' (some (liftM (mk l'))), _, ?_, h3, _, _, abs_some hI hx,
      abs_some h3 (upd_same A y _), copied_of hlt hI hg h2 hL.good, h4⟩
    simp only [step, hmaps x m hx, hI.maps y, hy, Option.map_none]
    rw [show (liftM m).slots = lift m.entries from rfl, h1]
    simp only [Option.map_some, Option.some.injEq]
    simp only [liftM, mk, h2.keys, hg.wf.1]
  | move x y =>
    obtain ⟨hx0, hy0⟩ := hl
    obtain ⟨m, hx⟩ := hsome x hx0
    have hy := hnone y hy0
    have hxy : x ≠ y := by rintro rfl; exact hx0 hy0
    obtain ⟨A', h1, h2, h3, h4⟩ := inv_move hI hx (by rw [hy]; rfl) hxy
    refine ⟨_, A', ?_, h1, ?_, ?_, ?_⟩
    · simp only [step, hmaps x m hx, hI.maps y, hy, Option.map_none]
    · rw [abs_some h1 h2, abs_some hI hx]; rfl
    · rw [abs_some h1 h3]
      congr 1
    · intro z hzx hzy
      rw [abs_eq h1, abs_eq hI, h4 z hzx hzy]; rfl
  | copyAssign x y g =>
    obtain ⟨hx0, hy0⟩ := hl
    obtain ⟨m, hx⟩ := hsome x hx0
    obtain ⟨d, hy⟩ := hsome y hy0
    by_cases hxy : x = y
    · subst hxy
      refine ⟨s, A, ?_, hI, Or.inl ⟨rfl, rfl⟩⟩
      simp only [step, if_true, hmaps x m hx, Option.map_some]
    · have hg := hgood x m hx
      have hd := hgood y d hy
      obtain ⟨h', l', h1, h2⟩ := copyAssign_ok (lt := lt) hI.old hd hg (fun e he hh => hxy (by
        refine hI.disj x y e.2 ?_ ?_
        · rw [hx]; exact List.mem_map_of_mem he
        · rw [hy]; exact hh)) g
      have hmm : Good lt s.heap (mk m.entries) := by
        obtain ⟨keys, l⟩ := m
        obtain rfl : keys = l.map Prod.fst := hg.wf.1
        exact hg
      have hL := loc_copies (m := d) hI.old hmm hd h2
      obtain ⟨s', h7, h8, h9, _, h10⟩ := hon y d (fun h d => copyAssign h d (liftM m) g) h' _ hy h1 hL
      refine ⟨s', _, ?_, h8, Or.inr ⟨hxy, _, _, abs_some hI hx, h10,
        copied_of hlt hI hg h2 hL.good, h9⟩⟩
      simp only [step, if_neg hxy, hmaps x m hx]
      exact h7
  | moveAssign x y =>
    obtain ⟨hx0, hy0, hxy⟩ := hl
    obtain ⟨m, hx⟩ := hsome x hx0
    obtain ⟨d, hy⟩ := hsome y hy0
    have hd := hgood y d hy
    obtain ⟨h', h1, h2⟩ := clear_ok hd hI.old
    have hL : Loc lt s.heap (con (A y)) h' (con (some (mk []))) := by rw [hy]; exact h2
    obtain ⟨h3, h4⟩ := inv_put hlt hI hL
    have hx' : upd A y (some (mk [])) x = some m := by rw [upd_ne _ _ hxy]; exact hx
    obtain ⟨A', h5, h6, h7, h8⟩ := inv_move h3 hx' (by rw [upd_same]; rfl) hxy
    have hdes : destroyAll s.heap (liftM d).slots = some h' := by
      simp only [clear, Option.map_eq_some_iff, Prod.mk.injEq] at h1
      obtain ⟨h'', h9, rfl, _⟩ := h1
      exact h9
    have hst : (s.put y h' ((some (mk [])).map liftM)).put y h' (some (liftM m)) =
        s.put y h' (some (liftM m)) := by
      simp only [State.put, State.mk.injEq, true_and]
      funext z
      by_cases hz : z = y <;> simp [hz]
    have h5' : Inv lt ((s.put y h' (some (liftM m))).put x h' (some NMap.empty)) A' := by
      have := h5
      simp only [show (s.put y h' ((some (mk [])).map liftM)).heap = h' from rfl, hst] at this
      exact this
    have hxabs : abs lt (s.put y h' ((some (mk [])).map liftM)) x = abs lt s x := h4 x hxy
    refine ⟨_, A', ?_, h5', ?_, ?_, ?_⟩
    · simp only [step, if_neg hxy, hmaps x m hx, hmaps y d hy, hdes, Option.map_some]
    · rw [← hxabs, abs_some h3 hx', abs_some h5' h6]; rfl
    · rw [abs_some h5' h7]
      congr 1
    · intro z hzx hzy
      have := h4 z hzy
      rw [← this, abs_eq h3, abs_eq h5', h8 z hzx hzy]; rfl
  | destroy x =>
    obtain ⟨m, hx⟩ := hsome x hl
    have hg := hgood x m hx
    obtain ⟨h', h1, h2⟩ := clear_ok hg hI.old
    have hL : Loc lt s.heap (con (A x)) h' (con none) := by rw [hx]; exact h2
    obtain ⟨h3, h4⟩ := inv_put hlt hI hL
    refine ⟨s.put x h' none, _, ?_, h3, ?_, h4⟩
    · simp only [step, hmaps x m hx, h1, Option.map_some]
    · have := abs_eq h3 x
      rw [upd_same] at this
      exact this

theorem inv_init : Inv lt (State.init : State κ ν) (fun _ => none) :=
  ⟨fun _ => rfl, fun _ => good_nil _, fun a ha => absurd rfl ha, fun a ha => absurd rfl ha,
    fun x y a ha => by simp [con, mk] at ha⟩

theorem run_ok (hlt : IsSTO lt) (ops : List (Op κ ν)) : ∀ (s : State κ ν)
    (A : Nat → Option (OMap κ Nat)), Inv lt s A → LegalRun lt s ops →
    ∃ s' A', run lt s ops = some s' ∧ Inv lt s' A' := by
  induction ops with
  | nil => intro s A hI _; exact ⟨s, A, rfl, hI⟩
  | cons op ops ih =>
    intro s A hI hl
    obtain ⟨s1, A1, h1, h2, _⟩ := step_ok hlt hI op hl.1
    obtain ⟨s2, A2, h3, h4⟩ := ih s1 A1 h2 (hl.2 s1 h1)
    exact ⟨s2, A2, by simp [run, h1, h3], h4⟩

theorem reach_inv (hlt : IsSTO lt) {s : State κ ν} (hr : Reach lt s) : ∃ A, Inv lt s A := by
  obtain ⟨ops, h1, h2⟩ := hr
  obtain ⟨s', A, h3, h4⟩ := run_ok hlt ops _ _ inv_init h1
  rw [h2] at h3
  cases h3
  exact ⟨A, h4⟩

/-! ## Theorems -/

/-- Programs making legal calls never read through a pointer that is null or dangling and never destroy
an object twice: every history runs to its end. -/
theorem C128_runs (hlt : IsSTO lt) (ops : List (Op κ ν)) (hl : LegalRun lt State.init ops) :
    ∃ s, run lt State.init ops = some s := by
  obtain ⟨s, _, h, _⟩ := run_ok hlt ops _ _ inv_init hl
  exact ⟨s, h⟩

/-- Every call in a reachable state does what the specification says about objects and values. -/
theorem C128_step (hlt : IsSTO lt) {s : State κ ν} (hr : Reach lt s) (op : Op κ ν)
    (hl : Spec.Legal (abs lt s) op) :
    ∃ s', step lt s op = some s' ∧ Spec.Step (abs lt s) (abs lt s') op := by
  obtain ⟨A, hI⟩ := reach_inv hlt hr
  obtain ⟨s', _, h1, _, h2⟩ := step_ok hlt hI op hl
  exact ⟨s', h1, h2⟩

/-- The live objects are exactly the values of the maps, each held under one key of one map: nothing is
leaked, shared or dangling. -/
theorem C128_owned (hlt : IsSTO lt) {s : State κ ν} (hr : Reach lt s) (a : Nat) (v : ν) :
    s.heap.cell a = some v ↔ ∃ x m k, abs lt s x = some m ∧ m k = some (a, v) ∧
      ∀ x' m' k' v', abs lt s x' = some m' → m' k' = some (a, v') → x' = x ∧ k' = k := by
  obtain ⟨A, hI⟩ := reach_inv hlt hr
  have hfind : ∀ x f k a v, abs lt s x = some f → f k = some (a, v) →
      ∃ m, A x = some m ∧ (k, a) ∈ m.entries ∧ s.heap.cell a = some v := by
    intro x f k a v hf hk
    rw [abs_eq hI] at hf
    cases hA : A x with
    | none => rw [hA] at hf; cases hf
    | some m =>
      rw [hA] at hf
      simp only [Option.map_some, Option.some.injEq] at hf
      subst hf
      have hg := hI.good x
      rw [hA] at hg
      exact ⟨m, rfl, (find_iff hlt hg.wf k a v).1 hk⟩
  constructor
  · intro ha
    obtain ⟨x, hx⟩ := hI.owned a (by simp [ha])
    obtain ⟨k, hk⟩ := mem_snd.1 hx
    cases hA : A x with
    | none => rw [hA] at hk; simp [con, mk] at hk
    | some m =>
      rw [hA] at hk
      have hg := hI.good x
      rw [hA] at hg
      refine ⟨x, _, k, abs_some hI hA, (find_iff hlt hg.wf k a v).2 ⟨hk, ha⟩, ?_⟩
      intro x' f' k' v' hf' hk'
      obtain ⟨m', h1, h2, _⟩ := hfind x' f' k' a v' hf' hk'
      have hxx : x' = x := hI.disj x' x a (by rw [h1]; exact mem_snd.2 ⟨k', h2⟩) hx
      subst hxx
      rw [hA] at h1
      cases h1
      exact ⟨rfl, congrArg Prod.fst (List.inj_on_of_nodup_map hg.nodup h2 hk rfl)⟩
  · rintro ⟨x, f, k, hf, hk, _⟩
    obtain ⟨_, _, _, h⟩ := hfind x f k a v hf hk
    exact h

/-- When all maps have been destroyed, no object is left. -/
theorem C128_freed (hlt : IsSTO lt) {s : State κ ν} (hr : Reach lt s) (hn : ∀ x, s.maps x = none)
    (a : Nat) : s.heap.cell a = none := by
  cases h : s.heap.cell a with
  | none => rfl
  | some v =>
    obtain ⟨x, m, _, hx, _⟩ := (C128_owned hlt hr a v).1 h
    simp [abs, hn] at hx

theorem keeps_step {A A' : Spec.Maps κ ν} {x y : Nat} {k : κ} {op : Op κ ν} {m : κ → Option (Nat × ν)}
    {a : Nat} {v : ν} (hl : Spec.Legal A op) (hs : Spec.Step A A' op) (hk : Spec.Keeps x k y op)
    (hx : A x = some m) (ha : m k = some (a, v)) :
    ∃ m' v', A' y = some m' ∧ m' k = some (a, v') := by
  have hsame : ∀ z, Spec.Same A A' z → z ≠ x → ∃ m' v', A' x = some m' ∧ m' k = some (a, v') :=
    fun z h1 h2 => ⟨m, v, (h1 x (Ne.symm h2)).trans hx, ha⟩
  cases op with
  | construct z => obtain ⟨rfl, h1⟩ := hk; exact hsame z hs.2 h1
  | insert z k' w g =>
    obtain ⟨rfl, h1⟩ := hk
    obtain ⟨n, n', b, h2, h3, _, _, h4, h5⟩ := hs
    by_cases hz : z = y
    · subst hz
      have hkk : k ≠ k' := by
        rcases h1 with h1 | h1
        · exact absurd rfl h1
        · exact Ne.symm h1
      rw [hx] at h2; cases h2
      exact ⟨n', v, h3, (h4 k hkk).trans ha⟩
    · exact hsame z h5 hz
  | fetch z k' w g =>
    cases hk
    obtain ⟨n, n', h2, h3, h4, _, h5, h6⟩ := hs
    by_cases hz : z = x
    · subst hz
      rw [hx] at h2; cases h2
      refine ⟨n', v, h3, ?_⟩
      by_cases hkk : k = k'
      · subst hkk; exact (h4 (by simp [ha])).trans ha
      · exact (h5 k hkk).trans ha
    · exact hsame z h6 hz
  | erase z k' =>
    obtain ⟨rfl, h1⟩ := hk
    obtain ⟨n, n', h2, h3, _, h4, h5⟩ := hs
    by_cases hz : z = y
    · subst hz
      have hkk : k ≠ k' := by
        rcases h1 with h1 | h1
        · exact absurd rfl h1
        · exact Ne.symm h1
      rw [hx] at h2; cases h2
      exact ⟨n', v, h3, (h4 k hkk).trans ha⟩
    · exact hsame z h5 hz
  | eraseIf z p =>
    obtain ⟨rfl, h1⟩ := hk
    obtain ⟨n, n', h2, h3, h4, h5⟩ := hs
    by_cases hz : z = y
    · subst hz
      have hp : ∀ w, p k w = false := by
        rcases h1 with h1 | h1
        · exact absurd rfl h1
        · exact h1
      rw [hx] at h2; cases h2
      refine ⟨n', v, h3, ?_⟩
      rw [h4, ha]; simp [hp]
    · exact hsame z h5 hz
  | clear z => obtain ⟨rfl, h1⟩ := hk; exact hsame z hs.2 h1
  | reserve z g =>
    cases hk
    have : A' = A := hs
    subst this
    exact ⟨m, v, hx, ha⟩
  | write z k' w =>
    cases hk
    obtain ⟨n, n', b, v0, h2, h3, h4, h5, h6, h7⟩ := hs
    by_cases hz : z = x
    · subst hz
      rw [hx] at h2; cases h2
      by_cases hkk : k = k'
      · subst hkk
        rw [ha] at h4; cases h4
        exact ⟨n', w, h3, h5⟩
      · exact ⟨n', v, h3, (h6 k hkk).trans ha⟩
    · exact hsame z h7 hz
  | copy z w =>
    obtain ⟨rfl, h1⟩ := hk
    obtain ⟨n, n', _, _, _, h2⟩ := hs
    exact hsame w h2 h1
  | move z w =>
    obtain ⟨h1, h2, h3⟩ := hs
    rcases hk with ⟨rfl, rfl⟩ | ⟨h4, h5, rfl⟩
    · exact ⟨m, v, h1.trans hx, ha⟩
    · exact ⟨m, v, (h3 y (Ne.symm h4) (Ne.symm h5)).trans hx, ha⟩
  | copyAssign z w g =>
    obtain ⟨rfl, h1⟩ := hk
    rcases hs with ⟨_, h2⟩ | ⟨h2, n, n', _, _, _, h3⟩
    · subst h2; exact ⟨m, v, hx, ha⟩
    · rcases h1 with h1 | h1
      · exact hsame w h3 h1
      · exact absurd h1 h2
  | moveAssign z w =>
    obtain ⟨h1, h2, h3⟩ := hs
    rcases hk with ⟨rfl, rfl⟩ | ⟨h4, h5, rfl⟩
    · exact ⟨m, v, h1.trans hx, ha⟩
    · exact ⟨m, v, (h3 y (Ne.symm h4) (Ne.symm h5)).trans hx, ha⟩
  | destroy z => obtain ⟨rfl, h1⟩ := hk; exact hsame z hs.2 h1

theorem stays (hlt : IsSTO lt) (ops : List (Op κ ν)) : ∀ (s s' : State κ ν)
    (A : Nat → Option (OMap κ Nat)) (x y : Nat) (k : κ) (m : κ → Option (Nat × ν)) (a : Nat) (v : ν),
    Inv lt s A → LegalRun lt s ops → run lt s ops = some s' → Spec.KeepsAll k x y ops →
    abs lt s x = some m → m k = some (a, v) →
    ∃ m' v', abs lt s' y = some m' ∧ m' k = some (a, v') := by
  induction ops with
  | nil =>
    intro s s' A x y k m a v _ _ hr hk hx ha
    cases hr
    cases hk
    exact ⟨m, v, hx, ha⟩
  | cons op ops ih =>
    intro s s' A x y k m a v hI hl hr hk hx ha
    obtain ⟨z, hk1, hk2⟩ := hk
    obtain ⟨s1, A1, h1, h2, h3⟩ := step_ok hlt hI op hl.1
    obtain ⟨m1, v1, h4, h5⟩ := keeps_step hl.1 h3 hk1 hx ha
    simp only [run, h1, Option.bind_some] at hr
    exact ih s1 s' A1 z y k m1 a v1 h2 (hl.2 s1 h1) hr hk2 h4 h5

/-- A value stays in its object through any calls that do not erase or replace it, also when its map is
moved: a reference or pointer to it remains valid. -/
theorem C128_stays (hlt : IsSTO lt) {s s' : State κ ν} (hr : Reach lt s) (ops : List (Op κ ν))
    (hl : LegalRun lt s ops) (hrun : run lt s ops = some s') {x y : Nat} {k : κ}
    (hk : Spec.KeepsAll k x y ops) {m : κ → Option (Nat × ν)} {a : Nat} {v : ν}
    (hx : abs lt s x = some m) (ha : m k = some (a, v)) :
    ∃ m' v', abs lt s' y = some m' ∧ m' k = some (a, v') := by
  obtain ⟨A, hI⟩ := reach_inv hlt hr
  exact stays hlt ops s s' A x y k m a v hI hl hrun hk hx ha

/-! ## Examples -/

/-- Two maps: values inserted with and without growth, one erased, one replaced, a copy and a move. -/
def sample : List (Op Int Nat) :=
  [.construct 0, .insert 0 5 50 true, .insert 0 3 30 true, .insert 0 4 40 false, .insert 0 9 90 true,
    .erase 0 3, .insert 0 9 91 false, .copy 0 1, .write 1 5 51, .move 0 2]

/-- The objects: 5 is still in the first one and 4 in the third, moved along with their map; 9 is in a new
one; the copy has its own; those of 3 and of the old value of 9 are gone. -/
example : (run intLess State.init sample).map (fun s =>
    [2, 1].map fun x => (abs intLess s x).map fun f => [f 3, f 4, f 5, f 9]) =
    some [some [none, some (2, 40), some (0, 50), some (4, 91)],
      some [none, some (5, 40), some (6, 51), some (7, 91)]] := by
  decide +kernel

example : (run intLess State.init sample).map (fun s => (List.range 9).map s.heap.cell) =
    some [some 50, none, some 40, none, some 91, some 40, some 51, some 91, none] := by
  decide +kernel

example : Reach intLess ((run intLess (State.init : State Int Nat)
    [.construct 0, .insert 0 5 50 true]).get (by decide +kernel)) :=
  ⟨[.construct 0, .insert 0 5 50 true], ⟨rfl, fun s hs => by
    cases hs; exact ⟨Option.some_ne_none _, fun _ _ => trivial⟩⟩, (Option.some_get _).symm⟩

example : Spec.KeepsAll (5 : Int) 0 2 (sample.drop 2) := by
  refine ⟨0, ?_, 0, ?_, 0, ?_, 0, ?_, 0, ?_, 0, ?_, 0, ?_, 2, ?_, rfl⟩ <;>
    simp [Spec.Keeps]

/-- The object of a replaced value is gone after `Insert`. -/
example : (run intLess State.init [.construct 0, .insert 0 5 50 true, .insert 0 5 51 true] :
    Option (State Int Nat)).map (fun s => (List.range 3).map s.heap.cell) =
    some [none, some 51, none] := by decide +kernel

/-- C128: what no longer exists cannot be destroyed again, written or read. -/
theorem C128_dangling {h : Heap ν} {a : Nat} (hc : h.cell a = none) (v : ν) :
    h.free a = none ∧ h.write a v = none ∧ getPtr h (some a) = none := by
  unfold Heap.free Heap.write
  rw [hc]
  exact ⟨rfl, rfl, hc⟩

example : (((Heap.empty : Heap Nat).alloc 7).1.free 0).bind (fun h => h.free 0) = none ∧
    ((((Heap.empty : Heap Nat).alloc 7).1.free 0).map fun h => h.cell 0) = some none := by
  refine ⟨rfl, rfl⟩

end MapMem
end Ovk
