/-
Property C99: optional values.
-/
import Verif.Model.Optional
import Mathlib.Tactic.Tauto

set_option linter.unusedSimpArgs false

namespace Ovk.Optn
variable {V : Type}

/-! ### Specification -/
namespace Spec

/-- The optionals that exist, and their values. -/
abbrev World (V : Type) := Nat → Option (Option V)

def nothing : World V := fun _ => none

def upd (w : World V) (h : Nat) (x : Option (Option V)) : World V := fun q => if q = h then x else w q

/-- Whether a call is allowed. -/
def Allowed (w : World V) : Op V → Prop
  | .empty h | .value h _ _ => w h = none
  | .copy h k _ | .move h k => w h = none ∧ w k ≠ none
  | .destroy h | .reset h | .assign h _ _ | .assignTemp h _ => w h ≠ none
  | .assignCopy h k _ | .assignMove h k => w h ≠ none ∧ w k ≠ none
  | .assignFrom h k _ | .assignTake h k => w h ≠ none ∧ ∃ v, w k = some (some v)
  | .release h => ∃ v, w h = some (some v)

/-- What a call should do.  A call that throws changes nothing. -/
def next (moved : V → V) (w : World V) : Op V → World V
  | .empty h => upd w h (some none)
  | .value h v fail => if fail then w else upd w h (some (some v))
  | .copy h k fail => if fail && (w k).any Option.isSome then w else upd w h (w k)
  | .move h k => upd (upd w h (w k)) k (some none)
  | .destroy h => upd w h none
  | .assignCopy h k fail => if fail && (w k).any Option.isSome then w else upd w h (w k)
  | .assignMove h k => if h = k then w else upd (upd w h (w k)) k (some none)
  | .assign h v fail => if fail then w else upd w h (some (some v))
  | .assignFrom h k fail => if fail then w else upd w h (w k)
  | .assignTemp h v => upd w h (some (some v))
  | .assignTake h k => if h = k then w else upd (upd w h (w k)) k ((w k).map fun x => x.map moved)
  | .release h => upd w h (some none)
  | .reset h => upd w h (some none)

/-- `w` is what there should be after allowed calls, each satisfying `P`. -/
inductive Reach (moved : V → V) (P : World V → Op V → Prop) : List (Op V) → World V → Prop
  | nil : Reach moved P [] nothing
  | snoc {ops w o} : Reach moved P ops w → Allowed w o → P w o → Reach moved P (ops ++ [o]) (next moved w o)

/-- What a program sees of an optional: whether it exists, `Present()` and `Get()`. -/
def seen (m : Mem V) (h : Nat) : Option (Option (Option V)) :=
  (m.slot h).map fun s => if s.present then some s.live else none

/-- What is seen is what should be; in particular there is a value wherever there should be one. -/
def Agrees (m : Mem V) (w : World V) : Prop := ∀ h, seen m h = (w h).map fun x => x.map some

/-- Every value object ever created has been destroyed, or belongs to an optional that says so. -/
def Balanced (m : Mem V) : Prop := m.lost = 0 ∧ ∀ h s, m.slot h = some s → s.live.isSome = s.present

/-- No object is moved into itself. -/
def NotSelf (w : World V) : Op V → Prop
  | .assignMove h k => h = k → w h = some none
  | .assignTake h k => h ≠ k
  | _ => True

/-- Besides, no value is moved by move assignment. -/
def NotMoved (w : World V) : Op V → Prop
  | .assignMove _ k => w k = some none
  | .assignTake h k => h ≠ k
  | _ => True

end Spec

/-- C99, the whole claim. -/
def C99_statement : Prop := ∀ (moved : Nat → Nat) ops w, Spec.Reach moved (fun _ _ => True) ops w →
  ∃ m, run moved ops = some m ∧ Spec.Agrees m w ∧ Spec.Balanced m

/-- A slot that stands for the given state; an empty one may contain a leftover. -/
def Stands : Option (Option V) → Option (Slot V) → Prop
  | none, s => s = none
  | some none, s => ∃ l, s = some ⟨l, false⟩
  | some (some v), s => s = some ⟨some v, true⟩

def Clean (m : Mem V) : Prop := m.lost = 0 ∧ ∀ h l, m.slot h = some ⟨l, false⟩ → l = none

set_option maxHeartbeats 4000000 in
theorem step_spec (moved : V → V) (m : Mem V) (w : Spec.World V) (h : ∀ q, Stands (w q) (m.slot q)) (o : Op V)
    (ha : Spec.Allowed w o) (hs : Spec.NotSelf w o) :
    ∃ m', step moved m o = some m' ∧ (∀ q, Stands (Spec.next moved w o q) (m'.slot q)) ∧
      (Spec.NotMoved w o → Clean m → Clean m') := by
  have key : ∀ x, w x = none ∧ m.slot x = none ∨ (w x = some none ∧ ∃ l, m.slot x = some ⟨l, false⟩) ∨
      ∃ v, w x = some (some v) ∧ m.slot x = some ⟨some v, true⟩ := by
    intro x
    have := h x
    cases hx : w x with
    | none => rw [hx] at this; exact Or.inl ⟨rfl, this⟩
    | some y =>
      rw [hx] at this
      cases y with
      | none => exact Or.inr (Or.inl ⟨rfl, this⟩)
      | some v => exact Or.inr (Or.inr ⟨v, rfl, this⟩)
  have fin : ∀ (o : Op V) (m' : Mem V), step moved m o = some m' →
      (∀ q, Stands (Spec.next moved w o q) (m'.slot q)) → (Spec.NotMoved w o → Clean m → Clean m') →
      ∃ m', step moved m o = some m' ∧ (∀ q, Stands (Spec.next moved w o q) (m'.slot q)) ∧
      (Spec.NotMoved w o → Clean m → Clean m') := fun o m' h1 h2 h3 => ⟨m', h1, h2, h3⟩
  cases o with
  | empty a =>
    rcases key a with ⟨hwa, hsa⟩ | ⟨hwa, la, hsa⟩ | ⟨va, hwa, hsa⟩
    · refine fin _ _ (by simp [step, assignValue, clear, present, destroyValue, create, declare, setPresent, take, get, drop, put, hsa]; rfl) ?_ ?_
      · intro q
        have := h q
        clear h key fin
        by_cases hqa : q = a <;> simp_all [Spec.next, Spec.upd, Stands, Spec.Allowed, Spec.NotSelf]
      · intro hnm hc
        clear h key fin
        refine ⟨by simp_all [Clean, Spec.NotMoved], fun q l => ?_⟩
        have := hc.2 q l
        clear hc
        by_cases hqa : q = a <;> simp_all [Spec.NotMoved]
    · simp_all [Spec.Allowed]
    · simp_all [Spec.Allowed]
  | value a v fail =>
    cases fail
    · rcases key a with ⟨hwa, hsa⟩ | ⟨hwa, la, hsa⟩ | ⟨va, hwa, hsa⟩
      · refine fin _ _ (by simp [step, assignValue, clear, present, destroyValue, create, declare, setPresent, take, get, drop, put, hsa]; rfl) ?_ ?_
        · intro q
          have := h q
          clear h key fin
          by_cases hqa : q = a <;> simp_all [Spec.next, Spec.upd, Stands, Spec.Allowed, Spec.NotSelf]
        · intro hnm hc
          clear h key fin
          refine ⟨by simp_all [Clean, Spec.NotMoved], fun q l => ?_⟩
          have := hc.2 q l
          clear hc
          by_cases hqa : q = a <;> simp_all [Spec.NotMoved]
      · simp_all [Spec.Allowed]
      · simp_all [Spec.Allowed]
    · rcases key a with ⟨hwa, hsa⟩ | ⟨hwa, la, hsa⟩ | ⟨va, hwa, hsa⟩
      · refine fin _ _ (by simp [step, assignValue, clear, present, destroyValue, create, declare, setPresent, take, get, drop, put, hsa]; rfl) ?_ ?_
        · intro q
          have := h q
          clear h key fin
          by_cases hqa : q = a <;> simp_all [Spec.next, Spec.upd, Stands, Spec.Allowed, Spec.NotSelf]
        · intro hnm hc
          clear h key fin
          refine ⟨by simp_all [Clean, Spec.NotMoved], fun q l => ?_⟩
          have := hc.2 q l
          clear hc
          by_cases hqa : q = a <;> simp_all [Spec.NotMoved]
      · simp_all [Spec.Allowed]
      · simp_all [Spec.Allowed]
  | copy a b fail =>
    cases fail
    · by_cases hab : a = b
      · subst hab
        simp_all [Spec.Allowed]
      · rcases key a with ⟨hwa, hsa⟩ | ⟨hwa, la, hsa⟩ | ⟨va, hwa, hsa⟩
        · rcases key b with ⟨hwb, hsb⟩ | ⟨hwb, lb, hsb⟩ | ⟨vb, hwb, hsb⟩
          · simp_all [Spec.Allowed]
          · refine fin _ _ (by simp [step, assignValue, clear, present, destroyValue, create, declare, setPresent, take, get, drop, put, hsa, hsb, hab, Ne.symm hab]; rfl) ?_ ?_
            · intro q
              have := h q
              clear h key fin
              by_cases hqa : q = a <;> by_cases hqb : q = b <;> simp_all [Spec.next, Spec.upd, Stands, Spec.Allowed, Spec.NotSelf]
            · intro hnm hc
              clear h key fin
              have hlb := hc.2 b lb hsb
              refine ⟨by simp_all [Clean, Spec.NotMoved], fun q l => ?_⟩
              have := hc.2 q l
              clear hc
              by_cases hqa : q = a <;> by_cases hqb : q = b <;> simp_all [Spec.NotMoved]
          · refine fin _ _ (by simp [step, assignValue, clear, present, destroyValue, create, declare, setPresent, take, get, drop, put, hsa, hsb, hab, Ne.symm hab]; rfl) ?_ ?_
            · intro q
              have := h q
              clear h key fin
              by_cases hqa : q = a <;> by_cases hqb : q = b <;> simp_all [Spec.next, Spec.upd, Stands, Spec.Allowed, Spec.NotSelf]
            · intro hnm hc
              clear h key fin
              refine ⟨by simp_all [Clean, Spec.NotMoved], fun q l => ?_⟩
              have := hc.2 q l
              clear hc
              by_cases hqa : q = a <;> by_cases hqb : q = b <;> simp_all [Spec.NotMoved]
        · simp_all [Spec.Allowed]
        · simp_all [Spec.Allowed]
    · by_cases hab : a = b
      · subst hab
        simp_all [Spec.Allowed]
      · rcases key a with ⟨hwa, hsa⟩ | ⟨hwa, la, hsa⟩ | ⟨va, hwa, hsa⟩
        · rcases key b with ⟨hwb, hsb⟩ | ⟨hwb, lb, hsb⟩ | ⟨vb, hwb, hsb⟩
          · simp_all [Spec.Allowed]
          · refine fin _ _ (by simp [step, assignValue, clear, present, destroyValue, create, declare, setPresent, take, get, drop, put, hsa, hsb, hab, Ne.symm hab]; rfl) ?_ ?_
            · intro q
              have := h q
              clear h key fin
              by_cases hqa : q = a <;> by_cases hqb : q = b <;> simp_all [Spec.next, Spec.upd, Stands, Spec.Allowed, Spec.NotSelf]
            · intro hnm hc
              clear h key fin
              have hlb := hc.2 b lb hsb
              refine ⟨by simp_all [Clean, Spec.NotMoved], fun q l => ?_⟩
              have := hc.2 q l
              clear hc
              by_cases hqa : q = a <;> by_cases hqb : q = b <;> simp_all [Spec.NotMoved]
          · refine fin _ _ (by simp [step, assignValue, clear, present, destroyValue, create, declare, setPresent, take, get, drop, put, hsa, hsb, hab, Ne.symm hab]; rfl) ?_ ?_
            · intro q
              have := h q
              clear h key fin
              by_cases hqa : q = a <;> by_cases hqb : q = b <;> simp_all [Spec.next, Spec.upd, Stands, Spec.Allowed, Spec.NotSelf]
            · intro hnm hc
              clear h key fin
              refine ⟨by simp_all [Clean, Spec.NotMoved], fun q l => ?_⟩
              have := hc.2 q l
              clear hc
              by_cases hqa : q = a <;> by_cases hqb : q = b <;> simp_all [Spec.NotMoved]
        · simp_all [Spec.Allowed]
        · simp_all [Spec.Allowed]
  | move a b =>
    by_cases hab : a = b
    · subst hab
      simp_all [Spec.Allowed]
    · rcases key a with ⟨hwa, hsa⟩ | ⟨hwa, la, hsa⟩ | ⟨va, hwa, hsa⟩
      · rcases key b with ⟨hwb, hsb⟩ | ⟨hwb, lb, hsb⟩ | ⟨vb, hwb, hsb⟩
        · simp_all [Spec.Allowed]
        · refine fin _ _ (by simp [step, assignValue, clear, present, destroyValue, create, declare, setPresent, take, get, drop, put, hsa, hsb, hab, Ne.symm hab]; rfl) ?_ ?_
          · intro q
            have := h q
            clear h key fin
            by_cases hqa : q = a <;> by_cases hqb : q = b <;> simp_all [Spec.next, Spec.upd, Stands, Spec.Allowed, Spec.NotSelf]
          · intro hnm hc
            clear h key fin
            have hlb := hc.2 b lb hsb
            refine ⟨by simp_all [Clean, Spec.NotMoved], fun q l => ?_⟩
            have := hc.2 q l
            clear hc
            by_cases hqa : q = a <;> by_cases hqb : q = b <;> simp_all [Spec.NotMoved]
        · refine fin _ _ (by simp [step, assignValue, clear, present, destroyValue, create, declare, setPresent, take, get, drop, put, hsa, hsb, hab, Ne.symm hab]; rfl) ?_ ?_
          · intro q
            have := h q
            clear h key fin
            by_cases hqa : q = a <;> by_cases hqb : q = b <;> simp_all [Spec.next, Spec.upd, Stands, Spec.Allowed, Spec.NotSelf]
          · intro hnm hc
            clear h key fin
            refine ⟨by simp_all [Clean, Spec.NotMoved], fun q l => ?_⟩
            have := hc.2 q l
            clear hc
            by_cases hqa : q = a <;> by_cases hqb : q = b <;> simp_all [Spec.NotMoved]
      · simp_all [Spec.Allowed]
      · simp_all [Spec.Allowed]
  | destroy a =>
    rcases key a with ⟨hwa, hsa⟩ | ⟨hwa, la, hsa⟩ | ⟨va, hwa, hsa⟩
    · simp_all [Spec.Allowed]
    · refine fin _ _ (by simp [step, assignValue, clear, present, destroyValue, create, declare, setPresent, take, get, drop, put, hsa]; rfl) ?_ ?_
      · intro q
        have := h q
        clear h key fin
        by_cases hqa : q = a <;> simp_all [Spec.next, Spec.upd, Stands, Spec.Allowed, Spec.NotSelf]
      · intro hnm hc
        clear h key fin
        have hla := hc.2 a la hsa
        refine ⟨by simp_all [Clean, Spec.NotMoved], fun q l => ?_⟩
        have := hc.2 q l
        clear hc
        by_cases hqa : q = a <;> simp_all [Spec.NotMoved]
    · refine fin _ _ (by simp [step, assignValue, clear, present, destroyValue, create, declare, setPresent, take, get, drop, put, hsa]; rfl) ?_ ?_
      · intro q
        have := h q
        clear h key fin
        by_cases hqa : q = a <;> simp_all [Spec.next, Spec.upd, Stands, Spec.Allowed, Spec.NotSelf]
      · intro hnm hc
        clear h key fin
        refine ⟨by simp_all [Clean, Spec.NotMoved], fun q l => ?_⟩
        have := hc.2 q l
        clear hc
        by_cases hqa : q = a <;> simp_all [Spec.NotMoved]
  | assignCopy a b fail =>
    cases fail
    · by_cases hab : a = b
      · subst hab
        rcases key a with ⟨hwa, hsa⟩ | ⟨hwa, la, hsa⟩ | ⟨va, hwa, hsa⟩
        · simp_all [Spec.Allowed, Spec.NotSelf]
        · refine fin _ _ (by simp [step, assignValue, clear, present, destroyValue, create, declare, setPresent, take, get, drop, put, hsa]; rfl) ?_ ?_
          · intro q
            have := h q
            clear h key fin
            by_cases hqa : q = a <;> simp_all [Spec.next, Spec.upd, Stands, Spec.Allowed, Spec.NotSelf]
          · intro hnm hc
            clear h key fin
            have hla := hc.2 a la hsa
            refine ⟨by simp_all [Clean, Spec.NotMoved], fun q l => ?_⟩
            have := hc.2 q l
            clear hc
            by_cases hqa : q = a <;> simp_all [Spec.NotMoved]
        · refine fin _ _ (by simp [step, assignValue, clear, present, destroyValue, create, declare, setPresent, take, get, drop, put, hsa]; rfl) ?_ ?_
          · intro q
            have := h q
            clear h key fin
            by_cases hqa : q = a <;> simp_all [Spec.next, Spec.upd, Stands, Spec.Allowed, Spec.NotSelf]
          · intro hnm hc
            clear h key fin
            refine ⟨by simp_all [Clean, Spec.NotMoved], fun q l => ?_⟩
            have := hc.2 q l
            clear hc
            by_cases hqa : q = a <;> simp_all [Spec.NotMoved]
      · rcases key a with ⟨hwa, hsa⟩ | ⟨hwa, la, hsa⟩ | ⟨va, hwa, hsa⟩
        · simp_all [Spec.Allowed]
        · rcases key b with ⟨hwb, hsb⟩ | ⟨hwb, lb, hsb⟩ | ⟨vb, hwb, hsb⟩
          · simp_all [Spec.Allowed]
          · refine fin _ _ (by simp [step, assignValue, clear, present, destroyValue, create, declare, setPresent, take, get, drop, put, hsa, hsb, hab, Ne.symm hab]; rfl) ?_ ?_
            · intro q
              have := h q
              clear h key fin
              by_cases hqa : q = a <;> by_cases hqb : q = b <;> simp_all [Spec.next, Spec.upd, Stands, Spec.Allowed, Spec.NotSelf]
            · intro hnm hc
              clear h key fin
              have hla := hc.2 a la hsa
              have hlb := hc.2 b lb hsb
              refine ⟨by simp_all [Clean, Spec.NotMoved], fun q l => ?_⟩
              have := hc.2 q l
              clear hc
              by_cases hqa : q = a <;> by_cases hqb : q = b <;> simp_all [Spec.NotMoved]
          · refine fin _ _ (by simp [step, assignValue, clear, present, destroyValue, create, declare, setPresent, take, get, drop, put, hsa, hsb, hab, Ne.symm hab]; rfl) ?_ ?_
            · intro q
              have := h q
              clear h key fin
              by_cases hqa : q = a <;> by_cases hqb : q = b <;> simp_all [Spec.next, Spec.upd, Stands, Spec.Allowed, Spec.NotSelf]
            · intro hnm hc
              clear h key fin
              have hla := hc.2 a la hsa
              refine ⟨by simp_all [Clean, Spec.NotMoved], fun q l => ?_⟩
              have := hc.2 q l
              clear hc
              by_cases hqa : q = a <;> by_cases hqb : q = b <;> simp_all [Spec.NotMoved]
        · rcases key b with ⟨hwb, hsb⟩ | ⟨hwb, lb, hsb⟩ | ⟨vb, hwb, hsb⟩
          · simp_all [Spec.Allowed]
          · refine fin _ _ (by simp [step, assignValue, clear, present, destroyValue, create, declare, setPresent, take, get, drop, put, hsa, hsb, hab, Ne.symm hab]; rfl) ?_ ?_
            · intro q
              have := h q
              clear h key fin
              by_cases hqa : q = a <;> by_cases hqb : q = b <;> simp_all [Spec.next, Spec.upd, Stands, Spec.Allowed, Spec.NotSelf]
            · intro hnm hc
              clear h key fin
              have hlb := hc.2 b lb hsb
              refine ⟨by simp_all [Clean, Spec.NotMoved], fun q l => ?_⟩
              have := hc.2 q l
              clear hc
              by_cases hqa : q = a <;> by_cases hqb : q = b <;> simp_all [Spec.NotMoved]
          · refine fin _ _ (by simp [step, assignValue, clear, present, destroyValue, create, declare, setPresent, take, get, drop, put, hsa, hsb, hab, Ne.symm hab]; rfl) ?_ ?_
            · intro q
              have := h q
              clear h key fin
              by_cases hqa : q = a <;> by_cases hqb : q = b <;> simp_all [Spec.next, Spec.upd, Stands, Spec.Allowed, Spec.NotSelf]
            · intro hnm hc
              clear h key fin
              refine ⟨by simp_all [Clean, Spec.NotMoved], fun q l => ?_⟩
              have := hc.2 q l
              clear hc
              by_cases hqa : q = a <;> by_cases hqb : q = b <;> simp_all [Spec.NotMoved]
    · by_cases hab : a = b
      · subst hab
        rcases key a with ⟨hwa, hsa⟩ | ⟨hwa, la, hsa⟩ | ⟨va, hwa, hsa⟩
        · simp_all [Spec.Allowed, Spec.NotSelf]
        · refine fin _ _ (by simp [step, assignValue, clear, present, destroyValue, create, declare, setPresent, take, get, drop, put, hsa]; rfl) ?_ ?_
          · intro q
            have := h q
            clear h key fin
            by_cases hqa : q = a <;> simp_all [Spec.next, Spec.upd, Stands, Spec.Allowed, Spec.NotSelf]
          · intro hnm hc
            clear h key fin
            have hla := hc.2 a la hsa
            refine ⟨by simp_all [Clean, Spec.NotMoved], fun q l => ?_⟩
            have := hc.2 q l
            clear hc
            by_cases hqa : q = a <;> simp_all [Spec.NotMoved]
        · refine fin _ _ (by simp [step, assignValue, clear, present, destroyValue, create, declare, setPresent, take, get, drop, put, hsa]; rfl) ?_ ?_
          · intro q
            have := h q
            clear h key fin
            by_cases hqa : q = a <;> simp_all [Spec.next, Spec.upd, Stands, Spec.Allowed, Spec.NotSelf]
          · intro hnm hc
            clear h key fin
            refine ⟨by simp_all [Clean, Spec.NotMoved], fun q l => ?_⟩
            have := hc.2 q l
            clear hc
            by_cases hqa : q = a <;> simp_all [Spec.NotMoved]
      · rcases key a with ⟨hwa, hsa⟩ | ⟨hwa, la, hsa⟩ | ⟨va, hwa, hsa⟩
        · simp_all [Spec.Allowed]
        · rcases key b with ⟨hwb, hsb⟩ | ⟨hwb, lb, hsb⟩ | ⟨vb, hwb, hsb⟩
          · simp_all [Spec.Allowed]
          · refine fin _ _ (by simp [step, assignValue, clear, present, destroyValue, create, declare, setPresent, take, get, drop, put, hsa, hsb, hab, Ne.symm hab]; rfl) ?_ ?_
            · intro q
              have := h q
              clear h key fin
              by_cases hqa : q = a <;> by_cases hqb : q = b <;> simp_all [Spec.next, Spec.upd, Stands, Spec.Allowed, Spec.NotSelf]
            · intro hnm hc
              clear h key fin
              have hla := hc.2 a la hsa
              have hlb := hc.2 b lb hsb
              refine ⟨by simp_all [Clean, Spec.NotMoved], fun q l => ?_⟩
              have := hc.2 q l
              clear hc
              by_cases hqa : q = a <;> by_cases hqb : q = b <;> simp_all [Spec.NotMoved]
          · refine fin _ _ (by simp [step, assignValue, clear, present, destroyValue, create, declare, setPresent, take, get, drop, put, hsa, hsb, hab, Ne.symm hab]; rfl) ?_ ?_
            · intro q
              have := h q
              clear h key fin
              by_cases hqa : q = a <;> by_cases hqb : q = b <;> simp_all [Spec.next, Spec.upd, Stands, Spec.Allowed, Spec.NotSelf]
            · intro hnm hc
              clear h key fin
              have hla := hc.2 a la hsa
              refine ⟨by simp_all [Clean, Spec.NotMoved], fun q l => ?_⟩
              have := hc.2 q l
              clear hc
              by_cases hqa : q = a <;> by_cases hqb : q = b <;> simp_all [Spec.NotMoved]
        · rcases key b with ⟨hwb, hsb⟩ | ⟨hwb, lb, hsb⟩ | ⟨vb, hwb, hsb⟩
          · simp_all [Spec.Allowed]
          · refine fin _ _ (by simp [step, assignValue, clear, present, destroyValue, create, declare, setPresent, take, get, drop, put, hsa, hsb, hab, Ne.symm hab]; rfl) ?_ ?_
            · intro q
              have := h q
              clear h key fin
              by_cases hqa : q = a <;> by_cases hqb : q = b <;> simp_all [Spec.next, Spec.upd, Stands, Spec.Allowed, Spec.NotSelf]
            · intro hnm hc
              clear h key fin
              have hlb := hc.2 b lb hsb
              refine ⟨by simp_all [Clean, Spec.NotMoved], fun q l => ?_⟩
              have := hc.2 q l
              clear hc
              by_cases hqa : q = a <;> by_cases hqb : q = b <;> simp_all [Spec.NotMoved]
          · refine fin _ _ (by simp [step, assignValue, clear, present, destroyValue, create, declare, setPresent, take, get, drop, put, hsa, hsb, hab, Ne.symm hab]; rfl) ?_ ?_
            · intro q
              have := h q
              clear h key fin
              by_cases hqa : q = a <;> by_cases hqb : q = b <;> simp_all [Spec.next, Spec.upd, Stands, Spec.Allowed, Spec.NotSelf]
            · intro hnm hc
              clear h key fin
              refine ⟨by simp_all [Clean, Spec.NotMoved], fun q l => ?_⟩
              have := hc.2 q l
              clear hc
              by_cases hqa : q = a <;> by_cases hqb : q = b <;> simp_all [Spec.NotMoved]
  | assignMove a b =>
    by_cases hab : a = b
    · subst hab
      rcases key a with ⟨hwa, hsa⟩ | ⟨hwa, la, hsa⟩ | ⟨va, hwa, hsa⟩
      · simp_all [Spec.Allowed, Spec.NotSelf]
      · refine fin _ _ (by simp [step, assignValue, clear, present, destroyValue, create, declare, setPresent, take, get, drop, put, hsa]; rfl) ?_ ?_
        · intro q
          have := h q
          clear h key fin
          by_cases hqa : q = a <;> simp_all [Spec.next, Spec.upd, Stands, Spec.Allowed, Spec.NotSelf]
        · intro hnm hc
          clear h key fin
          have hla := hc.2 a la hsa
          refine ⟨by simp_all [Clean, Spec.NotMoved], fun q l => ?_⟩
          have := hc.2 q l
          clear hc
          by_cases hqa : q = a <;> simp_all [Spec.NotMoved]
      · simp_all [Spec.Allowed, Spec.NotSelf]
    · rcases key a with ⟨hwa, hsa⟩ | ⟨hwa, la, hsa⟩ | ⟨va, hwa, hsa⟩
      · simp_all [Spec.Allowed]
      · rcases key b with ⟨hwb, hsb⟩ | ⟨hwb, lb, hsb⟩ | ⟨vb, hwb, hsb⟩
        · simp_all [Spec.Allowed]
        · refine fin _ _ (by simp [step, assignValue, clear, present, destroyValue, create, declare, setPresent, take, get, drop, put, hsa, hsb, hab, Ne.symm hab]; rfl) ?_ ?_
          · intro q
            have := h q
            clear h key fin
            by_cases hqa : q = a <;> by_cases hqb : q = b <;> simp_all [Spec.next, Spec.upd, Stands, Spec.Allowed, Spec.NotSelf]
          · intro hnm hc
            clear h key fin
            have hla := hc.2 a la hsa
            have hlb := hc.2 b lb hsb
            refine ⟨by simp_all [Clean, Spec.NotMoved], fun q l => ?_⟩
            have := hc.2 q l
            clear hc
            by_cases hqa : q = a <;> by_cases hqb : q = b <;> simp_all [Spec.NotMoved]
        · refine fin _ _ (by simp [step, assignValue, clear, present, destroyValue, create, declare, setPresent, take, get, drop, put, hsa, hsb, hab, Ne.symm hab]; rfl) ?_ ?_
          · intro q
            have := h q
            clear h key fin
            by_cases hqa : q = a <;> by_cases hqb : q = b <;> simp_all [Spec.next, Spec.upd, Stands, Spec.Allowed, Spec.NotSelf]
          · intro hnm hc
            clear h key fin
            have hla := hc.2 a la hsa
            refine ⟨by simp_all [Clean, Spec.NotMoved], fun q l => ?_⟩
            have := hc.2 q l
            clear hc
            by_cases hqa : q = a <;> by_cases hqb : q = b <;> simp_all [Spec.NotMoved]
      · rcases key b with ⟨hwb, hsb⟩ | ⟨hwb, lb, hsb⟩ | ⟨vb, hwb, hsb⟩
        · simp_all [Spec.Allowed]
        · refine fin _ _ (by simp [step, assignValue, clear, present, destroyValue, create, declare, setPresent, take, get, drop, put, hsa, hsb, hab, Ne.symm hab]; rfl) ?_ ?_
          · intro q
            have := h q
            clear h key fin
            by_cases hqa : q = a <;> by_cases hqb : q = b <;> simp_all [Spec.next, Spec.upd, Stands, Spec.Allowed, Spec.NotSelf]
          · intro hnm hc
            clear h key fin
            have hlb := hc.2 b lb hsb
            refine ⟨by simp_all [Clean, Spec.NotMoved], fun q l => ?_⟩
            have := hc.2 q l
            clear hc
            by_cases hqa : q = a <;> by_cases hqb : q = b <;> simp_all [Spec.NotMoved]
        · refine fin _ _ (by simp [step, assignValue, clear, present, destroyValue, create, declare, setPresent, take, get, drop, put, hsa, hsb, hab, Ne.symm hab]; rfl) ?_ ?_
          · intro q
            have := h q
            clear h key fin
            by_cases hqa : q = a <;> by_cases hqb : q = b <;> simp_all [Spec.next, Spec.upd, Stands, Spec.Allowed, Spec.NotSelf]
          · intro hnm hc
            clear h key fin
            refine ⟨by simp_all [Clean, Spec.NotMoved], fun q l => ?_⟩
            have := hc.2 q l
            clear hc
            by_cases hqa : q = a <;> by_cases hqb : q = b <;> simp_all [Spec.NotMoved]
  | assign a v fail =>
    cases fail
    · rcases key a with ⟨hwa, hsa⟩ | ⟨hwa, la, hsa⟩ | ⟨va, hwa, hsa⟩
      · simp_all [Spec.Allowed]
      · refine fin _ _ (by simp [step, assignValue, clear, present, destroyValue, create, declare, setPresent, take, get, drop, put, hsa]; rfl) ?_ ?_
        · intro q
          have := h q
          clear h key fin
          by_cases hqa : q = a <;> simp_all [Spec.next, Spec.upd, Stands, Spec.Allowed, Spec.NotSelf]
        · intro hnm hc
          clear h key fin
          have hla := hc.2 a la hsa
          refine ⟨by simp_all [Clean, Spec.NotMoved], fun q l => ?_⟩
          have := hc.2 q l
          clear hc
          by_cases hqa : q = a <;> simp_all [Spec.NotMoved]
      · refine fin _ _ (by simp [step, assignValue, clear, present, destroyValue, create, declare, setPresent, take, get, drop, put, hsa]; rfl) ?_ ?_
        · intro q
          have := h q
          clear h key fin
          by_cases hqa : q = a <;> simp_all [Spec.next, Spec.upd, Stands, Spec.Allowed, Spec.NotSelf]
        · intro hnm hc
          clear h key fin
          refine ⟨by simp_all [Clean, Spec.NotMoved], fun q l => ?_⟩
          have := hc.2 q l
          clear hc
          by_cases hqa : q = a <;> simp_all [Spec.NotMoved]
    · rcases key a with ⟨hwa, hsa⟩ | ⟨hwa, la, hsa⟩ | ⟨va, hwa, hsa⟩
      · simp_all [Spec.Allowed]
      · refine fin _ _ (by simp [step, assignValue, clear, present, destroyValue, create, declare, setPresent, take, get, drop, put, hsa]; rfl) ?_ ?_
        · intro q
          have := h q
          clear h key fin
          by_cases hqa : q = a <;> simp_all [Spec.next, Spec.upd, Stands, Spec.Allowed, Spec.NotSelf]
        · intro hnm hc
          clear h key fin
          have hla := hc.2 a la hsa
          refine ⟨by simp_all [Clean, Spec.NotMoved], fun q l => ?_⟩
          have := hc.2 q l
          clear hc
          by_cases hqa : q = a <;> simp_all [Spec.NotMoved]
      · refine fin _ _ (by simp [step, assignValue, clear, present, destroyValue, create, declare, setPresent, take, get, drop, put, hsa]; rfl) ?_ ?_
        · intro q
          have := h q
          clear h key fin
          by_cases hqa : q = a <;> simp_all [Spec.next, Spec.upd, Stands, Spec.Allowed, Spec.NotSelf]
        · intro hnm hc
          clear h key fin
          refine ⟨by simp_all [Clean, Spec.NotMoved], fun q l => ?_⟩
          have := hc.2 q l
          clear hc
          by_cases hqa : q = a <;> simp_all [Spec.NotMoved]
  | assignFrom a b fail =>
    cases fail
    · by_cases hab : a = b
      · subst hab
        rcases key a with ⟨hwa, hsa⟩ | ⟨hwa, la, hsa⟩ | ⟨va, hwa, hsa⟩
        · simp_all [Spec.Allowed, Spec.NotSelf]
        · simp_all [Spec.Allowed, Spec.NotSelf]
        · refine fin _ _ (by simp [step, assignValue, clear, present, destroyValue, create, declare, setPresent, take, get, drop, put, hsa]; rfl) ?_ ?_
          · intro q
            have := h q
            clear h key fin
            by_cases hqa : q = a <;> simp_all [Spec.next, Spec.upd, Stands, Spec.Allowed, Spec.NotSelf]
          · intro hnm hc
            clear h key fin
            refine ⟨by simp_all [Clean, Spec.NotMoved], fun q l => ?_⟩
            have := hc.2 q l
            clear hc
            by_cases hqa : q = a <;> simp_all [Spec.NotMoved]
      · rcases key a with ⟨hwa, hsa⟩ | ⟨hwa, la, hsa⟩ | ⟨va, hwa, hsa⟩
        · simp_all [Spec.Allowed]
        · rcases key b with ⟨hwb, hsb⟩ | ⟨hwb, lb, hsb⟩ | ⟨vb, hwb, hsb⟩
          · simp_all [Spec.Allowed]
          · simp_all [Spec.Allowed]
          · refine fin _ _ (by simp [step, assignValue, clear, present, destroyValue, create, declare, setPresent, take, get, drop, put, hsa, hsb, hab, Ne.symm hab]; rfl) ?_ ?_
            · intro q
              have := h q
              clear h key fin
              by_cases hqa : q = a <;> by_cases hqb : q = b <;> simp_all [Spec.next, Spec.upd, Stands, Spec.Allowed, Spec.NotSelf]
            · intro hnm hc
              clear h key fin
              have hla := hc.2 a la hsa
              refine ⟨by simp_all [Clean, Spec.NotMoved], fun q l => ?_⟩
              have := hc.2 q l
              clear hc
              by_cases hqa : q = a <;> by_cases hqb : q = b <;> simp_all [Spec.NotMoved]
        · rcases key b with ⟨hwb, hsb⟩ | ⟨hwb, lb, hsb⟩ | ⟨vb, hwb, hsb⟩
          · simp_all [Spec.Allowed]
          · simp_all [Spec.Allowed]
          · refine fin _ _ (by simp [step, assignValue, clear, present, destroyValue, create, declare, setPresent, take, get, drop, put, hsa, hsb, hab, Ne.symm hab]; rfl) ?_ ?_
            · intro q
              have := h q
              clear h key fin
              by_cases hqa : q = a <;> by_cases hqb : q = b <;> simp_all [Spec.next, Spec.upd, Stands, Spec.Allowed, Spec.NotSelf]
            · intro hnm hc
              clear h key fin
              refine ⟨by simp_all [Clean, Spec.NotMoved], fun q l => ?_⟩
              have := hc.2 q l
              clear hc
              by_cases hqa : q = a <;> by_cases hqb : q = b <;> simp_all [Spec.NotMoved]
    · by_cases hab : a = b
      · subst hab
        rcases key a with ⟨hwa, hsa⟩ | ⟨hwa, la, hsa⟩ | ⟨va, hwa, hsa⟩
        · simp_all [Spec.Allowed, Spec.NotSelf]
        · simp_all [Spec.Allowed, Spec.NotSelf]
        · refine fin _ _ (by simp [step, assignValue, clear, present, destroyValue, create, declare, setPresent, take, get, drop, put, hsa]; rfl) ?_ ?_
          · intro q
            have := h q
            clear h key fin
            by_cases hqa : q = a <;> simp_all [Spec.next, Spec.upd, Stands, Spec.Allowed, Spec.NotSelf]
          · intro hnm hc
            clear h key fin
            refine ⟨by simp_all [Clean, Spec.NotMoved], fun q l => ?_⟩
            have := hc.2 q l
            clear hc
            by_cases hqa : q = a <;> simp_all [Spec.NotMoved]
      · rcases key a with ⟨hwa, hsa⟩ | ⟨hwa, la, hsa⟩ | ⟨va, hwa, hsa⟩
        · simp_all [Spec.Allowed]
        · rcases key b with ⟨hwb, hsb⟩ | ⟨hwb, lb, hsb⟩ | ⟨vb, hwb, hsb⟩
          · simp_all [Spec.Allowed]
          · simp_all [Spec.Allowed]
          · refine fin _ _ (by simp [step, assignValue, clear, present, destroyValue, create, declare, setPresent, take, get, drop, put, hsa, hsb, hab, Ne.symm hab]; rfl) ?_ ?_
            · intro q
              have := h q
              clear h key fin
              by_cases hqa : q = a <;> by_cases hqb : q = b <;> simp_all [Spec.next, Spec.upd, Stands, Spec.Allowed, Spec.NotSelf]
            · intro hnm hc
              clear h key fin
              have hla := hc.2 a la hsa
              refine ⟨by simp_all [Clean, Spec.NotMoved], fun q l => ?_⟩
              have := hc.2 q l
              clear hc
              by_cases hqa : q = a <;> by_cases hqb : q = b <;> simp_all [Spec.NotMoved]
        · rcases key b with ⟨hwb, hsb⟩ | ⟨hwb, lb, hsb⟩ | ⟨vb, hwb, hsb⟩
          · simp_all [Spec.Allowed]
          · simp_all [Spec.Allowed]
          · refine fin _ _ (by simp [step, assignValue, clear, present, destroyValue, create, declare, setPresent, take, get, drop, put, hsa, hsb, hab, Ne.symm hab]; rfl) ?_ ?_
            · intro q
              have := h q
              clear h key fin
              by_cases hqa : q = a <;> by_cases hqb : q = b <;> simp_all [Spec.next, Spec.upd, Stands, Spec.Allowed, Spec.NotSelf]
            · intro hnm hc
              clear h key fin
              refine ⟨by simp_all [Clean, Spec.NotMoved], fun q l => ?_⟩
              have := hc.2 q l
              clear hc
              by_cases hqa : q = a <;> by_cases hqb : q = b <;> simp_all [Spec.NotMoved]
  | assignTemp a v =>
    rcases key a with ⟨hwa, hsa⟩ | ⟨hwa, la, hsa⟩ | ⟨va, hwa, hsa⟩
    · simp_all [Spec.Allowed]
    · refine fin _ _ (by simp [step, assignValue, clear, present, destroyValue, create, declare, setPresent, take, get, drop, put, hsa]; rfl) ?_ ?_
      · intro q
        have := h q
        clear h key fin
        by_cases hqa : q = a <;> simp_all [Spec.next, Spec.upd, Stands, Spec.Allowed, Spec.NotSelf]
      · intro hnm hc
        clear h key fin
        have hla := hc.2 a la hsa
        refine ⟨by simp_all [Clean, Spec.NotMoved], fun q l => ?_⟩
        have := hc.2 q l
        clear hc
        by_cases hqa : q = a <;> simp_all [Spec.NotMoved]
    · refine fin _ _ (by simp [step, assignValue, clear, present, destroyValue, create, declare, setPresent, take, get, drop, put, hsa]; rfl) ?_ ?_
      · intro q
        have := h q
        clear h key fin
        by_cases hqa : q = a <;> simp_all [Spec.next, Spec.upd, Stands, Spec.Allowed, Spec.NotSelf]
      · intro hnm hc
        clear h key fin
        refine ⟨by simp_all [Clean, Spec.NotMoved], fun q l => ?_⟩
        have := hc.2 q l
        clear hc
        by_cases hqa : q = a <;> simp_all [Spec.NotMoved]
  | assignTake a b =>
    by_cases hab : a = b
    · subst hab
      rcases key a with ⟨hwa, hsa⟩ | ⟨hwa, la, hsa⟩ | ⟨va, hwa, hsa⟩
      · simp_all [Spec.Allowed, Spec.NotSelf]
      · simp_all [Spec.Allowed, Spec.NotSelf]
      · simp_all [Spec.Allowed, Spec.NotSelf]
    · rcases key a with ⟨hwa, hsa⟩ | ⟨hwa, la, hsa⟩ | ⟨va, hwa, hsa⟩
      · simp_all [Spec.Allowed]
      · rcases key b with ⟨hwb, hsb⟩ | ⟨hwb, lb, hsb⟩ | ⟨vb, hwb, hsb⟩
        · simp_all [Spec.Allowed]
        · simp_all [Spec.Allowed]
        · refine fin _ _ (by simp [step, assignValue, clear, present, destroyValue, create, declare, setPresent, take, get, drop, put, hsa, hsb, hab, Ne.symm hab]; rfl) ?_ ?_
          · intro q
            have := h q
            clear h key fin
            by_cases hqa : q = a <;> by_cases hqb : q = b <;> simp_all [Spec.next, Spec.upd, Stands, Spec.Allowed, Spec.NotSelf]
          · intro hnm hc
            clear h key fin
            have hla := hc.2 a la hsa
            refine ⟨by simp_all [Clean, Spec.NotMoved], fun q l => ?_⟩
            have := hc.2 q l
            clear hc
            by_cases hqa : q = a <;> by_cases hqb : q = b <;> simp_all [Spec.NotMoved]
      · rcases key b with ⟨hwb, hsb⟩ | ⟨hwb, lb, hsb⟩ | ⟨vb, hwb, hsb⟩
        · simp_all [Spec.Allowed]
        · simp_all [Spec.Allowed]
        · refine fin _ _ (by simp [step, assignValue, clear, present, destroyValue, create, declare, setPresent, take, get, drop, put, hsa, hsb, hab, Ne.symm hab]; rfl) ?_ ?_
          · intro q
            have := h q
            clear h key fin
            by_cases hqa : q = a <;> by_cases hqb : q = b <;> simp_all [Spec.next, Spec.upd, Stands, Spec.Allowed, Spec.NotSelf]
          · intro hnm hc
            clear h key fin
            refine ⟨by simp_all [Clean, Spec.NotMoved], fun q l => ?_⟩
            have := hc.2 q l
            clear hc
            by_cases hqa : q = a <;> by_cases hqb : q = b <;> simp_all [Spec.NotMoved]
  | release a =>
    rcases key a with ⟨hwa, hsa⟩ | ⟨hwa, la, hsa⟩ | ⟨va, hwa, hsa⟩
    · simp_all [Spec.Allowed]
    · simp_all [Spec.Allowed]
    · refine fin _ _ (by simp [step, assignValue, clear, present, destroyValue, create, declare, setPresent, take, get, drop, put, hsa]; rfl) ?_ ?_
      · intro q
        have := h q
        clear h key fin
        by_cases hqa : q = a <;> simp_all [Spec.next, Spec.upd, Stands, Spec.Allowed, Spec.NotSelf]
      · intro hnm hc
        clear h key fin
        refine ⟨by simp_all [Clean, Spec.NotMoved], fun q l => ?_⟩
        have := hc.2 q l
        clear hc
        by_cases hqa : q = a <;> simp_all [Spec.NotMoved]
  | reset a =>
    rcases key a with ⟨hwa, hsa⟩ | ⟨hwa, la, hsa⟩ | ⟨va, hwa, hsa⟩
    · simp_all [Spec.Allowed]
    · refine fin _ _ (by simp [step, assignValue, clear, present, destroyValue, create, declare, setPresent, take, get, drop, put, hsa]; rfl) ?_ ?_
      · intro q
        have := h q
        clear h key fin
        by_cases hqa : q = a <;> simp_all [Spec.next, Spec.upd, Stands, Spec.Allowed, Spec.NotSelf]
      · intro hnm hc
        clear h key fin
        have hla := hc.2 a la hsa
        refine ⟨by simp_all [Clean, Spec.NotMoved], fun q l => ?_⟩
        have := hc.2 q l
        clear hc
        by_cases hqa : q = a <;> simp_all [Spec.NotMoved]
    · refine fin _ _ (by simp [step, assignValue, clear, present, destroyValue, create, declare, setPresent, take, get, drop, put, hsa]; rfl) ?_ ?_
      · intro q
        have := h q
        clear h key fin
        by_cases hqa : q = a <;> simp_all [Spec.next, Spec.upd, Stands, Spec.Allowed, Spec.NotSelf]
      · intro hnm hc
        clear h key fin
        refine ⟨by simp_all [Clean, Spec.NotMoved], fun q l => ?_⟩
        have := hc.2 q l
        clear hc
        by_cases hqa : q = a <;> simp_all [Spec.NotMoved]

theorem run_snoc (moved : V → V) (ops : List (Op V)) (o : Op V) :
    run moved (ops ++ [o]) = (run moved ops).bind fun m => step moved m o := by
  unfold run
  rw [List.foldlM_append]
  cases List.foldlM (step moved) start ops with
  | none => rfl
  | some m =>
    show List.foldlM (step moved) m [o] = step moved m o
    rw [List.foldlM_cons]
    cases step moved m o <;> rfl

theorem agrees_of {m : Mem V} {w : Spec.World V} (h : ∀ q, Stands (w q) (m.slot q)) : Spec.Agrees m w := by
  intro q
  have := h q
  unfold Spec.seen
  cases hq : w q with
  | none => rw [hq] at this; rw [show m.slot q = none from this]; rfl
  | some x =>
    rw [hq] at this
    cases x with
    | none => obtain ⟨l, hl⟩ := this; rw [hl]; rfl
    | some v => rw [show m.slot q = _ from this]; rfl

theorem balanced_of {m : Mem V} {w : Spec.World V} (h : ∀ q, Stands (w q) (m.slot q)) (hc : Clean m) :
    Spec.Balanced m := by
  refine ⟨hc.1, fun q s hs => ?_⟩
  have := h q
  cases hq : w q with
  | none => rw [hq] at this; rw [show m.slot q = none from this] at hs; cases hs
  | some x =>
    rw [hq] at this
    cases x with
    | none =>
      obtain ⟨l, hl⟩ := this
      have hl' := hc.2 q l hl
      rw [hl] at hs
      rw [← Option.some.inj hs, hl']
      rfl
    | some v =>
      rw [show m.slot q = _ from this] at hs
      rw [← Option.some.inj hs]
      rfl

/-- C99: values are right, and nothing undefined happens, as long as nothing is moved into itself; also if copying
throws. -/
theorem C99_values (moved : V → V) {ops : List (Op V)} {w : Spec.World V}
    (h : Spec.Reach moved Spec.NotSelf ops w) : ∃ m, run moved ops = some m ∧ Spec.Agrees m w := by
  have : ∃ m, run moved ops = some m ∧ ∀ q, Stands (w q) (m.slot q) := by
    induction h with
    | nil => exact ⟨start, rfl, fun _ => rfl⟩
    | @snoc ops w o _ ha hp ih =>
      obtain ⟨m, hm, hs⟩ := ih
      obtain ⟨m', h1, h2, -⟩ := step_spec moved m w hs o ha hp
      exact ⟨m', by rw [run_snoc, hm]; exact h1, h2⟩
  obtain ⟨m, hm, hs⟩ := this
  exact ⟨m, hm, agrees_of hs⟩

/-- C99: values are right and every value object is destroyed exactly once, as long as move assignment does not move
a value. -/
theorem C99_partial (moved : V → V) {ops : List (Op V)} {w : Spec.World V}
    (h : Spec.Reach moved Spec.NotMoved ops w) :
    ∃ m, run moved ops = some m ∧ Spec.Agrees m w ∧ Spec.Balanced m := by
  have : ∃ m, run moved ops = some m ∧ (∀ q, Stands (w q) (m.slot q)) ∧ Clean m := by
    induction h with
    | nil => exact ⟨start, rfl, fun _ => rfl, rfl, fun _ _ h => by cases h⟩
    | @snoc ops w o _ ha hp ih =>
      obtain ⟨m, hm, hs, hc⟩ := ih
      have hn : Spec.NotSelf w o := by
        cases o with
        | assignMove a b => intro e; rw [e]; exact hp
        | assignTake a b => exact hp
        | _ => trivial
      obtain ⟨m', h1, h2, h3⟩ := step_spec moved m w hs o ha hn
      exact ⟨m', by rw [run_snoc, hm]; exact h1, h2, h3 hp hc⟩
  obtain ⟨m, hm, hs, hc⟩ := this
  exact ⟨m, hm, agrees_of hs, balanced_of hs hc⟩

/-- A value is moved from one optional to another, and both end. -/
def leak : List (Op Nat) := [.value 0 7 false, .empty 1, .assignMove 1 0, .destroy 0, .destroy 1]

/-- Move assignment does not destroy the value object it has moved from (Optional.inl:73-78), unlike the move
constructor (30). -/
theorem C99_false : ¬ C99_statement := by
  intro h
  have hr : ∃ w, Spec.Reach (fun _ : Nat => 0) (fun _ _ => True) leak w := by
    refine ⟨_, .snoc (ops := [.value 0 7 false, .empty 1, .assignMove 1 0, .destroy 0])
      (.snoc (ops := [.value 0 7 false, .empty 1, .assignMove 1 0]) (.snoc (ops := [.value 0 7 false, .empty 1])
      (.snoc (ops := [.value 0 7 false]) (.snoc (ops := []) .nil ?_ trivial) ?_ trivial) ?_ trivial) ?_ trivial) ?_
      trivial⟩ <;> simp [Spec.Allowed, Spec.next, Spec.upd, Spec.nothing]
  obtain ⟨w, hw⟩ := hr
  obtain ⟨m, hm, -, hb⟩ := h _ _ _ hw
  have e : (run (fun _ : Nat => 0) leak).map (fun m => m.lost) = some 1 := by decide +kernel
  rw [hm, Option.map_some, hb.1] at e
  cases e

/-- Moving an optional into itself, or its value, uses a value that has been destroyed (Optional.inl:69-75,
115-119). -/
theorem C99_self_undefined :
    run (fun _ : Nat => 0) [.value 0 7 false, .assignMove 0 0] = none ∧
    run (fun _ : Nat => 0) [.value 0 7 false, .assignTake 0 0] = none := by decide +kernel

example : ∃ w, Spec.Reach (fun _ : Nat => 0) Spec.NotMoved
    [.value 0 7 false, .move 1 0, .assignFrom 0 1 false, .assignCopy 1 0 true, .release 0, .assignMove 1 0] w ∧
    w 0 = some none ∧ w 1 = some none := by
  refine ⟨_, .snoc (ops := [.value 0 7 false, .move 1 0, .assignFrom 0 1 false, .assignCopy 1 0 true, .release 0])
    (.snoc (ops := [.value 0 7 false, .move 1 0, .assignFrom 0 1 false, .assignCopy 1 0 true])
    (.snoc (ops := [.value 0 7 false, .move 1 0, .assignFrom 0 1 false]) (.snoc (ops := [.value 0 7 false, .move 1 0])
    (.snoc (ops := [.value 0 7 false]) (.snoc (ops := []) .nil ?_ ?_) ?_ ?_) ?_ ?_) ?_ ?_) ?_ ?_) ?_ ?_, ?_, ?_⟩ <;>
    simp [Spec.Allowed, Spec.next, Spec.upd, Spec.nothing, Spec.NotMoved]

end Ovk.Optn
