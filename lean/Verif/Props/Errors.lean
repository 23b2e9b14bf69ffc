/-
Property C77: synchronized errors.
-/
import Verif.Model.Errors
import Mathlib.Data.Fin.VecNotation
import Mathlib.Tactic.FinCases
import Mathlib.Data.Fintype.Basic
import Mathlib.Order.Lattice
import Mathlib.Order.Basic

namespace Ovk
namespace Spec
open Err
/-- File errors know their path, other errors have none. -/
def WellFormed (e : Error) : Prop := (e.path = none ↔ e.code = .mpiNotInitialized)

/-- After synchronizing either nobody has an error and nobody had one, or everybody has the same error, one that
some process had. -/
def Agree {n : Nat} (es out : Fin n → Option Error) : Prop :=
  ((∀ p, es p = none) ∧ ∀ p, out p = none) ∨ ∃ q e, es q = some e ∧ ∀ p, out p = some e
end Spec

namespace Err
variable {n : Nat}

theorem foldl_min_le (x : Fin n → Int) : ∀ (l : List (Fin n)) (m : Int),
    l.foldl (fun m p => min m (x p)) m ≤ m ∧ (∀ p ∈ l, l.foldl (fun m p => min m (x p)) m ≤ x p) ∧
    (l.foldl (fun m p => min m (x p)) m = m ∨ ∃ p ∈ l, l.foldl (fun m p => min m (x p)) m = x p) := by
  intro l
  induction l with
  | nil => intro m; simp
  | cons a l ih =>
    intro m
    obtain ⟨h1, h2, h3⟩ := ih (min m (x a))
    rw [List.foldl_cons]
    refine ⟨by omega, ?_, ?_⟩
    · intro p hp
      rcases List.mem_cons.1 hp with rfl | hp
      · omega
      · exact h2 p hp
    · rcases h3 with h3 | ⟨p, hp, h3⟩
      · rcases Int.le_total m (x a) with h | h
        · left; omega
        · right; exact ⟨a, by simp, by omega⟩
      · right; exact ⟨p, by simp [hp], h3⟩

theorem allMin_spec (top : Int) (x : Fin n → Int) :
    allMin top x ≤ top ∧ (∀ p, allMin top x ≤ x p) ∧ (allMin top x = top ∨ ∃ p, allMin top x = x p) := by
  obtain ⟨h1, h2, h3⟩ := foldl_min_le x (List.finRange n) top
  exact ⟨h1, fun p => h2 p (List.mem_finRange p), h3.imp id fun ⟨p, _, h⟩ => ⟨p, h⟩⟩

theorem value_bounds (c : Code) : 1 ≤ c.value ∧ c.value ≤ 4 := by cases c <;> decide

theorem value_inj {c c' : Code} (h : c.value = c'.value) : c = c' := by
  cases c <;> cases c' <;> simp [Code.value] at h ⊢

theorem fromCode_code (c : Code) : ∃ e, fromCode c.value = some e ∧ e.code = c := by
  cases c <;> exact ⟨_, rfl, rfl⟩

theorem lowest_eq (es : Fin n → Option Error) :
    (allMin maxCode (fun p => codeValue (es p)) = maxCode ↔ ∀ p, es p = none) ∧
    ∀ c, (∀ p e, es p = some e → e.code = c) → (∃ p, es p ≠ none) →
      allMin maxCode (fun p => codeValue (es p)) = c.value := by
  obtain ⟨h1, h2, h3⟩ := allMin_spec maxCode fun p => codeValue (es p)
  have hval : ∀ p e, es p = some e → codeValue (es p) = e.code.value := fun p e h => by rw [h]; rfl
  constructor
  · constructor
    · intro h p
      cases he : es p with
      | none => rfl
      | some e =>
        have := h2 p
        rw [hval p e he] at this
        have := (value_bounds e.code).2
        unfold maxCode at *
        omega
    · intro h
      rcases h3 with h3 | ⟨p, h3⟩
      · exact h3
      · rw [h3, h p]; rfl
  · rintro c hc ⟨p, hp⟩
    obtain ⟨e, he⟩ := Option.ne_none_iff_exists'.1 hp
    have hp' := h2 p
    rw [hval p e he, hc p e he] at hp'
    have hb := (value_bounds c).2
    rcases h3 with h3 | ⟨q, h3⟩
    · rw [h3] at hp'; unfold maxCode at hp'; omega
    · cases hq : es q with
      | none => rw [h3, hq] at hp'; simp only [codeValue] at hp'; unfold maxCode at hp'; omega
      | some e' => rw [h3, hval q e' hq, hc q e' hq]
end Err

open Err
variable {n : Nat}

/-- The full statement of C77. -/
def C77_statement : Prop := ∀ (n : Nat) (es : Fin n → Option Error), (∀ p e, es p = some e → Spec.WellFormed e) →
  ∃ out, sync es = some out ∧ Spec.Agree es out

/-- C77, if all errors that occurred are of the same kind: synchronizing completes, and all processes end up with the
error of the process of lowest rank that had one.  Missing: errors of different kinds, for which the claim is false
(`C77_false`, `C77_hangs`). -/
theorem C77_partial (es : Fin n → Option Error) (hw : ∀ p e, es p = some e → Spec.WellFormed e) (c : Code)
    (hc : ∀ p e, es p = some e → e.code = c) :
    ∃ out, sync es = some out ∧ Spec.Agree es out ∧
      ∀ q e, es q = some e → (∀ p, p < q → es p = none) → ∀ p, out p = some e := by
  obtain ⟨hl1, hl2⟩ := lowest_eq es
  by_cases hno : ∀ p, es p = none
  · refine ⟨es, ?_, .inl ⟨hno, hno⟩, fun q e hq => absurd (hno q) (by rw [hq]; simp)⟩
    unfold sync
    simp only
    rw [if_neg (by rw [hl1.2 hno]; simp)]
  have hex : ∃ p, es p ≠ none := by push Not at hno; exact hno
  have hlow := hl2 c hc hex
  have hb := value_bounds c
  -- the first process with an error
  have hfirst : ∃ q e, es q = some e ∧ ∀ p, p < q → es p = none := by
    obtain ⟨p, hp⟩ := hex
    have : ∀ (k : Nat) (p : Fin n), (p : Nat) = k → es p ≠ none → ∃ q e, es q = some e ∧ ∀ p, p < q → es p = none := by
      intro k
      induction k using Nat.strongRecOn with
      | _ k ih =>
        intro p hk hp
        by_cases h : ∀ p', p' < p → es p' = none
        · obtain ⟨e, he⟩ := Option.ne_none_iff_exists'.1 hp
          exact ⟨p, e, he, h⟩
        · push Not at h
          obtain ⟨p', h1, h2⟩ := h
          exact ih (p' : Nat) (by omega) p' rfl h2
    exact this _ p rfl hp
  obtain ⟨q, e, hq, hlt⟩ := hfirst
  have hcode : ∀ p, codeValue (es p) = c.value ↔ es p ≠ none := by
    intro p
    cases hp : es p with
    | none => simp only [codeValue]; unfold maxCode; constructor <;> intro h <;> first | omega | exact absurd rfl h
    | some e' => simp [codeValue, hc p e' hp]
  have hroot : allMin (n : Int) (fun p => if codeValue (es p) = c.value then ((p : Nat) : Int) else (n : Int)) =
      (q : Nat) := by
    obtain ⟨r1, r2, r3⟩ := allMin_spec (n : Int)
      fun p => if codeValue (es p) = c.value then ((p : Nat) : Int) else (n : Int)
    have hq' := r2 q
    rw [if_pos ((hcode q).2 (by rw [hq]; simp))] at hq'
    have := q.2
    rcases r3 with r3 | ⟨p, r3⟩
    · rw [r3] at hq'; omega
    · rw [r3] at hq' ⊢
      by_cases hp : codeValue (es p) = c.value
      · rw [if_pos hp] at hq' ⊢
        have hne := (hcode p).1 hp
        have : ¬ p < q := fun h => hne (hlt p h)
        omega
      · rw [if_neg hp] at hq'; omega
  obtain ⟨e0, he0, hc0⟩ := fromCode_code c
  have hes' : ∀ p, ∃ e', (match es p with | some e => some e | none => fromCode c.value) = some e' ∧ e'.code = c := by
    intro p
    cases hp : es p with
    | none => exact ⟨e0, he0, hc0⟩
    | some e' => exact ⟨e', rfl, hc p e' hp⟩
  have hbr : ∀ e' : Error, e'.code = c → broadcasts e' = broadcasts e := by
    intro e' h; unfold broadcasts; rw [h, hc q e hq]
  have hall : ∀ p, (match es p with | some e => some e | none => fromCode c.value).map
      (fun e' : Error => if broadcasts e = true then { e' with path := e.path } else e') = some e := by
    intro p
    obtain ⟨e', h1, h2⟩ := hes' p
    rw [h1, Option.map_some]
    congr 1
    by_cases hbe : broadcasts e = true
    · rw [if_pos hbe]
      cases e' with
      | mk c1 p1 => cases e with
        | mk c2 p2 =>
          have := hc q _ hq
          simp only at this h2 ⊢
          rw [this, h2]
    · rw [if_neg hbe]
      -- without paths: both are `mpi_not_initialized_error`
      have hm : e.code = .mpiNotInitialized := by simpa [broadcasts] using hbe
      have hpath := (hw q e hq).2 hm
      have hpath' : e'.path = none := by
        cases hp : es p with
        | none =>
          rw [hp] at h1
          have : c = .mpiNotInitialized := by rw [← hm, hc q e hq]
          rw [this] at h1
          simp only [fromCode, Code.value, if_true] at h1
          rw [← Option.some.inj h1]
        | some e'' =>
          rw [hp] at h1
          obtain rfl := Option.some.inj h1
          exact (hw p _ hp).2 (by rw [h2, ← hm, hc q e hq])
      cases e' with
      | mk c1 p1 => cases e with
        | mk c2 p2 =>
          have := hc q _ hq
          simp only at this h2 hpath hpath' ⊢
          rw [this, h2, hpath, hpath']
  refine ⟨fun _ => some e, ?_, .inr ⟨q, e, hq, fun _ => rfl⟩, ?_⟩
  · unfold sync
    simp only
    rw [hlow, if_pos (by unfold maxCode; omega), hroot]
    unfold spread
    simp only
    have hqq : (⟨((q : Nat) : Int).toNat, by simp⟩ : Fin n) = q := Fin.ext (by simp)
    rw [dif_pos ⟨by omega, by simp⟩, hqq, hq]
    simp only
    rw [if_pos ?_]
    · congr 1
      funext p
      exact hall p
    · intro p
      obtain ⟨e', h1, h2⟩ := hes' p
      refine Eq.trans (congrArg (Option.map broadcasts) h1) ?_
      rw [Option.map_some, hbr e' h2]
  · intro q' e' hq' hlt' p
    have : q' = q := by
      rcases lt_trichotomy q' q with h | h | h
      · have := hlt q' h; rw [hq'] at this; simp at this
      · exact h
      · have := hlt' q h; rw [hq] at this; simp at this
    subst this
    rw [hq] at hq'
    exact hq'

/-- C77 as stated is false: a process keeps an error of another kind, with the path of the first one. -/
theorem C77_false : ¬ C77_statement := by
  intro h
  obtain ⟨out, h1, h2⟩ := h 2 ![some ⟨.fileRead, some "XINTOUT.HO.2D"⟩, some ⟨.fileOpen, some "XINTOUT.X.2D"⟩] (by
    intro p e he
    fin_cases p <;> simp at he <;> subst he <;> simp [Spec.WellFormed])
  have h3 : (sync ![some ⟨.fileRead, some "XINTOUT.HO.2D"⟩, some ⟨.fileOpen, some "XINTOUT.X.2D"⟩]).map
      (fun o => (o 0, o 1)) = some (some ⟨.fileRead, some "XINTOUT.X.2D"⟩, some ⟨.fileOpen, some "XINTOUT.X.2D"⟩) := by
    decide +kernel
  rw [h1] at h3
  simp only [Option.map_some, Option.some.injEq, Prod.mk.injEq] at h3
  rcases h2 with ⟨_, h2⟩ | ⟨q, e, _, h2⟩
  · have := h2 0; rw [h3.1] at this; simp at this
  · have e0 := h2 0
    have e1 := h2 1
    rw [h3.1] at e0
    rw [h3.2] at e1
    rw [← e1] at e0
    simp at e0

/-- An error without a path next to one with a path: the processes wait forever. -/
theorem C77_hangs : sync ![some ⟨.mpiNotInitialized, none⟩, some ⟨.fileOpen, some "f"⟩] = none := by decide +kernel

/-- What always holds: if synchronizing completes, then either all or no processes have an error afterwards, and
there is one exactly if some process had one. -/
theorem C77_detects (es out : Fin n → Option Error) (h : sync es = some out) (p : Fin n) :
    out p ≠ none ↔ ∃ q, es q ≠ none := by
  obtain ⟨hl1, _⟩ := lowest_eq es
  unfold sync at h
  simp only at h
  split at h
  · rename_i hne
    have hex : ∃ q, es q ≠ none := by
      by_contra hno
      push Not at hno
      exact hne (hl1.2 hno)
    refine ⟨fun _ => hex, fun _ => ?_⟩
    unfold spread at h
    simp only at h
    split at h
    · split at h
      · simp at h
      · rename_i r hr
        split at h
        · rename_i hall
          rw [← Option.some.inj h]
          have := hall p
          intro hn
          rw [Option.map_eq_none_iff] at hn
          rw [hn] at this
          simp at this
        · simp at h
    · simp at h
  · rename_i hne
    push Not at hne
    have hno := hl1.1 hne
    rw [← Option.some.inj h, hno p]
    constructor
    · intro h; exact absurd rfl h
    · rintro ⟨q, hq⟩; exact absurd (hno q) hq

/- Two of three processes could not open a file. -/
def exErrors : Fin 3 → Option Error :=
  ![none, some ⟨.fileOpen, some "a"⟩, some ⟨.fileOpen, some "b"⟩]

example : (∀ p e, exErrors p = some e → Spec.WellFormed e) ∧ ∀ p e, exErrors p = some e → e.code = .fileOpen := by
  constructor <;> intro p e he <;> fin_cases p <;> simp [exErrors] at he <;> subst he <;> simp [Spec.WellFormed]

example : (sync exErrors).map (fun o => (o 0, o 1, o 2)) = some (some ⟨.fileOpen, some "a"⟩,
    some ⟨.fileOpen, some "a"⟩, some ⟨.fileOpen, some "a"⟩) := by decide +kernel

end Ovk
