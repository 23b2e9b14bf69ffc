/-
C111: StringPrint writes what printf writes.
-/
import Verif.Model.StringPrint

namespace Ovk.SPrint

variable {A : Type}

/-! ### Specification -/

namespace Spec

/-- The text for a format whose specifications use all arguments. -/
def Prints (render : List Char → A → Option (List Char)) (fmt : List Char) (args : List A) (s : List Char) : Prop :=
  cprintf render none fmt args = some (s, [])

/-- The format has two percent signs in a row. -/
def Doubled (fmt : List Char) : Prop := ['%', '%'] <:+: fmt

end Spec

/-- C111 in full: formatting gives what `printf` gives, also for formats with `%%`. -/
def C111_statement : Prop :=
  ∀ (render : List Char → Nat → Option (List Char)) (debug : Bool) (fmt : List Char) (args : List Nat) (s : List Char),
    Spec.Prints render fmt args s → stringPrint render debug fmt args = some s

/-! ### Splitting -/

theorem not_doubled_tail {c : Char} {cs : List Char} (h : ¬ Spec.Doubled (c :: cs)) : ¬ Spec.Doubled cs :=
  fun hc => h (hc.trans (List.suffix_cons c cs).isInfix)

theorem not_doubled_head {cs : List Char} (h : ¬ Spec.Doubled ('%' :: cs)) : cs.head? ≠ some '%' := by
  intro hc
  cases cs with
  | nil => cases hc
  | cons d ds =>
    simp only [List.head?_cons, Option.some.injEq] at hc
    subst hc
    exact h ⟨[], ds, rfl⟩

theorem findSplit_append (fmt : List Char) : (findSplit fmt).1 ++ (findSplit fmt).2 = fmt := by
  induction fmt with
  | nil => rfl
  | cons c cs ih =>
    unfold findSplit
    split
    · rfl
    · simp [ih]

theorem findSplit_spec (fmt : List Char) (h : ¬ Spec.Doubled fmt) :
    '%' ∉ (findSplit fmt).1 ∧ ((findSplit fmt).2 = [] ∨ ∃ t, (findSplit fmt).2 = '%' :: t) ∧
      numSplits fmt = numSplits (findSplit fmt).2 := by
  induction fmt with
  | nil => exact ⟨by simp [findSplit], Or.inl rfl, rfl⟩
  | cons c cs ih =>
    by_cases hc : c = '%'
    · subst hc
      have hh := not_doubled_head h
      unfold findSplit
      rw [if_pos ⟨rfl, hh⟩]
      exact ⟨by simp, Or.inr ⟨cs, rfl⟩, rfl⟩
    · obtain ⟨h1, h2, h3⟩ := ih (not_doubled_tail h)
      unfold findSplit
      rw [if_neg (fun hx => hc hx.1)]
      refine ⟨?_, h2, ?_⟩
      · simp only [List.mem_cons, not_or]
        exact ⟨fun hx => hc hx.symm, h1⟩
      · rw [← h3]
        simp [numSplits, hc]

/-! ### printf -/

theorem cprintf_literal (render : List Char → A → Option (List Char)) : ∀ (w v : List Char) (as : List A), '%' ∉ w →
    cprintf render none (w ++ v) as = (cprintf render none v as).map fun r => (w ++ r.1, r.2) := by
  intro w
  induction w with
  | nil => intro v as _; simp
  | cons c w ih =>
    intro v as h
    simp only [List.mem_cons, not_or] at h
    rw [List.cons_append, cprintf, if_neg (fun hx => h.1 hx.symm), ih v as h.2, Option.map_map]
    rfl

/-- One specification, and the text that follows it. -/
theorem cprintf_one (render : List Char → A → Option (List Char)) : ∀ (w v d : List Char) (a : A) (as : List A)
    (s : List Char) (r : List A), '%' ∉ w → (v = [] ∨ ∃ t, v = '%' :: t) → (d = ['%'] → w = [] → v = []) →
    cprintf render (some d) (w ++ v) (a :: as) = some (s, r) →
    ∃ s1 s2, cprintf render (some d) w [a] = some (s1, []) ∧ cprintf render none v as = some (s2, r) ∧ s = s1 ++ s2 := by
  intro w
  induction w with
  | nil =>
    intro v d a as s r _ hv hd h
    rcases hv with rfl | ⟨t, rfl⟩
    · simp [cprintf] at h
    · have hd' : d ≠ ['%'] := fun hx => by have := hd hx rfl; cases this
      rw [List.nil_append, cprintf, if_neg (fun hx => hd' hx.1), if_neg (by decide), if_neg (by decide)] at h
      cases h
  | cons c w ih =>
    intro v d a as s r hw hv hd h
    simp only [List.mem_cons, not_or] at hw
    have hc : ¬ (d = ['%'] ∧ c = '%') := fun hx => hw.1 hx.2.symm
    rw [List.cons_append, cprintf, if_neg hc] at h
    rw [cprintf, if_neg hc]
    split at h
    · next hconv =>
      rw [if_pos hconv]
      obtain ⟨u, hu, h⟩ := Option.bind_eq_some_iff.mp h
      rw [cprintf_literal render w v as hw.2, Option.map_map] at h
      obtain ⟨⟨s2, r2⟩, h2, he⟩ := Option.map_eq_some_iff.mp h
      simp only [Function.comp, Prod.mk.injEq] at he
      obtain ⟨rfl, rfl⟩ := he
      refine ⟨u ++ w, s2, ?_, h2, by simp⟩
      have hl := cprintf_literal render w [] ([] : List A) hw.2
      simp only [List.append_nil] at hl
      simp [hu, hl, cprintf]
    · next hconv =>
      rw [if_neg hconv]
      split at h
      · next hmod =>
        rw [if_pos hmod]
        refine ih v (d ++ [c]) a as s r hw.2 hv ?_ h
        intro hx
        have hc' := congrArg List.getLast? hx
        simp at hc'
        exact absurd hc'.symm hw.1
      · cases h

/-- A conversion specification needs an argument. -/
theorem needs_arg (render : List Char → A → Option (List Char)) : ∀ (t d s : List Char),
    (d = ['%'] → t.head? ≠ some '%') → cprintf render (some d) t ([] : List A) ≠ some (s, []) := by
  intro t
  induction t with
  | nil => intro d s _ h; simp [cprintf] at h
  | cons c t ih =>
    intro d s hd h
    rw [cprintf] at h
    split at h
    · next hx => exact hd hx.1 (by rw [hx.2]; rfl)
    · split at h
      · cases h
      · split at h
        · next hm =>
          refine ih (d ++ [c]) s ?_ h
          intro hx
          have hc' := congrArg List.getLast? hx
          simp at hc'
          subst hc'
          exact absurd hm (by decide)
        · cases h

/-! ### C111 -/

theorem append_spec (render : List Char → A → Option (List Char)) : ∀ (as : List A) (a : A) (cs s : List Char),
    ¬ Spec.Doubled ('%' :: cs) → cprintf render none ('%' :: cs) (a :: as) = some (s, []) →
    append render ('%' :: cs) a as = some s ∧ numSplits ('%' :: cs) = as.length + 1 := by
  intro as
  induction as with
  | nil =>
    intro a cs s hd h
    refine ⟨by simp [append, print1, h], ?_⟩
    obtain ⟨h1, h2, h3⟩ := findSplit_spec cs (not_doubled_tail hd)
    have hcs := findSplit_append cs
    have hh := not_doubled_head hd
    rw [cprintf, if_pos rfl, ← hcs] at h
    obtain ⟨s1, s2, -, h4, -⟩ := cprintf_one render _ _ _ a [] s [] h1 h2 (by
      intro _ hw
      rcases h2 with h2 | ⟨t, h2⟩
      · exact h2
      · rw [hw, h2] at hcs
        rw [← hcs] at hh
        exact (hh rfl).elim) h
    have hv : (findSplit cs).2 = [] := by
      rcases h2 with h2 | ⟨t, h2⟩
      · exact h2
      · exfalso
        rw [h2, cprintf, if_pos rfl] at h4
        refine needs_arg render t ['%'] s2 ?_ h4
        intro _
        have : ¬ Spec.Doubled ('%' :: t) := by
          intro hx
          apply not_doubled_tail hd
          rw [← hcs, h2]
          exact hx.trans (List.suffix_append _ _).isInfix
        exact not_doubled_head this
    rw [numSplits, if_pos ⟨rfl, hh⟩, h3, hv]
    rfl
  | cons b bs ih =>
    intro a cs s hd h
    obtain ⟨h1, h2, h3⟩ := findSplit_spec cs (not_doubled_tail hd)
    have hcs := findSplit_append cs
    have hh := not_doubled_head hd
    rw [cprintf, if_pos rfl, ← hcs] at h
    obtain ⟨s1, s2, h4, h5, rfl⟩ := cprintf_one render _ _ _ a (b :: bs) s [] h1 h2 (by
      intro _ hw
      rcases h2 with h2 | ⟨t, h2⟩
      · exact h2
      · rw [hw, h2] at hcs
        rw [← hcs] at hh
        exact (hh rfl).elim) h
    rcases h2 with h2 | ⟨t, h2⟩
    · rw [h2, cprintf] at h5
      simp at h5
    · have hnd : ¬ Spec.Doubled ('%' :: t) := by
        intro hx
        apply not_doubled_tail hd
        rw [← hcs, h2]
        exact hx.trans (List.suffix_append _ _).isInfix
      rw [h2] at h5
      obtain ⟨h6, h7⟩ := ih b t s2 hnd h5
      have hs : splitAfter ('%' :: cs) = ('%' :: (findSplit cs).1, (findSplit cs).2) := by
        rw [splitAfter, if_neg (by rw [h2]; simp)]
      refine ⟨?_, ?_⟩
      · rw [append, hs]
        dsimp only
        rw [h2, h6]
        simp [print1, cprintf, h4]
      · rw [numSplits, if_pos ⟨rfl, hh⟩, h3, h2, h7]
        simp; omega

/-- C111: without `%%` formatting gives what `printf` gives, and the assertion holds. -/
theorem C111_partial (render : List Char → A → Option (List Char)) (debug : Bool) (fmt : List Char) (args : List A)
    (s : List Char) (hd : ¬ Spec.Doubled fmt) (h : Spec.Prints render fmt args s) :
    stringPrint render debug fmt args = some s := by
  obtain ⟨h1, h2, h3⟩ := findSplit_spec fmt hd
  have hf := findSplit_append fmt
  unfold Spec.Prints at h
  rw [← hf, cprintf_literal render _ _ _ h1] at h
  obtain ⟨⟨s', r⟩, h4, he⟩ := Option.map_eq_some_iff.mp h
  simp only [Prod.mk.injEq] at he
  obtain ⟨rfl, rfl⟩ := he
  cases args with
  | nil =>
    rcases h2 with h2 | ⟨t, h2⟩
    · rw [h2, cprintf] at h4
      simp only [Option.some.injEq, Prod.mk.injEq] at h4
      obtain ⟨rfl, -⟩ := h4
      rw [h2] at hf
      simp [stringPrint, hf]
    · exfalso
      rw [h2, cprintf, if_pos rfl] at h4
      refine needs_arg render t ['%'] s' ?_ h4
      intro _
      have : ¬ Spec.Doubled ('%' :: t) := by
        intro hx
        apply hd
        rw [← hf, h2]
        exact hx.trans (List.suffix_append _ _).isInfix
      exact not_doubled_head this
  | cons a as =>
    rcases h2 with h2 | ⟨t, h2⟩
    · rw [h2, cprintf] at h4
      simp at h4
    · have hnd : ¬ Spec.Doubled ('%' :: t) := by
        intro hx
        apply hd
        rw [← hf, h2]
        exact hx.trans (List.suffix_append _ _).isInfix
      rw [h2] at h4
      obtain ⟨h5, h6⟩ := append_spec render as a t s' hnd h4
      rw [stringPrint, if_neg (by rw [h3, h2, h6]; simp), h2, h5]
      rfl

/-- Writes numbers with `%i`, and nothing else. -/
def decimal (d : List Char) (n : Nat) : Option (List Char) := if d = "%i".toList then some (Nat.toDigits 10 n) else none

example : Spec.Prints decimal "Grid %i, size %i: ok".toList [3, 20] "Grid 3, size 20: ok".toList ∧
    ¬ Spec.Doubled "Grid %i, size %i: ok".toList ∧
    stringPrint decimal true "Grid %i, size %i: ok".toList [3, 20] = some "Grid 3, size 20: ok".toList := by
  refine ⟨by unfold Spec.Prints; decide +kernel, ?_, by decide +kernel⟩
  unfold Spec.Doubled
  decide +kernel

/-- Percent signs in formats without arguments stay doubled. -/
theorem C111_false : ¬ C111_statement := by
  intro h
  have h1 := h decimal false "100%%".toList [] "100%".toList (by unfold Spec.Prints; decide +kernel)
  revert h1
  decide +kernel

/-- What happens to percent signs: the second one is taken for the start of a specification, so the assertion fails, and
`snprintf` gets wrong specifications without it.  Directly before the first specification they stay doubled, and behind the
last one only the assertion is wrong. -/
theorem C111_percent :
    (Spec.Prints decimal "5%% of %i".toList [7] "5% of 7".toList ∧
      stringPrint decimal true "5%% of %i".toList [7] = none ∧ stringPrint decimal false "5%% of %i".toList [7] = none) ∧
    (Spec.Prints decimal "%%%i".toList [7] "%7".toList ∧
      stringPrint decimal true "%%%i".toList [7] = some "%%7".toList) ∧
    (Spec.Prints decimal "%i%% of %i".toList [7, 8] "7% of 8".toList ∧
      stringPrint decimal true "%i%% of %i".toList [7, 8] = none ∧
      stringPrint decimal false "%i%% of %i".toList [7, 8] = none) ∧
    (Spec.Prints decimal "%i%%".toList [7] "7%".toList ∧
      stringPrint decimal true "%i%%".toList [7] = none ∧
      stringPrint decimal false "%i%%".toList [7] = some "7%".toList) := by
  unfold Spec.Prints
  decide +kernel

end Ovk.SPrint
