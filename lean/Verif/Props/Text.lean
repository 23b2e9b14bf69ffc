import Verif.Model.Text
import Mathlib.Data.List.Basic
import Mathlib.Data.List.Infix
import Mathlib.Data.Nat.Digits.Lemmas
/-!
# C48: formatted numbers; C64: replacing substrings
-/
namespace Ovk.Text

namespace Spec
/-- A decimal numeral with separators: dropping them gives the digits, and they stand exactly before every
group of three digits counted from the end. -/
structure Grouped (digits out : List Char) : Prop where
  digits : out.filter (· ≠ ',') = digits
  groups : ∀ j c, out.reverse[j]? = some c → (c = ',' ↔ j % 4 = 3)
  first : out.head? ≠ some ','
  last : out.getLast? ≠ some ','
  nonempty : out ≠ []
end Spec

theorem grouped_length : ∀ (l : List Char) (i : Nat), (i + l.length) % 3 = 0 →
    (grouped i l).length = l.length + l.length / 3 := by
  intro l
  induction l with
  | nil => intro i _; rfl
  | cons c l ih =>
    intro i h
    rw [List.length_cons] at h
    unfold grouped
    rw [List.length_append, List.length_cons, ih (i + 1) (by omega), List.length_cons]
    by_cases hi : i % 3 = 0
    · rw [if_pos hi]; simp only [List.length_singleton]; omega
    · rw [if_neg hi]; simp only [List.length_nil]; omega

theorem grouped_filter : ∀ (l : List Char) (i : Nat), (∀ c ∈ l, c ≠ ',') →
    (grouped i l).filter (· ≠ ',') = l := by
  intro l
  induction l with
  | nil => intro i _; rfl
  | cons c l ih =>
    intro i h
    unfold grouped
    rw [List.filter_append, List.filter_cons_of_pos (by simpa using h c (by simp)),
      ih _ fun c hc => h c (by simp [hc])]
    split <;> simp

theorem reverse_append_get {α : Type} (a : α) (l : List α) (j : Nat) :
    (a :: l).reverse[j]? = if j = l.length then some a else if j < l.length then l.reverse[j]? else none := by
  rw [List.reverse_cons, List.getElem?_append, List.length_reverse]
  by_cases h : j < l.length
  · rw [if_pos h, if_neg (by omega), if_pos h]
  · rw [if_neg h]
    by_cases h2 : j = l.length
    · simp [h2]
    · rw [if_neg h2, if_neg h]
      obtain ⟨k, hk⟩ : ∃ k, j - l.length = k + 1 := ⟨j - l.length - 1, by omega⟩
      rw [hk]; simp

theorem reverse_get_lt {α : Type} {l : List α} {j : Nat} {c : α} (h : l.reverse[j]? = some c) : j < l.length := by
  have := (List.getElem?_eq_some_iff.1 h).1
  rwa [List.length_reverse] at this

theorem grouped_get : ∀ (l : List Char) (i : Nat), (i + l.length) % 3 = 0 → (∀ c ∈ l, c ≠ ',') →
    ∀ j c, (grouped i l).reverse[j]? = some c → (c = ',' ↔ j % 4 = 3) := by
  intro l
  induction l with
  | nil => intro i _ _ j c h; simp [grouped] at h
  | cons a l ih =>
    intro i h ha j c hj
    rw [List.length_cons] at h
    have hlen := grouped_length l (i + 1) (by omega)
    have ih := ih (i + 1) (by omega) (fun c hc => ha c (by simp [hc]))
    have hac : a ≠ ',' := ha a (by simp)
    have inner : ∀ j c, (a :: grouped (i + 1) l).reverse[j]? = some c → (c = ',' ↔ j % 4 = 3) := by
      intro j c hj
      rw [reverse_append_get] at hj
      split at hj
      · cases hj
        constructor
        · intro hc; exact absurd hc hac
        · intro hc; omega
      · split at hj
        · exact ih j c hj
        · cases hj
    unfold grouped at hj
    by_cases hi : i % 3 = 0
    · rw [if_pos hi] at hj
      rw [List.singleton_append, reverse_append_get] at hj
      split at hj
      · rename_i hjl
        cases hj
        rw [List.length_cons] at hjl
        constructor
        · intro _; omega
        · intro _; rfl
      · split at hj
        · exact inner j c hj
        · cases hj
    · rw [if_neg hi, List.nil_append] at hj
      exact inner j c hj

/-- C48 on any numeral. -/
theorem format_grouped (l : List Char) (hl : l ≠ []) (hc : ∀ c ∈ l, c ≠ ',') :
    Spec.Grouped l (formatDigits l) := by
  have hpos : 0 < l.length := List.length_pos_iff.2 hl
  unfold formatDigits
  dsimp only
  generalize hn : (l.length - 1) % 3 + 1 = n
  have hle : n ≤ l.length := by omega
  have hd : (0 + (l.drop n).length) % 3 = 0 := by rw [List.length_drop]; omega
  have hcd : ∀ c ∈ l.drop n, c ≠ ',' := fun c h => hc c (List.mem_of_mem_drop h)
  have hct : ∀ c ∈ l.take n, c ≠ ',' := fun c h => hc c (List.mem_of_mem_take h)
  have hlen := grouped_length _ _ hd
  have hne : l.take n ≠ [] := by
    rw [← List.length_pos_iff, List.length_take]; omega
  have hgroups : ∀ j c, (l.take n ++ grouped 0 (l.drop n)).reverse[j]? = some c → (c = ',' ↔ j % 4 = 3) := by
    intro j c hj
    rw [List.reverse_append, List.getElem?_append] at hj
    split at hj
    · exact grouped_get _ _ hd hcd j c hj
    · rename_i h1
      have hmem : c ∈ l.take n := by
        have := List.mem_of_getElem? hj; simpa using this
      have hlt := (List.getElem?_eq_some_iff.1 hj).1
      simp only [List.length_reverse, List.length_take, Nat.min_eq_left hle] at hlt h1
      rw [List.length_drop] at hlen
      constructor
      · intro h; exact absurd h (hct c hmem)
      · intro h; omega
  refine ⟨?_, hgroups, ?_, ?_, by simp [hne]⟩
  · rw [List.filter_append, grouped_filter _ _ hcd, List.filter_eq_self.2 (by simpa using hct), List.take_append_drop]
  · cases ht : l.take n with
    | nil => exact absurd ht hne
    | cons c t =>
      intro h
      simp only [List.cons_append, List.head?_cons, Option.some.injEq] at h
      exact hct c (by rw [ht]; simp) h
  · intro h
    rw [List.getLast?_eq_head?_reverse, List.head?_eq_getElem?] at h
    have := (hgroups 0 _ h).1 rfl
    omega

theorem digits_ne (n : Nat) : Nat.toDigits 10 n ≠ [] ∧ ∀ c ∈ Nat.toDigits 10 n, c ≠ ',' := by
  refine ⟨Nat.toDigits_ne_nil, fun c hc h => ?_⟩
  have := Nat.isDigit_of_mem_toDigits (by decide) (by decide) hc
  subst h
  exact absurd this (by decide)

/-- C48: formatted unsigned numbers. -/
theorem C48_unsigned (n : Nat) : Spec.Grouped (Nat.toDigits 10 n) (formatNat n) :=
  format_grouped _ (digits_ne n).1 (digits_ne n).2

/-- C48: the number can be read back. -/
theorem C48_read_back (n : Nat) : Nat.ofDigitChars 10 ((formatNat n).filter (· ≠ ',')) 0 = n := by
  rw [(C48_unsigned n).digits, Nat.ofDigitChars_ten_toDigits]

/-- C48: formatted signed numbers; only the smallest value of the type is undefined. -/
theorem C48_signed (bound : Nat) (n : Int) (hn : -(bound : Int) < n) :
    ∃ out, formatInt bound n = some out ∧
      ((0 ≤ n ∧ Spec.Grouped (Nat.toDigits 10 n.natAbs) out) ∨
        (n < 0 ∧ ∃ rest, out = '-' :: rest ∧ Spec.Grouped (Nat.toDigits 10 n.natAbs) rest)) := by
  unfold formatInt
  by_cases h : 0 ≤ n
  · rw [if_pos h]
    have : n.toNat = n.natAbs := by omega
    exact ⟨_, rfl, .inl ⟨h, this ▸ C48_unsigned _⟩⟩
  · rw [if_neg h, if_neg (by omega)]
    exact ⟨_, rfl, .inr ⟨by omega, _, rfl, C48_unsigned _⟩⟩

/-- C48: the smallest `int` or `long long` is not formatted (undefined behaviour of `abs`). -/
theorem C48_undefined (bound : Nat) (h : 0 < bound) : formatInt bound (-(bound : Int)) = none := by
  unfold formatInt
  rw [if_neg (by omega), if_pos rfl]

/-- The label is the singular one exactly for one (of the non-negative numbers). -/
theorem C48_label (bound : Nat) (n : Nat) (plural singular : List Char) :
    formatLabel bound n plural singular = some (formatNat n ++ ' ' :: (if n = 1 then singular else plural)) := by
  have h0 : (0 : Int) ≤ (n : Int) := by omega
  unfold formatLabel formatInt
  rw [if_pos h0]
  simp only [Option.map_some, Int.toNat_natCast]
  by_cases h : n = 1
  · rw [if_pos h, if_neg (by omega)]
  · rw [if_neg h, if_pos (by omega)]

example : formatNat 1234567 = "1,234,567".toList := by decide +kernel
example : formatNat 0 = "0".toList := by decide +kernel
example : formatInt (2^31) (-45678) = some "-45,678".toList := by decide +kernel

/-! ## C64 -/

namespace Spec
/-- `out` is `s` with all occurrences of `sub`, found from left to right without overlap, replaced by `rep`:
`s` consists of pieces separated by `sub`, `out` of the same pieces separated by `rep`.  No occurrence of `sub`
starts in a piece. -/
def Replaced (sub rep s out : List Char) : Prop :=
  ∃ (pieces : List (List Char)) (last : List Char),
    s = pieces.flatMap (· ++ sub) ++ last ∧ out = pieces.flatMap (· ++ rep) ++ last ∧
    (∀ p ∈ pieces, ¬ sub <:+: p ++ sub.dropLast) ∧ ¬ sub <:+: last
end Spec

theorem findSub_some {sub : List Char} (hs : sub ≠ []) : ∀ {s pre post : List Char},
    findSub sub s = some (pre, post) → s = pre ++ sub ++ post ∧ ¬ sub <:+: pre ++ sub.dropLast := by
  have hlen : 0 < sub.length := List.length_pos_iff.2 hs
  have hbase : ¬ sub <:+: [] ++ sub.dropLast := fun h => by
    have := h.length_le
    rw [List.nil_append, List.length_dropLast] at this; omega
  intro s
  induction s with
  | nil => intro pre post h; unfold findSub at h; rw [if_neg hs] at h; cases h
  | cons c cs ih =>
    intro pre post h
    unfold findSub at h
    by_cases hp : sub.isPrefixOf (c :: cs) = true
    · rw [if_pos hp] at h
      cases h
      refine ⟨?_, hbase⟩
      obtain ⟨t, ht⟩ := List.isPrefixOf_iff_prefix.1 hp
      rw [← ht, List.drop_left]; rfl
    · rw [if_neg hp, Option.map_eq_some_iff] at h
      obtain ⟨⟨pre', post'⟩, he, h⟩ := h
      cases h
      obtain ⟨h1, h2⟩ := ih he
      refine ⟨by rw [h1]; rfl, ?_⟩
      rw [List.cons_append, List.infix_cons_iff]
      rintro (h3 | h3)
      · apply hp
        rw [List.isPrefixOf_iff_prefix]
        refine h3.trans ?_
        rw [h1]
        refine ⟨[sub.getLast hs] ++ post', ?_⟩
        rw [List.cons_append, List.append_assoc, ← List.append_assoc sub.dropLast, List.dropLast_append_getLast,
          List.append_assoc]
      · exact h2 h3

theorem findSub_none {sub : List Char} : ∀ {s : List Char}, findSub sub s = none → ¬ sub <:+: s := by
  intro s
  induction s with
  | nil =>
    intro h hi
    unfold findSub at h
    split at h
    · cases h
    · rename_i hs; exact hs (List.eq_nil_of_infix_nil hi)
  | cons c cs ih =>
    intro h
    unfold findSub at h
    by_cases hp : sub.isPrefixOf (c :: cs) = true
    · rw [if_pos hp] at h; cases h
    · rw [if_neg hp, Option.map_eq_none_iff] at h
      rw [List.infix_cons_iff]
      rintro (h3 | h3)
      · exact hp (List.isPrefixOf_iff_prefix.2 h3)
      · exact ih h h3

/-- C64: for a non-empty substring the loop ends and replaces every occurrence. -/
theorem C64_replace (sub rep : List Char) (hs : sub ≠ []) : ∀ (fuel : Nat) (s : List Char), s.length < fuel →
    ∃ out, replaceLoop sub rep fuel s = some out ∧ Spec.Replaced sub rep s out := by
  have hlen : 0 < sub.length := List.length_pos_iff.2 hs
  intro fuel
  induction fuel with
  | zero => intro s h; omega
  | succ fuel ih =>
    intro s h
    unfold replaceLoop
    cases hf : findSub sub s with
    | none => exact ⟨s, rfl, [], s, rfl, rfl, by simp, findSub_none hf⟩
    | some r =>
      obtain ⟨pre, post⟩ := r
      obtain ⟨h1, h2⟩ := findSub_some hs hf
      have hl : post.length < fuel := by
        rw [h1] at h; simp only [List.length_append] at h; omega
      obtain ⟨out, h3, pieces, last, h4, h5, h6, h7⟩ := ih post hl
      refine ⟨pre ++ rep ++ out, by dsimp only; rw [h3]; rfl, pre :: pieces, last, ?_, ?_, ?_, h7⟩
      · rw [h1, List.flatMap_cons, List.append_assoc (pre ++ sub), ← h4]
      · rw [h5, List.flatMap_cons, List.append_assoc (pre ++ rep)]
      · intro p hp
        rcases List.mem_cons.1 hp with rfl | hp
        · exact h2
        · exact h6 p hp

/-- C64: the requirement determines the result. -/
theorem C64_unique {sub rep : List Char} (hs : sub ≠ []) : ∀ {s out out' : List Char},
    Spec.Replaced sub rep s out → Spec.Replaced sub rep s out' → out = out' := by
  have hsplit : ∀ (p l r : List Char), ¬ sub <:+: p ++ sub.dropLast → p ++ sub ++ l = r → findSub sub r = some (p, l) := by
    intro p l r hp
    induction p generalizing r with
    | nil =>
      rintro rfl
      cases sub with
      | nil => exact absurd rfl hs
      | cons c t =>
        show findSub _ (c :: (t ++ l)) = _
        unfold findSub
        have : (c :: t).isPrefixOf (c :: (t ++ l)) = true := List.isPrefixOf_iff_prefix.2 ⟨l, rfl⟩
        rw [if_pos this]
        have : List.drop (c :: t).length (c :: t ++ l) = l := List.drop_left
        rw [← List.cons_append, this]
    | cons c p ih =>
      rintro rfl
      show findSub _ (c :: (p ++ sub ++ l)) = _
      unfold findSub
      rw [List.cons_append, List.infix_cons_iff] at hp
      push Not at hp
      rw [if_neg, ih _ hp.2 rfl]
      · rfl
      · intro h
        rw [List.isPrefixOf_iff_prefix] at h
        refine hp.1 (List.prefix_of_prefix_length_le h ?_ ?_)
        · refine ⟨[sub.getLast hs] ++ l, ?_⟩
          rw [List.cons_append, List.append_assoc, ← List.append_assoc sub.dropLast, List.dropLast_append_getLast,
            List.append_assoc]
        · simp only [List.length_cons, List.length_append, List.length_dropLast]; omega
  have hnone : ∀ r : List Char, ¬ sub <:+: r → findSub sub r = none := by
    intro r hr
    cases hf : findSub sub r with
    | none => rfl
    | some x =>
      obtain ⟨h1, -⟩ := findSub_some hs (pre := x.1) (post := x.2) hf
      exact absurd ⟨x.1, x.2, h1.symm⟩ hr
  have key : ∀ (pieces : List (List Char)) (s out last : List Char) (fuel : Nat), pieces.length < fuel →
      s = pieces.flatMap (· ++ sub) ++ last → out = pieces.flatMap (· ++ rep) ++ last →
      (∀ p ∈ pieces, ¬ sub <:+: p ++ sub.dropLast) → ¬ sub <:+: last →
      replaceLoop sub rep fuel s = some out := by
    intro pieces
    induction pieces with
    | nil =>
      rintro s out last fuel hf rfl rfl - hl
      obtain ⟨f, rfl⟩ : ∃ f, fuel = f + 1 := ⟨fuel - 1, by simp at hf; omega⟩
      unfold replaceLoop
      rw [hnone _ hl]
    | cons p ps ih =>
      rintro s out last fuel hf rfl rfl hp hl
      rw [List.length_cons] at hf
      obtain ⟨f, rfl⟩ : ∃ f, fuel = f + 1 := ⟨fuel - 1, by omega⟩
      unfold replaceLoop
      rw [hsplit p (ps.flatMap (· ++ sub) ++ last) _ (hp p (by simp)) (by simp)]
      dsimp only
      rw [ih _ _ last f (by omega) rfl rfl (fun q hq => hp q (by simp [hq])) hl]
      simp
  rintro s out out' ⟨ps, l, h1, h2, h3, h4⟩ ⟨ps', l', h1', h2', h3', h4'⟩
  have a := key ps s out l (ps.length + ps'.length + 1) (by omega) h1 h2 h3 h4
  have b := key ps' s out' l' (ps.length + ps'.length + 1) (by omega) h1' h2' h3' h4'
  rw [a] at b
  exact Option.some.inj b

/-- The property as stated, for all substrings: the call returns. -/
def C64_statement : Prop := ∀ sub rep s : List Char, ∃ fuel out, replaceLoop sub rep fuel s = some out

/-- C64 is false as stated: with an empty substring the loop never ends. -/
theorem C64_false : ¬ C64_statement := by
  intro h
  obtain ⟨fuel, out, h⟩ := h [] [] []
  have : ∀ (fuel : Nat) (rep : List Char), replaceLoop [] rep fuel [] = none := by
    intro fuel rep
    induction fuel with
    | zero => rfl
    | succ fuel ih =>
      unfold replaceLoop
      show Option.map _ (replaceLoop [] rep fuel []) = none
      rw [ih]; rfl
  rw [this] at h
  cases h

example : replaceLoop "@rank@".toList "12".toList 40 "rank @rank@ of @@rank@".toList =
    some "rank 12 of @12".toList := by decide +kernel

end Ovk.Text
