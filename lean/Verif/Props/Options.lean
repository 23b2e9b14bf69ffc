import Verif.Model.Options
import Verif.Props.Container
/-!
# C47: options of the assembler
-/
namespace Ovk.Opt
variable {κ ν π : Type}

namespace Spec
/-- A grid is known: it was added, and not removed since. -/
def Known (ops : List (Op π ν)) (g : Int) : Prop :=
  ∃ pre grids post, ops = pre ++ .add grids :: post ∧ g ∈ grids ∧ ∀ rs, Op.remove rs ∈ post → g ∉ rs

/-- IDs are valid (non-negative) and settings name known grids, as the assertions in the code demand. -/
def Valid (names : π → List Int) (ops : List (Op π ν)) : Prop :=
  ∀ pre op post, ops = pre ++ op :: post → match op with
    | .add grids => ∀ g ∈ grids, 0 ≤ g
    | .remove grids => grids.Pairwise (· < ·)
    | .set p _ => ∀ g ∈ names p, g = -1 ∨ Known pre g

/-- A setting covers a grid if it names it or the wildcard. -/
def Covers1 (p g : Int) : Prop := p = g ∨ p = -1
/-- A setting covers a pair of grids. -/
def Covers2 (p k : Int × Int) : Prop := Covers1 p.1 k.1 ∧ Covers1 p.2 k.2

/-- `v` is the value of the last covering setting that was made while the grids `gs` were known, or the
default if there was none since one of the grids was not known. -/
def Value (covers : π → Prop) (dflt : ν) (gs : List Int) (ops : List (Op π ν)) (v : ν) : Prop :=
  ∃ pre post, ops = pre ++ post ∧
    (∀ p w, Op.set p w ∈ post → ¬ covers p) ∧ (∀ rs, Op.remove rs ∈ post → ∀ g ∈ gs, g ∉ rs) ∧
    ((∃ pre' p, pre = pre' ++ [.set p v] ∧ covers p ∧ ∀ g ∈ gs, Known pre' g) ∨
      ((∃ g ∈ gs, ¬ Known pre g) ∧ v = dflt))
end Spec

/-! ## Known grids -/

theorem append_cons_eq_append_singleton {α : Type} {pre post l : List α} {a b : α}
    (h : l ++ [b] = pre ++ a :: post) :
    (post = [] ∧ pre = l ∧ a = b) ∨ ∃ post', post = post' ++ [b] ∧ l = pre ++ a :: post' := by
  rcases List.eq_nil_or_concat post with rfl | ⟨post', c, rfl⟩
  · left
    have := List.append_inj' h rfl
    simp only [List.cons.injEq, and_true] at this
    exact ⟨rfl, this.1.symm, this.2.symm⟩
  · right
    rw [List.concat_eq_append, ← List.cons_append, ← List.append_assoc] at h
    have := List.append_inj' h rfl
    simp only [List.cons.injEq, and_true] at this
    exact ⟨post', by rw [List.concat_eq_append, this.2], this.1⟩

theorem known_nil (g : Int) : ¬ Spec.Known ([] : List (Op π ν)) g := by
  rintro ⟨pre, gs, post, h, -⟩; simp at h

theorem known_add (ops : List (Op π ν)) (gs : List Int) (g : Int) :
    Spec.Known (ops ++ [.add gs]) g ↔ g ∈ gs ∨ Spec.Known ops g := by
  constructor
  · rintro ⟨pre, gs', post, h, hg, hr⟩
    rcases append_cons_eq_append_singleton h with ⟨-, -, h⟩ | ⟨post', rfl, h'⟩
    · cases h; exact .inl hg
    · exact .inr ⟨pre, gs', post', h', hg, fun rs hrs => hr rs (by simp [hrs])⟩
  · rintro (hg | ⟨pre, gs', post, rfl, hg, hr⟩)
    · exact ⟨ops, gs, [], rfl, hg, by simp⟩
    · exact ⟨pre, gs', post ++ [.add gs], by simp, hg, fun rs hrs => hr rs (by simpa using hrs)⟩

theorem known_remove (ops : List (Op π ν)) (gs : List Int) (g : Int) :
    Spec.Known (ops ++ [.remove gs]) g ↔ g ∉ gs ∧ Spec.Known ops g := by
  constructor
  · rintro ⟨pre, gs', post, h, hg, hr⟩
    rcases append_cons_eq_append_singleton h with ⟨-, -, h⟩ | ⟨post', rfl, h'⟩
    · cases h
    · exact ⟨hr gs (by simp), pre, gs', post', h', hg, fun rs hrs => hr rs (by simp [hrs])⟩
  · rintro ⟨hn, pre, gs', post, rfl, hg, hr⟩
    refine ⟨pre, gs', post ++ [.remove gs], by simp, hg, fun rs hrs => ?_⟩
    rcases List.mem_append.1 hrs with h | h
    · exact hr rs h
    · simp only [List.mem_singleton, Op.remove.injEq] at h; subst h; exact hn

theorem known_set (ops : List (Op π ν)) (p : π) (v : ν) (g : Int) :
    Spec.Known (ops ++ [.set p v]) g ↔ Spec.Known ops g := by
  constructor
  · rintro ⟨pre, gs', post, h, hg, hr⟩
    rcases append_cons_eq_append_singleton h with ⟨-, -, h⟩ | ⟨post', rfl, h'⟩
    · cases h
    · exact ⟨pre, gs', post', h', hg, fun rs hrs => hr rs (by simp [hrs])⟩
  · rintro ⟨pre, gs', post, rfl, hg, hr⟩
    exact ⟨pre, gs', post ++ [.set p v], by simp, hg, fun rs hrs => hr rs (by simpa using hrs)⟩

theorem known_append {ops : List (Op π ν)} {g : Int} (h : Spec.Known ops g) {post : List (Op π ν)}
    (hr : ∀ rs, Op.remove rs ∈ post → g ∉ rs) : Spec.Known (ops ++ post) g := by
  obtain ⟨pre, gs, post', rfl, hg, hr'⟩ := h
  refine ⟨pre, gs, post' ++ post, by simp, hg, fun rs hrs => ?_⟩
  rcases List.mem_append.1 hrs with h | h
  · exact hr' rs h
  · exact hr rs h

/-- The required value is unique. -/
theorem C47_value_unique {covers : π → Prop} {dflt : ν} {gs : List Int} {ops : List (Op π ν)} {v w : ν}
    (hv : Spec.Value covers dflt gs ops v) (hw : Spec.Value covers dflt gs ops w) : v = w := by
  have key : ∀ {v w : ν} {pre1 post1 pre2 post2 : List (Op π ν)}, pre1 ++ post1 = pre2 ++ post2 →
      pre1.length ≤ pre2.length →
      (∀ p w, Op.set p w ∈ post1 → ¬ covers p) → (∀ rs, Op.remove rs ∈ post1 → ∀ g ∈ gs, g ∉ rs) →
      ((∃ pre' p, pre1 = pre' ++ [.set p v] ∧ covers p ∧ ∀ g ∈ gs, Spec.Known pre' g) ∨
        ((∃ g ∈ gs, ¬ Spec.Known pre1 g) ∧ v = dflt)) →
      ((∃ pre' p, pre2 = pre' ++ [.set p w] ∧ covers p ∧ ∀ g ∈ gs, Spec.Known pre' g) ∨
        ((∃ g ∈ gs, ¬ Spec.Known pre2 g) ∧ w = dflt)) → v = w := by
    intro v w pre1 post1 pre2 post2 he hl hs hr h1 h2
    obtain ⟨mid, rfl⟩ : ∃ mid, pre2 = pre1 ++ mid :=
      (List.prefix_of_prefix_length_le ⟨post1, rfl⟩ ⟨post2, he.symm⟩ hl).imp fun _ h => h.symm
    rw [List.append_assoc] at he
    have he := List.append_cancel_left he
    subst he
    rcases h1 with ⟨pre', p, rfl, hp, hk⟩ | ⟨hn, rfl⟩
    · rcases h2 with ⟨pre2', p2, h2, hp2, hk2⟩ | ⟨⟨g, hg, hn2⟩, -⟩
      · rcases List.eq_nil_or_concat mid with rfl | ⟨mid', c, rfl⟩
        · rw [List.append_nil] at h2
          have := List.append_inj' h2 rfl
          simp only [List.cons.injEq, and_true, Op.set.injEq] at this
          exact this.2.2
        · rw [List.concat_eq_append, ← List.append_assoc] at h2
          have := List.append_inj' h2 rfl
          simp only [List.cons.injEq, and_true] at this
          exact absurd hp2 (hs p2 w (by rw [this.2]; simp))
      · refine absurd (known_append ?_ fun rs hrs => hr rs (by simp [hrs]) g hg) hn2
        exact (known_set _ _ _ _).2 (hk g hg)
    · rcases h2 with ⟨pre2', p2, h2, hp2, hk2⟩ | ⟨-, rfl⟩
      · rcases List.eq_nil_or_concat mid with rfl | ⟨mid', c, rfl⟩
        · rw [List.append_nil] at h2
          subst h2
          obtain ⟨g, hg, hn⟩ := hn
          exact absurd ((known_set _ _ _ _).2 (hk2 g hg)) hn
        · rw [List.concat_eq_append, ← List.append_assoc] at h2
          have := List.append_inj' h2 rfl
          simp only [List.cons.injEq, and_true] at this
          exact absurd hp2 (hs p2 w (by rw [this.2]; simp))
      · rfl
  obtain ⟨pre1, post1, he1, a1, b1, c1⟩ := hv
  obtain ⟨pre2, post2, he2, a2, b2, c2⟩ := hw
  rcases Nat.le_total pre1.length pre2.length with h | h
  · exact key (he1.symm.trans he2) h a1 b1 c1 c2
  · exact (key (he2.symm.trans he1) h a2 b2 c2 c1).symm

theorem value_skip {covers : π → Prop} {dflt : ν} {gs : List Int} {ops : List (Op π ν)} {v : ν}
    (h : Spec.Value covers dflt gs ops v) (op : Op π ν) (hs : ∀ p w, op = .set p w → ¬ covers p)
    (hr : ∀ rs, op = .remove rs → ∀ g ∈ gs, g ∉ rs) : Spec.Value covers dflt gs (ops ++ [op]) v := by
  obtain ⟨pre, post, rfl, a, b, c⟩ := h
  refine ⟨pre, post ++ [op], by simp, fun p w hp => ?_, fun rs hp => ?_, c⟩
  · rcases List.mem_append.1 hp with h | h
    · exact a p w h
    · exact hs p w (List.mem_singleton.1 h).symm
  · rcases List.mem_append.1 hp with h | h
    · exact b rs h
    · exact hr rs (List.mem_singleton.1 h).symm

/-! ## Lookup in maps -/

/-- The value stored for a key. -/
def look (lt : κ → κ → Bool) (m : OMap κ ν) (k : κ) : Option ν := (m.find? lt k).map Prod.snd

theorem get_look (lt : κ → κ → Bool) (dflt : ν) (o : Opt κ ν) (k : κ) :
    o.get lt dflt k = (look lt o.map k).getD dflt := by
  unfold Opt.get look
  cases o.map.find? lt k <;> rfl

section maps
variable {lt : κ → κ → Bool} (h : IsSTO lt) {m : OMap κ ν} (hm : m.WF lt)
include h hm

theorem look_iff (k : κ) (v : ν) : look lt m k = some v ↔ (k, v) ∈ m.entries := by
  unfold look
  rw [← omap_find_spec h hm, Option.map_eq_some_iff]
  constructor
  · rintro ⟨⟨k', v'⟩, he, rfl⟩
    have hmem : (k', v') ∈ m.entries := List.mem_of_getElem? he
    have := (omap_find_spec h hm k v').2
    by_cases hk : ∃ w, (k, w) ∈ m.entries
    · obtain ⟨w, hw⟩ := hk
      have := (omap_find_spec h hm k w).2 hw
      rw [he] at this; cases this; exact he
    · rw [omap_find_none h hm k fun w hw => hk ⟨w, hw⟩] at he; cases he
  · intro he; exact ⟨_, he, rfl⟩

theorem look_insert [DecidableEq κ] (k k' : κ) (v : ν) :
    look lt (m.insert lt k v) k' = if k' = k then some v else look lt m k' := by
  obtain ⟨h1, h2⟩ := omap_insert_spec h hm k v
  apply Option.ext
  intro w
  rw [look_iff h h1, h2]
  by_cases hk : k' = k
  · simp [hk, eq_comm]
  · simp [hk, look_iff h hm]

theorem look_erase [DecidableEq κ] (k k' : κ) :
    look lt (m.erase lt k) k' = if k' = k then none else look lt m k' := by
  obtain ⟨h1, h2⟩ := omap_erase_spec h hm k
  apply Option.ext
  intro w
  rw [look_iff h h1, h2]
  by_cases hk : k' = k
  · simp [hk]
  · simp [hk, look_iff h hm]

omit h in
theorem eraseIf_wf (p : κ × ν → Bool) : (m.eraseIf p).WF lt ∧ (m.eraseIf p).entries = m.entries.filter fun x => !p x := by
  have e : m = ⟨m.entries.map Prod.fst, m.entries⟩ := by rw [← hm.1]
  rw [e, omap_eraseIf_eq]
  refine ⟨⟨rfl, ?_⟩, rfl⟩
  have := hm.2
  rw [hm.1] at this
  exact List.Pairwise.sublist (List.filter_sublist.map _) this

theorem look_eraseIf (p : κ → Bool) (k : κ) :
    look lt (m.eraseIf fun e => p e.1) k = if p k then none else look lt m k := by
  obtain ⟨h1, h2⟩ := eraseIf_wf hm fun e => p e.1
  apply Option.ext
  intro w
  rw [look_iff h h1, h2, List.mem_filter]
  by_cases hk : p k = true
  · simp [hk]
  · simp [hk, look_iff h hm]

theorem look_insertAll [DecidableEq κ] {α : Type} (key : α → κ) (v : ν) : ∀ (l : List α) (m : OMap κ ν), m.WF lt →
    (l.foldl (fun a i => a.insert lt (key i) v) m).WF lt ∧
    ∀ k, look lt (l.foldl (fun a i => a.insert lt (key i) v) m) k =
      if k ∈ l.map key then some v else look lt m k := by
  have _ := hm
  intro l
  induction l with
  | nil => intro m hm; exact ⟨hm, fun k => by simp⟩
  | cons i l ih =>
    intro m hm
    obtain ⟨a, b⟩ := ih (m.insert lt (key i) v) (omap_insert_spec h hm _ v).1
    refine ⟨a, fun k => ?_⟩
    rw [List.foldl_cons, b, look_insert h hm]
    by_cases h1 : k ∈ l.map key
    · rw [if_pos h1, if_pos (by simp only [List.map_cons, List.mem_cons]; exact .inr h1)]
    · rw [if_neg h1]
      by_cases h2 : k = key i
      · rw [if_pos h2, if_pos (by simp [h2])]
      · rw [if_neg h2, if_neg (by simp only [List.map_cons, List.mem_cons]; tauto)]

theorem look_eraseAll [DecidableEq κ] {α : Type} (key : α → κ) : ∀ (l : List α) (m : OMap κ ν), m.WF lt →
    (l.foldl (fun a i => a.erase lt (key i)) m).WF lt ∧
    ∀ k, look lt (l.foldl (fun a i => a.erase lt (key i)) m) k =
      if k ∈ l.map key then none else look lt m k := by
  have _ := hm
  intro l
  induction l with
  | nil => intro m hm; exact ⟨hm, fun k => by simp⟩
  | cons i l ih =>
    intro m hm
    obtain ⟨a, b⟩ := ih (m.erase lt (key i)) (omap_erase_spec h hm _).1
    refine ⟨a, fun k => ?_⟩
    rw [List.foldl_cons, b, look_erase h hm]
    by_cases h1 : k ∈ l.map key
    · rw [if_pos h1, if_pos (by simp only [List.map_cons, List.mem_cons]; exact .inr h1)]
    · rw [if_neg h1]
      by_cases h2 : k = key i
      · rw [if_pos h2, if_pos (by simp [h2])]
      · rw [if_neg h2, if_neg (by simp only [List.map_cons, List.mem_cons]; tauto)]
end maps

/-! ## One call -/

theorem contains_iff {gs : List Int} (hg : gs.Pairwise (· < ·)) (g : Int) :
    OSet.contains intLess gs g = true ↔ g ∈ gs :=
  oset_contains_iff intLess_sto (hg.imp fun h => by simpa [intLess] using h) g

theorem ids_add (ids gs : List Int) (hs : Sorted intLess ids) :
    Sorted intLess (gs.foldl (OSet.insert intLess) ids) ∧
    ∀ g, g ∈ gs.foldl (OSet.insert intLess) ids ↔ g ∈ gs ∨ g ∈ ids := by
  induction gs generalizing ids with
  | nil => exact ⟨hs, by simp⟩
  | cons a gs ih =>
    obtain ⟨h1, h2⟩ := oset_insert_spec intLess_sto hs a
    obtain ⟨h3, h4⟩ := ih _ h1
    refine ⟨h3, fun g => ?_⟩
    rw [List.foldl_cons, h4, h2, List.mem_cons]
    tauto

theorem ids_remove (ids gs : List Int) (hs : Sorted intLess ids) (hg : gs.Pairwise (· < ·)) :
    Sorted intLess (OSet.eraseIf (fun i => OSet.contains intLess gs i) ids) ∧
    ∀ g, g ∈ OSet.eraseIf (fun i => OSet.contains intLess gs i) ids ↔ g ∉ gs ∧ g ∈ ids := by
  rw [oset_eraseIf_eq]
  refine ⟨List.Pairwise.sublist List.filter_sublist hs, fun g => ?_⟩
  rw [List.mem_filter, Bool.not_eq_true', ← Bool.not_eq_true, contains_iff hg]
  tauto

/-- What a call does, for keys of any arity with the IDs `comps`. -/
structure Good (lt : κ → κ → Bool) (comps : κ → List Int) (covers : π → κ → Prop) (dflt : ν)
    (ops : List (Op π ν)) (o : Opt κ ν) : Prop where
  wf : o.map.WF lt
  sorted : Sorted intLess o.ids
  known : ∀ g, g ∈ o.ids ↔ Spec.Known ops g
  keys : ∀ k, (look lt o.map k).isSome = true → ∀ g ∈ comps k, g ∈ o.ids
  value : ∀ k, (∀ g ∈ comps k, g ∈ o.ids) →
    Spec.Value (covers · k) dflt (comps k) ops ((look lt o.map k).getD dflt)

variable {lt : κ → κ → Bool} {comps : κ → List Int} {covers : π → κ → Prop} {dflt : ν}
  {ops : List (Op π ν)} {o : Opt κ ν}

theorem good_add (hc : ∀ k, comps k ≠ []) (h : Good lt comps covers dflt ops o) (gs : List Int) :
    Good lt comps covers dflt (ops ++ [.add gs]) (o.add gs) := by
  have _ := hc
  obtain ⟨a, b⟩ := ids_add o.ids gs h.sorted
  refine ⟨h.wf, a, fun g => ?_, fun k hk g hg => (b g).2 (.inr (h.keys k hk g hg)), fun k hk => ?_⟩
  · show g ∈ gs.foldl _ _ ↔ _
    rw [b, known_add, h.known]
  · by_cases hall : ∀ g ∈ comps k, g ∈ o.ids
    · exact value_skip (h.value k hall) _ (by simp) (by simp)
    · have hn : look lt o.map k = none := by
        cases hl : look lt o.map k with
        | none => rfl
        | some v => exact absurd (h.keys k (by rw [hl]; rfl)) hall
      show Spec.Value _ _ _ _ ((look lt o.map k).getD dflt)
      rw [hn]
      push Not at hall
      obtain ⟨g, hg, hn⟩ := hall
      exact ⟨ops, [.add gs], rfl, by simp, by simp, .inr ⟨⟨g, hg, fun hk => hn ((h.known g).2 hk)⟩, rfl⟩⟩

theorem good_remove (hlt : IsSTO lt) (h : Good lt comps covers dflt ops o) {gs : List Int}
    (hg : gs.Pairwise (· < ·)) (del : κ → Bool) (hdel : ∀ k, del k = true ↔ ∃ g ∈ comps k, g ∈ gs) :
    Good lt comps covers dflt (ops ++ [.remove gs])
      { ids := OSet.eraseIf (fun i => OSet.contains intLess gs i) o.ids, map := o.map.eraseIf fun e => del e.1 } := by
  obtain ⟨a, b⟩ := ids_remove o.ids gs h.sorted hg
  have hl := look_eraseIf hlt h.wf del
  refine ⟨(eraseIf_wf h.wf _).1, a, fun g => ?_, fun k hk g hg => ?_, fun k hk => ?_⟩
  · show g ∈ OSet.eraseIf _ _ ↔ _
    rw [b, known_remove, h.known]
  · show g ∈ OSet.eraseIf _ _
    dsimp only at hk
    rw [hl] at hk
    by_cases hd : del k = true
    · rw [if_pos hd] at hk; cases hk
    · rw [if_neg hd] at hk
      rw [b]
      exact ⟨fun hgs => hd ((hdel k).2 ⟨g, hg, hgs⟩), h.keys k hk g hg⟩
  · have hk : ∀ g ∈ comps k, g ∉ gs ∧ g ∈ o.ids := fun g hg => (b g).1 (hk g hg)
    have hd : ¬ del k = true := fun hd => by
      obtain ⟨g, h1, h2⟩ := (hdel k).1 hd
      exact (hk g h1).1 h2
    show Spec.Value _ _ _ _ ((look lt (o.map.eraseIf _) k).getD dflt)
    rw [hl, if_neg hd]
    refine value_skip (h.value k fun g hg => (hk g hg).2) _ (by simp) ?_
    intro rs hrs g hg
    cases hrs
    exact (hk g hg).1

/-- A setting, given what it does to the map. -/
theorem good_set (h : Good lt comps covers dflt ops o) (p : π) (v : ν) (m' : OMap κ ν) (hwf : m'.WF lt)
    (hyes : ∀ k, (∀ g ∈ comps k, g ∈ o.ids) → covers p k → (look lt m' k).getD dflt = v)
    (hno : ∀ k, (∀ g ∈ comps k, g ∈ o.ids) → ¬ covers p k → look lt m' k = look lt o.map k)
    (hkeys : ∀ k, (look lt m' k).isSome = true → ∀ g ∈ comps k, g ∈ o.ids) :
    Good lt comps covers dflt (ops ++ [.set p v]) { o with map := m' } := by
  refine ⟨hwf, h.sorted, fun g => by rw [known_set]; exact h.known g, hkeys, fun k hk => ?_⟩
  show Spec.Value _ _ _ _ ((look lt m' k).getD dflt)
  by_cases hc : covers p k
  · rw [hyes k hk hc]
    exact ⟨ops ++ [.set p v], [], by simp, by simp, by simp,
      .inl ⟨ops, p, rfl, hc, fun g hg => (h.known g).1 (hk g hg)⟩⟩
  · rw [hno k hk hc]
    refine value_skip (h.value k hk) _ ?_ (by simp)
    intro q w hq
    cases hq
    exact hc

/-- A setting, given the set of keys it overwrites. -/
theorem good_target [DecidableEq ν] (h : Good lt comps covers dflt ops o) (p : π) (v : ν) (m' : OMap κ ν)
    (T : κ → Prop) (hwf : m'.WF lt)
    (hT : ∀ k, T k → look lt m' k = if v = dflt then none else some v)
    (hF : ∀ k, ¬ T k → look lt m' k = look lt o.map k)
    (hcov : ∀ k, (∀ g ∈ comps k, g ∈ o.ids) → (T k ↔ covers p k))
    (hkn : v ≠ dflt → ∀ k, T k → ∀ g ∈ comps k, g ∈ o.ids) :
    Good lt comps covers dflt (ops ++ [.set p v]) { o with map := m' } := by
  refine good_set h p v m' hwf (fun k hk hc => ?_) (fun k hk hc => ?_) (fun k hk => ?_)
  · rw [hT k ((hcov k hk).2 hc)]
    split
    · rename_i hv; rw [hv]; rfl
    · rfl
  · exact hF k fun ht => hc ((hcov k hk).1 ht)
  · by_cases ht : T k
    · rw [hT k ht] at hk
      split at hk
      · cases hk
      · rename_i hv; exact hkn hv k ht
    · rw [hF k ht] at hk
      exact h.keys k hk

theorem good_nil (hc : ∀ k, comps k ≠ []) (hlt : IsSTO lt) :
    Good lt comps covers dflt ([] : List (Op π ν)) ({} : Opt κ ν) := by
  have _ := hlt
  refine ⟨⟨rfl, List.Pairwise.nil⟩, List.Pairwise.nil, fun g => ?_, fun k hk => ?_, fun k hk => ?_⟩
  · constructor
    · intro h; cases h
    · intro h; exact absurd h (known_nil g)
  · simp [look, OMap.find?] at hk
  · obtain ⟨g, hg⟩ := List.exists_mem_of_ne_nil _ (hc k)
    cases hk g hg

theorem valid_init {names : π → List Int} {ops : List (Op π ν)} {op : Op π ν}
    (h : Spec.Valid names (ops ++ [op])) : Spec.Valid names ops := by
  intro pre o post he
  exact h pre o (post ++ [op]) (by rw [he]; simp)

theorem known_nonneg {names : π → List Int} {ops : List (Op π ν)} (h : Spec.Valid names ops) {g : Int}
    (hg : Spec.Known ops g) : 0 ≤ g := by
  obtain ⟨pre, gs, post, rfl, hg, -⟩ := hg
  exact h pre (.add gs) post rfl g hg

theorem empty_wf (lt : κ → κ → Bool) : (⟨[], []⟩ : OMap κ ν).WF lt := ⟨rfl, List.Pairwise.nil⟩
theorem look_empty (lt : κ → κ → Bool) (k : κ) : look lt (⟨[], []⟩ : OMap κ ν) k = none := by
  simp [look, OMap.find?]

theorem good1 [DecidableEq ν] (dflt : ν) (ops : List (Op Int ν)) (h : Spec.Valid (fun p => [p]) ops) :
    Good intLess (fun g => [g]) Spec.Covers1 dflt ops (run1 dflt ops) := by
  induction ops using List.reverseRecOn with
  | nil => exact good_nil (by simp) intLess_sto
  | append_singleton ops op ih =>
    have ih := ih (valid_init h)
    have hop := h ops op [] rfl
    rw [show run1 dflt (ops ++ [op]) = step1 dflt (run1 dflt ops) op by simp [run1]]
    cases op with
    | add gs => exact good_add (by simp) ih gs
    | remove gs =>
      exact good_remove intLess_sto ih hop _ fun k => by rw [contains_iff hop]; simp
    | set p v =>
      have hop : p = -1 ∨ Spec.Known ops p := hop p (by simp)
      rw [← ih.known] at hop
      generalize hO : run1 dflt ops = O at ih hop
      have hnn : ∀ g ∈ O.ids, g ≠ -1 := fun g hg he => by
        have := known_nonneg (valid_init h) ((ih.known g).1 hg); omega
      show Good _ _ _ _ _ { O with map := _ }
      by_cases hv : v = dflt
      · rw [if_neg (not_not.2 hv)]
        by_cases hp : p = allGrids
        · rw [if_pos hp]
          refine good_target ih p v _ (fun _ => True) (empty_wf _) (fun k _ => ?_) (fun k hk => absurd trivial hk)
            (fun k _ => ⟨fun _ => .inr hp, fun _ => trivial⟩) (fun hc => absurd hv hc)
          rw [if_pos hv, look_empty]
        · rw [if_neg hp]
          refine good_target ih p v _ (fun k => k = p) (omap_erase_spec intLess_sto ih.wf p).1 (fun k hk => ?_)
            (fun k hk => ?_) (fun k hk => ?_) (fun hc => absurd hv hc)
          · rw [look_erase intLess_sto ih.wf, if_pos hk, if_pos hv]
          · rw [look_erase intLess_sto ih.wf, if_neg hk]
          · unfold Spec.Covers1; unfold allGrids at hp; tauto
      · rw [if_pos hv]
        by_cases hp : p = allGrids
        · rw [if_pos hp]
          obtain ⟨a, b⟩ := look_insertAll intLess_sto ih.wf id v O.ids O.map ih.wf
          rw [List.map_id] at b
          refine good_target ih p v _ (fun k => k ∈ O.ids) a (fun k hk => ?_)
            (fun k hk => ?_) (fun k hk => ⟨fun _ => .inr hp, fun _ => hk k (by simp)⟩)
            (fun _ k hk g hg => by rw [List.mem_singleton.1 hg]; exact hk)
          · exact (b k).trans (by rw [if_pos hk, if_neg hv])
          · exact (b k).trans (by rw [if_neg hk])
        · rw [if_neg hp]
          refine good_target ih p v _ (fun k => k = p) (omap_insert_spec intLess_sto ih.wf p v).1 (fun k hk => ?_)
            (fun k hk => ?_) (fun k hk => ?_) (fun _ k hk g hg => ?_)
          · rw [look_insert intLess_sto ih.wf, if_pos hk, if_neg hv]
          · rw [look_insert intLess_sto ih.wf, if_neg hk]
          · unfold Spec.Covers1; unfold allGrids at hp; tauto
          · rw [List.mem_singleton.1 hg, hk]
            exact hop.resolve_left hp

theorem pair_inj {a b c e : Int} : pair a b = pair c e ↔ a = c ∧ b = e := by
  unfold pair
  rw [Subtype.mk.injEq]
  simp

theorem exists_pair (k : Elem 2) : ∃ a b, k = pair a b := by
  obtain ⟨l, hl⟩ := k
  match l, hl with
  | [a, b], _ => exact ⟨a, b, rfl⟩

/-- Coverage of a key by a setting for pairs. -/
def covers2 (p : Int × Int) (k : Elem 2) : Prop := ∀ a b, k = pair a b → Spec.Covers2 p (a, b)

theorem good2 [DecidableEq ν] (dflt : ν) (ops : List (Op (Int × Int) ν)) (h : Spec.Valid (fun p => [p.1, p.2]) ops) :
    Good elemLess (fun k => k.1) covers2 dflt ops (run2 dflt ops) := by
  have hlt := (elemLess_sto 2).1
  have hmem : ∀ {a b : Int} {l : List Int}, (∀ g ∈ (pair a b).1, g ∈ l) ↔ a ∈ l ∧ b ∈ l := by
    intro a b l; simp [pair]
  have hcov2 : ∀ (p : Int × Int) (a b : Int), covers2 p (pair a b) ↔ Spec.Covers2 p (a, b) := by
    intro p a b
    constructor
    · intro hc; exact hc a b rfl
    · rintro hc a' b' he; obtain ⟨rfl, rfl⟩ := pair_inj.1 he; exact hc
  induction ops using List.reverseRecOn with
  | nil => exact good_nil (fun k hk => by have := k.2; rw [hk] at this; simp at this) hlt
  | append_singleton ops op ih =>
    have ih := ih (valid_init h)
    have hop := h ops op [] rfl
    rw [show run2 dflt (ops ++ [op]) = step2 dflt (run2 dflt ops) op by simp [run2]]
    cases op with
    | add gs => exact good_add (fun k hk => by have := k.2; rw [hk] at this; simp at this) ih gs
    | remove gs =>
      refine good_remove hlt ih hop (fun k => OSet.contains intLess gs (k.1[0]'(by have := k.2; omega)) ||
        OSet.contains intLess gs (k.1[1]'(by have := k.2; omega))) fun k => ?_
      obtain ⟨a, b, rfl⟩ := exists_pair k
      rw [Bool.or_eq_true, contains_iff hop, contains_iff hop]
      simp [pair]
    | set p v =>
      have hop1 : p.1 = -1 ∨ Spec.Known ops p.1 := hop p.1 (by simp)
      have hop2 : p.2 = -1 ∨ Spec.Known ops p.2 := hop p.2 (by simp)
      rw [← ih.known] at hop1 hop2
      generalize hO : run2 dflt ops = O at ih hop1 hop2
      have hnn : ∀ g ∈ O.ids, g ≠ -1 := fun g hg he => by
        have := known_nonneg (valid_init h) ((ih.known g).1 hg); omega
      show Good _ _ _ _ _ { O with map := _ }
      by_cases hv : v = dflt
      · rw [if_neg (not_not.2 hv)]
        by_cases h1 : p.1 = allGrids <;> by_cases h2 : p.2 = allGrids
        · rw [if_pos ⟨h1, h2⟩]
          refine good_target ih p v _ (fun _ => True) (empty_wf _) (fun k _ => ?_) (fun k hk => absurd trivial hk)
            (fun k _ => ⟨fun _ a b _ => ⟨.inr h1, .inr h2⟩, fun _ => trivial⟩) (fun hc => absurd hv hc)
          rw [if_pos hv, look_empty]
        · rw [if_neg (fun hc => h2 hc.2), if_pos h1]
          obtain ⟨a, b⟩ := look_eraseAll hlt ih.wf (fun i => pair i p.2) O.ids O.map ih.wf
          refine good_target ih p v _ (fun k => k ∈ O.ids.map fun i => pair i p.2) a (fun k hk => ?_)
            (fun k hk => ?_) (fun k hk => ?_) (fun hc => absurd hv hc)
          · rw [b, if_pos hk, if_pos hv]
          · rw [b, if_neg hk]
          · obtain ⟨x, y, rfl⟩ := exists_pair k
            rw [hmem] at hk
            rw [hcov2]
            simp only [List.mem_map, pair_inj, Spec.Covers2, Spec.Covers1]
            unfold allGrids at h1 h2
            constructor
            · rintro ⟨i, hi, rfl, rfl⟩; exact ⟨.inr h1, .inl rfl⟩
            · rintro ⟨-, hc⟩; exact ⟨x, hk.1, rfl, hc.resolve_right h2⟩
        · rw [if_neg (fun hc => h1 hc.1), if_neg h1, if_pos h2]
          obtain ⟨a, b⟩ := look_eraseAll hlt ih.wf (fun i => pair p.1 i) O.ids O.map ih.wf
          refine good_target ih p v _ (fun k => k ∈ O.ids.map fun i => pair p.1 i) a (fun k hk => ?_)
            (fun k hk => ?_) (fun k hk => ?_) (fun hc => absurd hv hc)
          · rw [b, if_pos hk, if_pos hv]
          · rw [b, if_neg hk]
          · obtain ⟨x, y, rfl⟩ := exists_pair k
            rw [hmem] at hk
            rw [hcov2]
            simp only [List.mem_map, pair_inj, Spec.Covers2, Spec.Covers1]
            unfold allGrids at h1 h2
            constructor
            · rintro ⟨i, hi, rfl, rfl⟩; exact ⟨.inl rfl, .inr h2⟩
            · rintro ⟨hc, -⟩; exact ⟨y, hk.2, hc.resolve_right h1, rfl⟩
        · rw [if_neg (fun hc => h1 hc.1), if_neg h1, if_neg h2]
          refine good_target ih p v _ (fun k => k = pair p.1 p.2) (omap_erase_spec hlt ih.wf _).1 (fun k hk => ?_)
            (fun k hk => ?_) (fun k hk => ?_) (fun hc => absurd hv hc)
          · rw [look_erase hlt ih.wf, if_pos hk, if_pos hv]
          · rw [look_erase hlt ih.wf, if_neg hk]
          · obtain ⟨x, y, rfl⟩ := exists_pair k
            rw [hcov2, pair_inj]
            unfold Spec.Covers2 Spec.Covers1; unfold allGrids at h1 h2; tauto
      · rw [if_pos hv]
        by_cases h1 : p.1 = allGrids <;> by_cases h2 : p.2 = allGrids
        · rw [if_pos ⟨h1, h2⟩]
          obtain ⟨a, b⟩ := look_insertAll hlt ih.wf (fun q : Int × Int => pair q.1 q.2) v
            (O.ids.flatMap fun i => O.ids.map fun j => (i, j)) O.map ih.wf
          have he : (O.ids.flatMap fun i => O.ids.map fun j => (i, j)).foldl
              (fun a (q : Int × Int) => a.insert elemLess (pair q.1 q.2) v) O.map =
              O.ids.foldl (fun a i => O.ids.foldl (fun a j => a.insert elemLess (pair i j) v) a) O.map := by
            rw [List.foldl_flatMap]
            simp only [List.foldl_map]
          rw [he] at a
          rw [he] at b
          refine good_target ih p v _ (fun k => k ∈ (O.ids.flatMap fun i => O.ids.map fun j => (i, j)).map
            fun q : Int × Int => pair q.1 q.2) a (fun k hk => ?_) (fun k hk => ?_) (fun k hk => ?_) (fun _ k hk => ?_)
          · rw [b, if_pos hk, if_neg hv]
          · rw [b, if_neg hk]
          · obtain ⟨x, y, rfl⟩ := exists_pair k
            rw [hmem] at hk
            rw [hcov2]
            refine ⟨fun _ => ⟨.inr h1, .inr h2⟩, fun _ => ?_⟩
            rw [List.mem_map]
            refine ⟨(x, y), ?_, rfl⟩
            simp only [List.mem_flatMap, List.mem_map, Prod.mk.injEq]
            exact ⟨x, hk.1, y, hk.2, rfl, rfl⟩
          · simp only [List.mem_map, List.mem_flatMap] at hk
            obtain ⟨q, ⟨i, hi, j, hj, rfl⟩, rfl⟩ := hk
            exact hmem.2 ⟨hi, hj⟩
        · rw [if_neg (fun hc => h2 hc.2), if_pos h1]
          obtain ⟨a, b⟩ := look_insertAll hlt ih.wf (fun i => pair i p.2) v O.ids O.map ih.wf
          refine good_target ih p v _ (fun k => k ∈ O.ids.map fun i => pair i p.2) a (fun k hk => ?_)
            (fun k hk => ?_) (fun k hk => ?_) (fun _ k hk => ?_)
          · rw [b, if_pos hk, if_neg hv]
          · rw [b, if_neg hk]
          · obtain ⟨x, y, rfl⟩ := exists_pair k
            rw [hmem] at hk
            rw [hcov2]
            simp only [List.mem_map, pair_inj, Spec.Covers2, Spec.Covers1]
            unfold allGrids at h1 h2
            constructor
            · rintro ⟨i, hi, rfl, rfl⟩; exact ⟨.inr h1, .inl rfl⟩
            · rintro ⟨-, hc⟩; exact ⟨x, hk.1, rfl, hc.resolve_right h2⟩
          · rw [List.mem_map] at hk
            obtain ⟨i, hi, rfl⟩ := hk
            exact hmem.2 ⟨hi, hop2.resolve_left h2⟩
        · rw [if_neg (fun hc => h1 hc.1), if_neg h1, if_pos h2]
          obtain ⟨a, b⟩ := look_insertAll hlt ih.wf (fun i => pair p.1 i) v O.ids O.map ih.wf
          refine good_target ih p v _ (fun k => k ∈ O.ids.map fun i => pair p.1 i) a (fun k hk => ?_)
            (fun k hk => ?_) (fun k hk => ?_) (fun _ k hk => ?_)
          · rw [b, if_pos hk, if_neg hv]
          · rw [b, if_neg hk]
          · obtain ⟨x, y, rfl⟩ := exists_pair k
            rw [hmem] at hk
            rw [hcov2]
            simp only [List.mem_map, pair_inj, Spec.Covers2, Spec.Covers1]
            unfold allGrids at h1 h2
            constructor
            · rintro ⟨i, hi, rfl, rfl⟩; exact ⟨.inl rfl, .inr h2⟩
            · rintro ⟨hc, -⟩; exact ⟨y, hk.2, hc.resolve_right h1, rfl⟩
          · rw [List.mem_map] at hk
            obtain ⟨i, hi, rfl⟩ := hk
            exact hmem.2 ⟨hop1.resolve_left h1, hi⟩
        · rw [if_neg (fun hc => h1 hc.1), if_neg h1, if_neg h2]
          refine good_target ih p v _ (fun k => k = pair p.1 p.2) (omap_insert_spec hlt ih.wf _ v).1 (fun k hk => ?_)
            (fun k hk => ?_) (fun k hk => ?_) (fun _ k hk => ?_)
          · rw [look_insert hlt ih.wf, if_pos hk, if_neg hv]
          · rw [look_insert hlt ih.wf, if_neg hk]
          · obtain ⟨x, y, rfl⟩ := exists_pair k
            rw [hcov2, pair_inj]
            unfold Spec.Covers2 Spec.Covers1; unfold allGrids at h1 h2; tauto
          · subst hk
            exact hmem.2 ⟨hop1.resolve_left h1, hop2.resolve_left h2⟩

/-! ## C47 -/

/-- C47: reading an option of a known grid gives the value of the last setting that covers it. -/
theorem C47_grid [DecidableEq ν] (dflt : ν) (ops : List (Op Int ν)) (h : Spec.Valid (fun p => [p]) ops)
    (g : Int) (hg : Spec.Known ops g) :
    Spec.Value (Spec.Covers1 · g) dflt [g] ops ((run1 dflt ops).get intLess dflt g) := by
  have hG := good1 dflt ops h
  rw [get_look]
  exact hG.value g fun g' hg' => by rw [List.mem_singleton.1 hg']; exact (hG.known g).2 hg

/-- C47: reading an option of a pair of known grids gives the value of the last setting that covers it. -/
theorem C47_pair [DecidableEq ν] (dflt : ν) (ops : List (Op (Int × Int) ν))
    (h : Spec.Valid (fun p => [p.1, p.2]) ops) (m n : Int) (hm : Spec.Known ops m) (hn : Spec.Known ops n) :
    Spec.Value (Spec.Covers2 · (m, n)) dflt [m, n] ops ((run2 dflt ops).get elemLess dflt (pair m n)) := by
  have hG := good2 dflt ops h
  have := hG.value (pair m n) fun g' hg' => by
    rcases List.mem_cons.1 hg' with rfl | hg'
    · exact (hG.known _).2 hm
    · rw [List.mem_singleton.1 hg']; exact (hG.known _).2 hn
  rw [get_look]
  obtain ⟨pre, post, a, b, c, e⟩ := this
  refine ⟨pre, post, a, fun p w hp hc => b p w hp ?_, c, ?_⟩
  · rintro x y he; obtain ⟨rfl, rfl⟩ := pair_inj.1 he; exact hc
  · rcases e with ⟨pre', p, e1, e2, e3⟩ | e
    · exact .inl ⟨pre', p, e1, e2 m n rfl, e3⟩
    · exact .inr e

/-- C47: reading the value after a setting and further settings of other grids. -/
theorem C47_read_back [DecidableEq ν] (dflt : ν) (ops : List (Op (Int × Int) ν)) (p : Int × Int) (v : ν)
    (h : Spec.Valid (fun p => [p.1, p.2]) (ops ++ [.set p v])) (m n : Int) (hm : Spec.Known ops m)
    (hn : Spec.Known ops n) :
    (run2 dflt (ops ++ [.set p v])).get elemLess dflt (pair m n) =
      if (p.1 = m ∨ p.1 = -1) ∧ (p.2 = n ∨ p.2 = -1) then v else (run2 dflt ops).get elemLess dflt (pair m n) := by
  have h1 := C47_pair dflt _ h m n ((known_set _ _ _ _).2 hm) ((known_set _ _ _ _).2 hn)
  have h2 := C47_pair dflt _ (valid_init h) m n hm hn
  refine C47_value_unique h1 ?_
  split
  · rename_i hc
    exact ⟨ops ++ [.set p v], [], by simp, by simp, by simp, .inl ⟨ops, p, rfl, hc, by
      intro g hg; simp at hg; rcases hg with rfl | rfl <;> assumption⟩⟩
  · rename_i hc
    refine value_skip h2 _ ?_ (by simp)
    intro q w hq; cases hq; exact hc

theorem valid_snoc {names : π → List Int} {ops : List (Op π ν)} {op : Op π ν} (h : Spec.Valid names ops)
    (hop : match op with
      | .add grids => ∀ g ∈ grids, 0 ≤ g
      | .remove grids => grids.Pairwise (· < ·)
      | .set p _ => ∀ g ∈ names p, g = -1 ∨ Spec.Known ops g) : Spec.Valid names (ops ++ [op]) := by
  intro pre o post he
  rcases append_cons_eq_append_singleton he with ⟨-, rfl, rfl⟩ | ⟨post', rfl, he'⟩
  · exact hop
  · exact h pre o post' he'

theorem valid_nil {names : π → List Int} : Spec.Valid names ([] : List (Op π ν)) := by
  intro pre o post he; simp at he

theorem known_sets {ops : List (Op π ν)} {g : Int} (l : List (π × ν)) :
    Spec.Known (ops ++ l.map fun q => .set q.1 q.2) g ↔ Spec.Known ops g := by
  induction l using List.reverseRecOn with
  | nil => simp
  | append_singleton l q ih =>
    rw [List.map_append, ← List.append_assoc]
    show Spec.Known (_ ++ [_]) g ↔ _
    rw [known_set, ih]

/-- C47: at the end of an edit, options of a grid with itself are back at the default and the others are
unchanged. -/
theorem C47_end_edit [DecidableEq ν] (dflt : ν) (ops : List (Op (Int × Int) ν))
    (h : Spec.Valid (fun p => [p.1, p.2]) ops) (gridIDs : List Int)
    (hids : ∀ g, g ∈ gridIDs ↔ Spec.Known ops g) (m n : Int) (hm : Spec.Known ops m) (hn : Spec.Known ops n) :
    (endEdit dflt gridIDs (run2 dflt ops)).get elemLess dflt (pair m n) =
      if m = n then dflt else (run2 dflt ops).get elemLess dflt (pair m n) := by
  have key : ∀ l : List Int, (∀ g ∈ l, Spec.Known ops g) →
      Spec.Valid (fun p : Int × Int => [p.1, p.2]) (ops ++ (l.map fun i => ((i, i), dflt)).map fun q => .set q.1 q.2) ∧
      endEdit dflt l (run2 dflt ops) = run2 dflt (ops ++ (l.map fun i => ((i, i), dflt)).map fun q => .set q.1 q.2) ∧
      (endEdit dflt l (run2 dflt ops)).get elemLess dflt (pair m n) =
        if m = n ∧ m ∈ l then dflt else (run2 dflt ops).get elemLess dflt (pair m n) := by
    intro l
    induction l using List.reverseRecOn with
    | nil => intro _; simpa using ⟨h, rfl, rfl⟩
    | append_singleton l i ih =>
      intro hl
      obtain ⟨h1, h2, h3⟩ := ih fun g hg => hl g (by simp [hg])
      have hv : Spec.Valid (fun p : Int × Int => [p.1, p.2])
          ((ops ++ (l.map fun i => ((i, i), dflt)).map fun q => .set q.1 q.2) ++ [.set (i, i) dflt]) := by
        refine valid_snoc h1 fun g hg => .inr ?_
        rw [known_sets]
        simp only [List.mem_cons, List.not_mem_nil, or_false, or_self] at hg
        rw [hg]; exact hl i (by simp)
      have he : endEdit dflt (l ++ [i]) (run2 dflt ops) =
          run2 dflt ((ops ++ (l.map fun i => ((i, i), dflt)).map fun q => .set q.1 q.2) ++ [.set (i, i) dflt]) := by
        unfold endEdit at h2 ⊢
        rw [List.foldl_append, h2]
        unfold run2
        rw [List.foldl_append (l' := [_])]
        rfl
      have hassoc : ops ++ ((l ++ [i]).map fun i => ((i, i), dflt)).map (fun q => Op.set q.1 q.2) =
          (ops ++ (l.map fun i => ((i, i), dflt)).map fun q => .set q.1 q.2) ++ [.set (i, i) dflt] := by simp
      rw [hassoc]
      refine ⟨hv, he, ?_⟩
      rw [he, C47_read_back dflt _ _ _ hv m n ((known_sets _).2 hm) ((known_sets _).2 hn), ← h2, h3]
      have hi : i ≠ -1 := fun hc => by
        have := known_nonneg h (hl i (by simp)); omega
      by_cases hmn : m = n
      · subst hmn
        by_cases hmi : i = m
        · simp [hmi]
        · have : ¬ m = i := fun hc => hmi hc.symm
          simp [hmi, hi, this]
      · have : ¬ (i = m ∧ i = n) := fun hc => hmn (hc.1.symm.trans hc.2)
        simp only [hi, or_false, if_neg this, if_neg (fun hc : m = n ∧ _ => hmn hc.1)]
  rw [(key gridIDs fun g hg => (hids g).1 hg).2.2]
  simp [(hids m).2 hm]

/- A history with wildcards, a reset, a removal and a re-added grid: -/
def exOps : List (Op (Int × Int) Nat) :=
  [.add [0, 1, 2], .set (-1, -1) 5, .set (1, -1) 7, .set (-1, 2) 0, .remove [0], .set (-1, -1) 9, .add [0],
    .set (0, 1) 4]

example : [pair 0 1, pair 1 0, pair 1 2, pair 0 0].map (fun k => (run2 0 exOps).get elemLess 0 k) =
    [4, 0, 9, 0] := by decide +kernel

theorem exOps_valid : Spec.Valid (fun p => [p.1, p.2]) exOps := by
  have k0 : ∀ g ∈ [0, 1, 2], Spec.Known [(.add [0, 1, 2] : Op (Int × Int) Nat)] g :=
    fun g hg => (known_add [] [0, 1, 2] g).2 (.inl hg)
  have v1 := valid_snoc (valid_nil (π := Int × Int) (ν := Nat) (names := fun p => [p.1, p.2]))
    (op := .add [0, 1, 2]) (by decide)
  have v2 := valid_snoc v1 (op := .set (-1, -1) 5) (by simp)
  have v3 := valid_snoc v2 (op := .set (1, -1) 7) (by
    intro g hg; simp at hg; rcases hg with rfl | rfl
    · exact .inr ((known_set _ _ _ _).2 (k0 1 (by simp)))
    · exact .inl rfl)
  have v4 := valid_snoc v3 (op := .set (-1, 2) 0) (by
    intro g hg; simp at hg; rcases hg with rfl | rfl
    · exact .inl rfl
    · exact .inr ((known_set _ _ _ _).2 ((known_set _ _ _ _).2 (k0 2 (by simp)))))
  have v5 := valid_snoc v4 (op := .remove [0]) (by simp)
  have v6 := valid_snoc v5 (op := .set (-1, -1) 9) (by simp)
  have v7 := valid_snoc v6 (op := .add [0]) (by simp)
  have v8 := valid_snoc v7 (op := .set (0, 1) 4) (by
    intro g hg; simp only [List.mem_cons, List.not_mem_nil, or_false] at hg; right
    rw [known_add, known_set, known_remove, known_set, known_set, known_set]
    rcases hg with rfl | rfl
    · exact .inl (by simp)
    · exact .inr ⟨by simp, k0 1 (by simp)⟩)
  exact v8

example : Spec.Known exOps 0 := ⟨exOps.take 6, [0], [.set (0, 1) 4], rfl, by simp, by simp⟩

end Ovk.Opt
