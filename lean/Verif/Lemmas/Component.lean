import Verif.Model.Component
import Verif.Lemmas.Container
import Verif.Props.Container
import Mathlib.Tactic.SplitIfs

namespace Ovk.Comp

theorem esto : IsSTO (elemLess (n := 2)) := (elemLess_sto 2).1

theorem everyone_some {α : Type} (f : Fin P → Option α) (g : Fin P → α) (h : ∀ i, f i = some (g i)) :
    everyone f = some g := by
  unfold everyone
  have : ∀ i, (f i).isSome := fun i => by rw [h i]; rfl
  rw [dif_pos this]
  congr 1
  funext i
  simp [h i]

/-! ### Repeated insertion and removal -/

theorem fold_insert {lt : α → α → Bool} (h : IsSTO lt) (ids : List α) : ∀ {l : List α}, Sorted lt l →
    Sorted lt (ids.foldl (OSet.insert lt) l) ∧ ∀ x, x ∈ ids.foldl (OSet.insert lt) l ↔ x ∈ ids ∨ x ∈ l := by
  induction ids with
  | nil => intro l hl; exact ⟨hl, by simp⟩
  | cons a as ih =>
    intro l hl
    obtain ⟨h1, h2⟩ := oset_insert_spec h hl a
    obtain ⟨h3, h4⟩ := ih h1
    refine ⟨h3, fun x => ?_⟩
    show x ∈ as.foldl (OSet.insert lt) (OSet.insert lt l a) ↔ _
    rw [h4, h2, List.mem_cons]
    constructor
    · rintro (h | h | h) <;> simp [h]
    · rintro ((h | h) | h) <;> simp [h]

theorem fold_erase {lt : α → α → Bool} (h : IsSTO lt) (ids : List α) : ∀ {l : List α}, Sorted lt l →
    Sorted lt (ids.foldl (OSet.erase lt) l) ∧ ∀ x, x ∈ ids.foldl (OSet.erase lt) l ↔ x ∉ ids ∧ x ∈ l := by
  induction ids with
  | nil => intro l hl; exact ⟨hl, by simp⟩
  | cons a as ih =>
    intro l hl
    obtain ⟨h1, h2⟩ := oset_erase_spec h hl a
    obtain ⟨h3, h4⟩ := ih h1
    refine ⟨h3, fun x => ?_⟩
    show x ∈ as.foldl (OSet.erase lt) (OSet.erase lt l a) ↔ _
    rw [h4, h2, List.mem_cons]
    constructor
    · rintro ⟨h, h', h''⟩; exact ⟨by rintro (e | e); exact h' e; exact h e, h''⟩
    · rintro ⟨h, h'⟩; exact ⟨fun e => h (Or.inr e), fun e => h (Or.inl e), h'⟩

theorem fold_merase {lt : κ → κ → Bool} (h : IsSTO lt) (ids : List κ) : ∀ {m : OMap κ ν}, m.WF lt →
    (ids.foldl (OMap.erase lt) m).WF lt ∧
      ∀ k v, (k, v) ∈ (ids.foldl (OMap.erase lt) m).entries ↔ k ∉ ids ∧ (k, v) ∈ m.entries := by
  induction ids with
  | nil => intro l hl; exact ⟨hl, by simp⟩
  | cons a as ih =>
    intro l hl
    obtain ⟨h1, h2⟩ := omap_erase_spec h hl a
    obtain ⟨h3, h4⟩ := ih h1
    refine ⟨h3, fun x v => ?_⟩
    show (x, v) ∈ (as.foldl (OMap.erase lt) (OMap.erase lt l a)).entries ↔ _
    rw [h4, h2, List.mem_cons]
    constructor
    · rintro ⟨h, h', h''⟩; exact ⟨by rintro (e | e); exact h' e; exact h e, h''⟩
    · rintro ⟨h, h'⟩; exact ⟨fun e => h (Or.inr e), fun e => h (Or.inl e), h'⟩

/-! ### The index map -/

theorem indexMap_spec (ks : List CID) : ∀ (i : Nat) (m : OMap CID Nat), ks.Nodup → m.WF elemLess →
    (indexMap ks i m).WF elemLess ∧ ∀ k j, (k, j) ∈ (indexMap ks i m).entries ↔
      (∃ t : Nat, ks[t]? = some k ∧ j = i + t) ∨ (k ∉ ks ∧ (k, j) ∈ m.entries) := by
  induction ks with
  | nil => intro i m _ hm; exact ⟨hm, by simp [indexMap]⟩
  | cons a as ih =>
    intro i m hn hm
    obtain ⟨hna, hn'⟩ := List.nodup_cons.1 hn
    obtain ⟨h1, h2⟩ := omap_insert_spec esto hm a i
    obtain ⟨h3, h4⟩ := ih (i + 1) _ hn' h1
    refine ⟨h3, fun k j => ?_⟩
    show (k, j) ∈ (indexMap as (i + 1) (m.insert elemLess a i)).entries ↔ _
    rw [h4, h2]
    constructor
    · rintro (⟨t, h, rfl⟩ | ⟨hk, ⟨rfl, rfl⟩ | ⟨hne, he⟩⟩)
      · exact Or.inl ⟨t + 1, by simpa using h, by omega⟩
      · exact Or.inl ⟨0, by simp, rfl⟩
      · exact Or.inr ⟨by simp [hne, hk], he⟩
    · rintro (⟨t, h, rfl⟩ | ⟨hk, he⟩)
      · cases t with
        | zero =>
          simp at h
          subst h
          exact Or.inr ⟨hna, Or.inl ⟨rfl, rfl⟩⟩
        | succ t => exact Or.inl ⟨t, by simpa using h, by omega⟩
      · rw [List.mem_cons, not_or] at hk
        exact Or.inr ⟨hk.2, Or.inr ⟨hk.1, he⟩⟩

theorem sorted_nodup {l : List CID} (h : Sorted elemLess l) : l.Nodup := by
  refine List.Pairwise.imp ?_ h
  rintro a b hab rfl
  rw [esto.irrefl] at hab
  cases hab

theorem empty_wf {κ ν : Type} {lt : κ → κ → Bool} : (⟨[], []⟩ : OMap κ ν).WF lt :=
  ⟨rfl, by unfold Sorted; exact List.Pairwise.nil⟩

theorem indexMap_get {ks : List CID} (hs : Sorted elemLess ks) {i : Nat} {k : CID} (h : ks[i]? = some k) :
    (indexMap ks 0 ⟨[], []⟩).get? elemLess k = some i := by
  obtain ⟨h1, h2⟩ := indexMap_spec ks 0 ⟨[], []⟩ (sorted_nodup hs) empty_wf
  exact omap_get_spec esto h1 k i ((h2 k i).2 (Or.inl ⟨i, h, by omega⟩))

/-! ### Merging the flags -/

theorem orEntries_spec {ks : List CID} {ix : OMap CID Nat}
    (hix : ∀ (i : Nat) k, ks[i]? = some k → ix.get? elemLess k = some i) (es : List (CID × Nat)) :
    ∀ a : List Nat, a.length = ks.length → (∀ e ∈ es, e.1 ∈ ks) →
    ∃ a', orEntries ix es a = some a' ∧ a'.length = ks.length ∧
      ∀ (i : Nat) k, ks[i]? = some k → ∀ b, ((a'[i]?).getD 0).testBit b = true ↔
        ((a[i]?).getD 0).testBit b = true ∨ ∃ f, (k, f) ∈ es ∧ f.testBit b = true := by
  induction es with
  | nil => intro a ha _; exact ⟨a, rfl, ha, by simp⟩
  | cons e es ih =>
    intro a ha he
    obtain ⟨c, f⟩ := e
    obtain ⟨j, hj⟩ := List.mem_iff_getElem?.1 (he (c, f) (by simp))
    have hjl : j < ks.length := (List.getElem?_eq_some_iff.1 hj).1
    obtain ⟨a', h1, h2, h3⟩ := ih (a.modify j (· ||| f)) (by simp [ha]) (fun e h => he e (List.mem_cons_of_mem _ h))
    refine ⟨a', ?_, h2, ?_⟩
    · unfold orEntries
      rw [hix j c hj]
      dsimp only
      rw [if_pos (by omega)]
      exact h1
    · intro i k hk b
      have hil : i < ks.length := (List.getElem?_eq_some_iff.1 hk).1
      rw [h3 i k hk b]
      have hai : a[i]? = some a[i] := List.getElem?_eq_getElem (by omega)
      rw [List.getElem?_modify, hai]
      by_cases e : j = i
      · subst e
        have : k = c := Option.some.inj (hk.symm.trans hj)
        subst this
        simp only [if_true, Option.map_eq_map, Option.map_some, Option.getD_some, Nat.testBit_or, Bool.or_eq_true, List.mem_cons,
          Prod.mk.injEq]
        constructor
        · rintro ((h | h) | ⟨g, h, h'⟩)
          · exact Or.inl h
          · exact Or.inr ⟨f, Or.inl ⟨trivial, rfl⟩, h⟩
          · exact Or.inr ⟨g, Or.inr h, h'⟩
        · rintro (h | ⟨g, ⟨-, rfl⟩ | h, h'⟩)
          · exact Or.inl (Or.inl h)
          · exact Or.inl (Or.inr h')
          · exact Or.inr ⟨g, h, h'⟩
      · simp only [e, if_false, Option.getD_some, List.mem_cons, Prod.mk.injEq]
        have hne : k ≠ c := by
          rintro rfl
          exact e (by
            have := (hix j k hj).symm.trans (hix i k hk)
            exact Option.some.inj this)
        constructor
        · rintro (h | ⟨g, h, h'⟩)
          · exact Or.inl (by simpa using h)
          · exact Or.inr ⟨g, Or.inr h, h'⟩
        · rintro (h | ⟨g, ⟨rfl, -⟩ | h, h'⟩)
          · exact Or.inl (by simpa using h)
          · exact absurd rfl hne
          · exact Or.inr ⟨g, h, h'⟩

theorem fold_or (n : Nat) (a : Fin P → List Nat) (ha : ∀ p, (a p).length = n) (ps : List (Fin P)) :
    ∀ acc : List Nat, acc.length = n →
      (ps.foldl (fun acc p => List.zipWith (· ||| ·) acc (a p)) acc).length = n ∧
      ∀ i < n, ∀ b, (((ps.foldl (fun acc p => List.zipWith (· ||| ·) acc (a p)) acc)[i]?).getD 0).testBit b = true ↔
        ((acc[i]?).getD 0).testBit b = true ∨ ∃ p ∈ ps, (((a p)[i]?).getD 0).testBit b = true := by
  induction ps with
  | nil => intro acc h; exact ⟨h, by simp⟩
  | cons p ps ih =>
    intro acc hacc
    obtain ⟨h1, h2⟩ := ih (List.zipWith (· ||| ·) acc (a p)) (by simp [hacc, ha])
    refine ⟨h1, fun i hi b => ?_⟩
    show ((((ps.foldl _ (List.zipWith (· ||| ·) acc (a p))))[i]?).getD 0).testBit b = true ↔ _
    rw [h2 i hi b]
    have e1 : acc[i]? = some (acc[i]'(by omega)) := List.getElem?_eq_getElem _
    have e2 : (a p)[i]? = some ((a p)[i]'(by rw [ha]; exact hi)) := List.getElem?_eq_getElem _
    rw [List.getElem?_zipWith, e1, e2]
    simp only [Option.getD_some, Nat.testBit_or, Bool.or_eq_true, List.mem_cons, exists_eq_or_imp, e2, or_assoc]

theorem allOr_spec (n : Nat) (a : Fin P → List Nat) (ha : ∀ p, (a p).length = n) :
    (allOr n a).length = n ∧ ∀ i < n, ∀ b, (((allOr n a)[i]?).getD 0).testBit b = true ↔
      ∃ p, (((a p)[i]?).getD 0).testBit b = true := by
  obtain ⟨h1, h2⟩ := fold_or n a ha (List.finRange P) (List.replicate n 0) (by simp)
  refine ⟨h1, fun i hi b => (h2 i hi b).trans ?_⟩
  simp [hi]

/-! ### Announcing -/

/-- The announcements for a list of IDs with flags. -/
def mark : List (CID × Nat) → Int → List Call
  | [], _ => []
  | (k, f) :: t, r => if f = 0 then mark t r else (k, f, r - 1 == 0) :: mark t (r - 1)

theorem triggers_eq (ix : OMap CID Nat) (flags : List Nat) (ks : List CID) : ∀ (fs : List Nat) (j : Nat) (r : Int),
    ks.length = fs.length → (∀ (i : Nat) k, ks[i]? = some k → ix.get? elemLess k = some (j + i)) →
    (∀ i < fs.length, flags[j + i]? = fs[i]?) →
    triggers ix flags ks r = some (mark (ks.zip fs) r) := by
  induction ks with
  | nil => intro fs j r h _ _; cases fs <;> simp [triggers, mark] at h ⊢
  | cons k ks ih =>
    intro fs j r h hix hf
    cases fs with
    | nil => simp at h
    | cons f fs =>
      have hk := hix 0 k (by simp)
      have hf0 := hf 0 (by simp)
      simp only [Nat.add_zero, List.getElem?_cons_zero] at hk hf0
      have ih' := fun r => ih fs (j + 1) r (by simpa using h)
        (fun i k' hk' => by have := hix (i + 1) k' (by simpa using hk'); rw [this]; congr 1; omega)
        (fun i hi => by
          have := hf (i + 1) (by simpa using hi)
          rw [show j + 1 + i = j + (i + 1) by omega, this]; simp)
      unfold triggers
      rw [hk]
      dsimp only
      rw [hf0]
      dsimp only
      rw [List.zip_cons_cons, mark]
      split_ifs with h0
      · exact ih' r
      · rw [ih' (r - 1)]
        rfl

theorem mark_spec (t : List (CID × Nat)) : ∀ r : Int, r = t.countP (fun e => e.2 != 0) →
    ((mark t r).map Prod.fst).Sublist (t.map Prod.fst) ∧
    (∀ k f, (∃ z, (k, f, z) ∈ mark t r) ↔ (k, f) ∈ t ∧ f ≠ 0) ∧
    ((mark t r).length : Int) = r ∧
    ∀ (i : Nat) e, (mark t r)[i]? = some e → (e.2.2 = true ↔ (i : Int) + 1 = r) := by
  induction t with
  | nil =>
    intro r h
    simp at h
    subst h
    simp [mark]
  | cons a t ih =>
    intro r h
    obtain ⟨k0, f0⟩ := a
    unfold mark
    by_cases h0 : f0 = 0
    · rw [if_pos h0]
      rw [List.countP_cons_of_neg (by simp [h0])] at h
      obtain ⟨h1, h2, h3, h4⟩ := ih r h
      refine ⟨h1.trans (by simp), fun k f => ?_, h3, h4⟩
      rw [h2, List.mem_cons]
      constructor
      · rintro ⟨ha, hb⟩; exact ⟨Or.inr ha, hb⟩
      · rintro ⟨e | ha, hb⟩
        · simp only [Prod.mk.injEq] at e
          exact absurd (e.2.trans h0) hb
        · exact ⟨ha, hb⟩
    · rw [if_neg h0]
      rw [List.countP_cons_of_pos (by simp [h0])] at h
      obtain ⟨h1, h2, h3, h4⟩ := ih (r - 1) (by omega)
      refine ⟨by simpa using h1, fun k f => ?_, by simp only [List.length_cons]; omega, ?_⟩
      · constructor
        · rintro ⟨z, hz⟩
          rw [List.mem_cons] at hz
          rcases hz with e | hz
          · simp only [Prod.mk.injEq] at e
            obtain ⟨rfl, rfl, -⟩ := e
            exact ⟨by simp, h0⟩
          · have := (h2 k f).1 ⟨z, hz⟩
            exact ⟨List.mem_cons_of_mem _ this.1, this.2⟩
        · rintro ⟨ha, hb⟩
          rw [List.mem_cons] at ha
          rcases ha with e | ha
          · simp only [Prod.mk.injEq] at e
            obtain ⟨rfl, rfl⟩ := e
            exact ⟨_, List.mem_cons_self ..⟩
          · obtain ⟨z, hz⟩ := (h2 k f).2 ⟨ha, hb⟩
            exact ⟨z, List.mem_cons_of_mem _ hz⟩
      · intro i e he
        cases i with
        | zero =>
          simp only [List.getElem?_cons_zero, Option.some.injEq] at he
          subst he
          simp only [beq_iff_eq]
          constructor <;> intro h <;> omega
        | succ i =>
          rw [List.getElem?_cons_succ] at he
          rw [h4 i e he]
          constructor <;> intro h <;> push_cast at * <;> omega

theorem countP_zip (fs : List Nat) : ∀ ks : List CID, ks.length = fs.length →
    (ks.zip fs).countP (fun e => e.2 != 0) = fs.countP (· != 0) := by
  induction fs with
  | nil => intro ks h; simp at h; simp [h]
  | cons f fs ih =>
    intro ks h
    cases ks with
    | nil => simp at h
    | cons k ks =>
      rw [List.zip_cons_cons, List.countP_cons, List.countP_cons, ih ks (by simpa using h)]

end Ovk.Comp
