/-
Property C39: the cell chosen for a point does not depend on how the cells were distributed.
-/
import Verif.Model.Aggregate
import Verif.Props.OverlapAccel
import Verif.Props.Indexer

namespace Ovk
namespace Accel
variable {d : Nat}

namespace Spec
/-- Cell `a.1` with local coordinates `a.2` is preferred to `b`, ties broken by the smaller index. -/
def Prefer (a b : Int × Pt d) : Prop := AtLeast a.2 b.2 ∧ (AtLeast b.2 a.2 → a.1 ≤ b.1)

/-- Point `l` was found in cell `a.1` at the local coordinates `a.2`. -/
def Found (qs : List (Query d)) (l : Nat) (a : Int × Pt d) : Prop :=
  ∃ q ∈ qs, q.point = l ∧ q.cell = some a.1 ∧ q.coords = a.2

/-- `a` is the best of a set of cells. -/
def Choice (S : Int × Pt d → Prop) (a : Int × Pt d) : Prop := S a ∧ ∀ b, S b → Prefer a b
end Spec

/-! ### The order of preference -/

theorem atLeast_total (u v : Pt (d + 1)) : Spec.AtLeast u v ∨ Spec.AtLeast v u := by
  rw [atLeast_iff, atLeast_iff]
  cases isInside u <;> cases isInside v <;> simp [le_total]

theorem atLeast_trans {u v w : Pt (d + 1)} (h1 : Spec.AtLeast u v) (h2 : Spec.AtLeast v w) :
    Spec.AtLeast u w := by
  rw [atLeast_iff] at *
  revert h1 h2
  cases isInside u <;> cases isInside v <;> cases isInside w <;> simp <;> exact le_trans

theorem prefer_total (a b : Int × Pt (d + 1)) : Spec.Prefer a b ∨ Spec.Prefer b a := by
  unfold Spec.Prefer
  by_cases h1 : Spec.AtLeast a.2 b.2 <;> by_cases h2 : Spec.AtLeast b.2 a.2
  · simp [h1, h2, le_total]
  · simp [h1, h2]
  · simp [h1, h2]
  · exact absurd (atLeast_total a.2 b.2) (by simp [h1, h2])

theorem prefer_trans {a b c : Int × Pt (d + 1)} (h1 : Spec.Prefer a b) (h2 : Spec.Prefer b c) :
    Spec.Prefer a c := by
  refine ⟨atLeast_trans h1.1 h2.1, fun h => ?_⟩
  exact le_trans (h1.2 (atLeast_trans h2.1 h)) (h2.2 (atLeast_trans h h1.1))

theorem prefer_refl (a : Int × Pt (d + 1)) : Spec.Prefer a a := by
  rcases prefer_total a a with h | h <;> exact h

theorem better_iff (u v : Pt (d + 1)) (i j : Int) :
    betterCell u v i j = true ↔ ¬ Spec.Prefer (i, u) (j, v) := by
  unfold Spec.Prefer betterCell
  rw [atLeast_iff, atLeast_iff]
  cases isInside u <;> cases isInside v <;> simp
  · constructor
    · rintro (h | ⟨h, h'⟩) h2
      · exact absurd h2 (not_le.2 h)
      · exact ⟨h.le, h'⟩
    · intro h
      by_cases h2 : outsideDist u ≤ outsideDist v
      · exact (lt_or_eq_of_le (h h2).1).imp id fun e => ⟨e, (h h2).2⟩
      · exact .inl (not_le.1 h2)
  · constructor
    · rintro (h | ⟨h, h'⟩) h2
      · exact absurd h2 (not_le.2 h)
      · exact ⟨h.le, h'⟩
    · intro h
      by_cases h2 : centerDist u ≤ centerDist v
      · exact (lt_or_eq_of_le (h h2).1).imp id fun e => ⟨e, (h h2).2⟩
      · exact .inl (not_le.1 h2)

/-- The best cell is unique. -/
theorem choice_unique {S : Int × Pt (d + 1) → Prop} {a b : Int × Pt (d + 1)} (ha : Spec.Choice S a)
    (hb : Spec.Choice S b) : a.1 = b.1 := by
  have h1 := ha.2 b hb.1
  have h2 := hb.2 a ha.1
  exact le_antisymm (h1.2 h2.1) (h2.2 h1.1)

/-! ### First pass -/

theorem mask_fold (qs : List (Query d)) : ∀ (m : Nat → Bool) (l : Nat),
    qs.foldl (fun m q => if !m q.point && q.cell.isSome then Function.update m q.point true else m) m l
      = true ↔ m l = true ∨ ∃ a, Spec.Found qs l a := by
  induction qs with
  | nil => intro m l; simp [Spec.Found]
  | cons q qs ih =>
    intro m l
    rw [List.foldl_cons, ih]
    have hf : (∃ a, Spec.Found (q :: qs) l a) ↔ (q.point = l ∧ q.cell.isSome = true) ∨
        ∃ a, Spec.Found qs l a := by
      constructor
      · rintro ⟨a, q', hq', h1, h2, h3⟩
        rcases List.mem_cons.1 hq' with rfl | hq'
        · exact .inl ⟨h1, by rw [h2]; rfl⟩
        · exact .inr ⟨a, q', hq', h1, h2, h3⟩
      · rintro (⟨h1, h2⟩ | ⟨a, q', hq', h⟩)
        · obtain ⟨k, hk⟩ := Option.isSome_iff_exists.1 h2
          exact ⟨(k, q.coords), q, by simp, h1, hk, rfl⟩
        · exact ⟨a, q', by simp [hq'], h⟩
    rw [hf]
    by_cases hc : (!m q.point && q.cell.isSome) = true
    · rw [if_pos hc]
      rw [Bool.and_eq_true] at hc
      by_cases hl : l = q.point
      · subst hl; simp [hc.2]
      · rw [Function.update_of_ne hl]
        simp [Ne.symm hl]
    · rw [if_neg hc]
      constructor
      · tauto
      · rintro (h | ⟨h1, h2⟩ | h)
        · exact .inl h
        · left
          subst h1
          rw [h2] at hc
          simpa using hc
        · exact .inr h

theorem mask_iff (qs : List (Query d)) (l : Nat) :
    overlapMask qs l = true ↔ ∃ a, Spec.Found qs l a := by
  unfold overlapMask
  rw [mask_fold]
  simp

/-- Positions of the marked points. -/
theorem before_spec (mask : Nat → Bool) : ∀ n : Nat,
    (numBefore mask n).2 = ((List.range n).filter mask).length ∧
    ∀ l, l < n → mask l = true → ∃ i : Nat, (numBefore mask n).1 l = i ∧
      ((List.range n).filter mask)[i]? = some l := by
  intro n
  induction n with
  | zero => exact ⟨rfl, fun l h => absurd h (by omega)⟩
  | succ n ih =>
    have hs : numBefore mask (n + 1) = if mask n then (Function.update (numBefore mask n).1 n
        ((numBefore mask n).2 : Int), (numBefore mask n).2 + 1) else numBefore mask n := by
      unfold numBefore
      rw [List.range_succ, List.foldl_append]
      rfl
    rw [hs, List.range_succ, List.filter_append]
    by_cases hn : mask n = true
    · rw [if_pos hn]
      refine ⟨by simp [hn, ih.1], ?_⟩
      intro l hl hml
      by_cases hln : l = n
      · subst hln
        refine ⟨(numBefore mask l).2, by simp, ?_⟩
        rw [ih.1]
        simp [hn]
      · obtain ⟨i, h1, h2⟩ := ih.2 l (by omega) hml
        refine ⟨i, by rw [← h1]; exact Function.update_of_ne hln _ _, ?_⟩
        rw [List.getElem?_append_left (by
          by_contra hc
          rw [List.getElem?_eq_none (by omega)] at h2
          exact absurd h2 (by simp))]
        exact h2
    · rw [if_neg hn]
      refine ⟨by simp [hn, ih.1], ?_⟩
      intro l hl hml
      by_cases hln : l = n
      · subst hln; exact absurd hml hn
      · obtain ⟨i, h1, h2⟩ := ih.2 l (by omega) hml
        exact ⟨i, h1, by simpa [hn] using h2⟩

/-! ### Second pass -/

/-- Second pass on a function of the points. -/
def placeF (pointExt cellExt : List (Int × Int)) (f : Nat → Option (Entry d)) (q : Query d) :
    Nat → Option (Entry d) :=
  match q.cell with
  | none => f
  | some k =>
    match f q.point with
    | none => Function.update f q.point (some ⟨Indexer.toTuple .col cellExt k, q.coords,
          Indexer.toTuple .col pointExt q.point⟩)
    | some e =>
      if betterCell e.coords q.coords (Indexer.toIndex .col cellExt e.cell) k then
        Function.update f q.point
          (some { e with cell := Indexer.toTuple .col cellExt k, coords := q.coords })
      else f

theorem set_map (pts : List Nat) (hn : pts.Nodup) (f : Nat → Option (Entry d)) (i l : Nat)
    (h : pts[i]? = some l) (v : Option (Entry d)) :
    (pts.map f).set i v = pts.map (Function.update f l v) := by
  apply List.ext_getElem?
  intro j
  rw [List.getElem?_set]
  by_cases hij : i = j
  · subst hij
    have hlt : i < pts.length := by
      by_contra hc
      rw [List.getElem?_eq_none (by omega)] at h
      exact absurd h (by simp)
    have hl : pts[i] = l := by
      rw [List.getElem?_eq_getElem hlt] at h; exact Option.some.inj h
    simp [hlt, hl]
  · rw [if_neg hij, List.getElem?_map, List.getElem?_map]
    cases hj : pts[j]? with
    | none => rfl
    | some m =>
      have : m ≠ l := by
        rintro rfl
        have hlt : i < pts.length := by
          by_contra hc
          rw [List.getElem?_eq_none (by omega)] at h
          exact absurd h (by simp)
        exact hij ((List.getElem?_inj hlt hn).1 (h.trans hj.symm))
      simp [Function.update_of_ne this]

theorem place_eq (pointExt cellExt : List (Int × Int)) (before : Nat → Int) (pts : List Nat)
    (hn : pts.Nodup) (f : Nat → Option (Entry d)) (q : Query d)
    (hq : q.cell.isSome = true → ∃ i : Nat, before q.point = i ∧ pts[i]? = some q.point) :
    place pointExt cellExt before (pts.map f) q = some (pts.map (placeF pointExt cellExt f q)) := by
  unfold place placeF
  cases hc : q.cell with
  | none => rfl
  | some k =>
    obtain ⟨i, h1, h2⟩ := hq (by rw [hc]; rfl)
    dsimp only
    rw [h1, if_neg (by omega), Int.toNat_natCast, List.getElem?_map, h2, Option.map_some]
    cases hf : f q.point with
    | none => dsimp only; rw [set_map pts hn f i _ h2]
    | some e =>
      dsimp only
      split_ifs
      · rw [set_map pts hn f i _ h2]
      · rfl

theorem fold_place (pointExt cellExt : List (Int × Int)) (before : Nat → Int) (pts : List Nat)
    (hn : pts.Nodup) : ∀ (qs : List (Query d)) (f : Nat → Option (Entry d)),
    (∀ q ∈ qs, q.cell.isSome = true → ∃ i : Nat, before q.point = i ∧ pts[i]? = some q.point) →
    qs.foldlM (place pointExt cellExt before) (pts.map f) =
      some (pts.map (qs.foldl (placeF pointExt cellExt) f))
  | [], f, _ => rfl
  | q :: qs, f, h => by
    rw [List.foldlM_cons, place_eq _ _ _ _ hn _ _ (h q (by simp)), Option.bind_eq_bind,
      Option.bind_some, fold_place _ _ _ _ hn qs _ fun q' hq' => h q' (by simp [hq']), List.foldl_cons]

/-- What is stored for a point after the queries `qs`. -/
def Good (pointExt cellExt : List (Int × Int)) (qs : List (Query d)) (f : Nat → Option (Entry d)) : Prop :=
  ∀ l, match f l with
    | none => ∀ a, ¬ Spec.Found qs l a
    | some e => e.point = Indexer.toTuple .col pointExt l ∧ ∃ k, e.cell = Indexer.toTuple .col cellExt k ∧
        Spec.Choice (Spec.Found qs l) (k, e.coords)

theorem found_append (qs : List (Query d)) (q : Query d) (l : Nat) (a : Int × Pt d) :
    Spec.Found (qs ++ [q]) l a ↔ Spec.Found qs l a ∨
      (q.point = l ∧ q.cell = some a.1 ∧ q.coords = a.2) := by
  unfold Spec.Found
  simp only [List.mem_append, List.mem_singleton, or_and_right, exists_or, exists_eq_left]

theorem placeF_ne (pointExt cellExt : List (Int × Int)) (f : Nat → Option (Entry d)) (q : Query d)
    (l : Nat) (hl : l ≠ q.point) : placeF pointExt cellExt f q l = f l := by
  unfold placeF
  cases q.cell with
  | none => rfl
  | some k =>
    cases f q.point with
    | none => exact Function.update_of_ne hl _ _
    | some e =>
      dsimp only
      split_ifs
      · exact Function.update_of_ne hl _ _
      · rfl

theorem placeF_good (pointExt cellExt : List (Int × Int)) (qs : List (Query (d + 1)))
    (f : Nat → Option (Entry (d + 1))) (h : Good pointExt cellExt qs f) (q : Query (d + 1))
    (hcell : ∀ q' ∈ qs ++ [q], ∀ k, q'.cell = some k → 0 ≤ k ∧ k < Indexer.Spec.count cellExt) :
    Good pointExt cellExt (qs ++ [q]) (placeF pointExt cellExt f q) := by
  intro l
  have hl := h l
  have hsame := fun hlq : l ≠ q.point => placeF_ne pointExt cellExt f q l hlq
  unfold placeF at hsame ⊢
  cases hc : q.cell with
  | none =>
    dsimp only
    have : ∀ a, Spec.Found (qs ++ [q]) l a ↔ Spec.Found qs l a := fun a => by
      rw [found_append, hc]; simp
    cases hf : f l with
    | none => rw [hf] at hl; exact fun a => (not_congr (this a)).2 (hl a)
    | some e =>
      rw [hf] at hl
      obtain ⟨h1, k, h2, h3, h4⟩ := hl
      exact ⟨h1, k, h2, (this _).2 h3, fun b hb => h4 b ((this b).1 hb)⟩
  | some k =>
    rw [hc] at hsame
    dsimp only at hsame ⊢
    have hf : ∀ a, Spec.Found (qs ++ [q]) l a ↔ Spec.Found qs l a ∨ (q.point = l ∧ (k, q.coords) = a) := by
      intro a
      rw [found_append, hc]
      constructor
      · rintro (h | ⟨h1, h2, h3⟩)
        · exact .inl h
        · exact .inr ⟨h1, Prod.ext (Option.some.inj h2) h3⟩
      · rintro (h | ⟨h1, rfl⟩)
        · exact .inl h
        · exact .inr ⟨h1, rfl, rfl⟩
    by_cases hlq : l = q.point
    · subst hlq
      cases hfl : f q.point with
      | none =>
        rw [hfl] at hl
        dsimp only
        rw [Function.update_self]
        refine ⟨rfl, k, rfl, (hf _).2 (.inr ⟨rfl, rfl⟩), ?_⟩
        intro b hb
        rcases (hf b).1 hb with hb | ⟨_, rfl⟩
        · exact absurd hb (hl b)
        · exact prefer_refl _
      | some e =>
        rw [hfl] at hl
        obtain ⟨h1, k0, h2, h3, h4⟩ := hl
        dsimp only
        have hk0 : Indexer.toIndex .col cellExt e.cell = k0 := by
          obtain ⟨q', hq', _, hq2, _⟩ := h3
          have := hcell q' (by simp [hq']) k0 hq2
          rw [h2]
          exact (Indexer.C01_index_roundtrip .col cellExt k0 this.1 this.2).2
        rw [hk0]
        by_cases hb : betterCell e.coords q.coords k0 k = true
        · rw [if_pos hb, Function.update_self]
          rw [better_iff] at hb
          refine ⟨h1, k, rfl, (hf _).2 (.inr ⟨rfl, rfl⟩), ?_⟩
          intro b hb'
          rcases (hf b).1 hb' with hb' | ⟨_, rfl⟩
          · exact prefer_trans ((prefer_total _ _).resolve_left hb) (h4 b hb')
          · exact prefer_refl _
        · rw [if_neg hb, hfl]
          rw [better_iff, not_not] at hb
          refine ⟨h1, k0, h2, (hf _).2 (.inl h3), ?_⟩
          intro b hb'
          rcases (hf b).1 hb' with hb' | ⟨_, rfl⟩
          · exact h4 b hb'
          · exact hb
    · have hf' : ∀ a, Spec.Found (qs ++ [q]) l a ↔ Spec.Found qs l a := fun a => by
        rw [hf]; simp [Ne.symm hlq]
      rw [hsame hlq]
      cases hfl : f l with
      | none => rw [hfl] at hl; exact fun a => (not_congr (hf' a)).2 (hl a)
      | some e =>
        rw [hfl] at hl
        obtain ⟨h1, k, h2, h3, h4⟩ := hl
        exact ⟨h1, k, h2, (hf' _).2 h3, fun b hb => h4 b ((hf' b).1 hb)⟩

theorem fold_good (pointExt cellExt : List (Int × Int)) : ∀ (qs pre : List (Query (d + 1)))
    (f : Nat → Option (Entry (d + 1))), Good pointExt cellExt pre f →
    (∀ q' ∈ pre ++ qs, ∀ k, q'.cell = some k → 0 ≤ k ∧ k < Indexer.Spec.count cellExt) →
    Good pointExt cellExt (pre ++ qs) (qs.foldl (placeF pointExt cellExt) f)
  | [], pre, f, h, _ => by simpa using h
  | q :: qs, pre, f, h, hc => by
    have h1 := placeF_good pointExt cellExt pre f h q fun q' hq' => hc q' (by
      rcases List.mem_append.1 hq' with h | h
      · simp [h]
      · simp [List.mem_singleton.1 h])
    have := fold_good pointExt cellExt qs (pre ++ [q]) _ h1 (by simpa using hc)
    simpa using this

/-- C39: aggregation is defined; it yields one entry for every local point found in some cell, in the order of
the local indices, and the entry names the preferred cell among those the point was found in. -/
theorem C39_aggregate (n : Nat) (pointExt cellExt : List (Int × Int)) (qs : List (Query (d + 1)))
    (hp : ∀ q ∈ qs, q.point < n)
    (hcell : ∀ q ∈ qs, ∀ k, q.cell = some k → 0 ≤ k ∧ k < Indexer.Spec.count cellExt) :
    ∃ pts : List Nat, pts.Pairwise (· < ·) ∧ (∀ l, l ∈ pts ↔ ∃ a, Spec.Found qs l a) ∧
      ∃ f : Nat → Entry (d + 1), aggregate n pointExt cellExt qs = some (pts.map fun l => some (f l)) ∧
        ∀ l ∈ pts, (f l).point = Indexer.toTuple .col pointExt l ∧
          ∃ k, (f l).cell = Indexer.toTuple .col cellExt k ∧
            Spec.Choice (Spec.Found qs l) (k, (f l).coords) := by
  have hb := before_spec (overlapMask qs) n
  set pts := (List.range n).filter (overlapMask qs) with hpts
  have hmem : ∀ l, l ∈ pts ↔ ∃ a, Spec.Found qs l a := by
    intro l
    rw [hpts, List.mem_filter, mask_iff, List.mem_range]
    refine ⟨fun h => h.2, fun h => ⟨?_, h⟩⟩
    obtain ⟨a, q, hq, h1, _⟩ := h
    rw [← h1]; exact hp q hq
  have hsort : pts.Pairwise (· < ·) := List.pairwise_lt_range.filter _
  have hfold := fold_place pointExt cellExt (numBefore (overlapMask qs) n).1 pts
    (hsort.imp fun h => Nat.ne_of_lt h) qs (fun _ => none) (by
      intro q hq hs
      obtain ⟨k, hk⟩ := Option.isSome_iff_exists.1 hs
      exact hb.2 q.point (hp q hq) ((mask_iff qs _).2 ⟨(k, q.coords), q, hq, rfl, hk, rfl⟩))
  have hgood := fold_good pointExt cellExt qs [] (fun _ => none)
    (fun l a => by rintro ⟨q, hq, _⟩; exact absurd hq (by simp)) (by simpa using hcell)
  set g := qs.foldl (placeF pointExt cellExt) (fun _ => none) with hg
  refine ⟨pts, hsort, hmem, fun l => (g l).getD ⟨[], fun _ => 0, []⟩, ?_, ?_⟩
  · have hagg : aggregate n pointExt cellExt qs = some (pts.map g) := by
      unfold aggregate
      dsimp only
      by_cases h0 : (numBefore (overlapMask qs) n).2 = 0
      · rw [if_pos h0]
        have : pts = [] := by
          rw [← List.length_eq_zero_iff, ← hb.1, h0]
        rw [this]; rfl
      · rw [if_neg h0, hb.1, ← hfold]
        congr 1
        rw [List.map_const']
    rw [hagg]
    congr 1
    apply List.map_congr_left
    intro l hl
    have := hgood l
    cases hgl : g l with
    | none =>
      rw [hgl] at this
      obtain ⟨a, ha⟩ := (hmem l).1 hl
      exact absurd (by simpa using ha) (this a)
    | some e => dsimp only; rw [hgl]; rfl
  · intro l hl
    have := hgood l
    cases hgl : g l with
    | none =>
      rw [hgl] at this
      obtain ⟨a, ha⟩ := (hmem l).1 hl
      exact absurd (by simpa using ha) (this a)
    | some e =>
      rw [hgl] at this
      simpa [hgl] using this

/-- C39: visiting the fragments in another order selects the same cells for the same points; the local
coordinates agree too when equal cells come with equal coordinates. -/
theorem C39_order (n : Nat) (pointExt cellExt : List (Int × Int)) (qs qs' : List (Query (d + 1)))
    (hset : ∀ l a, Spec.Found qs l a ↔ Spec.Found qs' l a)
    (hp : ∀ q ∈ qs, q.point < n) (hp' : ∀ q ∈ qs', q.point < n)
    (hcell : ∀ q ∈ qs, ∀ k, q.cell = some k → 0 ≤ k ∧ k < Indexer.Spec.count cellExt)
    (hcell' : ∀ q ∈ qs', ∀ k, q.cell = some k → 0 ≤ k ∧ k < Indexer.Spec.count cellExt) :
    ∃ es es' : List (Entry (d + 1)), aggregate n pointExt cellExt qs = some (es.map some) ∧
      aggregate n pointExt cellExt qs' = some (es'.map some) ∧
      es.map (fun e => (e.point, e.cell)) = es'.map (fun e => (e.point, e.cell)) ∧
      ((∀ l a b, Spec.Found qs l a → Spec.Found qs l b → a.1 = b.1 → a.2 = b.2) → es = es') := by
  obtain ⟨pts, h1, h2, f, h3, h4⟩ := C39_aggregate n pointExt cellExt qs hp hcell
  obtain ⟨pts', h1', h2', f', h3', h4'⟩ := C39_aggregate n pointExt cellExt qs' hp' hcell'
  have hpp : pts = pts' := by
    have hperm : pts.Perm pts' := (List.perm_ext_iff_of_nodup (h1.imp fun h => Nat.ne_of_lt h)
      (h1'.imp fun h => Nat.ne_of_lt h)).2 fun l => by
        rw [h2, h2']; exact exists_congr fun a => hset l a
    exact hperm.eq_of_pairwise (fun a b _ _ h h' => absurd h (by omega)) h1 h1'
  subst hpp
  refine ⟨pts.map f, pts.map f', by rw [h3, List.map_map]; rfl, by rw [h3', List.map_map]; rfl, ?_, ?_⟩
  · rw [List.map_map, List.map_map]
    apply List.map_congr_left
    intro l hl
    obtain ⟨h5, k, h6, h7⟩ := h4 l hl
    obtain ⟨h5', k', h6', h7'⟩ := h4' l hl
    have hk : k = k' := choice_unique h7
      (⟨(hset l _).2 h7'.1, fun b hb => h7'.2 b ((hset l b).1 hb)⟩ :
        Spec.Choice (Spec.Found qs l) (k', (f' l).coords))
    simp only [Function.comp_apply]
    rw [h5, h5', h6, h6', hk]
  · intro hcons
    apply List.map_congr_left
    intro l hl
    obtain ⟨h5, k, h6, h7⟩ := h4 l hl
    obtain ⟨h5', k', h6', h7'⟩ := h4' l hl
    have h8 : Spec.Choice (Spec.Found qs l) (k', (f' l).coords) :=
      ⟨(hset l _).2 h7'.1, fun b hb => h7'.2 b ((hset l b).1 hb)⟩
    have hk : k = k' := choice_unique h7 h8
    have hu := hcons l _ _ h7.1 h8.1 hk
    have e1 : (f l).cell = (f' l).cell := by rw [h6, h6', hk]
    have e2 : (f l).point = (f' l).point := by rw [h5, h5']
    have e3 : (f l).coords = (f' l).coords := hu
    cases hfl : f l
    cases hfl' : f' l
    rw [hfl, hfl'] at e1 e2 e3
    simp only at e1 e2 e3
    rw [e1, e2, e3]

/-- C39: the selection depends only on which cells accept a point.  Here `acc l k u` says that cell `k` accepts
point `l` at the local coordinates `u`; the queries may be spread over fragments in any way, as long as each
reported cell accepts its point and every accepting cell is matched by a report at least as preferable. -/
theorem C39_decomposition (n : Nat) (pointExt cellExt : List (Int × Int)) (acc : Nat → Int × Pt (d + 1) → Prop)
    (hfun : ∀ l k u v, acc l (k, u) → acc l (k, v) → u = v)
    (qs qs' : List (Query (d + 1)))
    (hp : ∀ q ∈ qs, q.point < n) (hp' : ∀ q ∈ qs', q.point < n)
    (hcell : ∀ q ∈ qs, ∀ k, q.cell = some k → 0 ≤ k ∧ k < Indexer.Spec.count cellExt)
    (hcell' : ∀ q ∈ qs', ∀ k, q.cell = some k → 0 ≤ k ∧ k < Indexer.Spec.count cellExt)
    (hs : ∀ l a, Spec.Found qs l a → acc l a) (hs' : ∀ l a, Spec.Found qs' l a → acc l a)
    (hc : ∀ l a, acc l a → ∃ b, Spec.Found qs l b ∧ Spec.Prefer b a)
    (hc' : ∀ l a, acc l a → ∃ b, Spec.Found qs' l b ∧ Spec.Prefer b a) :
    aggregate n pointExt cellExt qs = aggregate n pointExt cellExt qs' := by
  obtain ⟨pts, h1, h2, f, h3, h4⟩ := C39_aggregate n pointExt cellExt qs hp hcell
  obtain ⟨pts', h1', h2', f', h3', h4'⟩ := C39_aggregate n pointExt cellExt qs' hp' hcell'
  have hpp : pts = pts' := by
    have hperm : pts.Perm pts' := (List.perm_ext_iff_of_nodup (h1.imp fun h => Nat.ne_of_lt h)
      (h1'.imp fun h => Nat.ne_of_lt h)).2 fun l => by
        rw [h2, h2']
        constructor
        · rintro ⟨a, ha⟩; exact (hc' l a (hs l a ha)).imp fun b hb => hb.1
        · rintro ⟨a, ha⟩; exact (hc l a (hs' l a ha)).imp fun b hb => hb.1
    exact hperm.eq_of_pairwise (fun a b _ _ h h' => absurd h (by omega)) h1 h1'
  subst hpp
  rw [h3, h3']
  congr 1
  apply List.map_congr_left
  intro l hl
  obtain ⟨h5, k, h6, h7⟩ := h4 l hl
  obtain ⟨h5', k', h6', h7'⟩ := h4' l hl
  have c1 : Spec.Choice (acc l) (k, (f l).coords) := ⟨hs l _ h7.1, fun b hb => by
    obtain ⟨c, hc1, hc2⟩ := hc l b hb
    exact prefer_trans (h7.2 c hc1) hc2⟩
  have c2 : Spec.Choice (acc l) (k', (f' l).coords) := ⟨hs' l _ h7'.1, fun b hb => by
    obtain ⟨c, hc1, hc2⟩ := hc' l b hb
    exact prefer_trans (h7'.2 c hc1) hc2⟩
  have hk : k = k' := choice_unique c1 c2
  subst hk
  have e1 : (f l).cell = (f' l).cell := by rw [h6, h6']
  have e2 : (f l).point = (f' l).point := by rw [h5, h5']
  have e3 : (f l).coords = (f' l).coords := hfun l k _ _ c1.1 c2.1
  cases hfl : f l
  cases hfl' : f' l
  rw [hfl, hfl'] at e1 e2 e3
  simp only at e1 e2 e3
  rw [e1, e2, e3]

/-- C39: what one fragment reports for a point meets the hypotheses of `C39_decomposition`: its cells are
numbered by increasing global index (`g`), and accepted points lie in the boxes of their cells. -/
theorem C39_fragment {rnd : Rat → Rat} (hr : Ovk.Spec.Rounding rnd) (n : Nat) (mask : Nat → Bool)
    (box : Nat → Box (d + 2)) (desired : List Nat → Pt (d + 2)) (split : Fin (d + 2) → List Nat → Rat)
    (isLeaf : List Nat → Bool) (maxDepth : Nat) (a : Box (d + 2) × Option (Tree (d + 2)))
    (ha : make rnd n mask box desired split isLeaf maxDepth = some a)
    (coords : Nat → Option (Pt (d + 2))) (p : Pt (d + 2)) (g : Nat → Int)
    (hg : ∀ i j, i < j → j < n → g i < g j)
    (hbox : ∀ j v, j < n → mask j = true → coords j = some v → Ovk.Spec.boxHas (box j) p) :
    ∃ res, findCell rnd a coords p = some res ∧
      (∀ k u, res = some (k, u) → k < n ∧ mask k = true ∧ coords k = some u) ∧
      ∀ j v, j < n → mask j = true → coords j = some v →
        ∃ k u, res = some (k, u) ∧ Spec.Prefer (g k, u) (g j, v) := by
  obtain ⟨res, h1, h2, h3⟩ := C38_find hr n mask box desired split isLeaf maxDepth a ha coords p
  refine ⟨res, h1, fun k u h => ?_, fun j v hj hm hv => ?_⟩
  · obtain ⟨h4, h5, h6, _⟩ := h2 k u h
    exact ⟨h4, h5, h6⟩
  · cases hres : res with
    | none =>
      have := h3 hres j hj hm (hbox j v hj hm hv)
      rw [hv] at this; exact absurd this (by simp)
    | some ku =>
      obtain ⟨k, u⟩ := ku
      obtain ⟨h4, _, _, h7⟩ := h2 k u hres
      have h8 := h7 j v hj hm (hbox j v hj hm hv) hv
      refine ⟨k, u, rfl, h8.1, fun hc => ?_⟩
      rcases Nat.lt_or_eq_of_le (h8.2 hc) with hlt | rfl
      · exact (hg k j hlt hj).le
      · exact le_refl _

/-! ### Example: three fragments, two points, a tie decided by the index -/

def exQs : List (Query 1) := [⟨2, some 5, fun _ => 1⟩, ⟨0, none, fun _ => 7⟩, ⟨2, some 4, fun _ => 0⟩,
  ⟨0, some 1, fun _ => -1 / 2⟩, ⟨0, some 3, fun _ => 1 / 4⟩]

example : ((aggregate 3 [(10, 13)] [(0, 6)] exQs).map fun l => l.map fun e => e.map fun e =>
    (e.point, e.cell, e.coords 0)) = some [some ([10], [3], 1 / 4), some ([12], [4], 0)] := by decide +kernel

example : ((aggregate 3 [(10, 13)] [(0, 6)] exQs.reverse).map fun l => l.map fun e => e.map fun e =>
    (e.point, e.cell, e.coords 0)) = some [some ([10], [3], 1 / 4), some ([12], [4], 0)] := by decide +kernel

example : (∀ q ∈ exQs, q.point < 3) ∧
    ∀ q ∈ exQs, ∀ k, q.cell = some k → 0 ≤ k ∧ k < Indexer.Spec.count [(0, 6)] := by
  constructor
  · decide +kernel
  · intro q hq k hk
    simp only [exQs, List.mem_cons, List.not_mem_nil, or_false] at hq
    rcases hq with rfl | rfl | rfl | rfl | rfl <;> simp at hk <;> subst hk <;> decide +kernel

end Accel
end Ovk
