/-
Property C85: the two sides of the overlap data agree.
-/
import Verif.Lemmas.OverlapSides
import Verif.Lemmas.UniformWorld
import Mathlib.Data.Fin.VecNotation
import Mathlib.Data.Fintype.Basic
import Mathlib.Tactic.FinCases

namespace Ovk.Ovl
variable {d n : Nat} {W : World d n}

namespace Spec
/-- A proper index space, divided among the processes. -/
structure GridOk (W : World d n) (g : Nat) : Prop where
  proper : Ovk.Spec.Proper (W.cart g)
  tiles : Ovk.Spec.Tiles (W.cart g) (W.loc g)

/-- `r` owns a cell: it exists and its lower corner is a local point of `r`. -/
def Owns (W : World d n) (g : Nat) (r : Fin n) (c : Tup (d + 2)) : Prop :=
  Ovk.Spec.IsCell (W.cart g) c ∧ Ovk.Spec.pts (W.loc g r) c

/-- What the M side on `r` lists for process `s`: cells and destinations, in order. -/
def forRank (M : List (MEntry (d + 2))) (s : Fin n) : List (Tup (d + 2) × Tup (d + 2)) :=
  (M.filter fun e => decide (e.rank = (s.val : Int))).map fun e => (e.cell, e.dest)

/-- What the N side on `s` lists for process `r`: sources and points, in order. -/
def fromRank (N : List (NEntry (d + 2))) (r : Fin n) : List (Tup (d + 2) × Tup (d + 2)) :=
  (N.filter fun e => decide (e.rank = (r.val : Int))).map fun e => (e.source, e.point)
end Spec

theorem owns_iff {g : Nat} (hg : Spec.GridOk W g) {r : Fin n} {c : Tup (d + 2)} :
    Spec.Owns W g r c ↔ Ovk.Spec.pts (own W g r) c :=
  (C08_owner _ _ (hg.tiles.1 r) c).symm

variable {h : DHash.Hash (d + 2) Rat (Frag (d + 2))}

theorem overlapN_iff {m k : Nat} {s : Fin n} {N : List (NEntry (d + 2))} :
    overlapN W h m k s = some N ↔ ∃ x, sources W h m k s = some x ∧ N = x.1.map fun e => ⟨e.point, e.cell,
      ((x.2.find? fun r => (own W m r).contains e.cell).map fun r => (r.val : Int)).getD (-1)⟩ := by
  unfold overlapN
  simp only [Option.bind_eq_bind, Option.bind_eq_some_iff, Option.pure_def, Option.some.injEq]
  exact exists_congr fun x => and_congr_right fun _ => eq_comm

/-- The process of the cell of a point is among the sources. -/
theorem source_rank {m k : Nat} (hm : Spec.GridOk W m) {s : Fin n} {x : List (Item (d + 2)) × List (Fin n)}
    (hx : sources W h m k s = some x) {e : Item (d + 2)} (he : e ∈ x.1) :
    ∃ r ∈ x.2, Ovk.Spec.pts (own W m r) e.cell ∧ (x.2.find? fun r => (own W m r).contains e.cell) = some r := by
  obtain ⟨cand, h1, h2, h3⟩ := sources_iff.1 hx
  obtain ⟨_, h5⟩ := items_spec hm.tiles h2 h1
  obtain ⟨_, _, _, _, _, r, hr, ho⟩ := h5 e he
  have hr2 : r ∈ x.2 := by
    rw [h3, List.mem_filter]
    refine ⟨hr, ?_⟩
    have := ((sent_own hm.proper hm.tiles fun x hx => (h5 x hx).2.1).2 ⟨he, ho⟩).1
    cases hs : sent W m r x.1 with
    | nil => rw [hs] at this; simp at this
    | cons a l => rfl
  refine ⟨r, hr2, ho, ?_⟩
  cases hf : x.2.find? fun r => (own W m r).contains e.cell with
  | none =>
    have := List.find?_eq_none.1 hf r hr2
    exact absurd ((contains_iff_pts _ _).2 ho) this
  | some r' =>
    have := List.find?_some hf
    rw [own_unique W hm.tiles ((contains_iff_pts _ _).1 this) ho]

/-- C85: for every pair of processes, what the M side on one lists for the other and what the N side on the
other lists for the first are the same cells and points in the same order. -/
theorem C85_sides {m k : Nat} (hm : Spec.GridOk W m) (hk : Spec.GridOk W k)
    (hs : ∀ ks, Xch.StdSorted ks (W.sort ks)) {r s : Fin n} {M : List (MEntry (d + 2))}
    (hM : overlapM W h m k r = some M) {N : List (NEntry (d + 2))} (hN : overlapN W h m k s = some N) :
    Spec.forRank M s = Spec.fromRank N r := by
  obtain ⟨l, hl⟩ : ∃ l, incoming W h m k r = some l := by
    unfold overlapM at hM
    simp only [Option.bind_eq_bind, Option.bind_eq_some_iff] at hM
    exact hM.imp fun l h => h.1
  obtain ⟨M', hM', hperm, hsort⟩ := overlapM_eq hm.tiles hm.proper hk.tiles hs hl
  rw [hM] at hM'
  obtain rfl := Option.some.inj hM'
  obtain ⟨x, hx, hNx⟩ := overlapN_iff.1 hN
  obtain ⟨cand, h1, h2, h3⟩ := sources_iff.1 hx
  obtain ⟨h4, h5⟩ := items_spec hm.tiles h2 h1
  have hcells : ∀ y ∈ x.1, Ovk.Spec.pts (cellRange W m) y.cell := fun y hy => (h5 y hy).2.1
  have hA : (Spec.forRank M s).Pairwise fun a b => colLt a.2 b.2 := by
    unfold Spec.forRank
    rw [List.pairwise_map]
    exact hsort.filter _
  have hB : (Spec.fromRank N r).Pairwise fun a b => colLt a.2 b.2 := by
    unfold Spec.fromRank
    rw [List.pairwise_map]
    apply List.Pairwise.filter
    rw [hNx, List.pairwise_map]
    exact h4
  have hnd : ∀ {l : List (Tup (d + 2) × Tup (d + 2))}, l.Pairwise (fun a b => colLt a.2 b.2) → l.Nodup :=
    fun h => List.Pairwise.imp (S := fun a b => a ≠ b) (fun {a b} hab (e : a = b) => colLt_irrefl b.2 (e ▸ hab)) h
  have hmem : ∀ a, a ∈ Spec.forRank M s ↔ a ∈ Spec.fromRank N r := by
    intro a
    have eA : a ∈ Spec.forRank M s ↔ ∃ y ∈ x.1, Ovk.Spec.pts (own W m r) y.cell ∧ a = (y.cell, y.point) := by
      unfold Spec.forRank
      simp only [List.mem_map, List.mem_filter, decide_eq_true_eq]
      constructor
      · rintro ⟨e, ⟨he, hr⟩, rfl⟩
        obtain ⟨⟨s', y⟩, hy, rfl⟩ := List.mem_map.1 (hperm.mem_iff.1 he)
        unfold entryOf at hr
        dsimp only at hr
        split at hr
        · rename_i hcon
          have es : s' = s := Fin.ext (by exact_mod_cast hr)
          subst es
          obtain ⟨x', hx', _, hy'⟩ := (mem_incoming hl s' y).1 hy
          rw [hx] at hx'
          obtain rfl := Option.some.inj hx'
          have ho := (contains_iff_pts _ _).1 hcon
          exact ⟨y, ((sent_own hm.proper hm.tiles hcells).1 ⟨hy', ho⟩).1, ho, rfl⟩
        · have := s.isLt; omega
      · rintro ⟨y, hy, ho, rfl⟩
        refine ⟨entryOf W m r (s, y), ⟨hperm.mem_iff.2 (List.mem_map.2 ⟨_, ?_, rfl⟩), ?_⟩, rfl⟩
        · rw [mem_incoming hl]
          obtain ⟨r', hr', ho', _⟩ := source_rank hm hx hy
          exact ⟨x, hx, own_unique W hm.tiles ho' ho ▸ hr', ((sent_own hm.proper hm.tiles hcells).2 ⟨hy, ho⟩).1⟩
        · unfold entryOf
          rw [if_pos ((contains_iff_pts _ _).2 ho)]
    have eB : a ∈ Spec.fromRank N r ↔ ∃ y ∈ x.1, Ovk.Spec.pts (own W m r) y.cell ∧ a = (y.cell, y.point) := by
      unfold Spec.fromRank
      simp only [List.mem_map, List.mem_filter, decide_eq_true_eq, hNx]
      constructor
      · rintro ⟨e, ⟨⟨y, hy, rfl⟩, hr⟩, rfl⟩
        obtain ⟨r', _, ho', hf⟩ := source_rank hm hx hy
        rw [hf] at hr
        have er : r' = r := Fin.ext (by simpa using hr)
        subst er
        exact ⟨y, hy, ho', rfl⟩
      · rintro ⟨y, hy, ho, rfl⟩
        obtain ⟨r', _, ho', hf⟩ := source_rank hm hx hy
        have er := own_unique W hm.tiles ho' ho
        subst er
        exact ⟨_, ⟨⟨y, hy, rfl⟩, by rw [hf]; simp⟩, rfl⟩
    rw [eA, eB]
  exact ((List.perm_ext_iff_of_nodup (hnd hA) (hnd hB)).2 hmem).eq_of_pairwise
    (fun a b _ _ h h' => (colLt_asymm _ _ h h').elim) hA hB

/-- C85: every point on the N side is an active local point, and its source is a cell of the process named with
it that accepts the point. -/
theorem C85_owner {m k : Nat} (hm : Spec.GridOk W m) {s : Fin n} {N : List (NEntry (d + 2))}
    (hN : overlapN W h m k s = some N) :
    N.Pairwise (fun x y => colLt x.point y.point) ∧
    ∀ e ∈ N, Ovk.Spec.pts (W.loc k s) e.point ∧ W.active k e.point = true ∧
      (∃ u, W.coordsIn m e.source (W.tol m k) (W.coord k e.point) = some u) ∧
      ∃ r : Fin n, e.rank = (r.val : Int) ∧ Spec.Owns W m r e.source := by
  obtain ⟨x, hx, rfl⟩ := overlapN_iff.1 hN
  obtain ⟨cand, h1, h2, h3⟩ := sources_iff.1 hx
  obtain ⟨h4, h5⟩ := items_spec hm.tiles h2 h1
  refine ⟨by rw [List.pairwise_map]; exact h4, ?_⟩
  intro e he
  obtain ⟨y, hy, rfl⟩ := List.mem_map.1 he
  obtain ⟨r, _, ho, hf⟩ := source_rank hm hx hy
  have h6 := h5 y hy
  exact ⟨h6.1, h6.2.2.1, ⟨_, h6.2.2.2.2.1⟩, r, by rw [hf]; simp, (owns_iff hm).2 ho⟩

/-- C85: on the M side the entries are in the order of their destinations, each of which occurs once; an entry
has a destination rank exactly if the process owns the cell, the destination is then a point of that rank, and
the local coordinates are those of the destination in the cell; the cells of the other entries are images of
cells of other processes. -/
theorem C85_destinations {m k : Nat} (hm : Spec.GridOk W m) (hk : Spec.GridOk W k)
    (hs : ∀ ks, Xch.StdSorted ks (W.sort ks)) {r : Fin n} {M : List (MEntry (d + 2))}
    (hM : overlapM W h m k r = some M) :
    M.Pairwise (fun x y => colLt x.dest y.dest) ∧
    ∀ e ∈ M, ∃ s r' : Fin n, ∃ c, Ovk.Spec.SamePoint (W.cart m) c e.cell ∧ Spec.Owns W m r' c ∧
      Ovk.Spec.pts (W.loc k s) e.dest ∧
      W.coordsIn m c (W.tol m k) (W.coord k e.dest) = some e.coords ∧
      (r' = r → e.cell = c ∧ e.rank = (s.val : Int)) ∧ (r' ≠ r → e.rank = -1) := by
  obtain ⟨l, hl⟩ : ∃ l, incoming W h m k r = some l := by
    unfold overlapM at hM
    simp only [Option.bind_eq_bind, Option.bind_eq_some_iff] at hM
    exact hM.imp fun l h => h.1
  obtain ⟨M', hM', hperm, hsort⟩ := overlapM_eq hm.tiles hm.proper hk.tiles hs hl
  rw [hM] at hM'
  obtain rfl := Option.some.inj hM'
  refine ⟨hsort, fun e he => ?_⟩
  obtain ⟨⟨s, y⟩, hy, rfl⟩ := List.mem_map.1 (hperm.mem_iff.1 he)
  obtain ⟨x, hx, _, hy'⟩ := (mem_incoming hl s y).1 hy
  obtain ⟨cand, h1, h2, h3⟩ := sources_iff.1 hx
  obtain ⟨h4, h5⟩ := items_spec hm.tiles h2 h1
  obtain ⟨z, hz, c, hc, rfl⟩ := (mem_sent hm.proper hm.tiles fun x hx => (h5 x hx).2.1).1 hy'
  obtain ⟨h6, h7, _, _, h8, r', _, ho⟩ := h5 z hz
  refine ⟨s, r', z.cell, ?_, (owns_iff hm).2 ho, h6, h8, ?_, ?_⟩
  · unfold entryOf
    dsimp only
    split
    · exact samePoint_refl _ _
    · exact ((cover_image hm.proper hm.tiles h7).1 c hc).2
  · rintro rfl
    have hcon := (contains_iff_pts _ _).2 ho
    unfold entryOf
    simp only [hcon, if_true, and_self]
  · intro hne
    have hcon : (own W m r).contains z.cell = false := by
      rw [← Bool.not_eq_true]
      intro hcon
      exact hne (own_unique W hm.tiles ho ((contains_iff_pts _ _).1 hcon))
    unfold entryOf
    simp only [hcon, Bool.false_eq_true, if_false]
    rw [if_neg]
    intro hcon'
    have h9 := (contains_iff_pts _ _).1 hcon'
    have := cell_same h7 (own_cell W hm.tiles h9) ((cover_image hm.proper hm.tiles h7).1 c hc).2
    rw [this, hcon] at hcon'
    exact absurd hcon' (by simp)

/-! ### Example: a row of three cells on two processes, and a small grid over the second and third of them -/

def exCart (g : Nat) : Cart 2 :=
  ⟨⟨![0, 0], if g = 0 then ![4, 2] else ![2, 2]⟩, fun _ => false, .unique⟩

def exLoc (g : Nat) (r : Fin 2) : Rng 2 :=
  if g = 0 then (if r = 0 then ⟨![0, 0], ![2, 2]⟩ else ⟨![2, 0], ![4, 2]⟩)
  else (if r = 0 then ⟨![0, 0], ![1, 2]⟩ else ⟨![1, 0], ![2, 2]⟩)

def exWorld : World 0 2 := uniform [0, 1] exCart exLoc (fun _ _ => true)
  (fun g => if g = 0 then ![0, 0] else ![5 / 4, 1 / 4]) (fun g => if g = 0 then ![1, 1] else ![1, 1 / 2]) 0
  ![2, 1]

theorem exGrid_ok (g : Nat) (hg : g = 0 ∨ g = 1) : Spec.GridOk exWorld g := by
  refine ⟨?_, ?_, ?_⟩
  · rcases hg with rfl | rfl <;> (intro i; fin_cases i <;> decide)
  · rcases hg with rfl | rfl <;> decide +kernel
  · rcases hg with rfl | rfl
    · intro p hp
      have h0 := hp 0; have h1 := hp 1
      simp [exWorld, uniform, exCart] at h0 h1
      by_cases h : p 0 < 2
      · refine ⟨0, ?_, ?_⟩
        · intro i; fin_cases i <;> simp [exWorld, uniform, exLoc] <;> omega
        · intro k hk; fin_cases k
          · rfl
          · have := hk 0; simp [exWorld, uniform, exLoc] at this; omega
      · refine ⟨1, ?_, ?_⟩
        · intro i; fin_cases i <;> simp [exWorld, uniform, exLoc] <;> omega
        · intro k hk; fin_cases k
          · have := hk 0; simp [exWorld, uniform, exLoc] at this; omega
          · rfl
    · intro p hp
      have h0 := hp 0; have h1 := hp 1
      simp [exWorld, uniform, exCart] at h0 h1
      by_cases h : p 0 < 1
      · refine ⟨0, ?_, ?_⟩
        · intro i; fin_cases i <;> simp [exWorld, uniform, exLoc] <;> omega
        · intro k hk; fin_cases k
          · rfl
          · have := hk 0; simp [exWorld, uniform, exLoc] at this; omega
      · refine ⟨1, ?_, ?_⟩
        · intro i; fin_cases i <;> simp [exWorld, uniform, exLoc] <;> omega
        · intro k hk; fin_cases k
          · have := hk 0; simp [exWorld, uniform, exLoc] at this; omega
          · rfl

/-- Both sides: the first process serves the points over the second cell, the second process those over the
third cell; the second process also has the entries of the first for the vertices it shares with it. -/
example : ((hash exWorld).bind fun h => (overlapM exWorld h 0 1 0).map fun l => l.map fun e =>
      (List.ofFn e.cell, List.ofFn e.dest, e.rank)) =
      some [([1, 0], [0, 0], 0), ([1, 0], [0, 1], 0)] ∧
    ((hash exWorld).bind fun h => (overlapM exWorld h 0 1 1).map fun l => l.map fun e =>
      (List.ofFn e.cell, List.ofFn e.dest, e.rank)) =
      some [([1, 0], [0, 0], -1), ([2, 0], [1, 0], 1), ([1, 0], [0, 1], -1), ([2, 0], [1, 1], 1)] ∧
    ((hash exWorld).bind fun h => (overlapN exWorld h 0 1 1).map fun l => l.map fun e =>
      (List.ofFn e.point, List.ofFn e.source, e.rank)) =
      some [([1, 0], [2, 0], 1), ([1, 1], [2, 0], 1)] := by
  decide +kernel

example {h : DHash.Hash 2 Rat (Frag 2)} {r s : Fin 2} {M : List (MEntry 2)} {N : List (NEntry 2)} (hM : overlapM exWorld h 0 1 r = some M)
    (hN : overlapN exWorld h 0 1 s = some N) : Spec.forRank M s = Spec.fromRank N r :=
  C85_sides (exGrid_ok 0 (.inl rfl)) (exGrid_ok 1 (.inr rfl)) argSort_sorted hM hN

end Ovk.Ovl
