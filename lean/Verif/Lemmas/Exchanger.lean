/- The rank rendezvous of the exchanger. -/
import Verif.Model.Exchanger
import Verif.Lemmas.FieldIndex
import Verif.Lemmas.Container
import Verif.Props.Container
import Mathlib.Tactic.SplitIfs
import Mathlib.Tactic.ByContra
import Mathlib.Tactic.Linarith
import Mathlib.Data.List.FinRange
import Mathlib.Data.List.Perm.Basic

namespace Ovk.Xch
variable {d n : Nat}

theorem count_nonneg (r : Rng d) : 0 ≤ r.count := Finset.prod_nonneg fun i _ => by unfold Rng.size; omega

theorem foldl_count (gs : List (Int × Rng d)) : ∀ a : Int,
    gs.foldl (fun t g => t + g.2.count) a = a + gs.foldl (fun t g => t + g.2.count) 0 := by
  induction gs with
  | nil => simp
  | cons g gs ih =>
    intro a
    simp only [List.foldl_cons]
    rw [ih, ih (0 + _)]; omega

theorem totalPoints_cons (g : Int × Rng d) (gs : List (Int × Rng d)) :
    totalPoints (g :: gs) = g.2.count + totalPoints gs := by
  unfold totalPoints
  rw [List.foldl_cons, foldl_count]; omega

theorem totalPoints_nonneg (gs : List (Int × Rng d)) : 0 ≤ totalPoints gs := by
  induction gs with
  | nil => simp [totalPoints]
  | cons g gs ih => rw [totalPoints_cons]; have := count_nonneg g.2; omega

theorem before_spec : ∀ (gs : List (Int × Rng d)) (acc id o : Int) (r : Rng d),
    before acc gs id = some (o, r) → acc ≤ o ∧ o + r.count ≤ acc + totalPoints gs ∧ (id, r) ∈ gs
  | [], acc, id, o, r, h => by simp [before] at h
  | g :: gs, acc, id, o, r, h => by
    unfold before at h
    rw [totalPoints_cons]
    have h0 := count_nonneg g.2
    have h1 := totalPoints_nonneg gs
    split_ifs at h with hg
    · obtain ⟨rfl, rfl⟩ := Prod.mk.inj (Option.some.inj h)
      refine ⟨by omega, by omega, ?_⟩
      subst hg; simp
    · obtain ⟨h2, h3, h4⟩ := before_spec gs _ _ _ _ h
      exact ⟨by omega, by omega, List.mem_cons_of_mem _ h4⟩

theorem before_disjoint : ∀ (gs : List (Int × Rng d)) (acc id id' o o' : Int) (r r' : Rng d),
    before acc gs id = some (o, r) → before acc gs id' = some (o', r') → id ≠ id' →
    o + r.count ≤ o' ∨ o' + r'.count ≤ o
  | [], acc, id, id', o, o', r, r', h, h', hne => by simp [before] at h
  | g :: gs, acc, id, id', o, o', r, r', h, h', hne => by
    unfold before at h h'
    split_ifs at h h' with h1 h2 h2
    · exact absurd (h1.symm.trans h2) hne
    · obtain ⟨rfl, rfl⟩ := Prod.mk.inj (Option.some.inj h)
      have := (before_spec gs _ _ _ _ h').1
      omega
    · obtain ⟨rfl, rfl⟩ := Prod.mk.inj (Option.some.inj h')
      have := (before_spec gs _ _ _ _ h).1
      omega
    · exact before_disjoint gs _ _ _ _ _ _ _ h h' hne

theorem before_exists : ∀ (gs : List (Int × Rng d)) (acc id : Int) (r : Rng d), (gs.map Prod.fst).Nodup →
    (id, r) ∈ gs → ∃ o, before acc gs id = some (o, r)
  | [], acc, id, r, hn, h => by simp at h
  | g :: gs, acc, id, r, hn, h => by
    rw [List.map_cons, List.nodup_cons] at hn
    unfold before
    rcases List.mem_cons.1 h with rfl | h
    · simp
    · have : g.1 ≠ id := by
        rintro rfl
        exact hn.1 (List.mem_map.2 ⟨_, h, rfl⟩)
      rw [if_neg this]
      exact before_exists gs _ id r hn.2 h

section
variable {w : World d n} (hg : (w.grids.map Prod.fst).Nodup)
include hg

theorem linear_exists {g : Int} {r : Rng d} {x : Tup d} (hr : (g, r) ∈ w.grids) (hx : Spec.pts r x) :
    ∃ L, w.linear g x = some L ∧ 0 ≤ L ∧ L < totalPoints w.grids := by
  obtain ⟨o, ho⟩ := before_exists w.grids 0 g r hg hr
  obtain ⟨h1, h2, _⟩ := before_spec _ _ _ _ _ ho
  have := Rng.index_bounds .col r x hx
  refine ⟨o + r.index .col x, by simp [World.linear, ho], by omega, by omega⟩

theorem linear_inj {g g' : Int} {r r' : Rng d} {x x' : Tup d} {L : Int} (hr : (g, r) ∈ w.grids)
    (hx : Spec.pts r x) (hr' : (g', r') ∈ w.grids) (hx' : Spec.pts r' x') (h : w.linear g x = some L)
    (h' : w.linear g' x' = some L) : g = g' ∧ x = x' := by
  obtain ⟨o, ho⟩ := before_exists w.grids 0 g r hg hr
  obtain ⟨o', ho'⟩ := before_exists w.grids 0 g' r' hg hr'
  have b := Rng.index_bounds .col r x hx
  have b' := Rng.index_bounds .col r' x' hx'
  simp only [World.linear, ho, ho', Option.map_some, Option.some.injEq] at h h'
  have hgg : g = g' := by
    by_contra hne
    rcases before_disjoint _ _ _ _ _ _ _ _ ho ho' hne with h1 | h1 <;> omega
  subst hgg
  rw [ho] at ho'
  obtain ⟨rfl, rfl⟩ := Prod.mk.inj (Option.some.inj ho')
  exact ⟨rfl, Rng.index_inj .col r x x' hx hx' (by omega)⟩
end

/-- Points of one partition. -/
def partOf (size : Int) (k : Int) (l : List Int) : List Int := l.filter fun L => L / size = k

theorem partOf_append (size k : Int) (a b : List Int) :
    partOf size k (a ++ b) = partOf size k a ++ partOf size k b := List.filter_append ..

theorem mem_partOf {size k L : Int} {l : List Int} : L ∈ partOf size k l ↔ L ∈ l ∧ L / size = k := by
  simp [partOf]

theorem part_pos {size L : Int} (hs : 0 < size) (hL : 0 ≤ L) : part size L = some (L / size) := by
  unfold part
  rw [if_neg (by omega), Int.tdiv_eq_ediv_of_nonneg hL]

theorem group_spec {size : Int} (hs : 0 < size) : ∀ (Ls : List Int) (m : OMap Int (List Int)) (f : Int → List Int),
    (∀ L ∈ Ls, 0 ≤ L) → m.WF intLess → (∀ k l, (k, l) ∈ m.entries ↔ l ≠ [] ∧ l = f k) →
    ∃ m', group size m Ls = some m' ∧ m'.WF intLess ∧
      ∀ k l, (k, l) ∈ m'.entries ↔ l ≠ [] ∧ l = f k ++ partOf size k Ls
  | [], m, f, _, hw, hm => ⟨m, rfl, hw, by simpa [partOf] using hm⟩
  | L :: Ls, m, f, hL, hw, hm => by
    unfold group
    rw [part_pos hs (hL L (by simp))]
    dsimp only
    generalize hk0 : L / size = k0
    obtain ⟨hw1, hm1⟩ := omap_fetch_spec intLess_sto hw k0 []
    have hex : ∃ v, (k0, v) ∈ (m.fetch intLess k0 []).entries := by
      by_cases h : ∃ w, (k0, w) ∈ m.entries
      · obtain ⟨w, h⟩ := h; exact ⟨w, (hm1 _ _).2 (.inl h)⟩
      · exact ⟨[], (hm1 _ _).2 (.inr ⟨rfl, rfl, fun w hw => h ⟨w, hw⟩⟩)⟩
    obtain ⟨hw2, hm2⟩ := omap_modify_spec intLess_sto hw1 k0 (· ++ [L]) hex
    obtain ⟨m', h1, h2, h3⟩ := group_spec hs Ls _ (fun k => if k = k0 then f k ++ [L] else f k)
      (fun x hx => hL x (List.mem_cons_of_mem _ hx)) hw2 (by
        intro k l
        rw [hm2]
        by_cases hk : k = k0
        · subst hk
          simp only [ne_eq, not_true_eq_false, false_and, true_and, false_or, if_true]
          constructor
          · rintro ⟨v, hv, rfl⟩
            refine ⟨by simp, ?_⟩
            rcases (hm1 _ _).1 hv with h | ⟨_, rfl, h⟩
            · rw [((hm _ _).1 h).2]
            · have : f k = [] := by
                by_contra hc
                exact h (f k) ((hm _ _).2 ⟨hc, rfl⟩)
              rw [this]
          · rintro ⟨_, rfl⟩
            refine ⟨f k, (hm1 _ _).2 ?_, rfl⟩
            by_cases hc : f k = []
            · refine .inr ⟨rfl, hc, fun w hw' => ?_⟩
              have := (hm _ _).1 hw'
              exact this.1 (this.2.trans hc)
            · exact .inl ((hm _ _).2 ⟨hc, rfl⟩)
        · simp only [ne_eq, hk, not_false_eq_true, true_and, false_and, or_false, if_false]
          rw [hm1]
          simp [hk, hm])
    refine ⟨m', h1, h2, fun k l => ?_⟩
    rw [h3]
    have : (if k = k0 then f k ++ [L] else f k) ++ partOf size k Ls = f k ++ partOf size k (L :: Ls) := by
      unfold partOf
      rw [List.filter_cons, hk0]
      by_cases hk : k = k0
      · subst hk; simp
      · have : ¬ k0 = k := fun e => hk e.symm
        simp [hk, this]
    rw [this]

theorem wf_empty : (⟨[], []⟩ : OMap Int (List Int)).WF intLess := by
  constructor
  · rfl
  · simp [Sorted]

/-- `group` from the empty map. -/
theorem group_empty {size : Int} (hs : 0 < size) (Ls : List Int) (hL : ∀ L ∈ Ls, 0 ≤ L) :
    ∃ m, group size ⟨[], []⟩ Ls = some m ∧ m.WF intLess ∧
      ∀ k l, (k, l) ∈ m.entries ↔ l ≠ [] ∧ l = partOf size k Ls := by
  obtain ⟨m, h1, h2, h3⟩ := group_spec hs Ls ⟨[], []⟩ (fun _ => []) hL wf_empty (by simp)
  exact ⟨m, h1, h2, by simpa using h3⟩

theorem allSome_some {α : Type} (f : Fin n → Option α) (g : Fin n → α) (h : ∀ i, f i = some (g i)) :
    allSome f = some g := by
  have : ∀ i, (f i).isSome := fun i => by rw [h]; rfl
  unfold allSome
  rw [dif_pos this]
  congr 1
  funext i
  simp [h]

theorem recvs_mem {groups : Fin n → OMap Int (List Int)} (hw : ∀ p, (groups p).WF intLess) (q p : Fin n)
    (l : List Int) : (p, l) ∈ recvs groups q ↔ ((q : Int), l) ∈ (groups p).entries := by
  unfold recvs
  rw [List.mem_filterMap]
  constructor
  · rintro ⟨p', _, h⟩
    split_ifs at h with hc
    obtain ⟨v, hv⟩ := (omap_contains_spec intLess_sto (hw p') _).1 hc
    rw [omap_get_spec intLess_sto (hw p') _ _ hv] at h
    obtain ⟨rfl, rfl⟩ := Prod.mk.inj (Option.some.inj h)
    exact hv
  · intro h
    refine ⟨p, List.mem_finRange p, ?_⟩
    rw [if_pos ((omap_contains_spec intLess_sto (hw p) _).2 ⟨l, h⟩), omap_get_spec intLess_sto (hw p) _ _ h]
    rfl

theorem putRanks_spec (lo hi r : Int) : ∀ (Ls : List Int) (a : Int → Int), (∀ L ∈ Ls, lo ≤ L ∧ L < hi) →
    Ls.foldlM (putRank lo hi r) a = some fun j => if j ∈ Ls then r else a j
  | [], a, _ => by simp
  | L :: Ls, a, h => by
    rw [List.foldlM_cons]
    have h1 : putRank lo hi r a L = some fun j => if j = L then r else a j := by
      unfold putRank; rw [if_pos (h L (by simp))]
    rw [h1]
    show Ls.foldlM (putRank lo hi r) _ = _
    rw [putRanks_spec lo hi r Ls _ fun x hx => h x (List.mem_cons_of_mem _ hx)]
    congr 1
    funext j
    by_cases hj : j ∈ Ls
    · simp [hj]
    · by_cases hjl : j = L <;> simp [hj, hjl]

theorem fill_spec (lo hi : Int) : ∀ (rs : List (Fin n × List Int)) (a : Int → Int),
    (∀ x ∈ rs, ∀ L ∈ x.2, lo ≤ L ∧ L < hi) →
    ∃ a', rs.foldlM (fun a (x : Fin n × List Int) => x.2.foldlM (putRank lo hi x.1) a) a = some a' ∧
      (∀ L, (∀ x ∈ rs, L ∉ x.2) → a' L = a L) ∧
      (∀ (L : Int) (p : Fin n), (∀ x ∈ rs, L ∈ x.2 → x.1 = p) → ((∃ x ∈ rs, L ∈ x.2) ∨ a L = p) → a' L = p)
  | [], a, _ => ⟨a, rfl, fun _ _ => rfl, by simp⟩
  | x :: rs, a, h => by
    rw [List.foldlM_cons, putRanks_spec lo hi x.1 x.2 a (h x (by simp))]
    obtain ⟨a', h1, h2, h3⟩ := fill_spec lo hi rs (fun j => if j ∈ x.2 then ((x.1 : Nat) : Int) else a j)
      fun y hy => h y (List.mem_cons_of_mem _ hy)
    refine ⟨a', h1, ?_, ?_⟩
    · intro L hL
      rw [h2 L fun y hy => hL y (List.mem_cons_of_mem _ hy), if_neg (hL x (by simp))]
    · intro L p hp hor
      apply h3 L p fun y hy => hp y (List.mem_cons_of_mem _ hy)
      by_cases hx : L ∈ x.2
      · right; rw [if_pos hx, hp x (by simp) hx]
      · rw [if_neg hx]
        rcases hor with ⟨y, hy, hyL⟩ | h
        · rcases List.mem_cons.1 hy with rfl | hy
          · exact absurd hyL hx
          · exact .inl ⟨y, hy, hyL⟩
        · exact .inr h

/-- What an array slot ends up as. -/
def Slot.final (A : Int → Int) (s : Slot) : Int :=
  match s.ask with
  | none => s.rank
  | some L => A L

theorem unpackSlots_spec {size : Int} (hs : 0 < size) (A : Int → Int) (got : Int → Option (List Int))
    (all : List Int) (h0 : ∀ L ∈ all, 0 ≤ L)
    (hgot : ∀ L ∈ all, got (L / size) = some ((partOf size (L / size) all).map A)) :
    ∀ (ss : List Slot) (next : Int → Nat) (pre post : List Int),
      all = pre ++ (ss.filterMap Slot.ask ++ post) → (∀ k, next k = (partOf size k pre).length) →
      ∃ next', unpackSlots size got next ss = some (ss.map (Slot.final A), next') ∧
        ∀ k, next' k = (partOf size k (pre ++ ss.filterMap Slot.ask)).length
  | [], next, pre, post, _, hn => ⟨next, rfl, by simpa using hn⟩
  | s :: ss, next, pre, post, hall, hn => by
    unfold unpackSlots
    cases ha : s.ask with
    | none =>
      simp only [List.filterMap_cons, ha] at hall
      obtain ⟨next', h1, h2⟩ := unpackSlots_spec hs A got all h0 hgot ss next pre post hall hn
      refine ⟨next', ?_, ?_⟩
      · simp [h1, Slot.final, ha]
      · simpa [List.filterMap_cons, ha] using h2
    | some L =>
      simp only [List.filterMap_cons, ha] at hall
      have hmem : L ∈ all := by rw [hall]; simp
      dsimp only
      rw [part_pos hs (h0 L hmem)]
      dsimp only
      rw [hgot L hmem]
      dsimp only
      have hat : ((partOf size (L / size) all).map A)[next (L / size)]? = some (A L) := by
        rw [hall, partOf_append, List.map_append, List.getElem?_append_right (by simp [hn]), hn]
        simp [partOf]
      rw [hat]
      dsimp only
      obtain ⟨next', h1, h2⟩ := unpackSlots_spec hs A got all h0 hgot ss
        (fun j => if j = L / size then next j + 1 else next j) (pre ++ [L]) post (by rw [hall]; simp) (by
          intro k
          rw [partOf_append, List.length_append, ← hn]
          by_cases hk : k = L / size
          · subst hk; simp [partOf]
          · have : ¬ L / size = k := fun e => hk e.symm
            simp [partOf, hk, this])
      refine ⟨next', ?_, ?_⟩
      · simp [h1, Slot.final, ha]
      · simpa [List.filterMap_cons, ha] using h2

theorem unpackConns_spec {size : Int} (hs : 0 < size) (A : Int → Int) (got : Int → Option (List Int))
    (all : List Int) (h0 : ∀ L ∈ all, 0 ≤ L)
    (hgot : ∀ L ∈ all, got (L / size) = some ((partOf size (L / size) all).map A)) :
    ∀ (cs : List (List Slot)) (next : Int → Nat) (pre : List Int),
      all = pre ++ asks cs → (∀ k, next k = (partOf size k pre).length) →
      unpackConns size got next cs = some (cs.map fun c => c.map (Slot.final A))
  | [], next, pre, _, _ => rfl
  | c :: cs, next, pre, hall, hn => by
    unfold unpackConns
    have e : asks (c :: cs) = c.filterMap Slot.ask ++ asks cs := by simp [asks]
    rw [e] at hall
    obtain ⟨next', h1, h2⟩ := unpackSlots_spec hs A got all h0 hgot c next pre (asks cs) hall hn
    rw [h1]
    dsimp only
    rw [unpackConns_spec hs A got all h0 hgot cs next' (pre ++ c.filterMap Slot.ask) (by rw [hall]; simp) h2]
    rfl

theorem div_interval {size L k : Int} (hs : 0 < size) (h : L / size = k) : size * k ≤ L ∧ L < size * (k + 1) := by
  subst h
  have h1 := Int.emod_add_mul_ediv L size
  have h2 := Int.emod_nonneg L (ne_of_gt hs)
  have h3 := Int.emod_lt_of_pos L hs
  refine ⟨by omega, ?_⟩
  rw [Int.mul_add]; omega

section
variable {size total : Int} (hs : 0 < size) (ht : total ≤ size * n)

/-- One side: its questions by partition. -/
structure Side (size total : Int) (ask : Fin n → List Int) (groups : Fin n → OMap Int (List Int)) : Prop where
  range : ∀ p, ∀ L ∈ ask p, 0 ≤ L ∧ L < total
  made : ∀ p, group size ⟨[], []⟩ (ask p) = some (groups p)
  wf : ∀ p, (groups p).WF intLess
  mem : ∀ p k l, (k, l) ∈ (groups p).entries ↔ l ≠ [] ∧ l = partOf size k (ask p)

include hs

theorem side_exists (ask : Fin n → List Int) (h : ∀ p, ∀ L ∈ ask p, 0 ≤ L ∧ L < total) :
    ∃ groups, Side size total ask groups := by
  have := fun p => group_empty hs (ask p) fun L hL => (h p L hL).1
  choose g h1 h2 h3 using this
  exact ⟨g, h, h1, h2, h3⟩

variable {ask : Fin n → List Int} {groups : Fin n → OMap Int (List Int)} (hd : Side size total ask groups)
include hd

theorem table_spec : ∃ tab, allSome (table size total groups) = some tab ∧
    ∀ (q : Fin n) (L : Int), 0 ≤ L → L / size = (q : Nat) →
      ((∀ p, L ∉ ask p) → tab q L = -1) ∧
      (∀ p, L ∈ ask p → (∀ p', L ∈ ask p' → p' = p) → tab q L = (p : Nat)) := by
  have key : ∀ q : Fin n, ∃ a, table size total groups q = some a ∧
      ∀ L : Int, 0 ≤ L → L / size = (q : Nat) →
      ((∀ p, L ∉ ask p) → a L = -1) ∧
      (∀ p, L ∈ ask p → (∀ p', L ∈ ask p' → p' = p) → a L = (p : Nat)) := by
    intro q
    have hmem : ∀ x ∈ recvs groups q, ∀ L, L ∈ x.2 ↔ L ∈ ask x.1 ∧ L / size = (q : Nat) := by
      intro x hx L
      have := (hd.mem _ _ _).1 ((recvs_mem hd.wf q x.1 x.2).1 hx)
      rw [this.2, mem_partOf]
    obtain ⟨a, h1, h2, h3⟩ := fill_spec (n := n) (size * q) (min (size * (q + 1)) total) (recvs groups q)
      (fun _ => -1) (by
        intro x hx L hL
        obtain ⟨h4, h5⟩ := (hmem x hx L).1 hL
        have := div_interval hs h5
        have := (hd.range _ L h4).2
        omega)
    refine ⟨a, h1, fun L hL hq => ⟨?_, ?_⟩⟩
    · intro hno
      apply h2
      intro x hx hxL
      exact hno _ ((hmem x hx L).1 hxL).1
    · intro p hp hu
      apply h3
      · intro x hx hxL
        exact hu _ ((hmem x hx L).1 hxL).1
      · left
        refine ⟨(p, partOf size q (ask p)), ?_, mem_partOf.2 ⟨hp, hq⟩⟩
        rw [recvs_mem hd.wf, hd.mem]
        exact ⟨List.ne_nil_of_mem (mem_partOf.2 ⟨hp, hq⟩), rfl⟩
  choose a h1 h2 using key
  exact ⟨a, allSome_some _ _ h1, h2⟩

include ht

theorem part_lt {p : Fin n} {L : Int} (h : L ∈ ask p) : 0 ≤ L / size ∧ L / size < n := by
  have := hd.range p L h
  refine ⟨Int.ediv_nonneg this.1 (by omega), ?_⟩
  apply Int.ediv_lt_of_lt_mul hs
  rw [Int.mul_comm]; omega

theorem keys_ok (p : Fin n) : keysOk n (groups p) = true := by
  unfold keysOk
  rw [List.all_eq_true]
  intro k hk
  rw [(hd.wf p).1] at hk
  obtain ⟨⟨k', l⟩, hl, rfl⟩ := List.mem_map.1 hk
  obtain ⟨h1, h2⟩ := (hd.mem _ _ _).1 hl
  obtain ⟨L, hL⟩ := List.exists_mem_of_ne_nil l h1
  rw [h2, mem_partOf] at hL
  have := part_lt hs ht hd hL.1
  rw [hL.2] at this
  simpa using this

theorem resolve_spec (slots : Fin n → List (List Slot)) (hslots : ∀ p, ask p = asks (slots p))
    (tab : Fin n → Int → Int) :
    ∃ res, resolve size total slots groups tab = some res ∧ ∃ A : Int → Int,
      (∀ (q : Fin n) (L : Int), L / size = (q : Nat) → A L = tab q L) ∧
      ∀ p, res p = (slots p).map fun c => c.map (Slot.final A) := by
  let A : Int → Int := fun L => if h : 0 ≤ L / size ∧ (L / size).toNat < n then tab ⟨(L / size).toNat, h.2⟩ L else 0
  have hA : ∀ (q : Fin n) (L : Int), L / size = (q : Nat) → A L = tab q L := by
    intro q L h
    have hq : 0 ≤ L / size ∧ (L / size).toNat < n := by rw [h]; simp
    simp only [A, dif_pos hq]
    congr 1
    apply Fin.ext
    simp [h]
  let ans : Fin n → Fin n → Option (List Int) := fun q p =>
    if partOf size q (ask p) = [] then none else some ((partOf size q (ask p)).map (tab q))
  have h1 : (allSome fun q : Fin n => allSome fun p : Fin n => answer size total q (tab q) (groups p)) = some ans := by
    apply allSome_some
    intro q
    apply allSome_some
    intro p
    unfold answer
    by_cases he : partOf size q (ask p) = []
    · rw [omap_find_none intLess_sto (hd.wf p) _ (by
        intro v hv
        have := (hd.mem _ _ _).1 hv
        exact this.1 (this.2.trans he))]
      simp [ans, he]
    · rw [(omap_find_spec intLess_sto (hd.wf p) (q : Int) _).2 ((hd.mem _ _ _).2 ⟨he, rfl⟩)]
      have hrep : ∀ l : List Int, (∀ L ∈ l, L ∈ ask p ∧ L / size = (q : Nat)) →
          reply size total q (tab q) l = some (l.map (tab q)) := by
        intro l
        induction l with
        | nil => intro _; rfl
        | cons L l ih =>
          intro hl
          unfold reply at ih ⊢
          rw [List.mapM_cons, ih fun x hx => hl x (List.mem_cons_of_mem _ hx)]
          obtain ⟨h4, h5⟩ := hl L (by simp)
          have h6 := div_interval hs h5
          have := (hd.range _ L h4).2
          rw [if_pos (by omega)]
          rfl
      simp only
      rw [hrep _ fun L hL => mem_partOf.1 hL]
      simp [ans, he]
  unfold resolve
  rw [h1]
  refine ⟨fun p => (slots p).map fun c => c.map (Slot.final A), ?_, A, hA, fun _ => rfl⟩
  show allSome _ = _
  apply allSome_some
  intro p
  refine unpackConns_spec hs A _ (ask p) (fun L hL => (hd.range p L hL).1) ?_ (slots p) _ []
    (by rw [hslots]; rfl) (by simp [partOf])
  intro L hL
  have hq := part_lt hs ht hd hL
  have hq' : 0 ≤ L / size ∧ (L / size).toNat < n := by omega
  rw [dif_pos hq']
  have hcast : (((L / size).toNat : Nat) : Int) = L / size := by omega
  simp only [ans, hcast]
  rw [if_neg (List.ne_nil_of_mem (mem_partOf.2 ⟨hL, rfl⟩))]
  congr 1
  apply List.map_congr_left
  intro L' hL'
  exact (hA _ L' (by rw [(mem_partOf.1 hL').2]; simp [hcast])).symm

end

theorem size_pos_of_total {w : World d n} (hn : 0 < n) (ht : 0 < totalPoints w.grids) :
    0 < w.size ∧ totalPoints w.grids ≤ w.size * n := by
  unfold World.size binDivide
  rw [Int.tdiv_eq_ediv_of_nonneg (by omega)]
  generalize totalPoints w.grids = t at ht ⊢
  have hn' : (0 : Int) < n := by omega
  have h1 := Int.emod_add_mul_ediv (t + n - 1) n
  have h2 := Int.emod_nonneg (t + n - 1) (ne_of_gt hn')
  have h3 := Int.emod_lt_of_pos (t + n - 1) hn'
  refine ⟨?_, ?_⟩
  · apply Int.lt_of_not_ge
    intro h
    have : (n : Int) * ((t + n - 1) / n) ≤ 0 := Int.mul_nonpos_of_nonneg_of_nonpos (by omega) h
    omega
  · rw [Int.mul_comm]; omega

end Ovk.Xch
