/-
Lemmas about the model of collect operations.
-/
import Verif.Model.Collect
import Verif.Lemmas.PointOrder
import Verif.Props.Halo
import Verif.Lemmas.ComponentsGlobal

namespace Ovk
variable {d n : Nat} {V W : Type}

theorem Rng.index_tuple (l : Indexer.Layout) (r : Rng d) (h : ∀ i, r.b i < r.e i) (k : Int)
    (h0 : 0 ≤ k) (h1 : k < r.count) : Spec.pts r (r.tuple l k) ∧ r.index l (r.tuple l k) = k := by
  have hc : Indexer.Spec.count r.ext = r.count := by
    have hi := (r.inside_ext r.b).2 fun i => ⟨le_refl _, h i⟩
    rw [r.count_eq_prod h, ← prodExt_ofFn, ← Indexer.count_eq (Indexer.allPos_of_inside hi)]
  have := Indexer.C01_index_roundtrip l r.ext k h0 (by rw [hc]; exact h1)
  have hin := (Indexer.inExtents_iff _ _).1 this.1
  have hlen : (Indexer.toTuple l r.ext k).length = d := by
    have := (inside_iff_getElem _ _).1 hin
    have h2 := this.1
    simpa [Rng.ext] using h2.symm
  have e : List.ofFn (r.tuple l k) = Indexer.toTuple l r.ext k := by
    apply List.ext_getElem (by simp [hlen])
    intro i h1 h2
    simp [Rng.tuple, h2]
  refine ⟨(r.inside_ext _).1 (by rw [e]; exact hin), ?_⟩
  unfold Rng.index
  rw [e]; exact this.2

theorem Rng.length_points (r : Rng d) : (r.points.length : Int) = r.count := by
  by_cases h : ∀ i, r.b i < r.e i
  · have := congrArg List.length (r.points_colIndex h)
    rw [List.length_map, List.length_map, List.length_range] at this
    rw [this]
    have := r.count_pos h
    omega
  · push Not at h
    obtain ⟨i, hi⟩ := h
    have e : r.points = [] := by
      rw [List.eq_nil_iff_forall_not_mem]
      intro p hp
      have := (Rng.mem_points r p).1 hp i
      omega
    rw [e]
    unfold Rng.count
    rw [Finset.prod_eq_zero (Finset.mem_univ i)]
    · rfl
    · unfold Rng.size; omega

namespace Coll

theorem mem_part (c : Cart d) (r cell : Rng d) (p : Tup d) :
    p ∈ part c r cell ↔ Spec.pts cell p ∧ Spec.pts r (vertex c cell p) := by
  unfold part vertex
  split_ifs with h
  · rw [Rng.mem_points]
    exact (C02_intersect r cell p).trans and_comm
  · rw [List.mem_filter, Rng.mem_points, contains_iff_pts]; rfl

theorem part_nodup (c : Cart d) (r cell : Rng d) : (part c r cell).Nodup := by
  unfold part
  split_ifs
  · exact Rng.points_nodup _
  · exact (Rng.points_nodup _).filter _

theorem overlaps_iff (c : Cart d) (r cell : Rng d) :
    overlaps c r cell = true ↔ ∃ p, Spec.pts cell p ∧ Spec.pts r (vertex c cell p) := by
  unfold overlaps vertex
  split_ifs with h
  · rw [C02_overlap]
    exact exists_congr fun p => and_comm
  · rw [List.any_eq_true]
    exact exists_congr fun p => by rw [Rng.mem_points, contains_iff_pts]; rfl

theorem foldl_extend (f : Tup d → Tup d) : ∀ (ps : List (Tup d)) (R : Rng d),
    let R' := ps.foldl (fun R p => extendRange R (f p)) R
    (∀ p, Spec.pts R p → Spec.pts R' p) ∧ (∀ p ∈ ps, Spec.pts R' (f p)) ∧
      ((∃ q, Spec.pts R' q) → (∃ q, Spec.pts R q) ∨ ∃ p, p ∈ ps)
  | [], R => ⟨fun _ h => h, fun p hp => by simp at hp, fun h => Or.inl h⟩
  | x :: ps, R => by
    have e := C02_extend R (f x)
    obtain ⟨h1, h2, h3⟩ := foldl_extend f ps (extendRange R (f x))
    refine ⟨fun p hp => h1 p (e.2.1 p hp), ?_, fun h => Or.inr ⟨x, by simp⟩⟩
    intro p hp
    rcases List.mem_cons.1 hp with rfl | hp
    · exact h1 _ e.1
    · exact h2 p hp

theorem grow_spec (c : Cart d) (r R cell : Rng d) :
    (∀ p, Spec.pts R p → Spec.pts (grow c r R cell) p) ∧
    (∀ p ∈ part c r cell, Spec.pts (grow c r R cell) (vertex c cell p)) ∧
    ((∃ q, Spec.pts (grow c r R cell) q) → (∃ q, Spec.pts R q) ∨ ∃ p, p ∈ part c r cell) := by
  by_cases h : c.range.includes cell = true
  · have e1 : grow c r R cell = unionRanges R (intersectRanges r cell) := by unfold grow; rw [if_pos h]
    have e2 : part c r cell = (intersectRanges r cell).points := by unfold part; rw [if_pos h]
    have e3 : ∀ p, vertex c cell p = p := fun p => by unfold vertex; rw [if_pos h]
    rw [e1]
    refine ⟨fun p hp => C02_union_upper _ _ p (Or.inl hp), ?_, ?_⟩
    · intro p hp
      rw [e3]
      rw [e2, Rng.mem_points] at hp
      exact C02_union_upper _ _ p (Or.inr hp)
    · intro hq
      by_contra hcon
      push Not at hcon
      obtain ⟨h1, h2⟩ := hcon
      obtain ⟨q, hq⟩ := hq
      unfold unionRanges at hq
      split_ifs at hq with h3 h4
      · exact h2 q (by rw [e2]; exact (Rng.mem_points _ q).2 hq)
      · exact h1 q hq
      · exact h3 ((C02_empty R).2 fun ⟨q, hq⟩ => h1 q hq)
  · have e1 : grow c r R cell =
        (part c r cell).foldl (fun R p => extendRange R (vertex c cell p)) R := by
      unfold grow vertex; rw [if_neg h]; simp only [h]; rfl
    rw [e1]
    exact foldl_extend (vertex c cell) (part c r cell) R

/-- Both bounding ranges: only the cells passing a test are taken into account. -/
theorem gather_spec (c : Cart d) (r : Rng d) (t : Rng d → Bool) : ∀ (cells : List (Rng d)) (R : Rng d),
    let R' := cells.foldl (fun R cell => if t cell then grow c r R cell else R) R
    (∀ p, Spec.pts R p → Spec.pts R' p) ∧
    (∀ cell ∈ cells, t cell = true → ∀ p ∈ part c r cell, Spec.pts R' (vertex c cell p)) ∧
    ((∃ q, Spec.pts R' q) → (∃ q, Spec.pts R q) ∨
      ∃ cell ∈ cells, t cell = true ∧ ∃ p, p ∈ part c r cell)
  | [], R => ⟨fun _ h => h, fun p hp => by simp at hp, fun h => Or.inl h⟩
  | x :: cells, R => by
    have g := grow_spec c r R x
    by_cases hx : t x = true
    · have ih := gather_spec c r t cells (grow c r R x)
      simp only [List.foldl_cons, hx, if_true]
      refine ⟨fun p hp => ih.1 p (g.1 p hp), ?_, ?_⟩
      · intro cell hcell ht p hp
        rcases List.mem_cons.1 hcell with rfl | hcell
        · exact ih.1 _ (g.2.1 p hp)
        · exact ih.2.1 cell hcell ht p hp
      · intro h
        rcases ih.2.2 h with h | ⟨cell, h1, h2, h3⟩
        · rcases g.2.2 h with h | h
          · exact Or.inl h
          · exact Or.inr ⟨x, by simp, hx, h⟩
        · exact Or.inr ⟨cell, by simp [h1], h2, h3⟩
    · have ih := gather_spec c r t cells R
      simp only [List.foldl_cons, hx]
      refine ⟨ih.1, ?_, ?_⟩
      · intro cell hcell ht p hp
        rcases List.mem_cons.1 hcell with rfl | hcell
        · exact absurd ht hx
        · exact ih.2.1 cell hcell ht p hp
      · intro h
        rcases ih.2.2 h with h | ⟨cell, h1, h2⟩
        · exact Or.inl h
        · exact Or.inr ⟨cell, by simp [h1], h2⟩

theorem mem_sendMarks (c : Cart d) (loc nloc : Rng d) (cells : List (Rng d)) (q : Tup d) :
    q ∈ sendMarks c loc nloc cells ↔ ∃ cell ∈ cells, overlaps c nloc cell = true ∧
      ∃ p ∈ part c loc cell, vertex c cell p = q := by
  unfold sendMarks
  rw [List.mem_flatMap]
  refine exists_congr fun cell => and_congr_right fun _ => ?_
  by_cases h : overlaps c nloc cell = true
  · simp [h]
  · simp [h]

theorem mem_recvMarks (c : Cart d) (nloc : Rng d) (cells : List (Rng d)) (q : Tup d) :
    q ∈ recvMarks c nloc cells ↔ ∃ cell ∈ cells, ∃ p ∈ part c nloc cell, vertex c cell p = q := by
  unfold recvMarks
  rw [List.mem_flatMap]
  simp

theorem empty_range_no_pts [NeZero d] (q : Tup d) : ¬ Spec.pts (makeEmptyRange d) q := by
  intro h
  have := h ⟨0, Nat.pos_of_ne_zero (NeZero.ne d)⟩
  simp only [makeEmptyRange] at this
  omega

theorem sendRange_spec [NeZero d] (c : Cart d) (loc nloc : Rng d) (cells : List (Rng d)) :
    (∀ q ∈ sendMarks c loc nloc cells, Spec.pts (sendRange c loc nloc cells) q) ∧
    ((∃ q, Spec.pts (sendRange c loc nloc cells) q) ↔ ∃ q, q ∈ sendMarks c loc nloc cells) := by
  have g := gather_spec c loc (fun cell => overlaps c nloc cell) cells (makeEmptyRange d)
  have h1 : ∀ q ∈ sendMarks c loc nloc cells, Spec.pts (sendRange c loc nloc cells) q := by
    intro q hq
    obtain ⟨cell, hc, ho, p, hp, rfl⟩ := (mem_sendMarks ..).1 hq
    exact g.2.1 cell hc ho p hp
  refine ⟨h1, ?_, fun ⟨q, hq⟩ => ⟨q, h1 q hq⟩⟩
  intro h
  rcases g.2.2 h with ⟨q, hq⟩ | ⟨cell, hc, ho, p, hp⟩
  · exact absurd hq (empty_range_no_pts q)
  · exact ⟨_, (mem_sendMarks ..).2 ⟨cell, hc, ho, p, hp, rfl⟩⟩

theorem recvRange_spec [NeZero d] (c : Cart d) (nloc : Rng d) (cells : List (Rng d)) :
    (∀ q ∈ recvMarks c nloc cells, Spec.pts (recvRange c nloc cells) q) ∧
    ((∃ q, Spec.pts (recvRange c nloc cells) q) ↔ ∃ q, q ∈ recvMarks c nloc cells) := by
  have g := gather_spec c nloc (fun _ => true) cells (makeEmptyRange d)
  simp only [if_true] at g
  have h1 : ∀ q ∈ recvMarks c nloc cells, Spec.pts (recvRange c nloc cells) q := by
    intro q hq
    obtain ⟨cell, hc, p, hp, rfl⟩ := (mem_recvMarks ..).1 hq
    exact g.2.1 cell hc trivial p hp
  refine ⟨h1, ?_, fun ⟨q, hq⟩ => ⟨q, h1 q hq⟩⟩
  intro h
  rcases g.2.2 h with ⟨q, hq⟩ | ⟨cell, hc, _, p, hp⟩
  · exact absurd hq (empty_range_no_pts q)
  · exact ⟨_, (mem_recvMarks ..).2 ⟨cell, hc, p, hp, rfl⟩⟩

theorem setMask_spec (r : Rng d) : ∀ (ps : List (Tup d)) (m : Nat → Bool), (∀ p ∈ ps, Spec.pts r p) →
    ∃ m', setMask r ps m = some m' ∧ ∀ p, Spec.pts r p →
      (m' (r.colIndex p).toNat = true ↔ p ∈ ps ∨ m (r.colIndex p).toNat = true)
  | [], m, _ => ⟨m, rfl, fun p _ => by simp⟩
  | q :: ps, m, h => by
    have hq := h q (by simp)
    have hb := Rng.index_bounds .col r q hq
    obtain ⟨m', h1, h2⟩ := setMask_spec r ps (fun j => if j = (r.colIndex q).toNat then true else m j)
      fun p hp => h p (by simp [hp])
    refine ⟨m', ?_, ?_⟩
    · unfold setMask; dsimp only; rw [if_pos hb]; exact h1
    · intro p hp
      rw [h2 p hp]
      have hpb := Rng.index_bounds .col r p hp
      by_cases hpq : p = q
      · subst hpq; simp
      · have : ¬ (r.colIndex p).toNat = (r.colIndex q).toNat := by
          intro e
          apply hpq
          apply Rng.index_inj .col r p q hp hq
          have h3 : 0 ≤ r.colIndex p := hpb.1
          have h4 : 0 ≤ r.colIndex q := hb.1
          show r.colIndex p = r.colIndex q
          omega
        simp [this, hpq]

theorem marked_points (r : Rng d) (h : ∀ i, r.b i < r.e i) (m : Nat → Bool) :
    ((marked r m).map fun (k : Nat) => r.tuple .col (k : Int)) =
      r.points.filter fun p => m (r.colIndex p).toNat := by
  unfold marked
  rw [← Rng.tuples_eq_points r h, List.filter_map]
  congr 1
  apply List.filter_congr
  intro k hk
  rw [List.mem_range] at hk
  have := (Rng.index_tuple .col r h (k : Int) (by omega) (by omega)).2
  simp only [Function.comp]
  rw [Rng.colIndex, this]; simp

/-- Position of an index among the marked ones. -/
theorem filter_range_get (m : Nat → Bool) (N i : Nat) (hi : i < N) (hm : m i = true) :
    ((List.range N).filter fun (k : Nat) => m k)[((List.range i).filter fun (k : Nat) => m k).length]? = some i := by
  have e : List.range N = List.range i ++ (List.range (N - i)).map (i + ·) := by
    rw [← List.range_add]; congr 1; omega
  have e2 : List.range (N - i) = 0 :: (List.range (N - i - 1)).map Nat.succ := by
    rw [← List.range_succ_eq_map]; congr 1; omega
  rw [e, List.filter_append, List.getElem?_append_right (le_refl _), Nat.sub_self, e2]
  simp [hm]

theorem unpack_val (j : Int) (v : V) : ∀ (xs : List (Int × V)) (m : Int → V),
    (∀ x ∈ xs, x.1 = j → x.2 = v) → ((∃ x ∈ xs, x.1 = j) ∨ m j = v) → Halo.unpack m xs j = v
  | [], m, _, h => by
    rcases h with ⟨x, hx, _⟩ | h
    · simp at hx
    · exact h
  | x :: xs, m, h, h' => by
    show Halo.unpack (Halo.write m x.1 x.2) xs j = v
    apply unpack_val j v xs _ fun y hy => h y (by simp [hy])
    by_cases hx : x.1 = j
    · right; unfold Halo.write; rw [if_pos hx.symm]; exact h x (by simp) hx
    · rcases h' with ⟨y, hy, hyj⟩ | h'
      · rcases List.mem_cons.1 hy with rfl | hy
        · exact absurd hyj hx
        · exact Or.inl ⟨y, hy, hyj⟩
      · right; unfold Halo.write; rw [if_neg (fun e => hx e.symm)]; exact h'

theorem foldl_unpack {A : Type} (g : A → List (Int × V)) : ∀ (L : List A) (m : Int → V),
    L.foldl (fun t x => Halo.unpack t (g x)) m = Halo.unpack m (L.flatMap g)
  | [], m => rfl
  | x :: L, m => by
    rw [List.foldl_cons, foldl_unpack g L, List.flatMap_cons]
    unfold Halo.unpack
    rw [List.foldl_append]

theorem slotted_eq (c : Cart d) (nloc cell : Rng d) (h : ∀ i, cell.b i < cell.e i) :
    slotted c nloc cell = (part c nloc cell).map fun p => (cell.colIndex p, p) := by
  unfold slotted part
  split_ifs with hi
  · rfl
  · have e : cell.points.zipIdx.map (fun x => ((x.2 : Int), x.1)) =
        cell.points.map fun p => (cell.colIndex p, p) := by
      apply List.ext_getElem (by simp)
      intro k h1 h2
      have hk : k < cell.points.length := by simpa using h2
      have := congrArg (fun l => l[k]?) (cell.points_colIndex h)
      simp only [List.getElem?_map] at this
      rw [List.getElem?_eq_getElem hk] at this
      have hl := Rng.length_points cell
      rw [List.getElem?_range (by omega)] at this
      simp only [Option.map_some, Option.some.injEq] at this
      simp [this]
    have e2 : (cell.points.zipIdx.filter fun x => nloc.contains (c.periodicAdjust x.1)).map
        (fun x => ((x.2 : Int), x.1)) =
        (cell.points.zipIdx.map fun x => ((x.2 : Int), x.1)).filter fun y =>
          nloc.contains (c.periodicAdjust y.2) := by
      rw [List.filter_map]; rfl
    rw [e2, e, List.filter_map]; rfl

end Coll
end Ovk
