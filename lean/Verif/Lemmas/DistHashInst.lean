/- The two region types of the library satisfy the laws of `Lemmas/DistHashLaw.lean`. -/
import Verif.Lemmas.DistHashLaw
import Mathlib.Algebra.BigOperators.Fin
import Mathlib.Tactic.Ring
import Mathlib.Data.Fin.Tuple.Basic

namespace Ovk.DHash
variable {d : Nat}

theorem extend2_bd (u v q : Tup d) (huv : ∀ i, u i ≤ v i)
    (h : Spec.pts (extendRange (extendRange (makeEmptyRange d) u) v) q) (i : Fin d) :
    u i ≤ q i ∧ q i ≤ v i := by
  have := RegionHash.extend2_sub ⟨u, fun i => v i + 1⟩ u v
    (fun i => by have := huv i; simp only; omega) (fun i => by have := huv i; simp only; omega) q h i
  simp only at this; omega

/-! ### Ranges -/

theorem int_cells (o s p : Tup d) (hs : ∀ i, 0 < s i) :
    cells intOps o s p = some fun i => (p i - o i) / s i := by
  apply allDims_eq
  intro i
  have e : cellOf (o i) (s i) (p i) = (p i - o i) / s i := tdiv_floor _ _ (hs i)
  rw [← e]
  show cellOf? _ _ _ = _
  simp [cellOf?, cellOf, Int.ne_of_gt (hs i)]

theorem range_lawful : Lawful (d := d) intOps rangeOps Spec.pts (fun r => ∀ i, r.b i < r.e i)
    (fun x e => x < e) where
  hi_mono x e e' h h' := lt_of_lt_of_le h h'
  hi_lt x e h := h
  not_empty b e x h h' := by simp [intOps]; omega
  ext_has r p h i := h i
  size_pos b e n h hn := by
    have hmax : max (e - b) 0 = e - b := by omega
    refine ⟨(e - b + n - 1) / n, ?_, ?_, ?_⟩
    · show (if n = 0 then none else some ((max (e - b) 0 + n - 1).tdiv n)) = _
      rw [if_neg (by omega), hmax, Int.tdiv_eq_ediv_of_nonneg (by omega)]
    · exact (Int.le_ediv_iff_mul_le (a := 1) (by omega)).2 (by omega)
    · have h1 := Int.emod_add_mul_ediv (e - b + n - 1) n
      have h2 := Int.emod_lt_of_pos (e - b + n - 1) (by omega : 0 < n)
      simp only [Int.cast_id]; omega
  cell_def o s x hs := by
    obtain ⟨c, hc, hk⟩ := C06_cell o s x hs
    have := (hk c).2 rfl
    exact ⟨c, hc, by simp only [Int.cast_id]; rw [mul_comm c s, mul_comm (c + 1) s]; exact this⟩
  bins_def nb lower size r hg hnb hs := by
    refine ⟨_, by simp only [rangeOps, int_cells _ _ _ hs, Option.bind_eq_bind, Option.bind_some,
      Option.pure_def]; rfl, Rng.nodup_points _, ?_⟩
    intro q hq
    exact RegionHash.extend2_sub _ _ _ (clamp_pts _ (RegionHash.binRange_pos hnb) _)
      (clamp_pts _ (RegionHash.binRange_pos hnb) _) q ((Rng.mem_points _ _).1 hq)
  bins_has nb lower size r p c bins hnb hs hp hin hc hb := by
    rw [int_cells _ _ _ hs] at hc
    obtain rfl := Option.some.inj hc
    simp only [rangeOps, int_cells _ _ _ hs, Option.bind_eq_bind, Option.bind_some,
      Option.pure_def, Option.some.injEq] at hb
    subst hb
    rw [Rng.mem_points]
    apply RegionHash.extend2_pts
    intro i
    constructor <;> apply clamp_mono _ (RegionHash.binRange_pos hnb)
    · exact Int.ediv_le_ediv (hs i) (by have := hp i; omega)
    · exact Int.ediv_le_ediv (hs i) (by have := hp i; omega)
  bins_proc x nb size r bins hg hnb hx hsz hall hb q hq i := by
    have hs : ∀ i, 0 < size i := by
      intro i
      unfold binSizeOf allDims at hsz
      split_ifs at hsz with hd
      rw [← Option.some.inj hsz]
      have h1 := hnb i; have h2 := hx i
      simp only [intOps, Option.get_ite']
      have hmax : max (x.e i - x.b i) 0 = x.e i - x.b i := by omega
      rw [hmax, Int.tdiv_eq_ediv_of_nonneg (by omega)]
      exact (Int.le_ediv_iff_mul_le (a := 1) (by omega)).2 (by omega)
    have hin := hall (fun i => r.e i - 1) (fun i => by have := hg i; simp only; omega)
    simp only [rangeOps, int_cells _ _ _ hs, Option.bind_eq_bind, Option.bind_some,
      Option.pure_def, Option.some.injEq] at hb
    subst hb
    rw [Rng.mem_points] at hq
    have hb2 := (extend2_bd _ _ q (fun j => clamp_mono _ (RegionHash.binRange_pos hnb) _ _ j
      (Int.ediv_le_ediv (hs j) (by have := hg j; omega))) hq i).2
    have h0 : 0 ≤ (r.e i - 1 - x.b i) / size i :=
      Int.ediv_nonneg (by have := (hin i).1; omega) (hs i).le
    have hcl : clampToRange (binRangeOf nb) (fun i => (r.e i - 1 - x.b i) / size i) i ≤
        (r.e i - 1 - x.b i) / size i := by
      have := hnb i
      unfold clampToRange binRangeOf
      simp only
      split_ifs <;> omega
    have hle : q i * size i ≤ (r.e i - 1 - x.b i) / size i * size i :=
      mul_le_mul_of_nonneg_right (hb2.trans hcl) (hs i).le
    have := Int.ediv_mul_le (r.e i - 1 - x.b i) (Int.ne_of_gt (hs i))
    have := (hin i).2
    simp only [Int.cast_id]
    omega

/-! ### Oriented boxes -/

/-- Every linear functional is bounded on a box from both sides by its values at corners. -/
theorem corner_bounds : ∀ {d : Nat} (x : Box d) (v : Pt d) (_ : Spec.boxHas x v) (a : Pt d),
    (∃ c ∈ boxCorners x, ∑ j, a j * c j ≤ ∑ j, a j * v j) ∧
    (∃ c ∈ boxCorners x, ∑ j, a j * v j ≤ ∑ j, a j * c j)
  | 0, x, v, h, a => by
    refine ⟨⟨fun i => i.elim0, by simp [boxCorners], by simp⟩, ⟨fun i => i.elim0, by simp [boxCorners], by simp⟩⟩
  | d + 1, x, v, h, a => by
    obtain ⟨⟨c1, h1, l1⟩, ⟨c2, h2, l2⟩⟩ := corner_bounds
      (⟨fun i => x.b i.castSucc, fun i => x.e i.castSucc⟩ : Box d) (fun i => v i.castSucc)
      (fun i => h i.castSucc) (fun i => a i.castSucc)
    have hl := h (Fin.last d)
    have mem : ∀ c : Pt d, c ∈ boxCorners (⟨fun i => x.b i.castSucc, fun i => x.e i.castSucc⟩ : Box d) →
        ∀ t, t = x.b (Fin.last d) ∨ t = x.e (Fin.last d) →
        (Fin.snoc (α := fun _ => Rat) c t : Pt (d + 1)) ∈ boxCorners x := by
      intro c hc t ht
      rw [boxCorners, List.mem_flatMap]
      refine ⟨c, hc, ?_⟩
      rcases ht with rfl | rfl <;> simp
    have sumeq : ∀ (c : Pt d) (t : Rat), ∑ j, a j * (Fin.snoc (α := fun _ => Rat) c t : Pt (d + 1)) j =
        ∑ j : Fin d, a j.castSucc * c j + a (Fin.last d) * t := by
      intro c t
      rw [Fin.sum_univ_castSucc]; simp
    have sv : ∑ j, a j * v j = ∑ j : Fin d, a j.castSucc * v j.castSucc + a (Fin.last d) * v (Fin.last d) :=
      Fin.sum_univ_castSucc _
    rcases le_total 0 (a (Fin.last d)) with ha | ha
    · refine ⟨⟨_, mem c1 h1 _ (.inl rfl), ?_⟩, ⟨_, mem c2 h2 _ (.inr rfl), ?_⟩⟩
      · rw [sumeq, sv]; exact add_le_add l1 (mul_le_mul_of_nonneg_left hl.1 ha)
      · rw [sumeq, sv]; exact add_le_add l2 (mul_le_mul_of_nonneg_left hl.2 ha)
    · refine ⟨⟨_, mem c1 h1 _ (.inr rfl), ?_⟩, ⟨_, mem c2 h2 _ (.inl rfl), ?_⟩⟩
      · rw [sumeq, sv]; exact add_le_add l1 (mul_le_mul_of_nonpos_left hl.2 ha)
      · rw [sumeq, sv]; exact add_le_add l2 (mul_le_mul_of_nonpos_left hl.1 ha)

/-- The points covered by a fragment. -/
def Fragment.has (f : Fragment d) (p : Pt d) : Prop := ∃ v, Spec.boxHas f.box v ∧ p = f.orientInv v

theorem frag_corner_bounds (f : Fragment d) (p : Pt d) (h : f.has p) (a : Pt d) :
    (∃ c ∈ f.corners, ∑ i, c i * a i ≤ ∑ i, p i * a i) ∧
    (∃ c ∈ f.corners, ∑ i, p i * a i ≤ ∑ i, c i * a i) := by
  obtain ⟨v, hv, rfl⟩ := h
  have key : ∀ w : Pt d, ∑ i, f.orientInv w i * a i = ∑ j, (∑ i, f.orient i j * a i) * w j := by
    intro w
    simp only [Fragment.orientInv, Finset.sum_mul]
    rw [Finset.sum_comm]
    refine Finset.sum_congr rfl fun j _ => Finset.sum_congr rfl fun i _ => by ring
  obtain ⟨⟨c1, h1, l1⟩, ⟨c2, h2, l2⟩⟩ := corner_bounds f.box v hv (fun j => ∑ i, f.orient i j * a i)
  exact ⟨⟨f.orientInv c1, List.mem_map.2 ⟨c1, h1, rfl⟩, by rw [key, key]; exact l1⟩,
    ⟨f.orientInv c2, List.mem_map.2 ⟨c2, h2, rfl⟩, by rw [key, key]; exact l2⟩⟩

theorem extendBox_self (x : Box d) (p : Pt d) : Spec.boxHas (extendBox x p) p := by
  unfold extendBox
  split_ifs <;> intro i <;> simp

theorem extendBox_old (x : Box d) (p q : Pt d) (h : Spec.boxHas x q) : Spec.boxHas (extendBox x p) q := by
  unfold extendBox
  rw [x.not_empty_of q h, if_pos (by simp)]
  intro i
  exact ⟨(min_le_left _ _).trans (h i).1, (h i).2.trans (le_max_left _ _)⟩

theorem foldl_extend (q : Pt d) : ∀ (cs : List (Pt d)) (x : Box d), (Spec.boxHas x q ∨ q ∈ cs) →
    Spec.boxHas (cs.foldl extendBox x) q
  | [], x, h => by simpa using h
  | c :: cs, x, h => by
    rw [List.foldl_cons]
    apply foldl_extend q cs
    rcases h with h | h
    · exact .inl (extendBox_old _ _ _ h)
    · rcases List.mem_cons.1 h with rfl | h
      · exact .inl (extendBox_self _ _)
      · exact .inr h

theorem frag_extents (f : Fragment d) (p : Pt d) (h : f.has p) : Spec.boxHas f.extents p := by
  intro i
  obtain ⟨⟨c1, h1, l1⟩, ⟨c2, h2, l2⟩⟩ := frag_corner_bounds f p h (fun j => if j = i then 1 else 0)
  simp only [mul_ite, mul_one, mul_zero, Finset.sum_ite_eq', Finset.mem_univ, if_true] at l1 l2
  exact ⟨(foldl_extend c1 f.corners _ (.inr h1) i).1.trans l1,
    l2.trans (foldl_extend c2 f.corners _ (.inr h2) i).2⟩

theorem interval_spec (axis : Pt d) : ∀ (cs : List (Pt d)) (acc : Rat × Rat),
    let r := cs.foldl (fun (acc : Rat × Rat) c =>
      (min acc.1 (∑ i, c i * axis i), max acc.2 (∑ i, c i * axis i))) acc
    r.1 ≤ acc.1 ∧ acc.2 ≤ r.2 ∧ ∀ c ∈ cs, r.1 ≤ ∑ i, c i * axis i ∧ ∑ i, c i * axis i ≤ r.2
  | [], acc => by simp
  | c :: cs, acc => by
    obtain ⟨h1, h2, h3⟩ := interval_spec axis cs
      (min acc.1 (∑ i, c i * axis i), max acc.2 (∑ i, c i * axis i))
    simp only [List.foldl_cons]
    refine ⟨h1.trans (min_le_left _ _), (le_max_left _ _).trans h2, ?_⟩
    intro x hx
    rcases List.mem_cons.1 hx with rfl | hx
    · exact ⟨h1.trans (min_le_right _ _), (le_max_right _ _).trans h2⟩
    · exact h3 x hx

theorem overlaps_of (tiny big : Rat) (f : Fragment d) (b : Box d) (p : Pt d) (hf : f.has p)
    (hb : Spec.boxHas b p) (axis : Pt d) :
    overlapsAlong tiny big f.corners (boxCorners b) axis = true := by
  obtain ⟨⟨c1, h1, l1⟩, ⟨c2, h2, l2⟩⟩ := frag_corner_bounds f p hf axis
  obtain ⟨⟨e1, k1, m1⟩, ⟨e2, k2, m2⟩⟩ := corner_bounds b p hb axis
  have s1 := (interval_spec axis f.corners (big, tiny)).2.2
  have s2 := (interval_spec axis (boxCorners b) (big, tiny)).2.2
  have comm : ∀ c : Pt d, ∑ j, axis j * c j = ∑ j, c j * axis j := fun c =>
    Finset.sum_congr rfl fun j _ => mul_comm _ _
  rw [comm, comm] at m1 m2
  unfold overlapsAlong intervalAlong
  simp only [ge_iff_le, Bool.and_eq_true, decide_eq_true_eq]
  exact ⟨((s1 c1 h1).1.trans l1).trans (m2.trans (s2 e2 k2).2),
    ((s2 e1 k1).1.trans m1).trans (l2.trans (s1 c2 h2).2)⟩

theorem rat_cells (o s p : Pt d) (hs : ∀ i, 0 < s i) :
    cells ratOps o s p = some fun i => ⌊(p i - o i) / s i⌋ := by
  apply allDims_eq
  intro i
  simp [ratOps, cellOfQ?, (hs i).ne']

theorem rat_size (b e : Rat) (n : Int) (h : b < e) (hn : 1 ≤ n) :
    ratOps.binSize1 (max (e - b) 0) n = some ((e - b) / n) ∧ 0 < (e - b) / n ∧
      b + (n : Rat) * ((e - b) / n) = e := by
  have hn' : (0 : Rat) < (n : Rat) := by exact_mod_cast (by omega : (0 : Int) < n)
  have hb : 0 < e - b := by linarith
  refine ⟨?_, div_pos hb hn', ?_⟩
  · simp only [ratOps]
    rw [if_neg (by omega), max_eq_left hb.le]
  · field_simp; ring

theorem cell_bounds (o s x : Rat) (hs : 0 < s) :
    o + (⌊(x - o) / s⌋ : Rat) * s ≤ x ∧ x < o + ((⌊(x - o) / s⌋ + 1 : Int) : Rat) * s := by
  have h1 := Int.floor_le ((x - o) / s)
  have h2 := Int.lt_floor_add_one ((x - o) / s)
  rw [le_div_iff₀ hs] at h1
  rw [div_lt_iff₀ hs] at h2
  push_cast
  constructor <;> linarith

theorem idRounding : Spec.Rounding (id : Rat → Rat) := ⟨fun _ _ h => h, rfl⟩

theorem fragment_lawful (tiny big : Rat) (axes : Fragment d → List (Pt d)) :
    Lawful ratOps (fragmentOps tiny big axes) Fragment.has (fun _ => True) (fun x e => x ≤ e) where
  hi_mono x e e' h h' := le_trans h h'
  hi_lt x e h := h.le
  not_empty b e x h h' := by simp only [ratOps, decide_eq_false_iff_not, not_lt]; exact h.trans h'
  ext_has f p h i := frag_extents f p h i
  size_pos b e n h hn := by
    obtain ⟨h1, h2, h3⟩ := rat_size b e n h hn
    exact ⟨_, h1, h2, h3.ge⟩
  cell_def o s x hs := ⟨⌊(x - o) / s⌋, by simp [ratOps, cellOfQ?, hs.ne'], cell_bounds o s x hs⟩
  bins_def nb lower size r _ hnb hs := by
    refine ⟨_, by simp only [fragmentOps, RegionHash.mapToBins_eq _ _ _ _ (fun i => (hs i).ne'),
      Option.bind_eq_bind, Option.bind_some, Option.pure_def]; rfl,
      (Rng.nodup_points _).filter _, ?_⟩
    intro q hq
    exact RegionHash.binsBox_sub hnb lower size _ q ((Rng.mem_points _ _).1 (List.mem_filter.1 hq).1)
  bins_has nb lower size f p c bins hnb hs hp hin hc hb := by
    rw [rat_cells _ _ _ hs] at hc
    obtain rfl := Option.some.inj hc
    simp only [fragmentOps, RegionHash.mapToBins_eq _ _ _ _ (fun i => (hs i).ne'),
      Option.bind_eq_bind, Option.bind_some, Option.pure_def, Option.some.injEq] at hb
    subst hb
    rw [List.mem_filter, Rng.mem_points, List.all_eq_true]
    have hx := frag_extents f p hp
    constructor
    · apply RegionHash.extend2_pts
      intro i
      constructor <;> apply clamp_mono _ (RegionHash.binRange_pos hnb)
      · exact cell_mono idRounding (hs i) (hx i).1
      · exact cell_mono idRounding (hs i) (hx i).2
    · intro a _
      apply overlaps_of tiny big f _ p hp
      intro i
      have hcb := cell_bounds (lower i) (size i) (p i) (hs i)
      have hs0 := hs i
      have hn := hnb i
      have hc0 : 0 ≤ ⌊(p i - lower i) / size i⌋ := by
        rw [Int.floor_nonneg]
        exact div_nonneg (by have := (hin i).1; linarith) hs0.le
      unfold binBox clampToRange binRangeOf
      simp only
      rw [if_neg (by omega)]
      split_ifs with hge
      · constructor
        · have : ((nb i - 1 : Int) : Rat) ≤ (⌊(p i - lower i) / size i⌋ : Rat) := by
            exact_mod_cast (by omega : nb i - 1 ≤ ⌊(p i - lower i) / size i⌋)
          have := mul_le_mul_of_nonneg_right this hs0.le
          linarith [hcb.1]
        · rw [show nb i - 1 + 1 = nb i by omega]; exact (hin i).2
      · exact ⟨hcb.1, hcb.2.le⟩
  bins_proc x nb size f bins _ hnb hx hsz _ hb q hq i := by
    have hse : ∀ i, size i = (x.e i - x.b i) / nb i := by
      intro i
      have := allDims_eq _ _ fun i => (rat_size (x.b i) (x.e i) (nb i) (hx i) (hnb i)).1
      unfold binSizeOf at hsz
      rw [this] at hsz
      rw [← Option.some.inj hsz]
    have hs : ∀ i, 0 < size i := fun i => by
      rw [hse]; exact (rat_size (x.b i) (x.e i) (nb i) (hx i) (hnb i)).2.1
    simp only [fragmentOps, RegionHash.mapToBins_eq _ _ _ _ (fun i => (hs i).ne'),
      Option.bind_eq_bind, Option.bind_some, Option.pure_def, Option.some.injEq] at hb
    subst hb
    have hq' := RegionHash.binsBox_sub hnb _ _ _ q ((Rng.mem_points _ _).1 (List.mem_filter.1 hq).1) i
    simp only [binRangeOf] at hq'
    have he := (rat_size (x.b i) (x.e i) (nb i) (hx i) (hnb i)).2.2
    rw [← hse] at he
    have : (q i : Rat) + 1 ≤ (nb i : Rat) := by exact_mod_cast (by omega : q i + 1 ≤ nb i)
    have := mul_le_mul_of_nonneg_right this (hs i).le
    have := hs i
    linarith

end Ovk.DHash
