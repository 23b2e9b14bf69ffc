/-
Properties C60 and C61: coordinates and volumes after an edit of the coordinates.
-/
import Verif.Model.GeometryFields
import Verif.Props.Halo
import Verif.Props.Neighbors
import Verif.Model.Geometry
import Verif.Lemmas.Collect
import Mathlib.Tactic.FieldSimp

namespace Ovk
namespace GeoF
variable {d n : Nat}

namespace Spec
/-- Coordinates on all of `ℤ^d` that advance by the periodic length whenever the index advances by one
period. -/
def Periodic (c : Cart d) (L : Fin d → Rat) (X : Tup d → Fin d → Rat) : Prop :=
  ∀ (p k : Tup d), (∀ i, c.periodic i = false → k i = 0) → ∀ e,
    X (fun i => p i + k i * Spec.periodLen c i) e = X p e + (k e : Rat) * L e

/-- The owner of every point of an extended range is the process itself or one of its neighbours. -/
def Covered (s : Halo.Setup d n) : Prop :=
  ∀ b a p q, Spec.pts (s.ext b) p → Spec.Home s.cart p q → Spec.pts (s.loc a) q → a = b ∨ a ∈ s.nbrs b

/-- A cell exists: in the non-periodic dimensions both ends are points of the index space. -/
def Existing (c : Cart d) (cell : Tup d) : Prop :=
  ∀ i, c.periodic i = true ∨ (c.range.b i ≤ cell i ∧ cell i + 1 < c.range.e i)

/-- The vertex of a cell that is at its upper end in the dimensions `o`. -/
def vertex (cell : Tup d) (o : Fin d → Bool) : Tup d := fun i =>
  match o i with
  | false => cell i
  | true => cell i + 1

/-- `v` is the mean of `g` over the set `S`. -/
def Mean (S : Tup d → Prop) (g : Tup d → Rat) (v : Rat) : Prop :=
  ∀ l : List (Tup d), l.Nodup → (∀ c, c ∈ l ↔ S c) → v = (l.map g).sum / l.length
end Spec

/-! ### Array passes -/

theorem addPeriods_fold (c : Cart d) (ext : Rng d) (L : Fin d → Rat) (e : Fin d) :
    ∀ (l : List (Tup d)) (m : Int → Rat), (l.map ext.colIndex).Nodup → ∀ p,
      (p ∈ l ∨ ext.colIndex p ∉ l.map ext.colIndex) →
      l.foldl (fun m p => if c.range.contains p then m
        else Halo.write m (ext.colIndex p) (m (ext.colIndex p) + (c.period p e : Rat) * L e)) m
          (ext.colIndex p) =
        if p ∈ l ∧ c.range.contains p = false then m (ext.colIndex p) + (c.period p e : Rat) * L e
        else m (ext.colIndex p)
  | [], m, _, p, _ => by simp
  | q :: l, m, hn, p, hp => by
    rw [List.map_cons, List.nodup_cons] at hn
    rw [List.foldl_cons]
    by_cases hpq : p = q
    · subst hpq
      rw [addPeriods_fold c ext L e l _ hn.2 p (.inr hn.1)]
      have hnl : p ∉ l := fun h => hn.1 (List.mem_map.2 ⟨p, h, rfl⟩)
      cases hc : c.range.contains p
      · simp [hnl, Halo.write]
      · simp [hnl]
    · have hne : ext.colIndex p ≠ ext.colIndex q := by
        intro he
        rcases hp with hp | hp
        · rcases List.mem_cons.1 hp with h | h
          · exact hpq h
          · exact hn.1 (he ▸ List.mem_map.2 ⟨p, h, rfl⟩)
        · exact hp (by rw [he]; simp)
      rw [addPeriods_fold c ext L e l _ hn.2 p]
      · have hm : (if c.range.contains q = true then m else Halo.write m (ext.colIndex q)
            (m (ext.colIndex q) + (c.period q e : Rat) * L e)) (ext.colIndex p) = m (ext.colIndex p) := by
          split
          · rfl
          · unfold Halo.write; rw [if_neg hne]
        rw [hm]
        simp [hpq]
      · rcases hp with hp | hp
        · exact .inl ((List.mem_cons.1 hp).resolve_left hpq)
        · exact .inr fun h => hp (by rw [List.map_cons]; exact List.mem_cons_of_mem _ h)

theorem nodup_index (r : Rng d) (l : List (Tup d)) (hl : l.Nodup) (h : ∀ p ∈ l, Ovk.Spec.pts r p) :
    (l.map r.colIndex).Nodup := by
  rw [List.nodup_map_iff_inj_on hl]
  intro p hp q hq he
  exact Rng.index_inj .col r p q (h p hp) (h q hq) he

theorem addPeriods_spec (c : Cart d) (ext : Rng d) (L : Fin d → Rat) (e : Fin d) (m : Int → Rat)
    (p : Tup d) (hp : Ovk.Spec.pts ext p) :
    addPeriods c ext L e m (ext.colIndex p) =
      if c.range.contains p = true then m (ext.colIndex p)
      else m (ext.colIndex p) + (c.period p e : Rat) * L e := by
  unfold addPeriods
  have hm := (Rng.mem_points ext p).2 hp
  rw [addPeriods_fold c ext L e ext.points m
    (nodup_index ext _ ext.nodup_points fun q hq => (Rng.mem_points ext q).1 hq) p (.inl hm)]
  cases c.range.contains p <;> simp [hm]

/-! ### Periodic images -/

theorem period_nonperiodic (c : Cart d) (p : Tup d) (i : Fin d) (h : c.periodic i = false) :
    c.period p i = 0 := by simp [Cart.period, h]

/-- A tuple is its adjusted tuple shifted by its period. -/
theorem period_shift (c : Cart d) (hc : Ovk.Spec.Proper c) (p : Tup d) :
    p = fun i => c.periodicAdjust p i + c.period p i * Ovk.Spec.periodLen c i := by
  funext i
  cases hp : c.periodic i
  · rw [period_nonperiodic c p i hp, c.periodicAdjust_nonperiodic p i hp]; ring
  · have hs : 0 < c.periodSize i := by rw [periodSize_eq c hc]; exact hc i
    rw [c.periodicAdjust_periodic p i hp hs, c.period_periodic p i hp hs, periodSize_eq c hc]
    have := Int.emod_add_mul_ediv (p i - c.range.b i) (Ovk.Spec.periodLen c i)
    linarith

theorem home_exists (c : Cart d) (hc : Ovk.Spec.Proper c) (p : Tup d)
    (h : ∀ i, c.periodic i = false → c.range.b i ≤ p i ∧ p i < c.range.e i) :
    ∃ q, Ovk.Spec.Home c p q := by
  refine ⟨Halo.target c p, (Halo.home_iff c hc _ _).2 ⟨rfl, ?_⟩⟩
  by_cases hp : Ovk.Spec.pts c.range p
  · rw [Halo.target_of_in c hp]; exact hp
  · rw [Halo.target_of_out c hp]
    intro i
    cases hi : c.periodic i
    · rw [c.periodicAdjust_nonperiodic p i hi]; exact h i hi
    · have := C03_first_period c hc p i hi
      have hle : Ovk.Spec.periodLen c i ≤ c.range.e i - c.range.b i := by
        unfold Ovk.Spec.periodLen; split <;> omega
      omega

theorem home_nonperiodic (c : Cart d) (hc : Ovk.Spec.Proper c) {p q : Tup d}
    (h : Ovk.Spec.Home c p q) (i : Fin d) (hi : c.periodic i = false) :
    c.range.b i ≤ p i ∧ p i < c.range.e i := by
  obtain ⟨rfl, hq⟩ := (Halo.home_iff c hc _ _).1 h
  by_cases hp : Ovk.Spec.pts c.range p
  · exact hp i
  · rw [Halo.target_of_out c hp] at hq
    have := hq i
    rwa [c.periodicAdjust_nonperiodic p i hi] at this

/-- A tuple is its home shifted by whole periods. -/
theorem home_shift (c : Cart d) (hc : Ovk.Spec.Proper c) {p q : Tup d} (h : Ovk.Spec.Home c p q) :
    ∃ k : Tup d, (∀ i, c.periodic i = false → k i = 0) ∧
      p = fun i => q i + k i * Ovk.Spec.periodLen c i := by
  obtain ⟨rfl, hq⟩ := (Halo.home_iff c hc _ _).1 h
  by_cases hp : Ovk.Spec.pts c.range p
  · rw [Halo.target_of_in c hp]
    exact ⟨fun _ => 0, fun _ _ => rfl, by funext i; ring⟩
  · rw [Halo.target_of_out c hp]
    exact ⟨c.period p, fun i hi => period_nonperiodic c p i hi, period_shift c hc p⟩

/-! ### C60: coordinates -/

section
variable {c : Cart d} {loc : Fin n → Rng d} {nbrs : Fin n → List (Fin n)}

/-- C60: when an edit ends, whatever the order of calls and messages in the exchanges, every point of every
extended range (periodic images included) has its coordinates, if the owned points had theirs. -/
theorem C60_coords (hg : Halo.Good (pointSetup c loc nbrs)) (hcov : Spec.Covered (pointSetup c loc nbrs))
    (L : Fin d → Rat) (X : Tup d → Fin d → Rat) (hX : Spec.Periodic c L X)
    (f : Fin d → Fin n → Int → Rat)
    (hf : ∀ b p, Ovk.Spec.pts (loc b) p → ∀ e, f e b ((gridExtendedRange c (loc b)).colIndex p) = X p e)
    (es : Fin d → List (Halo.Event n)) (x : Fin d → Halo.State n Rat)
    (hrun : ∀ e, Halo.run (pointSetup c loc nbrs) (Halo.initial (f e)) (es e) = some (x e))
    (hfin : ∀ e, Halo.Finished (pointSetup c loc nbrs) (x e))
    (b : Fin n) (p : Tup d) (hp : Ovk.Spec.pts (gridExtendedRange c (loc b)) p)
    (hpe : ∀ i, c.periodic i = false → c.range.b i ≤ p i ∧ p i < c.range.e i) (e : Fin d) :
    addPeriods c (gridExtendedRange c (loc b)) L e ((x e).field b)
      ((gridExtendedRange c (loc b)).colIndex p) = X p e := by
  have hc : Ovk.Spec.Proper c := hg.proper
  obtain ⟨q, hq⟩ := home_exists c hc p hpe
  obtain ⟨a, ha, _⟩ := hg.tiles.2 q hq.1
  have hv := Halo.C20_values hg (f e) (es e) (x e) (hrun e) (hfin e) b p hp q hq a ha
    (hcov b a p q hp hq ha)
  change (x e).field b ((gridExtendedRange c (loc b)).colIndex p) =
    f e a ((gridExtendedRange c (loc a)).colIndex q) at hv
  rw [addPeriods_spec c _ L e _ p hp, hv, hf a q ha e]
  obtain ⟨rfl, _⟩ := (Halo.home_iff c hc _ _).1 hq
  by_cases hin : Ovk.Spec.pts c.range p
  · rw [if_pos ((contains_iff_pts _ _).2 hin), Halo.target_of_in c hin]
  · rw [if_neg (by rw [contains_iff_pts]; exact hin), Halo.target_of_out c hin]
    have := hX (c.periodicAdjust p) (c.period p) (fun i hi => period_nonperiodic c p i hi) e
    rw [← this]
    exact congrFun (congrArg X (period_shift c hc p).symm) e

/-! ### C61: volumes -/

theorem cell_periodLen (i : Fin d) (hi : c.periodic i = true) :
    Ovk.Spec.periodLen (cartPointToCell c) i = Ovk.Spec.periodLen c i := by
  unfold Ovk.Spec.periodLen cartPointToCell
  cases hs : c.storage <;> simp [hi]
  ring

theorem cell_good (hg : Halo.Good (pointSetup c loc nbrs))
    (hp : Ovk.Spec.Proper (cartPointToCell c)) : Halo.Good (cellSetup c loc nbrs) where
  proper := hp
  tiles := by
    have ht : Ovk.Spec.Tiles c loc := hg.tiles
    constructor
    · intro k i
      have := ht.1 k i
      refine ⟨this.1, ?_⟩
      show (if (loc k).e i ≠ c.range.e i ∨ (c.periodic i = true ∧ c.storage = .unique) then (loc k).e i
        else (loc k).e i - 1) ≤
        if c.periodic i = true ∧ c.storage = .unique then c.range.e i else c.range.e i - 1
      by_cases h1 : c.periodic i = true ∧ c.storage = .unique
      · rw [if_pos (.inr h1), if_pos h1]; exact this.2
      · rw [if_neg h1]
        by_cases h2 : (loc k).e i = c.range.e i
        · rw [if_neg (by rintro (h | h); exacts [h h2, h1 h])]; omega
        · rw [if_pos (.inl h2)]; omega
    · intro p hp
      exact (C08_tiling c loc ht p).1 ((C08_cell_space c p).1 hp)
  within := by
    intro a p hp i
    have := hp i
    show (extendLocalRange (cartPointToCell c) (cellLocalRange c (loc a)) 2).b i ≤ p i ∧
      p i < (extendLocalRange (cartPointToCell c) (cellLocalRange c (loc a)) 2).e i
    change (cellLocalRange c (loc a)).b i ≤ p i ∧ p i < (cellLocalRange c (loc a)).e i at this
    unfold extendLocalRange
    dsimp only
    constructor <;> split <;> omega
  sym := hg.sym
  irrefl := hg.irrefl

/-- C61: after the exchange of cell volumes every cell of every extended cell range has the volume of the
cell with its coordinates.  `V` is any translation-invariant formula. -/
theorem C61_cells (hg : Halo.Good (pointSetup c loc nbrs)) (hpc : Ovk.Spec.Proper (cartPointToCell c))
    (hcov : Spec.Covered (cellSetup c loc nbrs))
    (L : Fin d → Rat) (X : Tup d → Fin d → Rat) (hX : Spec.Periodic c L X)
    (V : ((Fin d → Bool) → Fin d → Rat) → Rat) (hV : ∀ Y (t : Fin d → Rat), V (fun o e => Y o e + t e) = V Y)
    (C : Fin n → Fin d → Int → Rat)
    (hC : ∀ b p, Ovk.Spec.pts (gridExtendedRange c (loc b)) p →
      (∀ i, c.periodic i = false → c.range.b i ≤ p i ∧ p i < c.range.e i) → ∀ e,
      C b e ((gridExtendedRange c (loc b)).colIndex p) = X p e)
    (m : Fin n → Int → Rat) (es : List (Halo.Event n)) (y : Halo.State n Rat)
    (hrun : Halo.run (cellSetup c loc nbrs) (Halo.initial fun b =>
      cellVolumes V (gridExtendedRange c (loc b)) (cellLocalRange c (loc b)) (cellExtendedRange c (loc b))
        (C b) (m b)) es = some y)
    (hfin : Halo.Finished (cellSetup c loc nbrs) y)
    (b : Fin n) (cell : Tup d) (hcell : Ovk.Spec.pts (cellExtendedRange c (loc b)) cell)
    (hex : Spec.Existing c cell) :
    y.field b ((cellExtendedRange c (loc b)).colIndex cell) = V fun o e => X (Spec.vertex cell o) e := by
  have hcv : ∀ o, Spec.vertex cell o = corner cell o := fun o => by
    funext i
    unfold Spec.vertex corner
    cases o i <;> simp
  simp only [hcv]
  have hgc := cell_good hg hpc
  have hnp : ∀ i, (cartPointToCell c).periodic i = false →
      (cartPointToCell c).range.b i ≤ cell i ∧ cell i < (cartPointToCell c).range.e i := by
    intro i hi
    change c.periodic i = false at hi
    have := (hex i).resolve_left (by rw [hi]; decide)
    refine ⟨this.1, ?_⟩
    show cell i < if c.periodic i = true ∧ c.storage = .unique then c.range.e i else c.range.e i - 1
    rw [if_neg (by rw [hi]; simp)]; omega
  obtain ⟨q, hq⟩ := home_exists _ hpc cell hnp
  obtain ⟨a, ha, _⟩ := hgc.tiles.2 q hq.1
  have hv := Halo.C20_values hgc _ es y hrun hfin b cell hcell q hq a ha (hcov b a cell q hcell hq ha)
  change y.field b ((cellExtendedRange c (loc b)).colIndex cell) =
    cellVolumes V (gridExtendedRange c (loc a)) (cellLocalRange c (loc a)) (cellExtendedRange c (loc a))
      (C a) (m a) ((cellExtendedRange c (loc a)).colIndex q) at hv
  change Ovk.Spec.pts (cellLocalRange c (loc a)) q at ha
  rw [hv]
  unfold cellVolumes
  rw [Halo.unpack_hit (cellExtendedRange c (loc a)).colIndex
    (fun cell => V fun o e => C a e ((gridExtendedRange c (loc a)).colIndex (corner cell o)))
    (cellLocalRange c (loc a)).points _ (nodup_index _ _ (Rng.nodup_points _) fun z hz =>
      hgc.within a z ((Rng.mem_points _ z).1 hz)) q
    ((Rng.mem_points _ q).2 ha)]
  have hqc : Ovk.Spec.IsCell c q := (C08_cell_space c q).1 hq.1
  have e1 : (fun (o : Fin d → Bool) e => C a e ((gridExtendedRange c (loc a)).colIndex (corner q o))) =
      fun o e => X (corner q o) e := by
    funext o e
    apply hC
    · exact C09_contains_vertices c (loc a) q _ (hgc.within a q ha) fun i => by
        unfold corner; cases o i <;> simp
    · intro i hi
      have := hqc i
      rw [if_neg (by rw [hi]; simp)] at this
      unfold corner
      cases o i <;> simp <;> omega
  rw [e1]
  obtain ⟨k, hk, hck⟩ := home_shift _ hpc hq
  have e2 : (fun (o : Fin d → Bool) e => X (corner cell o) e) =
      fun o e => X (corner q o) e + (k e : Rat) * L e := by
    funext o e
    rw [← hX (corner q o) k hk e]
    congr 1
    funext i
    rw [hck]
    unfold corner
    dsimp only
    cases hi : c.periodic i
    · rw [hk i hi]; ring
    · rw [cell_periodLen i hi]; ring
  rw [e2, hV (fun o e => X (corner q o) e) fun e => (k e : Rat) * L e]

/-- C61: the cells averaged for an owned point are exactly the existing cells that have it as a corner,
whatever the decomposition. -/
theorem C61_neighbors (hg : Halo.Good (pointSetup c loc nbrs))
    (hpc : Ovk.Spec.Proper (cartPointToCell c)) (b : Fin n) (p : Tup d)
    (hp : Ovk.Spec.pts (loc b) p) (cell : Tup d) :
    Ovk.Spec.pts (neighborCells (cellExtendedRange c (loc b)) p) cell ↔
      Spec.Existing c cell ∧ ∀ i, cell i = p i - 1 ∨ cell i = p i := by
  have ht := hg.tiles.1 b
  unfold neighborCells
  rw [C02_intersect]
  unfold Spec.Existing Ovk.Spec.pts
  rw [← forall_and, ← forall_and]
  refine forall_congr' fun i => ?_
  have h1 := hp i
  have h2 : c.range.b i ≤ (loc b).b i ∧ (loc b).e i ≤ c.range.e i := ht i
  have h3 := hpc i
  unfold cellExtendedRange extendLocalRange cellLocalRange rangePointToCell cartPointToCell
  unfold Ovk.Spec.periodLen cartPointToCell at h3
  dsimp only at h3 ⊢
  by_cases hpi : c.periodic i = true
  · simp only [hpi, true_and, or_true, if_true, true_or]
    split_ifs <;> omega
  · simp only [hpi, Bool.false_eq_true, false_and, and_false, or_false, if_false, false_or] at h3 ⊢
    split_ifs <;> omega

/-- C61: the volume computed for an owned point is the mean of the volumes of the existing cells around it. -/
theorem C61_points (hg : Halo.Good (pointSetup c loc nbrs)) (hpc : Ovk.Spec.Proper (cartPointToCell c))
    (b : Fin n) (cv : Int → Rat) (g : Tup d → Rat)
    (hcv : ∀ cell, Ovk.Spec.pts (cellExtendedRange c (loc b)) cell → Spec.Existing c cell →
      cv ((cellExtendedRange c (loc b)).colIndex cell) = g cell)
    (m : Int → Rat) (p : Tup d) (hp : Ovk.Spec.pts (loc b) p) :
    Spec.Mean (fun cell => Spec.Existing c cell ∧ ∀ i, cell i = p i - 1 ∨ cell i = p i) g
      (pointVolumes (loc b) (gridExtendedRange c (loc b)) (cellExtendedRange c (loc b)) cv m
        ((gridExtendedRange c (loc b)).colIndex p)) := by
  intro l hl hmem
  unfold pointVolumes
  rw [Halo.unpack_hit (gridExtendedRange c (loc b)).colIndex
    (fun p => pointVolume (cellExtendedRange c (loc b)) cv p)
    (loc b).points _ (nodup_index _ _ (Rng.nodup_points _) fun z hz =>
      hg.within b z ((Rng.mem_points _ z).1 hz)) p
    ((Rng.mem_points _ p).2 hp)]
  unfold pointVolume
  set r := neighborCells (cellExtendedRange c (loc b)) p with hr
  have hr' : ∀ cell, cell ∈ r.points ↔ Spec.Existing c cell ∧ ∀ i, cell i = p i - 1 ∨ cell i = p i :=
    fun cell => by rw [Rng.mem_points, hr]; exact C61_neighbors hg hpc b p hp cell
  have hperm : l.Perm r.points := (List.perm_ext_iff_of_nodup hl (Rng.nodup_points r)).2 fun cell => by
    rw [hmem, hr']
  have hmap : (r.points.map fun cell => cv ((cellExtendedRange c (loc b)).colIndex cell)) =
      r.points.map g := by
    apply List.map_congr_left
    intro cell hcell
    apply hcv
    · have := (Rng.mem_points _ _).1 hcell
      rw [hr] at this
      unfold neighborCells at this
      exact ((C02_intersect _ _ _).1 this).1
    · exact ((hr' cell).1 hcell).1
  rw [hmap, (hperm.map g).sum_eq, hperm.length_eq, ← Rng.length_points r]
  simp

/-- C61: after the last exchange every point of every extended range has the volume of its home, the mean
over the existing cells around that. -/
theorem C61_volumes (hg : Halo.Good (pointSetup c loc nbrs)) (hcov : Spec.Covered (pointSetup c loc nbrs))
    (hpc : Ovk.Spec.Proper (cartPointToCell c)) (cv : Fin n → Int → Rat) (g : Tup d → Rat)
    (hcv : ∀ b cell, Ovk.Spec.pts (cellExtendedRange c (loc b)) cell → Spec.Existing c cell →
      cv b ((cellExtendedRange c (loc b)).colIndex cell) = g cell)
    (m : Fin n → Int → Rat) (es : List (Halo.Event n)) (z : Halo.State n Rat)
    (hrun : Halo.run (pointSetup c loc nbrs) (Halo.initial fun b =>
      pointVolumes (loc b) (gridExtendedRange c (loc b)) (cellExtendedRange c (loc b)) (cv b) (m b)) es =
        some z)
    (hfin : Halo.Finished (pointSetup c loc nbrs) z)
    (b : Fin n) (p q : Tup d) (hp : Ovk.Spec.pts (gridExtendedRange c (loc b)) p)
    (hq : Ovk.Spec.Home c p q) :
    Spec.Mean (fun cell => Spec.Existing c cell ∧ ∀ i, cell i = q i - 1 ∨ cell i = q i) g
      (z.field b ((gridExtendedRange c (loc b)).colIndex p)) := by
  obtain ⟨a, ha, _⟩ := hg.tiles.2 q hq.1
  have hv := Halo.C20_values hg _ es z hrun hfin b p hp q hq a ha (hcov b a p q hp hq ha)
  change z.field b ((gridExtendedRange c (loc b)).colIndex p) = pointVolumes (loc a)
    (gridExtendedRange c (loc a)) (cellExtendedRange c (loc a)) (cv a) (m a)
    ((gridExtendedRange c (loc a)).colIndex q) at hv
  rw [hv]
  exact C61_points hg hpc a (cv a) g (hcv a) (m a) q ha
end

/-- C61: the volume formulas are translation invariant, as `C61_cells` assumes (uniform cells from the lower
and upper corner; quadrilaterals from their corners in the order of GeometryOps.inl). -/
theorem C61_invariant_uniform (Y : (Fin d → Bool) → Fin d → Rat) (t : Fin d → Rat) :
    Geo.volUniform (fun i => Y (fun _ => false) i + t i) (fun i => Y (fun _ => true) i + t i) =
      Geo.volUniform (Y fun _ => false) (Y fun _ => true) := by
  unfold Geo.volUniform
  apply Finset.prod_congr rfl
  intro i _; ring

theorem C61_invariant_quad (v : Fin 4 → Fin 2 → Rat) (t : Fin 2 → Rat) :
    Geo.volQuad (fun k i => v k i + t i) = Geo.volQuad v := by
  have h : ∀ a b : Fin 4, Geo.sub (fun i => v a i + t i) (fun i => v b i + t i) = Geo.sub (v a) (v b) := by
    intro a b; funext i; unfold Geo.sub; ring
  unfold Geo.volQuad
  simp only [h]

theorem C61_invariant_hex (v : Fin 8 → Fin 3 → Rat) (t : Fin 3 → Rat) :
    Geo.volHex (fun k i => v k i + t i) = Geo.volHex v := by
  have h : ∀ a b : Fin 8, Geo.sub (fun i => v a i + t i) (fun i => v b i + t i) = Geo.sub (v a) (v b) := by
    intro a b; funext i; unfold Geo.sub; ring
  unfold Geo.volHex
  simp only [h]

/-! ### Setting the periodic length -/

/-- Halo coordinates fit the periodic length of the geometry. -/
def Spec.Consistent (s : Halo.Setup d n) (g : Geom d n) : Prop :=
  ∀ b a (p k : Tup d) e, Ovk.Spec.pts (s.ext b) (fun i => p i + k i * Ovk.Spec.periodLen s.cart i) →
    Ovk.Spec.pts (s.loc a) p → (∀ i, s.cart.periodic i = false → k i = 0) →
    g.coords b e ((s.ext b).colIndex fun i => p i + k i * Ovk.Spec.periodLen s.cart i) =
      g.coords a e ((s.ext a).colIndex p) + (k e : Rat) * g.length e

/-- The property for the other way of changing the geometry: setting the periodic length keeps coordinates
and periodic length consistent. -/
def C60_statement : Prop :=
  ∀ (d n : Nat) (s : Halo.Setup d n), Halo.Good s → ∀ (g : Geom d n) (L : Fin d → Rat),
    Spec.Consistent s g → Spec.Consistent s (g.setPeriodicLength L)

/-- Coordinates equal to the indices on the ring of `Halo.exSetup`. -/
def exGeom : Geom 1 2 := ⟨fun b _ j => (j : Rat) + ![-2, 0] b, fun _ => 6⟩

theorem exGeom_coord (b : Fin 2) (p : Tup 1) (e : Fin 1) :
    exGeom.coords b e ((Halo.exSetup.ext b).colIndex p) = (p 0 : Rat) := by
  have h1 : ∀ r : Rng 1, r.colIndex p = p 0 - r.b 0 := by
    intro r
    show 1 * (p 0 - r.b 0) + 0 = _
    ring
  rw [h1]
  fin_cases b
  · show (((p 0 - (-2) : Int)) : Rat) + (-2) = _
    push_cast; ring
  · show (((p 0 - 0 : Int)) : Rat) + 0 = _
    push_cast; ring

theorem exGeom_consistent : Spec.Consistent Halo.exSetup exGeom := by
  intro b a p k e _ _ _
  rw [exGeom_coord b _ e, exGeom_coord a p e]
  have : e = 0 := Subsingleton.elim _ _
  subst this
  show ((p 0 + k 0 * 6 : Int) : Rat) = p 0 + k 0 * 6
  push_cast; ring

/-- `SetPeriodicLength` leaves the coordinates of periodic images as they were. -/
theorem C60_false : ¬ C60_statement := by
  intro h
  have := h 1 2 Halo.exSetup Halo.exSetup_good exGeom (fun _ => 7) exGeom_consistent 0 1 ![5] ![-1] 0
    (by unfold Ovk.Spec.pts; decide +kernel) (by unfold Ovk.Spec.pts; decide +kernel)
    (by unfold Halo.exSetup; decide)
  revert this
  decide +kernel

/- The ring with coordinates equal to the indices: its halo is covered, its cells tile, and the coordinates
are periodic with length six. -/
example : Halo.exSetup = pointSetup exRing exRingLoc ![[1], [0]] := rfl

theorem exCovered : Spec.Covered (pointSetup exRing exRingLoc ![[1], [0]]) := by
  intro b a p q _ _ _
  fin_cases b <;> fin_cases a <;> simp [pointSetup]

example : Ovk.Spec.Proper (cartPointToCell exRing) := by
  unfold Ovk.Spec.Proper Ovk.Spec.periodLen cartPointToCell exRing; decide

example : Spec.Periodic exRing (fun _ => 6) fun p _ => (p 0 : Rat) := by
  intro p k _ e
  have : e = 0 := Subsingleton.elim _ _
  subst this
  show ((p 0 + k 0 * 6 : Int) : Rat) = p 0 + k 0 * 6
  push_cast; ring

/- A non-periodic line of three points on two processes: the volume of the end point is that of its only
cell, the others are means of two. -/
example : pointVolume (cellExtendedRange ⟨⟨![0], ![3]⟩, ![false], .unique⟩ ⟨![0], ![2]⟩)
    (fun j => if j = 0 then 1 else 3) ![0] = 1 ∧
    pointVolume (cellExtendedRange ⟨⟨![0], ![3]⟩, ![false], .unique⟩ ⟨![0], ![2]⟩)
    (fun j => if j = 0 then 1 else 3) ![1] = 2 := by decide +kernel

end GeoF
end Ovk
