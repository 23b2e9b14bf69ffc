/-
Property C94 with the search: the cells found and the volumes interpolated do not depend on the division among
processes either.
-/
import Verif.Props.Independence
import Verif.Props.OverlapVolumes
import Verif.Props.OverlapLimits
import Verif.Lemmas.ColOrder

namespace Ovk.Asm
variable {d n n' N : Nat}

namespace Spec
/-- The same grids, coordinates, active points and options of the search.  The processes, the fragments with their
orientations and bounds, and the parameters of the hash and of the search trees may be any others. -/
structure SameSearch (W : Ovl.World d n) (W' : Ovl.World d n') : Prop where
  cart : W'.cart = W.cart
  active : ∀ g, OnRange (W.cart g).range (W.active g) (W'.active g)
  coord : ∀ g, OnRange (W.cart g).range (W.coord g) (W'.coord g)
  overlappable : W'.overlappable = W.overlappable
  tol : W'.tol = W.tol
  coordsIn : W'.coordsIn = W.coordsIn

/-- Point `p` of grid `k` is listed with cell `c` on the N side of the overlap of grid `m`, on some process. -/
def Listed (W : Ovl.World d n) (m k : Nat) (p c : Tup (d + 2)) : Prop :=
  ∃ h s L, Ovl.hash W = some h ∧ Ovl.overlapN W h m k s = some L ∧ ∃ e ∈ L, e.point = p ∧ e.source = c

/-- The cells a problem starts from are those the search has found, starting from the active points of the problem;
the volumes are interpolated in these cells. -/
structure Searched (W : Ovl.World d n) (P : Problem (d + 2) N) (flags : Fin N → Tup (d + 2) → Flags) : Prop where
  grids : ∀ k : Fin N, k.val ∈ W.grids
  cart : ∀ k : Fin N, (P.grid k).cart = W.cart k.val
  active : ∀ k : Fin N, OnRange (W.cart k.val).range (W.active k.val) ((initAssembly flags).active k)
  found : ∀ (m k : Fin N) p, Ovk.Spec.pts (W.cart k.val).range p → ∀ c,
    P.found m k p = some c ↔ Listed W m.val k.val p c
  ovVol : ∀ (m k : Fin N) p c u, Ovk.Spec.pts (W.cart k.val).range p → P.found m k p = some c →
    W.coordsIn m.val c (W.tol m.val k.val) (W.coord k.val p) = some u →
    P.ovVol m k p = Ovl.Spec.interpolant (fun v => P.vol m ((W.cart m.val).periodicAdjust v)) c u
end Spec

open Ovk.Asm.Spec

section
variable {W : Ovl.World d n} {W' : Ovl.World d n'}

theorem Spec.SameSearch.activeCell (h : SameSearch W W') {g : Nat} {c : Tup (d + 2)} :
    Ovl.Spec.ActiveCell W g c ↔ Ovl.Spec.ActiveCell W' g c := by
  unfold Ovl.Spec.ActiveCell
  rw [h.cart]
  refine and_congr_right fun _ => forall_congr' fun v => imp_congr_right fun _ => exists_congr fun w =>
    and_congr_right fun _ => and_congr_right fun hw => by rw [h.active g w hw]

theorem Spec.SameSearch.accepts (h : SameSearch W W') {m k : Nat} {p c : Tup (d + 2)} {u : Pt (d + 2)}
    (hp : Ovk.Spec.pts (W.cart k).range p) : Ovl.Spec.Accepts W m k p c u ↔ Ovl.Spec.Accepts W' m k p c u := by
  unfold Ovl.Spec.Accepts
  rw [h.activeCell, h.coordsIn, h.tol, h.coord k p hp]

theorem pts_cellRange {g : Nat} {c : Tup (d + 2)} (h : Ovk.Spec.IsCell (W.cart g) c) :
    Ovk.Spec.pts (Ovl.cellRange W g) c := by
  intro i
  have := h i
  unfold Ovl.cellRange cartPointToCell
  dsimp only
  split_ifs at this ⊢ <;> omega

/-- The listed cell is the best one that accepts the point. -/
theorem listed_iff (hd : Ovl.Spec.Detects W) (hg : ∀ g ∈ W.grids, Ovl.Spec.GridOk W g) {m k : Nat} (hm : m ∈ W.grids)
    (hk : k ∈ W.grids) {p c : Tup (d + 2)} (hp : Ovk.Spec.pts (W.cart k).range p) :
    Listed W m k p c ↔ W.overlappable m k = true ∧ W.active k p = true ∧ ∃ u, Ovl.Spec.Accepts W m k p c u ∧
      ∀ c' v, Ovl.Spec.Accepts W m k p c' v →
        Accel.Spec.Prefer ((Ovl.cellRange W m).colIndex c, u) ((Ovl.cellRange W m).colIndex c', v) := by
  obtain ⟨h, hh, hdet⟩ := hd
  have hN := (hdet m hm k hk).1
  constructor
  · rintro ⟨h', s, L, hh', hL, e, he, rfl, rfl⟩
    obtain rfl : h = h' := Option.some.inj (hh.symm.trans hh')
    obtain ⟨L', hL', hc⟩ := hN s
    obtain rfl : L = L' := Option.some.inj (hL.symm.trans hL')
    split at hc
    · rename_i hov
      exact ⟨hov, ((hc.points e.point).1 ⟨e, he, rfl⟩).2.1, hc.best e he⟩
    · rw [hc] at he; simp at he
  · rintro ⟨hov, ha, u, hu, hbest⟩
    obtain ⟨s, hs, -⟩ := (hg k hk).tiles.2 p hp
    obtain ⟨L, hL, hc⟩ := hN s
    rw [if_pos hov] at hc
    obtain ⟨e, he, rfl⟩ := (hc.points p).2 ⟨hs, ha, c, u, hu⟩
    obtain ⟨v, hv, hb⟩ := hc.best e he
    refine ⟨h, s, L, hh, hL, e, he, rfl, ?_⟩
    have h1 := hbest _ _ hv
    have h2 := hb _ _ hu
    have h3 := h1.2 h2.1
    have h4 := h2.2 h1.1
    by_contra hne
    have p1 := pts_cellRange (W := W) hv.1.1
    have p2 := pts_cellRange (W := W) hu.1.1
    rcases colLt_total _ _ hne with h | h
    · have := Rng.colIndex_lt _ _ _ p1 p2 h; dsimp only at h3 h4; omega
    · have := Rng.colIndex_lt _ _ _ p2 p1 h; dsimp only at h3 h4; omega

theorem Spec.SameSearch.listed (h : SameSearch W W') (hd : Ovl.Spec.Detects W) (hd' : Ovl.Spec.Detects W')
    (hg : ∀ g ∈ W.grids, Ovl.Spec.GridOk W g) (hg' : ∀ g ∈ W'.grids, Ovl.Spec.GridOk W' g) {m k : Nat}
    (hm : m ∈ W.grids) (hk : k ∈ W.grids) (hm' : m ∈ W'.grids) (hk' : k ∈ W'.grids) {p c : Tup (d + 2)}
    (hp : Ovk.Spec.pts (W.cart k).range p) : Listed W m k p c ↔ Listed W' m k p c := by
  rw [listed_iff hd hg hm hk hp, listed_iff hd' hg' hm' hk' (by rw [h.cart]; exact hp), h.overlappable, h.active k p hp]
  refine and_congr_right fun _ => and_congr_right fun _ => exists_congr fun u => and_congr (h.accepts hp) ?_
  refine forall_congr' fun c' => forall_congr' fun v => ?_
  rw [h.accepts hp]
  unfold Ovl.cellRange
  rw [h.cart]
end

/-- C94 with the search: on any two divisions of the grids among processes, the search finds the same cells, and
assembly from what it finds is either undefined on both or gives the same result on both. -/
theorem C94_search {W : Ovl.World d n} {W' : Ovl.World d n'} {P P' : Problem (d + 2) N}
    {flags flags' : Fin N → Tup (d + 2) → Flags} (hW : SameSearch W W') (hd : Ovl.Spec.Detects W)
    (hd' : Ovl.Spec.Detects W') (hg : ∀ g ∈ W.grids, Ovl.Spec.GridOk W g)
    (hg' : ∀ g ∈ W'.grids, Ovl.Spec.GridOk W' g) (hS : Searched W P flags) (hS' : Searched W' P' flags')
    (hV : Spec.Valid P) (hV' : Spec.Valid P') (h : SameOptions P P')
    (hf : ∀ k, OnRange (P.grid k).cart.range (flags k) (flags' k)) :
    (∀ m k, OnRange (P.grid k).cart.range (P.found m k) (P'.found m k)) ∧
    (P.assemble flags = none ↔ P'.assemble flags' = none) ∧
    ∀ r r', P.assemble flags = some r → P'.assemble flags' = some r' → SameResult P r r' := by
  have hfound : ∀ m k, OnRange (P.grid k).cart.range (P.found m k) (P'.found m k) := by
    intro m k p hp
    rw [hS.cart] at hp
    refine Option.ext fun c => ?_
    have h1 := hS.found m k p hp c
    have h2 := hS'.found m k p (by rw [hW.cart]; exact hp) c
    have h3 := hW.listed hd hd' hg hg' (hS.grids m) (hS.grids k) (hS'.grids m) (hS'.grids k) (c := c) hp
    exact (h1.trans h3).trans h2.symm
  refine ⟨hfound, C94 hV hV' ⟨h, hfound, fun m k p hp hs => ?_⟩ hf⟩
  obtain ⟨c, hc⟩ := Option.isSome_iff_exists.1 hs
  have hp' : Ovk.Spec.pts (W.cart k.val).range p := by rw [← hS.cart]; exact hp
  obtain ⟨-, -, u, hu, -⟩ := (listed_iff hd hg (hS.grids m) (hS.grids k) hp').1 ((hS.found m k p hp' c).1 hc)
  rw [hS.ovVol m k p c u hp' hc hu.2, hS'.ovVol m k p c u (by rw [hW.cart]; exact hp') (by rw [← hfound m k p hp]; exact hc)
    (by rw [hW.coordsIn, hW.tol, ← hW.coord _ _ hp']; exact hu.2)]
  unfold Ovl.Spec.interpolant
  refine Finset.sum_congr rfl fun s _ => ?_
  congr 1
  rw [hW.cart]
  refine h.vol m _ ((verts_corner (hV.layouts m) (hV.cells m k p c hp hc)).1 ?_).1
  rw [← hS.cart]
  unfold Grid.verts
  refine List.mem_map_of_mem ((Rng.mem_points _ _).2 fun i => ?_)
  unfold Ovl.Spec.corner
  dsimp only
  split <;> omega

/-! ### There are such problems -/

/-- The problem that starts from what the search finds. -/
noncomputable def searchedProblem (W : Ovl.World d n) (P : Problem (d + 2) N) : Problem (d + 2) N := by
  classical
  exact { P with
    found := fun m k p => if h : ∃ c, Listed W m.val k.val p c then some h.choose else none
    ovVol := fun m k p => if h : ∃ c, Listed W m.val k.val p c then
        ((W.coordsIn m.val h.choose (W.tol m.val k.val) (W.coord k.val p)).map fun u =>
          Ovl.Spec.interpolant (fun v => P.vol m ((W.cart m.val).periodicAdjust v)) h.choose u).getD 0
      else 0 }

theorem listed_unique {W : Ovl.World d n} (hd : Ovl.Spec.Detects W) (hg : ∀ g ∈ W.grids, Ovl.Spec.GridOk W g) {m k : Nat}
    (hm : m ∈ W.grids) (hk : k ∈ W.grids) {p c c' : Tup (d + 2)} (hp : Ovk.Spec.pts (W.cart k).range p)
    (h : Listed W m k p c) (h' : Listed W m k p c') : c = c' := by
  obtain ⟨-, -, u, hu, hb⟩ := (listed_iff hd hg hm hk hp).1 h
  obtain ⟨-, -, v, hv, hb'⟩ := (listed_iff hd hg hm hk hp).1 h'
  have h1 := hb _ _ hv
  have h2 := hb' _ _ hu
  have h3 := h1.2 h2.1
  have h4 := h2.2 h1.1
  by_contra hne
  have p1 := pts_cellRange (W := W) hu.1.1
  have p2 := pts_cellRange (W := W) hv.1.1
  rcases colLt_total _ _ hne with h | h
  · have := Rng.colIndex_lt _ _ _ p1 p2 h; dsimp only at h3 h4; omega
  · have := Rng.colIndex_lt _ _ _ p2 p1 h; dsimp only at h3 h4; omega

theorem searchedProblem_searched {W : Ovl.World d n} {P : Problem (d + 2) N} {flags : Fin N → Tup (d + 2) → Flags}
    (hd : Ovl.Spec.Detects W) (hg : ∀ g ∈ W.grids, Ovl.Spec.GridOk W g) (hgr : ∀ k : Fin N, k.val ∈ W.grids)
    (hc : ∀ k : Fin N, (P.grid k).cart = W.cart k.val)
    (ha : ∀ k : Fin N, OnRange (W.cart k.val).range (W.active k.val) ((initAssembly flags).active k)) :
    Searched W (searchedProblem W P) flags := by
  have hf : ∀ (m k : Fin N) p, Ovk.Spec.pts (W.cart k.val).range p → ∀ c,
      (searchedProblem W P).found m k p = some c ↔ Listed W m.val k.val p c := by
    intro m k p hp c
    unfold searchedProblem
    dsimp only
    split
    · rename_i h
      constructor
      · intro e; rw [← Option.some.inj e]; exact h.choose_spec
      · intro hl; rw [listed_unique hd hg (hgr m) (hgr k) hp hl h.choose_spec]
    · rename_i h
      exact ⟨fun e => (by cases e), fun hl => absurd ⟨c, hl⟩ h⟩
  refine ⟨hgr, hc, ha, hf, fun m k p c u hp hcell hu => ?_⟩
  have hl := (hf m k p hp c).1 hcell
  unfold searchedProblem
  dsimp only
  have hex : ∃ c, Listed W m.val k.val p c := ⟨c, hl⟩
  rw [dif_pos hex, ← listed_unique hd hg (hgr m) (hgr k) hp hl hex.choose_spec, hu]
  rfl

theorem searchedProblem_valid {W : Ovl.World d n} {P : Problem (d + 2) N} {flags : Fin N → Tup (d + 2) → Flags}
    (hd : Ovl.Spec.Detects W) (hg : ∀ g ∈ W.grids, Ovl.Spec.GridOk W g) (hgr : ∀ k : Fin N, k.val ∈ W.grids)
    (hc : ∀ k : Fin N, (P.grid k).cart = W.cart k.val)
    (ha : ∀ k : Fin N, OnRange (W.cart k.val).range (W.active k.val) ((initAssembly flags).active k))
    (hl : Ovk.Spec.Layouts P) (hne : ∀ k r i, ((P.grid k).loc r).b i < ((P.grid k).loc r).e i)
    (hgrp : ∀ r, (P.group r).flatten = r.points) : Spec.Valid (searchedProblem W P) := by
  refine ⟨hl, hne, fun m k p cell hp hcell i hi => ?_, hgrp⟩
  have hS := searchedProblem_searched (flags := flags) hd hg hgr hc ha
  have hp' : Ovk.Spec.pts (W.cart k.val).range p := by rw [← hc]; exact hp
  obtain ⟨-, -, u, hu, -⟩ := (listed_iff hd hg (hgr m) (hgr k) hp').1 ((hS.found m k p hp' cell).1 hcell)
  have := hu.1.1 i
  have hm : (((searchedProblem W P).grid m).cart) = W.cart m.val := hc m
  rw [hm] at hi ⊢
  rw [if_neg (by rw [hi]; simp)] at this
  exact this

/-- The grids of `exWorld`, on one process. -/
def exSingle : Ovl.World 0 1 := Ovl.uniform [0, 1] Ovl.exCart (fun g _ => (Ovl.exCart g).range) (fun _ _ => true)
  (fun g => if g = 0 then ![0, 0] else ![5 / 4, 1 / 4]) (fun g => if g = 0 then ![1, 1] else ![1, 1 / 2]) 0 ![1, 1]

theorem exSingle_grid (g : Nat) (hg : g ∈ exSingle.grids) : Ovl.Spec.GridOk exSingle g := by
  refine ⟨(Ovl.exGrid_ok g (by simpa [exSingle, Ovl.uniform] using hg)).proper, fun _ _ => ⟨le_rfl, le_rfl⟩,
    fun p hp => ⟨0, hp, fun k _ => Subsingleton.elim _ _⟩⟩

theorem exSingle_base : Ovl.Spec.Base exSingle where
  grid := exSingle_grid
  flags _ _ _ _ _ _ _ := rfl
  ortho _ _ i j := Ovl.ortho_id i j
  solid g _ f c _ _ i := Ovl.uniform_solid Ovl.exStep_pos g f c i
  inhabited := ⟨0, by simp [exSingle, Ovl.uniform], ![0, 0], (Ovl.activeCell_full (fun _ => rfl) (fun _ => rfl)).2 (by
    intro i; fin_cases i <;> simp [exSingle, Ovl.uniform, Ovl.exCart])⟩
  scale _ _ := by simp [exSingle, Ovl.uniform]
  bins i := by fin_cases i <;> simp [exSingle, Ovl.uniform]
  fit := by decide +kernel
  mult _ := by simp [exSingle, Ovl.uniform]
  discovered := Ovl.discovered_all fun _ => rfl
  sorts := Ovl.argSort_sorted

/- C94 with the search applies to the grids of the example of C85, on two processes and on one. -/
example : SameSearch Ovl.exWorld exSingle ∧ Ovl.Spec.Detects Ovl.exWorld ∧ Ovl.Spec.Detects exSingle ∧
    (∀ g ∈ Ovl.exWorld.grids, Ovl.Spec.GridOk Ovl.exWorld g) ∧ (∀ g ∈ exSingle.grids, Ovl.Spec.GridOk exSingle g) :=
  ⟨⟨rfl, fun _ _ _ => rfl, fun _ _ _ => rfl, rfl, rfl, rfl⟩,
    Ovl.C86_partial Ovl.exWorld_base (Ovl.uniform_geometric Ovl.exStep_pos le_rfl) Ovl.exWorld_attached
      fun _ _ _ _ => .inl rfl,
    Ovl.C86_partial exSingle_base (Ovl.uniform_geometric Ovl.exStep_pos le_rfl) Ovl.exWorld_attached
      fun _ _ _ _ => .inl rfl, Ovl.exWorld_base.grid, exSingle_grid⟩

end Ovk.Asm
