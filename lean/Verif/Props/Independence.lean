/-
Property C94: the result of assembly does not depend on how the grids are divided among processes.
-/
import Verif.Props.Defined
import Verif.Props.Boundaries

namespace Ovk.Asm
variable {d n : Nat}

namespace Spec
/-- Two functions agree at the points of a range. -/
def OnRange {α : Type} (r : Rng d) (f f' : Tup d → α) : Prop := ∀ p, Ovk.Spec.pts r p → f p = f' p

/-- The same grids and options; the division among processes may be any other one. -/
structure SameOptions (P P' : Problem d n) : Prop where
  cart : ∀ k, (P'.grid k).cart = (P.grid k).cart
  inferBoundaries : P'.inferBoundaries = P.inferBoundaries
  cutBoundaryHoles : P'.cutBoundaryHoles = P.cutBoundaryHoles
  fringeSize : P'.fringeSize = P.fringeSize
  occludes : P'.occludes = P.occludes
  edgePadding : P'.edgePadding = P.edgePadding
  edgeSmoothing : P'.edgeSmoothing = P.edgeSmoothing
  minimizeOverlap : P'.minimizeOverlap = P.minimizeOverlap
  connected : P'.connected = P.connected
  disjoint : P'.disjoint = P.disjoint
  fuel : P'.fuel = P.fuel
  vol : ∀ k, OnRange (P.grid k).cart.range (P.vol k) (P'.vol k)

/-- The same problem: in addition the search finds the same cells, and the same volumes at the points for which it
finds a cell. -/
structure Same (P P' : Problem d n) : Prop extends SameOptions P P' where
  found : ∀ m k, OnRange (P.grid k).cart.range (P.found m k) (P'.found m k)
  ovVol : ∀ m k p, Ovk.Spec.pts (P.grid k).cart.range p → (P.found m k p).isSome = true →
    P.ovVol m k p = P'.ovVol m k p

/-- Two results agree: the flags, the overlapping cells and which of them are still in use, the receivers, the orphans
and the donor grids are the same at all points of the grids, the same connectivities were created, and they have the
same entries. -/
structure SameResult (P : Problem d n) (r r' : St d n × Problem.Conn d n) : Prop where
  flags : ∀ k, OnRange (P.grid k).cart.range (r.1.flags k) (r'.1.flags k)
  ov : ∀ m k, OnRange (P.grid k).cart.range (r.1.ov m k) (r'.1.ov m k)
  overlap : ∀ m k, OnRange (P.grid k).cart.range (r.1.overlap m k) (r'.1.overlap m k)
  receiver : ∀ k, OnRange (P.grid k).cart.range (r.2.receiver k) (r'.2.receiver k)
  orphan : ∀ k, OnRange (P.grid k).cart.range (r.2.orphan k) (r'.2.orphan k)
  donor : ∀ k, OnRange (P.grid k).cart.range (r.2.donor k) (r'.2.donor k)
  created : r.2.exists_ = r'.2.exists_
  entries : ∀ m k, (r.2.entries m k).Perm (r'.2.entries m k)
end Spec

open Ovk.Asm.Spec

/-! ### Relating partial results -/

/-- Both undefined, or both defined and related. -/
def Both {α β : Type} (R : α → β → Prop) (x : Option α) (y : Option β) : Prop :=
  (x = none ∧ y = none) ∨ ∃ a b, x = some a ∧ y = some b ∧ R a b

section
variable {α β γ δ : Type} {R : α → β → Prop} {S : γ → δ → Prop}

theorem Both.some {a : α} {b : β} (h : R a b) : Both R (some a) (some b) := .inr ⟨a, b, rfl, rfl, h⟩

theorem Both.none : Both R none none := .inl ⟨rfl, rfl⟩

theorem Both.bind {x : Option α} {y : Option β} {f : α → Option γ} {g : β → Option δ} (h : Both R x y)
    (hfg : ∀ a b, R a b → Both S (f a) (g b)) : Both S (x.bind f) (y.bind g) := by
  rcases h with ⟨rfl, rfl⟩ | ⟨a, b, rfl, rfl, h⟩
  · exact .none
  · exact hfg a b h

theorem Both.all {α β : Type} {R : Fin n → α → β → Prop} {f : Fin n → Option α} {g : Fin n → Option β}
    (h : ∀ k, Both (R k) (f k) (g k)) : Both (fun a b => ∀ k, R k (a k) (b k)) (forAll f) (forAll g) := by
  by_cases hn : ∃ k, f k = .none
  · obtain ⟨k, hk⟩ := hn
    left
    have hk' : g k = .none := by
      rcases h k with ⟨-, h⟩ | ⟨a, b, h, -, -⟩
      · exact h
      · rw [hk] at h; cases h
    constructor
    · unfold Asm.forAll; rw [dif_neg]; intro hf; have := hf k; rw [hk] at this; cases this
    · unfold Asm.forAll; rw [dif_neg]; intro hf; have := hf k; rw [hk'] at this; cases this
  · right
    have hs : ∀ k, ∃ a b, f k = .some a ∧ g k = .some b ∧ R k a b := by
      intro k
      rcases h k with ⟨h, -⟩ | h
      · exact absurd ⟨k, h⟩ hn
      · exact h
    choose a b ha hb hr using hs
    exact ⟨a, b, forAll_of ha, forAll_of hb, hr⟩

theorem Both.ite {p q : Prop} [Decidable p] [Decidable q] (hpq : p ↔ q) {x x' : Option α} {y y' : Option β}
    (h : p → Both R x y) (h' : ¬ p → Both R x' y') : Both R (if p then x else x') (if q then y else y') := by
  by_cases hp : p
  · rw [if_pos hp, if_pos (hpq.1 hp)]; exact h hp
  · rw [if_neg hp, if_neg fun hq => hp (hpq.2 hq)]; exact h' hp
end

theorem perm_ite {α : Type} {b b' : Bool} (hb : b = b') {l l' : List α} (h : l.Perm l') :
    (if b then l else []).Perm (if b' then l' else []) := by
  subst hb
  split
  · exact h
  · exact .refl _

/-! ### Operations on masks -/

section
variable {r : Rng d} {c : Cart d} {m m' : Mask d}

theorem Spec.OnRange.reads (h : OnRange c.range m m') (bc : MaskBC) (x : Tup d) (v : Bool) :
    Ovk.Spec.Reads c bc m x v ↔ Ovk.Spec.Reads c bc m' x v := by
  unfold Ovk.Spec.Reads
  refine or_congr (exists_congr fun q => and_congr_right fun hq => and_congr_right fun _ => by rw [h q hq])
    (and_congr_right fun _ => ?_)
  cases bc
  · exact Iff.rfl
  · exact Iff.rfl
  · refine exists_congr fun y => exists_congr fun q => and_congr_right fun _ => and_congr_right fun hq =>
      and_congr_right fun _ => by rw [h q hq]

theorem Spec.OnRange.set (h : OnRange c.range m m') (bc : MaskBC) (x : Tup d) :
    Ovk.Spec.Set c bc m x ↔ Ovk.Spec.Set c bc m' x := by
  unfold Ovk.Spec.Set
  exact or_congr_left (exists_congr fun q => and_congr_right fun hq => and_congr_right fun _ => by rw [h q hq])

theorem Spec.OnRange.not (h : OnRange r m m') : OnRange r (fun p => !m p) fun p => !m' p :=
  fun p hp => by dsimp only; rw [h p hp]

theorem reaches_start {s p : Tup d} (h : Ovk.Spec.Reaches c m s p) : Ovk.Spec.pts c.range s := by
  induction h with
  | start h _ => exact h
  | step _ _ _ ih => exact ih

theorem reaches_congr (hm : OnRange c.range m m') {s p : Tup d} (h : Ovk.Spec.Reaches c m s p) :
    Ovk.Spec.Reaches c m' s p := by
  induction h with
  | start h1 h2 => exact .start h1 (by rw [← hm _ h1]; exact h2)
  | step _ hadj hq ih =>
    refine .step ih hadj ?_
    rw [← hm]
    · exact hq
    · rcases hadj with h | h
      · exact h.2.1
      · exact h.1

variable {g g' : Grid d} (hc : g'.cart = g.cart) (hl : Ovk.Spec.Layout g.cart g.loc g.ext)
  (hl' : Ovk.Spec.Layout g'.cart g'.loc g'.ext)
include hc hl hl'

theorem both_edge (h : OnRange g.cart.range m m') (bc : MaskBC) (inner : Bool) :
    Both (OnRange g.cart.range) (g.edge bc inner m) (g'.edge bc inner m') := by
  obtain ⟨e, he⟩ := edge_some hl bc inner m
  obtain ⟨e', he'⟩ := edge_some hl' bc inner m'
  refine .inr ⟨e, e', he, he', fun p hp => ?_⟩
  rw [Bool.eq_iff_iff, edge_spec hl he p hp, edge_spec hl' he' p (by rw [hc]; exact hp), hc, h.reads]
  exact and_congr_right fun _ => exists_congr fun x => and_congr_right fun _ => h.reads _ _ _

theorem both_dilate (h : OnRange g.cart.range m m') (w : Nat) (bc : MaskBC) :
    Both (OnRange g.cart.range) (dilateMask g.cart g.ranges m w bc) (dilateMask g'.cart g'.ranges m' w bc) := by
  obtain ⟨e, he, hs⟩ := C17_dilate hl bc w m
  obtain ⟨e', he', hs'⟩ := C17_dilate hl' bc w m'
  refine .inr ⟨e, e', he, he', fun p hp => ?_⟩
  rw [Bool.eq_iff_iff, hs p hp, hs' p (by rw [hc]; exact hp), hc]
  exact exists_congr fun x => and_congr_right fun _ => h.set _ _

theorem both_erode (h : OnRange g.cart.range m m') (w : Nat) (bc : MaskBC) :
    Both (OnRange g.cart.range) (erodeMask g.cart g.ranges m w bc) (erodeMask g'.cart g'.ranges m' w bc) := by
  obtain ⟨e, he, hs⟩ := C17_erode hl bc w m
  obtain ⟨e', he', hs'⟩ := C17_erode hl' bc w m'
  refine .inr ⟨e, e', he, he', fun p hp => ?_⟩
  rw [Bool.eq_iff_iff, hs p hp, hs' p (by rw [hc]; exact hp), hc]
  exact forall_congr' fun x => imp_congr_right fun _ => and_congr_left fun _ =>
    forall_congr' fun q => imp_congr_right fun hq => imp_congr_right fun _ => by rw [h q hq]

theorem same_count (h : OnRange g.cart.range m m') : g.count m = g'.count m' := by
  unfold Grid.count
  rw [ranges_eq, ranges_eq, C50_count hl.tiles, C50_count hl'.tiles, hc]
  congr 1
  exact List.filter_congr fun p hp => h p ((Rng.mem_points _ _).1 hp)

theorem same_any (h : OnRange g.cart.range m m') : g.points.any m = g'.points.any m' := by
  rw [Bool.eq_iff_iff, List.any_eq_true, List.any_eq_true]
  refine exists_congr fun p => ?_
  rw [mem_gridPoints hl, mem_gridPoints hl', hc]
  exact and_congr_right fun hp => by rw [h p hp]

/-- The points are the same up to order. -/
theorem points_perm : g.points.Perm g'.points := by
  have hnd : ∀ {g : Grid d}, Ovk.Spec.Layout g.cart g.loc g.ext → g.points.Nodup := by
    intro g hl
    unfold Grid.points
    rw [List.nodup_flatMap]
    refine ⟨fun k _ => Rng.nodup_points _, ?_⟩
    refine List.Pairwise.imp ?_ (List.nodup_iff_pairwise_ne.1 (List.nodup_finRange _))
    intro a b hab p ha hb
    rw [Rng.mem_points] at ha hb
    obtain ⟨k, -, hu⟩ := hl.tiles.2 p (fun i => by have := hl.tiles.1 a i; have := ha i; omega)
    exact hab ((hu a ha).trans (hu b hb).symm)
  rw [List.perm_ext_iff_of_nodup (hnd hl) (hnd hl')]
  intro p
  rw [mem_gridPoints hl, mem_gridPoints hl', hc]

theorem both_exterior (hne : ∀ k i, (g.loc k).b i < (g.loc k).e i) (hne' : ∀ k i, (g'.loc k).b i < (g'.loc k).e i)
    (h : OnRange g.cart.range m m') (bc : MaskBC) (inner : Bool) :
    Both (OnRange (cartIncludeExterior g.cart).range) (detectEdge g.cart bc inner true m g.ranges)
      (detectEdge g'.cart bc inner true m' g'.ranges) := by
  obtain ⟨e, he, hs⟩ := C17_edge hl hne bc inner true m
  obtain ⟨e', he', hs'⟩ := C17_edge hl' hne' bc inner true m'
  refine .inr ⟨e, e', he, he', fun p hp => ?_⟩
  rw [Bool.eq_iff_iff, (hs p (by simpa using hp)).2, (hs' p (by rw [hc]; simpa using hp)).2, hc, h.reads]
  exact and_congr_right fun _ => exists_congr fun x => and_congr_right fun _ => h.reads _ _ _

theorem both_coverLoop : ∀ (fuel : Nat) (unc unc' cov cov' : Mask d) (k : Nat), OnRange g.cart.range unc unc' →
    OnRange g.cart.range cov cov' →
    Both Eq (Problem.coverLoop g fuel unc cov k) (Problem.coverLoop g' fuel unc' cov' k) := by
  intro fuel
  induction fuel with
  | zero =>
    intro unc unc' cov cov' k hu hv
    unfold Problem.coverLoop
    exact .ite (by rw [same_any hc hl hl' hu]) (fun _ => .some rfl) fun _ => .none
  | succ fuel ih =>
    intro unc unc' cov cov' k hu hv
    unfold Problem.coverLoop
    refine .ite (by rw [same_any hc hl hl' hu]) (fun _ => .some rfl) fun _ => ?_
    refine Both.bind (both_dilate hc hl hl' hv 1 .false) fun a b hab => ih _ _ _ _ _ (fun p hp => ?_) hab
    rw [hu p hp, hab p hp]

theorem both_distLoop {recv recv' : Mask d} (hr : OnRange g.cart.range recv recv') (maxD : Nat) :
    ∀ (r k : Nat) (cov cov' : Mask d) (dist dist' : Tup d → Int), OnRange g.cart.range cov cov' →
    OnRange g.cart.range dist dist' →
    Both (OnRange g.cart.range) (Problem.distLoop g recv maxD r k cov dist)
      (Problem.distLoop g' recv' maxD r k cov' dist') := by
  intro r
  induction r with
  | zero => intro k cov cov' dist dist' _ hd; exact .some hd
  | succ r ih =>
    intro k cov cov' dist dist' hv hd
    unfold Problem.distLoop
    refine Both.bind (both_dilate hc hl hl' hv 1 .false) fun a b hab => ih _ _ _ _ _ hab fun p hp => ?_
    rw [hd p hp, hv p hp, hr p hp]

theorem both_distances (h : OnRange g.cart.range m m') (maxD : Nat) :
    Both (OnRange g.cart.range) (Problem.receiverDistances g m maxD) (Problem.receiverDistances g' m' maxD) := by
  unfold Problem.receiverDistances
  exact Both.bind (both_edge hc hl hl' h _ _) fun a b hab => both_distLoop hc hl hl' h _ _ _ _ _ _ _ hab
    fun p _ => rfl

theorem both_flood {group group' : Rng d → List (List (Tup d))} (hg : ∀ r, (group r).flatten = r.points)
    (hg' : ∀ r, (group' r).flatten = r.points) {b b' : Mask d} (h : OnRange g.cart.range m m')
    (hb : OnRange g.cart.range b b') : Both (OnRange g.cart.range)
      (CC.floodMask m b ((List.finRange g.np).map fun r => CC.gridProc group g.cart (g.loc r) (g.ext r)))
      (CC.floodMask m' b' ((List.finRange g'.np).map fun r => CC.gridProc group' g'.cart (g'.loc r) (g'.ext r))) := by
  obtain ⟨o, ho, hs⟩ := C16_flood hg hl.proper hl.unique hl.tiles hl.offers m b
  obtain ⟨o', ho', hs'⟩ := C16_flood hg' hl'.proper hl'.unique hl'.tiles hl'.offers m' b'
  refine .inr ⟨o, o', ho, ho', fun p hp => ?_⟩
  rw [Bool.eq_iff_iff, hs p hp, hs' p (by rw [hc]; exact hp), h p hp, hc]
  refine or_congr_right ⟨?_, ?_⟩
  · rintro ⟨s, hm, hr⟩
    exact ⟨s, by rw [← h s (reaches_start hr)]; exact hm, reaches_congr hb hr⟩
  · rintro ⟨s, hm, hr⟩
    exact ⟨s, by rw [h s (reaches_start hr)]; exact hm, reaches_congr (fun p hp => (hb p hp).symm) hr⟩
end

/-! ### The problem on other processes -/

/-- Another division of the grids among processes, with the data found on it. -/
structure Division (d n : Nat) where
  np : Fin n → Nat
  loc : (k : Fin n) → Fin (np k) → Rng d
  ext : (k : Fin n) → Fin (np k) → Rng d
  group : Rng d → List (List (Tup d))
  found : Fin n → Fin n → Tup d → Option (Tup d)
  vol : Fin n → Tup d → Rat
  ovVol : Fin n → Fin n → Tup d → Rat

/-- The problem with another division of the grids among processes. -/
def Problem.redist (P : Problem d n) (D : Division d n) : Problem d n :=
  { P with
    grid := fun k => ⟨(P.grid k).cart, D.np k, D.loc k, D.ext k⟩
    group := D.group, found := D.found, vol := D.vol, ovVol := D.ovVol }

theorem Spec.Same.redist {P P' : Problem d n} (h : Same P P') :
    P' = P.redist ⟨fun k => (P'.grid k).np, fun k => (P'.grid k).loc, fun k => (P'.grid k).ext, P'.group, P'.found,
      P'.vol, P'.ovVol⟩ := by
  have hg : P'.grid = fun k => ⟨(P.grid k).cart, (P'.grid k).np, (P'.grid k).loc, (P'.grid k).ext⟩ := by
    funext k; rw [← h.cart k]
  have h1 := h.inferBoundaries
  have h2 := h.cutBoundaryHoles
  have h3 := h.fringeSize
  have h4 := h.occludes
  have h5 := h.edgePadding
  have h6 := h.edgeSmoothing
  have h7 := h.minimizeOverlap
  have h8 := h.connected
  have h9 := h.disjoint
  have h10 := h.fuel
  clear h
  cases P'
  dsimp only at *
  subst h1 h2 h3 h4 h5 h6 h7 h8 h9 h10
  unfold Problem.redist
  dsimp only
  congr 1

/-- States that agree at the points of the grids. -/
structure Alike (P : Problem d n) (s s' : St d n) : Prop where
  flags : ∀ k, OnRange (P.grid k).cart.range (s.flags k) (s'.flags k)
  active : ∀ k, OnRange (P.grid k).cart.range (s.active k) (s'.active k)
  domBdry : ∀ k, OnRange (P.grid k).cart.range (s.domBdry k) (s'.domBdry k)
  intBdry : ∀ k, OnRange (P.grid k).cart.range (s.intBdry k) (s'.intBdry k)
  ov : ∀ m k, OnRange (P.grid k).cart.range (s.ov m k) (s'.ov m k)
  overlap : ∀ m k, OnRange (P.grid k).cart.range (s.overlap m k) (s'.overlap m k)
  outer : ∀ k, OnRange (P.grid k).cart.range (s.outer k) (s'.outer k)
  pairOccl : ∀ m k, OnRange (P.grid k).cart.range (s.pairOccl m k) (s'.pairOccl m k)
  occl : ∀ k, OnRange (P.grid k).cart.range (s.occl k) (s'.occl k)
  minim : ∀ k, OnRange (P.grid k).cart.range (s.minim k) (s'.minim k)
  inner : ∀ k, OnRange (P.grid k).cart.range (s.inner k) (s'.inner k)
  cells : ∀ m k p cell, s.ov m k p = some cell → P.found m k p = some cell

section
variable {P : Problem d n} {s s' : St d n} (A : Alike P s s')
include A

theorem Alike.regenerate (sel : Fin n → Bool) : Alike P (s.regenerate sel) (s'.regenerate sel) where
  flags := A.flags
  active := fun k p hp => by
    show (if sel k then activeMask (s.flags k) else s.active k) p = (if sel k then activeMask (s'.flags k) else s'.active k) p
    split
    · unfold activeMask; rw [A.flags k p hp]
    · exact A.active k p hp
  domBdry := fun k p hp => by
    show (if sel k then domainBoundaryMask (s.flags k) else s.domBdry k) p =
      (if sel k then domainBoundaryMask (s'.flags k) else s'.domBdry k) p
    split
    · unfold domainBoundaryMask; rw [A.flags k p hp]
    · exact A.domBdry k p hp
  intBdry := fun k p hp => by
    show (if sel k then internalBoundaryMask (s.flags k) else s.intBdry k) p =
      (if sel k then internalBoundaryMask (s'.flags k) else s'.intBdry k) p
    split
    · unfold internalBoundaryMask; rw [A.flags k p hp]
    · exact A.intBdry k p hp
  ov := A.ov
  overlap := A.overlap
  outer := A.outer
  pairOccl := A.pairOccl
  occl := A.occl
  minim := A.minim
  inner := A.inner
  cells := A.cells

theorem Alike.write {sel sel' : Fin n → Bool} (hs : ∀ k, sel k = sel' k) {m m' : Fin n → Mask d}
    (hm : ∀ k, OnRange (P.grid k).cart.range (m k) (m' k)) (f : Flags → Flags) :
    Alike P (s.write sel m f) (s'.write sel' m' f) :=
  { A with
    flags := fun k p hp => by
      show (if sel k && m k p then f (s.flags k p) else s.flags k p) =
        if sel' k && m' k p then f (s'.flags k p) else s'.flags k p
      rw [hs k, hm k p hp, A.flags k p hp]
    active := A.active, domBdry := A.domBdry, intBdry := A.intBdry, ov := A.ov, overlap := A.overlap
    outer := A.outer, pairOccl := A.pairOccl, occl := A.occl, minim := A.minim, inner := A.inner, cells := A.cells }
end

section
variable {P : Problem d n} {D : Division d n}

variable (hV : Spec.Valid P) (hV' : Spec.Valid (P.redist D))
include hV hV'

section
variable {s s' : St d n} (A : Alike P s s')
include A

theorem alike_ovExists (m k : Fin n) : P.ovExists s m k = (P.redist D).ovExists s' m k :=
  same_any (g := P.grid k) (g' := (P.redist D).grid k) rfl (hV.layouts k) (hV'.layouts k)
    fun p hp => by rw [A.ov m k p hp]

theorem alike_infer : Both (Alike P) (P.inferBoundaries_ s) ((P.redist D).inferBoundaries_ s') := by
  refine Both.bind (Both.all fun k => both_edge (g := P.grid k) (g' := (P.redist D).grid k) rfl (hV.layouts k) (hV'.layouts k)
    (A.active k) .false true) fun e e' he => .some ?_
  have hinf : ∀ k, OnRange (P.grid k).cart.range
      (fun p => e k p && !s.domBdry k p && !decide (∃ m, P.ovExists s m k = true ∧ (s.ov m k p).isSome = true))
      (fun p => e' k p && !s'.domBdry k p &&
        !decide (∃ m, (P.redist D).ovExists s' m k = true ∧ (s'.ov m k p).isSome = true)) := by
    intro k p hp
    have : (∃ m, P.ovExists s m k = true ∧ (s.ov m k p).isSome = true) ↔
        ∃ m, (P.redist D).ovExists s' m k = true ∧ (s'.ov m k p).isSome = true :=
      exists_congr fun m => by rw [alike_ovExists hV hV' A, A.ov m k p hp]
    dsimp only
    rw [he k p hp, A.domBdry k p hp, decide_eq_decide.2 this]
  have B := A.write (sel := P.inferBoundaries) (sel' := (P.redist D).inferBoundaries) (fun _ => rfl) hinf
    (·.or [.domainBoundary, .inferredDomainBoundary])
  exact { B with
    active := B.active, domBdry := fun k p hp => by
      show (if P.inferBoundaries k then _ else _) = if P.inferBoundaries k then _ else _
      have := hinf k p hp
      dsimp only at this ⊢
      rw [this, A.domBdry k p hp]
    intBdry := B.intBdry, ov := B.ov, overlap := B.overlap, outer := B.outer, pairOccl := B.pairOccl, occl := B.occl
    minim := B.minim, inner := B.inner, cells := B.cells }

theorem alike_cut (m k : Fin n) : P.cut s m k = (P.redist D).cut s' m k := by
  unfold Problem.cut
  rw [alike_ovExists hV hV' A, alike_ovExists hV hV' A]; rfl

theorem alike_cutN (k : Fin n) : P.cutN s k = (P.redist D).cutN s' k :=
  decide_eq_decide.2 (exists_congr fun m => by rw [alike_cut hV hV' A])

theorem alike_cover (a b : Fin n) {m m' : Mask d} (hm : OnRange (P.grid b).cart.range m m') (p : Tup d) :
    P.cover s a b m p = (P.redist D).cover s' a b m' p := by
  unfold Problem.cover
  have : P.cellCover s a b m = (P.redist D).cellCover s' a b m' := by
    funext x
    refine same_any (g := P.grid b) (g' := (P.redist D).grid b) rfl (hV.layouts b) (hV'.layouts b) fun q hq => ?_
    rw [A.ov a b q hq, hm q hq]; rfl
  rw [this]; rfl

theorem alike_projected (m k : Fin n) : Both (OnRange (P.grid k).cart.range) (P.projected s m k)
    ((P.redist D).projected s' m k) := by
  have hk := hV.layouts k
  have hk' := hV'.layouts k
  refine Both.bind (both_edge (g := P.grid m) (g' := (P.redist D).grid m) rfl (hV.layouts m) (hV'.layouts m) (A.overlap k m)
    .false true) fun e e' he => ?_
  have hcov := alike_cover hV hV' A k m he
  refine Both.bind (both_edge (g := P.grid k) (g' := (P.redist D).grid k) rfl hk hk' (A.overlap m k) .mirror false)
    fun u u' hu => ?_
  refine Both.bind (both_coverLoop (g := P.grid k) (g' := (P.redist D).grid k) rfl hk hk' P.fuel _ _ _ _ 0
    (fun p hp => ?_) fun p _ => hcov p) fun t t' ht => ?_
  · rw [hu p hp, hcov p]
  subst ht
  refine Both.bind (both_dilate (g := P.grid k) (g' := (P.redist D).grid k) rfl hk hk'
    (fun p _ => alike_cover hV hV' A k m (A.domBdry m) p) t .false) fun c c' hc => ?_
  refine Both.bind (both_edge (g := P.grid k) (g' := (P.redist D).grid k) rfl hk hk' (fun p hp => ?_) .false false)
    fun e e' he => .some fun p hp => ?_
  · rw [hc p hp, A.overlap m k p hp]
  · rw [he p hp, A.overlap m k p hp]

theorem alike_holes {proj proj' : Fin n → Fin n → Mask d}
    (hp : ∀ m k, OnRange (P.grid k).cart.range (proj m k) (proj' m k)) (k : Fin n) :
    Both (OnRange (P.grid k).cart.range) (P.holes s proj k) ((P.redist D).holes s' proj' k) := by
  have hk := hV.layouts k
  have hk' := hV'.layouts k
  have hb : OnRange (P.grid k).cart.range
      (fun p => s.domBdry k p || decide (∃ m, P.cut s m k = true ∧ proj m k p = true))
      (fun p => s'.domBdry k p || decide (∃ m, (P.redist D).cut s' m k = true ∧ proj' m k p = true)) := by
    intro p h
    have : (∃ m, P.cut s m k = true ∧ proj m k p = true) ↔ ∃ m, (P.redist D).cut s' m k = true ∧ proj' m k p = true :=
      exists_congr fun m => by rw [alike_cut hV hV' A, hp m k p h]
    dsimp only
    rw [A.domBdry k p h, decide_eq_decide.2 this]
  unfold Problem.holes
  refine Both.bind (Both.all (R := fun _ => OnRange (P.grid k).cart.range) fun m =>
    .ite (by rw [alike_cut hV hV' A]) (fun _ => both_edge (g := P.grid k) (g' := (P.redist D).grid k) rfl hk hk' (hp m k) .false
      false) fun _ => .some fun p _ => rfl) fun e e' he => ?_
  have hi : OnRange (P.grid k).cart.range
      (fun p => decide (∃ m, P.cut s m k = true ∧ (e m p && s.overlap m k p) = true))
      (fun p => decide (∃ m, (P.redist D).cut s' m k = true ∧ (e' m p && s'.overlap m k p) = true)) := by
    intro p h
    exact decide_eq_decide.2 (exists_congr fun m => by
      rw [alike_cut hV hV' A, he m p h, A.overlap m k p h])
  refine .ite (by rw [same_count (g := P.grid k) (g' := (P.redist D).grid k) rfl hk hk' hi]) (fun _ => ?_)
    fun _ => .some fun p _ => rfl
  refine Both.bind (both_flood (g := P.grid k) (g' := (P.redist D).grid k) rfl hk hk' hV.group hV'.group hi hb)
    fun f f' hf => ?_
  refine Both.bind (both_edge (g := P.grid k) (g' := (P.redist D).grid k) rfl hk hk' (A.active k) .false true)
    fun a a' ha => ?_
  refine Both.bind (both_edge (g := P.grid k) (g' := (P.redist D).grid k) rfl hk hk' hf .false false) fun i i' hi => ?_
  refine .some fun p h => ?_
  have := hb p h
  dsimp only at this ⊢
  rw [A.active k p h, hf p h, this, A.domBdry k p h, ha p h, hi p h]

omit hV' in
theorem alike_verts {m k : Fin n} {p cell v : Tup d} (hp : Ovk.Spec.pts (P.grid k).cart.range p)
    (hc : s.ov m k p = some cell) (hv : v ∈ (P.grid m).verts cell) : Ovk.Spec.pts (P.grid m).cart.range v :=
  ((verts_corner (hV.layouts m) (hV.cells m k p cell hp (A.cells m k p cell hc))).1 hv).1

omit hV' in
theorem alike_all {m k : Fin n} {p cell : Tup d} (hp : Ovk.Spec.pts (P.grid k).cart.range p)
    (hc : s.ov m k p = some cell) {f f' : Mask d} (hf : OnRange (P.grid m).cart.range f f') :
    ((P.grid m).verts cell).all f = (((P.redist D).grid m).verts cell).all f' := by
  show _ = ((P.grid m).verts cell).all f'
  rw [Bool.eq_iff_iff, List.all_eq_true, List.all_eq_true]
  exact forall_congr' fun v => imp_congr_right fun hv => by rw [hf v (alike_verts hV A hp hc hv)]

omit hV' in
theorem alike_update {sel sel' : Fin n → Fin n → Bool} (hs : ∀ m k, sel m k = sel' m k) :
    Alike P (P.updateOverlap s sel) ((P.redist D).updateOverlap s' sel') :=
  { A with
    flags := A.flags, active := A.active, domBdry := A.domBdry, intBdry := A.intBdry, ov := A.ov
    outer := A.outer, pairOccl := A.pairOccl, occl := A.occl, minim := A.minim, inner := A.inner, cells := A.cells
    overlap := fun m k p hp => by
      unfold Problem.updateOverlap
      dsimp only
      rw [← A.ov m k p hp]
      cases hc : s.ov m k p with
      | none => dsimp only; rw [hs, A.overlap m k p hp, A.active k p hp]
      | some cell => exact alike_all hV A hp hc (A.active m) }

theorem alike_cutHoles : Both (Alike P) (P.cutBoundaryHoles_ s) ((P.redist D).cutBoundaryHoles_ s') := by
  refine Both.bind (Both.all (R := fun _ a b => ∀ k, OnRange (P.grid k).cart.range (a k) (b k)) fun m =>
    Both.all (R := fun k => OnRange (P.grid k).cart.range) fun k => .ite (by rw [alike_cut hV hV' A])
      (fun _ => alike_projected hV hV' A m k) fun _ => .some fun p _ => rfl) fun pr pr' hpr => ?_
  refine Both.bind (Both.all (R := fun k => OnRange (P.grid k).cart.range) fun k => .ite (by rw [alike_cutN hV hV' A])
    (fun _ => alike_holes hV hV' A hpr k) fun _ => .some fun p _ => rfl) fun h h' hh => .some ?_
  have hsel : ∀ k, (P.cutN s k && decide ((P.grid k).count (h k) ≠ 0)) =
      ((P.redist D).cutN s' k && decide (((P.redist D).grid k).count (h' k) ≠ 0)) := fun k => by
    rw [alike_cutN hV hV' A,
      same_count (g := P.grid k) (g' := (P.redist D).grid k) rfl (hV.layouts k) (hV'.layouts k) (hh k)]
  have B := (A.write hsel hh fun f => (f.andNot [.active]).or [.boundaryHole]).regenerate
    fun k => P.cutN s k && decide ((P.grid k).count (h k) ≠ 0)
  have C := alike_update (D := D) hV B (alike_cut hV hV' A)
  rw [funext hsel] at C ⊢
  exact C

theorem alike_outerMask (k : Fin n) : Both (OnRange (P.grid k).cart.range) (P.outerMask s k) ((P.redist D).outerMask s' k) := by
  have hk := hV.layouts k
  have hk' := hV'.layouts k
  have hne := hV.nonempty k
  have hne' := hV'.nonempty k
  refine Both.bind (both_exterior (g := P.grid k) (g' := (P.redist D).grid k) rfl hk hk' hne hne'
    (fun p hp => by rw [A.domBdry k p hp, A.intBdry k p hp]) .false false) fun b b' hb => ?_
  refine Both.bind (both_exterior (g := P.grid k) (g' := (P.redist D).grid k) rfl hk hk' hne hne'
    (fun p hp => by dsimp only; rw [A.active k p hp, A.domBdry k p hp, A.intBdry k p hp]) .false false) fun c c' hc => ?_
  refine Both.bind (both_exterior (g := P.grid k) (g' := (P.redist D).grid k) rfl hk hk' hne hne' (A.active k) .false false)
    fun a a' ha => ?_
  refine Both.bind (both_dilate (g := ⟨cartIncludeExterior (P.grid k).cart, (P.grid k).np,
      fun r => rangeIncludeExterior (P.grid k).cart ((P.grid k).loc r),
      fun r => rangeIncludeExterior (P.grid k).cart ((P.grid k).ext r)⟩)
    (g' := ⟨cartIncludeExterior (P.grid k).cart, D.np k, fun r => rangeIncludeExterior (P.grid k).cart (D.loc k r),
      fun r => rangeIncludeExterior (P.grid k).cart (D.ext k r)⟩) rfl (layout_exterior hk hne) (layout_exterior hk' hne')
    (fun p hp => ?_) (P.fringeSize k) .false) fun o o' ho => .some fun p hp => ?_
  · rw [ha p hp, hb p hp, hc p hp]
  · rw [A.active k p hp, ho p fun i => ?_]
    have := hp i
    simp only [cartIncludeExterior]
    split_ifs <;> omega

theorem alike_outer : Both (Alike P) (P.locateOuterFringe_ s) ((P.redist D).locateOuterFringe_ s') := by
  refine Both.bind (Both.all (R := fun k => OnRange (P.grid k).cart.range) fun k => .ite Iff.rfl
    (fun _ => .some fun p _ => rfl) fun _ => alike_outerMask hV hV' A k) fun o o' ho => .some ?_
  have B := A.write (sel := fun k => decide (P.fringeSize k ≠ 0) && decide ((P.grid k).count (o k) ≠ 0))
    (sel' := fun k => decide ((P.redist D).fringeSize k ≠ 0) && decide (((P.redist D).grid k).count (o' k) ≠ 0)) (fun k => by
      rw [same_count (g := P.grid k) (g' := (P.redist D).grid k) rfl (hV.layouts k) (hV'.layouts k) (ho k)]; rfl) ho
    (·.or [.fringe, .outerFringe])
  exact { B with
    active := B.active, domBdry := B.domBdry, intBdry := B.intBdry, ov := B.ov, overlap := B.overlap, outer := ho
    pairOccl := B.pairOccl, occl := B.occl, minim := B.minim, inner := B.inner, cells := B.cells }

theorem alike_mutualPass (sel : Fin n → Fin n → Bool) {po po' : Fin n → Fin n → Mask d}
    (hp : ∀ m k, OnRange (P.grid k).cart.range (po m k) (po' m k)) :
    Both (fun a b => ∀ m k, OnRange (P.grid k).cart.range (a m k) (b m k)) (P.mutualPass s sel po)
      ((P.redist D).mutualPass s' sel po') := by
  unfold Problem.mutualPass
  refine .ite ?_ (fun _ => .none) fun _ => .some fun m k p h => ?_
  · exact exists_congr fun m => exists_congr fun k => by
      rw [alike_ovExists hV hV' A, alike_ovExists hV hV' A]; rfl
  · show (if (P.ovExists s m k && P.mutually m k && sel m k) = true then _ else _) =
      if ((P.redist D).ovExists s' m k && P.mutually m k && sel m k) = true then _ else _
    rw [alike_ovExists hV hV' A, ← A.ov m k p h, hp m k p h]
    split
    · cases hc : s.ov m k p with
      | none => rfl
      | some cell => exact alike_all hV A h hc (hp k m).not
    · rfl

theorem alike_occPair (m k : Fin n) : P.occPair s m k = (P.redist D).occPair s' m k := by
  unfold Problem.occPair; rw [alike_ovExists hV hV' A]; rfl

theorem alike_disallow {po po' : Fin n → Fin n → Mask d}
    (hp : ∀ m k, OnRange (P.grid k).cart.range (po m k) (po' m k)) (m k : Fin n) :
    Both (OnRange (P.grid m).cart.range) (P.disallow s po m k) ((P.redist D).disallow s' po' m k) := by
  unfold Problem.disallow
  refine .ite (by rw [alike_ovExists hV hV' A]; rfl) (fun _ => .none) fun _ => ?_
  refine both_dilate (g := P.grid m) (g' := (P.redist D).grid m) rfl (hV.layouts m) (hV'.layouts m) (fun p h => ?_) _ .mirror
  rw [A.flags m p h, hp k m p h, A.active m p h]; rfl

omit A in
theorem alike_smooth (k : Fin n) {b b' o o' : Mask d} (hb : OnRange (P.grid k).cart.range b b')
    (ho : OnRange (P.grid k).cart.range o o') :
    Both (OnRange (P.grid k).cart.range) (P.smooth k b o) ((P.redist D).smooth k b' o') := by
  unfold Problem.smooth
  refine .ite Iff.rfl (fun _ => .some ho) fun _ => ?_
  refine Both.bind (both_dilate (g := P.grid k) (g' := (P.redist D).grid k) rfl (hV.layouts k) (hV'.layouts k) ho _ .mirror)
    fun x x' hx => ?_
  refine Both.bind (both_erode (g := P.grid k) (g' := (P.redist D).grid k) rfl (hV.layouts k) (hV'.layouts k) hx _ .mirror)
    fun y y' hy => .some fun p hp => ?_
  rw [hy p hp, hb p hp]

theorem alike_occluded (hvol : ∀ k, OnRange (P.grid k).cart.range (P.vol k) (D.vol k))
    (hov : ∀ m k p, Ovk.Spec.pts (P.grid k).cart.range p → (P.found m k p).isSome = true →
      P.ovVol m k p = D.ovVol m k p) :
    Both (Alike P) (P.detectOccluded_ s) ((P.redist D).detectOccluded_ s') := by
  have hpw : ∀ m k, OnRange (P.grid k).cart.range (P.pairwise s m k) ((P.redist D).pairwise s' m k) := by
    intro m k p hp
    unfold Problem.pairwise
    rw [← A.ov m k p hp, ← A.overlap m k p hp]
    show (match P.occludes m k with
      | .coarse => (s.ov m k p).isSome && (s.overlap m k p &&
        decide (P.vol k p > (1 + 1 / 10000000000) * P.ovVol m k p))
      | .all => s.overlap m k p
      | .none => false) = match P.occludes m k with
      | .coarse => (s.ov m k p).isSome && (s.overlap m k p &&
        decide (D.vol k p > (1 + 1 / 10000000000) * D.ovVol m k p))
      | .all => s.overlap m k p
      | .none => false
    cases hc : s.ov m k p with
    | none => rfl
    | some cell => rw [hvol k p hp, hov m k p hp (by rw [A.cells m k p cell hc]; rfl)]
  refine Both.bind (alike_mutualPass hV hV' A (fun m k => decide (m ≤ k)) hpw) fun p1 p1' hp1 => ?_
  refine Both.bind (alike_mutualPass hV hV' A (fun m k => decide (k ≤ m)) hp1) fun p2 p2' hp2 => ?_
  refine Both.bind (Both.all (R := fun m a b => ∀ k : Fin n, OnRange (P.grid m).cart.range (a k) (b k)) fun m =>
    Both.all (R := fun _ => OnRange (P.grid m).cart.range) fun k => .ite (by rw [alike_occPair hV hV' A])
      (fun _ => alike_disallow hV hV' A hp2 m k) fun _ => .some fun p _ => rfl) fun ds ds' hds => ?_
  have hpad : ∀ m k, OnRange (P.grid k).cart.range
      (fun p => p2 m k p && !(match s.ov m k p with
        | some cell => ((P.grid m).verts cell).all fun q => !ds m k q
        | none => false))
      (fun p => p2' m k p && !(match s'.ov m k p with
        | some cell => (((P.redist D).grid m).verts cell).all fun q => !ds' m k q
        | none => false)) := by
    intro m k p hp
    dsimp only
    rw [hp2 m k p hp, ← A.ov m k p hp]
    cases hc : s.ov m k p with
    | none => rfl
    | some cell =>
      dsimp only
      rw [alike_all hV A hp hc (hds m k).not]
  have hocc : ∀ {q q' : Fin n → Fin n → Mask d}, (∀ m k, OnRange (P.grid k).cart.range (q m k) (q' m k)) → ∀ k,
      OnRange (P.grid k).cart.range (fun p => decide (∃ m, P.occPair s m k = true ∧ q m k p = true))
        (fun p => decide (∃ m, (P.redist D).occPair s' m k = true ∧ q' m k p = true)) := by
    intro q q' hq k p hp
    exact decide_eq_decide.2 (exists_congr fun m => by rw [alike_occPair hV hV' A, hq m k p hp])
  have hdif : ∀ m k, OnRange (P.grid k).cart.range
      (fun p => p2 m k p && !(p2 m k p && !(match s.ov m k p with
        | some cell => ((P.grid m).verts cell).all fun q => !ds m k q
        | none => false)))
      (fun p => p2' m k p && !(p2' m k p && !(match s'.ov m k p with
        | some cell => (((P.redist D).grid m).verts cell).all fun q => !ds' m k q
        | none => false))) := by
    intro m k p hp
    have := hpad m k p hp
    dsimp only at this ⊢
    rw [this, hp2 m k p hp]
  refine Both.bind (Both.all (R := fun k => OnRange (P.grid k).cart.range) fun k => alike_smooth hV hV' k
    (hocc hp2 k) (hocc hdif k)) fun o o' ho => .some ?_
  have hpo : ∀ m k, OnRange (P.grid k).cart.range
      (fun p => if P.occPair s m k then p2 m k p && !((p2 m k p && !(match s.ov m k p with
        | some cell => ((P.grid m).verts cell).all fun q => !ds m k q
        | none => false)) && !o k p) else p2 m k p)
      (fun p => if (P.redist D).occPair s' m k then p2' m k p && !((p2' m k p && !(match s'.ov m k p with
        | some cell => (((P.redist D).grid m).verts cell).all fun q => !ds' m k q
        | none => false)) && !o' k p) else p2' m k p) := by
    intro m k p hp
    have := hpad m k p hp
    dsimp only at this ⊢
    rw [this, hp2 m k p hp, ho k p hp, alike_occPair hV hV' A]
  have B := A.write (fun k => congrArg (fun x => decide (x ≠ 0))
      (same_count (g := P.grid k) (g' := (P.redist D).grid k) rfl (hV.layouts k) (hV'.layouts k) (hocc hpo k)))
    (hocc hpo) (·.or [.occluded])
  exact { B with
    active := B.active, domBdry := B.domBdry, intBdry := B.intBdry, ov := B.ov, overlap := B.overlap, outer := B.outer
    pairOccl := hpo, occl := hocc hpo, minim := B.minim, inner := B.inner, cells := B.cells }

theorem alike_minimizeMasks (k : Fin n) : Both (fun a b => OnRange (P.grid k).cart.range a.1 b.1 ∧
    OnRange (P.grid k).cart.range a.2 b.2) (P.minimizeMasks s k) ((P.redist D).minimizeMasks s' k) := by
  have hm : OnRange (P.grid k).cart.range
      (fun p => decide (∃ m, P.occPair s m k = true ∧ P.minimizeOverlap m k = true ∧ s.pairOccl m k p = true))
      (fun p => decide (∃ m, (P.redist D).occPair s' m k = true ∧ P.minimizeOverlap m k = true ∧
        s'.pairOccl m k p = true)) := fun p hp =>
    decide_eq_decide.2 (exists_congr fun m => by rw [alike_occPair hV hV' A, A.pairOccl m k p hp])
  unfold Problem.minimizeMasks
  refine .ite Iff.rfl (fun _ => ?_) fun _ => .some ⟨hm, fun p _ => rfl⟩
  refine Both.bind (both_erode (g := P.grid k) (g' := (P.redist D).grid k) rfl (hV.layouts k) (hV'.layouts k)
    (fun p hp => by rw [A.occl k p hp, A.active k p hp]) _ .true) fun r r' hr => ?_
  have hm' : OnRange (P.grid k).cart.range
      (fun p => decide (∃ m, P.occPair s m k = true ∧ P.minimizeOverlap m k = true ∧ s.pairOccl m k p = true) &&
        (r p && s.active k p))
      (fun p => decide (∃ m, (P.redist D).occPair s' m k = true ∧ P.minimizeOverlap m k = true ∧
        s'.pairOccl m k p = true) && (r' p && s'.active k p)) := by
    intro p hp
    have := hm p hp
    dsimp only at this ⊢
    rw [this, hr p hp, A.active k p hp]
  refine Both.bind (both_dilate (g := P.grid k) (g' := (P.redist D).grid k) rfl (hV.layouts k) (hV'.layouts k) hm' _ .false)
    fun i i' hi => .some ⟨hm', fun p hp => ?_⟩
  have h1 := hm' p hp
  have h2 := A.active k p hp
  dsimp only at h1 ⊢
  rw [hi p hp, h1, h2]; rfl

theorem alike_minimize : Both (Alike P) (P.minimizeOverlap_ s) ((P.redist D).minimizeOverlap_ s') := by
  refine Both.bind (Both.all fun k => alike_minimizeMasks hV hV' A k) fun mk mk' hmk => .some ?_
  have h1 : ∀ k, (P.grid k).count (mk k).1 = ((P.redist D).grid k).count (mk' k).1 := fun k =>
    same_count (g := P.grid k) (g' := (P.redist D).grid k) rfl (hV.layouts k) (hV'.layouts k) (hmk k).1
  have h2 : ∀ k, (P.grid k).count (mk k).2 = ((P.redist D).grid k).count (mk' k).2 := fun k =>
    same_count (g := P.grid k) (g' := (P.redist D).grid k) rfl (hV.layouts k) (hV'.layouts k) (hmk k).2
  dsimp only
  simp only [h1, h2]
  have B : Alike P
      { s with
        flags := fun k p => if ((P.redist D).grid k).count (mk' k).1 = 0 ∧ ((P.redist D).grid k).count (mk' k).2 = 0
          then s.flags k p else Problem.minimizeFlags ((mk k).1 p) ((mk k).2 p) (s.flags k p)
        minim := fun k => (mk k).1
        inner := fun k => (mk k).2 }
      { s' with
        flags := fun k p => if ((P.redist D).grid k).count (mk' k).1 = 0 ∧ ((P.redist D).grid k).count (mk' k).2 = 0
          then s'.flags k p else Problem.minimizeFlags ((mk' k).1 p) ((mk' k).2 p) (s'.flags k p)
        minim := fun k => (mk' k).1
        inner := fun k => (mk' k).2 } :=
    { A with
      flags := fun k p hp => by
        dsimp only
        rw [(hmk k).1 p hp, (hmk k).2 p hp, A.flags k p hp]
      active := A.active, domBdry := A.domBdry, intBdry := A.intBdry, ov := A.ov, overlap := A.overlap
      outer := A.outer, pairOccl := A.pairOccl, occl := A.occl, cells := A.cells
      minim := fun k => (hmk k).1, inner := fun k => (hmk k).2 }
  have C := B.regenerate fun k => decide (((P.redist D).grid k).count (mk' k).1 > 0)
  refine alike_update hV (sel := fun _ _ => true) (sel' := fun _ _ => true) ?_ fun _ _ => rfl
  exact { C with
    active := C.active, domBdry := C.domBdry, intBdry := C.intBdry, ov := C.ov, overlap := C.overlap
    outer := fun k p hp => by
      have h3 := C.flags k p hp
      have h4 := C.outer k p hp
      dsimp only
      rw [h3, h4]
    pairOccl := C.pairOccl, occl := C.occl, minim := C.minim, inner := C.inner, cells := C.cells }

theorem alike_maxDistance (m : Fin n) : P.maxDistance s m = (P.redist D).maxDistance s' m := by
  unfold Problem.maxDistance
  simp only [alike_ovExists hV hV' A]
  rfl

omit hV' in
theorem alike_distance {m k : Fin n} {p cell : Tup d} (hp : Ovk.Spec.pts (P.grid k).cart.range p)
    (hc : s.ov m k p = some cell) {f f' : Tup d → Int} (hf : OnRange (P.grid m).cart.range f f') :
    Problem.cellDistance (P.grid m) f cell = Problem.cellDistance ((P.redist D).grid m) f' cell := by
  have hv : ∀ v ∈ (P.grid m).verts cell, f v = f' v := fun v h => hf v (alike_verts hV A hp hc h)
  show _ = Problem.cellDistance (P.grid m) f' cell
  unfold Problem.cellDistance
  cases h : (P.grid m).verts cell with
  | nil => rfl
  | cons v vs =>
    rw [h] at hv
    dsimp only
    rw [hv v (by simp)]
    have : ∀ (l : List (Tup d)) (a : Int), (∀ q ∈ l, f q = f' q) →
        l.foldl (fun a q => min a (f q)) a = l.foldl (fun a q => min a (f' q)) a := by
      intro l
      induction l with
      | nil => intro _ _; rfl
      | cons x l ih =>
        intro a hl
        rw [List.foldl_cons, List.foldl_cons, hl x (by simp)]
        exact ih _ fun q hq => hl q (by simp [hq])
    exact this vs _ fun q hq => hv q (by simp [hq])

theorem alike_choose (hov : ∀ m k p, Ovk.Spec.pts (P.grid k).cart.range p → (P.found m k p).isSome = true →
      P.ovVol m k p = D.ovVol m k p) (k : Fin n)
    {recv recv' : Mask d} (hr : OnRange (P.grid k).cart.range recv recv') {dist dist' : Fin n → Tup d → Int}
    (hd : ∀ m, OnRange (P.grid m).cart.range (dist m) (dist' m)) {p : Tup d}
    (hp : Ovk.Spec.pts (P.grid k).cart.range p) :
    P.chooseDonor s recv dist k p = (P.redist D).chooseDonor s' recv' dist' k p := by
  unfold Problem.chooseDonor
  congr 1
  funext acc m
  unfold Problem.donorStep
  rw [alike_ovExists hV hV' A, ← A.ov m k p hp, hr p hp, A.overlap m k p hp]
  show _ = if (_ && P.connected m k) = true then _ else _
  split
  · cases hc : s.ov m k p with
    | none => rfl
    | some cell =>
      dsimp only
      split
      · rw [alike_distance hV A hp hc (hd m), hov m k p hp (by rw [A.cells m k p cell hc]; rfl)]; rfl
      · rfl
  · rfl

theorem alike_generate (hov : ∀ m k p, Ovk.Spec.pts (P.grid k).cart.range p → (P.found m k p).isSome = true →
      P.ovVol m k p = D.ovVol m k p) :
    Both (SameResult P) (P.generate_ s) ((P.redist D).generate_ s') := by
  have hr : ∀ k, OnRange (P.grid k).cart.range (receivers s k) (receivers s' k) := fun k p hp => by
    unfold receivers; rw [A.outer k p hp, A.inner k p hp, A.occl k p hp, A.active k p hp]
  refine Both.bind (Both.all (R := fun k => OnRange (P.grid k).cart.range) fun k => ?_) fun dist dist' hd => .some ?_
  · dsimp only
    rw [alike_maxDistance hV hV' A]
    exact both_distances (g := P.grid k) (g' := (P.redist D).grid k) rfl (hV.layouts k) (hV'.layouts k) (hr k) _
  have hdon : ∀ k, OnRange (P.grid k).cart.range
      (fun p => (P.chooseDonor s (receivers s k) dist k p).map Problem.Choice.grid)
      (fun p => ((P.redist D).chooseDonor s' (receivers s' k) dist' k p).map Problem.Choice.grid) := fun k p hp => by
    dsimp only; rw [alike_choose hV hV' A hov k (hr k) hd hp]
  have horp : ∀ k, OnRange (P.grid k).cart.range
      (fun p => receivers s k p && ((P.chooseDonor s (receivers s k) dist k p).map Problem.Choice.grid).isNone)
      (fun p => receivers s' k p &&
        (((P.redist D).chooseDonor s' (receivers s' k) dist' k p).map Problem.Choice.grid).isNone) := fun k p hp => by
    have := hdon k p hp
    dsimp only at this ⊢
    rw [this, hr k p hp]
  have hsel : ∀ k, (!(decide ((P.grid k).count (receivers s k) = 0) && decide ((P.grid k).count (fun p =>
        receivers s k p && ((P.chooseDonor s (receivers s k) dist k p).map Problem.Choice.grid).isNone) = 0))) =
      !(decide (((P.redist D).grid k).count (receivers s' k) = 0) && decide (((P.redist D).grid k).count (fun p =>
        receivers s' k p && (((P.redist D).chooseDonor s' (receivers s' k) dist' k p).map
          Problem.Choice.grid).isNone) = 0)) := fun k => by
    rw [same_count (g := P.grid k) (g' := (P.redist D).grid k) rfl (hV.layouts k) (hV'.layouts k) (hr k),
      same_count (g := P.grid k) (g' := (P.redist D).grid k) rfl (hV.layouts k) (hV'.layouts k) (horp k)]
  have B := (A.write hsel hr (·.or [.receiver])).write hsel horp (·.or [.orphan])
  have hcre : ∀ m k, (P.connected m k && P.ovExists s m k && (P.grid k).points.any fun p => (s.ov m k p).isSome &&
        decide ((P.chooseDonor s (receivers s k) dist k p).map Problem.Choice.grid = some m)) =
      ((P.redist D).connected m k && (P.redist D).ovExists s' m k && ((P.redist D).grid k).points.any fun p =>
        (s'.ov m k p).isSome && decide (((P.redist D).chooseDonor s' (receivers s' k) dist' k p).map
          Problem.Choice.grid = some m)) := fun m k => by
    rw [alike_ovExists hV hV' A, same_any (g := P.grid k) (g' := (P.redist D).grid k) rfl (hV.layouts k) (hV'.layouts k)
      fun p hp => ?_]
    · rfl
    · have := hdon k p hp
      dsimp only at this
      rw [this, A.ov m k p hp]
  refine ⟨B.flags, B.ov, B.overlap, hr, horp, hdon, by funext m k; exact hcre m k, fun m k => ?_⟩
  refine perm_ite (hcre m k) ?_
  refine List.Perm.trans (List.Perm.of_eq ?_) ((points_perm (g := P.grid k) (g' := (P.redist D).grid k) rfl
    (hV.layouts k) (hV'.layouts k)).filterMap _)
  refine List.filterMap_congr fun p hp => ?_
  rw [mem_gridPoints (hV.layouts k)] at hp
  have := hdon k p hp
  dsimp only at this ⊢
  rw [← A.ov m k p hp]
  cases s.ov m k p with
  | none => rfl
  | some cell =>
    refine if_congr ?_ rfl rfl
    rw [Bool.and_eq_true, Bool.and_eq_true, decide_eq_true_iff, decide_eq_true_iff]
    exact and_congr (by rw [hr k p hp]) (by rw [this])
end

omit hV hV' in
theorem alike_init {flags flags' : Fin n → Tup d → Flags}
    (hf : ∀ k, OnRange (P.grid k).cart.range (flags k) (flags' k))
    (hfound : ∀ m k, OnRange (P.grid k).cart.range (P.found m k) (D.found m k)) :
    Alike P (P.detectOverlap (initAssembly flags)) ((P.redist D).detectOverlap (initAssembly flags')) := by
  have A : Alike P (initAssembly flags) (initAssembly flags') :=
    Alike.regenerate (s := { flags := fun g p => resetFlags (flags g p) })
      (s' := { flags := fun g p => resetFlags (flags' g p) }) ⟨fun k p hp => by dsimp only; rw [hf k p hp], fun _ _ _ => rfl, fun _ _ _ => rfl, fun _ _ _ => rfl,
      fun _ _ _ _ => rfl, fun _ _ _ _ => rfl, fun _ _ _ => rfl, fun _ _ _ _ => rfl, fun _ _ _ => rfl,
      fun _ _ _ => rfl, fun _ _ _ => rfl, fun _ _ _ _ h => by cases h⟩ _
  have hov : ∀ m k, OnRange (P.grid k).cart.range
      (fun p => if (initAssembly flags).active k p then P.found m k p else none)
      (fun p => if (initAssembly flags').active k p then D.found m k p else none) := fun m k p hp => by
    dsimp only; rw [A.active k p hp, hfound m k p hp]
  have B : Alike P
      { initAssembly flags with
        ov := fun m k p => if (initAssembly flags).active k p then P.found m k p else none
        overlap := fun m k p => (if (initAssembly flags).active k p then P.found m k p else none).isSome }
      { initAssembly flags' with
        ov := fun m k p => if (initAssembly flags').active k p then D.found m k p else none
        overlap := fun m k p => (if (initAssembly flags').active k p then D.found m k p else none).isSome } :=
    { A with
      flags := A.flags, active := A.active, domBdry := A.domBdry, intBdry := A.intBdry, outer := A.outer
      pairOccl := A.pairOccl, occl := A.occl, minim := A.minim, inner := A.inner
      ov := hov
      overlap := fun m k p hp => by have := hov m k p hp; dsimp only at this ⊢; rw [this]
      cells := fun m k p cell h => by
        dsimp only at h
        split at h
        · exact h
        · cases h }
  exact B.write (sel := fun _ => true) (sel' := fun _ => true) (fun _ => rfl)
    (m := fun k p => decide (∃ m, (if (initAssembly flags).active k p then P.found m k p else none).isSome = true))
    (m' := fun k p => decide (∃ m, (if (initAssembly flags').active k p then D.found m k p else none).isSome = true))
    (fun k p hp => decide_eq_decide.2 (exists_congr fun m => by
      have := hov m k p hp
      dsimp only at this
      rw [this])) (·.or [.overlapped])
end

/-- C94: on any two divisions of the grids among processes, assembly is either undefined on both or gives the same
result on both. -/
theorem C94 {P P' : Problem d n} (hV : Spec.Valid P) (hV' : Spec.Valid P') (h : Same P P')
    {flags flags' : Fin n → Tup d → Flags} (hf : ∀ k, OnRange (P.grid k).cart.range (flags k) (flags' k)) :
    (P.assemble flags = none ↔ P'.assemble flags' = none) ∧
    ∀ r r', P.assemble flags = some r → P'.assemble flags' = some r' → SameResult P r r' := by
  have key : Both (SameResult P) (P.assemble flags) (P'.assemble flags') := by
    have hfound := h.found
    have hvol := h.vol
    have hov := h.ovVol
    have hr := h.redist
    generalize hD : (⟨fun k => (P'.grid k).np, fun k => (P'.grid k).loc, fun k => (P'.grid k).ext, P'.group, P'.found,
      P'.vol, P'.ovVol⟩ : Division d n) = D at hr
    have h1 : P'.found = D.found := by rw [← hD]
    have h2 : P'.vol = D.vol := by rw [← hD]
    have h3 : P'.ovVol = D.ovVol := by rw [← hD]
    rw [h1] at hfound
    rw [h2] at hvol
    rw [h3] at hov
    clear hD h1 h2 h3 h
    subst hr
    refine Both.bind (alike_infer hV hV' (alike_init hf hfound)) fun s s' A => ?_
    refine Both.bind (alike_cutHoles hV hV' A) fun s s' A => ?_
    refine Both.bind (alike_outer hV hV' A) fun s s' A => ?_
    refine Both.bind (alike_occluded hV hV' A hvol hov) fun s s' A => ?_
    refine Both.bind (alike_minimize hV hV' A) fun s s' A => ?_
    exact alike_generate hV hV' A hov
  rcases key with ⟨h1, h2⟩ | ⟨a, b, h1, h2, hab⟩
  · exact ⟨by simp [h1, h2], fun r r' hr => by rw [h1] at hr; cases hr⟩
  · refine ⟨by simp [h1, h2], fun r r' hr hr' => ?_⟩
    rw [h1] at hr; rw [h2] at hr'
    cases hr; cases hr'
    exact hab

/-- A line of 4 points, half of it on each of two processes. -/
def halves : Grid 1 where
  cart := (line 4 false).cart
  np := 2
  loc := fun r => ⟨fun _ => 2 * r.val, fun _ => 2 * r.val + 2⟩
  ext := fun r => extendLocalRange (line 4 false).cart ⟨fun _ => 2 * r.val, fun _ => 2 * r.val + 2⟩ 1

theorem halves_layout : Ovk.Spec.Layout halves.cart halves.loc halves.ext where
  proper := (line_layout (by omega) false).proper
  unique := rfl
  tiles := by
    have hb : ∀ (k : Fin 2) (i : Fin 1), halves.cart.range.b i ≤ (halves.loc k).b i ∧
        (halves.loc k).e i ≤ halves.cart.range.e i := by
      intro k i
      show (0 : Int) ≤ 2 * k.val ∧ (2 * k.val + 2 : Int) ≤ 4
      omega
    refine ⟨hb, fun p hp => ?_⟩
    have h0 : (0 : Int) ≤ p 0 ∧ p 0 < 4 := hp 0
    refine ⟨⟨(p 0 / 2).toNat, by show _ < 2; omega⟩, fun i => ?_, fun k hk => ?_⟩
    · obtain rfl : i = 0 := Subsingleton.elim _ _
      show 2 * (((p 0 / 2).toNat : Nat) : Int) ≤ p 0 ∧ p 0 < 2 * (((p 0 / 2).toNat : Nat) : Int) + 2
      omega
    · have h1 : (2 * k.val : Int) ≤ p 0 ∧ p 0 < 2 * k.val + 2 := hk 0
      apply Fin.ext
      show k.val = (p 0 / 2).toNat
      omega
  offers := fun k => C15_extension_offers (line_layout (by omega) false).proper rfl _ (fun i => by
    have := k.isLt
    show (0 : Int) ≤ 2 * k.val ∧ (2 * k.val + 2 : Int) ≤ 4
    change k.val < 2 at this
    omega) 1 (by omega)
  tight := fun k => C17_extension_tight _ _

/- C94 applies to two grids on one process each and on two processes each; assembly is defined. -/
example : Spec.Valid exBoth ∧ Spec.Valid { exBoth with grid := fun _ => halves } ∧
    Same exBoth { exBoth with grid := fun _ => halves } ∧ ∃ r, exBoth.assemble exFlags = some r := by
  have hc : Cells exBoth := by
    intro m k p cell hp h i _
    have h : (if m ≠ k ∧ 0 ≤ p 0 ∧ p 0 < 3 then some p else none) = some cell := h
    split at h
    · rename_i hc
      cases h
      obtain rfl : i = 0 := Subsingleton.elim _ _
      show (0 : Int) ≤ p 0 ∧ p 0 + 1 < 4
      omega
    · cases h
  have hv : Spec.Valid exBoth := ⟨fun _ => line_layout (by omega) false, fun k r i => by show (0 : Int) < 4; omega, hc,
    fun r => by simp [exBoth, exCoarse, CC.groupOne]⟩
  refine ⟨hv, ⟨fun _ => halves_layout, fun k r i => by show (2 * r.val : Int) < 2 * r.val + 2; omega, hc, hv.group⟩,
    ⟨⟨fun _ => rfl, rfl, rfl, rfl, rfl, rfl, rfl, rfl, rfl, rfl, rfl, fun _ _ _ => rfl⟩, fun _ _ _ _ => rfl,
      fun _ _ _ _ _ => rfl⟩, ?_⟩
  refine C70_partial hv exFlags (fun k i => by show (4 : Int) - 0 ≤ 10; omega) (fun m k _ _ h => ?_)
    fun _ _ _ => .inl ⟨0, rfl⟩
  obtain ⟨p, hp, h1, h2⟩ := h
  refine ⟨p, hp, rfl, ?_⟩
  have h2 : (if m ≠ k ∧ 0 ≤ p 0 ∧ p 0 < 3 then some p else none).isSome = true := h2
  show (if k ≠ m ∧ 0 ≤ p 0 ∧ p 0 < 3 then some p else none).isSome = true
  split at h2
  · rename_i hc
    rw [if_pos ⟨hc.1.symm, hc.2⟩]; rfl
  · cases h2

end Ovk.Asm
