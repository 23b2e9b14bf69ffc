import Verif.Model.Assembly
import Verif.Props.Masks
/-!
Facts about the stages of assembly used by several properties.
-/
namespace Ovk.Asm
variable {d n : Nat}

theorem forAll_some {α : Type} {f : Fin n → Option α} {r : Fin n → α} (h : forAll f = some r) (g : Fin n) :
    f g = some (r g) := by
  unfold forAll at h
  split at h
  · cases h; simp
  · cases h

theorem forAll_of {α : Type} {f : Fin n → Option α} {r : Fin n → α} (h : ∀ g, f g = some (r g)) :
    forAll f = some r := by
  unfold forAll
  rw [dif_pos (fun g => by rw [h g]; rfl)]
  congr 1
  funext g
  simp [h g]

theorem forAll_defined {α : Type} {f : Fin n → Option α} (h : ∀ g, ∃ r, f g = some r) :
    ∃ r, forAll f = some r :=
  ⟨fun g => (h g).choose, forAll_of fun g => (h g).choose_spec⟩

/-- The ranges of every grid are a valid decomposition. -/
def _root_.Ovk.Spec.Layouts (P : Problem d n) : Prop :=
  ∀ k, Ovk.Spec.Layout (P.grid k).cart (P.grid k).loc (P.grid k).ext

theorem ranges_eq (g : Grid d) : g.ranges = rangesOf g.loc g.ext := rfl

theorem count_zero {g : Grid d} (h : Ovk.Spec.Layout g.cart g.loc g.ext) (m : Mask d) :
    g.count m = 0 ↔ ∀ p, Ovk.Spec.pts g.cart.range p → m p = false := by
  unfold Grid.count
  rw [ranges_eq, C50_count h.tiles, List.length_eq_zero_iff, List.filter_eq_nil_iff]
  simp only [Rng.mem_points, Bool.not_eq_true]
  rfl

theorem mem_gridPoints {g : Grid d} (h : Ovk.Spec.Layout g.cart g.loc g.ext) (p : Tup d) :
    p ∈ g.points ↔ Ovk.Spec.pts g.cart.range p := by
  unfold Grid.points
  simp only [List.mem_flatMap, List.mem_finRange, true_and, Rng.mem_points]
  constructor
  · rintro ⟨k, hk⟩ i; have := h.tiles.1 k i; have := hk i; omega
  · intro hp; obtain ⟨k, hk, -⟩ := h.tiles.2 p hp; exact ⟨k, hk⟩

theorem edge_inner {g : Grid d} (h : Ovk.Spec.Layout g.cart g.loc g.ext) {m e : Mask d}
    (he : g.edge .false true m = some e) {p : Tup d} (hp : Ovk.Spec.pts g.cart.range p) (hep : e p = true) :
    m p = true := by
  have ha : ∀ r ∈ rangesOf g.loc g.ext, Around g.cart (edgeLocalRange g.cart false r.1) r.2 := by
    intro r hr
    obtain ⟨k, rfl⟩ := (mem_rangesOf r).1 hr
    exact around_local (h.tiles.1 k) (h.offers k)
  obtain ⟨edge, h1, h2⟩ := detectEdge_spec h.proper h.unique .false true false m _ ha
  have : e = edge := Option.some.inj (he.symm.trans h1)
  subst this
  obtain ⟨k, hk, -⟩ := h.tiles.2 p hp
  have := ((h2 p ⟨(g.loc k, g.ext k), (mem_rangesOf _).2 ⟨k, rfl⟩, hk⟩).1 hep).1
  exact reads_fn h.proper h.unique (.inl ⟨p, hp, samePoint_refl _ p, rfl⟩) this

end Ovk.Asm

namespace Ovk.Asm
variable {d n : Nat}

/-- A grid on one process. -/
def oneProc (c : Cart d) : Grid d := ⟨c, 1, fun _ => c.range, fun _ => extendLocalRange c c.range 1⟩

theorem oneProc_layout {c : Cart d} (hc : Ovk.Spec.Proper c) (hs : c.storage = .unique) :
    Ovk.Spec.Layout (oneProc c).cart (oneProc c).loc (oneProc c).ext where
  proper := hc
  unique := hs
  tiles := ⟨fun _ i => ⟨Int.le_refl _, Int.le_refl _⟩, fun p hp => ⟨(0 : Fin 1), hp, fun k _ => Subsingleton.elim (α := Fin 1) k 0⟩⟩
  offers := fun k => C15_extension_offers hc hs _ (fun i => ⟨Int.le_refl _, Int.le_refl _⟩) 1 (by omega)
  tight := fun k => C17_extension_tight _ _

/-- A line of `m` points on one process. -/
def line (m : Int) (periodic : Bool) : Grid 1 :=
  oneProc ⟨⟨fun _ => 0, fun _ => m⟩, fun _ => periodic, .unique⟩

theorem line_layout {m : Int} (hm : 0 < m) (periodic : Bool) :
    Ovk.Spec.Layout (line m periodic).cart (line m periodic).loc (line m periodic).ext :=
  oneProc_layout (by intro i; simp [Ovk.Spec.periodLen]; omega) rfl

end Ovk.Asm
