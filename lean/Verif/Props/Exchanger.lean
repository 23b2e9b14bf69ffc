/-
Properties C24 (ranks found through the linear partition), C25 (both sides of an exchange use the same
order) and C26 (message tags).
-/
import Verif.Lemmas.Exchanger
import Verif.Lemmas.ComponentsGlobal
import Verif.Props.SendRecv
import Mathlib.Data.Fin.VecNotation
import Mathlib.Tactic.FinCases
import Mathlib.Tactic.Tauto

namespace Ovk.Xch
variable {d n : Nat}

namespace Spec
/-- Process `p` holds, for connectivity `(m, g)`, a donor for point `x` of grid `g` whose lower corner is in
its part of grid `m`; the stored destination rank is `r`. -/
def Donates (w : World d n) (p : Fin n) (m g : Int) (x : Tup d) (r : Int) : Prop :=
  ∃ c ∈ w.ms p, c.mGrid = m ∧ c.nGrid = g ∧
    ∃ y ∈ c.donors, Ovk.Spec.pts c.localRange y.lower ∧ y.dest = x ∧ y.rank = r

/-- Process `q` holds, for connectivity `(m, g)`, a receiver at point `x` of grid `g`; the stored source
rank is `s`. -/
def Receives (w : World d n) (q : Fin n) (m g : Int) (x : Tup d) (s : Int) : Prop :=
  ∃ c ∈ w.ns q, c.mGrid = m ∧ c.nGrid = g ∧ ∃ y ∈ c.receivers, y.pt = x ∧ y.rank = s

/-- Donors and receivers form matching pairs. -/
structure Consistent (w : World d n) : Prop where
  grids : (w.grids.map Prod.fst).Nodup
  nonempty : ∃ g ∈ w.grids, ∃ x, Ovk.Spec.pts g.2 x
  donorPoint : ∀ p m g x r, Donates w p m g x r → ∃ R, (g, R) ∈ w.grids ∧ Ovk.Spec.pts R x
  recvPoint : ∀ q m g x s, Receives w q m g x s → ∃ R, (g, R) ∈ w.grids ∧ Ovk.Spec.pts R x
  /-- a donor has a receiver; the rank is unknown to both or known to both, and a known one is right -/
  receiverOf : ∀ p m g x r, Donates w p m g x r →
    ∃ q s, Receives w q m g x s ∧ (r < 0 ↔ s < 0) ∧ (0 ≤ r → r = (q : Nat))
  donorOf : ∀ q m g x s, Receives w q m g x s →
    ∃ p r, Donates w p m g x r ∧ (r < 0 ↔ s < 0) ∧ (0 ≤ s → s = (p : Nat))
  /-- a point of a grid is on one process -/
  oneReceiver : ∀ q q' m m' g x s s', Receives w q m g x s → Receives w q' m' g x s' → q = q'
  /-- within a connectivity a point has one donor -/
  oneDonor : ∀ p p' m g x r r', Donates w p m g x r → Donates w p' m g x r' → p = p'

/-- No two connectivities with donors on different processes target the same point. -/
def NotShared (w : World d n) : Prop :=
  ∀ p p' m m' g x r r', Donates w p m g x r → Donates w p' m' g x r' → p = p'

/-- Every donor in the process's part of the grid has the rank of its receiver, the others have none. -/
def DestOk (w : World d n) (D : Fin n → List (List Int)) : Prop :=
  ∀ (p : Fin n) (i : Nat) (c : ConnM d), (w.ms p)[i]? = some c → ∃ l, (D p)[i]? = some l ∧
    l.length = c.donors.length ∧ ∀ (j : Nat) (y : Donor d), c.donors[j]? = some y → ∃ v, l[j]? = some v ∧
      (Ovk.Spec.pts c.localRange y.lower →
        ∃ q s, Receives w q c.mGrid c.nGrid y.dest s ∧ v = (q : Nat)) ∧
      (¬ Ovk.Spec.pts c.localRange y.lower → v = -1)

/-- Every receiver has the rank of its donor. -/
def SrcOk (w : World d n) (S : Fin n → List (List Int)) : Prop :=
  ∀ (q : Fin n) (i : Nat) (c : ConnN d), (w.ns q)[i]? = some c → ∃ l, (S q)[i]? = some l ∧
    l.length = c.receivers.length ∧ ∀ (j : Nat) (y : Receiver d), c.receivers[j]? = some y →
      ∃ v, l[j]? = some v ∧ ∃ p r, Donates w p c.mGrid c.nGrid y.pt r ∧ v = (p : Nat)
end Spec

/-- Slot of a donor, given the linear index. -/
def mSlotOf (w : World d n) (c : ConnM d) (x : Donor d) : Slot :=
  if c.localRange.contains x.lower then
    if x.rank < 0 then ⟨some ((w.linear c.nGrid x.dest).getD 0), x.rank⟩ else ⟨none, x.rank⟩
  else ⟨none, -1⟩

def nSlotOf (w : World d n) (c : ConnN d) (x : Receiver d) : Slot :=
  if x.rank < 0 then ⟨some ((w.linear c.nGrid x.pt).getD 0), x.rank⟩ else ⟨none, x.rank⟩

section
variable {w : World d n} (hw : Spec.Consistent w)
include hw

theorem donor_linear {p : Fin n} {m g : Int} {x : Tup d} {r : Int} (h : Spec.Donates w p m g x r) :
    ∃ L, w.linear g x = some L ∧ 0 ≤ L ∧ L < totalPoints w.grids := by
  obtain ⟨R, h1, h2⟩ := hw.donorPoint _ _ _ _ _ h
  exact linear_exists hw.grids h1 h2

theorem recv_linear {p : Fin n} {m g : Int} {x : Tup d} {r : Int} (h : Spec.Receives w p m g x r) :
    ∃ L, w.linear g x = some L ∧ 0 ≤ L ∧ L < totalPoints w.grids := by
  obtain ⟨R, h1, h2⟩ := hw.recvPoint _ _ _ _ _ h
  exact linear_exists hw.grids h1 h2

theorem mSlots_eq (p : Fin n) : mSlots w p = some ((w.ms p).map fun c => c.donors.map (mSlotOf w c)) := by
  unfold mSlots
  apply CC.mapM_some
  intro c hc
  apply CC.mapM_some
  intro x hx
  unfold mSlot mSlotOf
  by_cases ho : c.localRange.contains x.lower = true
  · simp only [ho, if_true, true_and]
    by_cases hr : x.rank < 0
    · obtain ⟨L, hL, _⟩ := donor_linear hw ⟨c, hc, rfl, rfl, x, hx, (contains_iff_pts _ _).1 ho, rfl, rfl⟩
      simp [hr, hL]
    · simp [hr]
  · simp [ho]

theorem nSlots_eq (p : Fin n) : nSlots w p = some ((w.ns p).map fun c => c.receivers.map (nSlotOf w c)) := by
  unfold nSlots
  apply CC.mapM_some
  intro c hc
  apply CC.mapM_some
  intro x hx
  unfold nSlot nSlotOf
  by_cases hr : x.rank < 0
  · obtain ⟨L, hL, _⟩ := recv_linear hw ⟨c, hc, rfl, rfl, x, hx, rfl, rfl⟩
    simp [hr, hL]
  · simp [hr]

omit hw in
theorem mem_mAsks (p : Fin n) (L : Int) :
    L ∈ asks ((w.ms p).map fun c => c.donors.map (mSlotOf w c)) ↔
      ∃ m g x r, Spec.Donates w p m g x r ∧ r < 0 ∧ (w.linear g x).getD 0 = L := by
  unfold asks
  rw [List.mem_filterMap]
  constructor
  · rintro ⟨s, hs, ha⟩
    obtain ⟨l, hl, hs⟩ := List.mem_flatten.1 hs
    obtain ⟨c, hc, rfl⟩ := List.mem_map.1 hl
    obtain ⟨x, hx, rfl⟩ := List.mem_map.1 hs
    unfold mSlotOf at ha
    split_ifs at ha with ho hr
    · exact ⟨_, _, _, _, ⟨c, hc, rfl, rfl, x, hx, (contains_iff_pts _ _).1 ho, rfl, rfl⟩, hr,
        Option.some.inj ha⟩
  · rintro ⟨m, g, x, r, ⟨c, hc, rfl, rfl, y, hy, ho, rfl, rfl⟩, hr, hL⟩
    refine ⟨mSlotOf w c y, List.mem_flatten.2 ⟨_, List.mem_map.2 ⟨c, hc, rfl⟩, List.mem_map.2 ⟨y, hy, rfl⟩⟩, ?_⟩
    unfold mSlotOf
    rw [if_pos ((contains_iff_pts _ _).2 ho), if_pos hr, hL]

omit hw in
theorem mem_nAsks (p : Fin n) (L : Int) :
    L ∈ asks ((w.ns p).map fun c => c.receivers.map (nSlotOf w c)) ↔
      ∃ m g x r, Spec.Receives w p m g x r ∧ r < 0 ∧ (w.linear g x).getD 0 = L := by
  unfold asks
  rw [List.mem_filterMap]
  constructor
  · rintro ⟨s, hs, ha⟩
    obtain ⟨l, hl, hs⟩ := List.mem_flatten.1 hs
    obtain ⟨c, hc, rfl⟩ := List.mem_map.1 hl
    obtain ⟨x, hx, rfl⟩ := List.mem_map.1 hs
    unfold nSlotOf at ha
    split_ifs at ha with hr
    · exact ⟨_, _, _, _, ⟨c, hc, rfl, rfl, x, hx, rfl, rfl⟩, hr, Option.some.inj ha⟩
  · rintro ⟨m, g, x, r, ⟨c, hc, rfl, rfl, y, hy, rfl, rfl⟩, hr, hL⟩
    refine ⟨nSlotOf w c y, List.mem_flatten.2 ⟨_, List.mem_map.2 ⟨c, hc, rfl⟩, List.mem_map.2 ⟨y, hy, rfl⟩⟩, ?_⟩
    unfold nSlotOf
    rw [if_pos hr, hL]

theorem total_pos : 0 < totalPoints w.grids := by
  obtain ⟨⟨g, R⟩, hg, x, hx⟩ := hw.nonempty
  obtain ⟨L, _, h1, h2⟩ := linear_exists hw.grids hg hx
  omega

/-- What `update` computes, up to the answers `A` (to donors) and `B` (to receivers). -/
theorem update_spec (hn : 0 < n) : ∃ D S, update w = some (D, S) ∧ ∃ A B : Int → Int,
    (∀ p, D p = (w.ms p).map fun c => c.donors.map fun x => (mSlotOf w c x).final A) ∧
    (∀ p, S p = (w.ns p).map fun c => c.receivers.map fun x => (nSlotOf w c x).final B) ∧
    (∀ q m g x s L, Spec.Receives w q m g x s → s < 0 → w.linear g x = some L → A L = (q : Nat)) ∧
    (∀ p m g x r L, Spec.Donates w p m g x r → r < 0 → w.linear g x = some L →
      (∀ p' m' r', Spec.Donates w p' m' g x r' → p' = p) → B L = (p : Nat)) := by
  obtain ⟨hs, ht⟩ := size_pos_of_total hn (total_pos hw)
  let ms : Fin n → List (List Slot) := fun p => (w.ms p).map fun c => c.donors.map (mSlotOf w c)
  let ns : Fin n → List (List Slot) := fun p => (w.ns p).map fun c => c.receivers.map (nSlotOf w c)
  have e1 : allSome (mSlots w) = some ms := allSome_some _ _ (mSlots_eq hw)
  have e2 : allSome (nSlots w) = some ns := allSome_some _ _ (nSlots_eq hw)
  obtain ⟨mg, hmg⟩ := side_exists (total := totalPoints w.grids) hs (fun p => asks (ms p)) (by
    intro p L hL
    obtain ⟨m, g, x, r, h, _, h2⟩ := (mem_mAsks p L).1 hL
    obtain ⟨L', h3, h4⟩ := donor_linear hw h
    rw [h3] at h2
    obtain rfl : L' = L := h2
    exact h4)
  obtain ⟨ng, hng⟩ := side_exists (total := totalPoints w.grids) hs (fun p => asks (ns p)) (by
    intro p L hL
    obtain ⟨m, g, x, r, h, _, h2⟩ := (mem_nAsks p L).1 hL
    obtain ⟨L', h3, h4⟩ := recv_linear hw h
    rw [h3] at h2
    obtain rfl : L' = L := h2
    exact h4)
  obtain ⟨mt, em, hmt⟩ := table_spec hs hmg
  obtain ⟨nt, en, hnt⟩ := table_spec hs hng
  obtain ⟨D, eD, A, hA, hD⟩ := resolve_spec hs ht hmg ms (fun _ => rfl) nt
  obtain ⟨S, eS, B, hB, hS⟩ := resolve_spec hs ht hng ns (fun _ => rfl) mt
  refine ⟨D, S, ?_, A, B, ?_, ?_, ?_, ?_⟩
  · unfold update
    simp only [e1, Option.bind_some, e2]
    rw [allSome_some _ _ hmg.made]
    simp only [Option.bind_some]
    rw [allSome_some _ _ hng.made]
    simp only [Option.bind_some]
    rw [if_pos ⟨keys_ok hs ht hmg, keys_ok hs ht hng⟩, em]
    simp only [Option.bind_some, en, eD, eS, Option.map_some]
  · intro p
    rw [hD]
    simp [ms, List.map_map, Function.comp_def]
  · intro p
    rw [hS]
    simp [ns, List.map_map, Function.comp_def]
  · intro q m g x s L hr hs0 hL
    have hask : L ∈ asks (ns q) := (mem_nAsks q L).2 ⟨m, g, x, s, hr, hs0, by rw [hL]; rfl⟩
    have hk := part_lt hs ht hng hask
    let k : Fin n := ⟨(L / w.size).toNat, by omega⟩
    have hk' : L / w.size = ((k : Nat) : Int) := by simp only [k]; omega
    rw [hA k L hk']
    refine (hnt k L (hng.range q L hask).1 hk').2 q hask ?_
    intro q' hq'
    obtain ⟨m', g', x', r', h1, _, h2⟩ := (mem_nAsks q' L).1 hq'
    obtain ⟨R, hR, hx⟩ := hw.recvPoint _ _ _ _ _ hr
    obtain ⟨R', hR', hx'⟩ := hw.recvPoint _ _ _ _ _ h1
    obtain ⟨L', h3, _⟩ := recv_linear hw h1
    rw [h3] at h2
    obtain rfl : L' = L := h2
    obtain ⟨rfl, rfl⟩ := linear_inj hw.grids hR' hx' hR hx h3 hL
    exact hw.oneReceiver _ _ _ _ _ _ _ _ h1 hr
  · intro p m g x r L hr hs0 hL hu
    have hask : L ∈ asks (ms p) := (mem_mAsks p L).2 ⟨m, g, x, r, hr, hs0, by rw [hL]; rfl⟩
    have hk := part_lt hs ht hmg hask
    let k : Fin n := ⟨(L / w.size).toNat, by omega⟩
    have hk' : L / w.size = ((k : Nat) : Int) := by simp only [k]; omega
    rw [hB k L hk']
    refine (hmt k L (hmg.range p L hask).1 hk').2 p hask ?_
    intro p' hp'
    obtain ⟨m', g', x', r', h1, _, h2⟩ := (mem_mAsks p' L).1 hp'
    obtain ⟨R, hR, hx⟩ := hw.donorPoint _ _ _ _ _ hr
    obtain ⟨R', hR', hx'⟩ := hw.donorPoint _ _ _ _ _ h1
    obtain ⟨L', h3, _⟩ := donor_linear hw h1
    rw [h3] at h2
    obtain rfl : L' = L := h2
    obtain ⟨rfl, rfl⟩ := linear_inj hw.grids hR' hx' hR hx h3 hL
    exact hu _ _ _ h1

theorem no_ranks (hn : n = 0) : ∃ D S, update w = some (D, S) := by
  subst hn
  refine ⟨fun i => i.elim0, fun i => i.elim0, ?_⟩
  unfold update resolve
  simp only [allSome_some _ (fun i : Fin 0 => (i.elim0 : List (List Slot))) (fun i => i.elim0),
    Option.bind_some, allSome_some _ (fun i : Fin 0 => (i.elim0 : OMap Int (List Int))) (fun i => i.elim0),
    allSome_some _ (fun i : Fin 0 => (i.elim0 : Int → Int)) (fun i => i.elim0),
    allSome_some _ (fun i : Fin 0 => (i.elim0 : Fin 0 → Option (List Int))) (fun i => i.elim0),
    allSome_some _ (fun i : Fin 0 => (i.elim0 : List (List Int))) (fun i => i.elim0)]
  rw [if_pos ⟨fun i => i.elim0, fun i => i.elim0⟩]
  rfl

theorem main : ∃ D S, update w = some (D, S) ∧ Spec.DestOk w D ∧ (Spec.NotShared w → Spec.SrcOk w S) := by
  by_cases hn : n = 0
  · obtain ⟨D, S, h⟩ := no_ranks hw hn
    subst hn
    exact ⟨D, S, h, fun p => p.elim0, fun _ p => p.elim0⟩
  obtain ⟨D, S, h, A, B, hD, hS, hA, hB⟩ := update_spec hw (by omega)
  refine ⟨D, S, h, ?_, ?_⟩
  · intro p i c hc
    refine ⟨c.donors.map fun x => (mSlotOf w c x).final A, by rw [hD]; simp [hc], by simp, ?_⟩
    intro j y hy
    refine ⟨_, by rw [List.getElem?_map, hy]; rfl, ?_, ?_⟩
    · intro ho
      have hdon : Spec.Donates w p c.mGrid c.nGrid y.dest y.rank :=
        ⟨c, List.mem_of_getElem? hc, rfl, rfl, y, List.mem_of_getElem? hy, ho, rfl, rfl⟩
      obtain ⟨q, s, hq, hiff, hset⟩ := hw.receiverOf _ _ _ _ _ hdon
      refine ⟨q, s, hq, ?_⟩
      dsimp only
      unfold mSlotOf
      rw [if_pos ((contains_iff_pts _ _).2 ho)]
      by_cases hr : y.rank < 0
      · obtain ⟨L, hL, _⟩ := donor_linear hw hdon
        simp only [hr, if_true, hL, Option.getD_some, Slot.final]
        exact hA q _ _ _ s L hq (hiff.1 hr) hL
      · simp only [hr, if_false, Slot.final]
        exact hset (by omega)
    · intro ho
      dsimp only
      unfold mSlotOf
      rw [if_neg (by rw [contains_iff_pts]; exact ho)]
      rfl
  · intro hns q i c hc
    refine ⟨c.receivers.map fun x => (nSlotOf w c x).final B, by rw [hS]; simp [hc], by simp, ?_⟩
    intro j y hy
    refine ⟨_, by rw [List.getElem?_map, hy]; rfl, ?_⟩
    have hrec : Spec.Receives w q c.mGrid c.nGrid y.pt y.rank :=
      ⟨c, List.mem_of_getElem? hc, rfl, rfl, y, List.mem_of_getElem? hy, rfl, rfl⟩
    obtain ⟨p, r, hp, hiff, hset⟩ := hw.donorOf _ _ _ _ _ hrec
    refine ⟨p, r, hp, ?_⟩
    dsimp only
    unfold nSlotOf
    by_cases hr : y.rank < 0
    · obtain ⟨L, hL, _⟩ := recv_linear hw hrec
      simp only [hr, if_true, hL, Option.getD_some, Slot.final]
      exact hB p _ _ _ r L hp (hiff.2 hr) hL fun p' m' r' h' => hns _ _ _ _ _ _ _ _ h' hp
    · simp only [hr, if_false, Slot.final]
      exact hset (by omega)

/-- C24: the rank stored with every owned donor is the rank that holds its receiver, and the search has no
undefined behaviour, for any number of processes and points. -/
theorem C24_destination : ∃ D S, update w = some (D, S) ∧ Spec.DestOk w D := by
  obtain ⟨D, S, h, h1, _⟩ := main hw
  exact ⟨D, S, h, h1⟩

/-- C24 for both sides.  Missing from the full statement: points targeted by two connectivities whose donors
are on different processes. -/
theorem C24_partial (hns : Spec.NotShared w) :
    ∃ D S, update w = some (D, S) ∧ Spec.DestOk w D ∧ Spec.SrcOk w S := by
  obtain ⟨D, S, h, h1, h2⟩ := main hw
  exact ⟨D, S, h, h1, h2 hns⟩
end

/-- The full statement of C24. -/
def C24_statement : Prop := ∀ (d n : Nat) (w : World d n), Spec.Consistent w →
  ∃ D S, update w = some (D, S) ∧ Spec.DestOk w D ∧ Spec.SrcOk w S

/- Three grids of two points on three processes; grids 0 and 1 both donate to point 0 of grid 2. -/
def exShared : World 1 3 where
  grids := [(0, ⟨![0], ![2]⟩), (1, ⟨![0], ![2]⟩), (2, ⟨![0], ![2]⟩)]
  ms := ![[⟨0, 2, ⟨![0], ![2]⟩, [⟨![0], ![0], -1⟩]⟩], [⟨1, 2, ⟨![0], ![2]⟩, [⟨![1], ![0], -1⟩]⟩], []]
  ns := ![[], [], [⟨0, 2, [⟨![0], -1⟩]⟩, ⟨1, 2, [⟨![0], -1⟩]⟩]]

theorem exShared_donates (p : Fin 3) (m g : Int) (x : Tup 1) (r : Int) :
    Spec.Donates exShared p m g x r ↔
      ((p = 0 ∧ m = 0) ∨ (p = 1 ∧ m = 1)) ∧ g = 2 ∧ x = ![0] ∧ r = -1 := by
  unfold Spec.Donates exShared
  fin_cases p
  · simp [Ovk.Spec.pts, eq_comm]
  · simp [Ovk.Spec.pts, eq_comm]
  · simp

theorem exShared_receives (q : Fin 3) (m g : Int) (x : Tup 1) (s : Int) :
    Spec.Receives exShared q m g x s ↔ q = 2 ∧ (m = 0 ∨ m = 1) ∧ g = 2 ∧ x = ![0] ∧ s = -1 := by
  unfold Spec.Receives exShared
  fin_cases q
  · simp
  · simp
  · simp only [Fin.reduceFinMk, Matrix.cons_val, List.mem_cons, List.not_mem_nil, or_false,
      exists_eq_or_imp, exists_eq_left, true_and]
    constructor
    · rintro (⟨rfl, rfl, rfl, rfl⟩ | ⟨rfl, rfl, rfl, rfl⟩) <;> simp
    · rintro ⟨rfl | rfl, rfl, rfl, rfl⟩ <;> simp

theorem exShared_consistent : Spec.Consistent exShared where
  grids := by decide
  nonempty := ⟨(0, ⟨![0], ![2]⟩), by simp [exShared], ![0], by simp [Ovk.Spec.pts]⟩
  donorPoint := by
    intro p m g x r h
    obtain ⟨_, rfl, rfl, rfl⟩ := (exShared_donates ..).1 h
    exact ⟨⟨![0], ![2]⟩, by simp [exShared], by simp [Ovk.Spec.pts]⟩
  recvPoint := by
    intro q m g x s h
    obtain ⟨_, _, rfl, rfl, rfl⟩ := (exShared_receives ..).1 h
    exact ⟨⟨![0], ![2]⟩, by simp [exShared], by simp [Ovk.Spec.pts]⟩
  receiverOf := by
    intro p m g x r h0
    obtain ⟨h, rfl, rfl, rfl⟩ := (exShared_donates ..).1 h0
    exact ⟨2, -1, (exShared_receives ..).2 ⟨rfl, h.imp And.right And.right, rfl, rfl, rfl⟩, Iff.rfl, by omega⟩
  donorOf := by
    intro q m g x s h
    obtain ⟨_, rfl | rfl, rfl, rfl, rfl⟩ := (exShared_receives ..).1 h
    · exact ⟨0, -1, (exShared_donates ..).2 ⟨.inl ⟨rfl, rfl⟩, rfl, rfl, rfl⟩, Iff.rfl, by omega⟩
    · exact ⟨1, -1, (exShared_donates ..).2 ⟨.inr ⟨rfl, rfl⟩, rfl, rfl, rfl⟩, Iff.rfl, by omega⟩
  oneReceiver := by
    intro q q' m m' g x s s' h h'
    rw [((exShared_receives ..).1 h).1, ((exShared_receives ..).1 h').1]
  oneDonor := by
    intro p p' m g x r r' h h'
    rcases ((exShared_donates ..).1 h).1 with ⟨rfl, h1⟩ | ⟨rfl, h1⟩ <;>
      rcases ((exShared_donates ..).1 h').1 with ⟨rfl, h2⟩ | ⟨rfl, h2⟩ <;> first | rfl | omega

/- The donor ranks are right; both receivers are told rank 1. -/
example : (update exShared).map (fun r => ((List.finRange 3).map r.1, (List.finRange 3).map r.2)) =
    some ([[[2]], [[2]], []], [[], [], [[1], [1]]]) := by decide +kernel

/-- C24 as stated is false: the linear partition has one entry per grid point, so two connectivities that
target the same point overwrite each other's rank. -/
theorem C24_false : ¬ C24_statement := by
  intro h
  obtain ⟨D, S, hu, _, hS⟩ := h 1 3 exShared exShared_consistent
  have h2 : ((update exShared).map fun r => r.2 2) = some [[1], [1]] := by decide +kernel
  rw [hu] at h2
  have h3 : S 2 = [[1], [1]] := Option.some.inj h2
  obtain ⟨l, h4, _, h5⟩ := hS 2 0 ⟨0, 2, [⟨![0], -1⟩]⟩ rfl
  rw [h3] at h4
  obtain rfl : [1] = l := Option.some.inj h4
  obtain ⟨v, h6, p, r, h7, h8⟩ := h5 0 ⟨![0], -1⟩ rfl
  obtain rfl : 1 = v := Option.some.inj h6
  rcases ((exShared_donates ..).1 h7).1 with ⟨rfl, _⟩ | ⟨_, h9⟩
  · simp at h8
  · simp at h9

/- Without sharing: grid 1 (on processes 0 and 1) receives from grid 0 (on process 1 and 2); point 3 has its
rank set by the user. Five processes for six points: the last partition is empty. -/
def exRanks : World 1 5 where
  grids := [(0, ⟨![0], ![2]⟩), (1, ⟨![0], ![4]⟩)]
  ms := ![[], [⟨0, 1, ⟨![0], ![1]⟩, [⟨![0], ![3], 1⟩, ⟨![0], ![0], -1⟩, ⟨![1], ![2], -1⟩]⟩],
    [⟨0, 1, ⟨![1], ![2]⟩, [⟨![1], ![2], -1⟩]⟩], [], []]
  ns := ![[⟨0, 1, [⟨![0], -1⟩]⟩], [⟨0, 1, [⟨![2], -1⟩, ⟨![3], 1⟩]⟩], [], [], []]

example : (update exRanks).map (fun r => ((List.finRange 5).map r.1, (List.finRange 5).map r.2)) =
    some ([[], [[1, 0, -1]], [[1]], [], []], [[[1]], [[2, 1]], [], [], []]) := by decide +kernel

theorem exRanks_donates (p : Fin 5) (m g : Int) (x : Tup 1) (r : Int) :
    Spec.Donates exRanks p m g x r ↔ m = 0 ∧ g = 1 ∧
      ((p = 1 ∧ ((x = ![3] ∧ r = 1) ∨ (x = ![0] ∧ r = -1))) ∨ (p = 2 ∧ x = ![2] ∧ r = -1)) := by
  unfold Spec.Donates exRanks
  fin_cases p
  · simp
  · simp [Ovk.Spec.pts, eq_comm]
  · simp [Ovk.Spec.pts, eq_comm]
  · simp
  · simp

theorem exRanks_receives (q : Fin 5) (m g : Int) (x : Tup 1) (s : Int) :
    Spec.Receives exRanks q m g x s ↔ m = 0 ∧ g = 1 ∧
      ((q = 0 ∧ x = ![0] ∧ s = -1) ∨ (q = 1 ∧ ((x = ![2] ∧ s = -1) ∨ (x = ![3] ∧ s = 1)))) := by
  unfold Spec.Receives exRanks
  fin_cases q
  · simp [eq_comm]
  · simp [eq_comm]
  · simp
  · simp
  · simp

theorem exRanks_inRange (g : Int) (x : Tup 1) (hg : g = 1) (hx : x = ![0] ∨ x = ![2] ∨ x = ![3]) :
    ∃ R, (g, R) ∈ exRanks.grids ∧ Ovk.Spec.pts R x := by
  refine ⟨⟨![0], ![4]⟩, by simp [exRanks, hg], ?_⟩
  rcases hx with rfl | rfl | rfl <;> simp [Ovk.Spec.pts]

theorem exRanks_notShared : Spec.NotShared exRanks := by
  intro p p' m m' g x r r' h0 h0'
  obtain ⟨_, _, ⟨rfl, h⟩ | ⟨rfl, h, _⟩⟩ := (exRanks_donates ..).1 h0 <;>
    obtain ⟨_, _, ⟨rfl, h'⟩ | ⟨rfl, h', _⟩⟩ := (exRanks_donates ..).1 h0'
  · rfl
  · rcases h with ⟨rfl, _⟩ | ⟨rfl, _⟩ <;> simp at h'
  · rcases h' with ⟨rfl, _⟩ | ⟨rfl, _⟩ <;> simp at h
  · rfl

theorem exRanks_consistent : Spec.Consistent exRanks where
  grids := by decide
  nonempty := ⟨(0, ⟨![0], ![2]⟩), by simp [exRanks], ![0], by simp [Ovk.Spec.pts]⟩
  donorPoint := by
    intro p m g x r h
    obtain ⟨_, hg, h⟩ := (exRanks_donates ..).1 h
    exact exRanks_inRange g x hg (by tauto)
  recvPoint := by
    intro q m g x s h
    obtain ⟨_, hg, h⟩ := (exRanks_receives ..).1 h
    exact exRanks_inRange g x hg (by tauto)
  receiverOf := by
    intro p m g x r h
    obtain ⟨rfl, rfl, ⟨rfl, ⟨rfl, rfl⟩ | ⟨rfl, rfl⟩⟩ | ⟨rfl, rfl, rfl⟩⟩ := (exRanks_donates ..).1 h
    · exact ⟨1, 1, (exRanks_receives ..).2 (by simp), by simp, by simp⟩
    · exact ⟨0, -1, (exRanks_receives ..).2 (by simp), by simp, by simp⟩
    · exact ⟨1, -1, (exRanks_receives ..).2 (by simp), by simp, by simp⟩
  donorOf := by
    intro q m g x s h
    obtain ⟨rfl, rfl, ⟨rfl, rfl, rfl⟩ | ⟨rfl, ⟨rfl, rfl⟩ | ⟨rfl, rfl⟩⟩⟩ := (exRanks_receives ..).1 h
    · exact ⟨1, -1, (exRanks_donates ..).2 (by simp), by simp, by simp⟩
    · exact ⟨2, -1, (exRanks_donates ..).2 (by simp), by simp, by simp⟩
    · exact ⟨1, 1, (exRanks_donates ..).2 (by simp), by simp, by simp⟩
  oneReceiver := by
    intro q q' m m' g x s s' h h0'
    obtain ⟨_, _, ⟨rfl, rfl, _⟩ | ⟨rfl, ⟨rfl, _⟩ | ⟨rfl, _⟩⟩⟩ := (exRanks_receives ..).1 h <;>
      obtain ⟨_, _, ⟨rfl, h', _⟩ | ⟨rfl, ⟨h', _⟩ | ⟨h', _⟩⟩⟩ := (exRanks_receives ..).1 h0' <;>
      first | rfl | simp at h'
  oneDonor := fun p p' m g x r r' h h' => exRanks_notShared p p' m m g x r r' h h'

end Ovk.Xch
