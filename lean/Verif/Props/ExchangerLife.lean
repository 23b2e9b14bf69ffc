/-
C84: an exchanger follows the edits of its connectivities.
-/
import Verif.Model.ExchangerLife
import Verif.Props.ExchangeOrder

namespace Ovk.XLife
open Ovk.Xch
variable {d n : Nat}

/-! ### Specification -/
namespace Spec

/-- Process `q` has a receiver of connectivity `c` at point `x`. -/
def ReceivedBy (c : Conn d n) (q : Fin n) (x : Tup d) : Prop := ∃ rs, c.ns q = some rs ∧ ∃ z ∈ rs, z.pt = x

/-- Process `p` has a donor of connectivity `c` for point `x`, and the lower corner of the donor cell. -/
def DonatedBy (c : Conn d n) (p : Fin n) (x : Tup d) : Prop :=
  ∃ R ds, c.ms p = some (R, ds) ∧ ∃ y ∈ ds, Ovk.Spec.pts R y.lower ∧ y.dest = x

/-- The destination ranks held for `c` are those of the receivers; donors whose lower corner is elsewhere have
none. -/
def DestRight (c : Conn d n) (t : Fin n → Option (List Int)) : Prop :=
  ∀ p, (c.ms p = none → t p = none) ∧ ∀ R ds, c.ms p = some (R, ds) → ∃ l, t p = some l ∧ l.length = ds.length ∧
    ∀ (j : Nat) y, ds[j]? = some y → ∃ v, l[j]? = some v ∧
      (Ovk.Spec.pts R y.lower → ∃ q : Fin n, ReceivedBy c q y.dest ∧ v = (q : Nat)) ∧
      (¬ Ovk.Spec.pts R y.lower → v = -1)

/-- The source ranks held for `c` are those of the donors. -/
def SrcRight (c : Conn d n) (t : Fin n → Option (List Int)) : Prop :=
  ∀ q, (c.ns q = none → t q = none) ∧ ∀ rs, c.ns q = some rs → ∃ l, t q = some l ∧ l.length = rs.length ∧
    ∀ (j : Nat) z, rs[j]? = some z → ∃ v, l[j]? = some v ∧ ∃ p : Fin n, DonatedBy c p z.pt ∧ v = (p : Nat)

/-- The tables are right for the connectivities that exist, and there are no others. -/
def Right (s : State d n) (cs : List (Conn d n)) : Prop :=
  (∀ c ∈ cs, DestRight c (s.dest c.id) ∧ SrcRight c (s.src c.id)) ∧
    ∀ i, i ∉ cs.map Conn.id → ∀ p, s.dest i p = none ∧ s.src i p = none

/-- Distinct IDs; donors and receivers form matching pairs. -/
structure Valid (grids : List (Int × Rng d)) (cs : List (Conn d n)) : Prop where
  ids : (cs.map Conn.id).Nodup
  pairs : Ovk.Xch.Spec.Consistent (world grids cs)
  alone : Ovk.Xch.Spec.NotShared (world grids cs)

def donors (c : Conn d n) (p : Fin n) : List (Donor d) := ((c.ms p).map Prod.snd).getD []
def receivers (c : Conn d n) (p : Fin n) : List (Receiver d) := (c.ns p).getD []

/-- The flags tell what an edit has changed; the grids stay where they are. -/
structure Honest (c c' : Conn d n) (f : Flags) : Prop where
  id : c'.id = c.id
  mHosts : ∀ p, (c'.ms p).map Prod.fst = (c.ms p).map Prod.fst
  nHosts : ∀ p, (c'.ns p).isSome = (c.ns p).isSome
  extents : f.extents = false → ∀ p, (donors c' p).map Donor.lower = (donors c p).map Donor.lower
  dests : f.dests = false → ∀ p, (donors c' p).map Donor.dest = (donors c p).map Donor.dest ∧
    (donors c' p).map Donor.rank = (donors c p).map Donor.rank
  points : f.points = false → ∀ p, (receivers c' p).map Receiver.pt = (receivers c p).map Receiver.pt
  sources : f.sources = false → ∀ p, (receivers c' p).map Receiver.rank = (receivers c p).map Receiver.rank

/-- The call turns the connectivities `cs` into `cs'`. -/
def Does (cs : List (Conn d n)) : Op d n → List (Conn d n) → Prop
  | .create new, cs' => cs' = cs ++ new ∧ ∀ c ∈ new, ∀ p, donors c p = [] ∧ receivers c p = []
  | .destroy ids, cs' => (∀ i ∈ ids, i ∈ cs.map Conn.id) ∧ cs' = cs.filter fun c => decide (c.id ∉ ids)
  | .edit es, cs' => (es.map fun e => e.1.id).Nodup ∧ (∀ e ∈ es, e.1.id ∈ cs.map Conn.id) ∧
      List.Forall₂ (fun c c' => (∃ f, (c', f) ∈ es ∧ Honest c c' f) ∨
        (c' = c ∧ ∀ e ∈ es, e.1.id ≠ c.id)) cs cs'

/-- A history of calls, with valid connectivities after each of them. -/
inductive Leads (grids : List (Int × Rng d)) : List (Conn d n) → List (Op d n) → List (Conn d n) → Prop
  | nil (cs) : Leads grids cs [] cs
  | cons {cs cs' cs'' o os} : Does cs o cs' → Valid grids cs' → Leads grids cs' os cs'' →
      Leads grids cs (o :: os) cs''

/-- Edits of extents come with edits of destinations, edits of points with edits of sources. -/
def Together : Op d n → Prop
  | .edit es => ∀ e ∈ es, (e.2.extents = true → e.2.dests = true) ∧ (e.2.points = true → e.2.sources = true)
  | _ => True

end Spec

/-- After every history the tables of the exchanger are right. -/
def C84_statement : Prop := ∀ (d n : Nat) (grids : List (Int × Rng d)) (cs cs' : List (Conn d n))
  (ops : List (Op d n)), Spec.Valid grids cs → Spec.Leads grids cs ops cs' →
  ∃ s, run grids cs ops = some s ∧ Spec.Right s cs'

/-! ### Donors and receivers of several connectivities -/

theorem mem_ms {grids : List (Int × Rng d)} {cs : List (Conn d n)} {p : Fin n} {x : ConnM d} :
    x ∈ (world grids cs).ms p ↔
      ∃ c ∈ cs, c.mGrid = x.mGrid ∧ c.nGrid = x.nGrid ∧ c.ms p = some (x.localRange, x.donors) := by
  show x ∈ cs.filterMap _ ↔ _
  rw [List.mem_filterMap]
  constructor
  · rintro ⟨c, hc, h⟩
    rw [Option.map_eq_some_iff] at h
    obtain ⟨⟨R, ds⟩, h1, rfl⟩ := h
    exact ⟨c, hc, rfl, rfl, h1⟩
  · rintro ⟨c, hc, h1, h2, h3⟩
    refine ⟨c, hc, ?_⟩
    rw [h3, Option.map_some, h1, h2]

theorem mem_ns {grids : List (Int × Rng d)} {cs : List (Conn d n)} {p : Fin n} {x : ConnN d} :
    x ∈ (world grids cs).ns p ↔
      ∃ c ∈ cs, c.mGrid = x.mGrid ∧ c.nGrid = x.nGrid ∧ c.ns p = some x.receivers := by
  show x ∈ cs.filterMap _ ↔ _
  rw [List.mem_filterMap]
  constructor
  · rintro ⟨c, hc, h⟩
    rw [Option.map_eq_some_iff] at h
    obtain ⟨rs, h1, rfl⟩ := h
    exact ⟨c, hc, rfl, rfl, h1⟩
  · rintro ⟨c, hc, h1, h2, h3⟩
    refine ⟨c, hc, ?_⟩
    rw [h3, Option.map_some, h1, h2]

theorem donates_iff {grids : List (Int × Rng d)} {cs : List (Conn d n)} {p : Fin n} {m g r : Int} {x : Tup d} :
    Ovk.Xch.Spec.Donates (world grids cs) p m g x r ↔ ∃ c ∈ cs, c.id = (m, g) ∧ ∃ R ds, c.ms p = some (R, ds) ∧
      ∃ y ∈ ds, Ovk.Spec.pts R y.lower ∧ y.dest = x ∧ y.rank = r := by
  constructor
  · rintro ⟨c, hc, rfl, rfl, y, hy, h⟩
    obtain ⟨k, hk, h1, h2, h3⟩ := mem_ms.1 hc
    exact ⟨k, hk, by unfold Conn.id; rw [h1, h2], _, _, h3, y, hy, h⟩
  · rintro ⟨c, hc, hid, R, ds, hm, y, hy, h⟩
    unfold Conn.id at hid
    obtain ⟨rfl, rfl⟩ := Prod.mk.inj hid
    exact ⟨⟨c.mGrid, c.nGrid, R, ds⟩, mem_ms.2 ⟨c, hc, rfl, rfl, hm⟩, rfl, rfl, y, hy, h⟩

theorem receives_iff {grids : List (Int × Rng d)} {cs : List (Conn d n)} {p : Fin n} {m g r : Int} {x : Tup d} :
    Ovk.Xch.Spec.Receives (world grids cs) p m g x r ↔ ∃ c ∈ cs, c.id = (m, g) ∧ ∃ rs, c.ns p = some rs ∧
      ∃ y ∈ rs, y.pt = x ∧ y.rank = r := by
  constructor
  · rintro ⟨c, hc, rfl, rfl, y, hy, h⟩
    obtain ⟨k, hk, h1, h2, h3⟩ := mem_ns.1 hc
    exact ⟨k, hk, by unfold Conn.id; rw [h1, h2], _, h3, y, hy, h⟩
  · rintro ⟨c, hc, hid, rs, hm, y, hy, h⟩
    unfold Conn.id at hid
    obtain ⟨rfl, rfl⟩ := Prod.mk.inj hid
    exact ⟨⟨c.mGrid, c.nGrid, rs⟩, mem_ns.2 ⟨c, hc, rfl, rfl, hm⟩, rfl, rfl, y, hy, h⟩

theorem same_of_id {cs : List (Conn d n)} (h : (cs.map Conn.id).Nodup) {c c' : Conn d n} (hc : c ∈ cs)
    (hc' : c' ∈ cs) (hid : c.id = c'.id) : c = c' := List.inj_on_of_nodup_map h hc hc' hid

/-- Any of the connectivities by themselves are consistent too. -/
theorem sub_consistent {grids : List (Int × Rng d)} {cs : List (Conn d n)} (hv : Spec.Valid grids cs)
    (P : Int × Int → Bool) :
    Ovk.Xch.Spec.Consistent (world grids (cs.filter fun c => P c.id)) ∧
      Ovk.Xch.Spec.NotShared (world grids (cs.filter fun c => P c.id)) := by
  have dup : ∀ {p : Fin n} {m g : Int} {x : Tup d} {r : Int},
      Ovk.Xch.Spec.Donates (world grids (cs.filter fun c => P c.id)) p m g x r ↔
        P (m, g) = true ∧ Ovk.Xch.Spec.Donates (world grids cs) p m g x r := by
    intro p m g x r
    rw [donates_iff, donates_iff]
    constructor
    · rintro ⟨c, hc, hid, h⟩
      rw [List.mem_filter] at hc
      exact ⟨hid ▸ hc.2, c, hc.1, hid, h⟩
    · rintro ⟨hP, c, hc, hid, h⟩
      exact ⟨c, List.mem_filter.2 ⟨hc, by rw [hid]; exact hP⟩, hid, h⟩
  have rup : ∀ {p : Fin n} {m g : Int} {x : Tup d} {r : Int},
      Ovk.Xch.Spec.Receives (world grids (cs.filter fun c => P c.id)) p m g x r ↔
        P (m, g) = true ∧ Ovk.Xch.Spec.Receives (world grids cs) p m g x r := by
    intro p m g x r
    rw [receives_iff, receives_iff]
    constructor
    · rintro ⟨c, hc, hid, h⟩
      rw [List.mem_filter] at hc
      exact ⟨hid ▸ hc.2, c, hc.1, hid, h⟩
    · rintro ⟨hP, c, hc, hid, h⟩
      exact ⟨c, List.mem_filter.2 ⟨hc, by rw [hid]; exact hP⟩, hid, h⟩
  have w := hv.pairs
  refine ⟨⟨w.grids, w.nonempty, ?_, ?_, ?_, ?_, ?_, ?_⟩, ?_⟩
  · intro p m g x r h; exact w.donorPoint p m g x r (dup.1 h).2
  · intro p m g x r h; exact w.recvPoint p m g x r (rup.1 h).2
  · intro p m g x r h
    obtain ⟨hP, h⟩ := dup.1 h
    obtain ⟨q, s, h1, h2⟩ := w.receiverOf p m g x r h
    exact ⟨q, s, rup.2 ⟨hP, h1⟩, h2⟩
  · intro p m g x r h
    obtain ⟨hP, h⟩ := rup.1 h
    obtain ⟨q, s, h1, h2⟩ := w.donorOf p m g x r h
    exact ⟨q, s, dup.2 ⟨hP, h1⟩, h2⟩
  · intro q q' m m' g x s s' h h'
    exact w.oneReceiver q q' m m' g x s s' (rup.1 h).2 (rup.1 h').2
  · intro q q' m g x s s' h h'
    exact w.oneDonor q q' m g x s s' (dup.1 h).2 (dup.1 h').2
  · intro q q' m m' g x s s' h h'
    exact hv.alone q q' m m' g x s s' (dup.1 h).2 (dup.1 h').2

theorem mEntry_none {grids : List (Int × Rng d)} {cs : List (Conn d n)} {D : Fin n → List (List Int)} {m g : Int}
    {p : Fin n} (h : ∀ c ∈ cs, c.id = (m, g) → c.ms p = none) : mEntry (world grids cs) D m g p = none := by
  unfold mEntry
  rw [List.find?_eq_none]
  rintro ⟨x, l⟩ hx
  obtain ⟨c, hc, h1, h2, h3⟩ := mem_ms.1 (List.of_mem_zip hx).1
  simp only [decide_eq_true_eq]
  rintro ⟨e1, e2⟩
  rw [h c hc (by unfold Conn.id; rw [h1, h2, e1, e2])] at h3
  cases h3

theorem nEntry_none {grids : List (Int × Rng d)} {cs : List (Conn d n)} {D : Fin n → List (List Int)} {m g : Int}
    {p : Fin n} (h : ∀ c ∈ cs, c.id = (m, g) → c.ns p = none) : nEntry (world grids cs) D m g p = none := by
  unfold nEntry
  rw [List.find?_eq_none]
  rintro ⟨x, l⟩ hx
  obtain ⟨c, hc, h1, h2, h3⟩ := mem_ns.1 (List.of_mem_zip hx).1
  simp only [decide_eq_true_eq]
  rintro ⟨e1, e2⟩
  rw [h c hc (by unfold Conn.id; rw [h1, h2, e1, e2])] at h3
  cases h3

/-- The entry found for a connectivity is its own. -/
theorem mEntry_some {grids : List (Int × Rng d)} {cs : List (Conn d n)} (hn : (cs.map Conn.id).Nodup)
    {D : Fin n → List (List Int)} (hD : Ovk.Xch.Spec.DestOk (world grids cs) D) {c : Conn d n} (hc : c ∈ cs)
    {p : Fin n} {R : Rng d} {ds : List (Donor d)} (hm : c.ms p = some (R, ds)) :
    ∃ l, mEntry (world grids cs) D c.mGrid c.nGrid p = some (⟨c.mGrid, c.nGrid, R, ds⟩, l) ∧
      l.length = ds.length ∧ ∀ (j : Nat) (y : Donor d), ds[j]? = some y → ∃ v, l[j]? = some v ∧
        (Ovk.Spec.pts R y.lower →
          ∃ q s, Ovk.Xch.Spec.Receives (world grids cs) q c.mGrid c.nGrid y.dest s ∧ v = (q : Nat)) ∧
        (¬ Ovk.Spec.pts R y.lower → v = -1) := by
  cases he : mEntry (world grids cs) D c.mGrid c.nGrid p with
  | none =>
    exfalso
    obtain ⟨i, hi⟩ := List.mem_iff_getElem?.1
      (mem_ms (x := ⟨c.mGrid, c.nGrid, R, ds⟩) |>.2 ⟨c, hc, rfl, rfl, hm⟩ : _ ∈ (world grids cs).ms p)
    obtain ⟨l, hl, -⟩ := hD p i _ hi
    unfold mEntry at he
    rw [List.find?_eq_none] at he
    have := he (_, l) (List.mem_iff_getElem?.2 ⟨i, List.getElem?_zip_eq_some.2 ⟨hi, hl⟩⟩)
    simp at this
  | some x =>
    obtain ⟨k, l⟩ := x
    obtain ⟨h1, i, h2, h3⟩ := find_zip _ _ (fun k : ConnM d => decide (k.mGrid = c.mGrid ∧ k.nGrid = c.nGrid)) _ he
    simp only [decide_eq_true_eq] at h1
    obtain ⟨c', hc', e1, e2, e3⟩ := mem_ms.1 (List.mem_of_getElem? h2)
    have : c' = c := same_of_id hn hc' hc (by unfold Conn.id; rw [e1, e2, h1.1, h1.2])
    subst this
    have hk : k = ⟨c'.mGrid, c'.nGrid, R, ds⟩ := by
      obtain ⟨km, kn, kR, kd⟩ := k
      simp only at e1 e2 e3
      rw [hm] at e3
      cases e3
      rw [e1, e2]
    subst hk
    obtain ⟨l', h4, h5⟩ := hD p i _ h2
    simp only at h3
    rw [h3] at h4
    cases h4
    exact ⟨l, rfl, h5⟩

theorem nEntry_some {grids : List (Int × Rng d)} {cs : List (Conn d n)} (hn : (cs.map Conn.id).Nodup)
    {S : Fin n → List (List Int)} (hS : Ovk.Xch.Spec.SrcOk (world grids cs) S) {c : Conn d n} (hc : c ∈ cs)
    {p : Fin n} {rs : List (Receiver d)} (hm : c.ns p = some rs) :
    ∃ l, nEntry (world grids cs) S c.mGrid c.nGrid p = some (⟨c.mGrid, c.nGrid, rs⟩, l) ∧
      l.length = rs.length ∧ ∀ (j : Nat) (y : Receiver d), rs[j]? = some y → ∃ v, l[j]? = some v ∧
          ∃ q s, Ovk.Xch.Spec.Donates (world grids cs) q c.mGrid c.nGrid y.pt s ∧ v = (q : Nat) := by
  cases he : nEntry (world grids cs) S c.mGrid c.nGrid p with
  | none =>
    exfalso
    obtain ⟨i, hi⟩ := List.mem_iff_getElem?.1
      (mem_ns (x := ⟨c.mGrid, c.nGrid, rs⟩) |>.2 ⟨c, hc, rfl, rfl, hm⟩ : _ ∈ (world grids cs).ns p)
    obtain ⟨l, hl, -⟩ := hS p i _ hi
    unfold nEntry at he
    rw [List.find?_eq_none] at he
    have := he (_, l) (List.mem_iff_getElem?.2 ⟨i, List.getElem?_zip_eq_some.2 ⟨hi, hl⟩⟩)
    simp at this
  | some x =>
    obtain ⟨k, l⟩ := x
    obtain ⟨h1, i, h2, h3⟩ := find_zip _ _ (fun k : ConnN d => decide (k.mGrid = c.mGrid ∧ k.nGrid = c.nGrid)) _ he
    simp only [decide_eq_true_eq] at h1
    obtain ⟨c', hc', e1, e2, e3⟩ := mem_ns.1 (List.mem_of_getElem? h2)
    have : c' = c := same_of_id hn hc' hc (by unfold Conn.id; rw [e1, e2, h1.1, h1.2])
    subst this
    have hk : k = ⟨c'.mGrid, c'.nGrid, rs⟩ := by
      obtain ⟨km, kn, kd⟩ := k
      simp only at e1 e2 e3
      rw [hm] at e3
      cases e3
      rw [e1, e2]
    subst hk
    obtain ⟨l', h4, h5⟩ := hS p i _ h2
    simp only at h3
    rw [h3] at h4
    cases h4
    exact ⟨l, rfl, h5⟩

/-! ### One update -/

/-- What the rank search does to the tables. -/
theorem updateRanks_spec {grids : List (Int × Rng d)} {s : State d n} (hv : Spec.Valid grids s.conns)
    (ids : List (Int × Int))
    (hno : ∀ c ∈ s.conns, c.id ∈ ids → ∀ p, (c.ms p = none → s.dest c.id p = none) ∧
      (c.ns p = none → s.src c.id p = none)) :
    ∃ s', updateRanks grids s ids = some s' ∧ s'.conns = s.conns ∧
      (∀ c ∈ s.conns, c.id ∈ ids → Spec.DestRight c (s'.dest c.id) ∧ Spec.SrcRight c (s'.src c.id)) ∧
      ∀ i, (i ∉ ids ∨ i ∉ s.conns.map Conn.id) → ∀ p, s'.dest i p = s.dest i p ∧ s'.src i p = s.src i p := by
  unfold updateRanks
  by_cases hids : ids = []
  · subst hids
    rw [if_pos rfl]
    exact ⟨s, rfl, rfl, fun c _ h => absurd h (List.not_mem_nil), fun _ _ _ => ⟨rfl, rfl⟩⟩
  rw [if_neg hids]
  obtain ⟨hc, hns⟩ := sub_consistent hv fun i => decide (i ∈ ids)
  have hn : ((s.conns.filter fun c => decide (c.id ∈ ids)).map Conn.id).Nodup :=
    hv.ids.sublist ((List.filter_sublist).map _)
  generalize hus : (s.conns.filter fun c => decide (c.id ∈ ids)) = us at hc hns hn
  have hmem : ∀ c, c ∈ us ↔ c ∈ s.conns ∧ c.id ∈ ids := by
    intro c; rw [← hus, List.mem_filter, decide_eq_true_eq]
  obtain ⟨D, S, hup, hD, hS⟩ := C24_partial hc hns
  simp only [hup, Option.map_some]
  refine ⟨_, rfl, rfl, ?_, ?_⟩
  · intro c hcc hci
    have hcu := (hmem c).2 ⟨hcc, hci⟩
    have same : ∀ c' ∈ us, c'.id = (c.mGrid, c.nGrid) → c' = c := by
      intro c' hc' hid
      exact same_of_id hn hc' hcu hid
    constructor
    · intro p
      show (_ → (match mEntry (world grids us) D c.mGrid c.nGrid p with
        | some e => some e.2 | none => s.dest c.id p) = none) ∧ _
      constructor
      · intro hm
        rw [mEntry_none fun c' hc' hid => by rw [same c' hc' hid]; exact hm]
        exact (hno c hcc hci p).1 hm
      · intro R ds hm
        obtain ⟨l, h1, h2, h3⟩ := mEntry_some hn hD hcu hm
        refine ⟨l, ?_, h2, ?_⟩
        · show (match mEntry (world grids us) D c.mGrid c.nGrid p with
            | some e => some e.2 | none => s.dest c.id p) = some l
          rw [h1]
        · intro j y hy
          obtain ⟨v, h4, h5, h6⟩ := h3 j y hy
          refine ⟨v, h4, fun hp => ?_, h6⟩
          obtain ⟨q, r, h7, h8⟩ := h5 hp
          obtain ⟨c', hc', hid, rs, h9, z, hz, h10, -⟩ := receives_iff.1 h7
          rw [same c' hc' hid] at h9
          exact ⟨q, ⟨rs, h9, z, hz, h10⟩, h8⟩
    · intro p
      show (_ → (match nEntry (world grids us) S c.mGrid c.nGrid p with
        | some e => some e.2 | none => s.src c.id p) = none) ∧ _
      constructor
      · intro hm
        rw [nEntry_none fun c' hc' hid => by rw [same c' hc' hid]; exact hm]
        exact (hno c hcc hci p).2 hm
      · intro rs hm
        obtain ⟨l, h1, h2, h3⟩ := nEntry_some hn hS hcu hm
        refine ⟨l, ?_, h2, ?_⟩
        · show (match nEntry (world grids us) S c.mGrid c.nGrid p with
            | some e => some e.2 | none => s.src c.id p) = some l
          rw [h1]
        · intro j y hy
          obtain ⟨v, h4, q, r, h7, h8⟩ := h3 j y hy
          refine ⟨v, h4, q, ?_, h8⟩
          obtain ⟨c', hc', hid, R, ds, h9, z, hz, h10, h11, -⟩ := donates_iff.1 h7
          rw [same c' hc' hid] at h9
          exact ⟨R, ds, h9, z, hz, h10, h11⟩
  · intro i hi p
    have hnone : ∀ c ∈ us, c.id ≠ (i.1, i.2) := by
      intro c hc hid
      obtain ⟨h1, h2⟩ := (hmem c).1 hc
      have hid : c.id = i := hid
      rcases hi with hi | hi
      · exact hi (hid ▸ h2)
      · exact hi (hid ▸ List.mem_map_of_mem h1)
    constructor
    · show (match mEntry (world grids us) D i.1 i.2 p with | some e => some e.2 | none => s.dest i p) = _
      rw [mEntry_none fun c hc hid => absurd hid (hnone c hc)]
    · show (match nEntry (world grids us) S i.1 i.2 p with | some e => some e.2 | none => s.src i p) = _
      rw [nEntry_none fun c hc hid => absurd hid (hnone c hc)]

theorem createLocals_none {s : State d n} {ids : List (Int × Int)} {i : Int × Int} {p : Fin n}
    (h : ∀ c ∈ s.conns, c.id = i → c.id ∈ ids → c.ms p = none) :
    (createLocals s ids).dest i p = s.dest i p := by
  unfold createLocals
  show (if _ then some [] else s.dest i p) = _
  rw [if_neg]
  rw [List.any_eq_true]
  rintro ⟨c, hc, hx⟩
  rw [Bool.and_eq_true, decide_eq_true_eq] at hx
  rw [h c hc hx.1.2 hx.1.1] at hx
  exact absurd hx.2 (by simp)

theorem createLocals_none' {s : State d n} {ids : List (Int × Int)} {i : Int × Int} {p : Fin n}
    (h : ∀ c ∈ s.conns, c.id = i → c.id ∈ ids → c.ns p = none) :
    (createLocals s ids).src i p = s.src i p := by
  unfold createLocals
  show (if _ then some [] else s.src i p) = _
  rw [if_neg]
  rw [List.any_eq_true]
  rintro ⟨c, hc, hx⟩
  rw [Bool.and_eq_true, decide_eq_true_eq] at hx
  rw [h c hc hx.1.2 hx.1.1] at hx
  exact absurd hx.2 (by simp)

theorem right_congr {c : Conn d n} {s s' : State d n}
    (h : ∀ p, s'.dest c.id p = s.dest c.id p ∧ s'.src c.id p = s.src c.id p)
    (hr : Spec.DestRight c (s.dest c.id) ∧ Spec.SrcRight c (s.src c.id)) :
    Spec.DestRight c (s'.dest c.id) ∧ Spec.SrcRight c (s'.src c.id) := by
  have e1 : s'.dest c.id = s.dest c.id := funext fun p => (h p).1
  have e2 : s'.src c.id = s.src c.id := funext fun p => (h p).2
  rw [e1, e2]
  exact hr

/-- New connectivities, created by the component or found at binding. -/
theorem add_right {grids : List (Int × Rng d)} {s : State d n} {old new : List (Conn d n)}
    (hold : ∀ c ∈ old, Spec.DestRight c (s.dest c.id) ∧ Spec.SrcRight c (s.src c.id))
    (hnone : ∀ i, i ∉ old.map Conn.id → ∀ p, s.dest i p = none ∧ s.src i p = none)
    (hv : Spec.Valid grids (old ++ new)) :
    ∃ s', updateAll grids { s with conns := old ++ new } ⟨new.map Conn.id, [], new.map Conn.id⟩ = some s' ∧
      s'.conns = old ++ new ∧ Spec.Right s' (old ++ new) := by
  have hsplit := hv.ids
  rw [List.map_append, List.nodup_append] at hsplit
  obtain ⟨-, -, hdis⟩ := hsplit
  have hnew : ∀ c ∈ new, c.id ∉ old.map Conn.id := by
    intro c hc ho
    exact hdis _ ho _ (List.mem_map_of_mem hc) rfl
  unfold updateAll
  generalize hs1 : destroyLocals (createLocals { s with conns := old ++ new } (new.map Conn.id)) [] = s1
  have hconns : s1.conns = old ++ new := by rw [← hs1]; rfl
  have hd1 : ∀ i p, s1.dest i p = (createLocals { s with conns := old ++ new } (new.map Conn.id)).dest i p := by
    intro i p; rw [← hs1]; simp [destroyLocals]
  have hs1' : ∀ i p, s1.src i p = (createLocals { s with conns := old ++ new } (new.map Conn.id)).src i p := by
    intro i p; rw [← hs1]; simp [destroyLocals]
  have hother : ∀ i, i ∉ new.map Conn.id → ∀ p, s1.dest i p = s.dest i p ∧ s1.src i p = s.src i p := by
    intro i hi p
    rw [hd1, hs1', createLocals_none, createLocals_none']
    · exact ⟨rfl, rfl⟩
    · intro c _ h1 h2; exact absurd (h1 ▸ h2) hi
    · intro c _ h1 h2; exact absurd (h1 ▸ h2) hi
  obtain ⟨s', h1, h2, h3, h4⟩ := updateRanks_spec (grids := grids) (s := s1) (by rw [hconns]; exact hv)
    (new.map Conn.id) (by
      intro c hc hci p
      rw [hconns] at hc
      obtain ⟨c', hc', hid⟩ := List.mem_map.1 hci
      have : c' = c := same_of_id hv.ids (List.mem_append_right _ hc') hc hid
      subst this
      have hz := hnone c'.id (hnew c' hc') p
      have huniq : ∀ k ∈ old ++ new, k.id = c'.id → k = c' := fun k hk he => same_of_id hv.ids hk hc he
      constructor
      · intro hm
        rw [hd1, createLocals_none]
        · exact hz.1
        · intro k hk he _; rw [huniq k hk he]; exact hm
      · intro hm
        rw [hs1', createLocals_none']
        · exact hz.2
        · intro k hk he _; rw [huniq k hk he]; exact hm)
  refine ⟨s', h1, h2.trans hconns, ?_, ?_⟩
  · intro c hc
    by_cases hci : c.id ∈ new.map Conn.id
    · exact h3 c (by rw [hconns]; exact hc) hci
    · have hco : c ∈ old := by
        rcases List.mem_append.1 hc with h | h
        · exact h
        · exact absurd (List.mem_map_of_mem h) hci
      refine right_congr (s := s) (fun p => ?_) (hold c hco)
      have e1 := h4 c.id (Or.inl hci) p
      have e2 := hother c.id hci p
      exact ⟨e1.1.trans e2.1, e1.2.trans e2.2⟩
  · intro i hi p
    rw [List.map_append, List.mem_append, not_or] at hi
    have e1 := h4 i (Or.inl hi.2) p
    have e2 := hother i hi.2 p
    have e3 := hnone i hi.1 p
    exact ⟨(e1.1.trans e2.1).trans e3.1, (e1.2.trans e2.2).trans e3.2⟩

theorem map_ext3 {l l' : List (Donor d)} (h1 : l'.map Donor.lower = l.map Donor.lower)
    (h2 : l'.map Donor.dest = l.map Donor.dest) (h3 : l'.map Donor.rank = l.map Donor.rank) : l' = l := by
  apply List.ext_getElem?
  intro k
  have g1 := congrArg (·[k]?) h1
  have g2 := congrArg (·[k]?) h2
  have g3 := congrArg (·[k]?) h3
  simp only [List.getElem?_map] at g1 g2 g3
  cases ha : l'[k]? with
  | none =>
    rw [ha] at g1
    cases hb : l[k]? with
    | none => rfl
    | some y => rw [hb] at g1; cases g1
  | some x =>
    cases hb : l[k]? with
    | none => rw [ha, hb] at g1; cases g1
    | some y =>
      rw [ha, hb] at g1 g2 g3
      simp only [Option.map_some, Option.some.injEq] at g1 g2 g3
      obtain ⟨a, b, c⟩ := x
      obtain ⟨a', b', c'⟩ := y
      simp only at g1 g2 g3
      rw [g1, g2, g3]

theorem map_ext2 {l l' : List (Receiver d)} (h1 : l'.map Receiver.pt = l.map Receiver.pt)
    (h3 : l'.map Receiver.rank = l.map Receiver.rank) : l' = l := by
  apply List.ext_getElem?
  intro k
  have g1 := congrArg (·[k]?) h1
  have g3 := congrArg (·[k]?) h3
  simp only [List.getElem?_map] at g1 g3
  cases ha : l'[k]? with
  | none =>
    rw [ha] at g1
    cases hb : l[k]? with
    | none => rfl
    | some y => rw [hb] at g1; cases g1
  | some x =>
    cases hb : l[k]? with
    | none => rw [ha, hb] at g1; cases g1
    | some y =>
      rw [ha, hb] at g1 g3
      simp only [Option.map_some, Option.some.injEq] at g1 g3
      obtain ⟨a, c⟩ := x
      obtain ⟨a', c'⟩ := y
      simp only at g1 g3
      rw [g1, g3]

/-- An edit that raises neither of the flags the exchanger looks at has changed nothing that matters. -/
theorem honest_same {c c' : Conn d n} {f : Flags} (h : Spec.Honest c c' f)
    (ht : (f.extents = true → f.dests = true) ∧ (f.points = true → f.sources = true))
    (hd : f.dests = false) (hs : f.sources = false) : c' = c := by
  have he : f.extents = false := by
    cases hx : f.extents with
    | false => rfl
    | true => rw [ht.1 hx] at hd; cases hd
  have hp : f.points = false := by
    cases hx : f.points with
    | false => rfl
    | true => rw [ht.2 hx] at hs; cases hs
  have hid := h.id
  unfold Conn.id at hid
  obtain ⟨i1, i2⟩ := Prod.mk.inj hid
  have hms : c'.ms = c.ms := by
    funext p
    have e1 := h.extents he p
    have e2 := h.dests hd p
    have e := map_ext3 e1 e2.1 e2.2
    have hh := h.mHosts p
    unfold Spec.donors at e
    cases ha : c'.ms p with
    | none =>
      cases hb : c.ms p with
      | none => rfl
      | some y => rw [ha, hb] at hh; cases hh
    | some x =>
      cases hb : c.ms p with
      | none => rw [ha, hb] at hh; cases hh
      | some y =>
        rw [ha, hb] at hh e
        simp only [Option.map_some, Option.some.injEq, Option.getD_some] at hh e
        obtain ⟨x1, x2⟩ := x
        obtain ⟨y1, y2⟩ := y
        simp only at hh e
        rw [hh, e]
  have hns : c'.ns = c.ns := by
    funext p
    have e := map_ext2 (h.points hp p) (h.sources hs p)
    have hh := h.nHosts p
    unfold Spec.receivers at e
    cases ha : c'.ns p with
    | none =>
      cases hb : c.ns p with
      | none => rfl
      | some y => rw [ha, hb] at hh; cases hh
    | some x =>
      cases hb : c.ns p with
      | none => rw [ha, hb] at hh; cases hh
      | some y =>
        rw [ha, hb] at e
        simp only [Option.getD_some] at e
        rw [e]
  obtain ⟨a1, a2, a3, a4⟩ := c'
  obtain ⟨b1, b2, b3, b4⟩ := c
  simp only at i1 i2 hms hns
  rw [i1, i2, hms, hns]

theorem replace_eq {es : List (Conn d n × Flags)} (hn : (es.map fun e => e.1.id).Nodup) {cs cs' : List (Conn d n)}
    (h : List.Forall₂ (fun c c' => (∃ f, (c', f) ∈ es ∧ Spec.Honest c c' f) ∨
        (c' = c ∧ ∀ e ∈ es, e.1.id ≠ c.id)) cs cs') : cs.map (replace es) = cs' := by
  induction h with
  | nil => rfl
  | cons hx _ ih =>
    rw [List.map_cons, ih]
    congr 1
    unfold replace
    rcases hx with ⟨f, hf, hh⟩ | ⟨rfl, hno⟩
    · split
      · rename_i e he
        have h1 := List.mem_of_find?_eq_some he
        have h2 := List.find?_some he
        simp only [decide_eq_true_eq] at h2
        have := List.inj_on_of_nodup_map hn h1 hf (h2.trans hh.id.symm)
        rw [this]
      · rename_i he
        rw [List.find?_eq_none] at he
        have := he _ hf
        simp only [decide_eq_true_eq] at this
        exact absurd hh.id this
    · split
      · rename_i e he
        have h1 := List.mem_of_find?_eq_some he
        have h2 := List.find?_some he
        simp only [decide_eq_true_eq] at h2
        exact absurd h2 (hno e h1)
      · rfl

theorem forall2_ids {es : List (Conn d n × Flags)} {cs cs' : List (Conn d n)}
    (h : List.Forall₂ (fun c c' => (∃ f, (c', f) ∈ es ∧ Spec.Honest c c' f) ∨
        (c' = c ∧ ∀ e ∈ es, e.1.id ≠ c.id)) cs cs') : cs'.map Conn.id = cs.map Conn.id := by
  induction h with
  | nil => rfl
  | cons hx _ ih =>
    rw [List.map_cons, List.map_cons, ih]
    congr 1
    rcases hx with ⟨f, -, hh⟩ | ⟨rfl, -⟩
    · exact hh.id
    · rfl

theorem forall2_mem {α : Type} {P : α → α → Prop} {cs cs' : List α} (h : List.Forall₂ P cs cs') :
    ∀ c' ∈ cs', ∃ c ∈ cs, P c c' := by
  induction h with
  | nil => intro c' hc'; cases hc'
  | cons hx _ ih =>
    intro c' hc'
    rcases List.mem_cons.1 hc' with rfl | hc'
    · exact ⟨_, List.mem_cons_self, hx⟩
    · obtain ⟨c, hc, h⟩ := ih c' hc'
      exact ⟨c, List.mem_cons_of_mem _ hc, h⟩

theorem right_hosts {s : State d n} {c c' : Conn d n} {f : Flags} (h : Spec.Honest c c' f)
    (hr : Spec.DestRight c (s.dest c.id) ∧ Spec.SrcRight c (s.src c.id)) (p : Fin n) :
    (c'.ms p = none → s.dest c'.id p = none) ∧ (c'.ns p = none → s.src c'.id p = none) := by
  rw [h.id]
  constructor
  · intro hm
    have := h.mHosts p
    rw [hm] at this
    refine (hr.1 p).1 ?_
    cases hb : c.ms p with
    | none => rfl
    | some y => rw [hb] at this; cases this
  · intro hm
    have := h.nHosts p
    rw [hm] at this
    refine (hr.2 p).1 ?_
    cases hb : c.ns p with
    | none => rfl
    | some y => rw [hb] at this; cases this

theorem step_right {grids : List (Int × Rng d)} {s : State d n} {cs' : List (Conn d n)} {o : Op d n}
    (hr : Spec.Right s s.conns) (hd : Spec.Does s.conns o cs') (hv : Spec.Valid grids cs')
    (ht : Spec.Together o) : ∃ s', step grids s o = some s' ∧ s'.conns = cs' ∧ Spec.Right s' cs' := by
  obtain ⟨hr1, hr2⟩ := hr
  cases o with
  | create new =>
    obtain ⟨rfl, -⟩ := hd
    exact add_right hr1 hr2 hv
  | destroy ids =>
    obtain ⟨-, rfl⟩ := hd
    refine ⟨_, rfl, rfl, ?_, ?_⟩
    · intro c hc
      obtain ⟨hc1, hc2⟩ := List.mem_filter.1 hc
      rw [decide_eq_true_eq] at hc2
      refine right_congr (s := s) (fun p => ⟨?_, ?_⟩) (hr1 c hc1)
      · show (if c.id ∈ ids then none else _) = _
        rw [if_neg hc2]
        exact createLocals_none fun _ _ _ h => absurd h (List.not_mem_nil)
      · show (if c.id ∈ ids then none else _) = _
        rw [if_neg hc2]
        exact createLocals_none' fun _ _ _ h => absurd h (List.not_mem_nil)
    · intro i hi p
      have key : i ∈ ids ∨ i ∉ s.conns.map Conn.id := by
        by_cases h : i ∈ ids
        · exact Or.inl h
        · right
          intro hm
          obtain ⟨c, hc, rfl⟩ := List.mem_map.1 hm
          exact hi (List.mem_map_of_mem (List.mem_filter.2 ⟨hc, by rw [decide_eq_true_eq]; exact h⟩))
      constructor
      · show (if i ∈ ids then none else _) = none
        split_ifs with h
        · rfl
        · rw [createLocals_none fun _ _ _ h => absurd h (List.not_mem_nil)]
          exact (hr2 i (key.resolve_left h) p).1
      · show (if i ∈ ids then none else _) = none
        split_ifs with h
        · rfl
        · rw [createLocals_none' fun _ _ _ h => absurd h (List.not_mem_nil)]
          exact (hr2 i (key.resolve_left h) p).2
  | edit es =>
    obtain ⟨hn, -, hf⟩ := hd
    have hrep := replace_eq hn hf
    have hids := forall2_ids hf
    show ∃ s', updateAll grids { s with conns := s.conns.map (replace es) } (editManifest es) = some s' ∧ _
    rw [hrep]
    unfold updateAll
    generalize hs1 : destroyLocals (createLocals { s with conns := cs' } (editManifest es).create)
      (editManifest es).destroy = s1
    have hconns : s1.conns = cs' := by rw [← hs1]; rfl
    have hsame : ∀ i p, s1.dest i p = s.dest i p ∧ s1.src i p = s.src i p := by
      intro i p
      rw [← hs1]
      constructor
      · show (if i ∈ [] then none else _) = _
        rw [if_neg (List.not_mem_nil)]
        exact createLocals_none fun _ _ _ h => absurd h (List.not_mem_nil)
      · show (if i ∈ [] then none else _) = _
        rw [if_neg (List.not_mem_nil)]
        exact createLocals_none' fun _ _ _ h => absurd h (List.not_mem_nil)
    have hranks : ∀ c' f, (c', f) ∈ es → c'.id ∉ (editManifest es).ranks → f.dests = false ∧ f.sources = false := by
      intro c' f hm hni
      have : ¬ (f.dests || f.sources) = true := by
        intro hx
        exact hni (List.mem_map.2 ⟨(c', f), List.mem_filter.2 ⟨hm, hx⟩, rfl⟩)
      cases h1 : f.dests <;> cases h2 : f.sources <;> simp_all
    obtain ⟨s', h1, h2, h3, h4⟩ := updateRanks_spec (grids := grids) (s := s1) (by rw [hconns]; exact hv)
      (editManifest es).ranks (by
        intro c' hc' _ p
        rw [hconns] at hc'
        rw [(hsame _ p).1, (hsame _ p).2]
        obtain ⟨c, hc, hx⟩ := forall2_mem hf c' hc'
        rcases hx with ⟨f, -, hh⟩ | ⟨rfl, -⟩
        · exact right_hosts hh (hr1 c hc) p
        · have := hr1 c' hc
          exact ⟨(this.1 p).1, (this.2 p).1⟩)
    refine ⟨s', h1, h2.trans hconns, ?_, ?_⟩
    · intro c' hc'
      by_cases hi : c'.id ∈ (editManifest es).ranks
      · exact h3 c' (by rw [hconns]; exact hc') hi
      · have hc : c' ∈ s.conns := by
          obtain ⟨c, hc, hx⟩ := forall2_mem hf c' hc'
          rcases hx with ⟨f, hm, hh⟩ | ⟨rfl, -⟩
          · obtain ⟨g1, g2⟩ := hranks c' f hm hi
            have := honest_same hh (ht (c', f) hm) g1 g2
            exact this ▸ hc
          · exact hc
        refine right_congr (s := s) (fun p => ?_) (hr1 c' hc)
        have e1 := h4 c'.id (Or.inl hi) p
        have e2 := hsame c'.id p
        exact ⟨e1.1.trans e2.1, e1.2.trans e2.2⟩
    · intro i hi p
      have e1 := h4 i (Or.inr (by rw [hconns]; exact hi)) p
      have e2 := hsame i p
      have e3 := hr2 i (by rw [← hids]; exact hi) p
      exact ⟨(e1.1.trans e2.1).trans e3.1, (e1.2.trans e2.2).trans e3.2⟩

/-! ### C84 -/

/-- **C84 (partial)**: after every history of creating, editing and destroying connectivities, in which the extents of
donors are only edited together with destinations and points only together with sources (resizing edits everything),
the exchanger knows for every donor and receiver the process at the other end.  Missing from `C84_statement`: other
edits, see `C84_false`. -/
theorem C84_partial (grids : List (Int × Rng d)) (cs cs' : List (Conn d n)) (ops : List (Op d n))
    (hv : Spec.Valid grids cs) (hl : Spec.Leads grids cs ops cs') (ht : ∀ o ∈ ops, Spec.Together o) :
    ∃ s, run grids cs ops = some s ∧ Spec.Right s cs' := by
  obtain ⟨s0, h0, hc0, hr0⟩ := add_right (grids := grids) (s := ⟨[], fun _ _ => none, fun _ _ => none⟩) (old := [])
    (new := cs) (fun c hc => absurd hc (List.not_mem_nil)) (fun _ _ _ => ⟨rfl, rfl⟩) hv
  have key : ∀ (ops : List (Op d n)) (cs cs' : List (Conn d n)) (s : State d n), Spec.Leads grids cs ops cs' →
      (∀ o ∈ ops, Spec.Together o) → s.conns = cs → Spec.Right s cs →
      ∃ s', ops.foldlM (step grids) s = some s' ∧ Spec.Right s' cs' := by
    intro ops
    induction ops with
    | nil =>
      intro cs cs' s hl _ _ hr
      cases hl
      exact ⟨s, rfl, hr⟩
    | cons o os ih =>
      intro cs cs' s hl ht hc hr
      cases hl with
      | cons hd hv hl =>
        subst hc
        obtain ⟨t, h1, h2, h3⟩ := step_right hr hd hv (ht o List.mem_cons_self)
        obtain ⟨s', h4, h5⟩ := ih _ _ t hl (fun o ho => ht o (List.mem_cons_of_mem _ ho)) h2 h3
        refine ⟨s', ?_, h5⟩
        rw [List.foldlM_cons, h1]
        exact h4
  obtain ⟨s, h1, h2⟩ := key ops cs cs' s0 hl ht hc0 hr0
  refine ⟨s, ?_, h2⟩
  unfold run bind
  have h0' : updateAll grids (⟨cs, fun _ _ => none, fun _ _ => none⟩ : State d n) ⟨cs.map Conn.id, [], cs.map Conn.id⟩
      = some s0 := h0
  rw [h0']
  exact h1

/-! ### An edit of extents alone -/

/-- Grid 0 with points 0 to 3, two on each process; grid 1 with two points. -/
def exGrids : List (Int × Rng 1) := [(0, ⟨![0], ![4]⟩), (1, ⟨![0], ![2]⟩)]

/-- One donor, whose cell begins at point `a` of grid 0, for point 0 of grid 1, which is on process 0.  Both
processes list the donor. -/
def exConn (a : Int) : Conn 1 2 where
  mGrid := 0
  nGrid := 1
  ms := ![some (⟨![0], ![2]⟩, [⟨![a], ![0], -1⟩]), some (⟨![2], ![4]⟩, [⟨![a], ![0], -1⟩])]
  ns := ![some [⟨![0], -1⟩], none]

/-- The process with the lower corner. -/
def exOwner (a : Int) : Fin 2 := if a < 2 then 0 else 1

theorem ex_donates {a : Int} (h0 : 0 ≤ a) (h4 : a < 4) {p : Fin 2} {m g r : Int} {x : Tup 1} :
    Ovk.Xch.Spec.Donates (world exGrids [exConn a]) p m g x r ↔
      p = exOwner a ∧ m = 0 ∧ g = 1 ∧ x = ![0] ∧ r = -1 := by
  rw [donates_iff]
  have hin : ∀ b e : Int, Ovk.Spec.pts (⟨![b], ![e]⟩ : Rng 1) ![a] ↔ b ≤ a ∧ a < e := by
    intro b e
    constructor
    · intro h; exact h 0
    · intro h i; fin_cases i; exact h
  constructor
  · rintro ⟨c, hc, hid, R, ds, hm, y, hy, hp, rfl, rfl⟩
    rw [List.mem_singleton] at hc
    subst hc
    have hid : ((0 : Int), (1 : Int)) = (m, g) := hid
    obtain ⟨rfl, rfl⟩ := Prod.mk.inj hid
    have hm : (exConn a).ms p = some (R, ds) := hm
    fin_cases p
    · have hm : some ((⟨![0], ![2]⟩ : Rng 1), [(⟨![a], ![0], -1⟩ : Donor 1)]) = some (R, ds) := hm
      cases hm
      rw [List.mem_singleton] at hy
      subst hy
      have := (hin 0 2).1 hp
      refine ⟨?_, rfl, rfl, rfl, rfl⟩
      unfold exOwner
      rw [if_pos this.2]
      rfl
    · have hm : some ((⟨![2], ![4]⟩ : Rng 1), [(⟨![a], ![0], -1⟩ : Donor 1)]) = some (R, ds) := hm
      cases hm
      rw [List.mem_singleton] at hy
      subst hy
      have := (hin 2 4).1 hp
      refine ⟨?_, rfl, rfl, rfl, rfl⟩
      unfold exOwner
      rw [if_neg (by omega)]
      rfl
  · rintro ⟨rfl, rfl, rfl, rfl, rfl⟩
    refine ⟨exConn a, List.mem_singleton.2 rfl, rfl, ?_⟩
    unfold exOwner
    split_ifs with ha
    · exact ⟨_, _, rfl, _, List.mem_singleton.2 rfl, (hin 0 2).2 ⟨h0, ha⟩, rfl, rfl⟩
    · exact ⟨_, _, rfl, _, List.mem_singleton.2 rfl, (hin 2 4).2 ⟨by omega, h4⟩, rfl, rfl⟩

theorem ex_receives {a : Int} {p : Fin 2} {m g r : Int} {x : Tup 1} :
    Ovk.Xch.Spec.Receives (world exGrids [exConn a]) p m g x r ↔
      p = 0 ∧ m = 0 ∧ g = 1 ∧ x = ![0] ∧ r = -1 := by
  rw [receives_iff]
  constructor
  · rintro ⟨c, hc, hid, rs, hm, y, hy, rfl, rfl⟩
    rw [List.mem_singleton] at hc
    subst hc
    have hid : ((0 : Int), (1 : Int)) = (m, g) := hid
    obtain ⟨rfl, rfl⟩ := Prod.mk.inj hid
    fin_cases p
    · have hm : some [(⟨![0], -1⟩ : Receiver 1)] = some rs := hm
      cases hm
      rw [List.mem_singleton] at hy
      subst hy
      exact ⟨rfl, rfl, rfl, rfl, rfl⟩
    · have hm : none = some rs := hm
      cases hm
  · rintro ⟨rfl, rfl, rfl, rfl, rfl⟩
    exact ⟨exConn a, List.mem_singleton.2 rfl, rfl, _, rfl, _, List.mem_singleton.2 rfl, rfl, rfl⟩

theorem ex_valid {a : Int} (h0 : 0 ≤ a) (h4 : a < 4) : Spec.Valid exGrids [exConn a] := by
  have hpt : Ovk.Spec.pts (⟨![0], ![2]⟩ : Rng 1) ![0] := by
    intro i; fin_cases i; exact ⟨by decide, by decide⟩
  refine ⟨List.nodup_singleton _, ⟨?_, ?_, ?_, ?_, ?_, ?_, ?_, ?_⟩, ?_⟩
  · show ([0, 1] : List Int).Nodup; decide
  · exact ⟨(1, ⟨![0], ![2]⟩), List.mem_cons_of_mem _ (List.mem_singleton.2 rfl), ![0], hpt⟩
  · intro p m g x r h
    obtain ⟨-, -, rfl, rfl, -⟩ := (ex_donates h0 h4).1 h
    exact ⟨_, List.mem_cons_of_mem _ (List.mem_singleton.2 rfl), hpt⟩
  · intro p m g x r h
    obtain ⟨-, -, rfl, rfl, -⟩ := ex_receives.1 h
    exact ⟨_, List.mem_cons_of_mem _ (List.mem_singleton.2 rfl), hpt⟩
  · intro p m g x r h
    obtain ⟨-, rfl, rfl, rfl, rfl⟩ := (ex_donates h0 h4).1 h
    exact ⟨0, -1, ex_receives.2 ⟨rfl, rfl, rfl, rfl, rfl⟩, Iff.rfl, fun h => absurd h (by decide)⟩
  · intro p m g x r h
    obtain ⟨-, rfl, rfl, rfl, rfl⟩ := ex_receives.1 h
    exact ⟨exOwner a, -1, (ex_donates h0 h4).2 ⟨rfl, rfl, rfl, rfl, rfl⟩, Iff.rfl, fun h => absurd h (by decide)⟩
  · intro q q' m m' g x s s' h h'
    rw [(ex_receives.1 h).1, (ex_receives.1 h').1]
  · intro q q' m g x s s' h h'
    rw [((ex_donates h0 h4).1 h).1, ((ex_donates h0 h4).1 h').1]
  · intro q q' m m' g x s s' h h'
    rw [((ex_donates h0 h4).1 h).1, ((ex_donates h0 h4).1 h').1]

theorem ex_honest (a b : Int) (f : Flags) (h : f.extents = true) : Spec.Honest (exConn a) (exConn b) f := by
  refine ⟨rfl, ?_, ?_, fun h' => (by rw [h] at h'; cases h'), ?_, ?_, ?_⟩
  · intro p; fin_cases p <;> rfl
  · intro p; fin_cases p <;> rfl
  · intro _ p; fin_cases p <;> exact ⟨rfl, rfl⟩
  · intro _ p; fin_cases p <;> rfl
  · intro _ p; fin_cases p <;> rfl

/-- The donor cell moves so that its lower corner changes process. -/
theorem ex_leads (f : Flags) (h : f.extents = true) :
    Spec.Leads exGrids [exConn 1] [.edit [(exConn 2, f)]] [exConn 2] := by
  refine .cons ⟨List.nodup_singleton _, ?_, ?_⟩ (ex_valid (by decide) (by decide)) (.nil _)
  · intro e he
    rw [List.mem_singleton] at he
    subst he
    exact List.mem_singleton.2 rfl
  · exact .cons (Or.inl ⟨f, List.mem_singleton.2 rfl, ex_honest 1 2 f h⟩) .nil

/-- **C84 is false**: after an edit of the extents alone the exchanger still takes the process that had the lower
corner before for the sender. -/
theorem C84_false : ¬ C84_statement := by
  intro h
  obtain ⟨s, hs, hr⟩ := h 1 2 exGrids [exConn 1] [exConn 2] [.edit [(exConn 2, { extents := true })]]
    (ex_valid (by decide) (by decide)) (ex_leads _ rfl)
  have h2 : ((run exGrids [exConn 1] [.edit [(exConn 2, { extents := true })]]).map fun s => s.dest (0, 1) 0) =
      some (some [0]) := by decide +kernel
  rw [hs] at h2
  have h3 : s.dest (0, 1) 0 = some [0] := Option.some.inj h2
  obtain ⟨l, h4, -, h5⟩ := ((hr.1 (exConn 2) (List.mem_singleton.2 rfl)).1 0).2 _ _ rfl
  have h4 : s.dest (0, 1) 0 = some l := h4
  rw [h3] at h4
  cases h4
  obtain ⟨v, h6, -, h7⟩ := h5 0 ⟨![2], ![0], -1⟩ rfl
  have h6 : some (0 : Int) = some v := h6
  cases h6
  have : ¬ Ovk.Spec.pts (⟨![0], ![2]⟩ : Rng 1) ![2] := by
    intro hp
    have := (hp 0).2
    exact absurd this (by decide)
  have := h7 this
  exact absurd this (by decide)

-- hypotheses of `C84_partial`, with the destinations edited too
example : Spec.Valid exGrids [exConn 1] ∧
    Spec.Leads exGrids [exConn 1] [.edit [(exConn 2, { extents := true, dests := true })]] [exConn 2] ∧
    ∀ o ∈ ([.edit [(exConn 2, { extents := true, dests := true })]] : List (Op 1 2)), Spec.Together o := by
  refine ⟨ex_valid (by decide) (by decide), ex_leads _ rfl, ?_⟩
  intro o ho
  rw [List.mem_singleton] at ho
  subst ho
  intro e he
  rw [List.mem_singleton] at he
  subst he
  exact ⟨fun _ => rfl, fun h => absurd h (by decide)⟩

-- then the ranks follow: process 1 sends to process 0, process 0 receives from process 1
example : ((run exGrids [exConn 1] [.edit [(exConn 2, { extents := true, dests := true })]]).map
    fun s => (s.dest (0, 1) 0, s.dest (0, 1) 1, s.src (0, 1) 0, s.src (0, 1) 1)) =
    some (some [-1], some [0], some [1], none) := by decide +kernel

-- and without the edit of destinations they do not
example : ((run exGrids [exConn 1] [.edit [(exConn 2, { extents := true })]]).map
    fun s => (s.dest (0, 1) 0, s.dest (0, 1) 1, s.src (0, 1) 0, s.src (0, 1) 1)) =
    some (some [0], some [-1], some [0], none) := by decide +kernel

-- creating and destroying
example : ((run exGrids [] [.create [⟨0, 1, fun _ => some (⟨![0], ![2]⟩, []), fun _ => some []⟩],
    .edit [(exConn 3, { extents := true, dests := true, points := true, sources := true })], .destroy [(0, 1)]]).map
    fun s => (s.dest (0, 1) 0, s.src (0, 1) 0)) = some (none, none) := by decide +kernel

end Ovk.XLife
