/-
Property C22: collect operations.
-/
import Verif.Lemmas.Collect
import Mathlib.Algebra.BigOperators.Group.List.Basic
import Mathlib.Algebra.Order.Ring.Rat

set_option linter.unusedSectionVars false

namespace Ovk
variable {d n : Nat} {V W : Type}

namespace Spec
/-- `q` is the point that holds the value of vertex `p` of a cell: `p` itself if the whole cell is in the
index space, otherwise the image of `p` in the first period. -/
def Stored (c : Cart d) (cell : Rng d) (p q : Tup d) : Prop :=
  ((∀ x, pts cell x → pts c.range x) → q = p) ∧
  ((¬ ∀ x, pts cell x → pts c.range x) → SamePoint c p q ∧
    ∀ i, c.periodic i = true → c.range.b i ≤ q i ∧ q i < c.range.b i + periodLen c i)

/-- Some vertex of the cell is held by a process with local range `r`. -/
def Touches (c : Cart d) (r cell : Rng d) : Prop := ∃ p q, pts cell p ∧ Stored c cell p q ∧ pts r q

/-- Two names of a cell: the values of its vertices are held by the same points. -/
def SameCell (c : Cart d) (cell cell' : Rng d) : Prop :=
  ∀ q, (∃ p, pts cell p ∧ Stored c cell p q) ↔ ∃ p, pts cell' p ∧ Stored c cell' p q

/-- What callers of collect operations have to provide: a decomposition, neighbour lists, field arrays
holding at least the local points, non-empty cells of the index space; every cell is listed (by any of its
periodic images) on exactly the processes holding one of its vertices, and these are neighbours of each
other. -/
structure CollectOk (s : Coll.Setup d n) : Prop where
  proper : Proper s.cart
  tiles : Tiles s.cart s.loc
  irrefl : ∀ a, a ∉ s.nbrs a
  nodup : ∀ a, (s.nbrs a).Nodup
  field : ∀ a p, pts (s.loc a) p → pts (s.fieldRange a) p
  nonempty : ∀ a, ∀ cell ∈ s.cells a, ∃ p, pts cell p
  inSpace : ∀ a, ∀ cell ∈ s.cells a, ∀ p, pts cell p → ∃ q, pts s.cart.range q ∧ SamePoint s.cart p q
  here : ∀ a, ∀ cell ∈ s.cells a, Touches s.cart (s.loc a) cell
  shared : ∀ a b, ∀ cell ∈ s.cells a, Touches s.cart (s.loc b) cell → a ≠ b →
    (∃ cell' ∈ s.cells b, SameCell s.cart cell cell') ∧ b ∈ s.nbrs a

/-- The arrays of all processes hold the global field `G`, a function on the (periodic) index space. -/
structure Holds (s : Coll.Setup d n) (field : Fin n → Int → V) (G : Tup d → V) : Prop where
  periodic : ∀ p q, SamePoint s.cart p q → G p = G q
  value : ∀ a p, pts (s.loc a) p → field a ((s.fieldRange a).index s.layout p) = G p

/-- A reduction over a whole cell: its vertices in the order of the layout, with the global values. -/
def reduction (l : Indexer.Layout) (f : W → Nat → V → W) (init : W) (G : Tup d → V) (cell : Rng d) : W :=
  (List.range cell.count.toNat).foldl (fun acc (i : Nat) => f acc i (G (cell.tuple l (i : Int)))) init
end Spec

namespace Coll

theorem stored_iff (c : Cart d) (hc : Spec.Proper c) (cell : Rng d) (p q : Tup d) :
    Spec.Stored c cell p q ↔ q = vertex c cell p := by
  unfold Spec.Stored vertex
  by_cases h : c.range.includes cell = true
  · have h' := (C02_includes _ _).1 h
    rw [if_pos h]
    exact ⟨fun x => x.1 h', fun e => ⟨fun _ => e, fun x => absurd h' x⟩⟩
  · have h' : ¬ ∀ x, Spec.pts cell x → Spec.pts c.range x := fun x => h ((C02_includes _ _).2 x)
    rw [if_neg h]
    constructor
    · rintro ⟨_, h2⟩
      obtain ⟨h4, h5⟩ := h2 h'
      have e := (C03_canonical c hc p q).2 h4
      rw [e]
      funext i
      by_cases hi : c.periodic i = true
      · obtain ⟨k, hk⟩ : ∃ k : Int, q i = c.periodicAdjust q i + k * Spec.periodLen c i := by
          have := C03_same_point c hc q i
          simp only [hi, if_true] at this
          obtain ⟨k, hk⟩ := this
          exact ⟨-k, by rw [hk]; ring⟩
        have h6 := C03_first_period c hc q i hi
        have h7 := h5 i hi
        have hk0 : k = 0 := image_unique (P := Spec.periodLen c i) (a := c.range.b i)
          (x := c.periodicAdjust q i) h6.1 h6.2 (by rw [← hk]; exact h7.1) (by rw [← hk]; exact h7.2)
        rw [hk, hk0]; ring
      · simp [Cart.periodicAdjust, hi]
    · rintro rfl
      exact ⟨fun x => absurd x h', fun _ => ⟨C03_same_point c hc p, fun i hi =>
        C03_first_period c hc p i hi⟩⟩

theorem touches_iff (c : Cart d) (hc : Spec.Proper c) (r cell : Rng d) :
    Spec.Touches c r cell ↔ ∃ p, Spec.pts cell p ∧ Spec.pts r (vertex c cell p) := by
  unfold Spec.Touches
  constructor
  · rintro ⟨p, q, h1, h2, h3⟩
    rw [stored_iff c hc] at h2
    exact ⟨p, h1, h2 ▸ h3⟩
  · rintro ⟨p, h1, h2⟩
    exact ⟨p, _, h1, (stored_iff c hc cell p _).2 rfl, h2⟩

theorem vertex_same (c : Cart d) (hc : Spec.Proper c) (cell : Rng d) (p : Tup d) :
    Spec.SamePoint c p (vertex c cell p) := by
  unfold vertex
  split_ifs
  · exact samePoint_refl c p
  · exact C03_same_point c hc p

theorem sameCell_refl (c : Cart d) (cell : Rng d) : Spec.SameCell c cell cell := fun _ => Iff.rfl

theorem _root_.Ovk.Spec.SameCell.touches {c : Cart d} {cell cell' r : Rng d} (h : Spec.SameCell c cell cell')
    (ht : Spec.Touches c r cell) : Spec.Touches c r cell' := by
  obtain ⟨p, q, h1, h2, h3⟩ := ht
  obtain ⟨p', h4, h5⟩ := (h q).1 ⟨p, h1, h2⟩
  exact ⟨p', q, h4, h5, h3⟩

theorem part_same {c : Cart d} (hc : Spec.Proper c) {cell cell' r : Rng d} (h : Spec.SameCell c cell cell')
    {p : Tup d} (hp : p ∈ part c r cell) : ∃ p' ∈ part c r cell', vertex c cell' p' = vertex c cell p := by
  obtain ⟨h1, h2⟩ := (mem_part ..).1 hp
  obtain ⟨p', h3, h4⟩ := (h (vertex c cell p)).1 ⟨p, h1, (stored_iff c hc _ _ _).2 rfl⟩
  have e := (stored_iff c hc _ _ _).1 h4
  exact ⟨p', (mem_part ..).2 ⟨h3, e ▸ h2⟩, e.symm⟩

/-- The mask of a point list. -/
def maskOf (r : Rng d) (ps : List (Tup d)) : Nat → Bool := (setMask r ps fun _ => false).getD fun _ => false

theorem maskOf_spec (r : Rng d) (ps : List (Tup d)) (h : ∀ p ∈ ps, Spec.pts r p) :
    (setMask r ps fun _ => false) = some (maskOf r ps) ∧
      ∀ p, Spec.pts r p → (maskOf r ps (r.colIndex p).toNat = true ↔ p ∈ ps) := by
  obtain ⟨m, h1, h2⟩ := setMask_spec r ps (fun _ => false) h
  have e : maskOf r ps = m := by unfold maskOf; rw [h1]; rfl
  rw [e]
  exact ⟨h1, fun p hp => by rw [h2 p hp]; simp⟩

/-- Points of the message from `a` to `b`, in message order. -/
def msgPoints (s : Setup d n) (a b : Fin n) : List (Tup d) :=
  (sendRange s.cart (s.loc a) (s.loc b) (s.cells a)).points.filter fun p =>
    decide (p ∈ sendMarks s.cart (s.loc a) (s.loc b) (s.cells a))

def sendTo (s : Setup d n) (a : Fin n) : List (Fin n) :=
  (s.nbrs a).filter fun b => !(sendRange s.cart (s.loc a) (s.loc b) (s.cells a)).empty

def recvFrom (s : Setup d n) (b : Fin n) : List (Fin n) :=
  (s.nbrs b).filter fun a => !(recvRange s.cart (s.loc a) (s.cells b)).empty

def recvOf (s : Setup d n) (b a : Fin n) : Recv d n :=
  ⟨a, recvRange s.cart (s.loc a) (s.cells b),
    maskOf (recvRange s.cart (s.loc a) (s.cells b)) (recvMarks s.cart (s.loc a) (s.cells b))⟩

theorem empty_false_iff (r : Rng d) : (!r.empty) = true ↔ ∃ p, Spec.pts r p := by
  rw [Bool.not_eq_true', ← Bool.not_eq_true, C02_empty]; simp

section
variable [NeZero d] {s : Setup d n}

theorem sends_eq (a : Fin n) :
    sends s a = some ((sendTo s a).map fun b => (b, msgPoints s a b)) := by
  unfold sends
  apply CC.mapM_some
  intro b hb
  dsimp only
  have hne : ∃ p, Spec.pts (sendRange s.cart (s.loc a) (s.loc b) (s.cells a)) p :=
    (empty_false_iff _).1 (List.mem_filter.1 hb).2
  have hs := sendRange_spec s.cart (s.loc a) (s.loc b) (s.cells a)
  obtain ⟨h1, h2⟩ := maskOf_spec _ _ hs.1
  rw [h1, Option.map_some, marked_points _ ((exists_pts_iff _).1 hne)]
  unfold msgPoints
  congr 2
  apply List.filter_congr
  intro p hp
  have := h2 p ((Rng.mem_points _ p).1 hp)
  rw [Bool.eq_iff_iff, this]; simp

theorem recvs_eq (b : Fin n) : recvs s b = some ((recvFrom s b).map (recvOf s b)) := by
  unfold recvs
  apply CC.mapM_some
  intro a _
  dsimp only
  rw [(maskOf_spec _ _ (recvRange_spec s.cart (s.loc a) (s.cells b)).1).1]
  rfl

variable (hg : Spec.CollectOk s)
include hg

theorem loc_in (a : Fin n) {p : Tup d} (h : Spec.pts (s.loc a) p) : Spec.pts s.cart.range p :=
  fun i => ⟨(hg.tiles.1 a i).1.trans (h i).1, lt_of_lt_of_le (h i).2 (hg.tiles.1 a i).2⟩

theorem loc_unique {a b : Fin n} {p : Tup d} (h : Spec.pts (s.loc a) p) (h' : Spec.pts (s.loc b) p) :
    a = b := by
  obtain ⟨k, _, hk⟩ := hg.tiles.2 p (loc_in hg a h)
  rw [hk a h, hk b h']

theorem vertex_in (a : Fin n) {cell : Rng d} (hc : cell ∈ s.cells a) {p : Tup d} (hp : Spec.pts cell p) :
    Spec.pts s.cart.range (vertex s.cart cell p) := by
  unfold vertex
  split_ifs with h
  · exact (C02_includes _ _).1 h p hp
  · obtain ⟨q, hq, hs⟩ := hg.inSpace a cell hc p hp
    intro i
    by_cases hi : s.cart.periodic i = true
    · have h1 := C03_first_period s.cart hg.proper p i hi
      have h2 : Spec.periodLen s.cart i ≤ s.cart.range.e i - s.cart.range.b i := by
        unfold Spec.periodLen; split <;> omega
      omega
    · have h1 := hs i
      simp only [hi, Bool.false_eq_true, if_false] at h1
      have h2 : s.cart.periodicAdjust p i = p i := by simp [Cart.periodicAdjust, hi]
      rw [h2, ← h1]; exact hq i

theorem owner (a : Fin n) {cell : Rng d} (hc : cell ∈ s.cells a) {p : Tup d} (hp : Spec.pts cell p) :
    ∃ b, Spec.pts (s.loc b) (vertex s.cart cell p) :=
  let ⟨b, hb, _⟩ := hg.tiles.2 _ (vertex_in hg a hc hp)
  ⟨b, hb⟩

/-- Both sides of a pair of processes mark the same points. -/
theorem marks_iff (a b : Fin n) (hab : a ≠ b) (q : Tup d) :
    q ∈ sendMarks s.cart (s.loc a) (s.loc b) (s.cells a) ↔ q ∈ recvMarks s.cart (s.loc a) (s.cells b) := by
  rw [mem_sendMarks, mem_recvMarks]
  constructor
  · rintro ⟨cell, hc, ho, p, hp, rfl⟩
    rw [overlaps_iff, ← touches_iff _ hg.proper] at ho
    obtain ⟨⟨cell', hc', hs⟩, _⟩ := hg.shared a b cell hc ho hab
    obtain ⟨p', hp', e⟩ := part_same hg.proper hs hp
    exact ⟨cell', hc', p', hp', e⟩
  · rintro ⟨cell, hc, p, hp, rfl⟩
    have ht : Spec.Touches s.cart (s.loc a) cell :=
      (touches_iff _ hg.proper _ _).2 ⟨p, (mem_part ..).1 hp⟩
    obtain ⟨⟨cell', hc', hs⟩, _⟩ := hg.shared b a cell hc ht (Ne.symm hab)
    obtain ⟨p', hp', e⟩ := part_same hg.proper hs hp
    refine ⟨cell', hc', ?_, p', hp', e⟩
    rw [overlaps_iff, ← touches_iff _ hg.proper]
    exact hs.touches (hg.here b cell hc)

theorem recvMarks_nbr (a b : Fin n) (hab : a ≠ b) {q : Tup d}
    (h : q ∈ recvMarks s.cart (s.loc a) (s.cells b)) : a ∈ s.nbrs b ∧ b ∈ s.nbrs a := by
  obtain ⟨cell, hc, p, hp, rfl⟩ := (mem_recvMarks ..).1 h
  have ht : Spec.Touches s.cart (s.loc a) cell :=
    (touches_iff _ hg.proper _ _).2 ⟨p, (mem_part ..).1 hp⟩
  obtain ⟨⟨cell', hc', hs⟩, h2⟩ := hg.shared b a cell hc ht (Ne.symm hab)
  exact ⟨h2, (hg.shared a b cell' hc' (hs.touches (hg.here b cell hc)) hab).2⟩

theorem mem_recvFrom (a b : Fin n) : a ∈ recvFrom s b ↔
    a ≠ b ∧ ∃ q, q ∈ recvMarks s.cart (s.loc a) (s.cells b) := by
  unfold recvFrom
  rw [List.mem_filter, empty_false_iff, (recvRange_spec ..).2]
  constructor
  · rintro ⟨h1, h2⟩
    exact ⟨fun e => hg.irrefl b (e ▸ h1), h2⟩
  · rintro ⟨h1, q, hq⟩
    exact ⟨(recvMarks_nbr hg a b h1 hq).1, q, hq⟩

theorem mem_sendTo (a b : Fin n) : b ∈ sendTo s a ↔ a ∈ recvFrom s b := by
  rw [mem_recvFrom hg]
  unfold sendTo
  rw [List.mem_filter, empty_false_iff, (sendRange_spec ..).2]
  constructor
  · rintro ⟨h1, q, hq⟩
    have hab : a ≠ b := fun e => hg.irrefl a (e ▸ h1)
    exact ⟨hab, q, (marks_iff hg a b hab q).1 hq⟩
  · rintro ⟨hab, q, hq⟩
    exact ⟨(recvMarks_nbr hg a b hab hq).2, q, (marks_iff hg a b hab q).2 hq⟩

/-- The receiver lists the same points in the same order. -/
theorem msgPoints_eq (a b : Fin n) (hab : a ≠ b) : msgPoints s a b =
    (recvRange s.cart (s.loc a) (s.cells b)).points.filter fun p =>
      decide (p ∈ recvMarks s.cart (s.loc a) (s.cells b)) := by
  unfold msgPoints
  apply points_filter_eq
  intro p
  rw [decide_eq_true_eq, decide_eq_true_eq, marks_iff hg a b hab]
  constructor
  · rintro ⟨_, h⟩; exact ⟨(recvRange_spec ..).1 p h, h⟩
  · rintro ⟨_, h⟩; exact ⟨(sendRange_spec ..).1 p ((marks_iff hg a b hab p).2 h), h⟩

theorem recv_points (a b : Fin n) (hab : a ≠ b) (ha : a ∈ recvFrom s b) :
    ((marked (recvOf s b a).range (recvOf s b a).mask).map fun (k : Nat) =>
      (recvOf s b a).range.tuple .col (k : Int)) = msgPoints s a b := by
  obtain ⟨_, q, hq⟩ := (mem_recvFrom hg a b).1 ha
  have hs := recvRange_spec s.cart (s.loc a) (s.cells b)
  have hne : ∃ p, Spec.pts (recvRange s.cart (s.loc a) (s.cells b)) p := ⟨q, hs.1 q hq⟩
  rw [marked_points (recvOf s b a).range ((exists_pts_iff _).1 hne), msgPoints_eq hg a b hab]
  apply List.filter_congr
  intro p hp
  have := (maskOf_spec _ _ hs.1).2 p ((Rng.mem_points _ p).1 hp)
  rw [Bool.eq_iff_iff]
  simpa [recvOf] using this

theorem msgPoints_loc (a b : Fin n) {p : Tup d} (h : p ∈ msgPoints s a b) : Spec.pts (s.loc a) p := by
  unfold msgPoints at h
  have := of_decide_eq_true (List.mem_filter.1 h).2
  obtain ⟨cell, _, _, q, hq, rfl⟩ := (mem_sendMarks ..).1 this
  exact ((mem_part ..).1 hq).2

variable {field : Fin n → Int → V} {G : Tup d → V} (hG : Spec.Holds s field G)
include hG

theorem readField_eq (a : Fin n) {p : Tup d} (h : Spec.pts (s.loc a) p) : readField s field a p = some (G p) := by
  unfold readField
  dsimp only
  rw [if_pos (Rng.index_bounds _ _ _ (hg.field a p h)), hG.value a p h]

theorem message_eq (a b : Fin n) (h : a ∈ recvFrom s b) :
    message s field a b = some ((msgPoints s a b).map G) := by
  unfold message
  rw [sends_eq]
  dsimp only
  have hb : b ∈ sendTo s a := (mem_sendTo hg a b).2 h
  cases hf : ((sendTo s a).map fun b => (b, msgPoints s a b)).find? fun x => decide (x.1 = b) with
  | none =>
    rw [List.find?_eq_none] at hf
    exact absurd (hf (b, msgPoints s a b) (List.mem_map.2 ⟨b, hb, rfl⟩)) (by simp)
  | some x =>
    have h1 : x.1 = b := by simpa using List.find?_some hf
    obtain ⟨b', _, rfl⟩ := List.mem_map.1 (List.mem_of_find?_eq_some hf)
    simp only at h1
    subst h1
    exact CC.mapM_some _ _ _ fun p hp => readField_eq hg hG a (msgPoints_loc hg a b' hp)

theorem remoteValues_eq (b : Fin n) : remoteValues s field b ((recvFrom s b).map (recvOf s b)) =
    some ((recvFrom s b).map fun a => (msgPoints s a b).map G) := by
  have e : (recvFrom s b).map (fun a => (msgPoints s a b).map G) =
      ((recvFrom s b).map (recvOf s b)).map fun r => (msgPoints s r.rank b).map G := by
    rw [List.map_map]; rfl
  rw [e]
  apply CC.mapM_some
  intro r hr
  obtain ⟨a, ha, rfl⟩ := List.mem_map.1 hr
  have hab := ((mem_recvFrom hg a b).1 ha).1
  show (message s field a b).bind _ = some ((msgPoints s a b).map G)
  rw [message_eq hg hG a b ha]
  simp only [Option.bind_some]
  rw [if_pos]
  rw [List.length_map, ← recv_points hg a b hab ha, List.length_map]; rfl

end

/-! ### The vertex tables -/

section
variable [NeZero d] {s : Setup d n} (hg : Spec.CollectOk s)
include hg

theorem cell_pos (b : Fin n) {cell : Rng d} (hc : cell ∈ s.cells b) : ∀ i, cell.b i < cell.e i :=
  (exists_pts_iff _).1 (hg.nonempty b cell hc)

/-- Entries written into the table of a cell. -/
def tableWrites (s : Setup d n) (rs : List (Recv d n)) (cell : Rng d) : List (Int × Option (Nat × Int)) :=
  rs.zipIdx.flatMap fun x => (part s.cart (s.loc x.1.rank) cell).map fun p => (cell.colIndex p,
    some (x.2, x.1.bufIndex (x.1.range.colIndex (vertex s.cart cell p)).toNat))

theorem cellTable_eq (b : Fin n) (rs : List (Recv d n)) {cell : Rng d} (hc : cell ∈ s.cells b) :
    cellTable s rs cell = Halo.unpack (fun _ => none) (tableWrites s rs cell) := by
  unfold cellTable tableWrites
  rw [← foldl_unpack]
  congr 1
  funext t x
  rw [slotted_eq _ _ _ (cell_pos hg b hc), List.foldl_map]
  unfold Halo.unpack
  rw [List.foldl_map]

theorem table_local (b : Fin n) {cell : Rng d} (hc : cell ∈ s.cells b) {v : Tup d} (hv : Spec.pts cell v)
    (hl : Spec.pts (s.loc b) (vertex s.cart cell v)) :
    cellTable s ((recvFrom s b).map (recvOf s b)) cell (cell.colIndex v) = none := by
  rw [cellTable_eq hg b _ hc, Halo.unpack_miss]
  intro x hx
  obtain ⟨y, hy, hx⟩ := List.mem_flatMap.1 hx
  obtain ⟨p, hp, rfl⟩ := List.mem_map.1 hx
  intro e
  rw [mem_part] at hp
  have : p = v := Rng.index_inj .col cell p v hp.1 hv e
  subst this
  have hr := List.mem_zipIdx_iff_getElem?.1 hy
  obtain ⟨a, ha, hya⟩ := List.mem_map.1 (List.mem_of_getElem? hr)
  have : y.1.rank = a := by rw [← hya]; rfl
  rw [this] at hp
  exact ((mem_recvFrom hg a b).1 ha).1 (loc_unique hg hp.2 hl)

theorem table_remote (b : Fin n) {cell : Rng d} (hc : cell ∈ s.cells b) {v : Tup d} (hv : Spec.pts cell v)
    {a : Fin n} (hab : a ≠ b) (hl : Spec.pts (s.loc a) (vertex s.cart cell v)) :
    ∃ (m : Nat) (k : Int), cellTable s ((recvFrom s b).map (recvOf s b)) cell (cell.colIndex v) = some (m, k) ∧
      0 ≤ k ∧ (recvFrom s b)[m]? = some a ∧ (msgPoints s a b)[k.toNat]? = some (vertex s.cart cell v) := by
  have hvp : v ∈ part s.cart (s.loc a) cell := (mem_part ..).2 ⟨hv, hl⟩
  have hm : vertex s.cart cell v ∈ recvMarks s.cart (s.loc a) (s.cells b) :=
    (mem_recvMarks ..).2 ⟨cell, hc, v, hvp, rfl⟩
  have ha : a ∈ recvFrom s b := (mem_recvFrom hg a b).2 ⟨hab, _, hm⟩
  obtain ⟨m, hmget⟩ := List.getElem?_of_mem ha
  have hs := recvRange_spec s.cart (s.loc a) (s.cells b)
  have hvr := hs.1 _ hm
  have hmask : (recvOf s b a).mask ((recvOf s b a).range.colIndex (vertex s.cart cell v)).toNat = true :=
    ((maskOf_spec _ _ hs.1).2 _ hvr).2 hm
  have hib := Rng.index_bounds .col _ _ hvr
  refine ⟨m, (recvOf s b a).bufIndex ((recvOf s b a).range.colIndex (vertex s.cart cell v)).toNat, ?_, ?_, hmget, ?_⟩
  · rw [cellTable_eq hg b _ hc]
    apply unpack_val
    · intro x hx e
      obtain ⟨y, hy, hx⟩ := List.mem_flatMap.1 hx
      obtain ⟨p, hp, rfl⟩ := List.mem_map.1 hx
      rw [mem_part] at hp
      have : p = v := Rng.index_inj .col cell p v hp.1 hv e
      subst this
      have hr := List.mem_zipIdx_iff_getElem?.1 hy
      rw [List.getElem?_map, Option.map_eq_some_iff] at hr
      obtain ⟨a', ha', hya⟩ := hr
      have e1 : y.1.rank = a' := by rw [← hya]; rfl
      rw [e1] at hp
      have e2 : a' = a := loc_unique hg hp.2 hl
      subst e2
      have e3 : y.2 = m := by
        have hn : (recvFrom s b).Nodup := (hg.nodup b).filter _
        obtain ⟨i1, i2⟩ := List.getElem?_eq_some_iff.1 ha'
        obtain ⟨j1, j2⟩ := List.getElem?_eq_some_iff.1 hmget
        exact (List.Nodup.getElem_inj_iff hn).1 (i2.trans j2.symm)
      rw [e3, ← hya]
    · left
      refine ⟨_, List.mem_flatMap.2 ⟨(recvOf s b a, m), ?_, List.mem_map.2 ⟨v, hvp, rfl⟩⟩, rfl⟩
      rw [List.mem_zipIdx_iff_getElem?]
      simp [hmget]
  · unfold Recv.bufIndex
    rw [if_pos hmask]; omega
  · unfold Recv.bufIndex
    rw [if_pos hmask, Int.toNat_natCast, ← recv_points hg a b hab ha, List.getElem?_map]
    unfold marked
    have hib' : ((recvOf s b a).range.colIndex (vertex s.cart cell v)).toNat < (recvOf s b a).range.count.toNat := by
      have h1 : 0 ≤ (recvOf s b a).range.colIndex (vertex s.cart cell v) := hib.1
      have h2 : (recvOf s b a).range.colIndex (vertex s.cart cell v) < (recvOf s b a).range.count := hib.2
      omega
    rw [filter_range_get _ _ _ hib' hmask, Option.map_some]
    rw [show ((((recvOf s b a).range.colIndex (vertex s.cart cell v)).toNat : Nat) : Int) =
      (recvOf s b a).range.colIndex (vertex s.cart cell v) from Int.toNat_of_nonneg hib.1]
    exact congrArg some (Rng.tuple_index .col _ _ hvr)

theorem table_isSome (b : Fin n) {cell : Rng d} (hc : cell ∈ s.cells b) {v : Tup d} (hv : Spec.pts cell v) :
    (cellTable s ((recvFrom s b).map (recvOf s b)) cell (cell.colIndex v)).isSome = true ↔
      ¬ Spec.pts (s.loc b) (vertex s.cart cell v) := by
  constructor
  · intro h hl
    rw [table_local hg b hc hv hl] at h
    simp at h
  · intro h
    obtain ⟨a, ha⟩ := owner hg b hc hv
    have hab : a ≠ b := by rintro rfl; exact h ha
    obtain ⟨m, k, h1, _⟩ := table_remote hg b hc hv hab ha
    rw [h1]; rfl

theorem filter_loc (b : Fin n) {cell : Rng d} :
    numRemote s.cart (s.loc b) cell =
      (cell.points.filter fun p => !(s.loc b).contains (vertex s.cart cell p)).length := by
  unfold numRemote
  by_cases h : s.cart.range.includes cell = true
  · have e3 : ∀ p, vertex s.cart cell p = p := fun p => by unfold vertex; rw [if_pos h]
    rw [if_pos h]
    simp only [e3]
    have h1 := List.length_eq_length_filter_add (l := cell.points) fun p => (s.loc b).contains p
    have h2 : cell.points.filter (fun p => (s.loc b).contains p) =
        (intersectRanges (s.loc b) cell).points.filter fun _ => true := by
      apply points_filter_eq
      intro p
      rw [contains_iff_pts, C02_intersect]
      simp [and_comm]
    rw [h2] at h1
    simp only [List.filter_true] at h1
    have h3 := Rng.length_points cell
    have h4 := Rng.length_points (intersectRanges (s.loc b) cell)
    omega
  · have e3 : ∀ p, vertex s.cart cell p = s.cart.periodicAdjust p := fun p => by
      unfold vertex; rw [if_neg h]
    rw [if_neg h]
    simp only [e3]

theorem remote_length (b : Fin n) {cell : Rng d} (hc : cell ∈ s.cells b) :
    (remoteVertices s ((recvFrom s b).map (recvOf s b)) cell).length = numRemote s.cart (s.loc b) cell := by
  rw [filter_loc hg b]
  have hpos := cell_pos hg b hc
  have h1 : (remoteVertices s ((recvFrom s b).map (recvOf s b)) cell).length =
      (marked cell fun k => (cellTable s ((recvFrom s b).map (recvOf s b)) cell (k : Int)).isSome).length := by
    unfold remoteVertices marked
    generalize List.range cell.count.toNat = L
    induction L with
    | nil => rfl
    | cons k L ih =>
      rw [List.filterMap_cons, List.filter_cons]
      cases hx : cellTable s ((recvFrom s b).map (recvOf s b)) cell (k : Int) with
      | none => simpa [hx] using ih
      | some x => simpa [hx] using ih
  rw [h1]
  have h2 := congrArg List.length (marked_points cell hpos fun k =>
    (cellTable s ((recvFrom s b).map (recvOf s b)) cell (k : Int)).isSome)
  rw [List.length_map] at h2
  rw [h2]
  congr 1
  apply List.filter_congr
  intro p hp
  have hp' := (Rng.mem_points _ p).1 hp
  have := table_isSome hg b hc hp'
  rw [Int.toNat_of_nonneg (Rng.index_bounds .col cell p hp').1, Bool.eq_iff_iff]
  rw [show (cellTable s ((recvFrom s b).map (recvOf s b)) cell (Rng.index .col cell p)).isSome = true ↔ _ from this]
  rw [Bool.not_eq_true', ← Bool.not_eq_true, contains_iff_pts]

omit [NeZero d] hg in
theorem foldlM_unpack {A : Type} (step : (Int → V) → A → Option (Int → V)) (key : A → Int) (val : A → V) :
    ∀ (L : List A) (m : Int → V), (∀ x ∈ L, ∀ m, step m x = some (Halo.write m (key x) (val x))) →
      L.foldlM step m = some (Halo.unpack m (L.map fun x => (key x, val x)))
  | [], m, _ => rfl
  | x :: L, m, h => by
    rw [List.foldlM_cons, h x (by simp)]
    exact foldlM_unpack step key val L _ fun y hy => h y (by simp [hy])

variable {field : Fin n → Int → V} {G : Tup d → V} (hG : Spec.Holds s field G)
include hG

theorem putLocal_eq (b : Fin n) {cell : Rng d} (vv : Int → V) :
    putLocal s field b cell vv = some (Halo.unpack vv ((part s.cart (s.loc b) cell).map fun p =>
      (cell.index s.layout p, G p))) := by
  unfold putLocal
  apply foldlM_unpack
  intro p hp m
  rw [readField_eq hg hG b ((mem_part ..).1 hp).2, Option.map_some,
    ← hG.periodic _ _ (vertex_same s.cart hg.proper cell p)]

theorem assemble_spec (b : Fin n) {cell : Rng d} (hc : cell ∈ s.cells b) (vv : Int → V)
    (hl : s.layout = .col ∨ ∀ v, Spec.pts cell v → Spec.pts (s.loc b) (vertex s.cart cell v)) :
    ∃ out, assemble s field b ((recvFrom s b).map (recvOf s b))
        ((recvFrom s b).map fun a => (msgPoints s a b).map G) cell vv = some out ∧
      ∀ v, Spec.pts cell v → out (cell.index s.layout v) = G v := by
  have hpos := cell_pos hg b hc
  unfold assemble
  rw [putLocal_eq hg hG, Option.bind_some]
  dsimp only
  rw [if_pos (remote_length hg b hc)]
  have hrem : ∀ x ∈ remoteVertices s ((recvFrom s b).map (recvOf s b)) cell,
      Spec.pts cell (cell.tuple .col (x.1 : Int)) ∧ cell.colIndex (cell.tuple .col (x.1 : Int)) = (x.1 : Int) ∧
      ¬ Spec.pts (s.loc b) (vertex s.cart cell (cell.tuple .col (x.1 : Int))) ∧
      ∀ m, putRemote ((recvFrom s b).map fun a => (msgPoints s a b).map G) m x =
        some (Halo.write m (x.1 : Int) (G (cell.tuple .col (x.1 : Int)))) := by
    intro x hx
    unfold remoteVertices at hx
    obtain ⟨i, hi, hx⟩ := List.mem_filterMap.1 hx
    rw [List.mem_range] at hi
    rw [Option.map_eq_some_iff] at hx
    obtain ⟨y, hy, rfl⟩ := hx
    have ht := Rng.index_tuple .col cell hpos (i : Int) (by omega) (by omega)
    have hns : ¬ Spec.pts (s.loc b) (vertex s.cart cell (cell.tuple .col (i : Int))) := by
      rw [← table_isSome hg b hc ht.1]
      show (cellTable _ _ _ (Rng.index .col cell _)).isSome = true
      rw [ht.2, hy]; rfl
    refine ⟨ht.1, ht.2, hns, ?_⟩
    obtain ⟨a, ha⟩ := owner hg b hc ht.1
    have hab : a ≠ b := by rintro rfl; exact hns ha
    obtain ⟨m, k, h1, h2, h3, h4⟩ := table_remote hg b hc ht.1 hab ha
    have h1' : cellTable s ((recvFrom s b).map (recvOf s b)) cell (i : Int) = some (m, k) := by
      have : cell.colIndex (cell.tuple .col (i : Int)) = (i : Int) := ht.2
      rw [this] at h1; exact h1
    rw [hy] at h1'
    obtain rfl := Option.some.inj h1'
    intro vv
    unfold putRemote
    simp only [List.getElem?_map, h3, Option.map_some]
    rw [if_neg (by omega), h4, Option.map_some, Option.map_some,
      ← hG.periodic _ _ (vertex_same s.cart hg.proper cell _)]
  rw [foldlM_unpack _ (fun x => (x.1 : Int)) (fun x => G (cell.tuple .col (x.1 : Int))) _ _
    fun x hx => (hrem x hx).2.2.2]
  refine ⟨_, rfl, ?_⟩
  intro v hv
  by_cases hvl : Spec.pts (s.loc b) (vertex s.cart cell v)
  · rw [Halo.unpack_miss]
    · refine Halo.unpack_hit (cell.index s.layout) G (part s.cart (s.loc b) cell) vv ?_ v ((mem_part ..).2 ⟨hv, hvl⟩)
      refine List.Nodup.map_on ?_ (part_nodup _ _ _)
      intro x hx y hy e
      exact Rng.index_inj _ cell x y ((mem_part ..).1 hx).1 ((mem_part ..).1 hy).1 e
    · intro y hy e
      obtain ⟨x, hx, rfl⟩ := List.mem_map.1 hy
      obtain ⟨h1, h2, h3, _⟩ := hrem x hx
      rcases hl with hl | hl
      · rw [hl] at e
        have : cell.tuple .col (x.1 : Int) = v := by
          apply Rng.index_inj .col cell _ _ h1 hv
          show cell.colIndex _ = _
          rw [h2]; exact e
        rw [this] at h3
        exact h3 hvl
      · exact h3 (hl _ h1)
  · rcases hl with hl | hl
    · rw [hl]
      apply unpack_val
      · intro y hy e
        obtain ⟨x, hx, rfl⟩ := List.mem_map.1 hy
        obtain ⟨h1, h2, _⟩ := hrem x hx
        have : cell.tuple .col (x.1 : Int) = v := by
          apply Rng.index_inj .col cell _ _ h1 hv
          show cell.colIndex _ = _
          rw [h2]; exact e
        show G (cell.tuple .col (x.1 : Int)) = G v
        rw [this]
      · left
        have hib := Rng.index_bounds .col cell v hv
        have hs := (table_isSome hg b hc hv).2 hvl
        obtain ⟨y, hy⟩ := Option.isSome_iff_exists.1 hs
        refine ⟨_, List.mem_map.2 ⟨((cell.colIndex v).toNat, y.1, y.2), ?_, rfl⟩, ?_⟩
        · unfold remoteVertices
          refine List.mem_filterMap.2 ⟨(cell.colIndex v).toNat, ?_, ?_⟩
          · rw [List.mem_range]
            have h1 : cell.colIndex v < cell.count := hib.2
            have h2 : 0 ≤ cell.colIndex v := hib.1
            omega
          · rw [Int.toNat_of_nonneg hib.1]
            rw [show cellTable s ((recvFrom s b).map (recvOf s b)) cell (Rng.index .col cell v) = some y from hy]
            rfl
        · exact Int.toNat_of_nonneg hib.1
    · exact absurd (hl v hv) hvl

theorem cellLoop_spec (b : Fin n) (f : Nat → W → Nat → V → W) (init : W) :
    ∀ (cells : List (Rng d)) (k : Nat) (vv : Int → V), (∀ cell ∈ cells, cell ∈ s.cells b) →
    (∀ cell ∈ cells, s.layout = .col ∨ ∀ v, Spec.pts cell v → Spec.pts (s.loc b) (vertex s.cart cell v)) →
    cellLoop s field b ((recvFrom s b).map (recvOf s b))
      ((recvFrom s b).map fun a => (msgPoints s a b).map G) f init k cells vv =
      some (cells.zipIdx k |>.map fun x => Spec.reduction s.layout (f x.2) init G x.1)
  | [], k, vv, _, _ => rfl
  | cell :: cells, k, vv, h, hl => by
    obtain ⟨out, h1, h2⟩ := assemble_spec hg hG b (h cell (by simp)) vv (hl cell (by simp))
    unfold cellLoop
    rw [h1, Option.bind_some, cellLoop_spec b f init cells (k + 1) out (fun c hc => h c (by simp [hc]))
      (fun c hc => hl c (by simp [hc]))]
    simp only [Option.map_some, List.zipIdx_cons, List.map_cons]
    congr 2
    unfold reduce Spec.reduction
    apply List.foldl_ext
    intro acc i hi
    rw [List.mem_range] at hi
    have ht := Rng.index_tuple s.layout cell (cell_pos hg b (h cell (by simp))) (i : Int) (by omega) (by omega)
    have := h2 _ ht.1
    rw [ht.2] at this
    rw [this]

end

/-! ### Reductions over a cell -/

theorem mem_slots (l : Indexer.Layout) (cell : Rng d) (h : ∀ i, cell.b i < cell.e i) :
    (((List.range cell.count.toNat).map fun (i : Nat) => cell.tuple l (i : Int))).Perm cell.points := by
  rw [List.perm_ext_iff_of_nodup _ (Rng.points_nodup cell)]
  · intro p
    rw [Rng.mem_points]
    constructor
    · intro hp
      obtain ⟨i, hi, rfl⟩ := List.mem_map.1 hp
      rw [List.mem_range] at hi
      exact (Rng.index_tuple l cell h (i : Int) (by omega) (by omega)).1
    · intro hp
      have hb := Rng.index_bounds l cell p hp
      refine List.mem_map.2 ⟨(cell.index l p).toNat, List.mem_range.2 (by omega), ?_⟩
      rw [Int.toNat_of_nonneg hb.1, Rng.tuple_index l cell p hp]
  · refine List.Nodup.map_on ?_ List.nodup_range
    intro i hi j hj e
    rw [List.mem_range] at hi hj
    have h1 := (Rng.index_tuple l cell h (i : Int) (by omega) (by omega)).2
    have h2 := (Rng.index_tuple l cell h (j : Int) (by omega) (by omega)).2
    rw [e, h2] at h1
    omega

theorem reduction_map (l : Indexer.Layout) (g : W → V → W) (init : W) (G : Tup d → V) (cell : Rng d) :
    Spec.reduction l (fun acc _ v => g acc v) init G cell =
      (((List.range cell.count.toNat).map fun (i : Nat) => cell.tuple l (i : Int)).map G).foldl g init := by
  unfold Spec.reduction
  rw [List.map_map, List.foldl_map]; rfl

theorem foldl_and (g : V → Bool) : ∀ (L : List V) (b : Bool),
    L.foldl (fun acc v => acc && g v) b = true ↔ b = true ∧ ∀ v ∈ L, g v = true
  | [], b => by simp
  | x :: L, b => by
    rw [List.foldl_cons, foldl_and g L, Bool.and_eq_true]
    simp [and_assoc]

theorem foldl_or (g : V → Bool) : ∀ (L : List V) (b : Bool),
    L.foldl (fun acc v => acc || g v) b = true ↔ b = true ∨ ∃ v ∈ L, g v = true
  | [], b => by simp
  | x :: L, b => by
    rw [List.foldl_cons, foldl_or g L, Bool.or_eq_true]
    simp [or_assoc]

theorem foldl_min [LinearOrder V] : ∀ (L : List V) (b : V),
    let m := L.foldl (fun acc v => if v < acc then v else acc) b
    (m = b ∨ m ∈ L) ∧ m ≤ b ∧ ∀ v ∈ L, m ≤ v
  | [], b => by simp
  | x :: L, b => by
    have ih := foldl_min L (if x < b then x else b)
    dsimp only at ih ⊢
    rw [List.foldl_cons]
    obtain ⟨h1, h2, h3⟩ := ih
    by_cases hx : x < b
    · rw [if_pos hx] at h1 h2 h3 ⊢
      refine ⟨?_, h2.trans hx.le, ?_⟩
      · rcases h1 with h1 | h1
        · right; rw [h1]; simp
        · right; simp [h1]
      · intro v hv
        rcases List.mem_cons.1 hv with rfl | hv
        · exact h2
        · exact h3 v hv
    · rw [if_neg hx] at h1 h2 h3 ⊢
      refine ⟨?_, h2, ?_⟩
      · rcases h1 with h1 | h1
        · left; exact h1
        · right; simp [h1]
      · intro v hv
        rcases List.mem_cons.1 hv with rfl | hv
        · exact h2.trans (not_lt.1 hx)
        · exact h3 v hv

theorem foldl_max [LinearOrder V] : ∀ (L : List V) (b : V),
    let m := L.foldl (fun acc v => if acc < v then v else acc) b
    (m = b ∨ m ∈ L) ∧ b ≤ m ∧ ∀ v ∈ L, v ≤ m
  | L, b => by
    have := foldl_min (V := Vᵒᵈ) L b
    exact this

theorem foldl_sum [AddCommMonoid V] {A : Type} (g : A → V) : ∀ (L : List A) (b : V),
    L.foldl (fun acc x => acc + g x) b = b + (L.map g).sum
  | [], b => by simp
  | x :: L, b => by rw [List.foldl_cons, foldl_sum g L, List.map_cons, List.sum_cons, add_assoc]

end Coll

section
variable [NeZero d] {s : Coll.Setup d n} {field : Fin n → Int → V} {G : Tup d → V}

/-- C22 (partial): for every reduction, with column-major arrays, or in any layout when all vertices of the
cells of the process are its own, the packed values are the reductions over all vertices with the global
field values.  In particular they do not depend on how the field is distributed or on what the scratch
array held.  Missing: row-major arrays with cells that straddle processes, for which the claim is false
(`C22_false`); cells with vertices on processes that are not neighbours of each other
(`C22_thin_undefined`). -/
theorem C22_partial (hg : Spec.CollectOk s) (hG : Spec.Holds s field G) (f : Nat → W → Nat → V → W) (init : W)
    (scratch : Int → V) (a : Fin n)
    (hl : s.layout = .col ∨ ∀ cell ∈ s.cells a, ∀ v q, Spec.pts cell v → Spec.Stored s.cart cell v q →
      Spec.pts (s.loc a) q) :
    Coll.collect s field f init scratch a =
      some ((s.cells a).zipIdx.map fun x => Spec.reduction s.layout (f x.2) init G x.1) := by
  unfold Coll.collect
  rw [Coll.recvs_eq, Option.bind_some, Coll.remoteValues_eq hg hG, Option.bind_some]
  apply Coll.cellLoop_spec hg hG a f init _ _ _ (fun c hc => hc)
  intro cell hc
  exact hl.imp id fun h v hv => h cell hc v _ hv ((Coll.stored_iff _ hg.proper _ _ _).2 rfl)

/-- C22: messages match: `a` sends to `b` exactly when `b` expects a message from `a`, and the numbers of
points agree; nobody waits forever. -/
theorem C22_matching (hg : Spec.CollectOk s) (a b : Fin n) :
    ∃ ss rs, Coll.sends s a = some ss ∧ Coll.recvs s b = some rs ∧
      ((∃ x ∈ ss, x.1 = b) ↔ ∃ r ∈ rs, r.rank = a) ∧
      ∀ x ∈ ss, x.1 = b → ∀ r ∈ rs, r.rank = a → x.2.length = r.num := by
  refine ⟨_, _, Coll.sends_eq a, Coll.recvs_eq b, ?_, ?_⟩
  · constructor
    · rintro ⟨x, hx, rfl⟩
      obtain ⟨b, hb, rfl⟩ := List.mem_map.1 hx
      exact ⟨_, List.mem_map.2 ⟨a, (Coll.mem_sendTo hg a b).1 hb, rfl⟩, rfl⟩
    · rintro ⟨r, hr, rfl⟩
      obtain ⟨a, ha, rfl⟩ := List.mem_map.1 hr
      exact ⟨_, List.mem_map.2 ⟨b, (Coll.mem_sendTo hg a b).2 ha, rfl⟩, rfl⟩
  · intro x hx hxb r hr hra
    obtain ⟨b', hb, rfl⟩ := List.mem_map.1 hx
    obtain ⟨a', ha', rfl⟩ := List.mem_map.1 hr
    have e1 : b' = b := hxb
    have e2 : a' = a := hra
    subst e1; subst e2
    have hab := ((Coll.mem_recvFrom hg a' b').1 ha').1
    show (Coll.msgPoints s a' b').length = _
    rw [← Coll.recv_points hg a' b' hab ha', List.length_map]; rfl

end

theorem Coll.reduction_and (l : Indexer.Layout) (cell : Rng d) (hc : ∃ p, Spec.pts cell p) (G : Tup d → Bool)
    (g : Bool → Bool) : Spec.reduction l (fun acc _ v => acc && g v) true G cell = true ↔
      ∀ p, Spec.pts cell p → g (G p) = true := by
  have hp := Coll.mem_slots l cell ((exists_pts_iff _).1 hc)
  rw [Coll.reduction_map l (fun acc v => acc && g v) true G cell, Coll.foldl_and g]
  constructor
  · rintro ⟨_, h⟩ p hq
    exact h _ (List.mem_map.2 ⟨p, hp.mem_iff.2 ((Rng.mem_points _ _).2 hq), rfl⟩)
  · intro h
    refine ⟨rfl, fun v hv => ?_⟩
    obtain ⟨p, hq, rfl⟩ := List.mem_map.1 hv
    exact h p ((Rng.mem_points _ _).1 (hp.mem_iff.1 hq))

theorem Coll.reduction_or (l : Indexer.Layout) (cell : Rng d) (hc : ∃ p, Spec.pts cell p) (G : Tup d → Bool)
    (g : Bool → Bool) : Spec.reduction l (fun acc _ v => acc || g v) false G cell = true ↔
      ∃ p, Spec.pts cell p ∧ g (G p) = true := by
  have hp := Coll.mem_slots l cell ((exists_pts_iff _).1 hc)
  rw [Coll.reduction_map l (fun acc v => acc || g v) false G cell, Coll.foldl_or g]
  constructor
  · rintro (h | ⟨v, hv, h⟩)
    · simp at h
    · obtain ⟨p, hq, rfl⟩ := List.mem_map.1 hv
      exact ⟨p, (Rng.mem_points _ _).1 (hp.mem_iff.1 hq), h⟩
  · rintro ⟨p, hq, h⟩
    exact Or.inr ⟨_, List.mem_map.2 ⟨p, hp.mem_iff.2 ((Rng.mem_points _ _).2 hq), rfl⟩, h⟩

/-- C22: the ALL reduction (CollectAll.hpp) over a cell. -/
theorem C22_all (l : Indexer.Layout) (cell : Rng d) (hc : ∃ p, Spec.pts cell p) (G : Tup d → Bool) (k : Nat) :
    Spec.reduction l (Coll.allStep k) true G cell = true ↔ ∀ p, Spec.pts cell p → G p = true :=
  Coll.reduction_and l cell hc G id

/-- C22: the ANY reduction (CollectAny.hpp) over a cell. -/
theorem C22_any (l : Indexer.Layout) (cell : Rng d) (hc : ∃ p, Spec.pts cell p) (G : Tup d → Bool) (k : Nat) :
    Spec.reduction l (Coll.anyStep k) false G cell = true ↔ ∃ p, Spec.pts cell p ∧ G p = true :=
  Coll.reduction_or l cell hc G id

/-- C22: the NONE reduction (CollectNone.hpp) over a cell. -/
theorem C22_none (l : Indexer.Layout) (cell : Rng d) (hc : ∃ p, Spec.pts cell p) (G : Tup d → Bool) (k : Nat) :
    Spec.reduction l (Coll.noneStep k) true G cell = true ↔ ∀ p, Spec.pts cell p → G p = false := by
  have := Coll.reduction_and l cell hc G (fun v => !v)
  simp only [Bool.not_eq_true'] at this
  exact this

/-- C22: the NOT-ALL reduction (CollectNotAll.hpp) over a cell. -/
theorem C22_not_all (l : Indexer.Layout) (cell : Rng d) (hc : ∃ p, Spec.pts cell p) (G : Tup d → Bool)
    (k : Nat) :
    Spec.reduction l (Coll.notAllStep k) false G cell = true ↔ ∃ p, Spec.pts cell p ∧ G p = false := by
  have := Coll.reduction_or l cell hc G (fun v => !v)
  simp only [Bool.not_eq_true'] at this
  exact this

/-- C22: the MIN reduction (CollectMin.hpp): `top` is `numeric_limits::max()`, not below any value. -/
theorem C22_min [LinearOrder V] (l : Indexer.Layout) (cell : Rng d) (hc : ∃ p, Spec.pts cell p) (G : Tup d → V)
    (k : Nat) (top : V) (ht : ∀ p, Spec.pts cell p → G p ≤ top) :
    (∃ p, Spec.pts cell p ∧ Spec.reduction l (Coll.minStep k) top G cell = G p) ∧
      ∀ p, Spec.pts cell p → Spec.reduction l (Coll.minStep k) top G cell ≤ G p := by
  have hp := Coll.mem_slots l cell ((exists_pts_iff _).1 hc)
  rw [show Spec.reduction l (Coll.minStep k) top G cell = _ from
    Coll.reduction_map l (fun acc v => if v < acc then v else acc) top G cell]
  obtain ⟨h1, h2, h3⟩ := Coll.foldl_min
    (((List.range cell.count.toNat).map fun (i : Nat) => cell.tuple l (i : Int)).map G) top
  have h4 : ∀ p, Spec.pts cell p → _ ≤ G p := fun p hq => h3 (G p)
    (List.mem_map.2 ⟨p, hp.mem_iff.2 ((Rng.mem_points _ _).2 hq), rfl⟩)
  refine ⟨?_, h4⟩
  rcases h1 with h1 | h1
  · obtain ⟨p, hq⟩ := hc
    exact ⟨p, hq, le_antisymm (h4 p hq) (by rw [h1]; exact ht p hq)⟩
  · obtain ⟨p, hq, e⟩ := List.mem_map.1 h1
    exact ⟨p, (Rng.mem_points _ _).1 (hp.mem_iff.1 hq), e.symm⟩

/-- C22 (partial): the MAX reduction (CollectMax.hpp) when the start value `numeric_limits::min()` is not
above any value, as for integer types.  Missing: floating point types, for which it is the smallest
*positive* number (`C22_max_false`). -/
theorem C22_max_partial [LinearOrder V] (l : Indexer.Layout) (cell : Rng d) (hc : ∃ p, Spec.pts cell p)
    (G : Tup d → V) (k : Nat) (bot : V) (ht : ∀ p, Spec.pts cell p → bot ≤ G p) :
    (∃ p, Spec.pts cell p ∧ Spec.reduction l (Coll.maxStep k) bot G cell = G p) ∧
      ∀ p, Spec.pts cell p → G p ≤ Spec.reduction l (Coll.maxStep k) bot G cell := by
  have hp := Coll.mem_slots l cell ((exists_pts_iff _).1 hc)
  rw [show Spec.reduction l (Coll.maxStep k) bot G cell = _ from
    Coll.reduction_map l (fun acc v => if acc < v then v else acc) bot G cell]
  obtain ⟨h1, h2, h3⟩ := Coll.foldl_max
    (((List.range cell.count.toNat).map fun (i : Nat) => cell.tuple l (i : Int)).map G) bot
  have h4 : ∀ p, Spec.pts cell p → G p ≤ _ := fun p hq => h3 (G p)
    (List.mem_map.2 ⟨p, hp.mem_iff.2 ((Rng.mem_points _ _).2 hq), rfl⟩)
  refine ⟨?_, h4⟩
  rcases h1 with h1 | h1
  · obtain ⟨p, hq⟩ := hc
    exact ⟨p, hq, le_antisymm (by rw [h1]; exact ht p hq) (h4 p hq)⟩
  · obtain ⟨p, hq, e⟩ := List.mem_map.1 h1
    exact ⟨p, (Rng.mem_points _ _).1 (hp.mem_iff.1 hq), e.symm⟩

/-- C22, the claim for the MAX reduction over floating point values: `tiny` is
`numeric_limits<double>::min()`, a positive number. -/
def C22_max_statement : Prop :=
  ∀ (tiny : Rat), 0 < tiny → ∀ (l : Indexer.Layout) (cell : Rng 1) (G : Tup 1 → Rat),
    (∃ p, Spec.pts cell p) → ∃ p, Spec.pts cell p ∧ Spec.reduction l (Coll.maxStep 0) tiny G cell = G p

/-- The maximum of a negative field is reported as a positive number (CollectMax.hpp:82). -/
theorem C22_max_false : ¬ C22_max_statement := by
  intro h
  obtain ⟨p, _, hp⟩ := h 1 (by decide) .col ⟨![0], ![2]⟩ (fun _ => -1) ⟨![0], by unfold Spec.pts; decide⟩
  revert hp
  decide +kernel

/-- C22: the interpolation reduction (CollectInterp.hpp) in exact arithmetic is the sum over all vertices of
the product of the one-dimensional coefficients times the value. -/
theorem C22_interp [CommRing V] (l : Indexer.Layout) (cell : Rng d) (hc : ∃ p, Spec.pts cell p) (G : Tup d → V)
    (coefs : Nat → Fin d → Int → V) (vc : Int → V) (k : Nat) :
    Spec.reduction l (Coll.interpStep (fun k => Coll.vertexCoefs l cell (coefs k) vc) k) 0 G cell =
      (cell.points.map fun p => (∏ i, coefs k i (p i - cell.b i)) * G p).sum := by
  have hpos := (exists_pts_iff _).1 hc
  have hp := Coll.mem_slots l cell hpos
  have hv : ∀ p, Spec.pts cell p → Coll.vertexCoefs l cell (coefs k) vc (cell.index l p) =
      ∏ i, coefs k i (p i - cell.b i) := by
    intro p hq
    have e : Coll.vertexCoefs l cell (coefs k) vc = Halo.unpack vc (cell.points.map fun p =>
        (cell.index l p, ((List.finRange d).foldl (fun x i => x * coefs k i (p i - cell.b i)) 1))) := by
      unfold Coll.vertexCoefs Halo.unpack; rw [List.foldl_map]
    rw [e]
    rw [Halo.unpack_hit (cell.index l) _ cell.points vc ?_ p ((Rng.mem_points _ _).2 hq)]
    · have : ∀ (L : List (Fin d)) (x : V), L.foldl (fun x i => x * coefs k i (p i - cell.b i)) x =
          x * (L.map fun i => coefs k i (p i - cell.b i)).prod := by
        intro L
        induction L with
        | nil => intro x; simp
        | cons i L ih => intro x; rw [List.foldl_cons, ih, List.map_cons, List.prod_cons, mul_assoc]
      rw [this, one_mul, ← List.ofFn_eq_map, List.prod_ofFn]
    · refine List.Nodup.map_on ?_ (Rng.points_nodup cell)
      intro x hx y hy e
      exact Rng.index_inj l cell x y ((Rng.mem_points _ _).1 hx) ((Rng.mem_points _ _).1 hy) e
  have h1 : Spec.reduction l (Coll.interpStep (fun k => Coll.vertexCoefs l cell (coefs k) vc) k) 0 G cell =
      ((List.range cell.count.toNat).map fun (i : Nat) => cell.tuple l (i : Int)).foldl
        (fun acc p => acc + (∏ i, coefs k i (p i - cell.b i)) * G p) 0 := by
    unfold Spec.reduction
    rw [List.foldl_map]
    apply List.foldl_ext
    intro acc i hi
    rw [List.mem_range] at hi
    have ht := Rng.index_tuple l cell hpos (i : Int) (by omega) (by omega)
    have := hv _ ht.1
    rw [ht.2] at this
    unfold Coll.interpStep
    dsimp only
    rw [this]
  rw [h1, Coll.foldl_sum, zero_add]
  exact (hp.map _).sum_eq

/-! ### Witnesses -/

/-- Four points, two processes side by side, one cell covering everything. -/
def exColl (l : Indexer.Layout) : Coll.Setup 2 2 where
  cart := ⟨⟨![0, 0], ![2, 2]⟩, ![false, false], .unique⟩
  loc := ![⟨![0, 0], ![1, 2]⟩, ⟨![1, 0], ![2, 2]⟩]
  nbrs := ![[1], [0]]
  fieldRange := ![⟨![0, 0], ![2, 2]⟩, ⟨![0, 0], ![2, 2]⟩]
  cells := fun _ => [⟨![0, 0], ![2, 2]⟩]
  layout := l

def exCollG : Tup 2 → Int := fun p => 10 * p 0 + p 1

def exCollField (l : Indexer.Layout) : Fin 2 → Int → Int := fun _ i =>
  exCollG ((⟨![0, 0], ![2, 2]⟩ : Rng 2).tuple l i)

theorem exColl_ok (l : Indexer.Layout) : Spec.CollectOk (exColl l) := by
  have hproper : Spec.Proper (exColl l).cart := by
    unfold Spec.Proper Spec.periodLen exColl; cases l <;> decide
  have hover : ∀ b : Fin 2, Coll.overlaps (exColl l).cart ((exColl l).loc b) ⟨![0, 0], ![2, 2]⟩ = true := by
    have : ∀ b : Fin 2, Coll.overlaps (⟨⟨![0, 0], ![2, 2]⟩, ![false, false], .unique⟩ : Cart 2)
        ((![⟨![0, 0], ![1, 2]⟩, ⟨![1, 0], ![2, 2]⟩] : Fin 2 → Rng 2) b) ⟨![0, 0], ![2, 2]⟩ = true := by
      decide +kernel
    exact this
  have htouch : ∀ b : Fin 2, Spec.Touches (exColl l).cart ((exColl l).loc b) ⟨![0, 0], ![2, 2]⟩ := fun b =>
    (Coll.touches_iff _ hproper _ _).2 ((Coll.overlaps_iff _ _ _).1 (hover b))
  refine ⟨hproper, ⟨by unfold exColl; cases l <;> decide, ?_⟩, by unfold exColl; cases l <;> decide, by unfold exColl; cases l <;> decide, ?_, ?_, ?_, ?_, ?_⟩
  · intro p hp
    have h0 := hp 0
    have h1 := hp 1
    simp [exColl] at h0 h1
    by_cases h : p 0 = 0
    · refine ⟨0, ?_, ?_⟩
      · intro i; fin_cases i <;> simp [exColl] <;> omega
      · intro y hy
        have := hy 0
        fin_cases y
        · rfl
        · simp [exColl] at this; omega
    · refine ⟨1, ?_, ?_⟩
      · intro i; fin_cases i <;> simp [exColl] <;> omega
      · intro y hy
        have := hy 0
        fin_cases y
        · simp [exColl] at this; omega
        · rfl
  · intro a p hp i
    have h0 := hp i
    fin_cases a <;> fin_cases i <;> simp [exColl] at h0 ⊢ <;> omega
  · intro a cell hc
    simp [exColl] at hc
    subst hc
    exact ⟨![0, 0], by unfold Spec.pts; decide⟩
  · intro a cell hc p hp
    simp [exColl] at hc
    subst hc
    exact ⟨p, hp, samePoint_refl _ _⟩
  · intro a cell hc
    have : cell = ⟨![0, 0], ![2, 2]⟩ := by simpa [exColl] using hc
    subst this
    exact htouch a
  · intro a b cell hc _ hab
    refine ⟨⟨cell, hc, Coll.sameCell_refl _ _⟩, ?_⟩
    fin_cases a <;> fin_cases b <;> simp [exColl] at hab ⊢

theorem exColl_holds (l : Indexer.Layout) : Spec.Holds (exColl l) (exCollField l) exCollG := by
  refine ⟨?_, ?_⟩
  · intro p q h
    have h0 := h 0
    have h1 := h 1
    simp [exColl] at h0 h1
    unfold exCollG
    rw [h0, h1]
  · intro a p hp
    have hf := (exColl_ok l).field a p hp
    have e : (exColl l).fieldRange a = ⟨![0, 0], ![2, 2]⟩ := by fin_cases a <;> rfl
    rw [e] at hf ⊢
    unfold exCollField
    show exCollG (Rng.tuple l _ (Rng.index l _ p)) = _
    rw [Rng.tuple_index l _ p hf]

/-- C22, the whole claim: both layouts. -/
def C22_statement : Prop :=
  ∀ (d n : Nat) (_ : NeZero d) (s : Coll.Setup d n) (field : Fin n → Int → Int) (G : Tup d → Int),
    Spec.CollectOk s → Spec.Holds s field G → ∀ (f : Nat → Int → Nat → Int → Int) (init : Int)
    (scratch : Int → Int) (a : Fin n), Coll.collect s field f init scratch a =
      some ((s.cells a).zipIdx.map fun x => Spec.reduction s.layout (f x.2) init G x.1)

/-- With row-major arrays a cell that straddles two processes is assembled wrongly: local vertices go to
row-major positions (CollectBase.cpp:81, 96), remote ones to column-major positions
(CollectMap.cpp:418, 430, 450). -/
theorem C22_false : ¬ C22_statement := by
  intro h
  have := h 2 2 inferInstance (exColl .row) (exCollField .row) exCollG (exColl_ok .row) (exColl_holds .row)
    (fun _ acc _ v => acc + v) 0 (fun _ => 100) 0
  revert this
  decide +kernel

/-- Three processes with one point each; the outer ones are not neighbours. -/
def exCollThin : Coll.Setup 1 3 where
  cart := ⟨⟨![0], ![3]⟩, ![false], .unique⟩
  loc := ![⟨![0], ![1]⟩, ⟨![1], ![2]⟩, ⟨![2], ![3]⟩]
  nbrs := ![[1], [0, 2], [1]]
  fieldRange := fun _ => ⟨![0], ![3]⟩
  cells := fun _ => [⟨![0], ![3]⟩]
  layout := .col

/-- If a cell has a vertex on a process that is not a neighbour, the operation reads table entries that
were never written (CollectMap.cpp:360 counts every remote vertex, 461-466 writes those of neighbours). -/
theorem C22_thin_undefined (f : Nat → Int → Nat → Int → Int) (init : Int) (scratch : Int → Int) :
    Coll.collect exCollThin (fun _ i => i) f init scratch 0 = none := by
  have h1 : ∃ rs, Coll.recvs exCollThin 0 = some rs ∧ ∀ vals vv, Coll.assemble exCollThin (fun _ i => i) 0 rs vals
      ⟨![0], ![3]⟩ vv = none := by
    refine ⟨_, rfl, ?_⟩
    intro vals vv
    unfold Coll.assemble
    cases Coll.putLocal exCollThin (fun _ i => i) 0 ⟨![0], ![3]⟩ vv with
    | none => rfl
    | some vv => 
      rw [Option.bind_some]
      dsimp only
      rw [if_neg]
      decide +kernel
  obtain ⟨rs, h1, h2⟩ := h1
  unfold Coll.collect
  rw [h1, Option.bind_some]
  cases Coll.remoteValues exCollThin (fun _ i => i) 0 rs with
  | none => rfl
  | some vals =>
    rw [Option.bind_some]
    show Coll.cellLoop exCollThin (fun _ i => i) 0 rs vals f init 0 [⟨![0], ![3]⟩] scratch = none
    unfold Coll.cellLoop
    rw [h2]; rfl

/-- The hypotheses of `C22_partial` are met by a straddling cell, and the result is what one expects. -/
example : Coll.collect (exColl .col) (exCollField .col) (fun _ acc _ v => acc + v) 0 (fun _ => 100) 1 =
    some [22] := by decide +kernel

end Ovk
