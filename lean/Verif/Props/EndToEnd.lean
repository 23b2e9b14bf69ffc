/-
Property C96: what an application gets that assembles its grids and exchanges fields.
-/
import Verif.Model.Pipeline
import Verif.Props.IndependenceSearch
import Verif.Props.FillExchange

namespace Ovk.Asm
variable {d n n' N : Nat}
open Ovl (World Choice ConnType NEntry MEntry)

namespace Spec
/-- `v` is the value that point `p` of grid `k` should get from field `G` on grid `m`: the interpolant in the cell that
the connectivity lists for it. -/
def Value (W : World d n) (type : Fin N → Fin N → ConnType) (c : Problem.Conn (d + 2) N) (m k : Fin N)
    (G : Tup (d + 2) → Rat) (p : Tup (d + 2)) (v : Rat) : Prop :=
  ∃ cell u, (p, cell) ∈ c.entries m k ∧ W.coordsIn m.val cell (W.tol m.val k.val) (W.coord k.val p) = some u ∧
    v = Ovl.Spec.valueAt (type m k) G cell u

/-- Exchanging over `X` completes: collecting is defined, no execution gets stuck or goes on forever, and what a process
that has finished has in its fields is as described by `Good`, given the fields on the donor side and what was there. -/
def Exchanges (X : Xch.Exchange (d + 2) n n Rat)
    (Good : (Nat → Tup (d + 2) → Rat) → Fin n → (Nat → Int → Rat) → (Nat → Int → Rat) → Prop) : Prop :=
  ∀ (vals : Nat → Fin n → Int → Rat) (G : Nat → Tup (d + 2) → Rat),
    (∀ j, j < X.maps.count → Ovk.Spec.Holds X.coll (vals j) (G j)) →
    ∀ (junk : Fin n → Nat → Int → Rat) (scratch : Nat → Fin n → Int → Rat),
    ∃ dv, (∀ r j, j < X.maps.count → X.collect vals junk scratch r j = some (dv r j)) ∧
    ∀ (out0 : Fin n → Nat → Nat → Rat) (es : List (SR.Event n)) (x : SR.State n Rat),
      SR.run X.maps (X.sendBuffers dv) (SR.initial out0) es = some x →
      (¬ ((∀ a, x.sent a = true) ∧ ∀ b, x.finished b = true) →
        ∃ e y, SR.step X.maps (X.sendBuffers dv) x e = some y) ∧
      es.length ≤ 3 * n + ∑ b : Fin n, (X.maps.recv b).msgs.length ∧
      ∀ b, x.finished b = true → ∀ old, ∃ new, X.overwrite b (x.out b) old = some new ∧ Good G b old new

/-- The points that the connectivity lists have the values they should get, the others what they had. -/
def Filled (W : World d n) (type : Fin N → Fin N → ConnType) (c : Problem.Conn (d + 2) N) (m k : Fin N)
    (X : Xch.Exchange (d + 2) n n Rat) (G : Nat → Tup (d + 2) → Rat) (b : Fin n) (old new : Nat → Int → Rat) : Prop :=
  ∀ j, j < X.maps.count → ∀ p, Ovk.Spec.pts (W.loc k.val b) p →
    (∀ cell, (p, cell) ∈ c.entries m k → Value W type c m k (G j) p (new j ((X.fieldRange b).index X.layout p))) ∧
    ((∀ cell, (p, cell) ∉ c.entries m k) →
      new j ((X.fieldRange b).index X.layout p) = old j ((X.fieldRange b).index X.layout p))

/-- The exchanger finds the ranks for the connectivities `cs` and can build its maps from them, and exchanging over any
of them, with any fields that hold the local points, gives the values. -/
def Served (W : World d n) (type : Fin N → Fin N → ConnType) (D : Choice d) (c : Problem.Conn (d + 2) N)
    (nbrs : Nat → Fin n → List (Fin n)) (cs : List (Ovl.Conn (d + 2) n)) : Prop :=
  ∃ dest src, Xch.update (Ovl.exchangerWorld W cs) = some (dest, src) ∧ ∀ y ∈ cs, ∀ m k : Fin N, y.m = m.val →
    y.k = k.val →
    (∀ cnt, ∃ maps, maps.count = cnt ∧
      Xch.MapsFor (Ovl.exchangerWorld W cs) dest src y.m y.k (W.cart y.k).range maps) ∧
    ∀ maps, Xch.MapsFor (Ovl.exchangerWorld W cs) dest src y.m y.k (W.cart y.k).range maps →
    ∀ field field' layout, (∀ a p, Ovk.Spec.pts (W.loc m.val a) p → Ovk.Spec.pts (field a) p) →
      (∀ b p, Ovk.Spec.pts (W.loc k.val b) p → Ovk.Spec.pts (field' b) p) →
      Exchanges (Ovl.exchange W D nbrs cs dest src y maps field field' layout)
        (Filled W type c m k (Ovl.exchange W D nbrs cs dest src y maps field field' layout))

/-- Grids on processes as the search sees them, options and flags as the rest of assembly sees them. -/
structure Setting (W : World d n) (P : Problem (d + 2) N) (flags : Fin N → Tup (d + 2) → Flags)
    (type : Fin N → Fin N → ConnType) (nbrs : Nat → Fin n → List (Fin n)) : Prop where
  base : Ovl.Spec.Base W
  detects : Ovl.Spec.Detects W
  nodup : W.grids.Nodup
  all : ∀ g ∈ W.grids, g < N
  wide : ∀ m ∈ W.grids, Ovl.Spec.Wide W m
  unique : ∀ m ∈ W.grids, (W.cart m).storage = .unique
  linked : ∀ m ∈ W.grids, Ovl.Spec.Linked W m (nbrs m)
  searched : Searched W P flags
  valid : Spec.Valid P
  type : ∀ m k, P.connected m k = true → type m k = .nearest ∨ type m k = .linear
end Spec

open Ovk.Asm.Spec

/-! ### Overlap is kept until donors are chosen -/

theorem assemble_ov {P : Problem d n} {flags : Fin n → Tup d → Flags}
    {r : St d n × Problem.Conn d n} (h : P.assemble flags = some r) (m k : Fin n) (p : Tup d) :
    r.1.ov m k p = if resetFlags (flags k p) .active then P.found m k p else none := by
  have hov := h
  unfold Problem.assemble at hov
  simp only [Option.bind_eq_bind, Option.bind_eq_some_iff] at hov
  obtain ⟨s1, h1, s2, h2, s3, h3, s4, h4, s5, h5, h6⟩ := hov
  have e1 : s1.ov = (P.detectOverlap (initAssembly flags)).ov := by
    unfold Problem.inferBoundaries_ at h1
    simp only [Option.bind_eq_bind, Option.bind_eq_some_iff] at h1
    obtain ⟨_, -, h1⟩ := h1; cases h1; rfl
  have e2 : s2.ov = s1.ov := by
    unfold Problem.cutBoundaryHoles_ at h2
    simp only [Option.bind_eq_bind, Option.bind_eq_some_iff] at h2
    obtain ⟨_, -, _, -, h2⟩ := h2; cases h2; rfl
  have e3 : s3.ov = s2.ov := by
    unfold Problem.locateOuterFringe_ at h3
    simp only [Option.bind_eq_bind, Option.bind_eq_some_iff] at h3
    obtain ⟨_, -, h3⟩ := h3; cases h3; rfl
  have e4 : s4.ov = s3.ov := by
    unfold Problem.detectOccluded_ at h4
    simp only [Option.bind_eq_bind, Option.bind_eq_some_iff] at h4
    obtain ⟨_, -, _, -, _, -, _, -, h4⟩ := h4; cases h4; rfl
  have e5 : s5.ov = s4.ov := by
    unfold Problem.minimizeOverlap_ at h5
    simp only [Option.bind_eq_bind, Option.bind_eq_some_iff] at h5
    obtain ⟨_, -, h5⟩ := h5; cases h5; rfl
  have e6 : r.1.ov = s5.ov := by
    unfold Problem.generate_ at h6
    simp only [Option.bind_eq_bind, Option.bind_eq_some_iff] at h6
    obtain ⟨_, -, h6⟩ := h6; cases h6; rfl
  rw [e6, e5, e4, e3, e2, e1]; rfl

/-! ### What is handed over -/

section
variable {W : World d n} {P : Problem (d + 2) N} {flags : Fin N → Tup (d + 2) → Flags}
  {type : Fin N → Fin N → ConnType} {nbrs : Nat → Fin n → List (Fin n)} {r : St (d + 2) N × Problem.Conn (d + 2) N}

theorem handOver_type (c : Problem.Conn (d + 2) N) (m k : Fin N) : (handOver P type c).type m.val k.val = type m k := by
  unfold handOver
  dsimp only
  rw [dif_pos ⟨m.isLt, k.isLt⟩]

theorem handOver_donor {c : Problem.Conn (d + 2) N} {k : Fin N} {p : Tup (d + 2)} {m : Nat} :
    (handOver P type c).donor k.val p = some m ↔
      Ovk.Spec.pts (P.grid k).cart.range p ∧ ∃ m', c.donor k p = some m' ∧ m'.val = m := by
  unfold handOver
  dsimp only
  rw [dif_pos k.isLt]
  split
  · rename_i h
    rw [Option.map_eq_some_iff]
    exact (and_iff_right ((contains_iff_pts _ _).1 h)).symm
  · rename_i h
    refine ⟨fun e => (by cases e), fun e => absurd ((contains_iff_pts _ _).2 e.1) h⟩

theorem handOver_donor_lt {c : Problem.Conn (d + 2) N} {k : Nat} {p : Tup (d + 2)} {m : Nat}
    (h : (handOver P type c).donor k p = some m) : k < N := by
  unfold handOver at h
  dsimp only at h
  split at h
  · assumption
  · cases h

/-- Entries and choices. -/
theorem entry_iff (h : Spec.Setting W P flags type nbrs) (hr : P.assemble flags = some r) {m k : Fin N}
    {p cell : Tup (d + 2)} (hp : Ovk.Spec.pts (W.cart k.val).range p) :
    (p, cell) ∈ r.2.entries m k ↔ (handOver P type r.2).donor k.val p = some m.val ∧ Listed W m.val k.val p cell := by
  obtain ⟨dist, -, hc, -⟩ := C46_donors h.valid.layouts hr
  have hp' : Ovk.Spec.pts (P.grid k).cart.range p := by rw [h.searched.cart]; exact hp
  have hc := hc k p hp'
  rw [hc.entry, handOver_donor, ← h.searched.found m k p hp, assemble_ov hr]
  constructor
  · rintro ⟨h1, h2⟩
    split at h2
    · exact ⟨⟨hp', m, h1, rfl⟩, h2⟩
    · cases h2
  · rintro ⟨⟨-, m', h1, h2⟩, h3⟩
    obtain rfl : m' = m := Fin.ext h2
    refine ⟨h1, ?_⟩
    have := (hc.eligible m' h1).2.2
    obtain ⟨cell', h4, -⟩ := this
    rw [assemble_ov hr] at h4
    split at h4
    · rename_i ha
      rw [if_pos ha, h3]
    · cases h4

/-- A chosen donor grid has a cell for the point. -/
theorem chosen_listed (h : Spec.Setting W P flags type nbrs) (hr : P.assemble flags = some r) {m k : Nat}
    {p : Tup (d + 2)} (hd : (handOver P type r.2).donor k p = some m) :
    ∃ (m' k' : Fin N) (cell : Tup (d + 2)), m'.val = m ∧ k'.val = k ∧ Ovk.Spec.pts (W.cart k).range p ∧
      Listed W m k p cell ∧ r.2.receiver k' p = true ∧ P.connected m' k' = true := by
  have hk := handOver_donor_lt hd
  obtain ⟨hp, m', h1, rfl⟩ := (handOver_donor (k := ⟨k, hk⟩)).1 hd
  obtain ⟨dist, -, hc, -⟩ := C46_donors h.valid.layouts hr
  have hc := hc ⟨k, hk⟩ p hp
  obtain ⟨h2, h3, cell, h4, -⟩ := hc.eligible m' h1
  have hp' : Ovk.Spec.pts (W.cart k).range p := by rw [h.searched.cart] at hp; exact hp
  rw [assemble_ov hr] at h4
  split at h4
  · exact ⟨m', ⟨k, hk⟩, cell, rfl, rfl, hp', (h.searched.found m' ⟨k, hk⟩ p hp' cell).1 h4, h2, h3⟩
  · cases h4

theorem handOver_chosen (h : Spec.Setting W P flags type nbrs) (hr : P.assemble flags = some r)
    {M : Nat → Nat → Fin n → List (MEntry (d + 2))} {L : Nat → Nat → Fin n → List (NEntry (d + 2))}
    (hO : Ovl.Spec.Overlapped W M L) : Ovl.Spec.Chosen W (handOver P type r.2) L := by
  refine ⟨fun k _ p m hd => ?_, fun k _ p m hd => ?_, fun k _ p m hd => ?_, fun k hk p m hd => ?_⟩
  · obtain ⟨m', k', cell, rfl, rfl, h1, h2, h3, h4⟩ := chosen_listed h hr hd
    unfold handOver
    dsimp only
    rw [dif_pos k'.isLt, Bool.and_eq_true, contains_iff_pts, h.searched.cart]
    exact ⟨h1, h3⟩
  · obtain ⟨m', k', cell, rfl, rfl, h1, h2, h3, h4⟩ := chosen_listed h hr hd
    exact h.searched.grids m'
  · obtain ⟨m', k', cell, rfl, rfl, h1, h2, h3, h4⟩ := chosen_listed h hr hd
    rw [handOver_type]
    exact h.type m' k' h4
  · obtain ⟨m', k', cell, rfl, rfl, h1, ⟨hs, b, l, hh, hl, e, he, h5, -⟩, h3, h4⟩ := chosen_listed h hr hd
    obtain ⟨hs', hh', hML⟩ := hO
    obtain rfl : hs = hs' := Option.some.inj (hh.symm.trans hh')
    have := (hML m'.val (h.searched.grids m') k'.val hk b).2
    rw [hl, Option.some.injEq] at this
    exact ⟨b, e, this ▸ he, h5⟩

/-! ### C96 -/

/-- **C96**: when assembly has succeeded, telling the cells which of them donate completes, filling is defined and creates
one connectivity for each pair of grids with entries, the exchanger can be set up, and an exchange of any fields over
any of them completes, after which the points with an entry have the interpolant of the global field in the cell of the
entry and the others are unchanged. -/
theorem C96_exchange (h : Spec.Setting W P flags type nbrs) (hr : P.assemble flags = some r) :
    ∃ M L, Ovl.Spec.Overlapped W M L ∧
      (∀ m ∈ W.grids, ∀ k ∈ W.grids, ∃ maps, Ovl.donateMaps (M m k) (L m k) = some maps ∧ ∀ es x,
        SR.run maps (Ovl.donateBuffers (handOver P type r.2) m k (L m k)) (SR.initial Ovl.donatesInit) es = some x →
        (¬ ((∀ a, x.sent a = true) ∧ ∀ b, x.finished b = true) →
          ∃ e y, SR.step maps (Ovl.donateBuffers (handOver P type r.2) m k (L m k)) x e = some y) ∧
        es.length ≤ 3 * n + ∑ b : Fin n, (maps.recv b).msgs.length ∧
        ((∀ b, x.finished b = true) →
          Ovl.Spec.Learned (handOver P type r.2) m k (M m k) fun a i => x.out a 0 i)) ∧
      ∀ don, (∀ m ∈ W.grids, ∀ k ∈ W.grids, Ovl.Spec.Learned (handOver P type r.2) m k (M m k) (don m k)) →
        ∃ cs, Ovl.fill W (handOver P type r.2) nbrs M L don = some cs ∧
          (∀ m k : Fin N, (∃ y ∈ cs, y.m = m.val ∧ y.k = k.val) ↔ r.2.entries m k ≠ []) ∧
          (∀ y ∈ cs, y.m < N ∧ y.k < N) ∧
          Served W type (handOver P type r.2) r.2 nbrs cs := by
  obtain ⟨hs, hh, hdet⟩ := h.detects
  have hM : ∀ m k r, ∃ M, m ∈ W.grids → k ∈ W.grids → Ovl.overlapM W hs m k r = some M := by
    intro m k r
    by_cases hmk : m ∈ W.grids ∧ k ∈ W.grids
    · obtain ⟨M, hM⟩ := (hdet m hmk.1 k hmk.2).2 r
      exact ⟨M, fun _ _ => hM⟩
    · exact ⟨[], fun a b => absurd ⟨a, b⟩ hmk⟩
  have hL : ∀ m k s, ∃ L, m ∈ W.grids → k ∈ W.grids → Ovl.overlapN W hs m k s = some L := by
    intro m k s
    by_cases hmk : m ∈ W.grids ∧ k ∈ W.grids
    · obtain ⟨L, hL, -⟩ := (hdet m hmk.1 k hmk.2).1 s
      exact ⟨L, fun _ _ => hL⟩
    · exact ⟨[], fun a b => absurd ⟨a, b⟩ hmk⟩
  choose M hM using hM
  choose L hL using hL
  have hO : Ovl.Spec.Overlapped W M L := ⟨hs, hh, fun m hm k hk r => ⟨hM m k r hm hk, hL m k r hm hk⟩⟩
  refine ⟨M, L, hO, fun m hm k hk => Ovl.C90_learn h.base hm hk (fun r => hM m k r hm hk) (fun s => hL m k s hm hk) _,
    fun don hdon => ?_⟩
  have hC := handOver_chosen h hr hO
  obtain ⟨cs, h1, h2⟩ := Ovl.C90_partial h.base h.nodup hO hC h.wide h.unique h.linked hdon
  have h3 : Ovl.Spec.Exchanged W _ L nbrs cs :=
    Ovl.filled_exchanged h.base h.nodup hO hC h.unique (fun m hm => (h.linked m hm).toNeighbors) h2
  refine ⟨cs, h1, fun m k => ?_, fun y hy => ?_, ?_⟩
  · rw [h2.pairs]
    constructor
    · rintro ⟨hm, hk, b, p, hp, hd⟩
      obtain ⟨m', k', cell, e1, e2, hp', hl, -⟩ := chosen_listed h hr hd
      exact List.ne_nil_of_mem ((entry_iff h hr hp').2 ⟨hd, hl⟩)
    · intro hne
      obtain ⟨⟨p, cell⟩, he⟩ := List.exists_mem_of_ne_nil _ hne
      obtain ⟨dist, -, -, hin⟩ := C46_donors h.valid.layouts hr
      have hp := hin m k _ he
      rw [h.searched.cart] at hp
      obtain ⟨b, hb, -⟩ := (h.base.grid k.val (h.searched.grids k)).tiles.2 p hp
      exact ⟨h.searched.grids m, h.searched.grids k, b, p, hb, ((entry_iff h hr hp).1 he).1⟩
  · obtain ⟨hm, hk, -⟩ := (h2.pairs y.m y.k).1 ⟨y, hy, rfl, rfl⟩
    exact ⟨h.all _ hm, h.all _ hk⟩
  · obtain ⟨dest, src, hu, hX⟩ := h3
    refine ⟨dest, src, hu, fun y hy m k em ek => ?_⟩
    obtain ⟨a1, a2⟩ := hX y hy
    refine ⟨a1, fun maps hmaps field field' layout hf hf' => ?_⟩
    obtain ⟨-, a3⟩ := a2 maps hmaps field field' layout (by rw [em]; exact hf) (by rw [ek]; exact hf')
    intro vals G hG junk scratch
    obtain ⟨dv, b1, b2⟩ := a3 vals G hG junk scratch
    refine ⟨dv, b1, fun out0 es x hx => ?_⟩
    obtain ⟨c1, c2, c3⟩ := b2 out0 es x hx
    refine ⟨c1, c2, fun b hb old => ?_⟩
    obtain ⟨new, d1, d2⟩ := c3 b hb old
    refine ⟨new, d1, fun j hj p hp => ?_⟩
    obtain ⟨e1, e2⟩ := d2 j hj p (by rw [ek]; exact hp)
    have hin : Ovk.Spec.pts (W.cart k.val).range p :=
      fun i => ⟨((h.base.grid k.val (h.searched.grids k)).tiles.1 b i).1.trans (hp i).1,
        (hp i).2.trans_le ((h.base.grid k.val (h.searched.grids k)).tiles.1 b i).2⟩
    refine ⟨fun cell he => ?_, fun hno => ?_⟩
    · obtain ⟨f1, f2⟩ := (entry_iff h hr hin).1 he
      obtain ⟨e, he', g1, u, g2, g3⟩ := e1 (by rw [em, ek]; exact f1)
      have hl : Listed W m.val k.val p e.source :=
        ⟨hs, b, L m.val k.val b, hh, hL _ _ _ (h.searched.grids m) (h.searched.grids k), e,
          by rw [← em, ← ek]; exact he', g1, rfl⟩
      refine ⟨e.source, u, (entry_iff h hr hin).2 ⟨f1, hl⟩, by rw [← em, ← ek]; exact g2, ?_⟩
      rw [g3, em, ek, handOver_type]
    · refine e2 ?_
      rw [em, ek]
      intro hd
      obtain ⟨m', k', cell, -, -, -, hl, -⟩ := chosen_listed h hr hd
      exact hno cell ((entry_iff h hr hin).2 ⟨hd, hl⟩)

/-- **C96 (who receives)**: a point gets a value from some grid exactly if it is flagged as a receiver and not as an
orphan, and then from one grid only; the value is unique, and the cell it comes from is the best of the active cells
that contain the point. -/
theorem C96_receivers (h : Spec.Setting W P flags type nbrs) (hr : P.assemble flags = some r) (k : Fin N)
    (p : Tup (d + 2)) (hp : Ovk.Spec.pts (W.cart k.val).range p) (G : Fin N → Tup (d + 2) → Rat) :
    ((∃ m v, Value W type r.2 m k (G m) p v) ↔
      r.1.flags k p .receiver = true ∧ r.1.flags k p .orphan = false) ∧
    (∀ m m' v v', Value W type r.2 m k (G m) p v → Value W type r.2 m' k (G m') p v' → m = m' ∧ v = v') ∧
    ∀ m cell, (p, cell) ∈ r.2.entries m k → ∃ u, Ovl.Spec.Accepts W m.val k.val p cell u ∧
      ∀ c' v, Ovl.Spec.Accepts W m.val k.val p c' v →
        Accel.Spec.Prefer ((Ovl.cellRange W m.val).colIndex cell, u) ((Ovl.cellRange W m.val).colIndex c', v) := by
  have hp' : Ovk.Spec.pts (P.grid k).cart.range p := by rw [h.searched.cart]; exact hp
  obtain ⟨h1, h2⟩ := C46_unique h.valid.layouts hr k p hp'
  have h3 : ∀ m cell, (p, cell) ∈ r.2.entries m k → ∃ u, Ovl.Spec.Accepts W m.val k.val p cell u ∧
      ∀ c' v, Ovl.Spec.Accepts W m.val k.val p c' v →
        Accel.Spec.Prefer ((Ovl.cellRange W m.val).colIndex cell, u) ((Ovl.cellRange W m.val).colIndex c', v) :=
    fun m cell he => ((listed_iff h.detects h.base.grid (h.searched.grids m) (h.searched.grids k) hp).1
      ((entry_iff h hr hp).1 he).2).2.2
  refine ⟨h2.symm.trans ?_ |>.symm, fun m m' v v' a b => ?_, h3⟩
  · constructor
    · rintro ⟨m, cell, he⟩
      obtain ⟨u, hu, -⟩ := h3 m cell he
      exact ⟨m, _, cell, u, he, hu.2, rfl⟩
    · rintro ⟨m, v, cell, u, he, -⟩
      exact ⟨m, cell, he⟩
  · obtain ⟨c, u, a1, a2, rfl⟩ := a
    obtain ⟨c', u', b1, b2, rfl⟩ := b
    obtain ⟨rfl, rfl⟩ := h1 _ _ _ _ a1 b1
    rw [a2, Option.some.injEq] at b2
    subst b2
    exact ⟨rfl, rfl⟩

/-- **C96 (linear fields)**: with multilinear cells and linear interpolation, a field that is an affine function of the
coordinates on the active cells of the donor grid arrives as this function of the coordinates of the receiving
point; in particular its coordinates do. -/
theorem C96_linear (h : Spec.Setting W P flags type nbrs) (hr : P.assemble flags = some r)
    {pos : Nat → Tup (d + 2) → Pt (d + 2)} (hG : Ovl.Spec.Geometric W pos) (m k : Fin N) (ht : type m k = .linear)
    (p : Tup (d + 2)) (hp : Ovk.Spec.pts (W.cart k.val).range p) (a : Rat) (b : Fin (d + 2) → Rat)
    (G : Tup (d + 2) → Rat)
    (hlin : ∀ c, Ovl.Spec.ActiveCell W m.val c → ∀ s, G (Ovl.Spec.corner c s) =
      a + ∑ j, b j * pos m.val (Ovl.Spec.corner c s) j)
    (v : Rat) (hv : Value W type r.2 m k G p v) : v = a + ∑ j, b j * W.coord k.val p j := by
  obtain ⟨cell, u, he, hu, rfl⟩ := hv
  obtain ⟨u', hu', -⟩ := (C96_receivers h hr k p hp (fun _ => G)).2.2 m cell he
  have h1 : ∀ j, Ovl.Spec.interpolant (fun q => pos m.val q j) cell u = W.coord k.val p j := fun j =>
    Ovl.C89_coordinates hG (h.searched.grids m) (h.searched.grids k) ⟨hu'.1, hu⟩ j
  rw [ht]
  show Ovl.Spec.interpolant G cell u = _
  simp only [← h1]
  unfold Ovl.Spec.interpolant
  simp only [hlin cell hu'.1, mul_add, Finset.sum_add_distrib, Finset.mul_sum]
  rw [← Finset.sum_mul, Ovl.weights_one, one_mul, Finset.sum_comm]
  congr 1
  refine Finset.sum_congr rfl fun j _ => Finset.sum_congr rfl fun s _ => ?_
  ring

end

/-- **C96 (independence)**: on two decompositions of the same grids over any numbers of processes assembly succeeds on
both or on none, creates the same connectivities, and every point gets the same values from the same grids. -/
theorem C96_same {W : World d n} {W' : World d n'} {P P' : Problem (d + 2) N}
    {flags flags' : Fin N → Tup (d + 2) → Flags} {type : Fin N → Fin N → ConnType}
    {nbrs : Nat → Fin n → List (Fin n)} {nbrs' : Nat → Fin n' → List (Fin n')} (hW : SameSearch W W')
    (h : Spec.Setting W P flags type nbrs) (h' : Spec.Setting W' P' flags' type nbrs') (hP : SameOptions P P')
    (hf : ∀ k, OnRange (P.grid k).cart.range (flags k) (flags' k)) :
    (P.assemble flags = none ↔ P'.assemble flags' = none) ∧
    ∀ r r', P.assemble flags = some r → P'.assemble flags' = some r' → ∀ m k : Fin N,
      (r.2.entries m k = [] ↔ r'.2.entries m k = []) ∧
      ∀ p, Ovk.Spec.pts (W.cart k.val).range p → ∀ G v, Value W type r.2 m k G p v ↔ Value W' type r'.2 m k G p v := by
  obtain ⟨-, h2, h3⟩ := C94_search hW h.detects h'.detects h.base.grid h'.base.grid h.searched h'.searched h.valid
    h'.valid hP hf
  refine ⟨h2, fun r r' hr hr' m k => ?_⟩
  have hperm := (h3 r r' hr hr').entries m k
  refine ⟨⟨fun e => ?_, fun e => ?_⟩, fun p hp G v => ?_⟩
  · rw [e] at hperm; exact hperm.nil_eq.symm
  · rw [e] at hperm; exact hperm.eq_nil
  · unfold Value
    rw [hW.coordsIn, hW.tol, ← hW.coord k.val p hp]
    exact exists_congr fun cell => exists_congr fun u => and_congr_left fun _ => hperm.mem_iff

/-! ### Example -/

/-- All entries on the N side of overlap. -/
def foundIn (W : World 0 n) (m k : Nat) (p : Tup 2) : Option (Tup 2) :=
  (((List.finRange n).flatMap fun s => Ovl.dataN W m k s).find? fun e => decide (e.point = p)).map NEntry.source

/-- Two grids, one inside the other, each on one process for everything but the search; the outer one donates. -/
def exPipe (W : World 0 n) (found : Nat → Nat → Tup 2 → Option (Tup 2)) : Problem 2 2 where
  grid := fun g => oneProc (Ovl.exCart g.val)
  group := CC.groupOne
  inferBoundaries := fun _ => false
  cutBoundaryHoles := fun _ _ => false
  fringeSize := fun _ => 1
  occludes := fun _ _ => .none
  edgePadding := fun _ _ => 0
  edgeSmoothing := fun _ => 0
  minimizeOverlap := fun _ _ => false
  connected := fun m k => decide (m = 0 ∧ k = 1)
  disjoint := fun _ _ => false
  found := fun m k p => found m.val k.val p
  vol := fun _ _ => 1
  ovVol := fun m k p => match found m.val k.val p with
    | some c => ((W.coordsIn m.val c (W.tol m.val k.val) (W.coord k.val p)).map fun u =>
        Ovl.Spec.interpolant (fun _ => 1) c u).getD 0
    | none => 0
  fuel := 10

def exPipeFlags : Fin 2 → Tup 2 → Flags := fun _ _ x => decide (x = .active)

theorem foundIn_iff {W : World 0 n} (hd : Ovl.Spec.Detects W) (hg : ∀ g ∈ W.grids, Ovl.Spec.GridOk W g) {m k : Nat}
    (hm : m ∈ W.grids) (hk : k ∈ W.grids) {p c : Tup 2} (hp : Ovk.Spec.pts (W.cart k).range p) :
    foundIn W m k p = some c ↔ Listed W m k p c := by
  obtain ⟨hs, hh, hdet⟩ := id hd
  have hN : ∀ s, Ovl.overlapN W hs m k s = some (Ovl.dataN W m k s) := fun s => by
    obtain ⟨L, hL, -⟩ := (hdet m hm k hk).1 s
    unfold Ovl.dataN
    rw [hh, Option.bind_some, hL]
    rfl
  have hl : ∀ c, Listed W m k p c ↔ ∃ s, ∃ e ∈ Ovl.dataN W m k s, e.point = p ∧ e.source = c := fun c => by
    constructor
    · rintro ⟨h', s, L, h1, h2, h3⟩
      obtain rfl : hs = h' := Option.some.inj (hh.symm.trans h1)
      rw [hN s, Option.some.injEq] at h2
      exact ⟨s, h2 ▸ h3⟩
    · rintro ⟨s, h3⟩
      exact ⟨hs, s, _, hh, hN s, h3⟩
  unfold foundIn
  rw [Option.map_eq_some_iff]
  constructor
  · rintro ⟨e, h1, rfl⟩
    have h2 := List.find?_some h1
    obtain ⟨s, -, h3⟩ := List.mem_flatMap.1 (List.mem_of_find?_eq_some h1)
    exact (hl _).2 ⟨s, e, h3, by simpa using h2, rfl⟩
  · intro h
    obtain ⟨s, e, h1, h2, h3⟩ := (hl c).1 h
    have hsome : (((List.finRange n).flatMap fun s => Ovl.dataN W m k s).find? fun e => decide (e.point = p)).isSome =
        true := by
      rw [List.find?_isSome]
      exact ⟨e, List.mem_flatMap.2 ⟨s, List.mem_finRange s, h1⟩, by simpa using h2⟩
    obtain ⟨e', he'⟩ := Option.isSome_iff_exists.1 hsome
    refine ⟨e', he', ?_⟩
    have h4 := List.find?_some he'
    obtain ⟨s', -, h5⟩ := List.mem_flatMap.1 (List.mem_of_find?_eq_some he')
    exact listed_unique hd hg hm hk hp ((hl _).2 ⟨s', e', h5, by simpa using h4, rfl⟩) h

theorem exPipe_setting {W : World 0 n} {nbrs : Nat → Fin n → List (Fin n)} (hg : W.grids = [0, 1])
    (hc : W.cart = Ovl.exCart) (ha : ∀ g p, W.active g p = true) (hB : Ovl.Spec.Base W) (hd : Ovl.Spec.Detects W)
    (hl : ∀ m ∈ W.grids, Ovl.Spec.Linked W m (nbrs m)) {found : Nat → Nat → Tup 2 → Option (Tup 2)}
    (hf : ∀ m ∈ W.grids, ∀ k ∈ W.grids, ∀ p, Ovk.Spec.pts (W.cart k).range p → found m k p = foundIn W m k p) :
    Spec.Setting W (exPipe W found) exPipeFlags (fun _ _ => .linear) nbrs where
  base := hB
  detects := hd
  nodup := by rw [hg]; decide
  all g h := by rw [hg] at h; simp at h; omega
  wide m _ i hi := by rw [hc] at hi; simp [Ovl.exCart] at hi
  unique m _ := by rw [hc]; rfl
  linked := hl
  searched := by
    have hk : ∀ k : Fin 2, k.val ∈ W.grids := fun k => by rw [hg]; fin_cases k <;> simp
    refine ⟨hk, fun k => by rw [hc]; rfl, fun k p _ => by rw [ha]; rfl, fun m k p hp c => ?_,
      fun m k p c u _ h1 h2 => ?_⟩
    · show found m.val k.val p = some c ↔ _
      rw [hf _ (hk m) _ (hk k) p hp]
      exact foundIn_iff hd hB.grid (hk m) (hk k) hp
    have h1 : found m.val k.val p = some c := h1
    show (match found m.val k.val p with | some c => _ | none => _) = _
    rw [h1]
    dsimp only
    rw [h2]
    rfl
  valid := by
    have hk : ∀ k : Fin 2, k.val ∈ W.grids := fun k => by rw [hg]; fin_cases k <;> simp
    refine ⟨fun k => oneProc_layout ?_ rfl, fun k r i => ?_, fun m k p cell hp hcell i hi => ?_,
      fun r => by simp [exPipe, CC.groupOne]⟩
    · intro i
      unfold Ovk.Spec.periodLen Ovl.exCart
      dsimp only
      split <;> split <;> fin_cases i <;> simp
    · show (Ovl.exCart k.val).range.b i < (Ovl.exCart k.val).range.e i
      unfold Ovl.exCart
      dsimp only
      split <;> fin_cases i <;> simp
    · have hp' : Ovk.Spec.pts (W.cart k.val).range p := by rw [hc]; exact hp
      obtain ⟨-, -, u, hu, -⟩ := (listed_iff hd hB.grid (hk m) (hk k) hp').1
        ((foundIn_iff hd hB.grid (hk m) (hk k) hp').1 ((hf _ (hk m) _ (hk k) p hp').symm.trans hcell))
      have := hu.1.1 i
      rw [hc] at this
      show (Ovl.exCart m.val).range.b i ≤ cell i ∧ cell i + 1 < (Ovl.exCart m.val).range.e i
      rw [if_neg (by simp [Ovl.exCart])] at this
      exact this
  type _ _ _ := .inr rfl

/-- What the search finds: a cell for all points of the inner grid. -/
def exFound (m k : Nat) (p : Tup 2) : Option (Tup 2) := if m = 0 ∧ k = 1 then some ![p 0 + 1, 0] else none

theorem exFound_eq : ∀ m ∈ Ovl.exWorld.grids, ∀ k ∈ Ovl.exWorld.grids, ∀ p,
    Ovk.Spec.pts (Ovl.exWorld.cart k).range p → exFound m k p = foundIn Ovl.exWorld m k p := by
  have h : ∀ m ∈ [0, 1], ∀ k ∈ [0, 1], ∀ p ∈ (Ovl.exCart k).range.points,
      (foundIn Ovl.exWorld m k p).map List.ofFn = (exFound m k p).map List.ofFn := by decide +kernel
  intro m hm k hk p hp
  have h1 := h m hm k hk p ((Rng.mem_points _ _).2 hp)
  exact (Option.map_injective List.ofFn_injective h1).symm

/- Setting for two processes. -/
example : Spec.Setting Ovl.exWorld (exPipe Ovl.exWorld exFound) exPipeFlags (fun _ _ => .linear) fun _ => Ovl.pairNbrs :=
  exPipe_setting rfl rfl (fun _ _ => rfl) Ovl.exWorld_base
    (Ovl.C86_partial Ovl.exWorld_base (Ovl.uniform_geometric Ovl.exStep_pos le_rfl) Ovl.exWorld_attached
      fun _ _ _ _ => .inl rfl) Ovl.exWorld_linked exFound_eq

/- Setting for one process, and the two are alike; so `C96_same` applies. -/
theorem exFound_single : ∀ m ∈ exSingle.grids, ∀ k ∈ exSingle.grids, ∀ p,
    Ovk.Spec.pts (exSingle.cart k).range p → exFound m k p = foundIn exSingle m k p := by
  have h : ∀ m ∈ [0, 1], ∀ k ∈ [0, 1], ∀ p ∈ (Ovl.exCart k).range.points,
      (foundIn exSingle m k p).map List.ofFn = (exFound m k p).map List.ofFn := by decide +kernel
  intro m hm k hk p hp
  have h1 := h m hm k hk p ((Rng.mem_points _ _).2 hp)
  exact (Option.map_injective List.ofFn_injective h1).symm

theorem exSingle_linked : ∀ m ∈ exSingle.grids, Ovl.Spec.Linked exSingle m fun _ => [] :=
  fun _ _ => ⟨⟨fun _ => List.not_mem_nil, fun _ => List.nodup_nil, fun a b _ h => absurd (Subsingleton.elim a b) h⟩,
    fun _ _ h => absurd h List.not_mem_nil, fun _ _ h => absurd h List.not_mem_nil⟩

example : Spec.Setting exSingle (exPipe exSingle exFound) exPipeFlags (fun _ _ => .linear) fun _ _ => [] :=
  exPipe_setting rfl rfl (fun _ _ => rfl) exSingle_base
    (Ovl.C86_partial exSingle_base (Ovl.uniform_geometric Ovl.exStep_pos le_rfl) Ovl.exWorld_attached
      fun _ _ _ _ => .inl rfl) exSingle_linked exFound_single

example : SameOptions (exPipe Ovl.exWorld exFound) (exPipe exSingle exFound) := by
  constructor <;> first | rfl | exact fun _ => rfl | exact fun _ _ _ => rfl

/- Assembly completes; all points of the inner grid receive, two of them from a cell whose vertices are on different
processes. -/
example : (((exPipe Ovl.exWorld exFound).assemble exPipeFlags).map fun r => (r.2.entries 0 1).map fun e =>
    (List.ofFn e.1, List.ofFn e.2)) =
    some [([0, 0], [1, 0]), ([1, 0], [2, 0]), ([0, 1], [1, 0]), ([1, 1], [2, 0])] := by decide +kernel

end Ovk.Asm
