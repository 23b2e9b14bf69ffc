/-
Property C75: what a whole exchange (collect, send and receive, disperse) leaves in the fields.
-/
import Verif.Model.Exchange
import Verif.Props.Collect
import Verif.Props.Disperse
import Verif.Props.ExchangeOrder

namespace Ovk.Xch
variable {d n nm : Nat} {V : Type}

namespace Spec
/-- Donor number `i` of process `r` of the M grid, with donor cell `cell`, is for point `x` of the N grid, and
the process owns the lower corner of the cell. -/
def DonorFor (X : Exchange d n nm V) (x : Tup d) (r : Fin nm) (i : Nat) (cell : Rng d) : Prop :=
  (X.coll.cells r)[i]? = some cell ∧ Ovk.Spec.pts (X.coll.loc r) cell.b ∧
    ∃ cm ∈ X.world.ms (X.dom r), cm.mGrid = X.m ∧ cm.nGrid = X.g ∧
      ∃ z, cm.donors[i]? = some z ∧ z.lower = cell.b ∧ z.dest = x

/-- The interpolated value at a donor cell. -/
def interpolated [CommRing V] (coefs : Fin d → Int → V) (G : Tup d → V) (cell : Rng d) : V :=
  (cell.points.map fun p => (∏ i, coefs i (p i - cell.b i)) * G p).sum

/-- The connectivity data are consistent and the exchanger was updated with them. -/
structure Ready (X : Exchange d n nm V) : Prop where
  consistent : Consistent X.world
  notShared : NotShared X.world
  once : Once X.world
  updated : update X.world = some (X.dest, X.src)
  maps : ∃ R, (X.g, R) ∈ X.world.grids ∧ MapsFor X.world X.dest X.src X.m X.g R X.maps
  collect : Ovk.Spec.CollectOk X.coll
  /-- the layout restriction of C22 -/
  layout : X.coll.layout = .col ∨ ∀ a, ∀ cell ∈ X.coll.cells a, ∀ v q, Ovk.Spec.pts cell v →
    Ovk.Spec.Stored X.coll.cart cell v q → Ovk.Spec.pts (X.coll.loc a) q
  ranks : Function.Injective X.dom
  /-- the collect map belongs to connectivity M -/
  donors : ∀ a, ∀ cm ∈ X.world.ms a, cm.mGrid = X.m → cm.nGrid = X.g → ∃ r, X.dom r = a ∧
    cm.localRange = X.coll.loc r ∧ cm.donors.map Donor.lower = (X.coll.cells r).map Rng.b
  /-- receivers are in the arrays -/
  inField : ∀ b x, x ∈ X.points b → Ovk.Spec.pts (X.fieldRange b) x
end Spec

section
variable {X : Exchange d n nm V}

/-- C75: a receiver has at most one donor whose lower corner is on the process that holds it. -/
theorem C75_unique (h : Spec.Ready X) {x : Tup d} {r r' : Fin nm} {i i' : Nat} {cell cell' : Rng d}
    (h1 : Spec.DonorFor X x r i cell) (h2 : Spec.DonorFor X x r' i' cell') :
    r = r' ∧ i = i' ∧ cell = cell' := by
  obtain ⟨a1, a2, cm, a3, a4, a5, z, a6, a7, a8⟩ := h1
  obtain ⟨b1, b2, cm', b3, b4, b5, z', b6, b7, b8⟩ := h2
  obtain ⟨s, e1, e2, _⟩ := h.donors _ cm a3 a4 a5
  obtain rfl := h.ranks e1
  obtain ⟨s', e1', e2', _⟩ := h.donors _ cm' b3 b4 b5
  obtain rfl := h.ranks e1'
  have hp : Ovk.Spec.pts cm.localRange z.lower := by rw [e2, a7]; exact a2
  have hp' : Ovk.Spec.pts cm'.localRange z'.lower := by rw [e2', b7]; exact b2
  have := h.consistent.oneDonor (X.dom s) (X.dom s') X.m X.g x z.rank z'.rank
    ⟨cm, a3, a4, a5, z, List.mem_of_getElem? a6, hp, a8, rfl⟩
    ⟨cm', b3, b4, b5, z', List.mem_of_getElem? b6, hp', b8, rfl⟩
  obtain rfl := h.ranks this
  obtain rfl := h.once.mIds _ cm a3 cm' b3 (a4.trans b4.symm) (a5.trans b5.symm)
  have hn := h.once.donors _ cm a3
  have hi : i = i' := by
    rw [List.nodup_iff_pairwise_ne, List.pairwise_map, List.pairwise_filter] at hn
    rw [List.pairwise_iff_getElem] at hn
    obtain ⟨l1, g1⟩ := List.getElem?_eq_some_iff.1 a6
    obtain ⟨l2, g2⟩ := List.getElem?_eq_some_iff.1 b6
    have c1 : cm.localRange.contains z.lower = true := (Rng.contains_iff _ _).2 hp
    have c2 : cm.localRange.contains z'.lower = true := (Rng.contains_iff _ _).2 hp'
    rcases Nat.lt_trichotomy i i' with hlt | heq | hgt
    · exact absurd (a8.trans b8.symm) (by
        have := hn i i' l1 l2 hlt
        rw [g1, g2] at this
        exact this c1 c2)
    · exact heq
    · exact absurd (b8.trans a8.symm) (by
        have := hn i' i l2 l1 hgt
        rw [g1, g2] at this
        exact this c2 c1)
  subst hi
  rw [a1] at b1
  exact ⟨rfl, rfl, Option.some.inj b1⟩

variable [CommRing V]

/-- Collecting is defined and gives the interpolated values of all donors. -/
theorem collect_values [NeZero d] (h : Spec.Ready X) {field : Nat → Fin nm → Int → V} {G : Nat → Tup d → V}
    {c : Nat} (hG : Ovk.Spec.Holds X.coll (field c) (G c)) (junk : Fin nm → Nat → Int → V)
    (scratch : Nat → Fin nm → Int → V) (r : Fin nm) :
    X.collect field junk scratch r c = some ((X.coll.cells r).zipIdx.map fun x =>
      Spec.interpolated (X.coefs r x.2) (G c) x.1) := by
  unfold Exchange.collect
  rw [C22_partial h.collect hG _ _ _ r (h.layout.imp id fun hl => hl r)]
  congr 1
  apply List.map_congr_left
  rintro ⟨cell, k⟩ hk
  have hk' := (List.mem_zipIdx_iff_getElem?).1 hk
  have hc := h.collect.nonempty r cell (List.mem_of_getElem? hk')
  have := C22_interp X.coll.layout cell hc (G c) (fun k => X.coefs r k) (junk r k) k
  unfold Spec.interpolated
  rw [← this]
  unfold Ovk.Spec.reduction
  congr 1
  funext acc i
  unfold Coll.interpStep
  simp only [hk']

theorem sendBuffers_dom (h : Function.Injective X.dom) (dv : Fin nm → Nat → List V) (r : Fin nm) (c i : Nat) :
    X.sendBuffers dv (X.dom r) c i = (dv r c).getD i 0 := by
  unfold Exchange.sendBuffers
  have : (List.finRange nm).find? (fun r' => decide (X.dom r' = X.dom r)) = some r := by
    cases hf : (List.finRange nm).find? fun r' => decide (X.dom r' = X.dom r) with
    | none =>
      have := List.find?_eq_none.1 hf r (List.mem_finRange r)
      simp at this
    | some r' =>
      have := List.find?_some hf
      have e : X.dom r' = X.dom r := by simpa using this
      rw [h e]
  rw [this]

/-- What a process holds of a receiver when its receive has finished. -/
theorem received_value [NeZero d] (h : Spec.Ready X) {field : Nat → Fin nm → Int → V} {G : Nat → Tup d → V}
    (hG : ∀ c, c < X.maps.count → Ovk.Spec.Holds X.coll (field c) (G c)) {junk : Fin nm → Nat → Int → V}
    {scratch : Nat → Fin nm → Int → V} {dv : Fin nm → Nat → List V}
    (hdv : ∀ r c, c < X.maps.count → X.collect field junk scratch r c = some (dv r c))
    {out0 : Fin n → Nat → Nat → V} {es : List (SR.Event n)} {x : SR.State n V}
    (hrun : SR.run X.maps (X.sendBuffers dv) (SR.initial out0) es = some x) {b : Fin n}
    (hfin : x.finished b = true) {k : Nat} {p : Tup d} (hk : (X.points b)[k]? = some p) :
    ∃ r i cell, Spec.DonorFor X p r i cell ∧ ∀ c, c < X.maps.count →
      x.out b c k = Spec.interpolated (X.coefs r i) (G c) cell := by
  obtain ⟨R, hR, hm⟩ := h.maps
  unfold Exchange.points at hk
  rw [List.getElem?_map, Option.map_eq_some_iff] at hk
  obtain ⟨y, hy, rfl⟩ := hk
  obtain ⟨a, cm, i, z, h1, h2, h3, h4, h5, h6, h7⟩ := C25_delivery h.consistent h.notShared h.once h.updated
    X.m X.g hR hm (X.sendBuffers dv) out0 es x hrun b hfin k y hy
  obtain ⟨r, rfl, e2, e3⟩ := h.donors a cm h1 h2 h3
  have hcell : ∃ cell, (X.coll.cells r)[i]? = some cell ∧ z.lower = cell.b := by
    have := congrArg (fun l => l[i]?) e3
    simp only [List.getElem?_map, h4, Option.map_some] at this
    obtain ⟨cell, hc, he⟩ := Option.map_eq_some_iff.1 this.symm
    exact ⟨cell, hc, he.symm⟩
  obtain ⟨cell, hc, he⟩ := hcell
  refine ⟨r, i, cell, ⟨hc, by rw [← he, ← e2]; exact h5, cm, h1, h2, h3, z, h4, he, h6⟩, ?_⟩
  intro c hcc
  rw [h7 c hcc, sendBuffers_dom h.ranks]
  have := hdv r c hcc
  rw [collect_values h (hG c hcc)] at this
  rw [← Option.some.inj this, List.getD_eq_getElem?_getD, List.getElem?_map, List.getElem?_zipIdx, hc]
  simp

omit [CommRing V] in
theorem points_nodup (h : Spec.Ready X) (b : Fin n) : (X.points b).Nodup := by
  unfold Exchange.points
  obtain ⟨D', S', hu', hD, hS⟩ := C24_partial h.consistent h.notShared
  rw [h.updated] at hu'
  obtain ⟨rfl, rfl⟩ := Prod.mk.inj (Option.some.inj hu')
  rcases nEntry_cases h.once hS X.m X.g b with ⟨he, _⟩ | ⟨c, l, he, hc, _⟩
  · rw [he]; simp [nReceivers]
  · rw [he]
    exact h.once.receivers b c hc

/-- C75: collecting is defined on all processes.  No execution of the sends and receives gets stuck or goes on
forever.  When the receive has finished on a process, dispersing there is defined; afterwards every component of
every receiver holds the value interpolated from the global field of the M grid at the cell of its one donor
(added to what was there for `APPEND`), and nothing else in the field has changed. -/
theorem C75_exchange [NeZero d] (h : Spec.Ready X) (field : Nat → Fin nm → Int → V) (G : Nat → Tup d → V)
    (hG : ∀ c, c < X.maps.count → Ovk.Spec.Holds X.coll (field c) (G c)) (junk : Fin nm → Nat → Int → V)
    (scratch : Nat → Fin nm → Int → V) :
    ∃ dv, (∀ r c, c < X.maps.count → X.collect field junk scratch r c = some (dv r c)) ∧
    ∀ (out0 : Fin n → Nat → Nat → V) (es : List (SR.Event n)) (x : SR.State n V),
      SR.run X.maps (X.sendBuffers dv) (SR.initial out0) es = some x →
      (¬ ((∀ a, x.sent a = true) ∧ ∀ b, x.finished b = true) →
        ∃ e y, SR.step X.maps (X.sendBuffers dv) x e = some y) ∧
      es.length ≤ 3 * n + ∑ b : Fin n, (X.maps.recv b).msgs.length ∧
      ∀ (b : Fin n), x.finished b = true → ∀ (old : Nat → Int → V),
        ∃ new app, X.overwrite b (x.out b) old = some new ∧ X.append b (x.out b) old = some app ∧
        (∀ c p, c < X.maps.count → p ∈ X.points b → ∃ r i cell, Spec.DonorFor X p r i cell ∧
          new c ((X.fieldRange b).index X.layout p) = Spec.interpolated (X.coefs r i) (G c) cell ∧
          app c ((X.fieldRange b).index X.layout p) = old c ((X.fieldRange b).index X.layout p) +
            Spec.interpolated (X.coefs r i) (G c) cell) ∧
        (∀ c j, (¬ c < X.maps.count ∨ ∀ p ∈ X.points b, (X.fieldRange b).index X.layout p ≠ j) →
          new c j = old c j ∧ app c j = old c j) := by
  refine ⟨fun r c => (X.coll.cells r).zipIdx.map fun x => Spec.interpolated (X.coefs r x.2) (G c) x.1,
    fun r c hc => collect_values h (hG c hc) junk scratch r, ?_⟩
  intro out0 es x hrun
  obtain ⟨R, hR, hm⟩ := h.maps
  obtain ⟨D', S', hu', hD, hS⟩ := C24_partial h.consistent h.notShared
  rw [h.updated] at hu'
  obtain ⟨rfl, rfl⟩ := Prod.mk.inj (Option.some.inj hu')
  have hmat := maps_matched h.consistent h.once hD hS X.m X.g hm
  refine ⟨SR.C21_progress hmat _ out0 es x hrun, SR.C21_terminates X.maps _ out0 es x hrun, ?_⟩
  intro b hfin old
  have hv := fun k p => received_value h hG (junk := junk) (scratch := scratch)
    (fun r c hc => collect_values h (hG c hc) junk scratch r) hrun hfin (k := k) (p := p)
  obtain ⟨new, n1, n2, n3, n4⟩ := C23_overwrite X.layout (X.fieldRange b) X.maps.count (X.points b) (x.out b) old
    (h.inField b)
  obtain ⟨app, a1, a2, a3⟩ := C23_append (· + ·) X.layout (X.fieldRange b) X.maps.count (X.points b) (x.out b) old
    (h.inField b)
  have hnd := points_nodup h b
  have hpos : ∀ p k, (X.points b)[k]? = some p → Ovk.Spec.positions (X.points b) p = [k] := by
    intro p k hk
    have hmem : ∀ m, m ∈ Ovk.Spec.positions (X.points b) p ↔ m = k := by
      intro m
      rw [Disp.mem_positions]
      constructor
      · intro hm
        obtain ⟨l1, e1⟩ := List.getElem?_eq_some_iff.1 hm
        obtain ⟨l2, e2⟩ := List.getElem?_eq_some_iff.1 hk
        exact (List.Nodup.getElem_inj_iff hnd).1 (e1.trans e2.symm)
      · rintro rfl; exact hk
    have hn : (Ovk.Spec.positions (X.points b) p).Nodup := by
      unfold Ovk.Spec.positions; exact List.nodup_range.filter _
    exact List.perm_singleton.1 ((List.perm_ext_iff_of_nodup hn (by simp)).2 fun m => by simp [hmem])
  refine ⟨new, app, n1, a1, ?_, ?_⟩
  · intro c p hc hp
    obtain ⟨k, hk⟩ := List.mem_iff_getElem?.1 hp
    obtain ⟨r, i, cell, h1, h2⟩ := hv k p hk
    refine ⟨r, i, cell, h1, ?_, ?_⟩
    · rw [n2 c p k hc hk ?_, h2 c hc]
      intro m hkm hm
      have := (Disp.mem_positions (X.points b) p m).2 hm
      rw [hpos p k hk] at this
      simp at this; omega
    · rw [a2 c p hc (h.inField b p hp), hpos p k hk]
      simp [h2 c hc]
  · intro c j hj
    by_cases hc : c < X.maps.count
    · have hj' := hj.resolve_left (fun hn => hn hc)
      by_cases hr : ∃ p, Ovk.Spec.pts (X.fieldRange b) p ∧ (X.fieldRange b).index X.layout p = j
      · obtain ⟨p, hp, rfl⟩ := hr
        have hp' : p ∉ X.points b := fun hm => hj' p hm rfl
        refine ⟨n3 c p hp hp', ?_⟩
        rw [a2 c p hc hp]
        have : Ovk.Spec.positions (X.points b) p = [] := by
          rw [List.eq_nil_iff_forall_not_mem]
          intro m hm
          exact hp' (List.mem_of_getElem? ((Disp.mem_positions _ _ _).1 hm))
        rw [this]; rfl
      · push Not at hr
        exact ⟨n4 c j (.inr hr), a3 c j (.inr hr)⟩
    · exact ⟨n4 c j (.inl hc), a3 c j (.inl hc)⟩
end

/-! Example: the world of Props/Exchanger.lean.  Grid 0 is periodic with one point on each of processes 1 and 2; the
cell of the last donor reaches around the end, so both processes list it and process 2 owns it. -/

def exExchange : Exchange 1 5 2 Int where
  world := exRanks
  m := 0
  g := 1
  dest := exD
  src := exS
  maps := exMaps
  coll :=
    { cart := ⟨⟨![0], ![2]⟩, ![true], .unique⟩
      loc := ![⟨![0], ![1]⟩, ⟨![1], ![2]⟩]
      nbrs := ![[1], [0]]
      fieldRange := fun _ => ⟨![0], ![2]⟩
      cells := ![[⟨![0], ![1]⟩, ⟨![0], ![1]⟩, ⟨![1], ![3]⟩], [⟨![1], ![3]⟩]]
      layout := .col }
  dom := ![1, 2]
  coefs := fun _ k _ i => if k = 1 then 5 else 2 + i
  layout := .row
  fieldRange := fun _ => ⟨![0], ![4]⟩

def exExchangeG : Nat → Tup 1 → Int := fun _ p => if p 0 % 2 = 0 then 10 else 100

theorem exExchange_collect : Ovk.Spec.CollectOk exExchange.coll := by
  have hproper : Ovk.Spec.Proper exExchange.coll.cart := by
    unfold Ovk.Spec.Proper Ovk.Spec.periodLen exExchange; decide
  have ht : ∀ b cell, Ovk.Spec.Touches exExchange.coll.cart (exExchange.coll.loc b) cell ↔
      Coll.overlaps exExchange.coll.cart (exExchange.coll.loc b) cell = true := fun b cell =>
    (Coll.touches_iff _ hproper _ _).trans (Coll.overlaps_iff _ _ _).symm
  have hcells : ∀ a cell, cell ∈ exExchange.coll.cells a → cell = ⟨![0], ![1]⟩ ∨ cell = ⟨![1], ![3]⟩ := by
    intro a cell hc
    fin_cases a <;> simp [exExchange] at hc <;> tauto
  refine ⟨hproper, ⟨by unfold exExchange; decide, ?_⟩, by unfold exExchange; decide, by unfold exExchange; decide,
    ?_, ?_, ?_, ?_, ?_⟩
  · intro p hp
    have h0 := hp 0
    simp [exExchange] at h0
    by_cases h : p 0 = 0
    · refine ⟨0, ?_, ?_⟩
      · intro i; fin_cases i; simp [exExchange]; omega
      · intro y hy
        have := hy 0
        fin_cases y
        · rfl
        · simp [exExchange] at this; omega
    · refine ⟨1, ?_, ?_⟩
      · intro i; fin_cases i; simp [exExchange]; omega
      · intro y hy
        have := hy 0
        fin_cases y
        · simp [exExchange] at this; omega
        · rfl
  · intro a p hp i
    have h0 := hp i
    fin_cases a <;> fin_cases i <;> simp [exExchange] at h0 ⊢ <;> omega
  · intro a cell hc
    rcases hcells a cell hc with rfl | rfl
    · exact ⟨![0], by unfold Ovk.Spec.pts; decide⟩
    · exact ⟨![1], by unfold Ovk.Spec.pts; decide⟩
  · intro a cell hc p hp
    refine ⟨fun _ => p 0 % 2, ?_, ?_⟩
    · intro i; fin_cases i; simp [exExchange]; omega
    · intro i
      fin_cases i
      simp [exExchange, Ovk.Spec.periodLen]
      exact ⟨-(p 0 / 2), by omega⟩
  · intro a cell hc
    rw [ht]
    have : ∀ (a : Fin 2), ∀ cell ∈ exExchange.coll.cells a,
        Coll.overlaps exExchange.coll.cart (exExchange.coll.loc a) cell = true := by decide +kernel
    exact this a cell hc
  · intro a b cell hc htt hab
    rw [ht] at htt
    have h01 : Coll.overlaps exExchange.coll.cart (exExchange.coll.loc 1) ⟨![0], ![1]⟩ = false := by decide +kernel
    fin_cases a <;> fin_cases b
    · simp at hab
    · rcases hcells 0 cell hc with rfl | rfl
      · exact absurd (htt.symm.trans h01) (by simp)
      · exact ⟨⟨⟨![1], ![3]⟩, by simp [exExchange], Coll.sameCell_refl _ _⟩, by simp [exExchange]⟩
    · exact ⟨⟨cell, by simp [exExchange] at hc ⊢; exact .inr hc, Coll.sameCell_refl _ _⟩, by simp [exExchange]⟩
    · simp at hab

theorem exExchange_ready : Spec.Ready exExchange where
  consistent := exRanks_consistent
  notShared := exRanks_notShared
  once := exRanks_once
  updated := exRanks_update
  maps := ⟨_, by simp [exExchange, exRanks], exRanks_maps⟩
  collect := exExchange_collect
  layout := .inl rfl
  ranks := by unfold exExchange Function.Injective; decide
  donors := by
    intro a cm hc _ _
    fin_cases a <;> simp [exExchange, exRanks] at hc
    · subst hc; exact ⟨0, rfl, rfl, rfl⟩
    · subst hc; exact ⟨1, rfl, rfl, rfl⟩
  inField := by
    have : ∀ b, ∀ x ∈ exExchange.points b, Ovk.Spec.pts (exExchange.fieldRange b) x := by
      unfold Ovk.Spec.pts; decide +kernel
    exact this

def exExchangeField : Nat → Fin 2 → Int → Int := fun _ _ i => if i = 0 then 10 else 100

theorem exExchange_holds (c : Nat) : Ovk.Spec.Holds exExchange.coll (exExchangeField c) (exExchangeG c) := by
  refine ⟨?_, ?_⟩
  · intro p q h
    have := h 0
    simp [exExchange, Ovk.Spec.periodLen] at this
    obtain ⟨k, hk⟩ := this
    unfold exExchangeG
    have : q 0 % 2 = p 0 % 2 := by omega
    rw [this]
  · intro a p hp
    have := hp 0
    fin_cases a <;> simp [exExchange] at this
    · have e : p = ![0] := by funext i; fin_cases i; simp; omega
      subst e
      have : exExchangeField 0 0 ((exExchange.coll.fieldRange 0).index exExchange.coll.layout ![0]) =
        exExchangeG 0 ![0] := by decide +kernel
      exact this
    · have e : p = ![1] := by funext i; fin_cases i; simp; omega
      subst e
      have : exExchangeField 0 1 ((exExchange.coll.fieldRange 1).index exExchange.coll.layout ![1]) =
        exExchangeG 0 ![1] := by decide +kernel
      exact this

/- All of `C75_exchange` applies; a whole run on process 1, whose receivers are points 2 and 3. -/
def exExchangeValues : Fin 2 → Nat → List Int := ![fun _ => [20, 50, 230], fun _ => [230]]

example : ∀ r, exExchange.collect exExchangeField (fun _ _ _ => 7) (fun _ _ _ => 9) r 0 =
    some (exExchangeValues r 0) := by decide +kernel

example : ((SR.run exExchange.maps (exExchange.sendBuffers exExchangeValues) (SR.initial fun _ _ _ => 0)
    [.send 2, .post 1, .deliver 1 1, .send 1, .deliver 1 0, .finish 1]).bind fun x =>
      (exExchange.overwrite 1 (x.out 1) fun _ j => 1000 + j).map fun f => [f 0 0, f 0 1, f 0 2, f 0 3]) =
    some [1000, 1001, 230, 20] := by decide +kernel

end Ovk.Xch
