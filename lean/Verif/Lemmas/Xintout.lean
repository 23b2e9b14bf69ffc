/-
Lemmas about importing XINTOUT files: chunks in order make up the file; matching over grids; distribution.
-/
import Verif.Model.XintoutImport
import Verif.Props.Xintout
import Verif.Props.DistHash
import Verif.Props.Cart
import Verif.Lemmas.Container

namespace Ovk
namespace Xintout

variable {d n P : Nat} {δ α β γ : Type}

/-! ### Chunks -/

theorem chunkOf_flatMap (c : Chunks) (l : List α) (hi : 0 < c.interval) : ∀ r,
    (List.range r).flatMap (chunkOf c l) = l.take (c.size * c.rank r) := by
  intro r
  induction r with
  | zero => simp [Chunks.rank]
  | succ r ih =>
    have hs : c.rank (r + 1) = c.rank r + if c.has r then 1 else 0 := by
      unfold Chunks.rank
      rw [List.range_succ, List.filter_append, List.length_append]
      congr 1
      cases h : c.has r <;> simp [h]
    rw [List.range_succ, List.flatMap_append, ih, hs]
    simp only [List.flatMap_cons, List.flatMap_nil, List.append_nil]
    unfold chunkOf
    cases h : c.has r
    · simp
    · simp only [if_true]
      have hlo : (c.lo r).toNat = c.size * c.rank r := by
        unfold Chunks.lo; exact_mod_cast Int.toNat_natCast (c.size * c.rank r)
      rw [hlo, Nat.mul_add, Nat.mul_one, List.take_add]
      congr 1
      unfold Chunks.hi Chunks.lo
      have e : (c.size : Int) * ((c.rank r : Nat) + 1) = ((c.size * c.rank r + c.size : Nat) : Int) := by
        push_cast; ring
      have e2 : (c.size : Int) * (c.rank r : Nat) = ((c.size * c.rank r : Nat) : Int) := by push_cast; ring
      rw [e, e2]
      rw [List.take_eq_take_iff, List.length_drop]
      omega

theorem chunkOf_all {count procs target : Nat} {adjust : Int} {c : Chunks} (l : List α) (hP : 0 < procs)
    (hc : chunkify l.length procs target adjust = some c) :
    (List.range procs).flatMap (chunkOf c l) = l := by
  obtain ⟨c', hc', hi, hle, hn, hs, -⟩ := chunkify_spec l.length procs target adjust hP
  obtain rfl : c' = c := by rw [hc] at hc'; exact (Option.some.inj hc').symm
  rw [chunkOf_flatMap c' l hi, rank_eq c' hi, ← hn]
  apply List.take_of_length_le
  rw [hs]
  exact le_binDivide_mul (hn ▸ binDivide_pos hi hP) _

theorem chunkOf_map (c : Chunks) (f : α → β) (l : List α) (r : Nat) :
    chunkOf c (l.map f) r = (chunkOf c l r).map f := by
  unfold chunkOf
  split <;> simp [List.map_drop, List.map_take]

/-- The donors of a grid with their connection ids. -/
def allDonors (F : File d n δ) (g : Fin n) : List (Nat × DonorRec d δ) :=
  (F.donors g).zipIdx.map fun x => (F.start g + x.2, x.1)

/-- The receivers of a grid with their connection ids. -/
def allReceivers (F : File d n δ) (g : Fin n) : List (Nat × Tup d) :=
  (F.receivers g).map fun x => (x.2, x.1)

theorem readDonors_eq (F : File d n δ) (g : Fin n) (c : Chunks) (r : Nat) :
    readDonors F g c r = chunkOf c (allDonors F g) r := by
  unfold readDonors allDonors chunkOf
  cases h : c.has r
  · simp
  · simp only [if_true, List.length_map, List.length_zipIdx]
    apply List.ext_getElem?
    intro j
    simp only [List.getElem?_map, List.getElem?_zipIdx, List.getElem?_take, List.getElem?_drop]
    split
    · simp [Option.map_map, Function.comp_def, Nat.add_assoc]
    · simp

theorem readReceivers_eq (F : File d n δ) (g : Fin n) (c : Chunks) (r : Nat) :
    readReceivers F g c r = chunkOf c (allReceivers F g) r := by
  unfold readReceivers allReceivers
  rw [chunkOf_map]

/-! ### Reading as a division of the records -/

/-- `read g r` are the parts of `all g` in the order of the ranks. -/
def Divides (S : Setup d n P) (all : Fin n → List α) (read : Fin n → Nat → List α) : Prop :=
  ∀ g, (List.range (S.size g)).flatMap (read g) = all g

/-- Connection ids are below `N`, and each belongs to one record. -/
structure Ids (N : Nat) (all : Fin n → List (Nat × α)) : Prop where
  lt : ∀ g, ∀ e ∈ all g, e.1 < N
  nodup : ∀ g, ((all g).map Prod.fst).Nodup
  disjoint : ∀ g g', g ≠ g' → ∀ e ∈ all g, ∀ e' ∈ all g', e.1 ≠ e'.1
  complete : ∀ i < N, ∃ g, ∃ e ∈ all g, e.1 = i

/-- Communicators list every process once, and are not empty. -/
structure Comms (S : Setup d n P) : Prop where
  nodup : ∀ g, (S.comm g).Nodup
  pos : ∀ g, S.comm g ≠ []

theorem Comms.size_pos {S : Setup d n P} (h : Comms S) (g : Fin n) : 0 < S.size g :=
  List.length_pos_iff.mpr (h.pos g)

theorem mem_local {S : Setup d n P} (p : Fin P) (g : Fin n) : g ∈ S.local p ↔ p ∈ S.comm g := by
  simp [Setup.local]

theorem rankIn_lt {S : Setup d n P} {p : Fin P} {g : Fin n} (h : p ∈ S.comm g) : S.rankIn g p < S.size g :=
  List.idxOf_lt_length_of_mem h

theorem rankIn_inj {S : Setup d n P} {p q : Fin P} {g : Fin n} (hp : p ∈ S.comm g)
    (h : S.rankIn g p = S.rankIn g q) : p = q := (List.idxOf_inj hp).mp h

theorem rankIn_get {S : Setup d n P} (hS : Comms S) {g : Fin n} {r : Nat} {p : Fin P}
    (h : (S.comm g)[r]? = some p) : S.rankIn g p = r ∧ p ∈ S.comm g := by
  obtain ⟨hr, rfl⟩ := List.getElem?_eq_some_iff.mp h
  exact ⟨(hS.nodup g).idxOf_getElem r hr, List.getElem_mem hr⟩

section
variable {S : Setup d n P} (hS : Comms S) {N : Nat} {all : Fin n → List (Nat × α)}
  {read : Fin n → Nat → List (Nat × α)} (hd : Divides S all read) (hids : Ids N all)
include hd

theorem read_mem {g : Fin n} {r : Nat} (hr : r < S.size g) {e : Nat × α} (he : e ∈ read g r) : e ∈ all g := by
  rw [← hd g, List.mem_flatMap]
  exact ⟨r, List.mem_range.mpr hr, he⟩

theorem mem_read {g : Fin n} {e : Nat × α} (he : e ∈ all g) : ∃ r < S.size g, e ∈ read g r := by
  rw [← hd g, List.mem_flatMap] at he
  obtain ⟨r, hr, he⟩ := he
  exact ⟨r, List.mem_range.mp hr, he⟩

include hids in
theorem read_nodup {g : Fin n} {r : Nat} (hr : r < S.size g) : ((read g r).map Prod.fst).Nodup := by
  have h := hids.nodup g
  rw [← hd g, List.map_flatMap, List.nodup_flatMap] at h
  exact h.1 r (List.mem_range.mpr hr)

include hids in
theorem read_disjoint {g : Fin n} {r r' : Nat} (hr : r < S.size g) (hr' : r' < S.size g) (hne : r ≠ r')
    {e e' : Nat × α} (he : e ∈ read g r) (he' : e' ∈ read g r') : e.1 ≠ e'.1 := by
  have h := hids.nodup g
  rw [← hd g, List.map_flatMap, List.nodup_flatMap] at h
  have hp := h.2
  rw [List.pairwise_iff_getElem] at hp
  have key : ∀ a b, a < b → b < S.size g → ∀ x ∈ (read g a).map Prod.fst, x ∉ (read g b).map Prod.fst := by
    intro a b hab hb x hx hx'
    have := hp a b (by simp; omega) (by simp; omega) hab
    simp only [List.getElem_range, Function.onFun] at this
    exact this hx hx'
  intro heq
  rcases Nat.lt_or_gt_of_ne hne with hlt | hlt
  · exact key r r' hlt hr' e.1 (List.mem_map.mpr ⟨e, he, rfl⟩) (List.mem_map.mpr ⟨e', he', heq.symm⟩)
  · exact key r' r hlt hr e'.1 (List.mem_map.mpr ⟨e', he', rfl⟩) (List.mem_map.mpr ⟨e, he, heq⟩)

theorem mem_localEntries {p : Fin P} {x : Nat × (Fin n × α)} :
    x ∈ localEntries S read p ↔ p ∈ S.comm x.2.1 ∧ (x.1, x.2.2) ∈ read x.2.1 (S.rankIn x.2.1 p) := by
  unfold localEntries
  rw [List.mem_flatMap]
  constructor
  · rintro ⟨g, hg, hx⟩
    obtain ⟨e, he, rfl⟩ := List.mem_map.mp hx
    exact ⟨(mem_local p g).mp hg, he⟩
  · rintro ⟨hp, he⟩
    exact ⟨x.2.1, (mem_local p _).mpr hp, List.mem_map.mpr ⟨_, he, rfl⟩⟩

theorem localEntries_fst (p : Fin P) : (localEntries S read p).map Prod.fst =
    (S.local p).flatMap fun g => (read g (S.rankIn g p)).map Prod.fst := by
  unfold localEntries
  rw [List.map_flatMap]
  simp [Function.comp_def]

include hids in
theorem localEntries_side : Ovk.Xintout.Spec.Side N (localEntries S read) := by
  refine ⟨?_, ?_, ?_⟩
  · intro p x hx
    obtain ⟨hp, he⟩ := (mem_localEntries hd).mp hx
    exact hids.lt _ _ (read_mem hd (rankIn_lt hp) he)
  · intro p
    rw [localEntries_fst hd, List.nodup_flatMap]
    constructor
    · intro g hg
      exact read_nodup hd hids (rankIn_lt ((mem_local p g).mp hg))
    · have hn : (S.local p).Nodup := (List.nodup_finRange n).filter _
      refine hn.imp_of_mem ?_
      intro g g' hg hg' hne
      simp only [Function.onFun]
      rw [List.disjoint_left]
      intro i hi hi'
      obtain ⟨e, he, rfl⟩ := List.mem_map.mp hi
      obtain ⟨e', he', hh⟩ := List.mem_map.mp hi'
      exact hids.disjoint g g' hne e (read_mem hd (rankIn_lt ((mem_local p g).mp hg)) he) e'
        (read_mem hd (rankIn_lt ((mem_local p g').mp hg')) he') hh.symm
  · intro p p' hne x hx x' hx' heq
    obtain ⟨hp, he⟩ := (mem_localEntries hd).mp hx
    obtain ⟨hp', he'⟩ := (mem_localEntries hd).mp hx'
    by_cases hg : x.2.1 = x'.2.1
    · rw [← hg] at hp' he'
      refine read_disjoint hd hids (rankIn_lt hp) (rankIn_lt hp') ?_ he he' heq
      intro h; exact hne (rankIn_inj hp h)
    · exact hids.disjoint _ _ hg _ (read_mem hd (rankIn_lt hp) he) _ (read_mem hd (rankIn_lt hp') he') heq

include hS in
theorem mem_some_process {g : Fin n} {e : Nat × α} (he : e ∈ all g) :
    ∃ p, (e.1, (g, e.2)) ∈ localEntries S read p := by
  obtain ⟨r, hr, he⟩ := mem_read hd he
  have hget : (S.comm g)[r]? = some (S.comm g)[r] := List.getElem?_eq_getElem hr
  obtain ⟨h1, h2⟩ := rankIn_get hS hget
  exact ⟨_, (mem_localEntries hd).mpr ⟨h2, by simpa [h1] using he⟩⟩
end

/-! ### Matching -/

theorem mapM_some {l : List α} (f : α → β) : (l.map fun x => some (f x)).mapM id = some (l.map f) := by
  induction l with
  | nil => rfl
  | cons x l ih => simp [ih]

theorem matchGrids_spec {S : Setup d n P} (hS : Comms S) (hP : 0 < P) {N : Nat} (hN : N ≤ ∑ g, S.points g)
    {mineAll : Fin n → List (Nat × α)} {otherAll : Fin n → List (Nat × β)}
    {mine : Fin n → Nat → List (Nat × α)} {other : Fin n → Nat → List (Nat × β)}
    (hm : Divides S mineAll mine) (ho : Divides S otherAll other) (im : Ids N mineAll) (io : Ids N otherAll)
    (pf : Nat → Fin n × β) (hpf : ∀ g, ∀ e ∈ otherAll g, pf e.1 = (g, e.2)) :
    matchGrids S N mine other = some fun p => ((localEntries S mine p).map Prod.fst).map pf := by
  obtain ⟨found, hf, h⟩ := C72_lookup (∑ g, S.points g) N hP hN (localEntries S mine) (localEntries S other)
    (localEntries_side hm im) (localEntries_side ho io)
  have hfound : ∀ p, found p = (localEntries S mine p).map fun e => some (pf e.1) := by
    intro p
    obtain ⟨hlen, hget⟩ := h p
    apply List.ext_getElem?
    intro j
    rw [List.getElem?_map]
    cases hj : (localEntries S mine p)[j]? with
    | none =>
      rw [List.getElem?_eq_none_iff] at hj
      simp only [Option.map_none]
      rw [List.getElem?_eq_none_iff]; omega
    | some e =>
      obtain ⟨o, hoj, hob⟩ := hget j e hj
      rw [hoj, Option.map_some, (hob (pf e.1)).mpr]
      have hlt := (localEntries_side hm im).lt p e (List.mem_of_getElem? hj)
      obtain ⟨g, e', he', hee⟩ := io.complete e.1 hlt
      obtain ⟨p', hp'⟩ := mem_some_process hS ho he'
      refine ⟨p', ?_⟩
      rw [← hee, hpf g e' he']; exact hp'
  unfold matchGrids
  rw [hf]
  simp only [bind, Option.bind]
  apply procs_spec
  intro p
  rw [hfound p]
  have := mapM_some (l := localEntries S mine p) fun e => pf e.1
  rw [this, List.map_map]
  rfl

theorem segment_spec (ids : Fin n → List Nat) (pf : Nat → γ) (g : Fin n) : ∀ (gs : List (Fin n)), g ∈ gs →
    segment (fun h => (ids h).length) g gs ((gs.flatMap ids).map pf) = (ids g).map pf := by
  intro gs
  induction gs with
  | nil => intro h; cases h
  | cons h hs ih =>
    intro hg
    unfold segment
    by_cases hh : h = g
    · subst hh
      simp
    · rw [if_neg hh, List.flatMap_cons, List.map_append, List.drop_left' (by simp)]
      apply ih
      rcases List.mem_cons.mp hg with h1 | h1
      · exact absurd h1.symm hh
      · exact h1

theorem withPartner_spec {S : Setup d n P} (hS : Comms S) (mine : Fin n → Nat → List (Nat × α))
    (pf : Nat → Fin n × β) (g : Fin n) (r : Nat) (hr : r < S.size g) :
    withPartner S mine (fun p => ((S.local p).flatMap fun g => (mine g (S.rankIn g p)).map Prod.fst).map pf) g r =
      (mine g r).map fun e => (e.2, pf e.1) := by
  unfold withPartner
  have hget : (S.comm g)[r]? = some (S.comm g)[r] := List.getElem?_eq_getElem hr
  obtain ⟨h1, h2⟩ := rankIn_get hS hget
  rw [hget]
  simp only
  have hseg := segment_spec (fun h => (mine h (S.rankIn h (S.comm g)[r])).map Prod.fst) pf g
    (S.local (S.comm g)[r]) ((mem_local _ _).mpr h2)
  simp only [List.length_map] at hseg
  rw [hseg, h1, List.map_map, List.zip_map', ]
  rfl

end Xintout
end Ovk
