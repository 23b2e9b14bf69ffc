/-
Property C19: the distributed region hash gives every asking process the same complete answer.
-/
import Verif.Lemmas.DistHashInst

namespace Ovk
namespace Spec

/-- Some process holds a region containing the point. -/
def Covered {P R : Type} (has : R → P → Prop) (ranks : List (List R)) (p : P) : Prop :=
  ∃ (src : Nat) (rs : List R), ranks[src]? = some rs ∧ ∃ r ∈ rs, has r p

/-- `ans` lists, for every covered point, every region containing it together with its owner, and
nothing but regions with their owners. -/
structure Complete {P R : Type} (has : R → P → Prop) (ranks : List (List R)) (ans : P → List (Nat × R)) :
    Prop where
  all : ∀ (p : P) (src : Nat) (rs : List R) (r : R), ranks[src]? = some rs → r ∈ rs → has r p →
    (src, r) ∈ ans p
  only : ∀ p, Covered has ranks p → ∀ x ∈ ans p, ∃ rs, ranks[x.1]? = some rs ∧ x.2 ∈ rs

/-- A process may ask for any batch of covered points; it gets `ans`, whatever else is in the batch. -/
def Answers {P B R : Type} (has : R → P → Prop) (ranks : List (List R)) (ans : P → List (Nat × R))
    (locate : P → Option B) (fetch : List B → B → Option (List (Nat × R))) : Prop :=
  ∀ queries : List P, (∀ p ∈ queries, Covered has ranks p) →
    ∃ ids : List B, ids.length = queries.length ∧
      ∀ (k : Nat) (p : P), queries[k]? = some p →
        ∃ id, locate p = some id ∧ ids[k]? = some id ∧ fetch ids id = some (ans p)

end Spec

namespace DHash
variable {d : Nat} {K R : Type} [LinearOrder K] [CommRing K] [IsStrictOrderedRing K]

/-- Every process knows all processes that send to it; this is what `DynamicHandshake` is for. -/
def Discovered (co : CoordOps K) (ro : RegionOps d K R) (order : Nat → List Nat) (nb : Tup d)
    (mult : Nat → Int) (ranks : List (List R)) : Prop :=
  ∀ h, make co ro nb mult order ranks = some h →
    ∀ (src : Nat) (rs : List R) (r : R), ranks[src]? = some rs → r ∈ rs →
      ∀ dst ps, overlappedProcs ro h.geo r = some ps → dst ∈ ps → src ∈ order dst

theorem complete_of_lawful {co : CoordOps K} {ro : RegionOps d K R} {has : R → (Fin d → K) → Prop}
    {Good : R → Prop} {hiOk : K → K → Prop} (L : Lawful co ro has Good hiOk) (nb : Tup d)
    (hnb : ∀ i, 1 ≤ nb i) (mult : Nat → Int) (hmult : ∀ k, 1 ≤ mult k) (order : Nat → List Nat)
    (ranks : List (List R)) (hfit : (binRangeOf nb).count ≤ ranks.length)
    (hgood : ∀ rs ∈ ranks, ∀ r ∈ rs, Good r)
    (hflat : ∀ i, (globalExt co ro ranks).b i < (globalExt co ro ranks).e i)
    (hdisc : Discovered co ro order nb mult ranks) :
    ∃ h ans, make co ro nb mult order ranks = some h ∧ Spec.Complete has ranks ans ∧
      Spec.Answers has ranks ans (mapToBin co h) (retrieve h) := by
  obtain ⟨h, hm, _, _, hq⟩ := build_and_query L nb hnb mult hmult order ranks hfit hgood hflat
  have hq' : ∀ (src : Nat) (rs : List R) (r : R) (p : Fin d → K), ranks[src]? = some rs → r ∈ rs →
      has r p → _ := fun src rs r p h1 h2 h3 => hq src rs r p h1 h2 h3 (hdisc h hm src rs r h1 h2)
  let ans : (Fin d → K) → List (Nat × R) := fun p =>
    ((mapToBin co h p).bind fun id => retrieve h [id] id).getD []
  have key : ∀ (src : Nat) (rs : List R) (r : R) (p : Fin d → K), ranks[src]? = some rs → r ∈ rs →
      has r p → ∃ id, mapToBin co h p = some id ∧
        (id.2 : Int) < (binRangeOf (procBins h.geo id.1)).count ∧
        (src, r) ∈ ans p ∧ (∀ x ∈ ans p, ∃ rs', ranks[x.1]? = some rs' ∧ x.2 ∈ rs') ∧
        ∀ ids : List (Nat × Nat), id ∈ ids →
          (∀ x ∈ ids, (x.2 : Int) < (binRangeOf (procBins h.geo x.1)).count) →
          retrieve h ids id = some (ans p) := by
    intro src rs r p h1 h2 h3
    obtain ⟨id, hid, hlt, hb, full, hf1, hf2, hf3⟩ := hq' src rs r p h1 h2 h3
    have he : ans p = full := by
      simp only [ans, hid, Option.bind_some]
      rw [hf3 [id] (by simp) (by intro x hx _; simp at hx; subst hx; exact hb)]; rfl
    rw [he]
    exact ⟨id, hid, hb, hf1, hf2, fun ids hin hv => hf3 ids hin fun x hx hx1 => by
      have := hv x hx; rw [hx1] at this; exact this⟩
  refine ⟨h, ans, hm, ⟨?_, ?_⟩, ?_⟩
  · intro p src rs r h1 h2 h3
    obtain ⟨id, _, _, h4, _⟩ := key src rs r p h1 h2 h3
    exact h4
  · rintro p ⟨src, rs, h1, r, h2, h3⟩
    obtain ⟨id, _, _, _, h4, _⟩ := key src rs r p h1 h2 h3
    exact h4
  · intro queries hcov
    have hsome : ∀ p ∈ queries, mapToBin co h p = some ((mapToBin co h p).getD (0, 0)) := by
      intro p hp
      obtain ⟨src, rs, h1, r, h2, h3⟩ := hcov p hp
      obtain ⟨id, hid, _⟩ := key src rs r p h1 h2 h3
      rw [hid]; rfl
    refine ⟨queries.map fun p => (mapToBin co h p).getD (0, 0), by simp, ?_⟩
    intro k p hk
    have hp := List.mem_of_getElem? hk
    obtain ⟨src, rs, h1, r, h2, h3⟩ := hcov p hp
    obtain ⟨id, hid, _, _, _, hret⟩ := key src rs r p h1 h2 h3
    have hk' : (queries.map fun p => (mapToBin co h p).getD (0, 0))[k]? = some id := by
      rw [List.getElem?_map, hk, Option.map_some, hid]; rfl
    refine ⟨id, hid, hk', hret _ (List.mem_of_getElem? hk') ?_⟩
    intro x hx
    obtain ⟨p', hp', rfl⟩ := List.mem_map.1 hx
    obtain ⟨src', rs', h1', r', h2', h3'⟩ := hcov p' hp'
    obtain ⟨id', hid', hb', _⟩ := key src' rs' r' p' h1' h2' h3'
    rw [hid', Option.getD_some]; exact hb'

/-- C19 for index ranges (`decomp_hash`): any numbers of processes per dimension that fit, any bin
multipliers, any order in which senders are discovered, any non-empty ranges on any processes (processes
without ranges included). -/
theorem C19_ranges (nb : Tup d) (hnb : ∀ i, 1 ≤ nb i) (mult : Nat → Int) (hmult : ∀ k, 1 ≤ mult k)
    (order : Nat → List Nat) (ranks : List (List (Rng d))) (hfit : (binRangeOf nb).count ≤ ranks.length)
    (hgood : ∀ rs ∈ ranks, ∀ r ∈ rs, ∃ p, Spec.pts r p) (hex : ∃ rs ∈ ranks, rs ≠ [])
    (hdisc : Discovered intOps rangeOps order nb mult ranks) :
    ∃ h ans, make intOps rangeOps nb mult order ranks = some h ∧ Spec.Complete Spec.pts ranks ans ∧
      Spec.Answers Spec.pts ranks ans (mapToBin intOps h) (retrieve h) := by
  have hg : ∀ rs ∈ ranks, ∀ r ∈ rs, ∀ i, r.b i < r.e i := fun rs hrs r hr =>
    (exists_pts_iff r).1 (hgood rs hrs r hr)
  refine complete_of_lawful range_lawful nb hnb mult hmult order ranks hfit hg ?_ hdisc
  obtain ⟨rs, hrs, hne⟩ := hex
  obtain ⟨r, rest, rfl⟩ := List.exists_cons_of_ne_nil hne
  obtain ⟨p, hp⟩ := hgood _ hrs r (by simp)
  intro i
  have := global_has range_lawful ranks _ hrs r (by simp) p hp i
  omega

/-- C19 for oriented boxes (`fragment_hash`), in exact arithmetic: any orientation matrices, any list of
separating axes (so also the mistyped one), any initial values of the projection intervals.  The only
restriction is that the covered set is not flat in a dimension. -/
theorem C19_fragments (tiny big : Rat) (axes : Fragment d → List (Pt d)) (nb : Tup d)
    (hnb : ∀ i, 1 ≤ nb i) (mult : Nat → Int) (hmult : ∀ k, 1 ≤ mult k)
    (order : Nat → List Nat) (ranks : List (List (Fragment d)))
    (hfit : (binRangeOf nb).count ≤ ranks.length)
    (hflat : ∀ i, ∃ p q, Spec.Covered Fragment.has ranks p ∧ Spec.Covered Fragment.has ranks q ∧
      p i < q i)
    (hdisc : Discovered ratOps (fragmentOps tiny big axes) order nb mult ranks) :
    ∃ h ans, make ratOps (fragmentOps tiny big axes) nb mult order ranks = some h ∧
      Spec.Complete Fragment.has ranks ans ∧
      Spec.Answers Fragment.has ranks ans (mapToBin ratOps h) (retrieve h) := by
  refine complete_of_lawful (fragment_lawful tiny big axes) nb hnb mult hmult order ranks hfit
    (fun _ _ _ _ => trivial) ?_ hdisc
  intro i
  obtain ⟨p, q, ⟨s1, rs1, h1, r1, m1, k1⟩, ⟨s2, rs2, h2, r2, m2, k2⟩, hlt⟩ := hflat i
  have a := (global_has (fragment_lawful tiny big axes) ranks rs1 (List.mem_of_getElem? h1) r1 m1 p k1 i).1
  have b := (global_has (fragment_lawful tiny big axes) ranks rs2 (List.mem_of_getElem? h2) r2 m2 q k2 i).2
  exact lt_of_le_of_lt a (lt_of_lt_of_le hlt b)

/-- Asking for a point in a gap, whose bin lies on a process that holds no region, reads outside the
arrays of that process: four processes in a row, the regions are at both ends, rank 1 stores nothing. -/
theorem C19_gap_undefined :
    let ranks : List (List (Rng 1)) := [[⟨![0], ![1]⟩], [⟨![11], ![12]⟩], [], []]
    ∃ h, make intOps rangeOps ![4] (fun _ => 2) (fun dst => if dst = 0 then [0] else if dst = 3 then [1] else [])
        ranks = some h ∧
      ∃ id, mapToBin intOps h ![4] = some id ∧ retrieve h [id] id = none := by
  refine ⟨_, rfl, ?_⟩
  decide +kernel

/-! ### Numbers of processes -/

theorem prod_insertIdx (n : Nat) : ∀ (k : Nat) (l : List Nat), k ≤ l.length →
    (l.insertIdx k n).prod = n * l.prod
  | 0, l, _ => by simp
  | k + 1, [], h => by simp at h
  | k + 1, a :: l, h => by
    have := prod_insertIdx n k l (by simpa using h)
    simp only [List.insertIdx_succ_cons, List.prod_cons, this]
    rw [Nat.mul_left_comm]

theorem minIdx_lt : ∀ (l : List (Rat × Nat)) (acc : Nat × Option Rat) (n : Nat), acc.1 < n →
    (∀ x ∈ l, x.2 < n) → (l.foldl (fun (acc : Nat × Option Rat) x =>
        match acc.2 with
        | none => (x.2, some x.1)
        | some m => if x.1 ≤ m then (x.2, some x.1) else acc) acc).1 < n
  | [], acc, n, h, _ => h
  | x :: l, acc, n, h, hl => by
    rw [List.foldl_cons]
    apply minIdx_lt l _ n _ (fun y hy => hl y (by simp [hy]))
    have := hl x (by simp)
    split
    · exact this
    · split_ifs
      · exact this
      · exact h

/-- The numbers of processes per dimension are positive and their product does not exceed the number of
processes, provided the floating-point share of a dimension never exceeds the total. -/
theorem C19_decomp_fits (share : List Rat → Nat → Nat) (hshare : ∀ l n, 1 ≤ n → share l n ≤ n) :
    ∀ (fuel : Nat) (lengths : List Rat) (maxBins : Nat), lengths ≠ [] → lengths.length ≤ fuel →
      1 ≤ maxBins →
      (binDecomp share fuel lengths maxBins).length = lengths.length ∧
      (∀ n ∈ binDecomp share fuel lengths maxBins, 1 ≤ n) ∧
      (binDecomp share fuel lengths maxBins).prod ≤ maxBins
  | 0, lengths, maxBins, hne, hf, hm => by
    cases lengths with
    | nil => exact absurd rfl hne
    | cons a l => simp at hf
  | fuel + 1, lengths, maxBins, hne, hf, hm => by
    have hlen : 0 < lengths.length := List.length_pos_of_ne_nil hne
    unfold binDecomp
    split_ifs with h1
    · refine ⟨by simp; omega, by simpa using hm, by simp⟩
    · have hk := minIdx_lt lengths.zipIdx (0, none) lengths.length hlen (by
        intro x hx
        obtain ⟨a, i⟩ := x
        have := List.mem_zipIdx hx
        simp only at this ⊢; omega)
      revert hk
      generalize (lengths.zipIdx.foldl (fun (acc : Nat × Option Rat) x =>
        match acc.2 with
        | none => (x.2, some x.1)
        | some m => if x.1 ≤ m then (x.2, some x.1) else acc) (0, none)).1 = k
      intro hk
      dsimp only
      have hn1 : 1 ≤ max (share lengths maxBins) 1 := le_max_right _ _
      have hnm : max (share lengths maxBins) 1 ≤ maxBins := max_le (hshare _ _ hm) hm
      generalize max (share lengths maxBins) 1 = n at hn1 hnm
      have hel : (lengths.eraseIdx k).length = lengths.length - 1 := List.length_eraseIdx_of_lt hk
      obtain ⟨ih1, ih2, ih3⟩ := C19_decomp_fits share hshare fuel (lengths.eraseIdx k) (maxBins / n)
        (List.ne_nil_of_length_pos (by omega)) (by omega) (Nat.div_pos hnm hn1)
      refine ⟨?_, ?_, ?_⟩
      · rw [List.length_insertIdx_of_le_length (by omega)]; omega
      · intro m hmm
        rcases (List.mem_insertIdx (by omega)).1 hmm with rfl | h
        · exact hn1
        · exact ih2 m h
      · rw [prod_insertIdx _ _ _ (by omega)]
        calc n * _ ≤ n * (maxBins / n) := Nat.mul_le_mul_left _ ih3
          _ ≤ maxBins := Nat.mul_div_le _ _

/-! ### Examples -/

/-- Two processes, three ranges. -/
def exRanks : List (List (Rng 2)) := [[⟨![0, 0], ![3, 4]⟩, ⟨![5, 0], ![6, 2]⟩], [⟨![3, 0], ![6, 4]⟩]]

example : (∀ rs ∈ exRanks, ∀ r ∈ rs, ∃ p, Spec.pts r p) ∧ (∃ rs ∈ exRanks, rs ≠ []) ∧
    (binRangeOf ![2, 1]).count ≤ exRanks.length := by
  refine ⟨?_, by decide, by decide⟩
  intro rs hrs r hr
  rw [exists_pts_iff]
  simp only [exRanks, List.mem_cons, List.not_mem_nil, or_false] at hrs
  rcases hrs with rfl | rfl
  · simp only [List.mem_cons, List.not_mem_nil, or_false] at hr
    rcases hr with rfl | rfl <;> decide
  · simp only [List.mem_cons, List.not_mem_nil, or_false] at hr
    subst hr; decide

example : ((make intOps rangeOps ![2, 1] (fun _ => 2) (fun _ => [1, 0]) exRanks).bind fun h =>
    (mapToBin intOps h ![5, 1]).bind fun id => (retrieve h [id] id).map fun l =>
      l.map fun x => (x.1, x.2.b 0, x.2.e 0)) = some [(1, 3, 6), (0, 5, 6)] := by decide +kernel

/-- A rotated square, found from the other process. -/
example : ((make ratOps (fragmentOps 1 1000 fun f => [fun i => f.orient i 0, fun i => f.orient i 1])
    ![2, 1] (fun _ => 2) (fun _ => [0, 1])
    [[⟨![![3/5, -4/5], ![4/5, 3/5]], ⟨![0, 0], ![5, 5]⟩⟩], [⟨![![1, 0], ![0, 1]], ⟨![4, 0], ![6, 2]⟩⟩]]).bind
      fun h => (mapToBin ratOps h ![-1, 4]).bind fun id => (retrieve h [id] id).map fun l =>
        l.map Prod.fst) = some [0] := by decide +kernel

example : binDecomp (fun l _ => if l.length = 3 then 2 else 3) 3 [8, 3, 5] 13 = [2, 2, 3] ∧
    binDecomp (fun _ n => n) 3 [8, 3, 5] 13 = [1, 13, 1] := by decide +kernel

/-- Processes that look at all processes in some order know all senders. -/
example : Discovered intOps rangeOps (fun _ => [1, 0]) ![2, 1] (fun _ => 2) exRanks := by
  intro h _ src rs r hs _ _ _ _ _
  have : src < 2 := (List.getElem?_eq_some_iff.1 hs).1
  simp only [List.mem_cons, List.not_mem_nil, or_false]; omega

end DHash
end Ovk
