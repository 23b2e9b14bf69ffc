/-
Property C73: importing XINTOUT files.
-/
import Verif.Lemmas.Xintout

namespace Ovk
namespace Xintout
variable {d n P : Nat} {δ α β γ : Type}

namespace Spec

/-- The processes of a grid divide its points among them. -/
structure Grid (S : Setup d n P) (g : Fin n) : Prop where
  comm : (S.comm g).Nodup
  nonempty : S.comm g ≠ []
  proper : Ovk.Spec.Proper (S.cart g)
  some_point : ∀ q < S.size g, ∃ p, Ovk.Spec.pts (S.range g q) p
  disjoint : ∀ q < S.size g, ∀ q' < S.size g, ∀ p, Ovk.Spec.pts (S.range g q) p → Ovk.Spec.pts (S.range g q') p → q = q'
  cover : ∀ p, Ovk.Spec.pts (S.cart g).range p ↔ ∃ q < S.size g, Ovk.Spec.pts (S.range g q) p
  /-- numbers of processes and bins of the distributed hash, see C19 -/
  nb : ∀ i, 1 ≤ S.nb g i
  fit : (binRangeOf (S.nb g)).count ≤ S.size g
  mult : ∀ k, 1 ≤ S.mult g k
  discovered : DHash.Discovered DHash.intOps DHash.rangeOps (S.order g) (S.nb g) (S.mult g)
    ((List.range (S.size g)).map fun r => [S.range g r])

/-- Ids of donors are `0, ..., N-1`, each used once, and likewise those of receivers; donor cells have points,
and leave the grid only where it is periodic; receivers are points of the grid. -/
structure Records (S : Setup d n P) (F : File d n δ) (N : Nat) : Prop where
  count : (∑ g, (F.receivers g).length) = N
  donor_id : ∀ i < N, ∃! x : Fin n × Nat, x.2 < (F.donors x.1).length ∧ F.start x.1 + x.2 = i
  donor_lt : ∀ g, F.donors g ≠ [] → F.start g + (F.donors g).length ≤ N
  receiver_id : ∀ i < N, ∃! x : Fin n × Nat, ∃ y, (F.receivers x.1)[x.2]? = some y ∧ y.2 = i
  receiver_lt : ∀ g, ∀ y ∈ F.receivers g, y.2 < N
  donor_points : ∀ g, ∀ x ∈ F.donors g, ∃ p, Ovk.Spec.pts x.ext p
  donor_inside : ∀ g, ∀ x ∈ F.donors g, ∀ p, Ovk.Spec.pts x.ext p → ∀ i, (S.cart g).periodic i = false →
    (S.cart g).range.b i ≤ p i ∧ p i < (S.cart g).range.e i
  receiver_inside : ∀ g, ∀ y ∈ F.receivers g, Ovk.Spec.pts (S.cart g).range y.1

/-- `u` is where a donor cell `r` has its point `p`: the point itself, if all of the cell is in the grid, and
otherwise the image in the first period. -/
def PlaceOf (c : Cart d) (r : Rng d) (p u : Tup d) : Prop :=
  ((∀ x, Ovk.Spec.pts r x → Ovk.Spec.pts c.range x) → u = p) ∧
  (¬ (∀ x, Ovk.Spec.pts r x → Ovk.Spec.pts c.range x) → Ovk.Spec.SamePoint c p u ∧
    ∀ i, c.periodic i = true → c.range.b i ≤ u i ∧ u i < c.range.b i + Ovk.Spec.periodLen c i)

/-- A donor cell has a point on a process. -/
def Touches (c : Cart d) (r own : Rng d) : Prop := ∃ p u, Ovk.Spec.pts r p ∧ PlaceOf c r p u ∧ Ovk.Spec.pts own u

open Classical in
/-- Donors of grid `m` for grid `k` on a process with the points `own`: those with a point there whose
receiver is a point of `k`, in the order of the file, with the receivers. -/
noncomputable def donorsOn (S : Setup d n P) (F : File d n δ) (m k : Fin n) (own : Rng d) :
    List (DonorRec d δ × Tup d) :=
  (F.donors m).zipIdx.filterMap fun x =>
    if Touches (S.cart m) x.1.ext own then
      ((F.receivers k).find? fun y => y.2 == F.start m + x.2).map fun y => (x.1, y.1)
    else none

open Classical in
/-- Receivers of grid `k` from grid `m` on a process with the points `own`, with the lower corners of their
donor cells. -/
noncomputable def receiversOn (F : File d n δ) (m k : Fin n) (own : Rng d) : List (Tup d × Tup d) :=
  (F.receivers k).filterMap fun y =>
    if Ovk.Spec.pts own y.1 then
      ((F.donors m).zipIdx.find? fun x => F.start m + x.2 == y.2).map fun x => (y.1, x.1.ext.b)
    else none

end Spec

/-! ### Sets -/

theorem idLess_sto : IsSTO idLess where
  irrefl a := by simp [idLess]
  trans a b c := by simp only [idLess, decide_eq_true_eq]; omega
  tri a b := by
    simp only [idLess, decide_eq_false_iff_not]
    intro h1 h2
    apply Prod.ext <;> omega

theorem natLess_sto : IsSTO fun a b : Nat => decide (a < b) where
  irrefl a := by simp
  trans a b c := by simp only [decide_eq_true_eq]; omega
  tri a b := by simp only [decide_eq_false_iff_not]; omega

theorem foldl_insert {lt : α → α → Bool} (h : IsSTO lt) : ∀ (l s : List α), Sorted lt s →
    Sorted lt (l.foldl (OSet.insert lt) s) ∧ ∀ x, x ∈ l.foldl (OSet.insert lt) s ↔ x ∈ l ∨ x ∈ s
  | [], s, hs => ⟨hs, by simp⟩
  | v :: l, s, hs => by
    obtain ⟨h1, h2⟩ := oset_insert_spec h hs v
    obtain ⟨h3, h4⟩ := foldl_insert h l _ h1
    refine ⟨h3, fun x => ?_⟩
    rw [List.foldl_cons, h4, h2, List.mem_cons]
    tauto

theorem mem_uniqueRanks (l : List Nat) (q : Nat) : q ∈ uniqueRanks l ↔ q ∈ l := by
  have := (foldl_insert natLess_sto l [] List.Pairwise.nil).2 q
  simpa [uniqueRanks] using this

theorem mapM_of_some {l : List α} {f : α → Option β} {g : α → β} (h : ∀ x ∈ l, f x = some (g x)) :
    l.mapM f = some (l.map g) := by
  induction l with
  | nil => rfl
  | cons x l ih =>
    rw [List.mapM_cons, h x (by simp), ih fun y hy => h y (by simp [hy])]
    rfl

/-! ### Owners of points -/

theorem hash_spec (S : Setup d n P) (g : Fin n) (hg : Spec.Grid S g) :
    ∃ h, S.hash g = some h ∧ ∃ (loc : Tup d → Nat × Nat) (own : Tup d → Nat),
      ∀ p, Ovk.Spec.pts (S.cart g).range p → own p < S.size g ∧ Ovk.Spec.pts (S.range g (own p)) p ∧
        DHash.mapToBin DHash.intOps h p = some (loc p) ∧
        ∀ bins : List (Nat × Nat), loc p ∈ bins →
          (∀ x ∈ bins, ∃ p', Ovk.Spec.pts (S.cart g).range p' ∧ loc p' = x) →
          owner h bins p = some (own p) := by
  classical
  let ranks := (List.range (S.size g)).map fun r => [S.range g r]
  have hrk : ∀ (src : Nat) rs, ranks[src]? = some rs → src < S.size g ∧ rs = [S.range g src] := by
    intro src rs h
    simp only [ranks, List.getElem?_map, Option.map_eq_some_iff] at h
    obtain ⟨r, hr, rfl⟩ := h
    obtain ⟨h1, h2⟩ := List.getElem?_eq_some_iff.mp hr
    simp at h1 h2
    subst h2
    exact ⟨h1, rfl⟩
  have hrk' : ∀ src < S.size g, ranks[src]? = some [S.range g src] := by
    intro src h
    simp [ranks, h]
  have hgood : ∀ rs ∈ ranks, ∀ r ∈ rs, ∀ i, r.b i < r.e i := by
    intro rs hrs r hr
    obtain ⟨q, hq, rfl⟩ := List.mem_map.mp hrs
    obtain rfl : r = S.range g q := by simpa using hr
    exact (exists_pts_iff _).1 (hg.some_point q (by simpa using hq))
  have hpos : 0 < S.size g := List.length_pos_iff.mpr hg.nonempty
  have hflat : ∀ i, (DHash.globalExt DHash.intOps DHash.rangeOps ranks).b i <
      (DHash.globalExt DHash.intOps DHash.rangeOps ranks).e i := by
    intro i
    obtain ⟨p, hp⟩ := hg.some_point 0 hpos
    have := DHash.global_has DHash.range_lawful ranks _ (List.mem_of_getElem? (hrk' 0 hpos)) _
      (by simp) p hp i
    omega
  obtain ⟨h, hm, -, -, hq⟩ := DHash.build_and_query DHash.range_lawful (S.nb g) hg.nb (S.mult g) hg.mult (S.order g)
    ranks (by simpa [ranks] using hg.fit) hgood hflat
  refine ⟨h, hm, fun p => (DHash.mapToBin DHash.intOps h p).getD (0, 0), fun p =>
    if hp : ∃ q < S.size g, Ovk.Spec.pts (S.range g q) p then hp.choose else 0, ?_⟩
  have key : ∀ p, Ovk.Spec.pts (S.cart g).range p → ∃ q < S.size g, Ovk.Spec.pts (S.range g q) p ∧
      ∃ id, DHash.mapToBin DHash.intOps h p = some id ∧
        (id.2 : Int) < (binRangeOf (DHash.procBins h.geo id.1)).count ∧
        ∃ full, (q, S.range g q) ∈ full ∧ (∀ x ∈ full, ∃ rs', ranks[x.1]? = some rs' ∧ x.2 ∈ rs') ∧
          ∀ ids : List (Nat × Nat), id ∈ ids →
            (∀ x ∈ ids, x.1 = id.1 → (x.2 : Int) < (binRangeOf (DHash.procBins h.geo id.1)).count) →
              DHash.retrieve h ids id = some full := by
    intro p hp
    obtain ⟨q, hq1, hq2⟩ := (hg.cover p).1 hp
    obtain ⟨id, h1, -, h2, h3⟩ := hq q _ _ p (hrk' q hq1) (by simp) hq2
      (hg.discovered h hm q _ _ (hrk' q hq1) (by simp))
    exact ⟨q, hq1, hq2, id, h1, h2, h3⟩
  intro p hp
  have hex := (hg.cover p).1 hp
  simp only [dif_pos hex]
  obtain ⟨hlt, hin⟩ := hex.choose_spec
  generalize hex.choose = q0 at *
  obtain ⟨q, hq1, hq2, id, hid, hb, full, hf1, hf2, hf3⟩ := key p hp
  obtain rfl : q0 = q := hg.disjoint _ hlt _ hq1 p hin hq2
  refine ⟨hlt, hin, by rw [hid]; rfl, ?_⟩
  intro bins hbin hall
  rw [hid, Option.getD_some] at hbin
  unfold owner
  rw [hid]
  simp only [bind, Option.bind]
  rw [hf3 bins hbin ?_]
  · simp only
    have hsome : (full.find? fun x => x.2.contains p).isSome := by
      rw [List.find?_isSome]
      exact ⟨_, hf1, (contains_iff_pts _ _).2 hq2⟩
    obtain ⟨x, hx⟩ := Option.isSome_iff_exists.mp hsome
    rw [hx]
    have hxm := List.mem_of_find?_eq_some hx
    have hxc := (contains_iff_pts x.2 p).1 (by simpa using List.find?_some hx)
    obtain ⟨rs, h1, h2⟩ := hf2 x hxm
    obtain ⟨h3, rfl⟩ := hrk _ _ h1
    rw [List.mem_singleton] at h2
    rw [h2] at hxc
    simp only [Option.some.injEq]
    exact hg.disjoint _ h3 _ hlt p hxc hin
  · intro x hx hx1
    obtain ⟨p', hp', hl⟩ := hall x hx
    obtain ⟨-, -, -, id', hid', hb', -⟩ := key p' hp'
    rw [hid', Option.getD_some] at hl
    subst hl
    rw [← hx1]; exact hb'

theorem uniqueBins_spec {h : DHash.Hash d Int (Rng d)} {loc : Tup d → Nat × Nat} {pts : List (Tup d)}
    (hl : ∀ p ∈ pts, DHash.mapToBin DHash.intOps h p = some (loc p)) :
    ∃ bins, uniqueBins h pts = some bins ∧ ∀ x, x ∈ bins ↔ ∃ p ∈ pts, loc p = x := by
  refine ⟨_, by unfold uniqueBins; rw [mapM_of_some hl]; rfl, ?_⟩
  intro x
  rw [(foldl_insert idLess_sto _ [] List.Pairwise.nil).2 x]
  simp

/-! ### Distribution -/

theorem gather_map (size : Nat) (l : Nat → List α) (ranks : α → List Nat) (q : Nat) :
    gather size (fun s => (l s).map fun x => (x, ranks x)) q =
      ((List.range size).flatMap l).filter fun x => (ranks x).contains q := by
  unfold gather
  rw [List.filter_flatMap]
  congr 1
  funext s
  rw [List.filter_map, List.map_map]
  simp [Function.comp_def]

theorem gather_congr {size : Nat} {f f' : Nat → List (α × List Nat)} (h : ∀ s < size, f s = f' s) (q : Nat) :
    gather size f q = gather size f' q := by
  unfold gather
  apply List.flatMap_congr
  intro s hs
  rw [h s (List.mem_range.mp hs)]

theorem ranksAll_spec {size : Nat} {f : Nat → Option γ} {dflt : γ} {g : Nat → γ} (h : ∀ r < size, f r = some (g r)) :
    ∃ F, ranksAll size f dflt = some F ∧ ∀ r < size, F r = g r := by
  refine ⟨_, if_pos ?_, ?_⟩
  · rw [List.all_eq_true]; intro r hr; rw [h r (List.mem_range.mp hr)]; rfl
  · intro r hr; simp only [h r hr, Option.getD_some]

theorem gridsAll_spec {γ : Fin n → Type} {f : (g : Fin n) → Option (γ g)} {v : (g : Fin n) → γ g}
    (h : ∀ g, f g = some (v g)) : gridsAll f = some v := by
  unfold gridsAll
  rw [dif_pos fun g => by rw [h g]; rfl]
  congr 1
  funext g
  simp [h g]

theorem distribute_spec (S : Setup d n P) (g : Fin n) (hg : Spec.Grid S g)
    (donors : Nat → List (DonorRec d δ × (Fin n × Tup d))) (receivers : Nat → List (Tup d × (Fin n × Tup d)))
    (hd : ∀ s < S.size g, ∀ x ∈ donors s, ∀ p ∈ donorPoints (S.cart g) x.1.ext, Ovk.Spec.pts (S.cart g).range p)
    (hr : ∀ s < S.size g, ∀ y ∈ receivers s, Ovk.Spec.pts (S.cart g).range y.1) :
    ∃ (own : Tup d → Nat) (ds : Nat → List (DonorRec d δ × (Fin n × Tup d))) (rs : Nat → List (Tup d × (Fin n × Tup d))),
      (∀ p, Ovk.Spec.pts (S.cart g).range p → own p < S.size g ∧ Ovk.Spec.pts (S.range g (own p)) p) ∧
      distribute S g donors receivers = some (ds, rs) ∧
      (∀ q, ds q = ((List.range (S.size g)).flatMap donors).filter fun x =>
        ((donorPoints (S.cart g) x.1.ext).map own).contains q) ∧
      ∀ q, rs q = ((List.range (S.size g)).flatMap receivers).filter fun y => decide (own y.1 = q) := by
  obtain ⟨h, hh, loc, own, hown⟩ := hash_spec S g hg
  have hadd : ∀ s < S.size g, addressed S g h (donors s) (receivers s) =
      some ((donors s).map fun x => (x, uniqueRanks ((donorPoints (S.cart g) x.1.ext).map own)),
        (receivers s).map fun y => (y, [own y.1])) := by
    intro s hs
    have hin : ∀ p ∈ (donors s).flatMap (fun x => donorPoints (S.cart g) x.1.ext) ++ (receivers s).map Prod.fst,
        Ovk.Spec.pts (S.cart g).range p := by
      intro p hp
      rcases List.mem_append.mp hp with hp | hp
      · obtain ⟨x, hx, hp⟩ := List.mem_flatMap.mp hp
        exact hd s hs x hx p hp
      · obtain ⟨y, hy, rfl⟩ := List.mem_map.mp hp
        exact hr s hs y hy
    obtain ⟨bins, hb, hmem⟩ := uniqueBins_spec (h := h) (loc := loc) fun p hp => (hown p (hin p hp)).2.2.1
    have how : ∀ p ∈ (donors s).flatMap (fun x => donorPoints (S.cart g) x.1.ext) ++ (receivers s).map Prod.fst,
        owner h bins p = some (own p) := by
      intro p hp
      refine (hown p (hin p hp)).2.2.2 bins ((hmem _).2 ⟨p, hp, rfl⟩) ?_
      intro x hx
      obtain ⟨p', hp', rfl⟩ := (hmem x).1 hx
      exact ⟨p', hin p' hp', rfl⟩
    unfold addressed
    rw [hb]
    simp only [bind, Option.bind]
    rw [mapM_of_some (g := fun x => (x, uniqueRanks ((donorPoints (S.cart g) x.1.ext).map own))), mapM_of_some
      (g := fun y => (y, [own y.1]))]
    · intro y hy
      rw [how y.1 (List.mem_append.mpr (Or.inr (List.mem_map.mpr ⟨y, hy, rfl⟩)))]
    · intro x hx
      rw [mapM_of_some (g := own)]
      intro p hp
      exact how p (List.mem_append.mpr (Or.inl (List.mem_flatMap.mpr ⟨x, hx, hp⟩)))
  obtain ⟨sent, hsent, hs⟩ := ranksAll_spec (dflt := ([], [])) hadd
  refine ⟨own, gather (S.size g) fun s => (sent s).1, gather (S.size g) fun s => (sent s).2, fun p hp => ⟨(hown p hp).1, (hown p hp).2.1⟩, ?_, ?_, ?_⟩
  · unfold distribute
    rw [hh]
    simp only [bind, Option.bind]
    rw [hsent]
  · intro q
    rw [gather_congr (f' := fun s => (donors s).map fun x =>
      (x, uniqueRanks ((donorPoints (S.cart g) x.1.ext).map own))) (fun s h => by rw [hs s h]), gather_map]
    apply List.filter_congr
    intro x _
    rw [List.contains_eq_mem, List.contains_eq_mem, decide_eq_decide, mem_uniqueRanks]
  · intro q
    rw [gather_congr (f' := fun s => (receivers s).map fun y => (y, [own y.1])) (fun s h => by rw [hs s h]), gather_map]
    apply List.filter_congr
    intro y _
    rw [List.contains_eq_mem, decide_eq_decide]
    simp [eq_comm]

/-! ### Records -/

theorem Records.donors {S : Setup d n P} {F : File d n δ} {N : Nat} (h : Spec.Records S F N) :
    Ids N (allDonors F) := by
  have hmem : ∀ g, ∀ e ∈ allDonors F g, ∃ j < (F.donors g).length, F.start g + j = e.1 := by
    intro g e he
    obtain ⟨x, hx, rfl⟩ := List.mem_map.mp he
    have := List.mem_zipIdx_iff_getElem?.mp hx
    exact ⟨x.2, (List.getElem?_eq_some_iff.mp this).1, rfl⟩
  have hlt : ∀ g, ∀ e ∈ allDonors F g, e.1 < N := by
    intro g e he
    obtain ⟨j, hj, hje⟩ := hmem g e he
    have := h.donor_lt g (by intro h0; rw [h0] at hj; cases hj)
    omega
  refine ⟨hlt, ?_, ?_, ?_⟩
  · intro g
    have : (allDonors F g).map Prod.fst = (List.range (F.donors g).length).map fun j => F.start g + j := by
      apply List.ext_getElem?
      intro j
      simp only [allDonors, List.getElem?_map, List.getElem?_zipIdx, Option.map_map]
      by_cases hj : j < (F.donors g).length
      · simp [hj]
      · simp [hj]
    rw [this]
    exact (List.nodup_range).map fun a b hab => by simpa using hab
  · intro g g' hne e he e' he' heq
    obtain ⟨j, hj, hje⟩ := hmem g e he
    obtain ⟨j', hj', hje'⟩ := hmem g' e' he'
    obtain ⟨x, -, hu⟩ := h.donor_id e.1 (hlt g e he)
    have h1 := hu (g, j) ⟨hj, hje⟩
    have h2 := hu (g', j') ⟨hj', by dsimp only; omega⟩
    exact hne (congrArg Prod.fst (h1.trans h2.symm))
  · intro i hi
    obtain ⟨x, ⟨hx1, hx2⟩, -⟩ := h.donor_id i hi
    refine ⟨x.1, (F.start x.1 + x.2, (F.donors x.1)[x.2]), List.mem_map.mpr ⟨((F.donors x.1)[x.2], x.2), ?_, rfl⟩, hx2⟩
    exact List.mem_zipIdx_iff_getElem?.mpr (List.getElem?_eq_getElem hx1)

theorem Records.receivers {S : Setup d n P} {F : File d n δ} {N : Nat} (h : Spec.Records S F N) :
    Ids N (allReceivers F) := by
  have hmem : ∀ g, ∀ e ∈ allReceivers F g, ∃ j : Nat, (F.receivers g)[j]? = some (e.2, e.1) := by
    intro g e he
    obtain ⟨x, hx, rfl⟩ := List.mem_map.mp he
    exact List.mem_iff_getElem?.mp hx
  have hlt : ∀ g, ∀ e ∈ allReceivers F g, e.1 < N := by
    intro g e he
    obtain ⟨j, hj⟩ := hmem g e he
    exact h.receiver_lt g _ (List.mem_of_getElem? hj)
  refine ⟨hlt, ?_, ?_, ?_⟩
  · intro g
    rw [List.nodup_iff_getElem?_ne_getElem?]
    intro i j hij hj heq
    simp only [allReceivers, List.map_map, List.length_map] at hj
    simp only [allReceivers, List.map_map, List.getElem?_map] at heq
    have hi : i < (F.receivers g).length := by omega
    rw [List.getElem?_eq_getElem hi, List.getElem?_eq_getElem hj] at heq
    simp only [Option.map_some, Function.comp_apply, Option.some.injEq] at heq
    obtain ⟨x, -, hu⟩ := h.receiver_id ((F.receivers g)[i]).2 (h.receiver_lt g _ (List.getElem_mem hi))
    have h1 := hu (g, i) ⟨_, List.getElem?_eq_getElem hi, rfl⟩
    have h2 := hu (g, j) ⟨_, List.getElem?_eq_getElem hj, heq.symm⟩
    have := congrArg Prod.snd (h1.trans h2.symm)
    simp at this
    omega
  · intro g g' hne e he e' he' heq
    obtain ⟨j, hj⟩ := hmem g e he
    obtain ⟨j', hj'⟩ := hmem g' e' he'
    obtain ⟨x, -, hu⟩ := h.receiver_id e.1 (hlt g e he)
    have h1 := hu (g, j) ⟨_, hj, rfl⟩
    have h2 := hu (g', j') ⟨_, hj', heq.symm⟩
    exact hne (congrArg Prod.fst (h1.trans h2.symm))
  · intro i hi
    obtain ⟨x, ⟨y, hx1, hx2⟩, -⟩ := h.receiver_id i hi
    exact ⟨x.1, (y.2, y.1), List.mem_map.mpr ⟨y, List.mem_of_getElem? hx1, rfl⟩, hx2⟩

theorem Ids.map {N : Nat} {all : Fin n → List (Nat × α)} (h : Ids N all) (f : α → β) :
    Ids N fun g => (all g).map fun e => (e.1, f e.2) where
  lt g e he := by
    obtain ⟨x, hx, rfl⟩ := List.mem_map.mp he
    exact h.lt g x hx
  nodup g := by
    have : ((all g).map fun e => (e.1, f e.2)).map Prod.fst = (all g).map Prod.fst := by
      rw [List.map_map]; rfl
    rw [this]; exact h.nodup g
  disjoint g g' hne e he e' he' := by
    obtain ⟨x, hx, rfl⟩ := List.mem_map.mp he
    obtain ⟨x', hx', rfl⟩ := List.mem_map.mp he'
    exact h.disjoint g g' hne x hx x' hx'
  complete i hi := by
    obtain ⟨g, e, he, hei⟩ := h.complete i hi
    exact ⟨g, _, List.mem_map.mpr ⟨e, he, rfl⟩, hei⟩

theorem Ids.partner {N : Nat} {all : Fin n → List (Nat × β)} (h : Ids N all) (g0 : Fin n) (b0 : β) :
    ∃ pf : Nat → Fin n × β, ∀ g, ∀ e ∈ all g, pf e.1 = (g, e.2) := by
  classical
  refine ⟨fun i => if hx : ∃ x : Fin n × β, (i, x.2) ∈ all x.1 then hx.choose else (g0, b0), ?_⟩
  intro g e he
  have hx : ∃ x : Fin n × β, (e.1, x.2) ∈ all x.1 := ⟨(g, e.2), he⟩
  dsimp only
  rw [dif_pos hx]
  have hc := hx.choose_spec
  generalize hx.choose = x at *
  have hg : x.1 = g := by
    by_contra hne
    exact h.disjoint _ _ hne _ hc _ he rfl
  rw [hg] at hc
  have := List.inj_on_of_nodup_map (h.nodup g) hc he rfl
  have h2 : x.2 = e.2 := congrArg Prod.snd this
  exact Prod.ext hg h2

/-! ### Points of donor cells -/

theorem place_iff (c : Cart d) (hc : Ovk.Spec.Proper c) (r : Rng d) (u : Tup d) :
    u ∈ donorPoints c r ↔ ∃ p, Ovk.Spec.pts r p ∧ Spec.PlaceOf c r p u := by
  have hpts : ∀ x, x ∈ r.points ↔ Ovk.Spec.pts r x := fun x => Rng.mem_points r x
  unfold donorPoints
  by_cases hi : c.range.includes r = true
  · have hin := (C02_includes _ _).1 hi
    rw [if_pos hi, hpts]
    constructor
    · intro h; exact ⟨u, h, fun _ => rfl, fun h' => absurd hin h'⟩
    · rintro ⟨p, hp, h1, -⟩; rw [h1 hin]; exact hp
  · have hin : ¬ ∀ x, Ovk.Spec.pts r x → Ovk.Spec.pts c.range x := fun h => hi ((C02_includes _ _).2 h)
    rw [if_neg hi, List.mem_map]
    constructor
    · rintro ⟨p, hp, rfl⟩
      exact ⟨p, (hpts p).1 hp, fun h => absurd h hin, fun _ => ⟨C03_same_point c hc p, fun i hp =>
        C03_first_period c hc p i hp⟩⟩
    · rintro ⟨p, hp, -, h2⟩
      obtain ⟨h3, h4⟩ := h2 hin
      refine ⟨p, (hpts p).2 hp, ?_⟩
      funext i
      have hs := C03_same_point c hc p i
      have hs' := h3 i
      by_cases hper : c.periodic i = true
      · rw [if_pos hper] at hs hs'
        obtain ⟨k, hk⟩ := hs
        obtain ⟨k', hk'⟩ := hs'
        have f1 := C03_first_period c hc p i hper
        have f2 := h4 i hper
        have e : u i = c.periodicAdjust p i + (k' - k) * Ovk.Spec.periodLen c i := by rw [hk, hk']; ring
        have := image_unique f1.1 f1.2 (e ▸ f2.1) (e ▸ f2.2)
        rw [this] at e
        omega
      · rw [if_neg hper] at hs hs'
        rw [hs, hs']

theorem donorPoints_inside (c : Cart d) (hc : Ovk.Spec.Proper c) (r : Rng d)
    (hr : ∀ p, Ovk.Spec.pts r p → ∀ i, c.periodic i = false → c.range.b i ≤ p i ∧ p i < c.range.e i) :
    ∀ u ∈ donorPoints c r, Ovk.Spec.pts c.range u := by
  intro u hu
  obtain ⟨p, hp, h1, h2⟩ := (place_iff c hc r u).1 hu
  by_cases hin : ∀ x, Ovk.Spec.pts r x → Ovk.Spec.pts c.range x
  · rw [h1 hin]; exact hin p hp
  · obtain ⟨h3, h4⟩ := h2 hin
    intro i
    have hs := h3 i
    cases hper : c.periodic i
    · rw [hper] at hs
      simp only [Bool.false_eq_true, if_false] at hs
      rw [hs]; exact hr p hp i hper
    · have := h4 i hper
      unfold Ovk.Spec.periodLen at this
      split_ifs at this <;> omega

/-! ### Connectivities -/

theorem splitByGrid_spec (others : Fin n → Bool) (l : List (α × (Fin n × β)))
    (h : ∀ x ∈ l, others x.2.1 = true) :
    splitByGrid others l = some fun g => (l.filter fun x => x.2.1 == g).map fun x => (x.1, x.2.2) := by
  unfold splitByGrid
  split_ifs with h1 h2
  · have : l = [] := by
      rw [List.eq_nil_iff_forall_not_mem]
      intro x hx
      have h3 := h x hx
      rw [List.all_eq_true] at h1
      have := h1 x.2.1 (List.mem_finRange _)
      rw [h3] at this; cases this
    subst this
    rfl
  · rfl
  · exact absurd (List.all_eq_true.mpr h) h2

theorem chain (l : List α) (f : α → γ) (t u : γ → Bool) (v : γ → β) :
    (((l.map f).filter t).filter u).map v =
      l.filterMap fun x => if t (f x) = true then (if u (f x) = true then some (v (f x)) else none) else none := by
  induction l with
  | nil => rfl
  | cons x l ih =>
    rw [List.map_cons, List.filter_cons, List.filterMap_cons]
    cases h1 : t (f x)
    · simpa using ih
    · rw [if_pos rfl, List.filter_cons]
      cases h2 : u (f x)
      · simpa using ih
      · simpa using ih

theorem importXintout_eq (S : Setup d n P) (F : File d n δ) (N : Nat) (hG : ∀ g, Spec.Grid S g)
    (hF : Spec.Records S F N) (hN : N ≤ ∑ g, S.points g) (hn : 0 < n)
    (hcd : ∀ g, (S.chunks g (F.donors g).length).isSome) (hcr : ∀ g, (S.chunks g (F.receivers g).length).isSome)
    (pfR pfC : Nat → Fin n × Tup d) (hpR : ∀ g, ∀ e ∈ allReceivers F g, pfR e.1 = (g, e.2))
    (hpC : ∀ g, ∀ e ∈ allDonors F g, pfC e.1 = (g, e.2.ext.b)) :
    ∃ (own : Fin n → Tup d → Nat) (ds : Fin n → Nat → List (DonorRec d δ × (Fin n × Tup d)))
      (rs : Fin n → Nat → List (Tup d × (Fin n × Tup d))),
      (∀ g p, Ovk.Spec.pts (S.cart g).range p → own g p < S.size g ∧ Ovk.Spec.pts (S.range g (own g p)) p) ∧
      importXintout S F = importData S ds rs ∧
      (∀ g q, ds g q = ((allDonors F g).map fun e => (e.2, pfR e.1)).filter fun x =>
        ((donorPoints (S.cart g) x.1.ext).map (own g)).contains q) ∧
      ∀ g q, rs g q = ((allReceivers F g).map fun e => (e.2, pfC e.1)).filter fun y => decide (own g y.1 = q) := by
  have hS : Comms S := ⟨fun g => (hG g).comm, fun g => (hG g).nonempty⟩
  have hP : 0 < P := by
    obtain ⟨p, -⟩ := List.exists_mem_of_ne_nil _ ((hG ⟨0, hn⟩).nonempty)
    exact p.pos
  obtain ⟨dc, hdc⟩ : ∃ dc, ∀ g, S.chunks g (F.donors g).length = some (dc g) :=
    ⟨fun g => (S.chunks g (F.donors g).length).get (hcd g), fun g => by simp⟩
  obtain ⟨rc, hrc⟩ : ∃ rc, ∀ g, S.chunks g (F.receivers g).length = some (rc g) :=
    ⟨fun g => (S.chunks g (F.receivers g).length).get (hcr g), fun g => by simp⟩
  have hchunk : ∀ g count c, S.chunks g count = some c →
      chunkify count (S.size g) (binDivide (S.points g) (S.size g)) S.adjust = some c := by
    intro g count c h
    unfold Setup.chunks at h
    cases h1 : chunkify count (S.size g) (binDivide (S.points g) (S.size g)) S.adjust with
    | none => rw [h1] at h; cases h
    | some c' =>
      rw [h1] at h
      simp only [bind, Option.bind] at h
      split_ifs at h
      exact h
  have dD : Divides S (allDonors F) fun g r => readDonors F g (dc g) r := by
    intro g
    simp only [readDonors_eq]
    refine chunkOf_all (count := 0) (allDonors F g) (hS.size_pos g) (hchunk g _ _ ?_)
    rw [← hdc g]; simp [allDonors]
  have dR : Divides S (allReceivers F) fun g r => readReceivers F g (rc g) r := by
    intro g
    simp only [readReceivers_eq]
    refine chunkOf_all (count := 0) (allReceivers F g) (hS.size_pos g) (hchunk g _ _ ?_)
    rw [← hrc g]; simp [allReceivers]
  have dC : Divides S (fun g => (allDonors F g).map fun e => (e.1, e.2.ext.b)) fun g r =>
      (readDonors F g (dc g) r).map fun e => (e.1, e.2.ext.b) := by
    intro g
    dsimp only
    rw [← dD g, List.map_flatMap]
  have iC := (Records.donors hF).map (fun x : DonorRec d δ => x.ext.b)
  have iR := Records.receivers hF
  have hpC' : ∀ g, ∀ e ∈ (allDonors F g).map fun e => (e.1, e.2.ext.b), pfC e.1 = (g, e.2) := by
    intro g e he
    obtain ⟨x, hx, rfl⟩ := List.mem_map.mp he
    exact hpC g x hx
  have m1 := matchGrids_spec hS hP hN dC dR iC iR pfR hpR
  have m2 := matchGrids_spec hS hP hN dR dC iR iC pfC hpC'
  have w1 : ∀ g, ∀ r < S.size g, withPartner S (fun g r => readDonors F g (dc g) r)
      (fun p => ((localEntries S (fun g r => (readDonors F g (dc g) r).map fun e => (e.1, e.2.ext.b)) p).map
        Prod.fst).map pfR) g r = (readDonors F g (dc g) r).map fun e => (e.2, pfR e.1) := by
    intro g r hr
    have := withPartner_spec hS (fun g r => readDonors F g (dc g) r) pfR g r hr
    rw [← this]
    congr 1
    funext p
    rw [localEntries_fst dC]
    simp only [List.map_map, Function.comp_def]
  have w2 : ∀ g, ∀ r < S.size g, withPartner S (fun g r => readReceivers F g (rc g) r)
      (fun p => ((localEntries S (fun g r => readReceivers F g (rc g) r) p).map
        Prod.fst).map pfC) g r = (readReceivers F g (rc g) r).map fun e => (e.2, pfC e.1) := by
    intro g r hr
    have := withPartner_spec hS (fun g r => readReceivers F g (rc g) r) pfC g r hr
    rw [← this]
    congr 1
    funext p
    rw [localEntries_fst dR]
  have hdist : ∀ g, ∃ x : (Tup d → Nat) × (Nat → List (DonorRec d δ × (Fin n × Tup d))) ×
        (Nat → List (Tup d × (Fin n × Tup d))),
      (∀ p, Ovk.Spec.pts (S.cart g).range p → x.1 p < S.size g ∧ Ovk.Spec.pts (S.range g (x.1 p)) p) ∧
      distribute S g (withPartner S (fun g r => readDonors F g (dc g) r)
        (fun p => ((localEntries S (fun g r => (readDonors F g (dc g) r).map fun e => (e.1, e.2.ext.b)) p).map
          Prod.fst).map pfR) g) (withPartner S (fun g r => readReceivers F g (rc g) r)
        (fun p => ((localEntries S (fun g r => readReceivers F g (rc g) r) p).map Prod.fst).map pfC) g) = some x.2 ∧
      (∀ q, x.2.1 q = ((allDonors F g).map fun e => (e.2, pfR e.1)).filter fun y =>
        ((donorPoints (S.cart g) y.1.ext).map x.1).contains q) ∧
      ∀ q, x.2.2 q = ((allReceivers F g).map fun e => (e.2, pfC e.1)).filter fun y => decide (x.1 y.1 = q) := by
    intro g
    obtain ⟨own, ds, rs, h1, h2, h3, h4⟩ := distribute_spec S g (hG g) (withPartner S (fun g r => readDonors F g (dc g) r)
        (fun p => ((localEntries S (fun g r => (readDonors F g (dc g) r).map fun e => (e.1, e.2.ext.b)) p).map
          Prod.fst).map pfR) g) (withPartner S (fun g r => readReceivers F g (rc g) r)
        (fun p => ((localEntries S (fun g r => readReceivers F g (rc g) r) p).map Prod.fst).map pfC) g) (by
        intro s hs x hx
        rw [w1 g s hs] at hx
        obtain ⟨e, he, rfl⟩ := List.mem_map.mp hx
        have := read_mem dD hs he
        obtain ⟨z, hz, rfl⟩ := List.mem_map.mp this
        refine donorPoints_inside _ (hG g).proper _ (hF.donor_inside g z.1 ?_)
        exact List.mem_of_getElem? (List.mem_zipIdx_iff_getElem?.mp hz)) (by
        intro s hs y hy
        rw [w2 g s hs] at hy
        obtain ⟨e, he, rfl⟩ := List.mem_map.mp hy
        have := read_mem dR hs he
        obtain ⟨z, hz, rfl⟩ := List.mem_map.mp this
        exact hF.receiver_inside g z hz)
    refine ⟨(own, ds, rs), h1, h2, ?_, ?_⟩
    · intro q
      dsimp only
      rw [h3 q]
      congr 1
      rw [← dD g, List.map_flatMap]
      apply List.flatMap_congr
      intro r hr
      exact w1 g r (List.mem_range.mp hr)
    · intro q
      dsimp only
      rw [h4 q]
      congr 1
      rw [← dR g, List.map_flatMap]
      apply List.flatMap_congr
      intro r hr
      exact w2 g r (List.mem_range.mp hr)
  choose x hx1 hx2 hx3 hx4 using hdist
  refine ⟨fun g => (x g).1, fun g => (x g).2.1, fun g => (x g).2.2, hx1, ?_, hx3, hx4⟩
  have hconn : F.connections = N := hF.count
  unfold importXintout
  rw [gridsAll_spec hdc, gridsAll_spec hrc]
  simp only [bind, Option.bind]
  rw [hconn, m1, m2]
  simp only
  rw [gridsAll_spec hx2]

/-- C73. -/
theorem C73_import (S : Setup d n P) (F : File d n δ) (N : Nat) (hn : 0 < n) (hG : ∀ g, Spec.Grid S g)
    (hF : Spec.Records S F N) (hN : N ≤ ∑ g, S.points g)
    (hcd : ∀ g, (S.chunks g (F.donors g).length).isSome) (hcr : ∀ g, (S.chunks g (F.receivers g).length).isSome) :
    ∃ R, importXintout S F = some R ∧
      (∀ m k, R.created m k = true ↔
        ∃ j < (F.donors m).length, ∃ y ∈ F.receivers k, F.start m + j = y.2) ∧
      (∀ m k, ∀ q < S.size m, R.donors m k q = Spec.donorsOn S F m k (S.range m q)) ∧
      ∀ m k, ∀ q < S.size k, R.receivers m k q = Spec.receiversOn F m k (S.range k q) := by
  have iD := Records.donors hF
  have iR := Records.receivers hF
  obtain ⟨pfR, hpR⟩ := iR.partner ⟨0, hn⟩ (fun _ => 0)
  obtain ⟨pfC, hpC⟩ := (iD.map (fun x : DonorRec d δ => x.ext.b)).partner ⟨0, hn⟩ (fun _ => 0)
  have hpC : ∀ g, ∀ e ∈ allDonors F g, pfC e.1 = (g, e.2.ext.b) := fun g e he =>
    hpC g _ (List.mem_map.mpr ⟨e, he, rfl⟩)
  obtain ⟨own, ds, rs, hown, heq, hds, hrs⟩ := importXintout_eq S F N hG hF hN hn hcd hcr pfR pfC hpR hpC
  have hownq : ∀ g p, Ovk.Spec.pts (S.cart g).range p → ∀ q < S.size g,
      (own g p = q ↔ Ovk.Spec.pts (S.range g q) p) := by
    intro g p hp q hq
    obtain ⟨h1, h2⟩ := hown g p hp
    constructor
    · rintro rfl; exact h2
    · intro h; exact (hG g).disjoint _ h1 _ hq p h2 h
  have hcr1 : ∀ m k, numConnections S rs m k > 0 ↔ ∃ e ∈ allReceivers F k, (pfC e.1).1 = m := by
    intro m k
    unfold numConnections
    rw [gt_iff_lt, Nat.pos_iff_ne_zero, Ne, List.sum_eq_zero_iff_forall_eq_nat, not_forall]
    constructor
    · rintro ⟨c, hc⟩
      rw [Classical.not_imp] at hc
      obtain ⟨hc, hc0⟩ := hc
      obtain ⟨q, -, rfl⟩ := List.mem_map.mp hc
      obtain ⟨x, hx⟩ := List.exists_mem_of_length_pos (Nat.pos_of_ne_zero hc0)
      obtain ⟨hx, hxm⟩ := List.mem_filter.mp hx
      rw [hrs] at hx
      obtain ⟨e, he, rfl⟩ := List.mem_map.mp (List.mem_filter.mp hx).1
      exact ⟨e, he, by simpa using hxm⟩
    · rintro ⟨e, he, hem⟩
      obtain ⟨z, hz, hze⟩ := List.mem_map.mp he
      have hin : Ovk.Spec.pts (S.cart k).range e.2 := by rw [← hze]; exact hF.receiver_inside k z hz
      have hq := (hown k e.2 hin).1
      refine ⟨_, Classical.not_imp.mpr ⟨List.mem_map.mpr ⟨own k e.2, List.mem_range.mpr hq, rfl⟩, ?_⟩⟩
      apply Nat.ne_of_gt
      apply List.length_pos_of_mem (a := (e.2, pfC e.1))
      rw [List.mem_filter, hrs, List.mem_filter]
      exact ⟨⟨List.mem_map.mpr ⟨e, he, rfl⟩, by simp⟩, by simpa using hem⟩
  have hcr2 : ∀ m k, (∃ e ∈ allReceivers F k, (pfC e.1).1 = m) ↔ ∃ e ∈ allDonors F m, (pfR e.1).1 = k := by
    intro m k
    constructor
    · rintro ⟨e, he, hem⟩
      obtain ⟨g, c, hc, hce⟩ := iD.complete e.1 (iR.lt k e he)
      have h1 := hpC g c hc
      rw [hce] at h1
      rw [h1] at hem
      dsimp only at hem
      subst hem
      exact ⟨c, hc, by rw [hce, hpR k e he]⟩
    · rintro ⟨c, hc, hck⟩
      obtain ⟨g, e, he, hec⟩ := iR.complete c.1 (iD.lt m c hc)
      have h1 := hpR g e he
      rw [hec] at h1
      rw [h1] at hck
      dsimp only at hck
      subst hck
      exact ⟨e, he, by rw [hec, hpC m c hc]⟩
  have hsd : ∀ g, ∀ q < S.size g, splitByGrid (fun k => decide (numConnections S rs g k > 0)) (ds g q) =
      some fun k => ((ds g q).filter fun x => x.2.1 == k).map fun x => (x.1, x.2.2) := by
    intro g q hq
    apply splitByGrid_spec
    intro x hx
    rw [decide_eq_true_iff, hcr1, hcr2]
    rw [hds] at hx
    obtain ⟨e, he, rfl⟩ := List.mem_map.mp (List.mem_filter.mp hx).1
    exact ⟨e, he, rfl⟩
  have hsr : ∀ g, ∀ q < S.size g, splitByGrid (fun m => decide (numConnections S rs m g > 0)) (rs g q) =
      some fun k => ((rs g q).filter fun x => x.2.1 == k).map fun x => (x.1, x.2.2) := by
    intro g q hq
    apply splitByGrid_spec
    intro x hx
    rw [decide_eq_true_iff, hcr1]
    rw [hrs] at hx
    obtain ⟨e, he, rfl⟩ := List.mem_map.mp (List.mem_filter.mp hx).1
    exact ⟨e, he, rfl⟩
  have hD := fun g => ranksAll_spec (dflt := fun _ => []) (hsd g)
  have hR := fun g => ranksAll_spec (dflt := fun _ => []) (hsr g)
  choose dm hdm1 hdm2 using hD
  choose rn hrn1 hrn2 using hR
  refine ⟨⟨fun m k => decide (numConnections S rs m k > 0), fun m k q => dm m q k, fun m k q => rn k q m⟩, ?_, ?_, ?_, ?_⟩
  · rw [heq]
    unfold importData
    simp only [bind, Option.bind]
    rw [gridsAll_spec hdm1, gridsAll_spec hrn1]
  · intro m k
    dsimp only
    rw [decide_eq_true_iff, hcr1, hcr2]
    constructor
    · rintro ⟨c, hc, hck⟩
      obtain ⟨g, e, he, hec⟩ := iR.complete c.1 (iD.lt m c hc)
      have h1 := hpR g e he
      rw [hec] at h1
      rw [h1] at hck
      dsimp only at hck
      subst hck
      obtain ⟨z, hz, rfl⟩ := List.mem_map.mp hc
      obtain ⟨y, hy, rfl⟩ := List.mem_map.mp he
      have := List.mem_zipIdx_iff_getElem?.mp hz
      exact ⟨z.2, (List.getElem?_eq_some_iff.mp this).1, y, hy, hec.symm⟩
    · rintro ⟨j, hj, y, hy, hjy⟩
      refine ⟨(F.start m + j, (F.donors m)[j]), List.mem_map.mpr ⟨((F.donors m)[j], j), ?_, rfl⟩, ?_⟩
      · exact List.mem_zipIdx_iff_getElem?.mpr (List.getElem?_eq_getElem hj)
      · dsimp only
        rw [hjy, hpR k (y.2, y.1) (List.mem_map.mpr ⟨y, hy, rfl⟩)]
  · intro m k q hq
    dsimp only
    rw [hdm2 m q hq, hds]
    unfold Spec.donorsOn
    dsimp only
    rw [allDonors, List.map_map, chain]
    apply List.filterMap_congr
    intro x hx
    have hxd := List.mem_of_getElem? (List.mem_zipIdx_iff_getElem?.mp hx)
    have hxa : (F.start m + x.2, x.1) ∈ allDonors F m := List.mem_map.mpr ⟨x, hx, rfl⟩
    simp only [Function.comp_apply]
    have hin := donorPoints_inside _ (hG m).proper x.1.ext (hF.donor_inside m x.1 hxd)
    have ht : (((donorPoints (S.cart m) x.1.ext).map (own m)).contains q = true) ↔
        Spec.Touches (S.cart m) x.1.ext (S.range m q) := by
      rw [List.contains_iff_mem, List.mem_map]
      constructor
      · rintro ⟨u, hu, huq⟩
        obtain ⟨p, hp, hpl⟩ := (place_iff _ (hG m).proper _ u).1 hu
        exact ⟨p, u, hp, hpl, (hownq m u (hin u hu) q hq).1 huq⟩
      · rintro ⟨p, u, hp, hpl, huo⟩
        have hu := (place_iff _ (hG m).proper _ u).2 ⟨p, hp, hpl⟩
        exact ⟨u, hu, (hownq m u (hin u hu) q hq).2 huo⟩
    by_cases htt : Spec.Touches (S.cart m) x.1.ext (S.range m q)
    · rw [if_pos (ht.2 htt), if_pos htt]
      cases hf : (F.receivers k).find? fun y => y.2 == F.start m + x.2 with
      | some y =>
        have hy := List.mem_of_find?_eq_some hf
        have hyi : y.2 = F.start m + x.2 := by simpa using List.find?_some hf
        have := hpR k (y.2, y.1) (List.mem_map.mpr ⟨y, hy, rfl⟩)
        dsimp only at this
        rw [hyi] at this
        simp [this]
      | none =>
        obtain ⟨g, e, he, hec⟩ := iR.complete _ (iD.lt m _ hxa)
        have h1 := hpR g e he
        rw [hec] at h1
        dsimp only at h1
        rw [h1]
        obtain ⟨y, hy, rfl⟩ := List.mem_map.mp he
        have hne : g ≠ k := by
          rintro rfl
          have := List.find?_eq_none.mp hf y hy
          simp at this
          exact this hec
        simp [hne]
    · rw [if_neg (fun h => htt (ht.1 h)), if_neg htt]
  · intro m k q hq
    dsimp only
    rw [hrn2 k q hq, hrs]
    unfold Spec.receiversOn
    dsimp only
    rw [allReceivers, List.map_map, chain]
    apply List.filterMap_congr
    intro y hy
    have hya : (y.2, y.1) ∈ allReceivers F k := List.mem_map.mpr ⟨y, hy, rfl⟩
    simp only [Function.comp_apply, decide_eq_true_eq]
    have ht := hownq k y.1 (hF.receiver_inside k y hy) q hq
    by_cases htt : Ovk.Spec.pts (S.range k q) y.1
    · rw [if_pos (ht.2 htt), if_pos htt]
      cases hf : (F.donors m).zipIdx.find? fun x => F.start m + x.2 == y.2 with
      | some x =>
        have hx := List.mem_of_find?_eq_some hf
        have hxi : F.start m + x.2 = y.2 := by simpa using List.find?_some hf
        have := hpC m (F.start m + x.2, x.1) (List.mem_map.mpr ⟨x, hx, rfl⟩)
        dsimp only at this
        rw [hxi] at this
        simp [this]
      | none =>
        obtain ⟨g, e, he, hec⟩ := iD.complete _ (iR.lt k _ hya)
        have h1 := hpC g e he
        rw [hec] at h1
        dsimp only at h1
        rw [h1]
        obtain ⟨x, hx, rfl⟩ := List.mem_map.mp he
        have hne : g ≠ m := by
          rintro rfl
          have := List.find?_eq_none.mp hf x hx
          simp at this
          exact this hec
        simp [hne]
    · rw [if_neg (fun h => htt (ht.1 h)), if_neg htt]

/-- Both sides of a connectivity agree: a process has a receiver with its source, just when a process of the
other grid has a donor with that corner and the receiver as destination. -/
theorem C73_sides (S : Setup d n P) (F : File d n δ) (N : Nat) (hn : 0 < n) (hG : ∀ g, Spec.Grid S g)
    (hF : Spec.Records S F N) (hN : N ≤ ∑ g, S.points g)
    (hcd : ∀ g, (S.chunks g (F.donors g).length).isSome) (hcr : ∀ g, (S.chunks g (F.receivers g).length).isSome) :
    ∃ R, importXintout S F = some R ∧ ∀ m k (y b : Tup d),
      (∃ q < S.size k, (y, b) ∈ R.receivers m k q) ↔
        ∃ q < S.size m, ∃ x : DonorRec d δ, x.ext.b = b ∧ (x, y) ∈ R.donors m k q := by
  classical
  obtain ⟨R, hR, -, hd, hr⟩ := C73_import S F N hn hG hF hN hcd hcr
  refine ⟨R, hR, ?_⟩
  have iD := Records.donors hF
  have iR := Records.receivers hF
  intro m k y b
  constructor
  · rintro ⟨q, hq, hy⟩
    rw [hr m k q hq, Spec.receiversOn, List.mem_filterMap] at hy
    obtain ⟨z, hz, hzy⟩ := hy
    split_ifs at hzy with hpt
    obtain ⟨x, hx, hxy⟩ := Option.map_eq_some_iff.mp hzy
    simp only [Prod.mk.injEq] at hxy
    obtain ⟨rfl, rfl⟩ := hxy
    have hxm := List.mem_of_find?_eq_some hx
    have hxi : F.start m + x.2 = z.2 := by simpa using List.find?_some hx
    have hxd := List.mem_of_getElem? (List.mem_zipIdx_iff_getElem?.mp hxm)
    obtain ⟨p, hp⟩ := hF.donor_points m x.1 hxd
    -- some process has a point of the cell
    have hpl : ∃ u, u ∈ donorPoints (S.cart m) x.1.ext := by
      unfold donorPoints
      split_ifs
      · exact ⟨p, (Rng.mem_points _ _).2 hp⟩
      · exact ⟨_, List.mem_map.mpr ⟨p, (Rng.mem_points _ _).2 hp, rfl⟩⟩
    obtain ⟨u, hu⟩ := hpl
    have hin := donorPoints_inside _ (hG m).proper _ (hF.donor_inside m x.1 hxd) u hu
    obtain ⟨q', hq', huq⟩ := ((hG m).cover u).1 hin
    obtain ⟨p', hp', hpp⟩ := (place_iff _ (hG m).proper _ u).1 hu
    refine ⟨q', hq', x.1, rfl, ?_⟩
    rw [hd m k q' hq', Spec.donorsOn, List.mem_filterMap]
    refine ⟨x, hxm, ?_⟩
    rw [if_pos ⟨p', u, hp', hpp, huq⟩]
    cases hf : (F.receivers k).find? fun w => w.2 == F.start m + x.2 with
    | none =>
      have := List.find?_eq_none.mp hf z hz
      simp at this
      exact absurd hxi.symm this
    | some w =>
      have hw := List.mem_of_find?_eq_some hf
      have hwi : w.2 = F.start m + x.2 := by simpa using List.find?_some hf
      have : (w.2, w.1) = (z.2, z.1) := List.inj_on_of_nodup_map (iR.nodup k)
        (List.mem_map.mpr ⟨w, hw, rfl⟩) (List.mem_map.mpr ⟨z, hz, rfl⟩) (by dsimp only; omega)
      simp only [Prod.mk.injEq] at this
      simp [this.2]
  · rintro ⟨q, hq, x, rfl, hx⟩
    rw [hd m k q hq, Spec.donorsOn, List.mem_filterMap] at hx
    obtain ⟨z, hz, hzx⟩ := hx
    split_ifs at hzx with ht
    obtain ⟨w, hw, hwx⟩ := Option.map_eq_some_iff.mp hzx
    simp only [Prod.mk.injEq] at hwx
    obtain ⟨rfl, rfl⟩ := hwx
    have hwm := List.mem_of_find?_eq_some hw
    have hwi : w.2 = F.start m + z.2 := by simpa using List.find?_some hw
    obtain ⟨q', hq', hwq⟩ := ((hG k).cover w.1).1 (hF.receiver_inside k w hwm)
    refine ⟨q', hq', ?_⟩
    rw [hr m k q' hq', Spec.receiversOn, List.mem_filterMap]
    refine ⟨w, hwm, ?_⟩
    rw [if_pos hwq]
    cases hf : (F.donors m).zipIdx.find? fun v => F.start m + v.2 == w.2 with
    | none =>
      have := List.find?_eq_none.mp hf z hz
      simp at this
      omega
    | some v =>
      have hv := List.mem_of_find?_eq_some hf
      have hvi : F.start m + v.2 = w.2 := by simpa using List.find?_some hf
      have : (F.start m + v.2, v.1) = (F.start m + z.2, z.1) := List.inj_on_of_nodup_map (iD.nodup m)
        (List.mem_map.mpr ⟨v, hv, rfl⟩) (List.mem_map.mpr ⟨z, hz, rfl⟩) (by dsimp only; omega)
      simp only [Prod.mk.injEq] at this
      simp [this.2]

/-! ### An example: a periodic grid of four points on both processes and a grid of three points on the second
one; a donor cell across the boundary of the periodic grid, and one on the other grid. -/

def exSetup : Setup 1 2 2 where
  comm g := if g = 0 then [0, 1] else [1]
  cart g := if g = 0 then ⟨⟨fun _ => 0, fun _ => 4⟩, fun _ => true, .unique⟩ else ⟨⟨fun _ => 0, fun _ => 3⟩, fun _ => false, .unique⟩
  range g q := if g = 0 then ⟨fun _ => 2 * q, fun _ => 2 * q + 2⟩ else ⟨fun _ => 0, fun _ => 3⟩
  nb g _ := if g = 0 then 2 else 1
  mult _ _ := 1
  order g _ := if g = 0 then [0, 1] else [0]
  adjust := 0

def exFile : File 1 2 Unit where
  donors g := if g = 0 then [⟨⟨fun _ => 3, fun _ => 5⟩, ()⟩] else [⟨⟨fun _ => 0, fun _ => 2⟩, ()⟩]
  start g := if g = 0 then 0 else 1
  receivers g := if g = 0 then [(fun _ => 1, 1)] else [(fun _ => 2, 0)]

theorem ex_grid (g : Fin 2) : Spec.Grid exSetup g := by
  have hd : ∀ (l : List (List (Rng 1))) (order : Nat → List Nat) (nb : Tup 1) (mult : Nat → Int),
      (∀ src < l.length, ∀ dst, src ∈ order dst) →
      DHash.Discovered DHash.intOps DHash.rangeOps order nb mult l := by
    intro l order nb mult h hh _ src rs r h1 _ dst _ _ _
    exact h src (List.getElem?_eq_some_iff.mp h1).1 dst
  match g with
  | 0 =>
    refine ⟨by decide, by decide, by intro i; decide +revert, ?_, ?_, ?_, by decide, by decide +kernel, by
      intro k; exact le_refl 1, ?_⟩
    · intro q _
      exact ⟨fun _ => 2 * q, fun i => by simp [exSetup]⟩
    · intro q _ q' _ p h1 h2
      have h1 := h1 0
      have h2 := h2 0
      simp [exSetup] at h1 h2
      omega
    · intro p
      constructor
      · intro h
        have h0 := h 0
        simp [exSetup] at h0
        by_cases hp : p 0 < 2
        · refine ⟨0, by decide, fun i => ?_⟩
          obtain rfl := Subsingleton.elim i 0
          simp [exSetup]; omega
        · refine ⟨1, by decide, fun i => ?_⟩
          obtain rfl := Subsingleton.elim i 0
          simp [exSetup]; omega
      · rintro ⟨q, hq, h⟩ i
        have hq : q < 2 := hq
        have h0 := h i
        simp [exSetup] at h0 ⊢
        omega
    · apply hd
      intro src hs dst
      have hs : src < 2 := by rw [List.length_map, List.length_range] at hs; exact hs
      simp [exSetup]; omega
  | 1 =>
    refine ⟨by decide, by decide, by intro i; decide +revert, ?_, ?_, ?_, by decide, by decide +kernel, by
      intro k; exact le_refl 1, ?_⟩
    · intro q _
      exact ⟨fun _ => 0, fun i => by simp [exSetup]⟩
    · intro q hq q' hq' p h1 h2
      have hq : q < 1 := hq
      have hq' : q' < 1 := hq'
      omega
    · intro p
      constructor
      · intro h
        exact ⟨0, by decide, h⟩
      · rintro ⟨q, hq, h⟩
        exact h
    · apply hd
      intro src hs dst
      have hs : src < 1 := by rw [List.length_map, List.length_range] at hs; exact hs
      simp [exSetup]; omega

theorem ex_records : Spec.Records exSetup exFile 2 where
  count := by decide
  donor_id i hi := by
    match i, hi with
    | 0, _ => exact ⟨(0, 0), by decide, by rintro ⟨g, j⟩ ⟨h1, h2⟩; match g with
      | 0 => simp [exFile] at h1 h2 ⊢; omega
      | 1 => simp [exFile] at h1 h2⟩
    | 1, _ => exact ⟨(1, 0), by decide, by rintro ⟨g, j⟩ ⟨h1, h2⟩; match g with
      | 0 => simp [exFile] at h1 h2; omega
      | 1 => simp [exFile] at h1 h2 ⊢; omega⟩
  donor_lt g _ := by match g with | 0 => decide | 1 => decide
  receiver_id i hi := by
    have hj : ∀ g (j : Nat) y, (exFile.receivers g)[j]? = some y → j = 0 := by
      intro g j y h
      have := (List.getElem?_eq_some_iff.mp h).1
      match g with
      | 0 => simp [exFile] at this; exact this
      | 1 => simp [exFile] at this; exact this
    match i, hi with
    | 0, _ => exact ⟨(1, 0), ⟨_, rfl, rfl⟩, by
        rintro ⟨g, j⟩ ⟨y, h1, h2⟩
        obtain rfl := hj _ _ _ h1
        match g with
        | 0 => simp [exFile] at h1; subst h1; simp at h2
        | 1 => rfl⟩
    | 1, _ => exact ⟨(0, 0), ⟨_, rfl, rfl⟩, by
        rintro ⟨g, j⟩ ⟨y, h1, h2⟩
        obtain rfl := hj _ _ _ h1
        match g with
        | 0 => rfl
        | 1 => simp [exFile] at h1; subst h1; simp at h2⟩
  receiver_lt g y hy := by
    match g with
    | 0 => simp [exFile] at hy; subst hy; decide
    | 1 => simp [exFile] at hy; subst hy; decide
  donor_points g x hx := by
    match g with
    | 0 => simp [exFile] at hx; subst hx; exact ⟨fun _ => 3, fun i => by simp⟩
    | 1 => simp [exFile] at hx; subst hx; exact ⟨fun _ => 0, fun i => by simp⟩
  donor_inside g x hx p hp i hi := by
    match g with
    | 0 => simp [exSetup] at hi
    | 1 =>
      simp [exFile] at hx
      subst hx
      have := hp i
      simp [exSetup] at this ⊢
      omega
  receiver_inside g y hy := by
    match g with
    | 0 => simp [exFile] at hy; subst hy; intro i; simp [exSetup]
    | 1 => simp [exFile] at hy; subst hy; intro i; simp [exSetup]

example : ∃ R, importXintout exSetup exFile = some R ∧
    ∀ m k, ∀ q < exSetup.size m, R.donors m k q = Spec.donorsOn exSetup exFile m k (exSetup.range m q) := by
  obtain ⟨R, h1, -, h2, -⟩ := C73_import exSetup exFile 2 (by decide) ex_grid ex_records (by decide +kernel)
    (by decide +kernel) (by decide +kernel)
  exact ⟨R, h1, h2⟩

example : ((importXintout exSetup exFile).map fun R => ([R.created 0 1, R.created 1 0, R.created 0 0],
    [(R.donors 0 1 0).length, (R.donors 0 1 1).length, (R.donors 1 0 0).length], [(R.receivers 0 1 0).length,
    (R.receivers 1 0 0).length, (R.receivers 1 0 1).length])) =
    some ([true, true, false], [1, 1, 1], [1, 1, 0]) := by decide +kernel

end Xintout
end Ovk
