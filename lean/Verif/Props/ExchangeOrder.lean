/-
Properties C25 (both sides of an exchange use the same order; every receiver gets its donor's value) and
C26 (message tags).
-/
import Verif.Props.Exchanger

namespace Ovk.Xch
variable {d n : Nat} {V : Type}

namespace Spec
/-- The points of the entries with rank `r`. -/
def pointsWith (pts : List (Tup d)) (ranks : List Int) (r : Int) : List (Tup d) :=
  (pts.zip ranks).filterMap fun x => if x.2 = r then some x.1 else none

/-- A process lists a connectivity once, and in it a donor or receiver of a point once. -/
structure Once (w : World d n) : Prop where
  mIds : ∀ p, ∀ c ∈ w.ms p, ∀ c' ∈ w.ms p, c.mGrid = c'.mGrid → c.nGrid = c'.nGrid → c = c'
  nIds : ∀ p, ∀ c ∈ w.ns p, ∀ c' ∈ w.ns p, c.mGrid = c'.mGrid → c.nGrid = c'.nGrid → c = c'
  donors : ∀ p, ∀ c ∈ w.ms p, ((c.donors.filter fun y => c.localRange.contains y.lower).map Donor.dest).Nodup
  receivers : ∀ q, ∀ c ∈ w.ns q, (c.receivers.map Receiver.pt).Nodup
end Spec

theorem sortedFrom_iff : ∀ (ks : List Int) (prev : Int), sortedFrom prev ks = true →
    ks.Pairwise (· ≤ ·) ∧ ∀ k ∈ ks, prev ≤ k
  | [], _, _ => by simp
  | k :: ks, prev, h => by
    unfold sortedFrom at h
    split_ifs at h with hk
    obtain ⟨h1, h2⟩ := sortedFrom_iff ks k h
    refine ⟨List.pairwise_cons.2 ⟨h2, h1⟩, ?_⟩
    intro x hx
    rcases List.mem_cons.1 hx with rfl | hx
    · omega
    · have := h2 x hx; omega

/-- An order lists all positions, by ascending index of the point. -/
theorem order_spec {r : Rng d} {pts : List (Tup d)} {o : List Nat} (h : IsOrder r pts o) :
    o.Perm (List.range pts.length) ∧
    o.Pairwise fun i j => r.index .col (pts.getD i 0) ≤ r.index .col (pts.getD j 0) := by
  have key : ∀ i, i < pts.length → (pts.map (r.index .col)).getD i 0 = r.index .col (pts.getD i 0) := by
    intro i hi
    simp [List.getD_eq_getElem?_getD, hi]
  unfold IsOrder at h
  split_ifs at h with hs
  · subst h
    refine ⟨List.Perm.refl _, ?_⟩
    obtain ⟨h1, _⟩ := sortedFrom_iff _ _ hs
    rw [List.pairwise_iff_getElem] at h1 ⊢
    intro i j hi hj hij
    simp only [List.length_range] at hi hj
    have := h1 i j (by simpa using hi) (by simpa using hj) hij
    simpa [List.getD_eq_getElem?_getD, hi, hj] using this
  · obtain ⟨h1, h2⟩ := h
    rw [List.length_map] at h1
    refine ⟨h1, ?_⟩
    refine List.Pairwise.imp_of_mem ?_ h2
    intro i j hi hj hij
    rw [key i (by simpa using h1.subset hi), key j (by simpa using h1.subset hj)] at hij
    omega

theorem filter_map_eq {α β : Type} (p : α → Bool) (f : α → β) (l : List α) :
    (l.filter p).map f = l.filterMap fun i => if p i then some (f i) else none := by
  induction l with
  | nil => rfl
  | cons a l ih => by_cases h : p a <;> simp [h, ih]

theorem zip_range (pts : List (Tup d)) (ranks : List Int) (h : pts.length = ranks.length) :
    pts.zip ranks = (List.range ranks.length).map fun i => (pts.getD i 0, ranks.getD i 0) := by
  apply List.ext_getElem
  · simp [h]
  · intro i h1 h2
    simp only [List.length_zip, List.length_map, List.length_range] at h1 h2
    simp [List.getD_eq_getElem?_getD, h2, h]

theorem slots_points {pts : List (Tup d)} {ranks : List Int} {o : List Nat}
    (hl : pts.length = ranks.length) (ho : o.Perm (List.range ranks.length)) (r : Int) :
    ((SR.Spec.slots o ranks r).map fun i => pts.getD i 0).Perm (Spec.pointsWith pts ranks r) := by
  have h1 : ((SR.Spec.slots o ranks r).map fun i => pts.getD i 0).Perm
      ((SR.Spec.slots (List.range ranks.length) ranks r).map fun i => pts.getD i 0) :=
    (ho.filter _).map _
  refine h1.trans ?_
  unfold SR.Spec.slots Spec.pointsWith
  rw [zip_range pts ranks hl, List.filterMap_map, filter_map_eq]
  apply List.Perm.of_eq
  apply List.filterMap_congr
  intro i hi
  rw [List.mem_range] at hi
  simp [List.getD_eq_getElem?_getD, hi]

/-- C25: whatever order the donors and receivers are listed in, and whatever the sort does with equal
elements, the two lists of slots of a pair of processes go through the same points. -/
theorem C25_order {R : Rng d} {dp rp : List (Tup d)} {dr sr : List Int} {oM oN : List Nat}
    (hM : IsOrder R dp oM) (hN : IsOrder R rp oN) (hd : dp.length = dr.length) (hr : rp.length = sr.length)
    (a b : Int) (hsame : (Spec.pointsWith dp dr b).Perm (Spec.pointsWith rp sr a))
    (hin : ∀ x ∈ Spec.pointsWith dp dr b, Ovk.Spec.pts R x) :
    ((SR.Spec.slots oM dr b).map fun i => dp.getD i 0) = (SR.Spec.slots oN sr a).map fun j => rp.getD j 0 := by
  obtain ⟨hM1, hM2⟩ := order_spec hM
  obtain ⟨hN1, hN2⟩ := order_spec hN
  have pM := slots_points (o := oM) hd (by rw [← hd]; exact hM1) b
  have pN := slots_points (o := oN) hr (by rw [← hr]; exact hN1) a
  have sM : ((SR.Spec.slots oM dr b).map fun i => dp.getD i 0).Pairwise
      fun x y => R.index .col x ≤ R.index .col y :=
    List.pairwise_map.2 (hM2.sublist List.filter_sublist)
  have sN : ((SR.Spec.slots oN sr a).map fun i => rp.getD i 0).Pairwise
      fun x y => R.index .col x ≤ R.index .col y :=
    List.pairwise_map.2 (hN2.sublist List.filter_sublist)
  refine List.Perm.eq_of_pairwise ?_ sM sN (pM.trans (hsame.trans pN.symm))
  intro x y hx hy h1 h2
  refine Rng.index_inj .col R x y (hin x (pM.subset hx)) (hin y ?_) (by omega)
  exact hsame.symm.subset (pN.subset hy)

theorem mem_pointsWith {pts : List (Tup d)} {ranks : List Int} {r : Int} {x : Tup d} :
    x ∈ Spec.pointsWith pts ranks r ↔ ∃ j : Nat, pts[j]? = some x ∧ ranks[j]? = some r := by
  unfold Spec.pointsWith
  rw [List.mem_filterMap]
  constructor
  · rintro ⟨⟨y, s⟩, h, he⟩
    split_ifs at he with hs
    obtain ⟨j, hj⟩ := List.mem_iff_getElem?.1 h
    rw [List.getElem?_zip_eq_some] at hj
    obtain rfl := Option.some.inj he
    exact ⟨j, hj.1, by rw [hj.2]; exact congrArg some hs⟩
  · rintro ⟨j, h1, h2⟩
    exact ⟨(x, r), List.mem_iff_getElem?.2 ⟨j, List.getElem?_zip_eq_some.2 ⟨h1, h2⟩⟩, by simp⟩

theorem find_zip {α β : Type} (l : List α) (k : List β) (f : α → Bool) (x : α × β)
    (h : ((l.zip k).find? fun y => f y.1) = some x) : f x.1 = true ∧ ∃ i : Nat, l[i]? = some x.1 ∧ k[i]? = some x.2 := by
  refine ⟨by simpa using List.find?_some h, ?_⟩
  obtain ⟨i, hi⟩ := List.mem_iff_getElem?.1 (List.mem_of_find?_eq_some h)
  exact ⟨i, List.getElem?_zip_eq_some.1 hi⟩

section
variable {w : World d n} (hw : Spec.Consistent w) (ho : Spec.Once w) {D S : Fin n → List (List Int)}
  (hD : Spec.DestOk w D) (hS : Spec.SrcOk w S) (m g : Int)
include hw ho hD hS

omit hw hS in
theorem mEntry_cases (p : Fin n) :
    (mEntry w D m g p = none ∧ ∀ c ∈ w.ms p, ¬ (c.mGrid = m ∧ c.nGrid = g)) ∨
    ∃ c l, mEntry w D m g p = some (c, l) ∧ c ∈ w.ms p ∧ c.mGrid = m ∧ c.nGrid = g ∧
      l.length = c.donors.length ∧ (∀ c' ∈ w.ms p, c'.mGrid = m → c'.nGrid = g → c' = c) ∧
      ∀ (j : Nat) (y : Donor d), c.donors[j]? = some y → ∃ v, l[j]? = some v ∧
        (Ovk.Spec.pts c.localRange y.lower → ∃ q s, Spec.Receives w q m g y.dest s ∧ v = (q : Nat)) ∧
        (¬ Ovk.Spec.pts c.localRange y.lower → v = -1) := by
  cases he : mEntry w D m g p with
  | none =>
    left
    refine ⟨rfl, ?_⟩
    intro c hc hcc
    obtain ⟨i, hi⟩ := List.mem_iff_getElem?.1 hc
    obtain ⟨l, hl, _⟩ := hD p i c hi
    unfold mEntry at he
    rw [List.find?_eq_none] at he
    have := he (c, l) (List.mem_iff_getElem?.2 ⟨i, List.getElem?_zip_eq_some.2 ⟨hi, hl⟩⟩)
    simp [hcc.1, hcc.2] at this
  | some x =>
    right
    obtain ⟨c, l⟩ := x
    obtain ⟨h1, i, h2, h3⟩ := find_zip _ _ (fun c : ConnM d => decide (c.mGrid = m ∧ c.nGrid = g)) _ he
    simp only [decide_eq_true_eq] at h1
    obtain ⟨l', h4, h5, h6⟩ := hD p i c h2
    rw [h3] at h4
    obtain rfl := Option.some.inj h4
    refine ⟨c, l, rfl, List.mem_of_getElem? h2, h1.1, h1.2, h5, ?_, ?_⟩
    · intro c' hc' e1 e2
      exact ho.mIds p c' hc' c (List.mem_of_getElem? h2) (by rw [e1, h1.1]) (by rw [e2, h1.2])
    · rw [← h1.1, ← h1.2]; exact h6

omit hw hD in
theorem nEntry_cases (q : Fin n) :
    (nEntry w S m g q = none ∧ ∀ c ∈ w.ns q, ¬ (c.mGrid = m ∧ c.nGrid = g)) ∨
    ∃ c l, nEntry w S m g q = some (c, l) ∧ c ∈ w.ns q ∧ c.mGrid = m ∧ c.nGrid = g ∧
      l.length = c.receivers.length ∧ (∀ c' ∈ w.ns q, c'.mGrid = m → c'.nGrid = g → c' = c) ∧
      ∀ (j : Nat) (y : Receiver d), c.receivers[j]? = some y → ∃ v, l[j]? = some v ∧
        ∃ p r, Spec.Donates w p m g y.pt r ∧ v = (p : Nat) := by
  cases he : nEntry w S m g q with
  | none =>
    left
    refine ⟨rfl, ?_⟩
    intro c hc hcc
    obtain ⟨i, hi⟩ := List.mem_iff_getElem?.1 hc
    obtain ⟨l, hl, _⟩ := hS q i c hi
    unfold nEntry at he
    rw [List.find?_eq_none] at he
    have := he (c, l) (List.mem_iff_getElem?.2 ⟨i, List.getElem?_zip_eq_some.2 ⟨hi, hl⟩⟩)
    simp [hcc.1, hcc.2] at this
  | some x =>
    right
    obtain ⟨c, l⟩ := x
    obtain ⟨h1, i, h2, h3⟩ := find_zip _ _ (fun c : ConnN d => decide (c.mGrid = m ∧ c.nGrid = g)) _ he
    simp only [decide_eq_true_eq] at h1
    obtain ⟨l', h4, h5, h6⟩ := hS q i c h2
    rw [h3] at h4
    obtain rfl := Option.some.inj h4
    refine ⟨c, l, rfl, List.mem_of_getElem? h2, h1.1, h1.2, h5, ?_, ?_⟩
    · intro c' hc' e1 e2
      exact ho.nIds q c' hc' c (List.mem_of_getElem? h2) (by rw [e1, h1.1]) (by rw [e2, h1.2])
    · rw [← h1.1, ← h1.2]; exact h6

omit hS in
theorem mem_sent (a b : Fin n) (x : Tup d) :
    x ∈ Spec.pointsWith ((mDonors (mEntry w D m g a)).map Donor.dest) (mRanks (mEntry w D m g a)) (b : Nat) ↔
      (∃ r, Spec.Donates w a m g x r) ∧ ∃ s, Spec.Receives w b m g x s := by
  rw [mem_pointsWith]
  rcases mEntry_cases ho hD m g a with ⟨he, hno⟩ | ⟨c, l, he, hc, hm, hg, hl, hu, hv⟩
  · rw [he]
    simp only [mDonors, mRanks, Option.map_none, Option.getD_none, List.map_nil, List.getElem?_nil]
    constructor
    · rintro ⟨_, h, _⟩; simp at h
    · rintro ⟨⟨r, c, hc, h1, h2, _⟩, _⟩
      exact absurd ⟨h1, h2⟩ (hno c hc)
  · rw [he]
    simp only [mDonors, mRanks, Option.map_some, Option.getD_some]
    constructor
    · rintro ⟨j, h1, h2⟩
      rw [List.getElem?_map, Option.map_eq_some_iff] at h1
      obtain ⟨y, hy, rfl⟩ := h1
      obtain ⟨v, h3, h4, h5⟩ := hv j y hy
      rw [h2] at h3
      obtain rfl := Option.some.inj h3
      by_cases hown : Ovk.Spec.pts c.localRange y.lower
      · obtain ⟨q, s, h6, h7⟩ := h4 hown
        have : b = q := Fin.ext (by exact_mod_cast h7)
        subst this
        exact ⟨⟨y.rank, c, hc, hm, hg, y, List.mem_of_getElem? hy, hown, rfl, rfl⟩, s, h6⟩
      · have := h5 hown; omega
    · rintro ⟨⟨r, c', hc', h1, h2, y, hy, hown, rfl, _⟩, s, hs⟩
      obtain rfl := hu c' hc' h1 h2
      obtain ⟨j, hj⟩ := List.mem_iff_getElem?.1 hy
      obtain ⟨v, h3, h4, _⟩ := hv j y hj
      obtain ⟨q, s', h6, rfl⟩ := h4 hown
      have : q = b := hw.oneReceiver _ _ _ _ _ _ _ _ h6 hs
      subst this
      exact ⟨j, by rw [List.getElem?_map, hj]; rfl, h3⟩

omit hD in
theorem mem_received (a b : Fin n) (x : Tup d) :
    x ∈ Spec.pointsWith ((nReceivers (nEntry w S m g b)).map Receiver.pt) (nRanks (nEntry w S m g b)) (a : Nat) ↔
      (∃ r, Spec.Donates w a m g x r) ∧ ∃ s, Spec.Receives w b m g x s := by
  rw [mem_pointsWith]
  rcases nEntry_cases ho hS m g b with ⟨he, hno⟩ | ⟨c, l, he, hc, hm, hg, hl, hu, hv⟩
  · rw [he]
    simp only [nReceivers, nRanks, Option.map_none, Option.getD_none, List.map_nil, List.getElem?_nil]
    constructor
    · rintro ⟨_, h, _⟩; simp at h
    · rintro ⟨_, s, c, hc, h1, h2, _⟩
      exact absurd ⟨h1, h2⟩ (hno c hc)
  · rw [he]
    simp only [nReceivers, nRanks, Option.map_some, Option.getD_some]
    constructor
    · rintro ⟨j, h1, h2⟩
      rw [List.getElem?_map, Option.map_eq_some_iff] at h1
      obtain ⟨y, hy, rfl⟩ := h1
      obtain ⟨v, h3, p, r, h4, h5⟩ := hv j y hy
      rw [h2] at h3
      obtain rfl := Option.some.inj h3
      have : a = p := Fin.ext (by exact_mod_cast h5)
      subst this
      exact ⟨⟨r, h4⟩, y.rank, c, hc, hm, hg, y, List.mem_of_getElem? hy, rfl, rfl⟩
    · rintro ⟨⟨r, hr⟩, s, c', hc', h1, h2, y, hy, rfl, _⟩
      obtain rfl := hu c' hc' h1 h2
      obtain ⟨j, hj⟩ := List.mem_iff_getElem?.1 hy
      obtain ⟨v, h3, p, r', h4, rfl⟩ := hv j y hj
      have : p = a := hw.oneDonor _ _ _ _ _ _ _ h4 hr
      subst this
      exact ⟨j, by rw [List.getElem?_map, hj]; rfl, h3⟩

omit hw ho hD hS in
theorem pointsWith_map {α : Type} (f : α → Tup d) (l : List α) (ranks : List Int) (r : Int) :
    Spec.pointsWith (l.map f) ranks r =
      ((l.zip ranks).filter fun x => x.2 = r).map fun x => f x.1 := by
  unfold Spec.pointsWith
  rw [filter_map_eq, List.zip_map_left, List.filterMap_map]
  apply List.filterMap_congr
  intro x _
  simp

omit hw ho hD hS in
theorem zip_filter_sublist {α : Type} (q : α → Bool) : ∀ (l : List α) (ranks : List Int) (r : Int),
    (∀ (j : Nat) (y : α), l[j]? = some y → ranks[j]? = some r → q y = true) →
    (((l.zip ranks).filter fun x => x.2 = r).map fun x => x.1).Sublist (l.filter q)
  | [], _, _, _ => by simp
  | _ :: _, [], _, _ => by simp
  | y :: l, s :: ranks, r, h => by
    have ih := zip_filter_sublist q l ranks r fun j z hj hr => h (j + 1) z (by simpa using hj) (by simpa using hr)
    rw [List.zip_cons_cons, List.filter_cons]
    by_cases hs : s = r
    · have hq := h 0 y rfl (by simp [hs])
      simp only [hs, decide_true, if_true, List.map_cons]
      rw [List.filter_cons, if_pos hq]
      exact ih.cons_cons y
    · simp only [hs, decide_false, Bool.false_eq_true, if_false]
      rw [List.filter_cons]
      split_ifs
      · exact ih.cons y
      · exact ih

omit hw hS in
theorem nodup_sent (a b : Fin n) :
    (Spec.pointsWith ((mDonors (mEntry w D m g a)).map Donor.dest) (mRanks (mEntry w D m g a)) (b : Nat)).Nodup := by
  rcases mEntry_cases ho hD m g a with ⟨he, _⟩ | ⟨c, l, he, hc, hm, hg, hl, hu, hv⟩
  · rw [he]; simp [mDonors, mRanks, Spec.pointsWith]
  · rw [he]
    simp only [mDonors, mRanks, Option.map_some, Option.getD_some]
    rw [pointsWith_map, show (fun x : Donor d × Int => x.1.dest) = Donor.dest ∘ Prod.fst from rfl,
      ← List.map_map]
    refine ((zip_filter_sublist (fun y => c.localRange.contains y.lower) c.donors l _ ?_).map _).nodup
      (ho.donors a c hc)
    intro j y hj hr
    obtain ⟨v, h1, _, h3⟩ := hv j y hj
    rw [hr] at h1
    obtain rfl := Option.some.inj h1
    rw [contains_iff_pts]
    by_contra hno
    have := h3 hno
    omega

omit hw hD in
theorem nodup_received (a b : Fin n) :
    (Spec.pointsWith ((nReceivers (nEntry w S m g b)).map Receiver.pt) (nRanks (nEntry w S m g b)) (a : Nat)).Nodup := by
  rcases nEntry_cases ho hS m g b with ⟨he, _⟩ | ⟨c, l, he, hc, hm, hg, hl, hu, hv⟩
  · rw [he]; simp [nReceivers, nRanks, Spec.pointsWith]
  · rw [he]
    simp only [nReceivers, nRanks, Option.map_some, Option.getD_some]
    rw [pointsWith_map, show (fun x : Receiver d × Int => x.1.pt) = Receiver.pt ∘ Prod.fst from rfl,
      ← List.map_map]
    have := zip_filter_sublist (fun _ => true) c.receivers l (a : Nat) (fun _ _ _ _ => rfl)
    simp only [List.filter_true] at this
    exact (this.map _).nodup (ho.receivers b c hc)

theorem same_points (a b : Fin n) :
    (Spec.pointsWith ((mDonors (mEntry w D m g a)).map Donor.dest) (mRanks (mEntry w D m g a)) (b : Nat)).Perm
    (Spec.pointsWith ((nReceivers (nEntry w S m g b)).map Receiver.pt) (nRanks (nEntry w S m g b)) (a : Nat)) := by
  rw [List.perm_ext_iff_of_nodup (nodup_sent ho hD m g a b) (nodup_received ho hS m g a b)]
  intro x
  rw [mem_sent hw ho hD, mem_received hw ho hS]

omit hw hS in
theorem m_lengths (p : Fin n) : ((mDonors (mEntry w D m g p)).map Donor.dest).length = (mRanks (mEntry w D m g p)).length := by
  rcases mEntry_cases ho hD m g p with ⟨he, _⟩ | ⟨c, l, he, _, _, _, hl, _⟩
  · rw [he]; simp [mDonors, mRanks]
  · rw [he]; simp [mDonors, mRanks, hl]

omit hw hD in
theorem n_lengths (p : Fin n) :
    ((nReceivers (nEntry w S m g p)).map Receiver.pt).length = (nRanks (nEntry w S m g p)).length := by
  rcases nEntry_cases ho hS m g p with ⟨he, _⟩ | ⟨c, l, he, _, _, _, hl, _⟩
  · rw [he]; simp [nReceivers, nRanks]
  · rw [he]; simp [nReceivers, nRanks, hl]

omit hw hS in
theorem m_ranks_lt (p : Fin n) : ∀ r ∈ mRanks (mEntry w D m g p), r < n := by
  intro r hr
  rcases mEntry_cases ho hD m g p with ⟨he, _⟩ | ⟨c, l, he, hc, hm, hg, hl, hu, hv⟩
  · rw [he] at hr; simp [mRanks] at hr
  · rw [he] at hr
    simp only [mRanks, Option.map_some, Option.getD_some] at hr
    obtain ⟨j, hj⟩ := List.mem_iff_getElem?.1 hr
    have hlt := (List.getElem?_eq_some_iff.1 hj).1
    obtain ⟨v, h1, h2, h3⟩ := hv j _ (List.getElem?_eq_getElem (by omega))
    rw [hj] at h1
    obtain rfl := Option.some.inj h1
    by_cases ho' : Ovk.Spec.pts c.localRange (c.donors[j]'(by omega)).lower
    · obtain ⟨q, s, _, rfl⟩ := h2 ho'
      have := q.2; omega
    · have := h3 ho'; omega

omit hw hD in
theorem n_ranks_lt (p : Fin n) : ∀ r ∈ nRanks (nEntry w S m g p), r < n := by
  intro r hr
  rcases nEntry_cases ho hS m g p with ⟨he, _⟩ | ⟨c, l, he, hc, hm, hg, hl, hu, hv⟩
  · rw [he] at hr; simp [nRanks] at hr
  · rw [he] at hr
    simp only [nRanks, Option.map_some, Option.getD_some] at hr
    obtain ⟨j, hj⟩ := List.mem_iff_getElem?.1 hr
    have hlt := (List.getElem?_eq_some_iff.1 hj).1
    obtain ⟨v, h1, q, s, _, h3⟩ := hv j _ (List.getElem?_eq_getElem (by omega))
    rw [hj] at h1
    obtain rfl := Option.some.inj h1
    have := q.2; omega

/-- The maps the exchanger builds fit together. -/
theorem maps_matched {R : Rng d} {s : SR.Setup n} (hs : MapsFor w D S m g R s) : SR.Spec.Matched s := by
  have hsend : ∀ p, ∃ o, IsOrder R ((mDonors (mEntry w D m g p)).map Donor.dest) o ∧
      (s.send p).ranks = mRanks (mEntry w D m g p) ∧ (s.send p).order = o ∧
      SR.build (s.send p).ranks (s.send p).order = some (s.send p) := by
    intro p
    obtain ⟨o, h1, h2⟩ := hs.send p
    obtain ⟨m', h3, h4, h5, _⟩ := SR.build_ok (mRanks (mEntry w D m g p)) o
    rw [h2] at h3
    obtain rfl := Option.some.inj h3
    exact ⟨o, h1, h4, h5, by rw [h4, h5, h2]⟩
  have hrecv : ∀ p, ∃ o, IsOrder R ((nReceivers (nEntry w S m g p)).map Receiver.pt) o ∧
      (s.recv p).ranks = nRanks (nEntry w S m g p) ∧ (s.recv p).order = o ∧
      SR.build (s.recv p).ranks (s.recv p).order = some (s.recv p) := by
    intro p
    obtain ⟨o, h1, h2⟩ := hs.recv p
    obtain ⟨m', h3, h4, h5, _⟩ := SR.build_ok (nRanks (nEntry w S m g p)) o
    rw [h2] at h3
    obtain rfl := Option.some.inj h3
    exact ⟨o, h1, h4, h5, by rw [h4, h5, h2]⟩
  refine ⟨?_, ?_, ?_, ?_, ?_, ?_, ?_⟩
  · intro p; obtain ⟨o, _, _, _, h⟩ := hsend p; exact h
  · intro p; obtain ⟨o, _, _, _, h⟩ := hrecv p; exact h
  · intro p
    obtain ⟨o, h1, h2, h3, _⟩ := hsend p
    rw [h2, h3, ← m_lengths ho hD m g p]
    exact (order_spec h1).1
  · intro p
    obtain ⟨o, h1, h2, h3, _⟩ := hrecv p
    rw [h2, h3, ← n_lengths ho hS m g p]
    exact (order_spec h1).1
  · intro p
    obtain ⟨o, h1, h2, h3, _⟩ := hsend p
    rw [h2]; exact m_ranks_lt ho hD m g p
  · intro p
    obtain ⟨o, h1, h2, h3, _⟩ := hrecv p
    rw [h2]; exact n_ranks_lt ho hS m g p
  · intro a b
    obtain ⟨o, h1, h2, _, _⟩ := hsend a
    obtain ⟨o', h1', h2', _, _⟩ := hrecv b
    rw [h2, h2']
    have l1 := m_lengths ho hD m g a
    have l2 := n_lengths ho hS m g b
    have e1 := (slots_points l1 (List.Perm.refl _) (b : Nat)).length_eq
    have e2 := (slots_points l2 (List.Perm.refl _) (a : Nat)).length_eq
    rw [List.length_map, SR.slots_length (List.Perm.refl _)] at e1 e2
    rw [e1, e2, (same_points hw ho hD hS m g a b).length_eq]
end

/-- C24, C25 and C21 together: when the exchange of a connectivity has finished on a process, every receiver
has all components of the value of the donor that targets it. -/
theorem C25_delivery {w : World d n} (hw : Spec.Consistent w) (hns : Spec.NotShared w) (ho : Spec.Once w)
    {D S : Fin n → List (List Int)} (hu : update w = some (D, S)) (m g : Int) {R : Rng d}
    (hR : (g, R) ∈ w.grids) {s : SR.Setup n} (hs : MapsFor w D S m g R s)
    (vals out0 : Fin n → Nat → Nat → V) (es : List (SR.Event n)) (x : SR.State n V)
    (hrun : SR.run s vals (SR.initial out0) es = some x) (b : Fin n) (hfin : x.finished b = true)
    (j : Nat) (y : Receiver d) (hy : (nReceivers (nEntry w S m g b))[j]? = some y) :
    ∃ (a : Fin n) (cm : ConnM d) (i : Nat) (z : Donor d), cm ∈ w.ms a ∧ cm.mGrid = m ∧ cm.nGrid = g ∧
      cm.donors[i]? = some z ∧ Ovk.Spec.pts cm.localRange z.lower ∧ z.dest = y.pt ∧
      ∀ c, c < s.count → x.out b c j = vals a c i := by
  obtain ⟨D', S', hu', hD, hS⟩ := C24_partial hw hns
  rw [hu] at hu'
  obtain ⟨rfl, rfl⟩ := Prod.mk.inj (Option.some.inj hu')
  have hmat := maps_matched hw ho hD hS m g hs
  -- the source rank of the receiver
  have hrow : ∃ a : Fin n, (nRanks (nEntry w S m g b))[j]? = some ((a : Nat) : Int) := by
    rcases nEntry_cases ho hS m g b with ⟨he, _⟩ | ⟨c, l, he, hc, hm, hg, hl, _, hv⟩
    · rw [he] at hy; simp [nReceivers] at hy
    · rw [he] at hy ⊢
      simp only [nReceivers, nRanks, Option.map_some, Option.getD_some] at hy ⊢
      obtain ⟨v, h1, p, r, h2, rfl⟩ := hv j y hy
      exact ⟨p, h1⟩
  obtain ⟨a, ha⟩ := hrow
  obtain ⟨oM, hM1, hM2⟩ := hs.send a
  obtain ⟨oN, hN1, hN2⟩ := hs.recv b
  obtain ⟨mm, h3, h4, h5, _⟩ := SR.build_ok (mRanks (mEntry w D m g a)) oM
  rw [hM2] at h3
  obtain rfl := Option.some.inj h3
  obtain ⟨mn, h3', h4', h5', _⟩ := SR.build_ok (nRanks (nEntry w S m g b)) oN
  rw [hN2] at h3'
  obtain rfl := Option.some.inj h3'
  obtain ⟨k, i, hk1, hk2, hir⟩ := (SR.C21_matching hmat a b).2.1 j (by rw [h4']; exact ha)
  have hval := (SR.C21_values hmat vals out0 es x hrun b hfin).values a k i j
  have hord := C25_order hM1 hN1 (m_lengths ho hD m g a) (n_lengths ho hS m g b) (a : Nat) (b : Nat)
    (same_points hw ho hD hS m g a b) (by
      intro z hz
      obtain ⟨⟨r, hr⟩, _⟩ := (mem_sent hw ho hD m g a b z).1 hz
      obtain ⟨R', hR', hz'⟩ := hw.donorPoint _ _ _ _ _ hr
      have : R' = R := by
        obtain ⟨o1, e1⟩ := before_exists w.grids 0 g R' hw.grids hR'
        obtain ⟨o2, e2⟩ := before_exists w.grids 0 g R hw.grids hR
        rw [e1] at e2
        exact (Prod.mk.inj (Option.some.inj e2)).2
      rw [← this]; exact hz')
  have hk1' : (SR.Spec.slots oN (nRanks (nEntry w S m g b)) (a : Nat))[k]? = some j := by
    have := hk1
    unfold SR.Spec.into at this
    rwa [h5', h4'] at this
  have hk2' : (SR.Spec.slots oM (mRanks (mEntry w D m g a)) (b : Nat))[k]? = some i := by
    have := hk2
    unfold SR.Spec.from_ at this
    rwa [h5, h4] at this
  have hpt := congrArg (fun l => l[k]?) hord
  simp only [List.getElem?_map, hk1', hk2', Option.map_some, Option.some.injEq] at hpt
  rw [h4] at hir
  rcases mEntry_cases ho hD m g a with ⟨he, _⟩ | ⟨c, l, he, hc, hm, hg, hl, hu, hv⟩
  · rw [he] at hir; simp [mRanks] at hir
  · rw [he] at hir hpt
    simp only [mDonors, mRanks, Option.map_some, Option.getD_some] at hir hpt
    have hlt := (List.getElem?_eq_some_iff.1 hir).1
    have hz := List.getElem?_eq_getElem (l := c.donors) (i := i) (by omega)
    refine ⟨a, c, i, _, hc, hm, hg, hz, ?_, ?_, fun cc hcc => hval cc hcc hk2 hk1⟩
    · obtain ⟨v, h6, _, h7⟩ := hv i _ hz
      rw [hir] at h6
      obtain rfl := Option.some.inj h6
      by_contra hno
      have := h7 hno
      omega
    · simpa [List.getD_eq_getElem?_getD, hz, hy] using hpt

/-- C26: with the same set of connectivities, different user tags or connectivities give different message
tags.  Missing from the full statement: operations created while different sets of connectivities exist. -/
theorem C26_partial (ids : List (Elem 2)) (hs : Sorted elemLess ids) (id id' : Elem 2) (tag tag' : Int)
    (h : id ∈ ids) (h' : id' ∈ ids) (he : globalTag ids id tag = globalTag ids id' tag') :
    tag = tag' ∧ id = id' := by
  have h1 := oset_find_mem (elemLess_sto 2).1 hs id h
  have h2 := oset_find_mem (elemLess_sto 2).1 hs id' h'
  have b1 := (List.getElem?_eq_some_iff.1 h1).1
  have b2 := (List.getElem?_eq_some_iff.1 h2).1
  unfold globalTag at he
  generalize OSet.find elemLess ids id = i at h1 b1 he
  generalize OSet.find elemLess ids id' = i' at h2 b2 he
  have ht : tag = tag' := by
    rcases Int.lt_trichotomy tag tag' with hlt | heq | hgt
    · have : (ids.length : Int) * (tag + 1) ≤ ids.length * tag' :=
        Int.mul_le_mul_of_nonneg_left (by omega) (by omega)
      rw [Int.mul_add] at this
      omega
    · exact heq
    · have : (ids.length : Int) * (tag' + 1) ≤ ids.length * tag :=
        Int.mul_le_mul_of_nonneg_left (by omega) (by omega)
      rw [Int.mul_add] at this
      omega
  subst ht
  have : i = i' := by omega
  subst this
  rw [h1] at h2
  exact ⟨rfl, Option.some.inj h2⟩

/-- The full statement of C26: operations may be created at different times, with different sets of
connectivities; operations on a connectivity stay when others are created. -/
def C26_statement : Prop := ∀ (ids ids' : List (Elem 2)), Sorted elemLess ids → Sorted elemLess ids' →
  ∀ (id id' : Elem 2) (tag tag' : Int), id ∈ ids → id' ∈ ids' → 0 ≤ tag → 0 ≤ tag' →
  globalTag ids id tag = globalTag ids' id' tag' → tag = tag' ∧ id = id'

def exId (a b : Int) : Elem 2 := ⟨[a, b], rfl⟩

example : exId 1 3 ∈ [exId 1 2, exId 1 3, exId 2 1] ∧ Sorted elemLess [exId 1 2, exId 1 3, exId 2 1] ∧
    globalTag [exId 1 2, exId 1 3, exId 2 1] (exId 1 3) 4 = 13 := by
  unfold Sorted; decide +kernel

/-- C26 as stated is false: the multiplier is the number of connectivities when the operation is created. -/
theorem C26_false : ¬ C26_statement := by
  intro h
  have := h [exId 1 2] [exId 1 2, exId 1 3] (by unfold Sorted; decide) (by unfold Sorted; decide) (exId 1 2) (exId 1 2) 2 1
    (by decide) (by decide) (by decide) (by decide) (by decide +kernel)
  exact absurd this.1 (by decide)

/- Donors listed as points 7, 2, 9 for rank 1 (and 4 for rank 0), receivers as 9, 7, 2 from rank 0. -/
example : IsOrder (⟨![0], ![10]⟩ : Rng 1) [![7], ![4], ![2], ![9]] [2, 1, 0, 3] ∧
    IsOrder (⟨![0], ![10]⟩ : Rng 1) [![9], ![7], ![2]] [2, 1, 0] ∧
    (Spec.pointsWith [![7], ![4], ![2], ![9]] [1, 0, 1, 1] 1 : List (Tup 1)) = [![7], ![2], ![9]] ∧
    (SR.Spec.slots [2, 1, 0, 3] [1, 0, 1, 1] 1) = [2, 0, 3] := by
  refine ⟨?_, ?_, ?_, ?_⟩
  · unfold IsOrder StdSorted; decide +kernel
  · unfold IsOrder StdSorted; decide +kernel
  · simp [Spec.pointsWith]
  · decide

/- Hypotheses of `C25_delivery` on the world of Props/Exchanger.lean. -/
def exD : Fin 5 → List (List Int) := ![[], [[1, 0, -1]], [[1]], [], []]
def exS : Fin 5 → List (List Int) := ![[[1]], [[2, 1]], [], [], []]
def exMaps : SR.Setup 5 where
  send := ![⟨[], [], [], []⟩, ⟨[1, 0, -1], [1, 2, 0], [(0, 1), (1, 1)], [1, 0, -1]⟩, ⟨[1], [0], [(1, 1)], [0]⟩,
    ⟨[], [], [], []⟩, ⟨[], [], [], []⟩]
  recv := ![⟨[1], [0], [(1, 1)], [0]⟩, ⟨[2, 1], [0, 1], [(1, 1), (2, 1)], [1, 0]⟩, ⟨[], [], [], []⟩,
    ⟨[], [], [], []⟩, ⟨[], [], [], []⟩]
  count := 1

theorem exRanks_update : update exRanks = some (exD, exS) := by
  have h : (update exRanks).map (fun r => ((List.finRange 5).map r.1, (List.finRange 5).map r.2)) =
    some ((List.finRange 5).map exD, (List.finRange 5).map exS) := by decide +kernel
  obtain ⟨⟨D, S⟩, h1, h2⟩ := Option.map_eq_some_iff.1 h
  rw [h1]
  obtain ⟨h3, h4⟩ := Prod.mk.inj h2
  rw [List.map_inj_left] at h3 h4
  have e1 : D = exD := funext fun i => h3 i (List.mem_finRange i)
  have e2 : S = exS := funext fun i => h4 i (List.mem_finRange i)
  rw [e1, e2]

theorem exRanks_once : Spec.Once exRanks where
  mIds := by intro p; fin_cases p <;> simp [exRanks]
  nIds := by intro p; fin_cases p <;> simp [exRanks]
  donors := by intro p; fin_cases p <;> simp [exRanks] <;> decide
  receivers := by intro p; fin_cases p <;> simp [exRanks]

theorem exRanks_maps : MapsFor exRanks exD exS 0 1 ⟨![0], ![4]⟩ exMaps where
  send := by
    intro p
    refine ⟨(![[], [1, 2, 0], [0], [], []] : Fin 5 → List Nat) p, ?_, ?_⟩
    · unfold IsOrder StdSorted; revert p; decide +kernel
    · revert p; decide +kernel
  recv := by
    intro p
    refine ⟨(![[0], [0, 1], [], [], []] : Fin 5 → List Nat) p, ?_, ?_⟩
    · unfold IsOrder StdSorted; revert p; decide +kernel
    · revert p; decide +kernel

end Ovk.Xch
