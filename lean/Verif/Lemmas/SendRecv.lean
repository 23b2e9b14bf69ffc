/- Send and receive maps: what the constructor builds, packing and unpacking. -/
import Verif.Model.SendRecv
import Verif.Lemmas.Container
import Verif.Props.Container
import Mathlib.Tactic.SplitIfs
import Mathlib.Tactic.ByContra
import Mathlib.Data.List.Perm.Basic
import Mathlib.Data.List.Count
import Mathlib.Data.List.Nodup

namespace Ovk.SR
variable {n : Nat} {V : Type}

theorem countRanks_spec : ∀ (rs : List Int) (m : OMap Int Nat) (c : Int → Nat), m.WF intLess →
    (∀ k v, (k, v) ∈ m.entries ↔ 0 ≤ k ∧ 0 < v ∧ v = c k) →
    (countRanks m rs).WF intLess ∧
    ∀ k v, (k, v) ∈ (countRanks m rs).entries ↔ 0 ≤ k ∧ 0 < v ∧ v = c k + rs.count k
  | [], m, c, hw, hm => ⟨hw, by simpa [countRanks] using hm⟩
  | r :: rs, m, c, hw, hm => by
    unfold countRanks
    split_ifs with hr
    · obtain ⟨hw1, hm1⟩ := omap_fetch_spec intLess_sto hw r 0
      have hex : ∃ v, (r, v) ∈ (m.fetch intLess r 0).entries := by
        by_cases h : ∃ w, (r, w) ∈ m.entries
        · obtain ⟨w, h⟩ := h; exact ⟨w, (hm1 _ _).2 (.inl h)⟩
        · exact ⟨0, (hm1 _ _).2 (.inr ⟨rfl, rfl, fun w hw => h ⟨w, hw⟩⟩)⟩
      obtain ⟨hw2, hm2⟩ := omap_modify_spec intLess_sto hw1 r (· + 1) hex
      obtain ⟨h3, h4⟩ := countRanks_spec rs _ (fun k => if k = r then c k + 1 else c k) hw2 (by
        intro k v
        rw [hm2]
        by_cases hk : k = r
        · subst hk
          simp only [ne_eq, not_true_eq_false, false_and, true_and, false_or, if_true]
          constructor
          · rintro ⟨w, hw', rfl⟩
            rcases (hm1 _ _).1 hw' with h | ⟨_, rfl, h⟩
            · have := (hm _ _).1 h; omega
            · have : c k = 0 := by
                by_contra hc
                exact h (c k) ((hm _ _).2 ⟨by omega, by omega, rfl⟩)
              omega
          · rintro ⟨_, h1, rfl⟩
            refine ⟨c k, (hm1 _ _).2 ?_, rfl⟩
            by_cases hc : c k = 0
            · refine .inr ⟨rfl, hc, fun w hw' => ?_⟩
              have := (hm _ _).1 hw'; omega
            · exact .inl ((hm _ _).2 ⟨by omega, by omega, rfl⟩)
        · simp only [ne_eq, hk, not_false_eq_true, true_and, false_and, or_false, if_false]
          rw [hm1]
          simp [hk, hm])
      refine ⟨h3, fun k v => ?_⟩
      rw [h4, List.count_cons]
      by_cases hk : k = r
      · subst hk; simp only [if_true, beq_self_eq_true]; omega
      · have : (r == k) = false := by simpa using fun e => hk e.symm
        simp only [hk, if_false, this]; simp
    · obtain ⟨h3, h4⟩ := countRanks_spec rs m c hw hm
      refine ⟨h3, fun k v => ?_⟩
      rw [h4, List.count_cons]
      by_cases hk : r = k
      · subst hk; constructor <;> intro h <;> omega
      · have : (r == k) = false := by simpa using hk
        simp [this]

theorem rankToIndex_spec : ∀ (xs : List ((Int × Nat) × Nat)) (m : OMap Int Nat), m.WF intLess →
    (xs.map fun x => x.1.1).Nodup →
    (xs.foldl (fun m x => m.insert intLess x.1.1 x.2) m).WF intLess ∧
    ∀ k i, (k, i) ∈ (xs.foldl (fun m x => m.insert intLess x.1.1 x.2) m).entries ↔
      (∃ x ∈ xs, x.1.1 = k ∧ x.2 = i) ∨ ((∀ x ∈ xs, x.1.1 ≠ k) ∧ (k, i) ∈ m.entries)
  | [], m, hw, _ => ⟨hw, by simp⟩
  | x :: xs, m, hw, hn => by
    rw [List.foldl_cons]
    rw [List.map_cons, List.nodup_cons] at hn
    obtain ⟨hw1, hm1⟩ := omap_insert_spec intLess_sto hw x.1.1 x.2
    obtain ⟨h3, h4⟩ := rankToIndex_spec xs _ hw1 hn.2
    refine ⟨h3, fun k i => ?_⟩
    rw [h4, hm1]
    simp only [List.mem_cons, exists_eq_or_imp, forall_eq_or_imp]
    by_cases hk : x.1.1 = k
    · subst hk
      have hno : ∀ y ∈ xs, y.1.1 ≠ x.1.1 := fun y hy e => hn.1 (List.mem_map.2 ⟨y, hy, e⟩)
      constructor
      · rintro (⟨y, hy, e, _⟩ | ⟨_, h⟩)
        · exact absurd e (hno y hy)
        · rcases h with ⟨_, e⟩ | ⟨e, _⟩
          · exact .inl (.inl ⟨rfl, e.symm⟩)
          · exact absurd rfl e
      · rintro ((⟨_, e⟩ | ⟨y, hy, e, _⟩) | ⟨⟨e, _⟩, _⟩)
        · exact .inr ⟨hno, .inl ⟨rfl, e.symm⟩⟩
        · exact absurd e (hno y hy)
        · exact absurd rfl e
    · have hk' : k ≠ x.1.1 := fun e => hk e.symm
      simp [hk, hk']

/-- What a map must satisfy. -/
structure MapOk (m : Map) : Prop where
  len : m.idx.length = m.ranks.length
  neg : ∀ (v : Nat) (r : Int), m.ranks[v]? = some r → r < 0 → m.idx[v]? = some (-1)
  pos : ∀ (v : Nat) (r : Int), m.ranks[v]? = some r → 0 ≤ r →
    ∃ i : Nat, m.idx[v]? = some (i : Int) ∧ m.msgs[i]? = some (r, m.ranks.count r)
  msg : ∀ (i : Nat) (r : Int) (nv : Nat), m.msgs[i]? = some (r, nv) →
    0 ≤ r ∧ r ∈ m.ranks ∧ nv = m.ranks.count r
  uniq : ∀ (i j : Nat) (r : Int) (x y : Nat), m.msgs[i]? = some (r, x) → m.msgs[j]? = some (r, y) → i = j

theorem build_ok (ranks : List Int) (order : List Nat) :
    ∃ m, build ranks order = some m ∧ m.ranks = ranks ∧ m.order = order ∧ MapOk m := by
  obtain ⟨hw, hc⟩ := countRanks_spec ranks ⟨[], []⟩ (fun _ => 0) ⟨rfl, List.Pairwise.nil⟩
    (by intro k v; simp only [List.not_mem_nil, false_iff]; omega)
  have hnod : ((countRanks ⟨[], []⟩ ranks).entries.map Prod.fst).Nodup := by
    rw [← hw.1]
    refine hw.2.imp ?_
    intro a b hab e
    subst e
    rw [intLess_sto.irrefl] at hab
    exact Bool.false_ne_true hab
  obtain ⟨hw2, hr⟩ := rankToIndex_spec (countRanks ⟨[], []⟩ ranks).entries.zipIdx ⟨[], []⟩
    ⟨rfl, List.Pairwise.nil⟩ (by
      have : (countRanks ⟨[], []⟩ ranks).entries.zipIdx.map (fun x => x.1.1) =
          (countRanks ⟨[], []⟩ ranks).entries.map Prod.fst := by
        rw [← List.zipIdx_map_fst 0 (countRanks ⟨[], []⟩ ranks).entries, List.map_map]
        simp [Function.comp_def]
      rw [this]; exact hnod)
  have hget : ∀ r : Int, 0 ≤ r → r ∈ ranks → ∃ i : Nat,
      (rankToIndex (countRanks ⟨[], []⟩ ranks).entries).get? intLess r = some i ∧
      (countRanks ⟨[], []⟩ ranks).entries[i]? = some (r, ranks.count r) := by
    intro r hr0 hrm
    have hmem := (hc r (ranks.count r)).2 ⟨hr0, List.count_pos_iff.2 hrm, by simp⟩
    obtain ⟨i, hi⟩ := List.mem_iff_getElem?.1 hmem
    refine ⟨i, omap_get_spec intLess_sto hw2 r i ((hr r i).2 (.inl ⟨((r, ranks.count r), i), ?_, rfl, rfl⟩)), hi⟩
    exact List.mem_zipIdx_iff_getElem?.2 hi
  have hidx : ∃ idx, slotIndices (rankToIndex (countRanks ⟨[], []⟩ ranks).entries) ranks = some idx ∧
      idx.length = ranks.length ∧
      ∀ (v : Nat) (r : Int), ranks[v]? = some r → (r < 0 → idx[v]? = some (-1)) ∧
        (0 ≤ r → ∃ i : Nat, idx[v]? = some (i : Int) ∧
          (countRanks ⟨[], []⟩ ranks).entries[i]? = some (r, ranks.count r)) := by
    unfold slotIndices
    have gen : ∀ rs : List Int, (∀ r ∈ rs, r ∈ ranks) → ∃ idx, (rs.mapM fun r => if r ≥ 0 then
          ((rankToIndex (countRanks ⟨[], []⟩ ranks).entries).get? intLess r).map Int.ofNat else some (-1)) =
          some idx ∧ idx.length = rs.length ∧
      ∀ (v : Nat) (r : Int), rs[v]? = some r → (r < 0 → idx[v]? = some (-1)) ∧
        (0 ≤ r → ∃ i : Nat, idx[v]? = some (i : Int) ∧
          (countRanks ⟨[], []⟩ ranks).entries[i]? = some (r, ranks.count r)) := by
      intro rs
      induction rs with
      | nil => intro _; exact ⟨[], rfl, rfl, by simp⟩
      | cons r rs ih =>
        intro h
        obtain ⟨idx, h1, h2, h3⟩ := ih fun x hx => h x (by simp [hx])
        by_cases hr0 : r ≥ 0
        · obtain ⟨i, hi1, hi2⟩ := hget r hr0 (h r (by simp))
          refine ⟨(i : Int) :: idx, ?_, by simp [h2], ?_⟩
          · rw [List.mapM_cons, if_pos hr0, hi1, h1]; rfl
          · intro v r' hv
            cases v with
            | zero =>
              simp only [List.getElem?_cons_zero, Option.some.injEq] at hv
              subst hv
              exact ⟨fun hn => by omega, fun _ => ⟨i, rfl, hi2⟩⟩
            | succ v => simpa using h3 v r' (by simpa using hv)
        · refine ⟨-1 :: idx, ?_, by simp [h2], ?_⟩
          · rw [List.mapM_cons, if_neg hr0, h1]; rfl
          · intro v r' hv
            cases v with
            | zero =>
              simp only [List.getElem?_cons_zero, Option.some.injEq] at hv
              subst hv
              exact ⟨fun _ => rfl, fun hn => absurd hn hr0⟩
            | succ v => simpa using h3 v r' (by simpa using hv)
    exact gen ranks fun _ h => h
  obtain ⟨idx, h1, h2, h3⟩ := hidx
  refine ⟨⟨ranks, order, (countRanks ⟨[], []⟩ ranks).entries, idx⟩, ?_, rfl, rfl, ?_⟩
  · unfold build; simp [h1]
  · refine ⟨h2, fun v r hv => (h3 v r hv).1, fun v r hv => (h3 v r hv).2, ?_, ?_⟩
    · intro i r nv hi
      have := (hc r nv).1 (List.mem_of_getElem? hi)
      have hcnt : nv = ranks.count r := by simpa using this.2.2
      exact ⟨this.1, List.count_pos_iff.1 (by show 0 < ranks.count r; omega), hcnt⟩
    · intro i j r x y hi hj
      simp only at hi hj
      obtain ⟨hi1, hi2⟩ := List.getElem?_eq_some_iff.1 hi
      obtain ⟨hj1, hj2⟩ := List.getElem?_eq_some_iff.1 hj
      refine (List.Nodup.getElem_inj_iff hnod (hi := by simpa using hi1) (hj := by simpa using hj1)).1 ?_
      simp [hi2, hj2]

namespace Spec
/-- The slots with rank `r`, in the given order. -/
def slots (order : List Nat) (ranks : List Int) (r : Int) : List Nat :=
  order.filter fun v => ranks[v]? = some r
end Spec

theorem slots_append (o o' : List Nat) (ranks : List Int) (r : Int) :
    Spec.slots (o ++ o') ranks r = Spec.slots o ranks r ++ Spec.slots o' ranks r := by
  unfold Spec.slots; rw [List.filter_append]

theorem filter_range_count (ranks : List Int) (r : Int) :
    ((List.range ranks.length).filter fun v => ranks[v]? = some r).length = ranks.count r := by
  induction ranks with
  | nil => rfl
  | cons x xs ih =>
    rw [List.length_cons, List.range_succ_eq_map, List.filter_cons, List.filter_map, List.count_cons]
    simp only [List.getElem?_cons_zero, Option.some.injEq, decide_eq_true_eq]
    have : ((fun v => decide ((x :: xs)[v]? = some r)) ∘ Nat.succ) = fun v => decide (xs[v]? = some r) := by
      funext v; simp
    rw [this]
    by_cases h : x = r
    · subst h; simp [ih]
    · have h' : (x == r) = false := by simpa using h
      simp [h, ih]

theorem slots_length {order : List Nat} {ranks : List Int} (h : order.Perm (List.range ranks.length)) (r : Int) :
    (Spec.slots order ranks r).length = ranks.count r := by
  unfold Spec.slots
  rw [(h.filter _).length_eq, filter_range_count]

theorem slot_inj {nv k k' c c' : Nat} (hk : k < nv) (hk' : k' < nv) (h : c * nv + k = c' * nv + k') :
    c = c' ∧ k = k' := by
  have h1 : (c * nv + k) / nv = c := by
    rw [Nat.add_comm, Nat.add_mul_div_right _ _ (by omega), Nat.div_eq_of_lt hk]; omega
  have h2 : (c' * nv + k') / nv = c' := by
    rw [Nat.add_comm, Nat.add_mul_div_right _ _ (by omega), Nat.div_eq_of_lt hk']; omega
  have : c = c' := by rw [← h1, ← h2, h]
  subst this
  exact ⟨rfl, by omega⟩

theorem putColumn_hit {count nv k : Nat} (hk : k < nv) (v : Nat → V) (b : Nat → Option V) {c : Nat}
    (hc : c < count) : putColumn count nv k v b (c * nv + k) = some (v c) := by
  unfold putColumn
  induction count with
  | zero => omega
  | succ m ih =>
    rw [List.range_succ, List.foldl_append]
    simp only [List.foldl_cons, List.foldl_nil]
    by_cases h : c = m
    · subst h; simp
    · rw [if_neg (fun e => h (slot_inj hk hk e).1)]
      exact ih (by omega)

theorem putColumn_miss {count nv k k' : Nat} (hk : k < nv) (hk' : k' < nv) (hne : k ≠ k') (v : Nat → V)
    (b : Nat → Option V) (c : Nat) : putColumn count nv k v b (c * nv + k') = b (c * nv + k') := by
  unfold putColumn
  induction count with
  | zero => rfl
  | succ m ih =>
    rw [List.range_succ, List.foldl_append]
    simp only [List.foldl_cons, List.foldl_nil]
    rw [if_neg (fun e => hne (slot_inj hk hk' e.symm).2), ih]

theorem slots_snoc_other (pre : List Nat) {ranks : List Int} {v : Nat} {r r' : Int}
    (hv : ranks[v]? = some r) (h : r ≠ r') : Spec.slots (pre ++ [v]) ranks r' = Spec.slots pre ranks r' := by
  rw [slots_append]
  simp [Spec.slots, hv, h]

theorem slots_snoc_same (pre : List Nat) {ranks : List Int} {v : Nat} {r : Int}
    (hv : ranks[v]? = some r) : Spec.slots (pre ++ [v]) ranks r = Spec.slots pre ranks r ++ [v] := by
  rw [slots_append]
  simp [Spec.slots, hv]

/-- Loop invariant of packing. -/
def PackInv (m : Map) (count : Nat) (vals : Nat → Nat → V) (pre : List Nat) (s : Pack V) : Prop :=
  ∀ (i : Nat) (r : Int) (nv : Nat), m.msgs[i]? = some (r, nv) →
    s.next i = (Spec.slots pre m.ranks r).length ∧
    ∀ (k v c : Nat), c < count → (Spec.slots pre m.ranks r)[k]? = some v →
      s.buf i (c * nv + k) = some (vals c v)

theorem fits {m : Map} (ho : m.order.Perm (List.range m.ranks.length)) {pre rest : List Nat} {v : Nat}
    (he : pre ++ v :: rest = m.order) {r : Int} (hv : m.ranks[v]? = some r) :
    (Spec.slots pre m.ranks r).length < m.ranks.count r := by
  rw [← slots_length ho r, ← he, slots_append]
  have : Spec.slots (v :: rest) m.ranks r = v :: Spec.slots rest m.ranks r := by
    simp [Spec.slots, hv]
  rw [this]
  simp

theorem rank_at {m : Map} (ho : m.order.Perm (List.range m.ranks.length)) {pre rest : List Nat} {v : Nat}
    (he : pre ++ v :: rest = m.order) : ∃ r, m.ranks[v]? = some r := by
  have : v ∈ List.range m.ranks.length := ho.subset (by rw [← he]; simp)
  rw [List.mem_range] at this
  exact ⟨_, List.getElem?_eq_getElem this⟩

theorem pack_step {m : Map} (hm : MapOk m) (ho : m.order.Perm (List.range m.ranks.length)) (count : Nat)
    (vals : Nat → Nat → V) {pre rest : List Nat} {v : Nat} (he : pre ++ v :: rest = m.order) (s : Pack V)
    (h : PackInv m count vals pre s) :
    ∃ s', packOne m count vals s v = some s' ∧ PackInv m count vals (pre ++ [v]) s' := by
  obtain ⟨r, hv⟩ := rank_at ho he
  by_cases hr : r < 0
  · refine ⟨s, ?_, ?_⟩
    · unfold packOne; rw [hm.neg v r hv hr]; simp
    · intro i r' nv hi
      have := hm.msg i r' nv hi
      rw [slots_snoc_other pre hv (by omega)]
      exact h i r' nv hi
  · obtain ⟨i, hi, hmi⟩ := hm.pos v r hv (by omega)
    obtain ⟨hn, hb⟩ := h i r _ hmi
    have hlt := fits ho he hv
    refine ⟨⟨fun j => if j = i then s.next j + 1 else s.next j,
      fun j => if j = i then putColumn count (m.ranks.count r) (s.next j) (fun c => vals c v) (s.buf j)
        else s.buf j⟩, ?_, ?_⟩
    · unfold packOne
      rw [hi]
      simp only [ge_iff_le, Int.natCast_nonneg, if_true, Int.toNat_natCast, hmi]
      rw [if_pos (by rw [hn]; exact hlt)]
    · intro j r' nv hj
      by_cases hji : j = i
      · subst hji
        rw [hmi] at hj
        obtain ⟨rfl, rfl⟩ := Prod.mk.inj (Option.some.inj hj)
        rw [slots_snoc_same pre hv]
        simp only [if_true]
        refine ⟨by simp [hn], ?_⟩
        intro k w c hc hk
        have hsn : s.next j < m.ranks.count r := by rw [hn]; exact hlt
        by_cases hkn : k < (Spec.slots pre m.ranks r).length
        · rw [List.getElem?_append_left hkn] at hk
          rw [putColumn_miss hsn (by omega) (by omega)]
          exact hb k w c hc hk
        · rw [List.getElem?_append_right (by omega)] at hk
          have hkk : k = (Spec.slots pre m.ranks r).length := by
            by_contra hne
            rw [List.getElem?_eq_none (by simp; omega)] at hk
            simp at hk
          subst hkk
          simp only [Nat.sub_self, List.getElem?_cons_zero, Option.some.injEq] at hk
          subst hk
          have := putColumn_hit hsn (fun c => vals c v) (s.buf j) hc
          rw [hn] at this ⊢
          exact this
      · have hrr : r ≠ r' := by
          rintro rfl
          exact hji (hm.uniq j i r _ _ hj hmi)
        rw [slots_snoc_other pre hv hrr]
        simp only [hji, if_false]
        exact h j r' nv hj

theorem pack_spec {m : Map} (hm : MapOk m) (ho : m.order.Perm (List.range m.ranks.length)) (count : Nat)
    (vals : Nat → Nat → V) : ∃ p, pack m count vals = some p ∧ PackInv m count vals m.order p := by
  have gen : ∀ (rest pre : List Nat) (s : Pack V), pre ++ rest = m.order → PackInv m count vals pre s →
      ∃ p, rest.foldlM (packOne m count vals) s = some p ∧ PackInv m count vals m.order p := by
    intro rest
    induction rest with
    | nil => intro pre s he h; rw [List.append_nil] at he; subst he; exact ⟨s, rfl, h⟩
    | cons v rest ih =>
      intro pre s he h
      obtain ⟨s', h1, h2⟩ := pack_step hm ho count vals he s h
      obtain ⟨p, h3, h4⟩ := ih (pre ++ [v]) s' (by simpa using he) h2
      exact ⟨p, by rw [List.foldlM_cons, h1]; exact h3, h4⟩
  refine gen m.order [] _ rfl ?_
  intro i r nv _
  exact ⟨rfl, by simp [Spec.slots]⟩

theorem getColumn_spec (nv k iValue : Nat) (b : Nat → Option V) (w : Nat → V) : ∀ (cs : List Nat)
    (o : Nat → Nat → V), (∀ c ∈ cs, b (c * nv + k) = some (w c)) →
    ∃ o', getColumn nv k iValue b cs o = some o' ∧
      ∀ c j, o' c j = if c ∈ cs ∧ j = iValue then w c else o c j
  | [], o, _ => ⟨o, rfl, by simp⟩
  | c :: cs, o, h => by
    obtain ⟨o', h1, h2⟩ := getColumn_spec nv k iValue b w cs
      (fun c' j => if c' = c ∧ j = iValue then w c else o c' j) fun c' hc => h c' (by simp [hc])
    refine ⟨o', ?_, ?_⟩
    · unfold getColumn; rw [h c (by simp)]; exact h1
    · intro c' j
      rw [h2]
      by_cases e : c' = c
      · subst e; by_cases hj : j = iValue <;> simp [hj]
      · simp [e]

/-- Loop invariant of unpacking; `w i k c` is what the buffers hold. -/
structure UnpackInv (m : Map) (count : Nat) (w : Nat → Nat → Nat → V) (out0 : Nat → Nat → V) (pre : List Nat)
    (s : Unpack V) : Prop where
  next : ∀ (i : Nat) (r : Int) (nv : Nat), m.msgs[i]? = some (r, nv) →
    s.next i = (Spec.slots pre m.ranks r).length
  got : ∀ (i : Nat) (r : Int) (nv : Nat), m.msgs[i]? = some (r, nv) → ∀ (k v c : Nat), c < count →
    (Spec.slots pre m.ranks r)[k]? = some v → s.out c v = w i k c
  rest : ∀ c v, (v ∈ pre → c < count → ∃ r, m.ranks[v]? = some r ∧ r < 0) → s.out c v = out0 c v

theorem unpack_spec {m : Map} (hm : MapOk m) (ho : m.order.Perm (List.range m.ranks.length)) (count : Nat)
    (buf : Nat → Nat → Option V) (w : Nat → Nat → Nat → V) (out0 : Nat → Nat → V)
    (hbuf : ∀ (i : Nat) (r : Int) (nv : Nat), m.msgs[i]? = some (r, nv) → ∀ k < nv, ∀ c < count,
      buf i (c * nv + k) = some (w i k c)) :
    ∃ u, unpack m count buf out0 = some u ∧ UnpackInv m count w out0 m.order u := by
  have hnod : m.order.Nodup := ho.nodup_iff.2 List.nodup_range
  have gen : ∀ (rest pre : List Nat) (s : Unpack V), pre ++ rest = m.order →
      UnpackInv m count w out0 pre s →
      ∃ p, rest.foldlM (unpackOne m count buf) s = some p ∧ UnpackInv m count w out0 m.order p := by
    intro rest
    induction rest with
    | nil => intro pre s he h; rw [List.append_nil] at he; subst he; exact ⟨s, rfl, h⟩
    | cons v rest ih =>
      intro pre s he h
      have hvpre : v ∉ pre := by
        rw [← he] at hnod
        exact fun hp => (List.disjoint_of_nodup_append hnod) hp (by simp)
      suffices hs : ∃ s', unpackOne m count buf s v = some s' ∧ UnpackInv m count w out0 (pre ++ [v]) s' by
        obtain ⟨s', h1, h2⟩ := hs
        obtain ⟨p, h3, h4⟩ := ih (pre ++ [v]) s' (by simpa using he) h2
        exact ⟨p, by rw [List.foldlM_cons, h1]; exact h3, h4⟩
      obtain ⟨r, hv⟩ := rank_at ho he
      by_cases hr : r < 0
      · refine ⟨s, ?_, ?_, ?_, ?_⟩
        · unfold unpackOne; rw [hm.neg v r hv hr]; simp
        · intro i r' nv hi
          have := hm.msg i r' nv hi
          rw [slots_snoc_other pre hv (by omega)]
          exact h.next i r' nv hi
        · intro i r' nv hi
          have := hm.msg i r' nv hi
          rw [slots_snoc_other pre hv (by omega)]
          exact h.got i r' nv hi
        · intro c u hu
          exact h.rest c u fun hu' => hu (by simp [hu'])
      · obtain ⟨i, hi, hmi⟩ := hm.pos v r hv (by omega)
        have hn := h.next i r _ hmi
        have hlt := fits ho he hv
        have hsn : s.next i < m.ranks.count r := by rw [hn]; exact hlt
        obtain ⟨o', ho1, ho2⟩ := getColumn_spec (m.ranks.count r) (s.next i) v (buf i)
          (fun c => w i (s.next i) c) (List.range count) s.out
          (fun c hc => hbuf i r _ hmi _ hsn c (List.mem_range.1 hc))
        refine ⟨⟨fun j => if j = i then s.next j + 1 else s.next j, o'⟩, ?_, ?_, ?_, ?_⟩
        · unfold unpackOne
          rw [hi]
          simp only [ge_iff_le, Int.natCast_nonneg, if_true, Int.toNat_natCast, hmi]
          rw [if_pos hsn, ho1]; rfl
        · intro j r' nv hj
          by_cases hji : j = i
          · subst hji
            rw [hmi] at hj
            obtain ⟨rfl, rfl⟩ := Prod.mk.inj (Option.some.inj hj)
            rw [slots_snoc_same pre hv]
            simp [hn]
          · have hrr : r ≠ r' := by
              rintro rfl
              exact hji (hm.uniq j i r _ _ hj hmi)
            rw [slots_snoc_other pre hv hrr]
            simp only [hji, if_false]
            exact h.next j r' nv hj
        · intro j r' nv hj k u c hc hk
          simp only
          rw [ho2]
          by_cases hji : j = i
          · subst hji
            rw [hmi] at hj
            obtain ⟨rfl, rfl⟩ := Prod.mk.inj (Option.some.inj hj)
            rw [slots_snoc_same pre hv] at hk
            by_cases hkn : k < (Spec.slots pre m.ranks r).length
            · rw [List.getElem?_append_left hkn] at hk
              have hup : u ∈ pre := List.mem_of_mem_filter (List.mem_of_getElem? hk)
              rw [if_neg (by rintro ⟨_, rfl⟩; exact hvpre hup)]
              exact h.got j r _ hmi k u c hc hk
            · rw [List.getElem?_append_right (by omega)] at hk
              have hkk : k = (Spec.slots pre m.ranks r).length := by
                by_contra hne
                rw [List.getElem?_eq_none (by simp; omega)] at hk
                simp at hk
              subst hkk
              simp only [Nat.sub_self, List.getElem?_cons_zero, Option.some.injEq] at hk
              subst hk
              rw [if_pos ⟨List.mem_range.2 hc, rfl⟩, hn]
          · have hrr : r ≠ r' := by
              rintro rfl
              exact hji (hm.uniq j i r _ _ hj hmi)
            rw [slots_snoc_other pre hv hrr] at hk
            have hup : u ∈ pre := List.mem_of_mem_filter (List.mem_of_getElem? hk)
            rw [if_neg (by rintro ⟨_, rfl⟩; exact hvpre hup)]
            exact h.got j r' nv hj k u c hc hk
        · intro c u hu
          simp only
          rw [ho2]
          by_cases hcu : c ∈ List.range count ∧ u = v
          · obtain ⟨hc, rfl⟩ := hcu
            obtain ⟨r', hr1, hr2⟩ := hu (by simp) (List.mem_range.1 hc)
            rw [hv] at hr1
            obtain rfl := Option.some.inj hr1
            exact absurd hr2 hr
          · rw [if_neg hcu]
            exact h.rest c u fun hu' => hu (by simp [hu'])
  refine gen m.order [] _ rfl ⟨fun i r nv _ => rfl, by simp [Spec.slots], fun _ _ _ => rfl⟩

end Ovk.SR
