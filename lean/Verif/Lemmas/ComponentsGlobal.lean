import Verif.Lemmas.Components
/-! Helper lemmas for connected components: several processes. -/
namespace Ovk.CC
open UF Relation

variable {P : Type} [DecidableEq P]

theorem exchange_at : ∀ (l : List (Proc P × (P → Int))) (r : Nat) (pr : Proc P) (lab : P → Int) (p : P),
    l[r]? = some (pr, lab) → p ∈ pr.loc →
    (∀ (r' : Nat) x, r' < r → l[r']? = some x → p ∉ x.1.loc) → exchange l p = lab p := by
  intro l
  induction l with
  | nil => intro r pr lab p h; simp at h
  | cons x l ih =>
    intro r pr lab p h hp hd
    obtain ⟨pr0, lab0⟩ := x
    cases r with
    | zero =>
      simp only [List.getElem?_cons_zero, Option.some.injEq, Prod.mk.injEq] at h
      obtain ⟨rfl, rfl⟩ := h
      simp [exchange, hp]
    | succ r =>
      have h0 := hd 0 _ (by omega) (by rfl)
      simp only [exchange, if_neg h0]
      refine ih r pr lab p (by simpa using h) hp ?_
      intro r' x hr hx
      exact hd (r' + 1) x (by omega) (by simpa using hx)

theorem before_succ (counts : List Int) (r : Nat) (n : Int) (h : counts[r]? = some n) :
    before counts (r + 1) = before counts r + n := by
  unfold before
  obtain ⟨hr, h⟩ := List.getElem?_eq_some_iff.1 h
  rw [List.take_succ_eq_append_getElem hr, List.sum_append, h]
  simp

theorem before_mono (counts : List Int) (hn : ∀ n ∈ counts, 0 ≤ n) (r k : Nat) :
    before counts r ≤ before counts (r + k) := by
  induction k with
  | zero => exact Int.le_refl _
  | succ k ih =>
    refine Int.le_trans ih ?_
    by_cases h : r + k < counts.length
    · have := before_succ counts (r + k) _ (List.getElem?_eq_getElem h)
      have h2 := hn _ (List.getElem_mem h)
      rw [← Nat.add_assoc]; omega
    · have e : before counts (r + (k + 1)) = before counts (r + k) := by
        unfold before
        rw [List.take_of_length_le (by omega), List.take_of_length_le (by omega)]
      omega

theorem before_nonneg (counts : List Int) (hn : ∀ n ∈ counts, 0 ≤ n) (r : Nat) :
    0 ≤ before counts r := by
  have := before_mono counts hn 0 r
  simpa [before] using this

theorem pairLess_sto : IsSTO pairLess := by
  refine ⟨?_, ?_, ?_⟩
  · intro a; simp [pairLess]
  · intro a b c; simp only [pairLess, Bool.or_eq_true, Bool.and_eq_true, decide_eq_true_eq, beq_iff_eq]
    omega
  · rintro ⟨a, a'⟩ ⟨b, b'⟩ h1 h2
    simp [pairLess] at h1 h2
    have h3 : a = b := by omega
    have h4 : a' = b' := by have := h1.2 h3; have := h2.2 h3.symm; omega
    rw [h3, h4]

theorem mem_foldl_insert : ∀ (xs l : List (Int × Int)), Sorted pairLess l →
    ∀ x, x ∈ xs.foldl (OSet.insert pairLess) l ↔ x ∈ xs ∨ x ∈ l := by
  intro xs
  induction xs with
  | nil => intro l _ x; simp
  | cons y xs ih =>
    intro l hl x
    obtain ⟨h1, h2⟩ := oset_insert_spec pairLess_sto hl y
    rw [List.foldl_cons, ih _ h1, h2, List.mem_cons]
    tauto

omit [DecidableEq P] in
theorem mem_extUnions (mask : P → Bool) (pr : Proc P) (label : P → Int) (a b : Int) :
    (a, b) ∈ extUnions mask pr label ↔ ∃ p q, p ∈ pr.loc ∧ q ∈ pr.enbrs p ∧ mask q = mask p ∧
      a = label p ∧ b = label q := by
  unfold extUnions
  rw [mem_foldl_insert _ _ List.Pairwise.nil]
  simp only [List.not_mem_nil, or_false, List.mem_flatMap, List.mem_filterMap]
  constructor
  · rintro ⟨p, hp, q, hq, h⟩
    split_ifs at h with hc
    cases h
    exact ⟨p, q, hp, hq, hc, rfl, rfl⟩
  · rintro ⟨p, q, hp, hq, h1, rfl, rfl⟩
    exact ⟨p, hp, q, hq, by rw [if_pos h1]⟩

/-- What the processes must satisfy together. -/
structure Procs.OK (procs : List (Proc P)) : Prop where
  each : ∀ pr ∈ procs, pr.OK
  disj : ∀ (r r' : Nat) (pr pr' : Proc P) (p : P), procs[r]? = some pr → procs[r']? = some pr' →
    p ∈ pr.loc → p ∈ pr'.loc → r = r'
  ext : ∀ pr ∈ procs, ∀ p ∈ pr.loc, ∀ q ∈ pr.enbrs p, ∃ pr' ∈ procs, q ∈ pr'.loc

def Owned (procs : List (Proc P)) (p : P) : Prop := ∃ pr ∈ procs, p ∈ pr.loc

/-- Edges seen by any process. -/
def GEdge (mask : P → Bool) (procs : List (Proc P)) (p q : P) : Prop :=
  ∃ pr ∈ procs, p ∈ pr.loc ∧ (q ∈ pr.lnbrs p ∨ q ∈ pr.enbrs p) ∧ mask p = mask q

theorem mapM_some {α β : Type} (f : α → Option β) (g : α → β) :
    ∀ l : List α, (∀ x ∈ l, f x = some (g x)) → l.mapM f = some (l.map g) := by
  intro l
  induction l with
  | nil => intro _; rfl
  | cons x l ih =>
    intro h
    rw [List.mapM_cons, h x (by simp), ih (fun y hy => h y (by simp [hy]))]
    rfl

/-- The outcome of the merge. -/
theorem merge_spec (us : List (Int × Int)) (pr : Proc P) (hok : pr.OK) (label : P → Int) :
    ∃ lab E, mergeProc us pr label = some lab ∧
      (∀ x, x ∈ E ↔ (∃ p ∈ pr.loc, x = label p) ∨ ∃ u ∈ us, x = u.1 ∨ x = u.2) ∧
      (∀ p ∈ pr.loc, IsNew E (absUnions us).rep (label p) (lab p)) ∧
      (∀ p ∈ pr.loc, (absUnions us).rep (lab p) = (absUnions us).rep (label p)) ∧
      (∀ p ∈ pr.loc, lab p ∈ E) := by
  obtain ⟨h1, m1⟩ := insertLabels_spec (pr.loc.map label) UF.empty Abs.init Ref.init
  obtain ⟨s2, he2, hR2, m2⟩ := replay_spec us _ _ h1
  change Ref s2 (absUnions us) at hR2
  obtain ⟨s3, A3, he3, hR3, hel3, hnew⟩ := hR2.relabel
  have hmem : ∀ p ∈ pr.loc, label p ∈ s2.elems := by
    intro p hp; rw [m2, m1]; left; right; exact List.mem_map.2 ⟨p, hp, rfl⟩
  obtain ⟨s4, lab, he4, hlab, -⟩ := globalRoots_spec pr.loc s3 A3 label hok.nodup hR3
    (fun p hp => by rw [hel3]; exact hmem p hp)
  refine ⟨lab, s2.elems, ?_, ?_, ?_, ?_, ?_⟩
  · unfold mergeProc
    simp only [he2, he3, he4, Option.bind_eq_bind, Option.bind_some]
  · intro x; rw [m2, m1]; simp [UF.empty, List.mem_map, eq_comm]
  · intro p hp; rw [hlab p hp]; exact hnew _ (hmem p hp)
  · intro p hp; rw [hlab p hp]; exact ((hnew _ (hmem p hp)).same_class hR2 (hmem p hp)).1
  · intro p hp; rw [hlab p hp, ← hel3]
    exact (hR3.rep_mem (by rw [hel3]; exact hmem p hp)).1

/-- A label related to another one occurs in the list of unions. -/
theorem rel_mem {us : List (Int × Int)} {x y : Int} (h : EqvGen (fun a b => (a, b) ∈ us) x y) :
    x = y ∨ ((∃ u ∈ us, x = u.1 ∨ x = u.2) ∧ ∃ u ∈ us, y = u.1 ∨ y = u.2) := by
  induction h with
  | rel x y h => exact .inr ⟨⟨_, h, .inl rfl⟩, ⟨_, h, .inr rfl⟩⟩
  | refl => exact .inl rfl
  | symm _ _ _ ih =>
    rcases ih with rfl | ⟨h1, h2⟩
    · exact .inl rfl
    · exact .inr ⟨h2, h1⟩
  | trans _ _ _ _ _ ih1 ih2 =>
    rcases ih1 with rfl | ⟨h1, h2⟩
    · exact ih2
    · rcases ih2 with rfl | ⟨h3, h4⟩
      · exact .inr ⟨h1, h2⟩
      · exact .inr ⟨h1, h4⟩

/-- `rankOf` numbers the labels in use. -/
theorem rankOf_step (roots : List Int) (n : Nat) :
    rankOf roots ((n : Int) + 1) = rankOf roots n + if (n : Int) ∈ roots then 1 else 0 := by
  unfold rankOf
  have e1 : ((n : Int) + 1).toNat = n + 1 := by omega
  have e2 : ((n : Int)).toNat = n := by omega
  rw [e1, e2, List.range_succ, List.filter_append]
  by_cases h : (n : Int) ∈ roots <;> simp [h]

theorem rankOf_mono (roots : List Int) (n k : Nat) :
    rankOf roots n ≤ rankOf roots ((n + k : Nat) : Int) := by
  induction k with
  | zero => exact Int.le_refl _
  | succ k ih =>
    have := rankOf_step roots (n + k)
    have e : ((n + (k + 1) : Nat) : Int) = ((n + k : Nat) : Int) + 1 := by push_cast; omega
    rw [e, this]
    split_ifs <;> omega

theorem rankOf_lt (roots : List Int) {x y : Int} (hx : 0 ≤ x) (hxr : x ∈ roots) (hxy : x < y) :
    rankOf roots x < rankOf roots y := by
  obtain ⟨n, rfl⟩ := Int.eq_ofNat_of_zero_le hx
  obtain ⟨m, rfl⟩ := Int.eq_ofNat_of_zero_le (by omega : 0 ≤ y)
  have h1 := rankOf_step roots n
  rw [if_pos hxr] at h1
  have h2 := rankOf_mono roots (n + 1) (m - (n + 1))
  have e : n + 1 + (m - (n + 1)) = m := by omega
  rw [e] at h2
  push_cast at h2
  omega

theorem rankOf_onto (roots : List Int) (n : Nat) (c : Int) (h0 : 0 ≤ c)
    (hc : c < rankOf roots n) : ∃ x ∈ roots, rankOf roots x = c := by
  induction n with
  | zero => simp [rankOf] at hc; omega
  | succ n ih =>
    push_cast at hc
    rw [rankOf_step] at hc
    by_cases h : c < rankOf roots n
    · exact ih h
    · split_ifs at hc with hm
      · exact ⟨_, hm, by omega⟩
      · omega

theorem le_foldl_max : ∀ (l : List Int) (a : Int), a ≤ l.foldl max a ∧ ∀ x ∈ l, x ≤ l.foldl max a := by
  intro l
  induction l with
  | nil => intro a; simp
  | cons y l ih =>
    intro a
    obtain ⟨h1, h2⟩ := ih (max a y)
    rw [List.foldl_cons]
    refine ⟨by omega, ?_⟩
    intro x hx
    rcases List.mem_cons.1 hx with rfl | hx
    · omega
    · exact h2 x hx

/-- Connected components, all processes. -/
theorem connectedComponents_spec (mask : P → Bool) (procs : List (Proc P)) (hok : Procs.OK procs) :
    ∃ lab n, connectedComponents mask procs = some (lab, n) ∧
      (∀ p, Owned procs p → 0 ≤ lab p ∧ lab p < n) ∧
      (∀ c, 0 ≤ c → c < n → ∃ p, Owned procs p ∧ lab p = c) ∧
      (∀ p q, Owned procs p → Owned procs q → (lab p = lab q ↔ EqvGen (GEdge mask procs) p q)) := by
  classical
  -- local labels
  let g : Proc P → (P → Int) × Int := fun pr => (localLabels mask pr).getD (fun _ => 0, 0)
  have hg : ∀ pr ∈ procs, localLabels mask pr = some (g pr) ∧ 0 ≤ (g pr).2 ∧
      (∀ p ∈ pr.loc, 0 ≤ (g pr).1 p ∧ (g pr).1 p < (g pr).2) ∧
      ∀ p ∈ pr.loc, ∀ q ∈ pr.loc, (g pr).1 p = (g pr).1 q ↔ EqvGen (LEdge mask pr) p q := by
    intro pr hpr
    obtain ⟨lab, n, he, h1, h2, h3⟩ := localLabels_spec mask pr (hok.each pr hpr)
    have : g pr = (lab, n) := by simp [g, he]
    rw [this]; exact ⟨he, h1, h2, h3⟩
  have hm1 := mapM_some (localLabels mask) g procs (fun pr hpr => (hg pr hpr).1)
  -- shifted labels
  generalize hcounts : (procs.map g).map Prod.snd = counts
  have hcnn : ∀ n ∈ counts, 0 ≤ n := by
    intro n hn
    rw [← hcounts] at hn
    simp only [List.map_map, List.mem_map, Function.comp] at hn
    obtain ⟨pr, hpr, rfl⟩ := hn
    exact (hg pr hpr).2.1
  have hcget : ∀ (r : Nat) pr, procs[r]? = some pr → counts[r]? = some (g pr).2 := by
    intro r pr h; rw [← hcounts]; simp [h]
  generalize hshift : (procs.zip (procs.map g)).mapIdx
    (fun r x => (x.1, fun p => x.2.1 p + before counts r)) = shifted
  have hsget : ∀ (r : Nat), shifted[r]? = (procs[r]?).map fun pr =>
      (pr, fun p => (g pr).1 p + before counts r) := by
    intro r
    rw [← hshift, List.getElem?_mapIdx, List.zip_eq_zipWith, List.getElem?_zipWith, List.getElem?_map]
    cases procs[r]? <;> rfl
  generalize hG : exchange shifted = G
  have hGat : ∀ (r : Nat) pr p, procs[r]? = some pr → p ∈ pr.loc →
      G p = (g pr).1 p + before counts r := by
    intro r pr p hr hp
    rw [← hG]
    refine exchange_at shifted r pr (fun p => (g pr).1 p + before counts r) p
      (by rw [hsget, hr]; rfl) hp ?_
    intro r' x hr' hx hp'
    rw [hsget] at hx
    obtain ⟨pr', h1, h2⟩ := Option.map_eq_some_iff.1 hx
    subst h2
    have := hok.disj r r' pr pr' p hr h1 hp hp'
    omega
  have hGr : ∀ (r : Nat) pr p, procs[r]? = some pr → p ∈ pr.loc →
      before counts r ≤ G p ∧ G p < before counts (r + 1) := by
    intro r pr p hr hp
    have hmem := List.mem_of_getElem? hr
    have h1 := (hg pr hmem).2.2.1 p hp
    have h2 := hGat r pr p hr hp
    have h3 := before_succ counts r _ (hcget r pr hr)
    omega
  have hG0 : ∀ p, Owned procs p → 0 ≤ G p := by
    rintro p ⟨pr, hpr, hp⟩
    obtain ⟨r, hr⟩ := List.mem_iff_getElem?.1 hpr
    have := hGr r pr p hr hp
    have := before_nonneg counts hcnn r
    omega
  have hGrank : ∀ (r r' : Nat) pr pr' p q, procs[r]? = some pr → procs[r']? = some pr' → p ∈ pr.loc →
      q ∈ pr'.loc → G p = G q → r = r' := by
    intro r r' pr pr' p q hr hr' hp hq he
    have h1 := hGr r pr p hr hp
    have h2 := hGr r' pr' q hr' hq
    rcases Nat.lt_trichotomy r r' with h | h | h
    · have := before_mono counts hcnn (r + 1) (r' - (r + 1))
      rw [show r + 1 + (r' - (r + 1)) = r' by omega] at this
      omega
    · exact h
    · have := before_mono counts hcnn (r' + 1) (r - (r' + 1))
      rw [show r' + 1 + (r - (r' + 1)) = r by omega] at this
      omega
  have hLG : ∀ pr ∈ procs, ∀ p q, EqvGen (LEdge mask pr) p q → EqvGen (GEdge mask procs) p q := by
    intro pr hpr p q h
    exact eqvGen_imp (fun x y h => ⟨pr, hpr, h.1, .inl h.2.1, h.2.2⟩) h
  have hGsame : ∀ p q, Owned procs p → Owned procs q → G p = G q → EqvGen (GEdge mask procs) p q := by
    rintro p q ⟨pr, hpr, hp⟩ ⟨pr', hpr', hq⟩ he
    obtain ⟨r, hr⟩ := List.mem_iff_getElem?.1 hpr
    obtain ⟨r', hr'⟩ := List.mem_iff_getElem?.1 hpr'
    have := hGrank r r' pr pr' p q hr hr' hp hq he
    subst this
    rw [hr] at hr'
    cases hr'
    rw [hGat r pr p hr hp, hGat r pr q hr hq] at he
    exact hLG pr hpr p q (((hg pr hpr).2.2.2 p hp q hq).1 (by omega))
  generalize hus : procs.flatMap (fun pr => extUnions mask pr G) = us
  have hmus : ∀ a b, (a, b) ∈ us ↔ ∃ pr ∈ procs, ∃ p q, p ∈ pr.loc ∧ q ∈ pr.enbrs p ∧
      mask q = mask p ∧ a = G p ∧ b = G q := by
    intro a b
    rw [← hus, List.mem_flatMap]
    simp only [mem_extUnions]
  have hconn : ∀ p q, Owned procs p → Owned procs q →
      (EqvGen (fun a b => (a, b) ∈ us) (G p) (G q) ↔ EqvGen (GEdge mask procs) p q) := by
    intro p q hp hq
    refine label_conn (Owned procs) G us hGsame ?_ ?_ hp hq
    · intro a b hab
      obtain ⟨pr, hpr, p, q, hp, hq, hm, rfl, rfl⟩ := (hmus a b).1 hab
      obtain ⟨pr', hpr', hq'⟩ := hok.ext pr hpr p hp q hq
      exact ⟨p, q, ⟨pr, hpr, hp⟩, ⟨pr', hpr', hq'⟩, rfl, rfl, .rel _ _ ⟨pr, hpr, hp, .inr hq, hm.symm⟩⟩
    · rintro p q ⟨pr, hpr, hp, hq, hm⟩
      rcases hq with hq | hq
      · have hq' := (hok.each pr hpr).sub p hp q hq
        refine ⟨⟨pr, hpr, hp⟩, ⟨pr, hpr, hq'⟩, ?_⟩
        obtain ⟨r, hr⟩ := List.mem_iff_getElem?.1 hpr
        have := ((hg pr hpr).2.2.2 p hp q hq').2 (.rel _ _ ⟨hp, hq, hm⟩)
        rw [hGat r pr p hr hp, hGat r pr q hr hq', this]
        exact .refl _
      · obtain ⟨pr', hpr', hq'⟩ := hok.ext pr hpr p hp q hq
        exact ⟨⟨pr, hpr, hp⟩, ⟨pr', hpr', hq'⟩,
          .rel _ _ ((hmus _ _).2 ⟨pr, hpr, p, q, hp, hq, hm.symm, rfl, rfl⟩)⟩
  have hus0 : ∀ u ∈ us, 0 ≤ u.1 ∧ 0 ≤ u.2 := by
    rintro ⟨a, b⟩ hab
    obtain ⟨pr, hpr, p, q, hp, hq, hm, rfl, rfl⟩ := (hmus a b).1 hab
    obtain ⟨pr', hpr', hq'⟩ := hok.ext pr hpr p hp q hq
    exact ⟨hG0 p ⟨pr, hpr, hp⟩, hG0 q ⟨pr', hpr', hq'⟩⟩
  -- merge
  let mg : Proc P × (P → Int) → P → Int := fun x => (mergeProc us x.1 x.2).getD (fun _ => 0)
  have hmerge : ∀ (r : Nat) pr, procs[r]? = some pr →
      ∃ E, mergeProc us pr (fun p => (g pr).1 p + before counts r) =
        some (mg (pr, fun p => (g pr).1 p + before counts r)) ∧
      (∀ x, x ∈ E ↔ (∃ p ∈ pr.loc, x = G p) ∨ ∃ u ∈ us, x = u.1 ∨ x = u.2) ∧
      (∀ p ∈ pr.loc, IsNew E (absUnions us).rep (G p) (mg (pr, fun p => (g pr).1 p + before counts r) p)) ∧
      (∀ p ∈ pr.loc, (absUnions us).rep (mg (pr, fun p => (g pr).1 p + before counts r) p) =
        (absUnions us).rep (G p)) ∧
      (∀ p ∈ pr.loc, mg (pr, fun p => (g pr).1 p + before counts r) p ∈ E) := by
    intro r pr hr
    obtain ⟨lab, E, h1, h2, h3, h4, h5⟩ := merge_spec us pr (hok.each pr (List.mem_of_getElem? hr))
      (fun p => (g pr).1 p + before counts r)
    have e : mg (pr, fun p => (g pr).1 p + before counts r) = lab := by simp [mg, h1]
    rw [e]
    refine ⟨E, h1, ?_, ?_, ?_, h5⟩
    · intro x; rw [h2]
      have : (∃ p ∈ pr.loc, x = (g pr).1 p + before counts r) ↔ ∃ p ∈ pr.loc, x = G p := by
        constructor <;> rintro ⟨p, hp, rfl⟩
        · exact ⟨p, hp, (hGat r pr p hr hp).symm⟩
        · exact ⟨p, hp, hGat r pr p hr hp⟩
      rw [this]
    · intro p hp; rw [hGat r pr p hr hp]; exact h3 p hp
    · intro p hp; rw [hGat r pr p hr hp]; exact h4 p hp
  have hm2 := mapM_some (fun x : Proc P × (P → Int) => mergeProc us x.1 x.2) mg shifted (by
    intro x hx
    obtain ⟨r, hr⟩ := List.mem_iff_getElem?.1 hx
    rw [hsget] at hr
    obtain ⟨pr, h1, rfl⟩ := Option.map_eq_some_iff.1 hr
    obtain ⟨E, h, -⟩ := hmerge r pr h1
    exact h)
  generalize hF : exchange (procs.zip (shifted.map mg)) = F
  have hFat : ∀ (r : Nat) pr p, procs[r]? = some pr → p ∈ pr.loc →
      F p = mg (pr, fun p => (g pr).1 p + before counts r) p := by
    intro r pr p hr hp
    rw [← hF]
    refine exchange_at _ r pr _ p ?_ hp ?_
    · rw [List.zip_eq_zipWith, List.getElem?_zipWith, List.getElem?_map, hsget, hr]; rfl
    · intro r' x hr' hx hp'
      rw [List.zip_eq_zipWith, List.getElem?_zipWith, List.getElem?_map, hsget] at hx
      cases h1 : procs[r']? with
      | none => rw [h1] at hx; simp at hx
      | some pr' =>
        rw [h1] at hx
        simp only [Option.map_some, Option.some.injEq] at hx
        subst hx
        have := hok.disj r r' pr pr' p hr h1 hp hp'
        omega
  have hF0 : ∀ p, Owned procs p → 0 ≤ F p := by
    rintro p ⟨pr, hpr, hp⟩
    obtain ⟨r, hr⟩ := List.mem_iff_getElem?.1 hpr
    obtain ⟨E, -, h1, -, -, h2⟩ := hmerge r pr hr
    have := h2 p hp
    rw [h1] at this
    rw [hFat r pr p hr hp]
    rcases this with ⟨q, hq, h⟩ | ⟨u, hu, h⟩
    · rw [h]; exact hG0 q ⟨pr, hpr, hq⟩
    · have := hus0 u hu; omega
  have hFiff : ∀ p q, Owned procs p → Owned procs q →
      (F p = F q ↔ EqvGen (GEdge mask procs) p q) := by
    rintro p q ⟨pr, hpr, hp⟩ ⟨pr', hpr', hq⟩
    rw [← hconn p q ⟨pr, hpr, hp⟩ ⟨pr', hpr', hq⟩, ← absUnions_rep]
    obtain ⟨r, hr⟩ := List.mem_iff_getElem?.1 hpr
    obtain ⟨r', hr'⟩ := List.mem_iff_getElem?.1 hpr'
    obtain ⟨E, -, hE, hN, hC, -⟩ := hmerge r pr hr
    obtain ⟨E', -, hE', hN', hC', -⟩ := hmerge r' pr' hr'
    rw [hFat r pr p hr hp, hFat r' pr' q hr' hq]
    constructor
    · intro h; rw [← hC p hp, ← hC' q hq, h]
    · intro h
      have n1 := hN p hp
      have n2 := hN' q hq
      by_cases hGe : G p = G q
      · have := hGrank r r' pr pr' p q hr hr' hp hq hGe
        subst this
        rw [hr] at hr'; cases hr'
        have n3 := hN q hq
        exact n1.fn h n3
      · -- the whole class occurs in the unions
        have hcls : ∀ y, (absUnions us).rep y = (absUnions us).rep (G p) →
            ∃ u ∈ us, y = u.1 ∨ y = u.2 := by
          intro y hy
          rcases rel_mem ((absUnions_rep us _ _).1 hy) with rfl | ⟨h1, -⟩
          · rcases rel_mem ((absUnions_rep us _ _).1 h) with h2 | ⟨h2, -⟩
            · exact absurd h2 hGe
            · exact h2
          · exact h1
        have hEE : ∀ y, (absUnions us).rep y = (absUnions us).rep (G p) → (y ∈ E ∧ y ∈ E') :=
          fun y hy => ⟨(hE y).2 (.inr (hcls y hy)), (hE' y).2 (.inr (hcls y hy))⟩
        have n2' : IsNew E (absUnions us).rep (G q)
            (mg (pr', fun p => (g pr').1 p + before counts r') q) := by
          rcases n2 with ⟨h1, h2, h3, h4⟩ | ⟨h1, h2⟩
          · exact .inl ⟨(hEE _ (h2.trans h.symm)).1, h2, h3,
              fun y _ hy => h4 y (hEE y (hy.trans h.symm)).2 hy⟩
          · exact .inr ⟨h1, fun y _ hy => h2 y (hEE y (hy.trans h.symm)).2 hy⟩
        exact n1.fn h n2'
  -- final numbering
  generalize hall : (procs.flatMap Proc.loc).map F = all
  have hmall : ∀ x, x ∈ all ↔ ∃ p, Owned procs p ∧ F p = x := by
    intro x; rw [← hall]; simp [Owned, List.mem_map, List.mem_flatMap]
  have hmax := le_foldl_max all (-1)
  have hlt : ∀ p, Owned procs p → rankOf all (F p) < rankOf all (all.foldl max (-1) + 1) := by
    intro p hp
    have hm := (hmall _).2 ⟨p, hp, rfl⟩
    exact rankOf_lt all (hF0 p hp) hm (by have := hmax.2 _ hm; omega)
  refine ⟨fun p => rankOf all (F p), rankOf all (all.foldl max (-1) + 1), ?_, ?_, ?_, ?_⟩
  · unfold connectedComponents
    simp only [hm1, Option.bind_eq_bind, Option.bind_some, hcounts, hshift, hG, hus, hm2, hF, hall]
  · intro p hp
    exact ⟨by dsimp only [rankOf]; omega, hlt p hp⟩
  · intro c h0 hc
    have hM : 0 ≤ all.foldl max (-1) + 1 := by have := hmax.1; omega
    obtain ⟨n, hn⟩ := Int.eq_ofNat_of_zero_le hM
    rw [hn] at hc
    obtain ⟨x, hx, hr⟩ := rankOf_onto all n c h0 hc
    obtain ⟨p, hp, rfl⟩ := (hmall x).1 hx
    exact ⟨p, hp, hr⟩
  · intro p q hp hq
    rw [← hFiff p q hp hq]
    constructor
    · intro h
      have h1 := (hmall _).2 ⟨p, hp, rfl⟩
      have h2 := (hmall _).2 ⟨q, hq, rfl⟩
      rcases Int.lt_trichotomy (F p) (F q) with hl | hl | hl
      · have := rankOf_lt all (hF0 p hp) h1 hl; dsimp only at h; omega
      · exact hl
      · have := rankOf_lt all (hF0 q hq) h2 hl; dsimp only at h; omega
    · intro h; dsimp only; rw [h]

end Ovk.CC
