import Verif.Model.Components
import Verif.Lemmas.Relabel
import Mathlib.Logic.Relation
import Mathlib.Data.List.Induction
import Mathlib.Data.List.Perm.Subperm
import Mathlib.Tactic.Tauto
/-! Helper lemmas for connected components. -/
namespace Ovk.CC
open UF Relation

theorem eqvGen_imp {α : Type} {R S : α → α → Prop} (h : ∀ x y, R x y → S x y) {a b : α}
    (hab : EqvGen R a b) : EqvGen S a b := by
  induction hab with
  | rel x y hxy => exact .rel _ _ (h _ _ hxy)
  | refl x => exact .refl x
  | symm _ _ _ ih => exact .symm _ _ ih
  | trans _ _ _ _ _ ih1 ih2 => exact .trans _ _ _ ih1 ih2

theorem eqvGen_insert {α : Type} (R S : α → α → Prop) (u v : α)
    (hS : ∀ x y, S x y ↔ R x y ∨ (x = u ∧ y = v)) (x y : α) :
    EqvGen S x y ↔ EqvGen R x y ∨ (EqvGen R x u ∧ EqvGen R y v) ∨ (EqvGen R x v ∧ EqvGen R y u) := by
  have eqv : Equivalence (EqvGen R) := EqvGen.is_equivalence _
  constructor
  · intro h
    induction h with
    | rel x y h =>
      rcases (hS _ _).1 h with h1 | ⟨rfl, rfl⟩
      · exact .inl (.rel _ _ h1)
      · exact .inr (.inl ⟨eqv.refl _, eqv.refl _⟩)
    | refl x => exact .inl (eqv.refl x)
    | symm x y _ ih =>
      rcases ih with h | ⟨h1, h2⟩ | ⟨h1, h2⟩
      · exact .inl (eqv.symm h)
      · exact .inr (.inr ⟨h2, h1⟩)
      · exact .inr (.inl ⟨h2, h1⟩)
    | trans x y z _ _ ih1 ih2 =>
      rcases ih1 with h | ⟨h1, h2⟩ | ⟨h1, h2⟩ <;> rcases ih2 with g | ⟨g1, g2⟩ | ⟨g1, g2⟩
      · exact .inl (eqv.trans h g)
      · exact .inr (.inl ⟨eqv.trans h g1, g2⟩)
      · exact .inr (.inr ⟨eqv.trans h g1, g2⟩)
      · exact .inr (.inl ⟨h1, eqv.trans (eqv.symm g) h2⟩)
      · exact .inr (.inl ⟨h1, g2⟩)
      · exact .inl (eqv.trans h1 (eqv.symm g2))
      · exact .inr (.inr ⟨h1, eqv.trans (eqv.symm g) h2⟩)
      · exact .inl (eqv.trans h1 (eqv.symm g2))
      · exact .inr (.inr ⟨h1, g2⟩)
  · have m : ∀ {a b}, EqvGen R a b → EqvGen S a b :=
      fun h => eqvGen_imp (fun a b hab => (hS a b).2 (.inl hab)) h
    have huv : EqvGen S u v := .rel _ _ ((hS u v).2 (.inr ⟨rfl, rfl⟩))
    rintro (h | ⟨h1, h2⟩ | ⟨h1, h2⟩)
    · exact m h
    · exact .trans _ _ _ (m h1) (.trans _ _ _ huv (.symm _ _ (m h2)))
    · exact .trans _ _ _ (m h1) (.trans _ _ _ (.symm _ _ huv) (.symm _ _ (m h2)))

theorem abs_union_rep (A : Abs) (u v x y : Int) :
    (A.union u v).rep x = (A.union u v).rep y ↔
      A.rep x = A.rep y ∨ (A.rep x = A.rep u ∧ A.rep y = A.rep v) ∨
        (A.rep x = A.rep v ∧ A.rep y = A.rep u) := by
  unfold Abs.union
  simp only
  by_cases h0 : A.rep u = A.rep v
  · rw [if_pos h0]
    constructor
    · exact .inl
    · rintro (h | ⟨h1, h2⟩ | ⟨h1, h2⟩)
      · exact h
      · rw [h1, h2, h0]
      · rw [h1, h2, h0]
  · rw [if_neg h0]
    split_ifs <;>
    · dsimp only
      split_ifs with h1 h2 h2 <;> constructor <;> intro h <;> (simp_all; try tauto)

/-- Abstract state after a list of unions. -/
def absUnions (l : List (Int × Int)) : Abs := l.foldl (fun A u => A.union u.1 u.2) Abs.init

theorem absUnions_rep (l : List (Int × Int)) (x y : Int) :
    (absUnions l).rep x = (absUnions l).rep y ↔ EqvGen (fun a b => (a, b) ∈ l) x y := by
  induction l using List.reverseRecOn generalizing x y with
  | nil =>
    constructor
    · intro h; have : x = y := h; subst this; exact .refl _
    · intro h
      induction h with
      | rel x y h => simp at h
      | refl => rfl
      | symm _ _ _ ih => exact ih.symm
      | trans _ _ _ _ _ ih1 ih2 => exact ih1.trans ih2
  | append_singleton l u ih =>
    have e : absUnions (l ++ [u]) = (absUnions l).union u.1 u.2 := by simp [absUnions]
    rw [e, abs_union_rep]
    simp only [ih]
    rw [eqvGen_insert (fun a b => (a, b) ∈ l) (fun a b => (a, b) ∈ l ++ [u]) u.1 u.2]
    intro x y
    simp [Prod.ext_iff]

/-! ### Union-find runs -/

theorem unions_spec : ∀ (l : List (Int × Int)) (s : UF) (A : Abs), Ref s A →
    (∀ u ∈ l, u.1 ∈ s.elems ∧ u.2 ∈ s.elems) →
    ∃ s', unions l s = some s' ∧ Ref s' (l.foldl (fun A u => A.union u.1 u.2) A) ∧
      s'.elems = s.elems := by
  intro l
  induction l with
  | nil => intro s A h _; exact ⟨s, rfl, h, rfl⟩
  | cons u l ih =>
    intro s A h hl
    obtain ⟨h1, h2⟩ := hl u (by simp)
    obtain ⟨s1, he, hR, hel⟩ := h.union h1 h2
    obtain ⟨s', he', hR', hel'⟩ := ih s1 _ hR (fun v hv => by rw [hel]; exact hl v (by simp [hv]))
    exact ⟨s', by obtain ⟨a, b⟩ := u; simp only [unions, he, Option.bind_some]; exact he', hR',
      hel'.trans hel⟩

theorem replay_spec : ∀ (l : List (Int × Int)) (s : UF) (A : Abs), Ref s A →
    ∃ s', replay l s = some s' ∧ Ref s' (l.foldl (fun A u => A.union u.1 u.2) A) ∧
      ∀ x, x ∈ s'.elems ↔ x ∈ s.elems ∨ ∃ u ∈ l, x = u.1 ∨ x = u.2 := by
  intro l
  induction l with
  | nil => intro s A h; exact ⟨s, rfl, h, by simp⟩
  | cons u l ih =>
    intro s A h
    obtain ⟨a, b⟩ := u
    obtain ⟨h1, m1⟩ := h.insert a
    obtain ⟨h2, m2⟩ := h1.insert b
    obtain ⟨s1, he, hR, hel⟩ := h2.union (a := a) (b := b) (by simp [m2, m1]) (by simp [m2])
    obtain ⟨s', he', hR', hel'⟩ := ih s1 _ hR
    refine ⟨s', by simp only [replay, he, Option.bind_some]; exact he', hR', ?_⟩
    intro x
    rw [hel', hel, m2, m1]
    simp only [List.mem_cons, exists_eq_or_imp]
    generalize (∃ u, u ∈ l ∧ (x = u.1 ∨ x = u.2)) = Q
    generalize (x = a) = X
    generalize (x = b) = Y
    tauto

theorem insertLabels_spec : ∀ (es : List Int) (s : UF) (A : Abs), Ref s A →
    Ref (insertLabels es s) A ∧ ∀ x, x ∈ (insertLabels es s).elems ↔ x ∈ s.elems ∨ x ∈ es := by
  intro es
  induction es with
  | nil => intro s A h; exact ⟨h, by simp [insertLabels]⟩
  | cons e es ih =>
    intro s A h
    obtain ⟨h1, m1⟩ := h.insert e
    obtain ⟨h2, m2⟩ := ih _ A h1
    refine ⟨h2, fun x => ?_⟩
    show x ∈ (insertLabels es (s.insert e)).elems ↔ _
    rw [m2, m1]; simp only [List.mem_cons]; tauto

theorem relabel_iff {s s' : UF} {A A' : Abs} (h : Ref s A)
    (hnew : ∀ e ∈ s.elems, IsNew s.elems A.rep e (A'.rep e)) {x y : Int} (hx : x ∈ s.elems)
    (hy : y ∈ s.elems) : A'.rep x = A'.rep y ↔ A.rep x = A.rep y := by
  have _ := s'
  constructor
  · intro he
    have h1 := (hnew x hx).same_class h hx
    have h2 := (hnew y hy).same_class h hy
    rw [← h1.1, ← h2.1, he]
  · intro he; exact (hnew x hx).fn he (hnew y hy)

/-! ### The first sweep -/

variable {P : Type} [DecidableEq P]

/-- Edges seen by one process among its own points. -/
def LEdge (mask : P → Bool) (pr : Proc P) (p q : P) : Prop :=
  p ∈ pr.loc ∧ q ∈ pr.lnbrs p ∧ mask p = mask q

/-- Loops of a process are sane: each point is its own neighbour and neighbours are own points. -/
structure Proc.OK (pr : Proc P) : Prop where
  nodup : pr.loc.Nodup
  self : ∀ p ∈ pr.loc, p ∈ pr.lnbrs p
  sub : ∀ p ∈ pr.loc, ∀ q ∈ pr.lnbrs p, q ∈ pr.loc

/-- Invariant of the sweep. -/
structure SInv (mask : P → Bool) (pr : Proc P) (st : Sweep P) : Prop where
  next : 0 ≤ st.next
  range : ∀ p, 0 ≤ st.label p → p ∈ pr.loc ∧ st.label p < st.next
  same : ∀ p q, 0 ≤ st.label p → st.label p = st.label q → EqvGen (LEdge mask pr) p q
  uf : Ref st.uf Abs.init
  elems : ∀ x, x ∈ st.uf.elems ↔ 0 ≤ x ∧ x < st.next

theorem scanSlab_inv (mask : P → Bool) (pr : Proc P) (p : P) (hp : p ∈ pr.loc) (slab : List P)
    (hs : ∀ q ∈ slab, q ∈ pr.lnbrs p) (st : Sweep P) (h : SInv mask pr st) :
    SInv mask pr (scanSlab mask p st slab) ∧ 0 ≤ (scanSlab mask p st slab).label p ∧
    ∀ q, 0 ≤ st.label q → 0 ≤ (scanSlab mask p st slab).label q := by
  have key : ∃ st1 : Sweep P, SInv mask pr st1 ∧
      (∀ q, 0 ≤ st.label q → 0 ≤ st1.label q) ∧
      scanSlab mask p st slab = (if st1.label p < 0 then
        ⟨upd st1.label p st1.next, st1.next + 1, st1.uf.insert st1.next⟩ else st1) := by
    unfold scanSlab
    cases hf : slab.find? (fun q => decide (mask q = mask p) && decide (st.label q ≥ 0)) with
    | none => exact ⟨st, h, fun _ h => h, rfl⟩
    | some q =>
      have hq := List.find?_some hf
      have hqm := hs q (List.mem_of_find?_eq_some hf)
      simp only [Bool.and_eq_true, decide_eq_true_eq] at hq
      obtain ⟨hmask, hlab⟩ := hq
      have hedge : EqvGen (LEdge mask pr) p q := .rel _ _ ⟨hp, hqm, hmask.symm⟩
      refine ⟨{ st with label := upd st.label p (st.label q) }, ⟨h.next, ?_, ?_, h.uf, h.elems⟩, ?_, rfl⟩
      · intro x hx
        simp only [upd] at hx ⊢
        by_cases hxp : x = p
        · subst hxp; simp only [if_true] at hx ⊢; exact ⟨hp, (h.range q hlab).2⟩
        · simp only [hxp, if_false] at hx ⊢; exact h.range x hx
      · intro x y hx hxy
        simp only [upd] at hx hxy
        by_cases hxp : x = p <;> by_cases hyp : y = p
        · subst hxp; subst hyp; exact .refl _
        · subst hxp; simp only [if_true, hyp, if_false] at hx hxy
          exact .trans _ _ _ hedge (h.same q y hx hxy)
        · subst hyp; simp only [if_true, hxp, if_false] at hx hxy
          exact .trans _ _ _ (h.same x q hx hxy) (.symm _ _ hedge)
        · simp only [hxp, hyp, if_false] at hx hxy; exact h.same x y hx hxy
      · intro x hx
        simp only [upd]; split_ifs
        · exact hlab
        · exact hx
  obtain ⟨st1, h1, hmono, he⟩ := key
  rw [he]
  split_ifs with hc
  · obtain ⟨hR, hm⟩ := h1.uf.insert st1.next
    refine ⟨⟨by have := h1.next; show 0 ≤ st1.next + 1; omega, ?_, ?_, hR, ?_⟩, ?_, ?_⟩
    · intro x hx
      simp only [upd] at hx ⊢
      by_cases hxp : x = p
      · subst hxp; simp only [if_true]; exact ⟨hp, by omega⟩
      · simp only [hxp, if_false] at hx ⊢
        have := h1.range x hx; exact ⟨this.1, by omega⟩
    · intro x y hx hxy
      simp only [upd] at hx hxy
      by_cases hxp : x = p <;> by_cases hyp : y = p
      · subst hxp; subst hyp; exact .refl _
      · subst hxp; simp only [if_true, hyp, if_false] at hx hxy
        have := (h1.range y (by omega)).2; omega
      · subst hyp; simp only [if_true, hxp, if_false] at hx hxy
        have := (h1.range x hx).2; omega
      · simp only [hxp, hyp, if_false] at hx hxy; exact h1.same x y hx hxy
    · intro x
      show x ∈ (st1.uf.insert st1.next).elems ↔ 0 ≤ x ∧ x < st1.next + 1
      rw [hm, h1.elems]
      have := h1.next
      omega
    · simp only [upd, if_true]; exact h1.next
    · intro q hq
      simp only [upd]
      split_ifs
      · exact h1.next
      · exact hmono q hq
  · exact ⟨h1, by omega, hmono⟩

theorem scanSlabs_inv (mask : P → Bool) (pr : Proc P) (p : P) (hp : p ∈ pr.loc) :
    ∀ (slabs : List (List P)), (∀ sl ∈ slabs, ∀ q ∈ sl, q ∈ pr.lnbrs p) → ∀ st : Sweep P,
    SInv mask pr st →
    SInv mask pr (slabs.foldl (scanSlab mask p) st) ∧
    (slabs ≠ [] → 0 ≤ (slabs.foldl (scanSlab mask p) st).label p) ∧
    ∀ q, 0 ≤ st.label q → 0 ≤ (slabs.foldl (scanSlab mask p) st).label q := by
  intro slabs
  induction slabs with
  | nil => intro _ st h; exact ⟨h, fun h => absurd rfl h, fun _ h => h⟩
  | cons sl slabs ih =>
    intro hs st h
    obtain ⟨h1, h2, h3⟩ := scanSlab_inv mask pr p hp sl (hs sl (by simp)) st h
    obtain ⟨g1, g2, g3⟩ := ih (fun s hs' => hs s (by simp [hs'])) _ h1
    exact ⟨g1, fun _ => g3 p h2, fun q hq => g3 q (h3 q hq)⟩

theorem sweep_inv (mask : P → Bool) (pr : Proc P) (hok : pr.OK) :
    SInv mask pr (sweep mask pr) ∧ ∀ p ∈ pr.loc, 0 ≤ (sweep mask pr).label p := by
  have main : ∀ (l : List P), (∀ p ∈ l, p ∈ pr.loc) → ∀ st : Sweep P, SInv mask pr st →
      SInv mask pr (l.foldl (fun st p => (pr.slabs p).foldl (scanSlab mask p) st) st) ∧
      (∀ p ∈ l, 0 ≤ (l.foldl (fun st p => (pr.slabs p).foldl (scanSlab mask p) st) st).label p) ∧
      (∀ q, 0 ≤ st.label q →
        0 ≤ (l.foldl (fun st p => (pr.slabs p).foldl (scanSlab mask p) st) st).label q) := by
    intro l
    induction l with
    | nil => intro _ st h; exact ⟨h, by simp, fun _ h => h⟩
    | cons p l ih =>
      intro hl st h
      have hp := hl p (by simp)
      have hne : pr.slabs p ≠ [] := by
        intro he; have := hok.self p hp; simp [Proc.lnbrs, he] at this
      obtain ⟨h1, h2, h3⟩ := scanSlabs_inv mask pr p hp (pr.slabs p)
        (fun sl hsl q hq => List.mem_flatten.2 ⟨sl, hsl, hq⟩) st h
      obtain ⟨g1, g2, g3⟩ := ih (fun x hx => hl x (by simp [hx])) _ h1
      refine ⟨g1, ?_, fun q hq => g3 q (h3 q hq)⟩
      intro x hx
      rcases List.mem_cons.1 hx with rfl | hx
      · exact g3 _ (h2 hne)
      · exact g2 x hx
  have h0 : SInv mask pr (⟨fun _ => -1, 0, UF.empty⟩ : Sweep P) := by
    refine ⟨by simp, ?_, ?_, Ref.init, ?_⟩
    · intro p hp; simp at hp
    · intro p q hp; simp at hp
    · intro x; simp only [UF.empty, List.not_mem_nil, false_iff]; omega
  obtain ⟨h1, h2, _⟩ := main pr.loc (fun _ h => h) _ h0
  exact ⟨h1, h2⟩

omit [DecidableEq P] in
theorem mem_localPairs (mask : P → Bool) (pr : Proc P) (label : P → Int) (a b : Int) :
    (a, b) ∈ localPairs mask pr label ↔ ∃ p q, p ∈ pr.loc ∧ q ∈ pr.lnbrs p ∧ mask q = mask p ∧
      0 ≤ label q ∧ a = label p ∧ b = label q := by
  unfold localPairs
  simp only [List.mem_flatMap, List.mem_filterMap]
  constructor
  · rintro ⟨p, hp, q, hq, h⟩
    split_ifs at h with hc
    cases h
    exact ⟨p, q, hp, hq, hc.1, hc.2, rfl, rfl⟩
  · rintro ⟨p, q, hp, hq, h1, h2, rfl, rfl⟩
    exact ⟨p, hp, q, hq, by rw [if_pos ⟨h1, h2⟩]⟩

/-! ### Contiguous numbering -/

theorem rootMap_spec : ∀ (es : List Int) (s : UF) (A : Abs) (m : OMap Int Int), Ref s A →
    (∀ e ∈ es, e ∈ s.elems) → m.WF UF.less →
    ∃ s' m', rootMap es (s, m) = some (s', m') ∧ Ref s' A ∧ s'.elems = s.elems ∧ m'.WF UF.less ∧
      ∀ k, k ∈ m'.keys ↔ k ∈ m.keys ∨ ∃ e ∈ es, k = A.rep e := by
  intro es
  induction es with
  | nil => intro s A m h _ hm; exact ⟨s, m, rfl, h, rfl, hm, by simp⟩
  | cons e es ih =>
    intro s A m h hes hm
    obtain ⟨s1, hf, hR, hel⟩ := h.find (hes e (by simp))
    obtain ⟨hw, hent⟩ := omap_fetch_spec less_sto hm (A.rep e) (-1)
    obtain ⟨s', m', he, hR', hel', hw', hk'⟩ := ih s1 A (m.fetch UF.less (A.rep e) (-1)) hR
      (fun x hx => by rw [hel]; exact hes x (by simp [hx])) hw
    refine ⟨s', m', ?_, hR', hel'.trans hel, hw', ?_⟩
    · simp only [rootMap, hf, Option.bind_eq_bind, Option.bind_some]; exact he
    · intro k
      rw [hk']
      have : k ∈ (m.fetch UF.less (A.rep e) (-1)).keys ↔ k ∈ m.keys ∨ k = A.rep e := by
        rw [hw.1, hm.1]
        simp only [List.mem_map, Prod.exists, exists_and_right, exists_eq_right]
        constructor
        · rintro ⟨v, hv⟩
          rcases (hent k v).1 hv with h1 | ⟨h1, -⟩
          · exact .inl ⟨v, h1⟩
          · exact .inr h1
        · rintro (⟨v, hv⟩ | rfl)
          · exact ⟨v, (hent k v).2 (.inl hv)⟩
          · by_cases hc : ∃ w, (A.rep e, w) ∈ m.entries
            · obtain ⟨w, hw⟩ := hc; exact ⟨w, (hent _ w).2 (.inl hw)⟩
            · exact ⟨-1, (hent _ _).2 (.inr ⟨rfl, rfl, fun w hw => hc ⟨w, hw⟩⟩)⟩
      rw [this]
      simp only [List.mem_cons, exists_eq_or_imp]
      tauto

/-- Position of a key. -/
theorem number_get {m : OMap Int Int} (hm : m.WF UF.less) {k : Int} (hk : k ∈ m.keys) :
    ∃ i : Nat, (number m).get? UF.less k = some (i : Int) ∧ m.keys[i]? = some k := by
  have hw : (number m).WF UF.less := by
    refine ⟨?_, hm.2⟩
    show m.keys = _
    rw [hm.1]
    apply List.ext_getElem?
    intro i
    simp only [number, List.getElem?_map, List.getElem?_mapIdx, Option.map_map]
    rfl
  obtain ⟨i, hi⟩ := List.mem_iff_getElem?.1 hk
  refine ⟨i, ?_, hi⟩
  refine omap_get_spec less_sto hw k _ ?_
  rw [hm.1, List.getElem?_map] at hi
  obtain ⟨e, he, hek⟩ := Option.map_eq_some_iff.1 hi
  refine List.mem_iff_getElem?.2 ⟨i, ?_⟩
  simp [number, List.getElem?_mapIdx, he, hek]

theorem contiguous_spec (m : OMap Int Int) : ∀ (ps : List P) (s : UF) (A : Abs) (lab : P → Int),
    ps.Nodup → Ref s A → (∀ p ∈ ps, lab p ∈ s.elems) →
    (∀ p ∈ ps, ∃ v, m.get? UF.less (A.rep (lab p)) = some v) →
    ∃ s' lab', contiguous m ps (s, lab) = some (s', lab') ∧
      (∀ p ∈ ps, m.get? UF.less (A.rep (lab p)) = some (lab' p)) ∧ (∀ p, p ∉ ps → lab' p = lab p) := by
  intro ps
  induction ps with
  | nil => intro s A lab _ _ _ _; exact ⟨s, lab, rfl, by simp, by simp⟩
  | cons p ps ih =>
    intro s A lab hnd h hmem hget
    obtain ⟨hp, hnd⟩ := List.nodup_cons.1 hnd
    obtain ⟨s1, hf, hR, hel⟩ := h.find (hmem p (by simp))
    obtain ⟨v, hv⟩ := hget p (by simp)
    have hne : ∀ q ∈ ps, upd lab p v q = lab q := by
      intro q hq; simp only [upd]; rw [if_neg]; rintro rfl; exact hp hq
    obtain ⟨s', lab', he, h1, h2⟩ := ih s1 A (upd lab p v) hnd hR
      (fun q hq => by rw [hne q hq, hel]; exact hmem q (by simp [hq]))
      (fun q hq => by rw [hne q hq]; exact hget q (by simp [hq]))
    refine ⟨s', lab', ?_, ?_, ?_⟩
    · simp only [contiguous, hf, hv, Option.bind_eq_bind, Option.bind_some]; exact he
    · intro q hq
      rcases List.mem_cons.1 hq with rfl | hq
      · rw [h2 _ hp]; simpa [upd] using hv
      · rw [← hne q hq]; exact h1 q hq
    · intro q hq
      simp only [List.mem_cons, not_or] at hq
      rw [h2 q hq.2]; simp [upd, hq.1]

theorem globalRoots_spec : ∀ (ps : List P) (s : UF) (A : Abs) (lab : P → Int),
    ps.Nodup → Ref s A → (∀ p ∈ ps, lab p ∈ s.elems) →
    ∃ s' lab', globalRoots ps (s, lab) = some (s', lab') ∧
      (∀ p ∈ ps, lab' p = A.rep (lab p)) ∧ (∀ p, p ∉ ps → lab' p = lab p) := by
  intro ps
  induction ps with
  | nil => intro s A lab _ _ _; exact ⟨s, lab, rfl, by simp, by simp⟩
  | cons p ps ih =>
    intro s A lab hnd h hmem
    obtain ⟨hp, hnd⟩ := List.nodup_cons.1 hnd
    obtain ⟨s1, hf, hR, hel⟩ := h.find (hmem p (by simp))
    have hne : ∀ q ∈ ps, upd lab p (A.rep (lab p)) q = lab q := by
      intro q hq; simp only [upd]; rw [if_neg]; rintro rfl; exact hp hq
    obtain ⟨s', lab', he, h1, h2⟩ := ih s1 A (upd lab p (A.rep (lab p))) hnd hR
      (fun q hq => by rw [hne q hq, hel]; exact hmem q (by simp [hq]))
    refine ⟨s', lab', ?_, ?_, ?_⟩
    · simp only [globalRoots, hf, Option.bind_eq_bind, Option.bind_some]; exact he
    · intro q hq
      rcases List.mem_cons.1 hq with rfl | hq
      · rw [h2 _ hp]; simp [upd]
      · rw [← hne q hq]; exact h1 q hq
    · intro q hq
      simp only [List.mem_cons, not_or] at hq
      rw [h2 q hq.2]; simp [upd, hq.1]

/-- Connectivity through a labelling: labels joined by pairs of labels of related points. -/
theorem label_conn {Q : Type} {R : Q → Q → Prop} (own : Q → Prop) (lab : Q → Int)
    (pairs : List (Int × Int))
    (hsame : ∀ p q, own p → own q → lab p = lab q → EqvGen R p q)
    (hpairs : ∀ a b, (a, b) ∈ pairs → ∃ p q, own p ∧ own q ∧ a = lab p ∧ b = lab q ∧ EqvGen R p q)
    (hR : ∀ p q, R p q → own p ∧ own q ∧ EqvGen (fun a b => (a, b) ∈ pairs) (lab p) (lab q))
    {p q : Q} (hp : own p) (hq : own q) :
    EqvGen (fun a b => (a, b) ∈ pairs) (lab p) (lab q) ↔ EqvGen R p q := by
  constructor
  · have aux : ∀ x y, EqvGen (fun a b => (a, b) ∈ pairs) x y →
        x = y ∨ ∃ p q, own p ∧ own q ∧ lab p = x ∧ lab q = y ∧ EqvGen R p q := by
      intro x y h
      induction h with
      | rel x y h =>
        obtain ⟨p, q, h1, h2, h3, h4, h5⟩ := hpairs x y h
        exact .inr ⟨p, q, h1, h2, h3.symm, h4.symm, h5⟩
      | refl => exact .inl rfl
      | symm x y _ ih =>
        rcases ih with rfl | ⟨p, q, h1, h2, h3, h4, h5⟩
        · exact .inl rfl
        · exact .inr ⟨q, p, h2, h1, h4, h3, .symm _ _ h5⟩
      | trans x y z _ _ ih1 ih2 =>
        rcases ih1 with rfl | ⟨p, q, h1, h2, h3, h4, h5⟩
        · exact ih2
        · rcases ih2 with rfl | ⟨p', q', g1, g2, g3, g4, g5⟩
          · exact .inr ⟨p, q, h1, h2, h3, h4, h5⟩
          · exact .inr ⟨p, q', h1, g2, h3, g4, .trans _ _ _ h5
              (.trans _ _ _ (hsame q p' h2 g1 (by rw [h4, g3])) g5)⟩
    intro h
    rcases aux _ _ h with h | ⟨p', q', h1, h2, h3, h4, h5⟩
    · exact hsame p q hp hq h
    · exact .trans _ _ _ (hsame p p' hp h1 h3.symm) (.trans _ _ _ h5 (hsame q' q h2 hq h4))
  · intro h
    induction h with
    | rel x y h => exact (hR x y h).2.2
    | refl => exact .refl _
    | symm _ _ _ ih => exact .symm _ _ (ih hq hp)
    | trans x y z h1 h2 ih1 ih2 =>
      -- the middle point is owned unless the chain is trivial
      have own_of : ∀ a b, EqvGen R a b → (own a ↔ own b) := by
        intro a b hab
        induction hab with
        | rel a b h => exact ⟨fun _ => (hR a b h).2.1, fun _ => (hR a b h).1⟩
        | refl => exact Iff.rfl
        | symm _ _ _ ih => exact ih.symm
        | trans _ _ _ _ _ i1 i2 => exact i1.trans i2
      have hy := (own_of x y h1).1 hp
      exact .trans _ _ _ (ih1 hp hy) (ih2 hy hq)

/-- Everything one process does on its own. -/
theorem localLabels_spec (mask : P → Bool) (pr : Proc P) (hok : pr.OK) :
    ∃ lab n, localLabels mask pr = some (lab, n) ∧ 0 ≤ n ∧ (∀ p ∈ pr.loc, 0 ≤ lab p ∧ lab p < n) ∧
      ∀ p ∈ pr.loc, ∀ q ∈ pr.loc, lab p = lab q ↔ EqvGen (LEdge mask pr) p q := by
  obtain ⟨hI, hall⟩ := sweep_inv mask pr hok
  obtain ⟨s1, he1, hR1, hel1⟩ := unions_spec (localPairs mask pr (sweep mask pr).label)
    (sweep mask pr).uf Abs.init hI.uf (by
      rintro ⟨a, b⟩ hab
      obtain ⟨p, q, hp, hq, -, hl, rfl, rfl⟩ := (mem_localPairs _ _ _ _ _).1 hab
      simp only [hI.elems]
      exact ⟨⟨hall p hp, (hI.range p (hall p hp)).2⟩, ⟨hl, (hI.range q hl).2⟩⟩)
  change Ref s1 (absUnions _) at hR1
  obtain ⟨s2, A2, he2, hR2, hel2, hnew⟩ := hR1.relabel
  obtain ⟨s3, m, he3, hR3, hel3, hmw, hmk⟩ := rootMap_spec s2.elems s2 A2 ⟨[], []⟩ hR2 (fun _ h => h)
    ⟨rfl, List.Pairwise.nil⟩
  have hlm : ∀ p ∈ pr.loc, (sweep mask pr).label p ∈ (sweep mask pr).uf.elems := by
    intro p hp; rw [hI.elems]; exact ⟨hall p hp, (hI.range p (hall p hp)).2⟩
  have hlm1 : ∀ p ∈ pr.loc, (sweep mask pr).label p ∈ s1.elems := by
    intro p hp; rw [hel1]; exact hlm p hp
  have hkey : ∀ p ∈ pr.loc, A2.rep ((sweep mask pr).label p) ∈ m.keys := by
    intro p hp; rw [hmk]; right; exact ⟨_, by rw [hel2]; exact hlm1 p hp, rfl⟩
  obtain ⟨s4, lab, he4, hlab, -⟩ := contiguous_spec (number m) pr.loc s3 A2 (sweep mask pr).label
    hok.nodup hR3 (fun p hp => by rw [hel3, hel2]; exact hlm1 p hp)
    (fun p hp => by obtain ⟨i, hi, -⟩ := number_get hmw (hkey p hp); exact ⟨_, hi⟩)
  have hfin : localLabels mask pr = some (lab, (sweep mask pr).next) := by
    unfold localLabels
    simp only [he1, he2, he3, he4, Option.bind_eq_bind, Option.bind_some]
  have hlen : (m.keys.length : Int) ≤ (sweep mask pr).next := by
    have hnd : m.keys.Nodup := by
      refine List.Pairwise.imp ?_ hmw.2
      rintro a b hab rfl; simp [UF.less] at hab
    have hsub : m.keys ⊆ (List.range (sweep mask pr).next.toNat).map Int.ofNat := by
      intro k hk
      rw [hmk] at hk
      simp only [List.not_mem_nil, false_or] at hk
      obtain ⟨e, he, rfl⟩ := hk
      have := (hR2.rep_mem he).1
      rw [hel2, hel1, hI.elems] at this
      simp only [List.mem_map, List.mem_range]
      exact ⟨(A2.rep e).toNat, by omega, by simp only [Int.ofNat_eq_natCast]; omega⟩
    have := (List.subperm_of_subset hnd hsub).length_le
    simp only [List.length_map, List.length_range] at this
    have := hI.next
    omega
  refine ⟨lab, _, hfin, hI.next, ?_, ?_⟩
  · intro p hp
    obtain ⟨i, hi, hik⟩ := number_get hmw (hkey p hp)
    rw [hlab p hp] at hi
    have := (List.getElem?_eq_some_iff.1 hik).1
    have : lab p = (i : Int) := Option.some.inj hi
    omega
  · intro p hp q hq
    have h1 : lab p = lab q ↔ A2.rep ((sweep mask pr).label p) = A2.rep ((sweep mask pr).label q) := by
      constructor
      · intro h
        obtain ⟨i, hi, hik⟩ := number_get hmw (hkey p hp)
        obtain ⟨j, hj, hjk⟩ := number_get hmw (hkey q hq)
        rw [hlab p hp] at hi
        rw [hlab q hq] at hj
        have e1 : lab p = (i : Int) := Option.some.inj hi
        have e2 : lab q = (j : Int) := Option.some.inj hj
        have : i = j := by omega
        subst this
        rw [hik] at hjk
        exact Option.some.inj hjk
      · intro h
        have e1 := hlab p hp
        rw [h, hlab q hq] at e1
        exact (Option.some.inj e1).symm
    rw [h1, relabel_iff (s' := s2) hR1 hnew (hlm1 p hp) (hlm1 q hq), absUnions_rep]
    refine label_conn (fun p => p ∈ pr.loc) (sweep mask pr).label _ ?_ ?_ ?_ hp hq
    · intro p q hp _ he; exact hI.same p q (hall p hp) he
    · intro a b hab
      obtain ⟨p, q, hp, hq, h1, h2, rfl, rfl⟩ := (mem_localPairs _ _ _ _ _).1 hab
      exact ⟨p, q, hp, hok.sub p hp q hq, rfl, rfl, .rel _ _ ⟨hp, hq, h1.symm⟩⟩
    · rintro p q ⟨hp, hq, hm⟩
      have hq' := hok.sub p hp q hq
      exact ⟨hp, hq', .rel _ _ ((mem_localPairs _ _ _ _ _).2 ⟨p, q, hp, hq, hm.symm, hall q hq', rfl, rfl⟩)⟩

end Ovk.CC
