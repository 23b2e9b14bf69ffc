import Verif.Lemmas.UnionFind
/-! Helper lemmas for `union_find::Relabel`. -/
namespace Ovk.UF

/-- Which position the map holds for the old root `k` after the positions below `t` are scanned. -/
def New (par : List Nat) (t k v : Nat) : Prop :=
  (v < t ∧ v < k ∧ Root par v k ∧ ∀ i, i < t → i < k → Root par i k → i ≤ v) ∨
  (v = k ∧ ∀ i, i < t → i < k → ¬ Root par i k)

theorem New.fn {par : List Nat} {t k v w : Nat} (h : New par t k v) (h' : New par t k w) : v = w := by
  rcases h with ⟨h1, h2, h3, h4⟩ | ⟨h1, h2⟩ <;> rcases h' with ⟨g1, g2, g3, g4⟩ | ⟨g1, g2⟩
  · have := h4 w g1 g2 g3; have := g4 v h1 h2 h3; omega
  · exact absurd h3 (g2 v h1 h2)
  · exact absurd g3 (h2 w g1 g2)
  · omega

theorem New.total (par : List Nat) (t k : Nat) : ∃ w, New par t k w := by
  induction t with
  | zero => exact ⟨k, .inr ⟨rfl, fun i hi => absurd hi (by omega)⟩⟩
  | succ n ihn =>
    obtain ⟨w, hw⟩ := ihn
    by_cases hc : n < k ∧ Root par n k
    · exact ⟨n, .inl ⟨by omega, hc.1, hc.2, fun i hi _ _ => by omega⟩⟩
    · refine ⟨w, ?_⟩
      rcases hw with ⟨h1, h2, h3, h4⟩ | ⟨h1, h2⟩
      · refine .inl ⟨by omega, h2, h3, fun i hi hiv hri => ?_⟩
        by_cases hin : i = n
        · subst hin; exact absurd ⟨hiv, hri⟩ hc
        · exact h4 i (by omega) hiv hri
      · refine .inr ⟨h1, fun i hi hiv hri => ?_⟩
        by_cases hin : i = n
        · subst hin; exact absurd ⟨hiv, hri⟩ hc
        · exact h2 i (by omega) hiv hri

theorem sorted_lt_iff {l : List Int} (h : Sorted less l) {i j : Nat} {x y : Int}
    (hi : l[i]? = some x) (hj : l[j]? = some y) : x < y ↔ i < j := by
  obtain ⟨hil, hi⟩ := List.getElem?_eq_some_iff.1 hi
  obtain ⟨hjl, hj⟩ := List.getElem?_eq_some_iff.1 hj
  rcases Nat.lt_trichotomy i j with h1 | h1 | h1
  · have := List.pairwise_iff_getElem.1 h i j hil hjl h1
    rw [hi, hj] at this; simp only [less, decide_eq_true_eq] at this; simp [this, h1]
  · subst h1; rw [hi] at hj; subst hj; simp
  · have := List.pairwise_iff_getElem.1 h j i hjl hil h1
    rw [hi, hj] at this; simp only [less, decide_eq_true_eq] at this
    constructor <;> intro <;> omega

theorem relabelScan_spec {A : Abs} (par0 : List Nat) (elems0 : List Int) : ∀ (c t : Nat) (s : UF)
    (m : OMap Nat Nat), t + c = s.elems.length → Ref s A → s.elems = elems0 →
    (∀ j x, Root s.par j x ↔ Root par0 j x) →
    (∀ j : Nat, j < t → ∃ r, s.par[j]? = some r ∧ s.par[r]? = some r) →
    m.WF nless → (∀ k v, (k, v) ∈ m.entries ↔ (∃ i, i < t ∧ Root par0 i k) ∧ New par0 t k v) →
    ∃ s' m', relabelScan (List.range' t c) (s, m) = some (s', m') ∧ Ref s' A ∧ s'.elems = elems0 ∧
      (∀ j x, Root s'.par j x ↔ Root par0 j x) ∧
      (∀ j : Nat, j < t + c → ∃ r, s'.par[j]? = some r ∧ s'.par[r]? = some r) ∧
      m'.WF nless ∧
      (∀ k v, (k, v) ∈ m'.entries ↔ (∃ i, i < t + c ∧ Root par0 i k) ∧ New par0 (t + c) k v) := by
  intro c
  induction c with
  | zero =>
    intro t s m _ hR he hroot hcomp hm hent
    exact ⟨s, m, rfl, hR, he, hroot, hcomp, hm, hent⟩
  | succ c ih =>
    intro t s m htc hR he hroot hcomp hm hent
    obtain ⟨s1, ro, hf, hR1, hel1, hrk1, hiff1, hro, hpar, hkeep⟩ := hR.findIdx (i := t) (by omega)
    have hro0 : Root par0 t ro := (hroot _ _).1 ((hiff1 _ _).1 hro)
    have het : ∃ et, s1.elems[t]? = some et := getElem?_of_lt (by rw [hel1]; omega)
    have her : ∃ er, s1.elems[ro]? = some er := getElem?_of_lt (by rw [← hR1.len]; exact hro.lt')
    obtain ⟨et, het⟩ := het
    obtain ⟨er, her⟩ := her
    have hlt : et < er ↔ t < ro := sorted_lt_iff hR1.sorted het her
    obtain ⟨hw2, he2⟩ := omap_fetch_spec nless_sto hm ro ro
    obtain ⟨hw3, he3⟩ := omap_insert_spec nless_sto hw2 ro t
    have hstep := ih (t + 1) s1
      (if et < er then (m.fetch nless ro ro).insert nless ro t else m.fetch nless ro ro)
      (by rw [hel1]; omega) hR1 (hel1.trans he) (fun j x => (hiff1 j x).trans (hroot j x))
      (by
        intro j hj
        by_cases hjt : j = t
        · subst hjt; exact ⟨ro, hpar, hro.root⟩
        · obtain ⟨r, h1, h2⟩ := hcomp j (by omega)
          exact ⟨r, hkeep _ _ h1 h2, hkeep _ _ h2 h2⟩)
      (by split_ifs; exacts [hw3, hw2])
      (by
        intro k v
        by_cases hk : k = ro
        · subst hk
          have ex : (∃ i, i < t + 1 ∧ Root par0 i k) := ⟨t, by omega, hro0⟩
          simp only [ex, true_and]
          by_cases htr : t < k
          · rw [if_pos (hlt.2 htr), he3]
            simp only [true_and, ne_eq, not_true_eq_false, false_and, or_false]
            constructor
            · rintro rfl
              exact .inl ⟨by omega, htr, hro0, fun i hi _ _ => by omega⟩
            · intro hn
              exact hn.fn (.inl ⟨by omega, htr, hro0, fun i hi _ _ => by omega⟩)
          · rw [if_neg (fun h => htr (hlt.1 h)), he2, hent]
            have step : New par0 (t + 1) k v ↔ New par0 t k v := by
              unfold New
              constructor
              · rintro (⟨h1, h2, h3, h4⟩ | ⟨h1, h2⟩)
                · exact .inl ⟨by omega, h2, h3, fun i hi => h4 i (by omega)⟩
                · exact .inr ⟨h1, fun i hi => h2 i (by omega)⟩
              · rintro (⟨h1, h2, h3, h4⟩ | ⟨h1, h2⟩)
                · exact .inl ⟨by omega, h2, h3, fun i hi hik => h4 i (by omega) hik⟩
                · exact .inr ⟨h1, fun i hi hik => h2 i (by omega) hik⟩
            rw [step]
            constructor
            · rintro (⟨_, h⟩ | ⟨-, rfl, h⟩)
              · exact h
              · refine .inr ⟨rfl, ?_⟩
                intro i hi hik hri
                -- the key would already be present
                obtain ⟨w, hw⟩ := New.total par0 t v
                exact h w ((hent v w).2 ⟨⟨i, hi, hri⟩, hw⟩)
            · intro hn
              by_cases hpres : ∃ i, i < t ∧ Root par0 i k
              · exact .inl ⟨hpres, hn⟩
              · right
                rcases hn with ⟨h1, h2, h3, _⟩ | ⟨h1, h2⟩
                · exact absurd ⟨v, h1, h3⟩ hpres
                · exact ⟨rfl, h1, fun w hw => hpres ((hent k w).1 hw).1⟩
        · have hnot : ¬ Root par0 t k := fun h => hk (h.fn hro0)
          have h1 : (k, v) ∈ (if et < er then (m.fetch nless ro ro).insert nless ro t
              else m.fetch nless ro ro).entries ↔ (k, v) ∈ m.entries := by
            split_ifs
            · rw [he3, he2]; simp [hk]
            · rw [he2]; simp [hk]
          rw [h1, hent]
          have h2 : (∃ i, i < t + 1 ∧ Root par0 i k) ↔ ∃ i, i < t ∧ Root par0 i k := by
            constructor
            · rintro ⟨i, hi, hr⟩
              by_cases hit : i = t
              · subst hit; exact absurd hr hnot
              · exact ⟨i, by omega, hr⟩
            · rintro ⟨i, hi, hr⟩; exact ⟨i, by omega, hr⟩
          have h3 : New par0 (t + 1) k v ↔ New par0 t k v := by
            have aux : ∀ i, Root par0 i k → (i < t + 1 ↔ i < t) := by
              intro i hr
              have : i ≠ t := by rintro rfl; exact hnot hr
              omega
            unfold New
            constructor
            · rintro (⟨h1, h2, h3, h4⟩ | ⟨h1, h2⟩)
              · exact .inl ⟨(aux v h3).1 h1, h2, h3, fun i hi => h4 i (by omega)⟩
              · exact .inr ⟨h1, fun i hi => h2 i (by omega)⟩
            · rintro (⟨h1, h2, h3, h4⟩ | ⟨h1, h2⟩)
              · exact .inl ⟨by omega, h2, h3, fun i hi hik hr => h4 i ((aux i hr).1 hi) hik hr⟩
              · exact .inr ⟨h1, fun i hi hik hr => h2 i ((aux i hr).1 hi) hik hr⟩
          rw [h2, h3])
    obtain ⟨s', m', hs', rest⟩ := hstep
    refine ⟨s', m', ?_, ?_⟩
    · rw [List.range'_succ]
      simp only [relabelScan, hf, het, her, Option.bind_eq_bind, Option.bind_some]
      exact hs'
    · have e : t + 1 + c = t + (c + 1) := by omega
      rw [e] at rest; exact rest

/-- A list walked with a partial function that is defined on all its members. -/
theorem mapM_total {f : α → Option β} {g : α → β} : ∀ {l : List α}, (∀ x ∈ l, f x = some (g x)) →
    l.mapM f = some (l.map g) := by
  intro l
  induction l with
  | nil => intro _; rfl
  | cons x l ih =>
    intro h
    simp [List.mapM_cons, h x (by simp), ih (fun y hy => h y (by simp [hy]))]

/-- What `Relabel` chooses as the new representative of the class of `e`. -/
def IsNew (E : List Int) (rep : Int → Int) (e x : Int) : Prop :=
  (x ∈ E ∧ rep x = rep e ∧ x < rep e ∧ ∀ y ∈ E, rep y = rep e → y < rep e → y ≤ x) ∨
  (x = rep e ∧ ∀ y ∈ E, rep y = rep e → ¬ y < rep e)

theorem Ref.relabel {s : UF} {A : Abs} (h : Ref s A) :
    ∃ s' A', s.relabel = some s' ∧ Ref s' A' ∧ s'.elems = s.elems ∧
      ∀ e ∈ s.elems, IsNew s.elems A.rep e (A'.rep e) := by
  obtain ⟨s1, m, hscan, hR1, hel1, hroot1, hcomp, hmw, hent⟩ :=
    relabelScan_spec s.par s.elems s.elems.length 0 s ⟨[], []⟩ (by omega) h rfl (fun _ _ => Iff.rfl)
      (fun j hj => absurd hj (by omega)) ⟨rfl, List.Pairwise.nil⟩
      (by intro k v; simp)
  simp only [Nat.zero_add] at hcomp hent
  have hlen1 : s1.par.length = s.elems.length := by rw [hR1.len, hel1]
  -- the new root of an old root
  let g : Nat → Nat := fun k => (m.get? nless k).getD 0
  have hg : ∀ k, s.par[k]? = some k → m.get? nless k = some (g k) ∧ New s.par s.elems.length k (g k) := by
    intro k hk
    obtain ⟨w, hw⟩ := New.total s.par s.elems.length k
    have hkl : k < s.elems.length := by rw [← h.len]; exact (List.getElem?_eq_some_iff.1 hk).1
    have hmem := (hent k w).2 ⟨⟨k, hkl, .self hk⟩, hw⟩
    have := omap_get_spec nless_sto hmw k w hmem
    have hgw : g k = w := by simp [g, this]
    rw [hgw]; exact ⟨this, hw⟩
  have hpar1 : ∀ j r, Root s.par j r → s1.par[j]? = some r := by
    intro j r hr
    obtain ⟨r', h1, h2⟩ := hcomp j (by rw [← h.len]; exact hr.lt)
    have : Root s1.par j r' := by
      by_cases hjr : r' = j
      · subst hjr; exact .self h1
      · exact .step h1 hjr (.self h2)
    have := ((hroot1 _ _).1 this).fn hr
    subst this; exact h1
  have hmapM : s1.par.mapM (fun p => m.get? nless p) = some (s1.par.map g) := by
    refine mapM_total ?_
    intro p hp
    obtain ⟨j, hj⟩ := List.mem_iff_getElem?.1 hp
    have hjl : j < s.par.length := by
      rw [h.len, ← hlen1]; exact (List.getElem?_eq_some_iff.1 hj).1
    obtain ⟨r, hr⟩ := h.wf.total hjl
    rw [hpar1 _ _ hr] at hj; cases hj
    exact (hg p hr.root).1
  have hgroot : ∀ k, s.par[k]? = some k → Root s.par (g k) k := by
    intro k hk
    rcases (hg k hk).2 with ⟨_, _, h3, _⟩ | ⟨h1, _⟩
    · exact h3
    · rw [h1]; exact .self hk
  let par2 := s1.par.map g
  have hpar2 : ∀ j r, Root s.par j r → par2[j]? = some (g r) := by
    intro j r hr; simp [par2, hpar1 _ _ hr]
  have hself : ∀ k, s.par[k]? = some k → par2[g k]? = some (g k) := by
    intro k hk; exact hpar2 _ _ (hgroot k hk)
  have hroot2 : ∀ j r, Root s.par j r → Root par2 j (g r) := by
    intro j r hr
    by_cases hc : g r = j
    · rw [← hc]; exact .self (hself r hr.root)
    · exact .step (hpar2 _ _ hr) hc (.self (hself r hr.root))
  let rank2 : List Nat := par2.mapIdx fun i p => if p = i then 1 else 0
  let s' : UF := ⟨s1.elems, par2, rank2⟩
  have hrel : s.relabel = some s' := by
    unfold UF.relabel
    rw [List.range_eq_range', hscan]
    simp only [Option.bind_eq_bind, Option.bind_some, hmapM]
    rfl
  let A' : Abs := ⟨fun e => match s.position e with
      | some i => ((par2[i]?).bind (fun p => s.elems[p]?)).getD 0
      | none => e,
    fun e => match s.position e with
      | some i => (rank2[i]?).getD 0
      | none => 0⟩
  have hpos : ∀ i e, s.elems[i]? = some e → s.position e = some i := by
    intro i e hi
    obtain ⟨j, h1, h2⟩ := position_mem h (List.mem_of_getElem? hi)
    rw [h1, sorted_inj h.sorted h2 hi]
  have hl2 : par2.length = s.elems.length := by simp [par2, hlen1]
  have hrep : ∀ i r e, s.elems[i]? = some e → Root s.par i r →
      s.elems[g r]? = some (A'.rep e) := by
    intro i r e hi hr
    have hgl : g r < s.elems.length := by
      rw [← h.len]; exact (hgroot r hr.root).lt
    obtain ⟨x, hx⟩ := getElem?_of_lt hgl
    simp [A', hpos i e hi, hpar2 i r hr, hx]
  refine ⟨s', A', hrel, ?_, hel1, ?_⟩
  · refine ⟨hR1.sorted, by simp [s', hl2, hel1], ⟨by simp [s', rank2], ?_, ?_⟩, ?_, ?_, ?_, ?_⟩
    · intro i p hp
      have hil : i < s.par.length := by
        rw [h.len, ← hl2]; exact (List.getElem?_eq_some_iff.1 hp).1
      obtain ⟨r, hr⟩ := h.wf.total hil
      have h1 := hpar2 i r hr
      have : some p = some (g r) := by rw [← h1, ← hp]
      cases this
      show g r < par2.length
      rw [hl2, ← h.len]; exact (hgroot r hr.root).lt
    · intro i p a b hp hpi ha hb
      have hil : i < s.par.length := by
        rw [h.len, ← hl2]; exact (List.getElem?_eq_some_iff.1 hp).1
      obtain ⟨r, hr⟩ := h.wf.total hil
      have h1 := hpar2 i r hr
      have : some p = some (g r) := by rw [← h1, ← hp]
      cases this
      have hp' : par2[i]? = some (g r) := hp
      have ha' : rank2[i]? = some a := ha
      have hb' : rank2[g r]? = some b := hb
      simp only [rank2, List.getElem?_mapIdx, hp', hself r hr.root, Option.map_some,
        Option.some.injEq] at ha' hb'
      simp [hpi] at ha' hb'
      omega
    · intro i r e hi hr
      have hi' : s.elems[i]? = some e := by rw [← hel1]; exact hi
      have hil : i < s.par.length := by rw [h.len]; exact (List.getElem?_eq_some_iff.1 hi').1
      obtain ⟨r0, hr0⟩ := h.wf.total hil
      have : r = g r0 := Root.fn hr (hroot2 i r0 hr0)
      subst this
      show s1.elems[g r0]? = _
      rw [hel1]; exact hrep i r0 e hi' hr0
    · intro r e hr hp
      have hr' : s.elems[r]? = some e := by rw [← hel1]; exact hr
      have hl : r < rank2.length := by
        simp only [rank2, List.length_mapIdx]; exact (List.getElem?_eq_some_iff.1 hp).1
      obtain ⟨x, hx⟩ := getElem?_of_lt hl
      show rank2[r]? = _
      simp [A', hpos r e hr', hx]
    · intro e he
      have he' : e ∉ s.elems := by rw [← hel1]; exact he
      simp [A', position_absent h he']
    · intro e he
      have he' : e ∉ s.elems := by rw [← hel1]; exact he
      simp [A', position_absent h he']
  · intro e he
    obtain ⟨i, hi⟩ := List.mem_iff_getElem?.1 he
    obtain ⟨r, hr⟩ := h.wf.total (i := i) (by rw [h.len]; exact (List.getElem?_eq_some_iff.1 hi).1)
    have hx := hrep i r e hi hr
    have hre := h.rep i r e hi hr
    have hy : ∀ y ∈ s.elems, A.rep y = A.rep e → ∃ j, s.elems[j]? = some y ∧ Root s.par j r := by
      intro y hy hye
      obtain ⟨j, hj⟩ := List.mem_iff_getElem?.1 hy
      obtain ⟨q, hq⟩ := h.wf.total (i := j) (by rw [h.len]; exact (List.getElem?_eq_some_iff.1 hj).1)
      have h1 := h.rep j q y hj hq
      rw [hye] at h1
      have := sorted_inj h.sorted h1 hre
      subst this; exact ⟨j, hj, hq⟩
    rcases (hg r hr.root).2 with ⟨h1, h2, h3, h4⟩ | ⟨h1, h2⟩
    · left
      have h5 := h.rep _ _ _ hx h3
      refine ⟨List.mem_of_getElem? hx, ?_, (sorted_lt_iff h.sorted hx hre).2 h2, ?_⟩
      · rw [hre] at h5; exact (Option.some.inj h5).symm
      · intro y hym hye hlt
        obtain ⟨j, hj, hjr⟩ := hy y hym hye
        have hjr' := (sorted_lt_iff h.sorted hj hre).1 hlt
        have := h4 j (List.getElem?_eq_some_iff.1 hj).1 hjr' hjr
        rcases Nat.lt_or_eq_of_le this with h6 | h6
        · exact Int.le_of_lt ((sorted_lt_iff h.sorted hj hx).2 h6)
        · rw [h6, hx] at hj; cases hj; exact Int.le_refl _
    · right
      rw [h1, hre] at hx
      refine ⟨(Option.some.inj hx).symm, ?_⟩
      intro y hym hye hlt
      obtain ⟨j, hj, hjr⟩ := hy y hym hye
      exact h2 j (List.getElem?_eq_some_iff.1 hj).1 ((sorted_lt_iff h.sorted hj hre).1 hlt) hjr

/-- Relabelling keeps the classes. -/
theorem IsNew.same_class {s : UF} {A : Abs} (h : Ref s A) {e x : Int} (he : e ∈ s.elems)
    (hx : IsNew s.elems A.rep e x) : A.rep x = A.rep e ∧ x ∈ s.elems := by
  rcases hx with ⟨h1, h2, -⟩ | ⟨h1, -⟩
  · exact ⟨h2, h1⟩
  · subst h1; exact ⟨h.rep_rep e, (h.rep_mem he).1⟩

theorem IsNew.fn {E : List Int} {rep : Int → Int} {e e' x y : Int} (hee : rep e = rep e')
    (hx : IsNew E rep e x) (hy : IsNew E rep e' y) : x = y := by
  rcases hx with ⟨h1, h2, h3, h4⟩ | ⟨h1, h2⟩ <;> rcases hy with ⟨g1, g2, g3, g4⟩ | ⟨g1, g2⟩
  · have := h4 y g1 (by rw [g2, hee]) (by rw [hee]; exact g3)
    have := g4 x h1 (by rw [h2, hee]) (by rw [← hee]; exact h3)
    omega
  · exact absurd (by rw [← hee]; exact h3) (g2 x h1 (by rw [h2, hee]))
  · exact absurd (by rw [hee]; exact g3) (h2 y g1 (by rw [g2, hee]))
  · rw [h1, g1, hee]

end Ovk.UF
