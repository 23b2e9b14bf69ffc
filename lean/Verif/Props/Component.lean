/-
C31: merged edit notifications.  C32: clearing a component.  C33: connectivities and their grids.
-/
import Verif.Lemmas.Component

namespace Ovk.Comp

/-! ### Specification -/
namespace Spec

/-- Edit bit `b` of connectivity `k` has been raised by some process and not yet announced. -/
def Pending (w : Fin P → Proc) (k : CID) (b : Nat) : Prop :=
  ∃ p f, ((k, f) ∈ (w p).ms.entries ∨ (k, f) ∈ (w p).ns.entries) ∧ f.testBit b = true

/-- `l` announces exactly the bits `pend`: one announcement per connectivity, in increasing order of ID, never an
empty one, and exactly the last one is marked last. -/
def Announces (pend : CID → Nat → Prop) (l : List Call) : Prop :=
  l.Pairwise (fun a b => elemLess a.1 b.1 = true) ∧
    (∀ k b, pend k b ↔ ∃ f z, (k, f, z) ∈ l ∧ f.testBit b = true) ∧
    (∀ e ∈ l, e.2.1 ≠ 0) ∧
    ∀ (i : Nat) e, l[i]? = some e → (e.2.2 = true ↔ i + 1 = l.length)

/-- Connectivity `c` has grid `g` on one of its sides. -/
def Touches (c : CID) (g : Int) : Prop := mGrid c = g ∨ nGrid c = g

end Spec

structure Inv (w : Fin P → Proc) : Prop where
  grids : ∀ p q, (w p).grids = (w q).grids
  records : ∀ p q, (w p).records = (w q).records
  log : ∀ p q, (w p).log = (w q).log
  gsort : ∀ p, Sorted intLess (w p).grids
  lsort : ∀ p, Sorted intLess (w p).localGrids
  rsort : ∀ p, Sorted elemLess (w p).records
  sub : ∀ p g, g ∈ (w p).localGrids → g ∈ (w p).grids
  ends : ∀ p c, c ∈ (w p).records → mGrid c ∈ (w p).grids ∧ nGrid c ∈ (w p).grids
  mwf : ∀ p, (w p).ms.WF elemLess
  nwf : ∀ p, (w p).ns.WF elemLess
  mkey : ∀ p c, (∃ f, (c, f) ∈ (w p).ms.entries) ↔ c ∈ (w p).records ∧ mGrid c ∈ (w p).localGrids
  nkey : ∀ p c, (∃ f, (c, f) ∈ (w p).ns.entries) ↔ c ∈ (w p).records ∧ nGrid c ∈ (w p).localGrids

theorem inv_start : Inv (P := P) fun _ => Proc.start := by
  have h1 : Sorted intLess ([] : List Int) := by unfold Sorted; exact List.Pairwise.nil
  have h2 : Sorted (elemLess (n := 2)) ([] : List CID) := by unfold Sorted; exact List.Pairwise.nil
  refine ⟨by simp, by simp, by simp, fun _ => h1, fun _ => h1, fun _ => h2, ?_, ?_, fun _ => empty_wf,
    fun _ => empty_wf, ?_, ?_⟩ <;> simp [Proc.start]

/-! ### Synchronising -/

theorem zero_mem (m : OMap CID Nat) (k : CID) (f : Nat) :
    (k, f) ∈ (zero m).entries ↔ f = 0 ∧ ∃ g, (k, g) ∈ m.entries := by
  unfold zero
  simp only [List.mem_map, Prod.mk.injEq, Prod.exists]
  constructor
  · rintro ⟨a, g, h, rfl, rfl⟩; exact ⟨rfl, g, h⟩
  · rintro ⟨rfl, g, h⟩; exact ⟨k, g, h, rfl, rfl⟩

theorem zero_wf {m : OMap CID Nat} (h : m.WF elemLess) : (zero m).WF elemLess := by
  refine ⟨?_, h.2⟩
  show m.keys = (m.entries.map _).map Prod.fst
  rw [h.1, List.map_map]
  rfl

theorem zero_id {m : OMap CID Nat} (h : ∀ e ∈ m.entries, e.2 = 0) : zero m = m := by
  obtain ⟨ks, es⟩ := m
  unfold zero
  congr 1
  conv_rhs => rw [← List.map_id es]
  apply List.map_congr_left
  intro e he
  have := h e he
  obtain ⟨a, b⟩ := e
  simp at this
  simp [this]

/-- The state after a synchronisation announcing `l`. -/
def synced (w : Fin P → Proc) (l : List Call) : Fin P → Proc := fun p =>
  { w p with ms := zero (w p).ms, ns := zero (w p).ns, log := (w p).log ++ l }

theorem sync_spec {w : Fin P → Proc} (h : Inv w) :
    ∃ l, sync w = some (synced w l) ∧ Spec.Announces (Spec.Pending w) l := by
  unfold sync
  by_cases hE : ∀ p, hasEdits (w p) = false
  · rw [if_pos hE]
    have hz : ∀ p, (∀ e ∈ (w p).ms.entries, e.2 = 0) ∧ ∀ e ∈ (w p).ns.entries, e.2 = 0 := by
      intro p
      have := hE p
      unfold hasEdits at this
      rw [Bool.or_eq_false_iff, List.any_eq_false, List.any_eq_false] at this
      simpa using this
    refine ⟨[], ?_, by simp, ?_, by simp, by simp⟩
    · congr 1
      funext p
      unfold synced
      rw [zero_id (hz p).1, zero_id (hz p).2, List.append_nil]
    · intro k b
      simp only [List.not_mem_nil, false_and, exists_false, iff_false]
      rintro ⟨p, f, hf, hb⟩
      have : f = 0 := hf.elim (fun h' => (hz p).1 _ h') (fun h' => (hz p).2 _ h')
      rw [this] at hb
      simp at hb
  · rw [if_neg hE]
    obtain ⟨p0, -⟩ : ∃ p, ¬ hasEdits (w p) = false := by
      by_contra hc
      exact hE fun p => by
        by_contra hp
        exact hc ⟨p, hp⟩
    -- local arrays
    have hloc : ∀ p, ∃ a, localFlags (w p) = some a ∧ a.length = (w p).records.length ∧
        ∀ (i : Nat) k, (w p).records[i]? = some k → ∀ b, ((a[i]?).getD 0).testBit b = true ↔
          ∃ f, ((k, f) ∈ (w p).ms.entries ∨ (k, f) ∈ (w p).ns.entries) ∧ f.testBit b = true := by
      intro p
      have hix := fun (i : Nat) k (hk : (w p).records[i]? = some k) => indexMap_get (h.rsort p) hk
      obtain ⟨a1, e1, l1, b1⟩ := orEntries_spec hix (w p).ms.entries (List.replicate (w p).records.length 0)
        (by simp) (fun e he => ((h.mkey p e.1).1 ⟨e.2, he⟩).1)
      obtain ⟨a2, e2, l2, b2⟩ := orEntries_spec hix (w p).ns.entries a1 l1
        (fun e he => ((h.nkey p e.1).1 ⟨e.2, he⟩).1)
      refine ⟨a2, ?_, l2, ?_⟩
      · unfold localFlags
        dsimp only
        rw [e1]
        exact e2
      · intro i k hk b
        have hil : i < (w p).records.length := (List.getElem?_eq_some_iff.1 hk).1
        rw [b2 i k hk b, b1 i k hk b]
        simp only [List.getElem?_replicate, hil, if_true, Option.getD_some, Nat.zero_testBit, Bool.false_eq_true,
          false_or]
        constructor
        · rintro (⟨f, h1, h2⟩ | ⟨f, h1, h2⟩)
          · exact ⟨f, Or.inl h1, h2⟩
          · exact ⟨f, Or.inr h1, h2⟩
        · rintro ⟨f, h1 | h1, h2⟩
          · exact Or.inl ⟨f, h1, h2⟩
          · exact Or.inr ⟨f, h1, h2⟩
    obtain ⟨a, ha⟩ := Classical.axiomOfChoice hloc
    rw [everyone_some _ a (fun p => (ha p).1), Option.bind_some]
    have hlen : ∀ p, (a p).length = (w p0).records.length := fun p => by rw [(ha p).2.1, h.records p p0]
    rw [if_pos (fun p q => by rw [hlen, hlen])]
    obtain ⟨g1, g2⟩ := allOr_spec _ a hlen
    generalize hA : allOr (w p0).records.length a = A at g1 g2
    have hbits : ∀ (i : Nat) k, (w p0).records[i]? = some k → ∀ b, ((A[i]?).getD 0).testBit b = true ↔
        Spec.Pending w k b := by
      intro i k hk b
      rw [g2 i (List.getElem?_eq_some_iff.1 hk).1 b]
      constructor
      · rintro ⟨p, hp⟩
        obtain ⟨f, hf⟩ := ((ha p).2.2 i k (by rw [h.records p p0]; exact hk) b).1 hp
        exact ⟨p, f, hf⟩
      · rintro ⟨p, f, hf⟩
        exact ⟨p, ((ha p).2.2 i k (by rw [h.records p p0]; exact hk) b).2 ⟨f, hf⟩⟩
    have htrig : ∀ p, announce (w p) (allOr (a p).length a) =
        some (mark ((w p0).records.zip A) (A.countP (· != 0))) := by
      intro p
      unfold announce
      rw [hlen p, hA, h.records p p0]
      exact triggers_eq _ A _ A 0 _ (by rw [g1])
        (fun i k hk => by rw [Nat.zero_add]; exact indexMap_get (h.rsort p0) hk)
        (fun i _ => by rw [Nat.zero_add])
    rw [everyone_some _ (fun _ => mark ((w p0).records.zip A) (A.countP (· != 0))) htrig, Option.bind_some]
    obtain ⟨m1, m2, m3, m4⟩ := mark_spec ((w p0).records.zip A) (A.countP (· != 0))
      (by rw [countP_zip A _ (by rw [g1])])
    refine ⟨_, rfl, ?_, ?_, ?_, ?_⟩
    · rw [List.map_fst_zip (by omega)] at m1
      have := List.Pairwise.sublist m1 (h.rsort p0)
      rw [List.pairwise_map] at this
      exact this
    · intro k b
      constructor
      · intro hp
        have hk : k ∈ (w p0).records := by
          obtain ⟨p, f, hf, -⟩ := hp
          rw [h.records p0 p]
          exact hf.elim (fun h' => ((h.mkey p k).1 ⟨f, h'⟩).1) (fun h' => ((h.nkey p k).1 ⟨f, h'⟩).1)
        obtain ⟨i, hi⟩ := List.mem_iff_getElem?.1 hk
        have hil : i < (w p0).records.length := (List.getElem?_eq_some_iff.1 hi).1
        have hAi : A[i]? = some (A[i]'(by omega)) := List.getElem?_eq_getElem _
        have hb := (hbits i k hi b).2 hp
        rw [hAi, Option.getD_some] at hb
        have hz : (k, A[i]'(by omega)) ∈ (w p0).records.zip A :=
          List.mem_iff_getElem?.2 ⟨i, by rw [List.getElem?_zip_eq_some]; exact ⟨hi, hAi⟩⟩
        obtain ⟨z, hz'⟩ := (m2 _ _).2 ⟨hz, by intro e; rw [e] at hb; simp at hb⟩
        exact ⟨_, z, hz', hb⟩
      · rintro ⟨f, z, hz, hb⟩
        obtain ⟨i, hi⟩ := List.mem_iff_getElem?.1 ((m2 k f).1 ⟨z, hz⟩).1
        rw [List.getElem?_zip_eq_some] at hi
        exact (hbits i k hi.1 b).1 (by rw [hi.2]; exact hb)
    · rintro ⟨k, f, z⟩ he
      exact ((m2 k f).1 ⟨z, he⟩).2
    · intro i e he
      rw [m4 i e he]
      omega

theorem inv_synced {w : Fin P → Proc} (h : Inv w) (l : List Call) : Inv (synced w l) where
  grids := h.grids
  records := h.records
  log := fun p q => by show (w p).log ++ l = (w q).log ++ l; rw [h.log p q]
  gsort := h.gsort
  lsort := h.lsort
  rsort := h.rsort
  sub := h.sub
  ends := h.ends
  mwf := fun p => zero_wf (h.mwf p)
  nwf := fun p => zero_wf (h.nwf p)
  mkey := fun p c => by
    refine Iff.trans ?_ (h.mkey p c)
    show (∃ f, (c, f) ∈ (zero (w p).ms).entries) ↔ _
    simp [zero_mem]
  nkey := fun p c => by
    refine Iff.trans ?_ (h.nkey p c)
    show (∃ f, (c, f) ∈ (zero (w p).ns).entries) ↔ _
    simp [zero_mem]

theorem synced_pending (w : Fin P → Proc) (l : List Call) (k : CID) (b : Nat) :
    ¬ Spec.Pending (synced w l) k b := by
  rintro ⟨p, f, hf, hb⟩
  have : f = 0 := hf.elim (fun h' => ((zero_mem _ _ _).1 h').1) (fun h' => ((zero_mem _ _ _).1 h').1)
  rw [this] at hb
  simp at hb

/-! ### Creating and destroying connectivities -/

theorem createLocal_spec (s : Proc) (hm : s.ms.WF elemLess) (hn : s.ns.WF elemLess)
    (hl : Sorted intLess s.localGrids) (c : CID) :
    (createLocal s c).grids = s.grids ∧ (createLocal s c).localGrids = s.localGrids ∧
    (createLocal s c).records = s.records ∧ (createLocal s c).log = s.log ∧
    (createLocal s c).ms.WF elemLess ∧ (createLocal s c).ns.WF elemLess ∧
    (∀ k, (∃ f, (k, f) ∈ (createLocal s c).ms.entries) ↔
      (k = c ∧ mGrid c ∈ s.localGrids) ∨ ∃ f, (k, f) ∈ s.ms.entries) ∧
    (∀ k, (∃ f, (k, f) ∈ (createLocal s c).ns.entries) ↔
      (k = c ∧ nGrid c ∈ s.localGrids) ∨ ∃ f, (k, f) ∈ s.ns.entries) := by
  have ins : ∀ (m : OMap CID Nat), m.WF elemLess → (m.insert elemLess c 0).WF elemLess ∧
      ∀ k, (∃ f, (k, f) ∈ (m.insert elemLess c 0).entries) ↔ k = c ∨ ∃ f, (k, f) ∈ m.entries := by
    intro m hm
    obtain ⟨h1, h2⟩ := omap_insert_spec esto hm c 0
    refine ⟨h1, fun k => ?_⟩
    constructor
    · rintro ⟨f, hf⟩
      rcases (h2 k f).1 hf with h | h
      · exact Or.inl h.1
      · exact Or.inr ⟨f, h.2⟩
    · intro h
      by_cases e : k = c
      · exact ⟨0, (h2 k 0).2 (Or.inl ⟨e, rfl⟩)⟩
      · obtain ⟨f, hf⟩ := h.resolve_left e
        exact ⟨f, (h2 k f).2 (Or.inr ⟨e, hf⟩)⟩
  unfold createLocal
  have cm := oset_contains_iff intLess_sto hl (mGrid c)
  have cn := oset_contains_iff intLess_sto hl (nGrid c)
  dsimp only
  by_cases h1 : OSet.contains intLess s.localGrids (mGrid c) = true
  · rw [if_pos h1]
    by_cases h2 : OSet.contains intLess s.localGrids (nGrid c) = true
    · rw [if_pos h2]
      refine ⟨rfl, rfl, rfl, rfl, (ins _ hm).1, (ins _ hn).1, fun k => ?_, fun k => ?_⟩
      · simp [(ins _ hm).2, cm.1 h1]
      · simp [(ins _ hn).2, cn.1 h2]
    · rw [if_neg h2]
      refine ⟨rfl, rfl, rfl, rfl, (ins _ hm).1, hn, fun k => ?_, fun k => ?_⟩
      · simp [(ins _ hm).2, cm.1 h1]
      · have h3 : nGrid c ∉ s.localGrids := fun h => h2 (cn.2 h)
        simp [h3]
  · rw [if_neg h1]
    by_cases h2 : OSet.contains intLess s.localGrids (nGrid c) = true
    · rw [if_pos h2]
      refine ⟨rfl, rfl, rfl, rfl, hm, (ins _ hn).1, fun k => ?_, fun k => ?_⟩
      · have h3 : mGrid c ∉ s.localGrids := fun h => h1 (cm.2 h)
        simp [h3]
      · simp [(ins _ hn).2, cn.1 h2]
    · rw [if_neg h2]
      refine ⟨rfl, rfl, rfl, rfl, hm, hn, fun k => ?_, fun k => ?_⟩
      · have h3 : mGrid c ∉ s.localGrids := fun h => h1 (cm.2 h)
        simp [h3]
      · have h3 : nGrid c ∉ s.localGrids := fun h => h2 (cn.2 h)
        simp [h3]

theorem createLocals_spec (ids : List CID) : ∀ (s : Proc), s.ms.WF elemLess → s.ns.WF elemLess →
    Sorted intLess s.localGrids →
    (ids.foldl createLocal s).grids = s.grids ∧ (ids.foldl createLocal s).localGrids = s.localGrids ∧
    (ids.foldl createLocal s).records = s.records ∧ (ids.foldl createLocal s).log = s.log ∧
    (ids.foldl createLocal s).ms.WF elemLess ∧ (ids.foldl createLocal s).ns.WF elemLess ∧
    (∀ k, (∃ f, (k, f) ∈ (ids.foldl createLocal s).ms.entries) ↔
      (k ∈ ids ∧ mGrid k ∈ s.localGrids) ∨ ∃ f, (k, f) ∈ s.ms.entries) ∧
    (∀ k, (∃ f, (k, f) ∈ (ids.foldl createLocal s).ns.entries) ↔
      (k ∈ ids ∧ nGrid k ∈ s.localGrids) ∨ ∃ f, (k, f) ∈ s.ns.entries) := by
  induction ids with
  | nil => intro s hm hn _; exact ⟨rfl, rfl, rfl, rfl, hm, hn, by simp, by simp⟩
  | cons c cs ih =>
    intro s hm hn hl
    obtain ⟨a1, a2, a3, a4, a5, a6, a7, a8⟩ := createLocal_spec s hm hn hl c
    obtain ⟨b1, b2, b3, b4, b5, b6, b7, b8⟩ := ih (createLocal s c) a5 a6 (by rw [a2]; exact hl)
    rw [List.foldl_cons]
    refine ⟨b1.trans a1, b2.trans a2, b3.trans a3, b4.trans a4, b5, b6, fun k => ?_, fun k => ?_⟩
    · rw [b7, a7, a2, List.mem_cons]
      constructor
      · rintro (⟨h1, h2⟩ | ⟨rfl, h2⟩ | h)
        · exact Or.inl ⟨Or.inr h1, h2⟩
        · exact Or.inl ⟨Or.inl rfl, h2⟩
        · exact Or.inr h
      · rintro (⟨rfl | h1, h2⟩ | h)
        · exact Or.inr (Or.inl ⟨rfl, h2⟩)
        · exact Or.inl ⟨h1, h2⟩
        · exact Or.inr (Or.inr h)
    · rw [b8, a8, a2, List.mem_cons]
      constructor
      · rintro (⟨h1, h2⟩ | ⟨rfl, h2⟩ | h)
        · exact Or.inl ⟨Or.inr h1, h2⟩
        · exact Or.inl ⟨Or.inl rfl, h2⟩
        · exact Or.inr h
      · rintro (⟨rfl | h1, h2⟩ | h)
        · exact Or.inr (Or.inl ⟨rfl, h2⟩)
        · exact Or.inl ⟨h1, h2⟩
        · exact Or.inr (Or.inr h)

theorem valid_iff {w : Fin P → Proc} (h : Inv w) (p : Fin P) (there : Bool) (c : CID) :
    valid (w p) there c = true ↔ 0 ≤ mGrid c ∧ 0 ≤ nGrid c ∧ mGrid c ∈ (w p).grids ∧ nGrid c ∈ (w p).grids ∧
      (c ∈ (w p).records ↔ there = true) := by
  unfold valid
  rw [Bool.and_eq_true, Bool.and_eq_true, Bool.and_eq_true, Bool.and_eq_true, decide_eq_true_eq,
    decide_eq_true_eq, oset_contains_iff intLess_sto (h.gsort p), oset_contains_iff intLess_sto (h.gsort p),
    ← oset_contains_iff esto (h.rsort p), beq_iff_eq]
  have : (OSet.contains elemLess (w p).records c = there) ↔
      (OSet.contains elemLess (w p).records c = true ↔ there = true) := by
    cases OSet.contains elemLess (w p).records c <;> cases there <;> simp
  rw [this]
  simp only [and_assoc]

theorem createConns_spec {w : Fin P → Proc} (h : Inv w) (ids : List CID) {w' : Fin P → Proc}
    (e : createConns w ids = some w') :
    Inv w' ∧ (∀ p, (w' p).grids = (w p).grids) ∧ (∀ p, (w' p).localGrids = (w p).localGrids) ∧
      ∀ p c, c ∈ (w' p).records ↔ c ∈ ids ∨ c ∈ (w p).records := by
  unfold createConns at e
  split_ifs at e with hv
  obtain ⟨l, hs, -⟩ := sync_spec h
  rw [hs, Option.bind_some, Option.some.injEq] at e
  subst e
  have h' := inv_synced h l
  generalize hw : synced w l = u at h'
  have hug : ∀ p, (u p).grids = (w p).grids := fun p => by rw [← hw]; rfl
  have hul : ∀ p, (u p).localGrids = (w p).localGrids := fun p => by rw [← hw]; rfl
  have hur : ∀ p, (u p).records = (w p).records := fun p => by rw [← hw]; rfl
  have key := fun p => createLocals_spec ids (u p) (h'.mwf p) (h'.nwf p) (h'.lsort p)
  have hrec : ∀ p, Sorted elemLess (ids.foldl (OSet.insert elemLess) (ids.foldl createLocal (u p)).records) ∧
      ∀ x, x ∈ ids.foldl (OSet.insert elemLess) (ids.foldl createLocal (u p)).records ↔
        x ∈ ids ∨ x ∈ (u p).records := fun p => by
    rw [(key p).2.2.1]; exact fold_insert esto ids (h'.rsort p)
  refine ⟨⟨?_, ?_, ?_, ?_, ?_, ?_, ?_, ?_, ?_, ?_, ?_, ?_⟩, ?_, ?_, ?_⟩
  · intro p q
    show (ids.foldl createLocal (u p)).grids = (ids.foldl createLocal (u q)).grids
    rw [(key p).1, (key q).1, h'.grids p q]
  · intro p q
    show ids.foldl _ (ids.foldl createLocal (u p)).records = ids.foldl _ (ids.foldl createLocal (u q)).records
    rw [(key p).2.2.1, (key q).2.2.1, h'.records p q]
  · intro p q
    show (ids.foldl createLocal (u p)).log ++ _ = (ids.foldl createLocal (u q)).log ++ _
    rw [(key p).2.2.2.1, (key q).2.2.2.1, h'.log p q]
  · intro p
    show Sorted intLess (ids.foldl createLocal (u p)).grids
    rw [(key p).1]; exact h'.gsort p
  · intro p
    show Sorted intLess (ids.foldl createLocal (u p)).localGrids
    rw [(key p).2.1]; exact h'.lsort p
  · intro p; exact (hrec p).1
  · intro p g
    show g ∈ (ids.foldl createLocal (u p)).localGrids → g ∈ (ids.foldl createLocal (u p)).grids
    rw [(key p).2.1, (key p).1]; exact h'.sub p g
  · intro p c hc
    show mGrid c ∈ (ids.foldl createLocal (u p)).grids ∧ nGrid c ∈ (ids.foldl createLocal (u p)).grids
    rw [(key p).1]
    rcases ((hrec p).2 c).1 hc with hc | hc
    · have := (valid_iff h p false c).1 (List.all_eq_true.1 (hv p) c hc)
      rw [hug p]
      exact ⟨this.2.2.1, this.2.2.2.1⟩
    · exact h'.ends p c hc
  · intro p; exact (key p).2.2.2.2.1
  · intro p; exact (key p).2.2.2.2.2.1
  · intro p c
    show (∃ f, (c, f) ∈ (ids.foldl createLocal (u p)).ms.entries) ↔
      c ∈ ids.foldl (OSet.insert elemLess) (ids.foldl createLocal (u p)).records ∧
        mGrid c ∈ (ids.foldl createLocal (u p)).localGrids
    rw [(key p).2.2.2.2.2.2.1, (hrec p).2, (key p).2.1, h'.mkey p c]
    constructor
    · rintro (⟨a, b⟩ | ⟨a, b⟩)
      · exact ⟨Or.inl a, b⟩
      · exact ⟨Or.inr a, b⟩
    · rintro ⟨a | a, b⟩
      · exact Or.inl ⟨a, b⟩
      · exact Or.inr ⟨a, b⟩
  · intro p c
    show (∃ f, (c, f) ∈ (ids.foldl createLocal (u p)).ns.entries) ↔
      c ∈ ids.foldl (OSet.insert elemLess) (ids.foldl createLocal (u p)).records ∧
        nGrid c ∈ (ids.foldl createLocal (u p)).localGrids
    rw [(key p).2.2.2.2.2.2.2, (hrec p).2, (key p).2.1, h'.nkey p c]
    constructor
    · rintro (⟨a, b⟩ | ⟨a, b⟩)
      · exact ⟨Or.inl a, b⟩
      · exact ⟨Or.inr a, b⟩
    · rintro ⟨a | a, b⟩
      · exact Or.inl ⟨a, b⟩
      · exact Or.inr ⟨a, b⟩
  · intro p
    exact (key p).1.trans (hug p)
  · intro p
    exact (key p).2.1.trans (hul p)
  · intro p c
    rw [← hur p]
    exact (hrec p).2 c

theorem createConns_defined {w : Fin P → Proc} (h : Inv w) (ids : List CID)
    (hv : ∀ p, ∀ c ∈ ids, valid (w p) false c = true) : ∃ w', createConns w ids = some w' := by
  obtain ⟨l, hs, -⟩ := sync_spec h
  unfold createConns
  rw [if_pos (fun p => List.all_eq_true.2 (hv p)), hs, Option.bind_some]
  exact ⟨_, rfl⟩

theorem destroyConns_spec {w : Fin P → Proc} (h : Inv w) (ids : Fin P → List CID)
    (hsame : ∀ p q, ids p = ids q) {w' : Fin P → Proc} (e : destroyConns w ids = some w') :
    Inv w' ∧ (∀ p, (w' p).grids = (w p).grids) ∧ (∀ p, (w' p).localGrids = (w p).localGrids) ∧
      ∀ p c, c ∈ (w' p).records ↔ c ∉ ids p ∧ c ∈ (w p).records := by
  unfold destroyConns at e
  split_ifs at e with hv
  obtain ⟨l, hs, -⟩ := sync_spec h
  rw [hs, Option.bind_some, Option.some.injEq] at e
  subst e
  have h' := inv_synced h l
  generalize hw : synced w l = u at h'
  have hug : ∀ p, (u p).grids = (w p).grids := fun p => by rw [← hw]; rfl
  have hul : ∀ p, (u p).localGrids = (w p).localGrids := fun p => by rw [← hw]; rfl
  have hur : ∀ p, (u p).records = (w p).records := fun p => by rw [← hw]; rfl
  have hrec := fun p => fold_erase esto (ids p) (h'.rsort p)
  have hm := fun p => fold_merase esto (ids p) (h'.mwf p)
  have hn := fun p => fold_merase esto (ids p) (h'.nwf p)
  refine ⟨⟨h'.grids, ?_, ?_, h'.gsort, h'.lsort, fun p => (hrec p).1, h'.sub, ?_, fun p => (hm p).1,
    fun p => (hn p).1, ?_, ?_⟩, hug, hul, ?_⟩
  · intro p q
    show (ids p).foldl _ (u p).records = (ids q).foldl _ (u q).records
    rw [hsame p q, h'.records p q]
  · intro p q
    show (u p).log ++ each DESTROY (ids p) (ids p).length = (u q).log ++ each DESTROY (ids q) (ids q).length
    rw [hsame p q, h'.log p q]
  · intro p c hc
    exact h'.ends p c (((hrec p).2 c).1 hc).2
  · intro p c
    show (∃ f, (c, f) ∈ ((ids p).foldl (OMap.erase elemLess) (u p).ms).entries) ↔
      c ∈ (ids p).foldl (OSet.erase elemLess) (u p).records ∧ mGrid c ∈ (u p).localGrids
    rw [(hrec p).2, and_assoc, ← h'.mkey p c]
    constructor
    · rintro ⟨f, hf⟩
      have := ((hm p).2 c f).1 hf
      exact ⟨this.1, f, this.2⟩
    · rintro ⟨h1, f, hf⟩
      exact ⟨f, ((hm p).2 c f).2 ⟨h1, hf⟩⟩
  · intro p c
    show (∃ f, (c, f) ∈ ((ids p).foldl (OMap.erase elemLess) (u p).ns).entries) ↔
      c ∈ (ids p).foldl (OSet.erase elemLess) (u p).records ∧ nGrid c ∈ (u p).localGrids
    rw [(hrec p).2, and_assoc, ← h'.nkey p c]
    constructor
    · rintro ⟨f, hf⟩
      have := ((hn p).2 c f).1 hf
      exact ⟨this.1, f, this.2⟩
    · rintro ⟨h1, f, hf⟩
      exact ⟨f, ((hn p).2 c f).2 ⟨h1, hf⟩⟩
  · intro p c
    rw [← hur p]
    exact (hrec p).2 c

theorem destroyConns_defined {w : Fin P → Proc} (h : Inv w) (ids : Fin P → List CID)
    (hv : ∀ p, ∀ c ∈ ids p, valid (w p) true c = true) : ∃ w', destroyConns w ids = some w' := by
  obtain ⟨l, hs, -⟩ := sync_spec h
  unfold destroyConns
  rw [if_pos (fun p => List.all_eq_true.2 (hv p)), hs, Option.bind_some]
  exact ⟨_, rfl⟩

/-! ### Grid events -/

theorem gridFlags_spec (flag : Nat) (ids : List Int) :
    (gridFlags flag ids).WF intLess ∧ ∀ g f, (g, f) ∈ (gridFlags flag ids).entries ↔ g ∈ ids ∧ f = flag := by
  have key : ∀ (ids : List Int) (m : OMap Int Nat) (D : Int → Prop), m.WF intLess →
      (∀ g f, (g, f) ∈ m.entries ↔ D g ∧ f = flag) →
      (ids.foldl (fun m g => (m.fetch intLess g 0).modify intLess g (· ||| flag)) m).WF intLess ∧
      ∀ g f, (g, f) ∈ (ids.foldl (fun m g => (m.fetch intLess g 0).modify intLess g (· ||| flag)) m).entries ↔
        (g ∈ ids ∨ D g) ∧ f = flag := by
    intro ids
    induction ids with
    | nil => intro m D hm hD; exact ⟨hm, by simpa using hD⟩
    | cons a as ih =>
      intro m D hm hD
      obtain ⟨f1, f2⟩ := omap_fetch_spec intLess_sto hm a 0
      have hex : ∃ v, (a, v) ∈ (m.fetch intLess a 0).entries := by
        by_cases e : ∃ v, (a, v) ∈ m.entries
        · obtain ⟨v, hv⟩ := e
          exact ⟨v, (f2 a v).2 (Or.inl hv)⟩
        · exact ⟨0, (f2 a 0).2 (Or.inr ⟨rfl, rfl, fun v hv => e ⟨v, hv⟩⟩)⟩
      obtain ⟨m1, m2⟩ := omap_modify_spec intLess_sto f1 a (· ||| flag) hex
      obtain ⟨i1, i2⟩ := ih _ (fun g => g = a ∨ D g) m1 (by
        intro g f
        rw [m2]
        constructor
        · rintro (⟨hne, h⟩ | ⟨rfl, v, h, rfl⟩)
          · rcases (f2 g f).1 h with h | h
            · exact ⟨Or.inr ((hD g f).1 h).1, ((hD g f).1 h).2⟩
            · exact absurd h.1 hne
          · refine ⟨Or.inl rfl, ?_⟩
            rcases (f2 g v).1 h with h | h
            · rw [((hD g v).1 h).2]
              simp
            · rw [h.2.1]
              simp
        · rintro ⟨h, rfl⟩
          by_cases e : g = a
          · subst e
            obtain ⟨v, hv⟩ := hex
            refine Or.inr ⟨rfl, v, hv, ?_⟩
            rcases (f2 g v).1 hv with h | h
            · rw [((hD g v).1 h).2]
              simp
            · rw [h.2.1]
              simp
          · exact Or.inl ⟨e, (f2 g f).2 (Or.inl ((hD g f).2 ⟨h.resolve_left e, rfl⟩))⟩)
      rw [List.foldl_cons]
      refine ⟨i1, fun g f => ?_⟩
      rw [i2, List.mem_cons]
      constructor
      · rintro ⟨h | h | h, hf⟩ <;> exact ⟨by simp [h], hf⟩
      · rintro ⟨(h | h) | h, hf⟩ <;> exact ⟨by simp [h], hf⟩
  have := key ids ⟨[], []⟩ (fun _ => False) empty_wf (by simp)
  unfold gridFlags
  simpa using this

theorem fold_insert_if {β : Type} {lt : α → α → Bool} (h : IsSTO lt) (c : β → Bool) (g : β → α) (es : List β) :
    ∀ {l : List α}, Sorted lt l →
    Sorted lt (es.foldl (fun d e => if c e then OSet.insert lt d (g e) else d) l) ∧
    ∀ x, x ∈ es.foldl (fun d e => if c e then OSet.insert lt d (g e) else d) l ↔
      (∃ e ∈ es, c e = true ∧ g e = x) ∨ x ∈ l := by
  induction es with
  | nil => intro l hl; exact ⟨hl, by simp⟩
  | cons e es ih =>
    intro l hl
    rw [List.foldl_cons]
    by_cases hc : c e = true
    · rw [if_pos hc]
      obtain ⟨h1, h2⟩ := oset_insert_spec h hl (g e)
      obtain ⟨h3, h4⟩ := ih h1
      refine ⟨h3, fun x => ?_⟩
      rw [h4, h2]
      simp only [List.mem_cons, exists_eq_or_imp, hc, true_and]
      constructor
      · rintro (h | h | h)
        · exact Or.inl (Or.inr h)
        · exact Or.inl (Or.inl h.symm)
        · exact Or.inr h
      · rintro ((h | h) | h)
        · exact Or.inr (Or.inl h.symm)
        · exact Or.inl h
        · exact Or.inr (Or.inr h)
    · rw [if_neg hc]
      obtain ⟨h3, h4⟩ := ih hl
      refine ⟨h3, fun x => ?_⟩
      rw [h4]
      simp [hc]

theorem dying_spec (flag : Nat) (ids : List Int) (s : Proc) (c : CID) :
    c ∈ dying (gridFlags flag ids) s ↔ c ∈ s.records ∧ flag &&& DESTROY ≠ 0 ∧ ∃ g ∈ ids, Spec.Touches c g := by
  have hnil : Sorted intLess ([] : List Int) := by unfold Sorted; exact List.Pairwise.nil
  have hnil' : Sorted (elemLess (n := 2)) ([] : List CID) := by unfold Sorted; exact List.Pairwise.nil
  unfold dying
  dsimp only
  obtain ⟨a1, a2⟩ := fold_insert_if intLess_sto (fun e : Int × Nat => e.2 &&& DESTROY != 0) Prod.fst
    (gridFlags flag ids).entries hnil
  generalize (gridFlags flag ids).entries.foldl
    (fun d e => if e.2 &&& DESTROY != 0 then OSet.insert intLess d e.1 else d) [] = gone at a1 a2
  have hgone : ∀ g, OSet.contains intLess gone g = true ↔ g ∈ ids ∧ flag &&& DESTROY ≠ 0 := by
    intro g
    rw [oset_contains_iff intLess_sto a1, a2]
    simp only [List.not_mem_nil, or_false, Prod.exists, (gridFlags_spec flag ids).2]
    constructor
    · rintro ⟨x, f, ⟨hx, rfl⟩, hf, rfl⟩
      exact ⟨hx, by simpa using hf⟩
    · rintro ⟨h1, h2⟩
      exact ⟨g, flag, ⟨h1, rfl⟩, by simpa using h2, rfl⟩
  obtain ⟨b1, b2⟩ := fold_insert_if esto
    (fun c : CID => OSet.contains intLess gone (mGrid c) || OSet.contains intLess gone (nGrid c)) id
    s.records hnil'
  have := b2 c
  simp only [id] at this
  rw [this]
  simp only [List.not_mem_nil, or_false, Bool.or_eq_true, hgone, exists_eq_right_right, Spec.Touches]
  constructor
  · rintro ⟨h1, h2 | h2⟩
    · exact ⟨h1, h2.2, _, h2.1, Or.inl rfl⟩
    · exact ⟨h1, h2.2, _, h2.1, Or.inr rfl⟩
  · rintro ⟨h1, h2, g, h3, rfl | rfl⟩
    · exact ⟨h1, Or.inl ⟨h3, h2⟩⟩
    · exact ⟨h1, Or.inr ⟨h3, h2⟩⟩

/-- All grid IDs and the grids of all connectivities are non-negative. -/
def NonNeg (w : Fin P → Proc) : Prop := ∀ p g, g ∈ (w p).grids → 0 ≤ g

theorem gridEvent_spec (flag : Nat) {w : Fin P → Proc} (h : Inv w) (hn : NonNeg w) (ids : List Int) :
    ∃ w', gridEvent flag w ids = some w' ∧ Inv w' ∧ (∀ p, (w' p).grids = (w p).grids) ∧
      (∀ p, (w' p).localGrids = (w p).localGrids) ∧
      ∀ p c, c ∈ (w' p).records ↔
        c ∈ (w p).records ∧ ¬ (flag &&& DESTROY ≠ 0 ∧ ∃ g ∈ ids, Spec.Touches c g) := by
  unfold gridEvent
  split_ifs with he
  · subst he
    exact ⟨w, rfl, h, fun _ => rfl, fun _ => rfl, by simp⟩
  · obtain ⟨w', hw⟩ := destroyConns_defined h (fun p => dying (gridFlags flag ids) (w p)) (by
      intro p c hc
      have hc' := ((dying_spec flag ids (w p) c).1 hc).1
      have := h.ends p c hc'
      rw [valid_iff h]
      exact ⟨hn p _ this.1, hn p _ this.2, this.1, this.2, by simp [hc']⟩)
    have hs := destroyConns_spec h _ (fun p q => by
      show dying _ (w p) = dying _ (w q)
      unfold dying
      rw [h.records p q]) hw
    refine ⟨w', hw, hs.1, hs.2.1, hs.2.2.1, fun p c => ?_⟩
    rw [hs.2.2.2, dying_spec]
    constructor
    · rintro ⟨a, b⟩; exact ⟨b, fun x => a ⟨b, x⟩⟩
    · rintro ⟨a, b⟩; exact ⟨fun x => b x.2, a⟩

theorem createGrids_spec {w : Fin P → Proc} (h : Inv w) (hn : NonNeg w) (ids : List Int) (loc : Fin P → Int → Bool)
    {w' : Fin P → Proc} (e : createGrids w ids loc = some w') :
    Inv w' ∧ (∀ p g, g ∈ (w' p).grids ↔ g ∈ ids ∨ g ∈ (w p).grids) ∧
      (∀ p c, c ∈ (w' p).records ↔ c ∈ (w p).records) ∧ ∀ g ∈ ids, P = 0 ∨ 0 ≤ g := by
  unfold createGrids at e
  split_ifs at e with hv
  have hv' : ∀ p, ∀ g ∈ ids, 0 ≤ g ∧ g ∉ (w p).grids := by
    intro p g hg
    have := List.all_eq_true.1 (hv p) g hg
    rw [Bool.and_eq_true, decide_eq_true_eq, Bool.not_eq_true'] at this
    refine ⟨this.1, fun hm => ?_⟩
    rw [(oset_contains_iff intLess_sto (h.gsort p) g).2 hm] at this
    exact absurd this.2 (by simp)
  have hg := fun p => fold_insert intLess_sto ids (h.gsort p)
  have hl := fun p => fold_insert intLess_sto (ids.filter (loc p)) (h.lsort p)
  have hinv : Inv fun p => { w p with
      localGrids := (ids.filter (loc p)).foldl (OSet.insert intLess) (w p).localGrids
      grids := ids.foldl (OSet.insert intLess) (w p).grids } := by
    refine ⟨?_, h.records, h.log, fun p => (hg p).1, fun p => (hl p).1, h.rsort, ?_, ?_, h.mwf, h.nwf, ?_, ?_⟩
    · intro p q
      show ids.foldl _ (w p).grids = ids.foldl _ (w q).grids
      rw [h.grids p q]
    · intro p g hgl
      have := ((hl p).2 g).1 hgl
      rw [List.mem_filter] at this
      exact ((hg p).2 g).2 (this.imp (fun x => x.1) (h.sub p g))
    · intro p c hc
      have := h.ends p c hc
      exact ⟨((hg p).2 _).2 (Or.inr this.1), ((hg p).2 _).2 (Or.inr this.2)⟩
    · intro p c
      refine (h.mkey p c).trans ?_
      constructor
      · rintro ⟨a, b⟩; exact ⟨a, ((hl p).2 _).2 (Or.inr b)⟩
      · rintro ⟨a, b⟩
        refine ⟨a, (((hl p).2 _).1 b).resolve_left fun hm => ?_⟩
        rw [List.mem_filter] at hm
        exact (hv' p _ hm.1).2 (h.ends p c a).1
    · intro p c
      refine (h.nkey p c).trans ?_
      constructor
      · rintro ⟨a, b⟩; exact ⟨a, ((hl p).2 _).2 (Or.inr b)⟩
      · rintro ⟨a, b⟩
        refine ⟨a, (((hl p).2 _).1 b).resolve_left fun hm => ?_⟩
        rw [List.mem_filter] at hm
        exact (hv' p _ hm.1).2 (h.ends p c a).2
  obtain ⟨v, hv1, hv2, hv3, hv4, hv5⟩ := gridEvent_spec CREATE hinv (by
    intro p g hgm
    exact (((hg p).2 g).1 hgm).elim (fun x => (hv' p g x).1) (hn p g)) ids
  rw [hv1, Option.some.injEq] at e
  subst e
  refine ⟨hv2, fun p g => ?_, fun p c => ?_, fun g hgm => ?_⟩
  · rw [hv3]
    exact (hg p).2 g
  · rw [hv5]
    simp [CREATE, DESTROY]
  · rcases Nat.eq_zero_or_pos P with h0 | h0
    · exact Or.inl h0
    · exact Or.inr (hv' ⟨0, h0⟩ g hgm).1

theorem destroyGrids_spec {w : Fin P → Proc} (h : Inv w) (hn : NonNeg w) (ids : List Int)
    {w' : Fin P → Proc} (e : destroyGrids w ids = some w') :
    Inv w' ∧ (∀ p g, g ∈ (w' p).grids ↔ g ∉ ids ∧ g ∈ (w p).grids) ∧
      ∀ p c, c ∈ (w' p).records ↔ c ∈ (w p).records ∧ ∀ g ∈ ids, ¬ Spec.Touches c g := by
  unfold destroyGrids at e
  split_ifs at e with hv
  obtain ⟨v, v1, v2, v3, v4, v5⟩ := gridEvent_spec DESTROY h hn ids
  rw [v1, Option.bind_some, Option.some.injEq] at e
  subst e
  have hrec : ∀ p c, c ∈ (v p).records ↔ c ∈ (w p).records ∧ ∀ g ∈ ids, ¬ Spec.Touches c g := by
    intro p c
    rw [v5]
    have : DESTROY &&& DESTROY ≠ 0 := by decide
    simp only [this, ne_eq, not_false_eq_true, true_and, not_exists, not_and]
  have hg := fun p => fold_erase intLess_sto ids (v2.gsort p)
  have hl := fun p => fold_erase intLess_sto ids (v2.lsort p)
  refine ⟨⟨?_, v2.records, v2.log, fun p => (hg p).1, fun p => (hl p).1, v2.rsort, ?_, ?_, v2.mwf, v2.nwf, ?_, ?_⟩,
    ?_, hrec⟩
  · intro p q
    show ids.foldl _ (v p).grids = ids.foldl _ (v q).grids
    rw [v2.grids p q]
  · intro p g hgl
    have := ((hl p).2 g).1 hgl
    exact ((hg p).2 g).2 ⟨this.1, v2.sub p g this.2⟩
  · intro p c hc
    have h1 := v2.ends p c hc
    have h2 := ((hrec p c).1 hc).2
    exact ⟨((hg p).2 _).2 ⟨fun hm => h2 _ hm (Or.inl rfl), h1.1⟩,
      ((hg p).2 _).2 ⟨fun hm => h2 _ hm (Or.inr rfl), h1.2⟩⟩
  · intro p c
    refine (v2.mkey p c).trans ?_
    constructor
    · rintro ⟨a, b⟩
      exact ⟨a, ((hl p).2 _).2 ⟨fun hm => ((hrec p c).1 a).2 _ hm (Or.inl rfl), b⟩⟩
    · rintro ⟨a, b⟩
      exact ⟨a, (((hl p).2 _).1 b).2⟩
  · intro p c
    refine (v2.nkey p c).trans ?_
    constructor
    · rintro ⟨a, b⟩
      exact ⟨a, ((hl p).2 _).2 ⟨fun hm => ((hrec p c).1 a).2 _ hm (Or.inr rfl), b⟩⟩
    · rintro ⟨a, b⟩
      exact ⟨a, (((hl p).2 _).1 b).2⟩
  · intro p g
    rw [← v3 p]
    exact (hg p).2 g

/-! ### Edits -/

theorem edit_spec {w : Fin P → Proc} (h : Inv w) (p : Fin P) (m : Bool) (c : CID) (f : Nat) {w' : Fin P → Proc}
    (e : edit w p m c f = some w') :
    Inv w' ∧ (∀ q, (w' q).grids = (w q).grids) ∧ (∀ q, (w' q).records = (w q).records) ∧
      (∀ q, (w' q).log = (w q).log) ∧
      ∀ k b, Spec.Pending w' k b ↔ Spec.Pending w k b ∨ (k = c ∧ f.testBit b = true) := by
  unfold edit at e
  by_cases hc : OMap.contains elemLess (if m then (w p).ms else (w p).ns) c = true
  swap
  · rw [if_neg hc] at e
    cases e
  rw [if_pos hc, Option.some.injEq] at e
  subst e
  -- one map changed
  have key : ∀ (x : OMap CID Nat), x.WF elemLess → OMap.contains elemLess x c = true →
      (x.modify elemLess c (· ||| f)).WF elemLess ∧
      (∀ k, (∃ g, (k, g) ∈ (x.modify elemLess c (· ||| f)).entries) ↔ ∃ g, (k, g) ∈ x.entries) ∧
      ∀ k b, (∃ g, (k, g) ∈ (x.modify elemLess c (· ||| f)).entries ∧ g.testBit b = true) ↔
        (∃ g, (k, g) ∈ x.entries ∧ g.testBit b = true) ∨ (k = c ∧ f.testBit b = true) := by
    intro x hx hcx
    have hex := (omap_contains_spec esto hx c).1 hcx
    obtain ⟨m1, m2⟩ := omap_modify_spec esto hx c (· ||| f) hex
    refine ⟨m1, fun k => ?_, fun k b => ?_⟩
    · constructor
      · rintro ⟨g, hg⟩
        rcases (m2 k g).1 hg with ⟨-, hg⟩ | ⟨rfl, v, hv, -⟩
        · exact ⟨g, hg⟩
        · exact ⟨v, hv⟩
      · rintro ⟨g, hg⟩
        by_cases e : k = c
        · subst e
          exact ⟨_, (m2 k _).2 (Or.inr ⟨rfl, g, hg, rfl⟩)⟩
        · exact ⟨g, (m2 k g).2 (Or.inl ⟨e, hg⟩)⟩
    · constructor
      · rintro ⟨g, hg, hb⟩
        rcases (m2 k g).1 hg with ⟨-, hg⟩ | ⟨rfl, v, hv, rfl⟩
        · exact Or.inl ⟨g, hg, hb⟩
        · rw [Nat.testBit_or, Bool.or_eq_true] at hb
          exact hb.elim (fun hb => Or.inl ⟨v, hv, hb⟩) (fun hb => Or.inr ⟨rfl, hb⟩)
      · rintro (⟨g, hg, hb⟩ | ⟨rfl, hb⟩)
        · by_cases e : k = c
          · subst e
            exact ⟨_, (m2 k _).2 (Or.inr ⟨rfl, g, hg, rfl⟩), by rw [Nat.testBit_or, hb]; rfl⟩
          · exact ⟨g, (m2 k g).2 (Or.inl ⟨e, hg⟩), hb⟩
        · obtain ⟨v, hv⟩ := hex
          exact ⟨_, (m2 k _).2 (Or.inr ⟨rfl, v, hv, rfl⟩), by rw [Nat.testBit_or, hb, Bool.or_true]⟩
  have pend : ∀ (u : Fin P → Proc) k b, Spec.Pending u k b ↔
      ∃ q, (∃ g, (k, g) ∈ (u q).ms.entries ∧ g.testBit b = true) ∨
        ∃ g, (k, g) ∈ (u q).ns.entries ∧ g.testBit b = true := by
    intro u k b
    constructor
    · rintro ⟨q, g, h1 | h1, h2⟩
      · exact ⟨q, Or.inl ⟨g, h1, h2⟩⟩
      · exact ⟨q, Or.inr ⟨g, h1, h2⟩⟩
    · rintro ⟨q, ⟨g, h1, h2⟩ | ⟨g, h1, h2⟩⟩
      · exact ⟨q, g, Or.inl h1, h2⟩
      · exact ⟨q, g, Or.inr h1, h2⟩
  cases m with
  | true =>
    simp only [if_true] at hc ⊢
    obtain ⟨k1, k2, k3⟩ := key _ (h.mwf p) hc
    have fields : ∀ q, ∃ x, ((if q = p then { w p with ms := (w p).ms.modify elemLess c (· ||| f) } else w q : Proc) =
        { w q with ms := x }) ∧ x.WF elemLess ∧
        (∀ k, (∃ g, (k, g) ∈ x.entries) ↔ ∃ g, (k, g) ∈ (w q).ms.entries) ∧
        (∀ k b, (∃ g, (k, g) ∈ x.entries ∧ g.testBit b = true) ↔
          (∃ g, (k, g) ∈ (w q).ms.entries ∧ g.testBit b = true) ∨ (q = p ∧ k = c ∧ f.testBit b = true)) := by
      intro q
      by_cases e : q = p
      · subst e
        rw [if_pos rfl]
        exact ⟨_, rfl, k1, k2, fun k b => by rw [k3]; simp⟩
      · rw [if_neg e]
        exact ⟨_, rfl, h.mwf q, fun k => Iff.rfl, fun k b => by simp [e]⟩
    obtain ⟨x, hx⟩ := Classical.axiomOfChoice fields
    have hw : (fun q => (if q = p then { w p with ms := (w p).ms.modify elemLess c (· ||| f) } else w q : Proc)) =
        fun q => { w q with ms := x q } := funext fun q => (hx q).1
    rw [hw]
    refine ⟨⟨h.grids, h.records, h.log, h.gsort, h.lsort, h.rsort, h.sub, h.ends, fun q => (hx q).2.1, h.nwf,
      fun q c => ((hx q).2.2.1 c).trans (h.mkey q c), h.nkey⟩, fun q => ?_, fun q => ?_, fun q => ?_, fun k b => ?_⟩
    iterate 3 (first | rfl | (have := (hx q).1; simp only [this]))
    rw [pend, pend]
    constructor
    · rintro ⟨q, h1 | h1⟩
      · rcases ((hx q).2.2.2 k b).1 h1 with h2 | h2
        · exact Or.inl ⟨q, Or.inl h2⟩
        · exact Or.inr h2.2
      · exact Or.inl ⟨q, Or.inr h1⟩
    · rintro (⟨q, h1 | h1⟩ | h1)
      · exact ⟨q, Or.inl (((hx q).2.2.2 k b).2 (Or.inl h1))⟩
      · exact ⟨q, Or.inr h1⟩
      · exact ⟨p, Or.inl (((hx p).2.2.2 k b).2 (Or.inr ⟨rfl, h1⟩))⟩
  | false =>
    simp only [Bool.false_eq_true, if_false] at hc ⊢
    obtain ⟨k1, k2, k3⟩ := key _ (h.nwf p) hc
    have fields : ∀ q, ∃ x, ((if q = p then { w p with ns := (w p).ns.modify elemLess c (· ||| f) } else w q : Proc) =
        { w q with ns := x }) ∧ x.WF elemLess ∧
        (∀ k, (∃ g, (k, g) ∈ x.entries) ↔ ∃ g, (k, g) ∈ (w q).ns.entries) ∧
        (∀ k b, (∃ g, (k, g) ∈ x.entries ∧ g.testBit b = true) ↔
          (∃ g, (k, g) ∈ (w q).ns.entries ∧ g.testBit b = true) ∨ (q = p ∧ k = c ∧ f.testBit b = true)) := by
      intro q
      by_cases e : q = p
      · subst e
        rw [if_pos rfl]
        exact ⟨_, rfl, k1, k2, fun k b => by rw [k3]; simp⟩
      · rw [if_neg e]
        exact ⟨_, rfl, h.nwf q, fun k => Iff.rfl, fun k b => by simp [e]⟩
    obtain ⟨x, hx⟩ := Classical.axiomOfChoice fields
    have hw : (fun q => (if q = p then { w p with ns := (w p).ns.modify elemLess c (· ||| f) } else w q : Proc)) =
        fun q => { w q with ns := x q } := funext fun q => (hx q).1
    rw [hw]
    refine ⟨⟨h.grids, h.records, h.log, h.gsort, h.lsort, h.rsort, h.sub, h.ends, h.mwf, fun q => (hx q).2.1,
      h.mkey, fun q c => ((hx q).2.2.1 c).trans (h.nkey q c)⟩, fun q => ?_, fun q => ?_, fun q => ?_, fun k b => ?_⟩
    iterate 3 (first | rfl | (have := (hx q).1; simp only [this]))
    rw [pend, pend]
    constructor
    · rintro ⟨q, h1 | h1⟩
      · exact Or.inl ⟨q, Or.inl h1⟩
      · rcases ((hx q).2.2.2 k b).1 h1 with h2 | h2
        · exact Or.inl ⟨q, Or.inr h2⟩
        · exact Or.inr h2.2
    · rintro (⟨q, h1 | h1⟩ | h1)
      · exact ⟨q, Or.inl h1⟩
      · exact ⟨q, Or.inr (((hx q).2.2.2 k b).2 (Or.inl h1))⟩
      · exact ⟨p, Or.inr (((hx p).2.2.2 k b).2 (Or.inr ⟨rfl, h1⟩))⟩

/-! ### Histories -/

theorem step_inv {w w' : Fin P → Proc} (h : Inv w) (hn : NonNeg w) (o : Op P) (e : step w o = some w') :
    Inv w' ∧ NonNeg w' := by
  cases o with
  | createGrids ids loc =>
    obtain ⟨h1, h2, -, h4⟩ := createGrids_spec h hn ids loc e
    refine ⟨h1, fun p g hg => ?_⟩
    rcases (h2 p g).1 hg with hg | hg
    · exact (h4 g hg).resolve_left (by have := p.isLt; omega)
    · exact hn p g hg
  | destroyGrids ids =>
    obtain ⟨h1, h2, -⟩ := destroyGrids_spec h hn ids e
    exact ⟨h1, fun p g hg => hn p g ((h2 p g).1 hg).2⟩
  | createConns ids =>
    obtain ⟨h1, h2, -⟩ := createConns_spec h ids e
    exact ⟨h1, fun p g hg => hn p g (by rw [← h2 p]; exact hg)⟩
  | destroyConns ids =>
    obtain ⟨h1, h2, -⟩ := destroyConns_spec h _ (fun _ _ => rfl) e
    exact ⟨h1, fun p g hg => hn p g (by rw [← h2 p]; exact hg)⟩
  | edit p m c f =>
    obtain ⟨h1, h2, -⟩ := edit_spec h p m c f e
    exact ⟨h1, fun p g hg => hn p g (by rw [← h2 p]; exact hg)⟩
  | endEdit =>
    obtain ⟨l, h1, -⟩ := sync_spec h
    rw [show step w .endEdit = sync w from rfl, h1, Option.some.injEq] at e
    subst e
    exact ⟨inv_synced h l, hn⟩

theorem foldlM_inv (ops : List (Op P)) : ∀ {w w' : Fin P → Proc}, Inv w → NonNeg w →
    ops.foldlM step w = some w' → Inv w' ∧ NonNeg w' := by
  induction ops with
  | nil => intro w w' h hn e; cases e; exact ⟨h, hn⟩
  | cons o os ih =>
    intro w w' h hn e
    rw [List.foldlM_cons] at e
    cases hs : step w o with
    | none => rw [hs] at e; cases e
    | some u =>
      rw [hs] at e
      obtain ⟨h1, h2⟩ := step_inv h hn o hs
      exact ih h1 h2 e

theorem run_inv {ops : List (Op P)} {w : Fin P → Proc} (e : run ops = some w) : Inv w ∧ NonNeg w :=
  foldlM_inv ops inv_start (by intro p g hg; simp [Proc.start] at hg) e

theorem run_append {ops : List (Op P)} {o : Op P} {w : Fin P → Proc} (e : run ops = some w) :
    run (ops ++ [o]) = step w o := by
  unfold run at e ⊢
  rw [List.foldlM_append, e]
  simp only [List.foldlM_cons, List.foldlM_nil, Option.bind_eq_bind, Option.bind_some]
  cases step w o <;> rfl

theorem run_snoc {ops : List (Op P)} {o : Op P} {w w' : Fin P → Proc} (e : run ops = some w)
    (e' : run (ops ++ [o]) = some w') : step w o = some w' := by
  rw [← run_append e, e']

/-- **C31**: whenever edits are synchronised after any history, every process makes the same announcements, which are
exactly the pending edits merged over all processes, and nothing stays pending. -/
theorem C31_sync (ops : List (Op P)) (w : Fin P → Proc) (e : run ops = some w) :
    ∃ w' l, run (ops ++ [.endEdit]) = some w' ∧ (∀ p, (w' p).log = (w p).log ++ l) ∧
      Spec.Announces (Spec.Pending w) l ∧ ∀ k b, ¬ Spec.Pending w' k b := by
  obtain ⟨l, h1, h2⟩ := sync_spec (run_inv e).1
  refine ⟨synced w l, l, ?_, fun _ => rfl, h2, synced_pending w l⟩
  rw [run_append e]
  exact h1

/-- **C31 (edits)**: editing adds exactly the bits of the edit to what is pending, and announces nothing. -/
theorem C31_edit (ops : List (Op P)) (p : Fin P) (m : Bool) (c : CID) (f : Nat) (w w' : Fin P → Proc)
    (e : run ops = some w) (e' : run (ops ++ [.edit p m c f]) = some w') :
    (∀ k b, Spec.Pending w' k b ↔ Spec.Pending w k b ∨ (k = c ∧ f.testBit b = true)) ∧
      ∀ q, (w' q).log = (w q).log := by
  have e2 : edit w p m c f = some w' := run_snoc e e'
  obtain ⟨-, -, -, h4, h5⟩ := edit_spec (run_inv e).1 p m c f e2
  exact ⟨h5, h4⟩

/-- **C31 (agreement)**: after any history all processes have made the same announcements in the same order. -/
theorem C31_same (ops : List (Op P)) (w : Fin P → Proc) (e : run ops = some w) (p q : Fin P) :
    (w p).log = (w q).log := (run_inv e).1.log p q

/-- **C33**: after any history all processes have the same grids and connectivities, and every connectivity
refers to two existing grids; its M (N) part exists exactly on the processes having the M (N) grid. -/
theorem C33_invariant (ops : List (Op P)) (w : Fin P → Proc) (e : run ops = some w) :
    (∀ p q, (w p).grids = (w q).grids ∧ (w p).records = (w q).records) ∧
    ∀ p c, c ∈ (w p).records → mGrid c ∈ (w p).grids ∧ nGrid c ∈ (w p).grids ∧
      ((∃ f, (c, f) ∈ (w p).ms.entries) ↔ mGrid c ∈ (w p).localGrids) ∧
      ((∃ f, (c, f) ∈ (w p).ns.entries) ↔ nGrid c ∈ (w p).localGrids) := by
  obtain ⟨h, -⟩ := run_inv e
  refine ⟨fun p q => ⟨h.grids p q, h.records p q⟩, fun p c hc => ?_⟩
  have := h.ends p c hc
  exact ⟨this.1, this.2, by rw [h.mkey]; simp [hc], by rw [h.nkey]; simp [hc]⟩

/-- **C33 (destruction)**: destroying grids removes exactly those grids and the connectivities touching them. -/
theorem C33_destroy (ops : List (Op P)) (ids : List Int) (w w' : Fin P → Proc) (e : run ops = some w)
    (e' : run (ops ++ [.destroyGrids ids]) = some w') (p : Fin P) :
    (∀ g, g ∈ (w' p).grids ↔ g ∈ (w p).grids ∧ g ∉ ids) ∧
    ∀ c, c ∈ (w' p).records ↔ c ∈ (w p).records ∧ ∀ g ∈ ids, ¬ Spec.Touches c g := by
  obtain ⟨h, hn⟩ := run_inv e
  obtain ⟨-, h2, h3⟩ := destroyGrids_spec h hn ids (run_snoc e e')
  exact ⟨fun g => by rw [h2, and_comm], h3 p⟩

/-- **C33 (creation)**: creating grids changes no connectivity; creating connectivities adds exactly those. -/
theorem C33_create (ops : List (Op P)) (w w' : Fin P → Proc) (e : run ops = some w) :
    (∀ ids loc, run (ops ++ [.createGrids ids loc]) = some w' → ∀ p,
      (∀ g, g ∈ (w' p).grids ↔ g ∈ ids ∨ g ∈ (w p).grids) ∧ ∀ c, c ∈ (w' p).records ↔ c ∈ (w p).records) ∧
    (∀ ids, run (ops ++ [.createConns ids]) = some w' → ∀ p,
      (w' p).grids = (w p).grids ∧ ∀ c, c ∈ (w' p).records ↔ c ∈ ids ∨ c ∈ (w p).records) := by
  obtain ⟨h, hn⟩ := run_inv e
  refine ⟨fun ids loc e' p => ?_, fun ids e' p => ?_⟩
  · obtain ⟨-, h2, h3, -⟩ := createGrids_spec h hn ids loc (run_snoc e e')
    exact ⟨h2 p, h3 p⟩
  · obtain ⟨-, h2, -, h3⟩ := createConns_spec h ids (run_snoc e e')
    exact ⟨h2 p, h3 p⟩

/-- **C33 (no failure)**: destroying existing grids never fails, whatever connectivities there are. -/
theorem C33_defined (ops : List (Op P)) (ids : List Int) (w : Fin P → Proc) (e : run ops = some w)
    (hid : ∀ p, ∀ g ∈ ids, g ∈ (w p).grids) : ∃ w', run (ops ++ [.destroyGrids ids]) = some w' := by
  obtain ⟨h, hn⟩ := run_inv e
  obtain ⟨v, v1, -⟩ := gridEvent_spec DESTROY h hn ids
  rw [run_append e]
  show ∃ w', destroyGrids w ids = some w'
  unfold destroyGrids
  rw [if_pos, v1]
  · exact ⟨_, rfl⟩
  · intro p
    rw [List.all_eq_true]
    intro g hg
    rw [Bool.and_eq_true, decide_eq_true_eq, oset_contains_iff intLess_sto (h.gsort p)]
    exact ⟨hn p g (hid p g hg), hid p g hg⟩

/-! ### Example -/

/-- Two processes; grids 0, 1, 2; connectivities (0,1), (1,2), (2,0); edits on both processes. -/
def exOps : List (Op 2) :=
  [.createGrids [2, 0, 1] (fun p g => decide (p.val = 0 ∧ g ≤ 1) || decide (p.val = 1 ∧ 1 ≤ g)),
   .createConns [⟨[2, 0], rfl⟩, ⟨[0, 1], rfl⟩, ⟨[1, 2], rfl⟩],
   .edit 0 true ⟨[0, 1], rfl⟩ 4, .edit 1 true ⟨[1, 2], rfl⟩ 8, .edit 1 false ⟨[0, 1], rfl⟩ 128]

example : (run exOps).isSome = true := by decide +kernel
example : (run (exOps ++ [.endEdit])).map (fun w => (w 0).log.drop 3) =
    some [(⟨[0, 1], rfl⟩, 132, false), (⟨[1, 2], rfl⟩, 8, true)] := by decide +kernel
example : (run (exOps ++ [.endEdit])).map (fun w => (w 1).log.drop 3) =
    some [(⟨[0, 1], rfl⟩, 132, false), (⟨[1, 2], rfl⟩, 8, true)] := by decide +kernel
example : ((run (exOps ++ [.destroyGrids [2]])).map fun w => ((w 0).records, (w 1).grids)) =
    some ([⟨[0, 1], rfl⟩], [0, 1]) := by decide +kernel

/-! ### C32: clearing -/

/-- Full statement: after clearing, no connectivity exists any more. -/
def C32_statement : Prop := ∀ records : List CID, Sorted elemLess records → clearRecords true records = some []

/-- Elements at odd positions. -/
def odds : List α → List α
  | _ :: y :: l => y :: odds l
  | _ => []

theorem erase_at {a b : List CID} {x : CID} (hs : Sorted elemLess (a ++ x :: b)) :
    OSet.erase elemLess (a ++ x :: b) x = a ++ b := by
  unfold OSet.erase
  rcases look esto hs x with ⟨a', b', he, hlb, ha, hb⟩ | ⟨a', b', he, hlb, ha, hb⟩
  · exfalso
    have : x ∈ a' ++ b' := by rw [← he]; simp
    rcases List.mem_append.1 this with h | h
    · have := ha x h; rw [esto.irrefl] at this; cases this
    · have := hb x h; rw [esto.irrefl] at this; cases this
  · have hlen : a'.length = a.length := by
      have hn := sorted_nodup hs
      have h1 : (a ++ x :: b)[a.length]? = some x := by simp
      have h2 : (a ++ x :: b)[a'.length]? = some x := by rw [he]; simp
      have l1 : a.length < (a ++ x :: b).length := by simp
      have l2 : a'.length < (a ++ x :: b).length := by rw [he]; simp
      rw [List.getElem?_eq_getElem l1] at h1
      rw [List.getElem?_eq_getElem l2] at h2
      exact (List.Nodup.getElem_inj_iff hn).1 ((Option.some.inj h2).trans (Option.some.inj h1).symm)
    rw [hlb, hlen]
    simp [esto.irrefl, List.eraseIdx_append_of_length_le]

theorem erase_absent {a : List CID} {x : CID} (hs : Sorted elemLess a) (hx : x ∉ a) :
    OSet.erase elemLess a x = a := by
  unfold OSet.erase
  rcases look esto hs x with ⟨a', b', he, hlb, ha, hb⟩ | ⟨a', b', he, hlb, ha, hb⟩
  · subst he
    rw [hlb]
    cases b' with
    | nil => simp
    | cons y b' => simp [hb y (by simp)]
  · exact absurd (by rw [he]; simp) hx

/-- Nothing happens any more while stale cells are read. -/
theorem drain {a : List CID} {x : CID} (hs : Sorted elemLess a) (hx : x ∉ a) (t : Nat) : ∀ n i, a.length ≤ i →
    i + n ≤ a.length + t → eraseView true i n ⟨a ++ List.replicate t x, a.length⟩ =
      some ⟨a ++ List.replicate t x, a.length⟩ := by
  intro n
  induction n with
  | zero => intro i _ _; rfl
  | succ n ih =>
    intro i h1 h2
    unfold eraseView
    have hg : (a ++ List.replicate t x)[i]? = some x := by
      rw [List.getElem?_append_right h1, List.getElem?_replicate, if_pos (by omega)]
    have he : (⟨a ++ List.replicate t x, a.length⟩ : Buf).erase x = ⟨a ++ List.replicate t x, a.length⟩ := by
      unfold Buf.erase
      simp only [List.take_left', erase_absent hs hx, List.drop_left']
    simp only [Bool.true_or, if_true]
    rw [hg]
    dsimp only
    rw [he]
    exact ih (i + 1) (by omega) (by omega)

theorem buf_erase {a b : List CID} {x z : CID} {t : Nat} (hs : Sorted elemLess (a ++ x :: b))
    (hz : (x :: b).getLast? = some z) :
    (⟨a ++ x :: b ++ List.replicate t z, (a ++ x :: b).length⟩ : Buf).erase x =
      ⟨a ++ b ++ List.replicate (t + 1) z, (a ++ b).length⟩ := by
  unfold Buf.erase
  simp only [List.take_left', erase_at hs]
  congr 1
  have hd : (a ++ x :: b ++ List.replicate t z).drop (a ++ b).length = z :: List.replicate t z := by
    have e : x :: b = (x :: b).dropLast ++ [z] := by
      obtain ⟨y, hy⟩ := List.getLast?_eq_some_iff.1 hz
      rw [hy]
      simp
    have hl : (x :: b).dropLast.length = b.length := by simp
    rw [e, List.append_assoc, List.append_assoc, ← List.append_assoc a]
    rw [List.drop_left' (by simp only [List.length_append, hl])]
    rfl
  rw [hd]
  rfl

theorem clear_loop (z : CID) : ∀ (m : Nat) (r a : List CID) (t : Nat), r.length ≤ m → Sorted elemLess (a ++ r) →
    r.getLast? = some z →
    ∃ t', eraseView true a.length (r.length + t) ⟨a ++ r ++ List.replicate t z, (a ++ r).length⟩ =
      some ⟨a ++ odds r.dropLast ++ List.replicate t' z, (a ++ odds r.dropLast).length⟩ := by
  intro m
  induction m with
  | zero =>
    intro r a t hm _ hz
    have : r = [] := List.length_eq_zero_iff.1 (by omega)
    subst this
    simp at hz
  | succ m ih =>
    intro r a t hm hs hz
    match r with
    | [] => simp at hz
    | x :: b =>
      have hstep : eraseView true a.length ((x :: b).length + t)
          ⟨a ++ x :: b ++ List.replicate t z, (a ++ x :: b).length⟩ =
          eraseView true (a.length + 1) (b.length + t) ⟨a ++ b ++ List.replicate (t + 1) z, (a ++ b).length⟩ := by
        rw [show (x :: b).length + t = (b.length + t) + 1 by simp only [List.length_cons]; omega]
        conv_lhs => unfold eraseView
        simp only [Bool.true_or, if_true]
        have hg : (a ++ x :: b ++ List.replicate t z)[a.length]? = some x := by simp
        rw [hg]
        dsimp only
        rw [buf_erase hs hz]
      have hsub : Sorted elemLess (a ++ b) := List.Pairwise.sublist
        (List.Sublist.append_left (List.sublist_cons_self _ _) _) hs
      rw [hstep]
      match b with
      | [] =>
        simp at hz
        subst hz
        have hx : x ∉ a := by
          intro hxa
          have := (List.pairwise_append.1 hs).2.2 x hxa x (by simp)
          rw [esto.irrefl] at this
          cases this
        refine ⟨t + 1, ?_⟩
        have hsa : Sorted elemLess a := by simpa using hsub
        have := drain hsa hx (t + 1) (0 + t) (a.length + 1) (by omega) (by omega)
        simpa [odds] using this
      | [y] =>
        have hyz : y = z := by simpa using hz
        subst hyz
        have hsy : Sorted elemLess (a ++ [y]) := hsub
        -- the next read is the stale copy of `y`
        refine ⟨t + 2, ?_⟩
        have hrd : eraseView true (a.length + 1) ([y].length + t)
            ⟨a ++ [y] ++ List.replicate (t + 1) y, (a ++ [y]).length⟩ =
            eraseView true (a.length + 2) t ⟨a ++ List.replicate (t + 2) y, a.length⟩ := by
          rw [show [y].length + t = t + 1 by simp; omega]
          conv_lhs => unfold eraseView
          simp only [Bool.true_or, if_true]
          have hg : (a ++ [y] ++ List.replicate (t + 1) y)[a.length + 1]? = some y := by
            rw [List.getElem?_append_right (by simp)]
            simp
          rw [hg]
          dsimp only
          have := buf_erase (a := a) (b := []) (x := y) (z := y) (t := t + 1) hsy (by simp)
          rw [List.append_nil] at this
          rw [this]
        rw [hrd]
        have hya : y ∉ a := by
          intro h
          have := (List.pairwise_append.1 hsy).2.2 y h y (by simp)
          rw [esto.irrefl] at this
          cases this
        have hsa : Sorted elemLess a := List.Pairwise.sublist (List.sublist_append_left _ _) hsy
        have := drain hsa hya (t + 2) t (a.length + 2) (by omega) (by omega)
        rw [this]
        simp [odds]
      | y :: c :: r =>
        have hz' : (c :: r).getLast? = some z := by simpa using hz
        obtain ⟨t', ht⟩ := ih (c :: r) (a ++ [y]) (t + 1) (by simp only [List.length_cons] at hm ⊢; omega)
          (by simpa using hsub) hz'
        refine ⟨t', ?_⟩
        have e1 : (x :: y :: c :: r).dropLast = x :: y :: (c :: r).dropLast := by simp
        rw [e1, odds]
        have e2 : (a ++ [y]).length = a.length + 1 := by simp
        have e3 : (y :: c :: r).length + t = (c :: r).length + (t + 1) := by
          simp only [List.length_cons]; omega
        have e4 : ∀ l : List CID, a ++ [y] ++ l = a ++ y :: l := by simp
        rw [e2, e4, e4] at ht
        rw [e3]
        exact ht

/-- **C32 (what remains)**: reading cells behind the end as the bytes left there, clearing leaves every second
connectivity (except the last) in place. -/
theorem C32_leftover (records : List CID) (hs : Sorted elemLess records) :
    clearRecords true records = some (odds records.dropLast) := by
  unfold clearRecords
  cases hz : records.getLast? with
  | none =>
    rw [List.getLast?_eq_none_iff] at hz
    subst hz
    rfl
  | some z =>
    obtain ⟨t', ht⟩ := clear_loop z records.length records [] 0 (Nat.le_refl _) hs hz
    have : eraseView true 0 records.length ⟨records, records.length⟩ =
        some ⟨odds records.dropLast ++ List.replicate t' z, (odds records.dropLast).length⟩ := by
      simpa using ht
    rw [this]
    simp

/-- **C32 is false**: with three connectivities one survives. -/
theorem C32_false : ¬ C32_statement := by
  intro h
  have := h [⟨[0, 1], rfl⟩, ⟨[0, 2], rfl⟩, ⟨[1, 0], rfl⟩] (by unfold Sorted; decide)
  rw [C32_leftover _ (by unfold Sorted; decide)] at this
  exact absurd this (by decide)

/-- **C32 (partial)**: with at most two connectivities nothing remains.  Missing: three or more
(`C32_false`, `C32_leftover`). -/
theorem C32_partial (records : List CID) (hs : Sorted elemLess records) (h : records.length ≤ 2) :
    clearRecords true records = some [] := by
  rw [C32_leftover records hs]
  match records, h with
  | [], _ => rfl
  | [_], _ => rfl
  | [_, _], _ => rfl

/-- **C32 (undefined)**: as soon as there are two connectivities a cell behind the end of the key array is read. -/
theorem C32_undefined (x y : CID) (l : List CID) (hs : Sorted elemLess (x :: y :: l)) :
    clearRecords false (x :: y :: l) = none := by
  have step : ∀ (n i : Nat) (b : Buf), b.size = n + 1 → i < n + 1 → Sorted elemLess (b.cells.take b.size) →
      b.size ≤ b.cells.length → ∃ b' : Buf, b'.size = n ∧ Sorted elemLess (b'.cells.take b'.size) ∧
        b'.size ≤ b'.cells.length ∧ eraseView false i (n + 1) b = eraseView false (i + 1) n b' := by
    intro n i b hb hi hs hl
    have hil : i < b.cells.length := by omega
    have hmem : b.cells[i] ∈ b.cells.take b.size := by
      rw [List.mem_take_iff_getElem]
      exact ⟨i, by omega, rfl⟩
    obtain ⟨l1, l2, he⟩ := List.append_of_mem hmem
    have hs' := hs
    rw [he] at hs'
    have hlen : (l1 ++ l2).length = n := by
      have := congrArg List.length he
      simp only [List.length_take, List.length_append, List.length_cons] at this ⊢
      omega
    have hbe : b.erase b.cells[i] = ⟨(l1 ++ l2) ++ b.cells.drop (l1 ++ l2).length, (l1 ++ l2).length⟩ := by
      unfold Buf.erase
      dsimp only
      rw [he, erase_at hs']
    refine ⟨b.erase b.cells[i], ?_, ?_, ?_, ?_⟩
    · rw [hbe]; exact hlen
    · rw [hbe]
      dsimp only
      rw [List.take_left']
      · exact List.Pairwise.sublist (List.Sublist.append_left (List.sublist_cons_self _ _) _) hs'
      · rfl
    · rw [hbe]
      simp
    · conv_lhs => unfold eraseView
      rw [if_pos (by simp; omega), List.getElem?_eq_getElem hil]
  have key : ∀ (n i : Nat) (b : Buf), b.size = n + 1 → 1 ≤ i → Sorted elemLess (b.cells.take b.size) →
      b.size ≤ b.cells.length → eraseView false i (n + 1) b = none := by
    intro n
    induction n with
    | zero =>
      intro i b hb hi hs hl
      unfold eraseView
      rw [if_neg (by simp; omega)]
    | succ n ih =>
      intro i b hb hi hs hl
      by_cases h : i < n + 2
      · obtain ⟨b', h1, h2, h3, h4⟩ := step (n + 1) i b hb h hs hl
        rw [h4]
        exact ih (i + 1) b' h1 (by omega) h2 h3
      · unfold eraseView
        rw [if_neg (by simp; omega)]
  unfold clearRecords
  obtain ⟨b', h1, h2, h3, h4⟩ := step (l.length + 1) 0 ⟨x :: y :: l, (x :: y :: l).length⟩ (by simp) (by omega)
    (by simpa using hs) (by simp)
  rw [show (x :: y :: l).length = l.length + 1 + 1 from rfl] at h4 ⊢
  rw [h4, key _ 1 b' h1 (Nat.le_refl _) h2 h3]
  rfl

/-- **C32 (own copy)**: destroying connectivities given in an array of the caller's removes exactly those; given all
of them, nothing remains. -/
theorem C32_copy_partial (ops : List (Op P)) (ids : List CID) (w w' : Fin P → Proc) (e : run ops = some w)
    (e' : run (ops ++ [.destroyConns ids]) = some w') (p : Fin P) :
    (∀ c, c ∈ (w' p).records ↔ c ∈ (w p).records ∧ c ∉ ids) ∧
      ((∀ c ∈ (w p).records, c ∈ ids) → (w' p).records = []) := by
  obtain ⟨h, hn⟩ := run_inv e
  obtain ⟨-, -, -, h3⟩ := destroyConns_spec h _ (fun _ _ => rfl) (run_snoc e e')
  refine ⟨fun c => by rw [h3, and_comm], fun hall => ?_⟩
  apply List.eq_nil_iff_forall_not_mem.2
  intro c hc
  have := (h3 p c).1 hc
  exact this.1 (hall c this.2)

end Ovk.Comp
