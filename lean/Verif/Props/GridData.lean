/-
C95: geometries and states follow their grids, and their listeners are told.
-/
import Verif.Lemmas.GridData

namespace Ovk.GData
open Comp (everyone gridFlags CREATE DESTROY allOr empty_wf everyone_some allOr_spec fold_insert fold_erase fold_merase
  fold_insert_if gridFlags_spec)

/-! ### Specification -/
namespace Spec

/-- Some process has edited the data of grid `g` since edits were last announced. -/
def Pending (w : Fin P → Proc) (g : Int) : Prop := ∃ p f, (g, f) ∈ (w p).locals.entries ∧ f ≠ 0

/-- Exactly the last announcement of a batch is marked last. -/
def Batch (l : List Call) : Prop := ∀ (i : Nat) e, l[i]? = some e → (e.2.2 = true ↔ i + 1 = l.length)

/-- A listener that has heard `l` takes the data of grid `g` to exist: it heard of the creation and of no destruction
after it. -/
def Exists (l : List Call) (g : Int) : Prop :=
  ∃ a z b, l = a ++ (g, CREATE, z) :: b ∧ ∀ z', (g, DESTROY, z') ∉ b

/-- A listener never hears of the creation of what exists, or of an edit or the destruction of what does not. -/
def Proper (l : List Call) : Prop := ∀ a e b, l = a ++ e :: b →
  (e.2.1 = CREATE ∧ ¬ Exists a e.1) ∨ (e.2.1 = DESTROY ∧ Exists a e.1) ∨ (e.2.1 = EDIT ∧ Exists a e.1)

/-- No call names a grid twice. -/
def Distinct : Op P → Prop
  | .create ids => ids.Nodup
  | .destroy ids => ids.Nodup
  | _ => True

/-- Whenever grids are destroyed, all of them have data. -/
def OnlyWithData (debug : Bool) (ops : List (Op P)) : Prop := ∀ a ids b w, ops = a ++ .destroyGrids ids :: b →
  run debug a = some w → ∀ p, ∀ g ∈ ids, g ∈ (w p).records

end Spec

/-! ### What a listener has heard -/

theorem exists_snoc (l : List Call) (e : Call) (g : Int) : Spec.Exists (l ++ [e]) g ↔
    (e.1 = g ∧ e.2.1 = CREATE) ∨ (Spec.Exists l g ∧ ¬ (e.1 = g ∧ e.2.1 = DESTROY)) := by
  constructor
  · rintro ⟨a, z, b, h, hb⟩
    rcases List.eq_nil_or_concat b with rfl | ⟨b', x, rfl⟩
    · have := List.append_inj' h rfl
      obtain ⟨-, h2⟩ := this
      simp only [List.cons.injEq, and_true] at h2
      subst h2
      exact Or.inl ⟨rfl, rfl⟩
    · simp only [List.concat_eq_append] at h hb
      rw [← List.cons_append, ← List.append_assoc] at h
      obtain ⟨h1, h2⟩ := List.append_inj' h rfl
      simp only [List.cons.injEq, and_true] at h2
      subst h2
      refine Or.inr ⟨⟨a, z, b', h1, fun z' hz => hb z' (List.mem_append_left _ hz)⟩, ?_⟩
      rintro ⟨rfl, h3⟩
      refine hb e.2.2 (List.mem_append_right _ ?_)
      rw [List.mem_singleton, ← h3]
  · rintro (⟨rfl, h⟩ | ⟨⟨a, z, b, rfl, hb⟩, hn⟩)
    · exact ⟨l, e.2.2, [], by rw [← h], by simp⟩
    · refine ⟨a, z, b ++ [e], by simp, fun z' hz => ?_⟩
      rcases List.mem_append.1 hz with hz | hz
      · exact hb z' hz
      · rw [List.mem_singleton] at hz
        subst hz
        exact hn ⟨rfl, rfl⟩

theorem proper_snoc (l : List Call) (e : Call) : Spec.Proper (l ++ [e]) ↔ Spec.Proper l ∧
    ((e.2.1 = CREATE ∧ ¬ Spec.Exists l e.1) ∨ (e.2.1 = DESTROY ∧ Spec.Exists l e.1) ∨
      (e.2.1 = EDIT ∧ Spec.Exists l e.1)) := by
  constructor
  · intro h
    refine ⟨fun a x b hl => ?_, h l e [] rfl⟩
    subst hl
    exact h a x (b ++ [e]) (by simp)
  · rintro ⟨h, he⟩ a x b hl
    rcases List.eq_nil_or_concat b with rfl | ⟨b', y, rfl⟩
    · obtain ⟨h1, h2⟩ := List.append_inj' hl rfl
      simp only [List.cons.injEq, and_true] at h2
      subst h1 h2
      exact he
    · rw [List.concat_eq_append, ← List.cons_append, ← List.append_assoc] at hl
      exact h a x b' (List.append_inj' hl rfl).1

theorem proper_nil : Spec.Proper [] := by
  intro a e b h
  simp at h

theorem exists_nil (g : Int) : ¬ Spec.Exists [] g := by
  rintro ⟨a, z, b, h, -⟩
  simp at h

/-- Hearing edits. -/
theorem heard_edits (m : List Call) : ∀ l : List Call, Spec.Proper l → (∀ e ∈ m, e.2.1 = EDIT ∧ Spec.Exists l e.1) →
    Spec.Proper (l ++ m) ∧ ∀ g, Spec.Exists (l ++ m) g ↔ Spec.Exists l g := by
  induction m with
  | nil => intro l h _; simpa using h
  | cons e m ih =>
    intro l h hm
    obtain ⟨h1, h2⟩ := hm e (by simp)
    have he : ∀ g, Spec.Exists (l ++ [e]) g ↔ Spec.Exists l g := by
      intro g
      rw [exists_snoc]
      simp [h1, EDIT, CREATE, DESTROY]
    obtain ⟨i1, i2⟩ := ih (l ++ [e]) ((proper_snoc l e).2 ⟨h, Or.inr (Or.inr ⟨h1, h2⟩)⟩) (fun x hx => by
      rw [he]; exact hm x (List.mem_cons_of_mem _ hx))
    rw [List.append_assoc] at i1 i2
    exact ⟨i1, fun g => (i2 g).trans (he g)⟩

/-- Hearing creations. -/
theorem heard_creates (m : List Call) : ∀ l : List Call, Spec.Proper l → (m.map Prod.fst).Nodup →
    (∀ e ∈ m, e.2.1 = CREATE ∧ ¬ Spec.Exists l e.1) →
    Spec.Proper (l ++ m) ∧ ∀ g, Spec.Exists (l ++ m) g ↔ g ∈ m.map Prod.fst ∨ Spec.Exists l g := by
  induction m with
  | nil => intro l h _ _; simpa using h
  | cons e m ih =>
    intro l h hn hm
    obtain ⟨h1, h2⟩ := hm e (by simp)
    rw [List.map_cons, List.nodup_cons] at hn
    have he : ∀ g, Spec.Exists (l ++ [e]) g ↔ e.1 = g ∨ Spec.Exists l g := by
      intro g
      rw [exists_snoc]
      simp [h1, CREATE, DESTROY]
    obtain ⟨i1, i2⟩ := ih (l ++ [e]) ((proper_snoc l e).2 ⟨h, Or.inl ⟨h1, h2⟩⟩) hn.2 (fun x hx => by
      refine ⟨(hm x (List.mem_cons_of_mem _ hx)).1, ?_⟩
      rw [he]
      rintro (h3 | h3)
      · exact hn.1 (h3 ▸ List.mem_map_of_mem hx)
      · exact (hm x (List.mem_cons_of_mem _ hx)).2 h3)
    rw [List.append_assoc] at i1 i2
    refine ⟨i1, fun g => (i2 g).trans ?_⟩
    rw [he, List.map_cons, List.mem_cons, or_left_comm, or_assoc, eq_comm]

/-- Hearing destructions. -/
theorem heard_destroys (m : List Call) : ∀ l : List Call, Spec.Proper l → (m.map Prod.fst).Nodup →
    (∀ e ∈ m, e.2.1 = DESTROY ∧ Spec.Exists l e.1) →
    Spec.Proper (l ++ m) ∧ ∀ g, Spec.Exists (l ++ m) g ↔ g ∉ m.map Prod.fst ∧ Spec.Exists l g := by
  induction m with
  | nil => intro l h _ _; simpa using h
  | cons e m ih =>
    intro l h hn hm
    obtain ⟨h1, h2⟩ := hm e (by simp)
    rw [List.map_cons, List.nodup_cons] at hn
    have he : ∀ g, Spec.Exists (l ++ [e]) g ↔ e.1 ≠ g ∧ Spec.Exists l g := by
      intro g
      rw [exists_snoc]
      simp [h1, CREATE, DESTROY, and_comm]
    obtain ⟨i1, i2⟩ := ih (l ++ [e]) ((proper_snoc l e).2 ⟨h, Or.inr (Or.inl ⟨h1, h2⟩)⟩) hn.2 (fun x hx => by
      refine ⟨(hm x (List.mem_cons_of_mem _ hx)).1, ?_⟩
      rw [he]
      exact ⟨fun h3 => hn.1 (h3 ▸ List.mem_map_of_mem hx), (hm x (List.mem_cons_of_mem _ hx)).2⟩)
    rw [List.append_assoc] at i1 i2
    refine ⟨i1, fun g => (i2 g).trans ?_⟩
    rw [he, List.map_cons, List.mem_cons, not_or, and_assoc, and_left_comm, eq_comm]

/-! ### Invariant -/

structure Inv (w : Fin P → Proc) : Prop where
  grids : ∀ p q, (w p).grids = (w q).grids
  records : ∀ p q, (w p).records = (w q).records
  log : ∀ p q, (w p).log = (w q).log
  gsort : ∀ p, Sorted intLess (w p).grids
  lsort : ∀ p, Sorted intLess (w p).localGrids
  rsort : ∀ p, Sorted intLess (w p).records
  nonneg : ∀ p g, g ∈ (w p).grids → 0 ≤ g
  sub : ∀ p g, g ∈ (w p).localGrids → g ∈ (w p).grids
  ends : ∀ p g, g ∈ (w p).records → g ∈ (w p).grids
  wf : ∀ p, (w p).locals.WF intLess
  key : ∀ p g, (∃ f, (g, f) ∈ (w p).locals.entries) ↔ g ∈ (w p).records ∧ g ∈ (w p).localGrids
  flags : ∀ p g f, (g, f) ∈ (w p).locals.entries → f = 0 ∨ f = EDIT

theorem sorted_nil : Sorted intLess ([] : List Int) := by unfold Sorted; exact List.Pairwise.nil

theorem inv_start : Inv (P := P) fun _ => Proc.start := by
  refine ⟨by simp, by simp, by simp, fun _ => sorted_nil, fun _ => sorted_nil, fun _ => sorted_nil, ?_, ?_, ?_,
    fun _ => empty_wf, ?_, ?_⟩ <;> simp [Proc.start]

theorem zero_mem (m : OMap Int Nat) (k : Int) (f : Nat) :
    (k, f) ∈ (zero m).entries ↔ f = 0 ∧ ∃ g, (k, g) ∈ m.entries := by
  unfold zero
  simp only [List.mem_map, Prod.mk.injEq, Prod.exists]
  constructor
  · rintro ⟨a, g, h, rfl, rfl⟩; exact ⟨rfl, g, h⟩
  · rintro ⟨rfl, g, h⟩; exact ⟨k, g, h, rfl, rfl⟩

theorem zero_wf {m : OMap Int Nat} (h : m.WF intLess) : (zero m).WF intLess := by
  refine ⟨?_, h.2⟩
  show m.keys = (m.entries.map _).map Prod.fst
  rw [h.1, List.map_map]
  rfl

theorem zero_id {m : OMap Int Nat} (h : ∀ e ∈ m.entries, e.2 = 0) : zero m = m := by
  obtain ⟨ks, es⟩ := m
  unfold zero
  congr 1
  conv_rhs => rw [← List.map_id es]
  apply List.map_congr_left
  intro e he
  have := h e he
  obtain ⟨a, b⟩ := e
  simp at this
  simp [this]

/-- The state after a synchronisation announcing `l`. -/
def synced (w : Fin P → Proc) (l : List Call) : Fin P → Proc := fun p =>
  { w p with locals := zero (w p).locals, log := (w p).log ++ l }

/-- `l` announces exactly the pending edits. -/
structure Announces (w : Fin P → Proc) (l : List Call) : Prop where
  sorted : l.Pairwise fun a b => intLess a.1 b.1 = true
  pending : ∀ g, Spec.Pending w g ↔ ∃ z, (g, EDIT, z) ∈ l
  edits : ∀ e ∈ l, e.2.1 = EDIT
  batch : Spec.Batch l

theorem sync_spec {w : Fin P → Proc} (h : Inv w) : ∃ l, sync w = some (synced w l) ∧ Announces w l := by
  unfold sync
  by_cases hE : ∀ p, hasEdits (w p) = false
  · rw [if_pos hE]
    have hz : ∀ p, ∀ e ∈ (w p).locals.entries, e.2 = 0 := by
      intro p
      have := hE p
      unfold hasEdits at this
      rw [List.any_eq_false] at this
      simpa using this
    refine ⟨[], ?_, by simp, ?_, by simp, by intro i e he; simp at he⟩
    · congr 1
      funext p
      unfold synced
      rw [zero_id (hz p), List.append_nil]
    · intro k
      simp only [List.not_mem_nil, exists_false, iff_false]
      rintro ⟨p, f, hf, hb⟩
      exact hb (hz p _ hf)
  · rw [if_neg hE]
    obtain ⟨p0, -⟩ : ∃ p, ¬ hasEdits (w p) = false := by
      by_contra hc
      exact hE fun p => by
        by_contra hp
        exact hc ⟨p, hp⟩
    have hloc : ∀ p, ∃ a, localFlags (w p) = some a ∧ a.length = (w p).records.length ∧
        ∀ (i : Nat) k, (w p).records[i]? = some k → ∀ b, ((a[i]?).getD 0).testBit b = true ↔
          ∃ f, (k, f) ∈ (w p).locals.entries ∧ f.testBit b = true := by
      intro p
      have hix := fun (i : Nat) k (hk : (w p).records[i]? = some k) => indexMap_get (h.rsort p) hk
      obtain ⟨a1, e1, l1, b1⟩ := orEntries_spec hix (w p).locals.entries (List.replicate (w p).records.length 0)
        (by simp) (fun e he => ((h.key p e.1).1 ⟨e.2, he⟩).1)
      refine ⟨a1, e1, l1, ?_⟩
      intro i k hk b
      have hil : i < (w p).records.length := (List.getElem?_eq_some_iff.1 hk).1
      rw [b1 i k hk b]
      simp only [List.getElem?_replicate, hil, if_true, Option.getD_some, Nat.zero_testBit, Bool.false_eq_true,
        false_or]
    obtain ⟨a, ha⟩ := Classical.axiomOfChoice hloc
    rw [everyone_some _ a (fun p => (ha p).1), Option.bind_some]
    have hlen : ∀ p, (a p).length = (w p0).records.length := fun p => by rw [(ha p).2.1, h.records p p0]
    rw [if_pos (fun p q => by rw [hlen, hlen])]
    obtain ⟨g1, g2⟩ := allOr_spec _ a hlen
    generalize hA : allOr (w p0).records.length a = A at g1 g2
    have hbits : ∀ (i : Nat) k, (w p0).records[i]? = some k → ∀ b, ((A[i]?).getD 0).testBit b = true ↔
        Spec.Pending w k ∧ EDIT.testBit b = true := by
      intro i k hk b
      rw [g2 i (List.getElem?_eq_some_iff.1 hk).1 b]
      constructor
      · rintro ⟨p, hp⟩
        obtain ⟨f, hf, hfb⟩ := ((ha p).2.2 i k (by rw [h.records p p0]; exact hk) b).1 hp
        rcases h.flags p k f hf with rfl | rfl
        · simp at hfb
        · exact ⟨⟨p, _, hf, by decide⟩, hfb⟩
      · rintro ⟨⟨p, f, hf, hne⟩, hb⟩
        rcases h.flags p k f hf with rfl | rfl
        · exact absurd rfl hne
        · exact ⟨p, ((ha p).2.2 i k (by rw [h.records p p0]; exact hk) b).2 ⟨_, hf, hb⟩⟩
    have hval : ∀ (i : Nat) k, (w p0).records[i]? = some k → ((A[i]?).getD 0 ≠ 0 ↔ Spec.Pending w k) ∧
        (Spec.Pending w k → (A[i]?).getD 0 = EDIT) := by
      intro i k hk
      have hb := hbits i k hk
      have h2 : Spec.Pending w k → (A[i]?).getD 0 = EDIT := fun hp => by
        apply Nat.eq_of_testBit_eq
        intro b
        have := hb b
        simp only [hp, true_and] at this
        exact Bool.eq_iff_iff.2 this
      refine ⟨⟨fun hne => ?_, fun hp => by rw [h2 hp]; decide⟩, h2⟩
      by_contra hp
      apply hne
      apply Nat.eq_of_testBit_eq
      intro b
      rw [Nat.zero_testBit, ← Bool.not_eq_true, hb b]
      exact fun h => hp h.1
    have htrig : ∀ p, announce (w p) (allOr (a p).length a) =
        some (mark (A.countP (· != 0)) ((w p0).records.zip A) 0) := by
      intro p
      unfold announce
      rw [hlen p, hA, h.records p p0]
      exact triggers_eq _ A _ _ A 0 _ (by rw [g1])
        (fun i k hk => by rw [Nat.zero_add]; exact indexMap_get (h.rsort p0) hk)
        (fun i _ => by rw [Nat.zero_add])
    rw [everyone_some _ (fun _ => mark (A.countP (· != 0)) ((w p0).records.zip A) 0) htrig, Option.bind_some]
    obtain ⟨m1, m2, m3, m4⟩ := mark_spec (A.countP (· != 0)) ((w p0).records.zip A) 0
      (by rw [countP_zip A _ (by rw [g1]), Int.zero_add])
    have hmem : ∀ k f, (k, f) ∈ (w p0).records.zip A → f ≠ 0 → Spec.Pending w k ∧ f = EDIT := by
      intro k f hz hf
      obtain ⟨i, hi⟩ := List.mem_iff_getElem?.1 hz
      rw [List.getElem?_zip_eq_some] at hi
      have := hval i k hi.1
      rw [hi.2, Option.getD_some] at this
      exact ⟨this.1.1 hf, this.2 (this.1.1 hf)⟩
    refine ⟨_, rfl, ?_, ?_, ?_, ?_⟩
    · rw [List.map_fst_zip (by omega)] at m1
      have := List.Pairwise.sublist m1 (h.rsort p0)
      rw [List.pairwise_map] at this
      exact this
    · intro k
      constructor
      · intro hp
        have hk : k ∈ (w p0).records := by
          obtain ⟨p, f, hf, -⟩ := hp
          rw [h.records p0 p]
          exact ((h.key p k).1 ⟨f, hf⟩).1
        obtain ⟨i, hi⟩ := List.mem_iff_getElem?.1 hk
        have hil : i < (w p0).records.length := (List.getElem?_eq_some_iff.1 hi).1
        have hAi : A[i]? = some (A[i]'(by omega)) := List.getElem?_eq_getElem _
        have hv := (hval i k hi).2 hp
        rw [hAi, Option.getD_some] at hv
        refine (m2 k EDIT).2 ⟨List.mem_iff_getElem?.2 ⟨i, ?_⟩, by decide⟩
        rw [List.getElem?_zip_eq_some]
        exact ⟨hi, by rw [hAi, hv]⟩
      · rintro ⟨z, hz⟩
        obtain ⟨h1, h2⟩ := (m2 k EDIT).1 ⟨z, hz⟩
        exact (hmem k EDIT h1 h2).1
    · rintro ⟨k, f, z⟩ he
      obtain ⟨h1, h2⟩ := (m2 k f).1 ⟨z, he⟩
      exact (hmem k f h1 h2).2
    · intro i e he
      rw [m4 i e he]
      omega

theorem inv_synced {w : Fin P → Proc} (h : Inv w) (l : List Call) : Inv (synced w l) where
  grids := h.grids
  records := h.records
  log := fun p q => by show (w p).log ++ l = (w q).log ++ l; rw [h.log p q]
  gsort := h.gsort
  lsort := h.lsort
  rsort := h.rsort
  nonneg := h.nonneg
  sub := h.sub
  ends := h.ends
  wf := fun p => zero_wf (h.wf p)
  key := fun p c => by
    refine Iff.trans ?_ (h.key p c)
    show (∃ f, (c, f) ∈ (zero (w p).locals).entries) ↔ _
    simp [zero_mem]
  flags := fun p g f hf => Or.inl ((zero_mem _ _ _).1 hf).1

theorem synced_pending (w : Fin P → Proc) (l : List Call) (g : Int) : ¬ Spec.Pending (synced w l) g := by
  rintro ⟨p, f, hf, hb⟩
  exact hb ((zero_mem _ _ _).1 hf).1

/-! ### Creating and destroying -/

theorem createLocal_spec (s : Proc) (hm : s.locals.WF intLess) (hl : Sorted intLess s.localGrids) (c : Int) :
    (createLocal s c).grids = s.grids ∧ (createLocal s c).localGrids = s.localGrids ∧
    (createLocal s c).records = s.records ∧ (createLocal s c).log = s.log ∧ (createLocal s c).locals.WF intLess ∧
    (∀ k, (∃ f, (k, f) ∈ (createLocal s c).locals.entries) ↔
      (k = c ∧ c ∈ s.localGrids) ∨ ∃ f, (k, f) ∈ s.locals.entries) ∧
    ∀ k f, (k, f) ∈ (createLocal s c).locals.entries → f = 0 ∨ (k, f) ∈ s.locals.entries := by
  unfold createLocal
  have cm := oset_contains_iff intLess_sto hl c
  by_cases h1 : OSet.contains intLess s.localGrids c = true
  · rw [if_pos h1]
    obtain ⟨i1, i2⟩ := omap_insert_spec intLess_sto hm c 0
    refine ⟨rfl, rfl, rfl, rfl, i1, fun k => ?_, fun k f hf => ?_⟩
    · have hc := cm.1 h1
      simp only [hc, and_true]
      constructor
      · rintro ⟨f, hf⟩
        rcases (i2 k f).1 hf with h | h
        · exact Or.inl h.1
        · exact Or.inr ⟨f, h.2⟩
      · intro h
        by_cases e : k = c
        · exact ⟨0, (i2 k 0).2 (Or.inl ⟨e, rfl⟩)⟩
        · obtain ⟨f, hf⟩ := h.resolve_left e
          exact ⟨f, (i2 k f).2 (Or.inr ⟨e, hf⟩)⟩
    · rcases (i2 k f).1 hf with h | h
      · exact Or.inl h.2
      · exact Or.inr h.2
  · rw [if_neg h1]
    have h3 : c ∉ s.localGrids := fun h => h1 (cm.2 h)
    exact ⟨rfl, rfl, rfl, rfl, hm, fun k => by simp [h3], fun k f hf => Or.inr hf⟩

theorem createLocals_spec (ids : List Int) : ∀ (s : Proc), s.locals.WF intLess → Sorted intLess s.localGrids →
    (ids.foldl createLocal s).grids = s.grids ∧ (ids.foldl createLocal s).localGrids = s.localGrids ∧
    (ids.foldl createLocal s).records = s.records ∧ (ids.foldl createLocal s).log = s.log ∧
    (ids.foldl createLocal s).locals.WF intLess ∧
    (∀ k, (∃ f, (k, f) ∈ (ids.foldl createLocal s).locals.entries) ↔
      (k ∈ ids ∧ k ∈ s.localGrids) ∨ ∃ f, (k, f) ∈ s.locals.entries) ∧
    ∀ k f, (k, f) ∈ (ids.foldl createLocal s).locals.entries → f = 0 ∨ (k, f) ∈ s.locals.entries := by
  induction ids with
  | nil => intro s hm _; exact ⟨rfl, rfl, rfl, rfl, hm, by simp, fun k f h => Or.inr h⟩
  | cons c cs ih =>
    intro s hm hl
    obtain ⟨a1, a2, a3, a4, a5, a7, a8⟩ := createLocal_spec s hm hl c
    obtain ⟨b1, b2, b3, b4, b5, b7, b8⟩ := ih (createLocal s c) a5 (by rw [a2]; exact hl)
    rw [List.foldl_cons]
    refine ⟨b1.trans a1, b2.trans a2, b3.trans a3, b4.trans a4, b5, fun k => ?_, fun k f hf => ?_⟩
    · rw [b7, a7, a2, List.mem_cons]
      constructor
      · rintro (⟨h1, h2⟩ | ⟨rfl, h2⟩ | h)
        · exact Or.inl ⟨Or.inr h1, h2⟩
        · exact Or.inl ⟨Or.inl rfl, h2⟩
        · exact Or.inr h
      · rintro (⟨rfl | h1, h2⟩ | h)
        · exact Or.inr (Or.inl ⟨rfl, h2⟩)
        · exact Or.inl ⟨h1, h2⟩
        · exact Or.inr (Or.inr h)
    · rcases b8 k f hf with h | h
      · exact Or.inl h
      · exact a8 k f h

theorem valid_iff {w : Fin P → Proc} (h : Inv w) (p : Fin P) (there : Bool) (c : Int) :
    valid (w p) there c = true ↔ 0 ≤ c ∧ c ∈ (w p).grids ∧ (c ∈ (w p).records ↔ there = true) := by
  unfold valid
  rw [Bool.and_eq_true, Bool.and_eq_true, decide_eq_true_eq, oset_contains_iff intLess_sto (h.gsort p),
    ← oset_contains_iff intLess_sto (h.rsort p), beq_iff_eq]
  have : (OSet.contains intLess (w p).records c = there) ↔
      (OSet.contains intLess (w p).records c = true ↔ there = true) := by
    cases OSet.contains intLess (w p).records c <;> cases there <;> simp
  rw [this]
  simp only [and_assoc]

theorem create_spec {w : Fin P → Proc} (h : Inv w) (ids : List Int) {w' : Fin P → Proc}
    (e : create w ids = some w') :
    Inv w' ∧ (∀ p, (w' p).grids = (w p).grids) ∧ (∀ p, (w' p).localGrids = (w p).localGrids) ∧
      (∀ p c, c ∈ (w' p).records ↔ c ∈ ids ∨ c ∈ (w p).records) ∧
      (∀ p, ∀ c ∈ ids, c ∈ (w p).grids ∧ c ∉ (w p).records) ∧
      ∃ l, Announces w l ∧ ∀ p, (w' p).log = (w p).log ++ l ++ each CREATE ids.length ids 0 := by
  unfold create at e
  split_ifs at e with hv
  obtain ⟨l, hs, hl⟩ := sync_spec h
  rw [hs, Option.bind_some, Option.some.injEq] at e
  subst e
  have h' := inv_synced h l
  generalize hw : synced w l = u at h'
  have hug : ∀ p, (u p).grids = (w p).grids := fun p => by rw [← hw]; rfl
  have hul : ∀ p, (u p).localGrids = (w p).localGrids := fun p => by rw [← hw]; rfl
  have hur : ∀ p, (u p).records = (w p).records := fun p => by rw [← hw]; rfl
  have hulog : ∀ p, (u p).log = (w p).log ++ l := fun p => by rw [← hw]; rfl
  have key := fun p => createLocals_spec ids (u p) (h'.wf p) (h'.lsort p)
  have hrec : ∀ p, Sorted intLess (ids.foldl (OSet.insert intLess) (ids.foldl createLocal (u p)).records) ∧
      ∀ x, x ∈ ids.foldl (OSet.insert intLess) (ids.foldl createLocal (u p)).records ↔
        x ∈ ids ∨ x ∈ (u p).records := fun p => by
    rw [(key p).2.2.1]; exact fold_insert intLess_sto ids (h'.rsort p)
  have hvalid : ∀ p, ∀ c ∈ ids, c ∈ (w p).grids ∧ c ∉ (w p).records := by
    intro p c hc
    have := (valid_iff h p false c).1 (List.all_eq_true.1 (hv p) c hc)
    exact ⟨this.2.1, by simpa using this.2.2⟩
  refine ⟨⟨?_, ?_, ?_, ?_, ?_, ?_, ?_, ?_, ?_, ?_, ?_, ?_⟩, ?_, ?_, ?_, hvalid, l, hl, ?_⟩
  · intro p q
    show (ids.foldl createLocal (u p)).grids = (ids.foldl createLocal (u q)).grids
    rw [(key p).1, (key q).1, h'.grids p q]
  · intro p q
    show ids.foldl _ (ids.foldl createLocal (u p)).records = ids.foldl _ (ids.foldl createLocal (u q)).records
    rw [(key p).2.2.1, (key q).2.2.1, h'.records p q]
  · intro p q
    show (ids.foldl createLocal (u p)).log ++ _ = (ids.foldl createLocal (u q)).log ++ _
    rw [(key p).2.2.2.1, (key q).2.2.2.1, h'.log p q]
  · intro p
    show Sorted intLess (ids.foldl createLocal (u p)).grids
    rw [(key p).1]; exact h'.gsort p
  · intro p
    show Sorted intLess (ids.foldl createLocal (u p)).localGrids
    rw [(key p).2.1]; exact h'.lsort p
  · intro p; exact (hrec p).1
  · intro p g
    show g ∈ (ids.foldl createLocal (u p)).grids → _
    rw [(key p).1]; exact h'.nonneg p g
  · intro p g
    show g ∈ (ids.foldl createLocal (u p)).localGrids → g ∈ (ids.foldl createLocal (u p)).grids
    rw [(key p).2.1, (key p).1]; exact h'.sub p g
  · intro p c hc
    show c ∈ (ids.foldl createLocal (u p)).grids
    rw [(key p).1]
    rcases ((hrec p).2 c).1 hc with hc | hc
    · rw [hug p]
      exact (hvalid p c hc).1
    · exact h'.ends p c hc
  · intro p; exact (key p).2.2.2.2.1
  · intro p c
    show (∃ f, (c, f) ∈ (ids.foldl createLocal (u p)).locals.entries) ↔
      c ∈ ids.foldl (OSet.insert intLess) (ids.foldl createLocal (u p)).records ∧
        c ∈ (ids.foldl createLocal (u p)).localGrids
    rw [(key p).2.2.2.2.2.1, (hrec p).2, (key p).2.1, h'.key p c]
    constructor
    · rintro (⟨a, b⟩ | ⟨a, b⟩)
      · exact ⟨Or.inl a, b⟩
      · exact ⟨Or.inr a, b⟩
    · rintro ⟨a | a, b⟩
      · exact Or.inl ⟨a, b⟩
      · exact Or.inr ⟨a, b⟩
  · intro p g f hf
    rcases (key p).2.2.2.2.2.2 g f hf with h1 | h1
    · exact Or.inl h1
    · exact h'.flags p g f h1
  · intro p
    exact (key p).1.trans (hug p)
  · intro p
    exact (key p).2.1.trans (hul p)
  · intro p c
    rw [← hur p]
    exact (hrec p).2 c
  · intro p
    show (ids.foldl createLocal (u p)).log ++ _ = _
    rw [(key p).2.2.2.1, hulog]

theorem destroy_spec (check : Bool) {w : Fin P → Proc} (h : Inv w) (ids : List Int) {w' : Fin P → Proc}
    (e : destroy check w ids = some w') :
    Inv w' ∧ (∀ p, (w' p).grids = (w p).grids) ∧ (∀ p, (w' p).localGrids = (w p).localGrids) ∧
      (∀ p c, c ∈ (w' p).records ↔ c ∉ ids ∧ c ∈ (w p).records) ∧
      (check = true → ∀ p, ∀ c ∈ ids, c ∈ (w p).records) ∧
      ∃ l, Announces w l ∧ ∀ p, (w' p).log = (w p).log ++ l ++ each DESTROY ids.length ids 0 := by
  unfold destroy at e
  split_ifs at e with hv
  obtain ⟨l, hs, hl⟩ := sync_spec h
  rw [hs, Option.bind_some, Option.some.injEq] at e
  subst e
  have h' := inv_synced h l
  generalize hw : synced w l = u at h'
  have hug : ∀ p, (u p).grids = (w p).grids := fun p => by rw [← hw]; rfl
  have hul : ∀ p, (u p).localGrids = (w p).localGrids := fun p => by rw [← hw]; rfl
  have hur : ∀ p, (u p).records = (w p).records := fun p => by rw [← hw]; rfl
  have hulog : ∀ p, (u p).log = (w p).log ++ l := fun p => by rw [← hw]; rfl
  have hrec := fun p => fold_erase intLess_sto ids (h'.rsort p)
  have hm := fun p => fold_merase intLess_sto ids (h'.wf p)
  refine ⟨⟨h'.grids, ?_, ?_, h'.gsort, h'.lsort, fun p => (hrec p).1, h'.nonneg, h'.sub, ?_, fun p => (hm p).1,
    ?_, ?_⟩, hug, hul, ?_, ?_, l, hl, ?_⟩
  · intro p q
    show ids.foldl _ (u p).records = ids.foldl _ (u q).records
    rw [h'.records p q]
  · intro p q
    show (u p).log ++ _ = (u q).log ++ _
    rw [h'.log p q]
  · intro p c hc
    exact h'.ends p c (((hrec p).2 c).1 hc).2
  · intro p c
    show (∃ f, (c, f) ∈ (ids.foldl (OMap.erase intLess) (u p).locals).entries) ↔
      c ∈ ids.foldl (OSet.erase intLess) (u p).records ∧ c ∈ (u p).localGrids
    rw [(hrec p).2, and_assoc, ← h'.key p c]
    constructor
    · rintro ⟨f, hf⟩
      have := ((hm p).2 c f).1 hf
      exact ⟨this.1, f, this.2⟩
    · rintro ⟨h1, f, hf⟩
      exact ⟨f, ((hm p).2 c f).2 ⟨h1, hf⟩⟩
  · intro p g f hf
    exact h'.flags p g f (((hm p).2 g f).1 hf).2
  · intro p c
    rw [← hur p]
    exact (hrec p).2 c
  · intro hc p c hcm
    exact ((valid_iff h p true c).1 (List.all_eq_true.1 (hv hc p) c hcm)).2.2.2 rfl
  · intro p
    show (u p).log ++ _ = _
    rw [hulog]

theorem destroy_defined (check : Bool) {w : Fin P → Proc} (h : Inv w) (ids : List Int)
    (hv : check = true → ∀ p, ∀ c ∈ ids, c ∈ (w p).records) : ∃ w', destroy check w ids = some w' := by
  obtain ⟨l, hs, -⟩ := sync_spec h
  unfold destroy
  rw [if_pos, hs, Option.bind_some]
  · exact ⟨_, rfl⟩
  · intro hc p
    refine List.all_eq_true.2 fun c hm => (valid_iff h p true c).2 ?_
    have h1 := hv hc p c hm
    exact ⟨h.nonneg p c (h.ends p c h1), h.ends p c h1, by simp [h1]⟩

theorem clear_spec {w : Fin P → Proc} (h : Inv w) : ∃ w', clear w = some w' ∧ Inv w' ∧
    (∀ p, (w' p).grids = (w p).grids) ∧ (∀ p, (w' p).records = []) ∧ ∃ l, Announces w l ∧
      ∀ p, (w' p).log = (w p).log ++ l ++ each DESTROY (w p).records.length (w p).records 0 := by
  obtain ⟨l, hs, hl⟩ := sync_spec h
  have h' := inv_synced h l
  unfold clear
  rw [hs, Option.bind_some]
  refine ⟨_, rfl, ⟨h'.grids, fun _ _ => rfl, ?_, h'.gsort, h'.lsort, fun _ => sorted_nil, h'.nonneg, h'.sub, ?_,
    fun _ => empty_wf, ?_, ?_⟩, fun _ => rfl, fun _ => rfl, l, hl, fun _ => rfl⟩
  · intro p q
    show (synced w l p).log ++ _ = (synced w l q).log ++ _
    rw [h'.log p q, h'.records p q]
  · intro p c hc; simp at hc
  · intro p c; simp
  · intro p c f hf; simp at hf

/-! ### Grid events -/

theorem dying_spec (flag : Nat) (ids : List Int) :
    Sorted intLess (dying (gridFlags flag ids)) ∧
      ∀ g, g ∈ dying (gridFlags flag ids) ↔ g ∈ ids ∧ flag &&& DESTROY ≠ 0 := by
  unfold dying
  obtain ⟨a1, a2⟩ := fold_insert_if intLess_sto (fun e : Int × Nat => e.2 &&& DESTROY != 0) Prod.fst
    (gridFlags flag ids).entries sorted_nil
  refine ⟨a1, fun g => ?_⟩
  rw [a2]
  simp only [List.not_mem_nil, or_false, Prod.exists, (gridFlags_spec flag ids).2]
  constructor
  · rintro ⟨x, f, ⟨hx, rfl⟩, hf, rfl⟩
    exact ⟨hx, by simpa using hf⟩
  · rintro ⟨h1, h2⟩
    exact ⟨g, flag, ⟨h1, rfl⟩, by simpa using h2, rfl⟩

theorem dying_create (ids : List Int) : dying (gridFlags CREATE ids) = [] := by
  apply List.eq_nil_iff_forall_not_mem.2
  intro g hg
  have := ((dying_spec CREATE ids).2 g).1 hg
  simp [CREATE, DESTROY] at this

theorem mem_dying (ids : List Int) (g : Int) : g ∈ dying (gridFlags DESTROY ids) ↔ g ∈ ids := by
  rw [(dying_spec DESTROY ids).2]
  simp [DESTROY]

theorem createGrids_spec (debug : Bool) {w : Fin P → Proc} (h : Inv w) (ids : List Int) (loc : Fin P → Int → Bool)
    {w' : Fin P → Proc} (e : createGrids debug w ids loc = some w') :
    Inv w' ∧ (∀ p g, g ∈ (w' p).grids ↔ g ∈ ids ∨ g ∈ (w p).grids) ∧
      (∀ p c, c ∈ (w' p).records ↔ c ∈ (w p).records) ∧
      ∃ l, (l = [] ∨ Announces w l) ∧ ∀ p, (w' p).log = (w p).log ++ l := by
  unfold createGrids at e
  split_ifs at e with hv
  have hv' : ∀ p, ∀ g ∈ ids, 0 ≤ g ∧ g ∉ (w p).grids := by
    intro p g hg
    have := List.all_eq_true.1 (hv p) g hg
    rw [Bool.and_eq_true, decide_eq_true_eq, Bool.not_eq_true'] at this
    refine ⟨this.1, fun hm => ?_⟩
    rw [(oset_contains_iff intLess_sto (h.gsort p) g).2 hm] at this
    exact absurd this.2 (by simp)
  have hg := fun p => fold_insert intLess_sto ids (h.gsort p)
  have hl := fun p => fold_insert intLess_sto (ids.filter (loc p)) (h.lsort p)
  have hinv : Inv fun p => { w p with
      localGrids := (ids.filter (loc p)).foldl (OSet.insert intLess) (w p).localGrids
      grids := ids.foldl (OSet.insert intLess) (w p).grids } := by
    refine ⟨?_, h.records, h.log, fun p => (hg p).1, fun p => (hl p).1, h.rsort, ?_, ?_, ?_, h.wf, ?_, h.flags⟩
    · intro p q
      show ids.foldl _ (w p).grids = ids.foldl _ (w q).grids
      rw [h.grids p q]
    · intro p g hgm
      exact (((hg p).2 g).1 hgm).elim (fun x => (hv' p g x).1) (h.nonneg p g)
    · intro p g hgl
      have := ((hl p).2 g).1 hgl
      rw [List.mem_filter] at this
      exact ((hg p).2 g).2 (this.imp (fun x => x.1) (h.sub p g))
    · intro p c hc
      exact ((hg p).2 _).2 (Or.inr (h.ends p c hc))
    · intro p c
      refine (h.key p c).trans ?_
      constructor
      · rintro ⟨a, b⟩; exact ⟨a, ((hl p).2 _).2 (Or.inr b)⟩
      · rintro ⟨a, b⟩
        refine ⟨a, (((hl p).2 _).1 b).resolve_left fun hm => ?_⟩
        rw [List.mem_filter] at hm
        exact (hv' p _ hm.1).2 (h.ends p c a)
  unfold gridEvent at e
  split_ifs at e with h0
  · rw [Option.some.injEq] at e
    subst e
    exact ⟨hinv, fun p g => (hg p).2 g, fun p c => Iff.rfl, [], Or.inl rfl, fun p => (List.append_nil _).symm⟩
  · rw [dying_create] at e
    obtain ⟨d1, d2, d3, d4, -, l, d5, d6⟩ := destroy_spec debug hinv [] e
    refine ⟨d1, fun p g => by rw [d2]; exact (hg p).2 g, fun p c => by rw [d4]; simp, l, Or.inr ?_, fun p => ?_⟩
    · exact ⟨d5.sorted, d5.pending, d5.edits, d5.batch⟩
    · rw [d6]
      simp [each]

theorem destroyGrids_spec (debug : Bool) {w : Fin P → Proc} (h : Inv w) (ids : List Int) {w' : Fin P → Proc}
    (e : destroyGrids debug w ids = some w') :
    Inv w' ∧ (∀ p g, g ∈ (w' p).grids ↔ g ∉ ids ∧ g ∈ (w p).grids) ∧
      (∀ p c, c ∈ (w' p).records ↔ c ∉ ids ∧ c ∈ (w p).records) ∧
      (debug = true → ∀ p, ∀ g ∈ ids, g ∈ (w p).records) ∧
      ∃ l m, (l = [] ∨ Announces w l) ∧ Sorted intLess m ∧ (∀ g, g ∈ m ↔ g ∈ ids) ∧
        ∀ p, (w' p).log = (w p).log ++ l ++ each DESTROY m.length m 0 := by
  unfold destroyGrids at e
  split_ifs at e with hv
  have key : ∃ v, gridEvent debug DESTROY w ids = some v ∧ Inv v ∧ (∀ p, (v p).grids = (w p).grids) ∧
      (∀ p, (v p).localGrids = (w p).localGrids) ∧ (∀ p c, c ∈ (v p).records ↔ c ∉ ids ∧ c ∈ (w p).records) ∧
      (debug = true → ∀ p, ∀ g ∈ ids, g ∈ (w p).records) ∧
      ∃ l m, (l = [] ∨ Announces w l) ∧ Sorted intLess m ∧ (∀ g, g ∈ m ↔ g ∈ ids) ∧
        ∀ p, (v p).log = (w p).log ++ l ++ each DESTROY m.length m 0 := by
    cases hge : gridEvent debug DESTROY w ids with
    | none => rw [hge] at e; cases e
    | some v =>
      refine ⟨v, rfl, ?_⟩
      unfold gridEvent at hge
      split_ifs at hge with h0
      · rw [Option.some.injEq] at hge
        subst hge h0
        exact ⟨h, fun _ => rfl, fun _ => rfl, by simp, by simp, [], [], Or.inl rfl, sorted_nil, by simp, by simp [each]⟩
      · obtain ⟨d1, d2, d3, d4, d7, l, d5, d6⟩ := destroy_spec debug h _ hge
        exact ⟨d1, d2, d3, fun p c => by rw [d4, mem_dying],
          fun hd p g hg => d7 hd p g ((mem_dying ids g).2 hg), l, _, Or.inr d5, (dying_spec DESTROY ids).1,
          mem_dying ids, d6⟩
  obtain ⟨v, v1, v2, v3, v4, hrec, hdbg, l, m, hl', hm1, hm2, hlog⟩ := key
  rw [v1, Option.bind_some, Option.some.injEq] at e
  subst e
  have hg := fun p => fold_erase intLess_sto ids (v2.gsort p)
  have hl := fun p => fold_erase intLess_sto ids (v2.lsort p)
  refine ⟨⟨?_, v2.records, v2.log, fun p => (hg p).1, fun p => (hl p).1, v2.rsort, ?_, ?_, ?_, v2.wf, ?_, v2.flags⟩,
    ?_, hrec, hdbg, l, m, hl', hm1, hm2, hlog⟩
  · intro p q
    show ids.foldl _ (v p).grids = ids.foldl _ (v q).grids
    rw [v2.grids p q]
  · intro p g hgm
    exact v2.nonneg p g (((hg p).2 g).1 hgm).2
  · intro p g hgl
    have := ((hl p).2 g).1 hgl
    exact ((hg p).2 g).2 ⟨this.1, v2.sub p g this.2⟩
  · intro p c hc
    exact ((hg p).2 _).2 ⟨((hrec p c).1 hc).1, v2.ends p c hc⟩
  · intro p c
    refine (v2.key p c).trans ?_
    constructor
    · rintro ⟨a, b⟩
      exact ⟨a, ((hl p).2 _).2 ⟨((hrec p c).1 a).1, b⟩⟩
    · rintro ⟨a, b⟩
      exact ⟨a, (((hl p).2 _).1 b).2⟩
  · intro p g
    rw [← v3 p]
    exact (hg p).2 g

theorem destroyGrids_defined (debug : Bool) {w : Fin P → Proc} (h : Inv w) (ids : List Int)
    (hid : ∀ p, ∀ g ∈ ids, g ∈ (w p).grids) (hv : debug = true → ∀ p, ∀ g ∈ ids, g ∈ (w p).records) :
    ∃ w', destroyGrids debug w ids = some w' := by
  unfold destroyGrids
  rw [if_pos]
  · unfold gridEvent
    split_ifs with h0
    · exact ⟨_, rfl⟩
    · obtain ⟨v, hv'⟩ := destroy_defined debug h (dying (gridFlags DESTROY ids))
        (fun hd p c hc => hv hd p c ((mem_dying ids c).1 hc))
      rw [hv']
      exact ⟨_, rfl⟩
  · intro p
    rw [List.all_eq_true]
    intro g hg
    rw [Bool.and_eq_true, decide_eq_true_eq, oset_contains_iff intLess_sto (h.gsort p)]
    exact ⟨h.nonneg p g (hid p g hg), hid p g hg⟩

/-! ### Edits -/

theorem edit_spec {w : Fin P → Proc} (h : Inv w) (p : Fin P) (c : Int) {w' : Fin P → Proc}
    (e : edit w p c = some w') :
    Inv w' ∧ (∀ q, (w' q).grids = (w q).grids) ∧ (∀ q, (w' q).records = (w q).records) ∧
      (∀ q, (w' q).log = (w q).log) ∧ c ∈ (w p).records ∧ ∀ k, Spec.Pending w' k ↔ Spec.Pending w k ∨ k = c := by
  unfold edit at e
  by_cases hc : OMap.contains intLess (w p).locals c = true
  swap
  · rw [if_neg hc] at e
    cases e
  rw [if_pos hc, Option.some.injEq] at e
  subst e
  have hex := (omap_contains_spec intLess_sto (h.wf p) c).1 hc
  obtain ⟨m1, m2⟩ := omap_modify_spec intLess_sto (h.wf p) c (· ||| EDIT) hex
  have fields : ∀ q, ∃ x, ((if q = p then { w p with locals := (w p).locals.modify intLess c (· ||| EDIT) }
      else w q : Proc) = { w q with locals := x }) ∧ x.WF intLess ∧
      (∀ k, (∃ g, (k, g) ∈ x.entries) ↔ ∃ g, (k, g) ∈ (w q).locals.entries) ∧
      (∀ k f, (k, f) ∈ x.entries → f = 0 ∨ f = EDIT) ∧
      (∀ k, (∃ g, (k, g) ∈ x.entries ∧ g ≠ 0) ↔
        (∃ g, (k, g) ∈ (w q).locals.entries ∧ g ≠ 0) ∨ (q = p ∧ k = c)) := by
    intro q
    by_cases e : q = p
    · subst e
      rw [if_pos rfl]
      have hfl : ∀ v, (c, v) ∈ (w q).locals.entries → v ||| EDIT = EDIT := fun v hv => by
        rcases h.flags q c v hv with rfl | rfl <;> decide
      refine ⟨_, rfl, m1, fun k => ?_, fun k f hf => ?_, fun k => ?_⟩
      · constructor
        · rintro ⟨g, hg⟩
          rcases (m2 k g).1 hg with ⟨-, hg⟩ | ⟨rfl, v, hv, -⟩
          · exact ⟨g, hg⟩
          · exact ⟨v, hv⟩
        · rintro ⟨g, hg⟩
          by_cases e : k = c
          · subst e
            exact ⟨_, (m2 k _).2 (Or.inr ⟨rfl, g, hg, rfl⟩)⟩
          · exact ⟨g, (m2 k g).2 (Or.inl ⟨e, hg⟩)⟩
      · rcases (m2 k f).1 hf with ⟨-, hg⟩ | ⟨rfl, v, hv, rfl⟩
        · exact h.flags q k f hg
        · exact Or.inr (hfl v hv)
      · constructor
        · rintro ⟨g, hg, hne⟩
          rcases (m2 k g).1 hg with ⟨-, hg⟩ | ⟨rfl, v, hv, rfl⟩
          · exact Or.inl ⟨g, hg, hne⟩
          · exact Or.inr ⟨rfl, rfl⟩
        · rintro (⟨g, hg, hne⟩ | ⟨-, rfl⟩)
          · by_cases e : k = c
            · subst e
              exact ⟨_, (m2 k _).2 (Or.inr ⟨rfl, g, hg, rfl⟩), by rw [hfl g hg]; decide⟩
            · exact ⟨g, (m2 k g).2 (Or.inl ⟨e, hg⟩), hne⟩
          · obtain ⟨v, hv⟩ := hex
            exact ⟨_, (m2 k _).2 (Or.inr ⟨rfl, v, hv, rfl⟩), by rw [hfl v hv]; decide⟩
    · rw [if_neg e]
      exact ⟨_, rfl, h.wf q, fun k => Iff.rfl, h.flags q, fun k => by simp [e]⟩
  obtain ⟨x, hx⟩ := Classical.axiomOfChoice fields
  have hw : (fun q => (if q = p then { w p with locals := (w p).locals.modify intLess c (· ||| EDIT) }
      else w q : Proc)) = fun q => { w q with locals := x q } := funext fun q => (hx q).1
  rw [hw]
  refine ⟨⟨h.grids, h.records, h.log, h.gsort, h.lsort, h.rsort, h.nonneg, h.sub, h.ends, fun q => (hx q).2.1,
    fun q c => ((hx q).2.2.1 c).trans (h.key q c), fun q => (hx q).2.2.2.1⟩, fun q => ?_, fun q => ?_, fun q => ?_,
    ((h.key p c).1 hex).1, fun k => ?_⟩
  iterate 3 rfl
  have pend : ∀ (u : Fin P → Proc) k, Spec.Pending u k ↔ ∃ q, ∃ g, (k, g) ∈ (u q).locals.entries ∧ g ≠ 0 :=
    fun u k => Iff.rfl
  rw [pend, pend]
  constructor
  · rintro ⟨q, h1⟩
    rcases ((hx q).2.2.2.2 k).1 h1 with h2 | h2
    · exact Or.inl ⟨q, h2⟩
    · exact Or.inr h2.2
  · rintro (⟨q, h1⟩ | h1)
    · exact ⟨q, ((hx q).2.2.2.2 k).2 (Or.inl h1)⟩
    · exact ⟨p, ((hx p).2.2.2.2 k).2 (Or.inr ⟨rfl, h1⟩)⟩

/-! ### Histories -/

theorem step_inv (debug : Bool) {w w' : Fin P → Proc} (h : Inv w) (o : Op P) (e : step debug w o = some w') :
    Inv w' := by
  cases o with
  | createGrids ids loc => exact (createGrids_spec debug h ids loc e).1
  | destroyGrids ids => exact (destroyGrids_spec debug h ids e).1
  | create ids => exact (create_spec h ids e).1
  | destroy ids => exact (destroy_spec true h ids e).1
  | clear =>
    obtain ⟨u, h1, h2, -⟩ := clear_spec h
    rw [show step debug w .clear = clear w from rfl, h1, Option.some.injEq] at e
    subst e
    exact h2
  | edit p g => exact (edit_spec h p g e).1
  | endEdit =>
    obtain ⟨l, h1, -⟩ := sync_spec h
    rw [show step debug w .endEdit = sync w from rfl, h1, Option.some.injEq] at e
    subst e
    exact inv_synced h l

theorem run_append {debug : Bool} {ops : List (Op P)} {o : Op P} {w : Fin P → Proc} (e : run debug ops = some w) :
    run debug (ops ++ [o]) = step debug w o := by
  unfold run at e ⊢
  rw [List.foldlM_append, e]
  simp only [List.foldlM_cons, List.foldlM_nil, Option.bind_eq_bind, Option.bind_some]
  cases step debug w o <;> rfl

theorem run_before {debug : Bool} {ops : List (Op P)} {o : Op P} {w' : Fin P → Proc}
    (e : run debug (ops ++ [o]) = some w') : ∃ w, run debug ops = some w ∧ step debug w o = some w' := by
  cases h : run debug ops with
  | none =>
    unfold run at e h
    rw [List.foldlM_append, h] at e
    cases e
  | some w => exact ⟨w, rfl, by rw [← run_append h]; exact e⟩

theorem run_snoc {debug : Bool} {ops : List (Op P)} {o : Op P} {w w' : Fin P → Proc} (e : run debug ops = some w)
    (e' : run debug (ops ++ [o]) = some w') : step debug w o = some w' := by
  rw [← run_append e, e']

theorem run_inv {debug : Bool} {ops : List (Op P)} : ∀ {w : Fin P → Proc}, run debug ops = some w → Inv w := by
  induction ops using List.reverseRecOn with
  | nil => intro w e; cases e; exact inv_start
  | append_singleton ops o ih =>
    intro w e
    obtain ⟨u, h1, h2⟩ := run_before e
    exact step_inv debug (ih h1) o h2

/-- What a listener knows on each process. -/
def Told (w : Fin P → Proc) : Prop :=
  ∀ p, Spec.Proper (w p).log ∧ ∀ g, g ∈ (w p).records ↔ Spec.Exists (w p).log g

theorem told_edits {w : Fin P → Proc} (h : Inv w) (ht : Told w) {l : List Call} (hl : l = [] ∨ Announces w l)
    (p : Fin P) : Spec.Proper ((w p).log ++ l) ∧ ∀ g, Spec.Exists ((w p).log ++ l) g ↔ g ∈ (w p).records := by
  rcases hl with rfl | hl
  · rw [List.append_nil]
    exact ⟨(ht p).1, fun g => ((ht p).2 g).symm⟩
  · obtain ⟨h1, h2⟩ := heard_edits l (w p).log (ht p).1 (fun e he => by
      have h3 := hl.edits e he
      refine ⟨h3, ?_⟩
      obtain ⟨q, f, h4, -⟩ := (hl.pending e.1).2 ⟨e.2.2, by rw [← h3]; exact he⟩
      rw [← (ht p).2, h.records p q]
      exact ((h.key q e.1).1 ⟨f, h4⟩).1)
    exact ⟨h1, fun g => by rw [h2, (ht p).2]⟩

theorem told_creates {l : List Call} {r : Int → Prop} (hp : Spec.Proper l) (hr : ∀ g, Spec.Exists l g ↔ r g)
    {ids : List Int} (hn : ids.Nodup) (hi : ∀ g ∈ ids, ¬ r g) :
    Spec.Proper (l ++ each CREATE ids.length ids 0) ∧
      ∀ g, Spec.Exists (l ++ each CREATE ids.length ids 0) g ↔ g ∈ ids ∨ r g := by
  obtain ⟨e1, e2, -⟩ := each_spec CREATE ids.length ids 0 (by omega)
  obtain ⟨h1, h2⟩ := heard_creates (each CREATE ids.length ids 0) l hp (by rw [e1]; exact hn) (fun e he =>
    ⟨e2 e he, by rw [hr]; exact hi _ (by rw [← e1]; exact List.mem_map_of_mem he)⟩)
  exact ⟨h1, fun g => by rw [h2, e1, hr]⟩

theorem told_destroys {l : List Call} {r : Int → Prop} (hp : Spec.Proper l) (hr : ∀ g, Spec.Exists l g ↔ r g)
    {ids : List Int} (hn : ids.Nodup) (hi : ∀ g ∈ ids, r g) :
    Spec.Proper (l ++ each DESTROY ids.length ids 0) ∧
      ∀ g, Spec.Exists (l ++ each DESTROY ids.length ids 0) g ↔ g ∉ ids ∧ r g := by
  obtain ⟨e1, e2, -⟩ := each_spec DESTROY ids.length ids 0 (by omega)
  obtain ⟨h1, h2⟩ := heard_destroys (each DESTROY ids.length ids 0) l hp (by rw [e1]; exact hn) (fun e he =>
    ⟨e2 e he, by rw [hr]; exact hi _ (by rw [← e1]; exact List.mem_map_of_mem he)⟩)
  exact ⟨h1, fun g => by rw [h2, e1, hr]⟩

theorem step_told (debug : Bool) {w w' : Fin P → Proc} (h : Inv w) (ht : Told w) (o : Op P) (hd : Spec.Distinct o)
    (hc : ∀ ids, o = .destroyGrids ids → ∀ p, ∀ g ∈ ids, g ∈ (w p).records) (e : step debug w o = some w') :
    Told w' := by
  intro p
  cases o with
  | createGrids ids loc =>
    obtain ⟨-, -, h3, l, h4, h5⟩ := createGrids_spec debug h ids loc e
    obtain ⟨t1, t2⟩ := told_edits h ht h4 p
    rw [h5]
    exact ⟨t1, fun g => by rw [h3, t2]⟩
  | destroyGrids ids =>
    obtain ⟨-, -, h3, -, l, m, h4, h5, h6, h7⟩ := destroyGrids_spec debug h ids e
    obtain ⟨t1, t2⟩ := told_edits h ht h4 p
    obtain ⟨u1, u2⟩ := told_destroys t1 t2 (sorted_nodup h5) (fun g hg => hc ids rfl p g ((h6 g).1 hg))
    rw [h7]
    exact ⟨u1, fun g => by rw [h3, u2, h6]⟩
  | create ids =>
    obtain ⟨-, -, -, h3, h4, l, h5, h6⟩ := create_spec h ids e
    obtain ⟨t1, t2⟩ := told_edits h ht (Or.inr h5) p
    obtain ⟨u1, u2⟩ := told_creates t1 t2 hd (fun g hg => (h4 p g hg).2)
    rw [h6]
    exact ⟨u1, fun g => by rw [h3, u2]⟩
  | destroy ids =>
    obtain ⟨-, -, -, h3, h4, l, h5, h6⟩ := destroy_spec true h ids e
    obtain ⟨t1, t2⟩ := told_edits h ht (Or.inr h5) p
    obtain ⟨u1, u2⟩ := told_destroys t1 t2 hd (fun g hg => h4 rfl p g hg)
    rw [h6]
    exact ⟨u1, fun g => by rw [h3, u2]⟩
  | clear =>
    obtain ⟨u, h1, -, -, h4, l, h5, h6⟩ := clear_spec h
    rw [show step debug w .clear = clear w from rfl, h1, Option.some.injEq] at e
    subst e
    obtain ⟨t1, t2⟩ := told_edits h ht (Or.inr h5) p
    obtain ⟨u1, u2⟩ := told_destroys t1 t2 (sorted_nodup (h.rsort p)) (fun g hg => hg)
    rw [h6]
    refine ⟨u1, fun g => ?_⟩
    rw [h4, u2]
    simp
  | edit q g =>
    obtain ⟨-, -, h2, h3, -⟩ := edit_spec h q g e
    rw [h3, h2]
    exact ht p
  | endEdit =>
    obtain ⟨l, h1, h2⟩ := sync_spec h
    rw [show step debug w .endEdit = sync w from rfl, h1, Option.some.injEq] at e
    subst e
    obtain ⟨t1, t2⟩ := told_edits h ht (Or.inr h2) p
    exact ⟨t1, fun g => (t2 g).symm⟩

theorem run_told {debug : Bool} {ops : List (Op P)} : ∀ {w : Fin P → Proc}, run debug ops = some w →
    (∀ o ∈ ops, Spec.Distinct o) → (debug = true ∨ Spec.OnlyWithData debug ops) → Told w := by
  induction ops using List.reverseRecOn with
  | nil =>
    intro w e _ _ p
    cases e
    refine ⟨proper_nil, fun g => ?_⟩
    have := exists_nil g
    simp [Proc.start, this]
  | append_singleton ops o ih =>
    intro w e hd hc
    obtain ⟨u, h1, h2⟩ := run_before e
    have hi := run_inv h1
    refine step_told debug hi (ih h1 (fun o ho => hd o (List.mem_append_left _ ho)) ?_) o (hd o (by simp)) ?_ h2
    · refine hc.imp_right fun hc a ids b w hab hw => ?_
      subst hab
      exact hc a ids (b ++ [o]) w (by simp) hw
    · rintro ids rfl
      rcases hc with rfl | hc
      · exact (destroyGrids_spec true hi ids h2).2.2.2.1 rfl
      · exact hc ops ids [] u rfl h1

/-! ### C95 -/

/-- Full statement: after any history listeners have heard of exactly the geometries there are, never of the
destruction of something that did not exist, and grids can be destroyed whether or not they have a geometry. -/
def C95_statement (debug : Bool) : Prop := ∀ (P : Nat) (ops : List (Op P)) (w : Fin P → Proc),
  run debug ops = some w → (∀ o ∈ ops, Spec.Distinct o) →
    (∀ p, Spec.Proper (w p).log ∧ ∀ g, g ∈ (w p).records ↔ Spec.Exists (w p).log g) ∧
    ∀ ids, (∀ p, ∀ g ∈ ids, g ∈ (w p).grids) → ∃ w', run debug (ops ++ [.destroyGrids ids]) = some w'

/-- One process, one grid, no geometry. -/
def bare : List (Op 1) := [.createGrids [0] fun _ _ => true]

/-- **C95 is false with `OVK_DEBUG`**: destroying a grid without a geometry violates an assertion. -/
theorem C95_false_debug : ¬ C95_statement true := by
  intro h
  have hs : (run true bare).isSome = true := by decide +kernel
  obtain ⟨w, hw⟩ := Option.isSome_iff_exists.1 hs
  have hg : (run true bare).map (fun w => (w 0).grids) = some [0] := by decide +kernel
  rw [hw] at hg
  obtain ⟨w', h1⟩ := (h 1 bare w hw (by simp [bare, Spec.Distinct])).2 [0] (by
    intro p g hg'
    rw [show p = 0 from Subsingleton.elim _ _, show (w 0).grids = [0] from Option.some.inj hg]
    exact hg')
  have : (run true (bare ++ [.destroyGrids [0]])).isSome = false := by decide +kernel
  rw [h1] at this
  cases this

/-- **C95 is false without `OVK_DEBUG`**: listeners hear of the destruction of a geometry that never existed. -/
theorem C95_false_release : ¬ C95_statement false := by
  intro h
  have hl : (run false (bare ++ [.destroyGrids [0]])).map (fun w => (w 0).log) = some [(0, DESTROY, true)] := by
    decide +kernel
  cases hw : run false (bare ++ [.destroyGrids [0]]) with
  | none => rw [hw] at hl; cases hl
  | some w =>
    rw [hw] at hl
    have h1 := ((h 1 _ w hw (by simp [bare, Spec.Distinct])).1 0).1 [] (0, DESTROY, true) [] (Option.some.inj hl)
    rcases h1 with h1 | h1 | h1
    · exact absurd h1.1 (by decide)
    · exact exists_nil _ h1.2
    · exact absurd h1.1 (by decide)

/-- **C95 (part)**: if assertions are checked, or no history destroys a grid without a geometry, listeners have
heard of exactly the geometries there are, and of nothing improper.  Missing: histories destroying a grid without a
geometry. -/
theorem C95_announced_partial (debug : Bool) (ops : List (Op P)) (w : Fin P → Proc) (e : run debug ops = some w)
    (hd : ∀ o ∈ ops, Spec.Distinct o) (hc : debug = true ∨ Spec.OnlyWithData debug ops) (p : Fin P) :
    Spec.Proper (w p).log ∧ ∀ g, g ∈ (w p).records ↔ Spec.Exists (w p).log g := run_told e hd hc p

/-- **C95 (part)**: with assertions checked, existing grids can be destroyed if and only if each has a geometry. -/
theorem C95_destroy_iff_partial (ops : List (Op P)) (w : Fin P → Proc) (ids : List Int) (e : run true ops = some w)
    (hid : ∀ p, ∀ g ∈ ids, g ∈ (w p).grids) :
    (∃ w', run true (ops ++ [.destroyGrids ids]) = some w') ↔ ∀ p, ∀ g ∈ ids, g ∈ (w p).records := by
  rw [run_append e]
  constructor
  · rintro ⟨w', e'⟩
    exact (destroyGrids_spec true (run_inv e) ids e').2.2.2.1 rfl
  · intro hv
    exact destroyGrids_defined true (run_inv e) ids hid (fun _ => hv)

/-- **C95 (part)**: without assertions existing grids can always be destroyed, and a destruction is announced for
each of them, last, in order, whether or not it has a geometry. -/
theorem C95_release_partial (ops : List (Op P)) (w : Fin P → Proc) (ids : List Int) (e : run false ops = some w)
    (hid : ∀ p, ∀ g ∈ ids, g ∈ (w p).grids) :
    ∃ w' l m, run false (ops ++ [.destroyGrids ids]) = some w' ∧ (∀ p, (w' p).log = (w p).log ++ l ++ m) ∧
      (∀ c ∈ l, c.2.1 = EDIT) ∧ (∀ c ∈ m, c.2.1 = DESTROY) ∧ (m.map Prod.fst).Pairwise (· < ·) ∧
      ∀ g, g ∈ m.map Prod.fst ↔ g ∈ ids := by
  obtain ⟨w', h1⟩ := destroyGrids_defined false (run_inv e) ids hid (fun h => by cases h)
  obtain ⟨-, -, -, -, l, m, h4, h5, h6, h7⟩ := destroyGrids_spec false (run_inv e) ids h1
  obtain ⟨e1, e2, -⟩ := each_spec DESTROY m.length m 0 (by omega)
  refine ⟨w', l, each DESTROY m.length m 0, by rw [run_append e]; exact h1, h7, fun c hc => ?_, e2, ?_, fun g => ?_⟩
  · rcases h4 with rfl | h4
    · cases hc
    · exact h4.edits c hc
  · rw [e1]
    refine List.Pairwise.imp ?_ h5
    intro a b hab
    simpa [intLess] using hab
  · rw [e1, h6]

/-- **C95 (agreement)**: after any history all processes have the same grids and geometries and have made the same
announcements; geometries belong to existing grids, and a process has the local part of a geometry exactly if it has
the local part of its grid. -/
theorem C95_invariant (debug : Bool) (ops : List (Op P)) (w : Fin P → Proc) (e : run debug ops = some w) :
    (∀ p q, (w p).grids = (w q).grids ∧ (w p).records = (w q).records ∧ (w p).log = (w q).log) ∧
    ∀ p, (∀ g ∈ (w p).records, g ∈ (w p).grids) ∧
      ∀ g, (∃ f, (g, f) ∈ (w p).locals.entries) ↔ g ∈ (w p).records ∧ g ∈ (w p).localGrids :=
  have h := run_inv e
  ⟨fun p q => ⟨h.grids p q, h.records p q, h.log p q⟩, fun p => ⟨h.ends p, h.key p⟩⟩

/-- **C95 (what changes)**: creating grids adds no geometry; destroying grids removes exactly their geometries;
creating and destroying geometries adds and removes exactly those, clearing removes all. -/
theorem C95_records (debug : Bool) (ops : List (Op P)) (o : Op P) (w w' : Fin P → Proc) (e : run debug ops = some w)
    (e' : run debug (ops ++ [o]) = some w') (p : Fin P) (g : Int) :
    match o with
    | .createGrids ids _ => (g ∈ (w' p).grids ↔ g ∈ ids ∨ g ∈ (w p).grids) ∧ (g ∈ (w' p).records ↔ g ∈ (w p).records)
    | .destroyGrids ids => (g ∈ (w' p).grids ↔ g ∈ (w p).grids ∧ g ∉ ids) ∧
        (g ∈ (w' p).records ↔ g ∈ (w p).records ∧ g ∉ ids)
    | .create ids => (w' p).grids = (w p).grids ∧ (g ∈ (w' p).records ↔ g ∈ ids ∨ g ∈ (w p).records)
    | .destroy ids => (w' p).grids = (w p).grids ∧ (g ∈ (w' p).records ↔ g ∈ (w p).records ∧ g ∉ ids)
    | .clear => (w' p).grids = (w p).grids ∧ (w' p).records = []
    | .edit _ _ => (w' p).grids = (w p).grids ∧ (w' p).records = (w p).records
    | .endEdit => (w' p).grids = (w p).grids ∧ (w' p).records = (w p).records := by
  have h := run_inv e
  have e' := run_snoc e e'
  cases o with
  | createGrids ids loc =>
    obtain ⟨-, h2, h3, -⟩ := createGrids_spec debug h ids loc e'
    exact ⟨h2 p g, h3 p g⟩
  | destroyGrids ids =>
    obtain ⟨-, h2, h3, -⟩ := destroyGrids_spec debug h ids e'
    exact ⟨(h2 p g).trans and_comm, (h3 p g).trans and_comm⟩
  | create ids =>
    obtain ⟨-, h2, -, h3, -⟩ := create_spec h ids e'
    exact ⟨h2 p, h3 p g⟩
  | destroy ids =>
    obtain ⟨-, h2, -, h3, -⟩ := destroy_spec true h ids e'
    exact ⟨h2 p, (h3 p g).trans and_comm⟩
  | clear =>
    obtain ⟨u, h1, -, h3, h4, -⟩ := clear_spec h
    rw [show step debug w .clear = clear w from rfl, h1, Option.some.injEq] at e'
    subst e'
    exact ⟨h3 p, h4 p⟩
  | edit q c =>
    obtain ⟨-, h2, h3, -⟩ := edit_spec h q c e'
    exact ⟨h2 p, h3 p⟩
  | endEdit =>
    obtain ⟨l, h1, -⟩ := sync_spec h
    rw [show step debug w .endEdit = sync w from rfl, h1, Option.some.injEq] at e'
    subst e'
    exact ⟨rfl, rfl⟩

theorem batch_nil : Spec.Batch [] := by
  intro i e h
  simp at h

theorem batch_each (flag : Nat) (ids : List Int) : Spec.Batch (each flag ids.length ids 0) := by
  obtain ⟨e1, -, e3⟩ := each_spec flag ids.length ids 0 (by omega)
  intro i e h
  rw [e3 i e h]
  have := congrArg List.length e1
  rw [List.length_map] at this
  rw [this]

/-- **C95 (batches)**: every call makes at most two batches of announcements, the pending edits and then the
creations or destructions, the same on all processes; exactly the last one of each batch is marked last. -/
theorem C95_batches (debug : Bool) (ops : List (Op P)) (o : Op P) (w w' : Fin P → Proc) (e : run debug ops = some w)
    (e' : run debug (ops ++ [o]) = some w') :
    ∃ l m, (∀ p, (w' p).log = (w p).log ++ l ++ m) ∧ Spec.Batch l ∧ Spec.Batch m ∧ (∀ c ∈ l, c.2.1 = EDIT) ∧
      ∀ c ∈ m, c.2.1 = CREATE ∨ c.2.1 = DESTROY := by
  have h := run_inv e
  have e' := run_snoc e e'
  have an : ∀ {l}, (l = [] ∨ Announces w l) → Spec.Batch l ∧ ∀ c ∈ l, c.2.1 = EDIT := by
    rintro l (rfl | hl)
    · exact ⟨batch_nil, by simp⟩
    · exact ⟨hl.batch, hl.edits⟩
  have fl : ∀ flag (ids : List Int), ∀ c ∈ each flag ids.length ids 0, c.2.1 = flag := fun flag ids =>
    (each_spec flag ids.length ids 0 (by omega)).2.1
  cases o with
  | createGrids ids loc =>
    obtain ⟨-, -, -, l, h4, h5⟩ := createGrids_spec debug h ids loc e'
    exact ⟨l, [], fun p => by rw [h5, List.append_nil], (an h4).1, batch_nil, (an h4).2, by simp⟩
  | destroyGrids ids =>
    obtain ⟨-, -, -, -, l, m, h4, -, -, h7⟩ := destroyGrids_spec debug h ids e'
    exact ⟨l, _, h7, (an h4).1, batch_each _ _, (an h4).2, fun c hc => Or.inr (fl _ _ c hc)⟩
  | create ids =>
    obtain ⟨-, -, -, -, -, l, h5, h6⟩ := create_spec h ids e'
    exact ⟨l, _, h6, h5.batch, batch_each _ _, h5.edits, fun c hc => Or.inl (fl _ _ c hc)⟩
  | destroy ids =>
    obtain ⟨-, -, -, -, -, l, h5, h6⟩ := destroy_spec true h ids e'
    exact ⟨l, _, h6, h5.batch, batch_each _ _, h5.edits, fun c hc => Or.inr (fl _ _ c hc)⟩
  | clear =>
    obtain ⟨u, h1, -, -, -, l, h5, h6⟩ := clear_spec h
    rw [show step debug w .clear = clear w from rfl, h1, Option.some.injEq] at e'
    subst e'
    by_cases hp : Nonempty (Fin P)
    · obtain ⟨p⟩ := hp
      refine ⟨l, each DESTROY (w p).records.length (w p).records 0, fun q => ?_, h5.batch, batch_each _ _, h5.edits,
        fun c hc => Or.inr (fl _ _ c hc)⟩
      rw [h6, h.records q p]
    · exact ⟨[], [], fun p => absurd ⟨p⟩ hp, batch_nil, batch_nil, by simp, by simp⟩
  | edit q c =>
    obtain ⟨-, -, -, h4, -⟩ := edit_spec h q c e'
    exact ⟨[], [], fun p => by rw [h4]; simp, batch_nil, batch_nil, by simp, by simp⟩
  | endEdit =>
    obtain ⟨l, h1, h2⟩ := sync_spec h
    rw [show step debug w .endEdit = sync w from rfl, h1, Option.some.injEq] at e'
    subst e'
    exact ⟨l, [], fun p => by simp [synced], h2.batch, batch_nil, h2.edits, by simp⟩

/-- **C95 (edits)**: an edit on one process is pending from then on; synchronising announces exactly the grids with
pending edits, each once, in order, on every process, and leaves nothing pending. -/
theorem C95_edits (debug : Bool) (ops : List (Op P)) (w : Fin P → Proc) (e : run debug ops = some w) :
    (∀ p g w', run debug (ops ++ [.edit p g]) = some w' →
      (∀ k, Spec.Pending w' k ↔ Spec.Pending w k ∨ k = g) ∧ ∀ q, (w' q).log = (w q).log) ∧
    ∃ w' l, run debug (ops ++ [.endEdit]) = some w' ∧ (∀ p, (w' p).log = (w p).log ++ l) ∧
      (l.map Prod.fst).Pairwise (· < ·) ∧ (∀ c ∈ l, c.2.1 = EDIT) ∧ (∀ g, g ∈ l.map Prod.fst ↔ Spec.Pending w g) ∧
      ∀ g, ¬ Spec.Pending w' g := by
  have h := run_inv e
  refine ⟨fun p g w' e' => ?_, ?_⟩
  · obtain ⟨-, -, -, h4, -, h6⟩ := edit_spec h p g (run_snoc e e')
    exact ⟨h6, h4⟩
  · obtain ⟨l, h1, h2⟩ := sync_spec h
    refine ⟨synced w l, l, by rw [run_append e]; exact h1, fun _ => rfl, ?_, h2.edits, fun g => ?_,
      synced_pending w l⟩
    · rw [List.pairwise_map]
      refine h2.sorted.imp fun hab => ?_
      simpa [intLess] using hab
    · rw [h2.pending]
      constructor
      · intro hg
        obtain ⟨c, hc, rfl⟩ := List.mem_map.1 hg
        exact ⟨c.2.2, by rw [← h2.edits c hc]; exact hc⟩
      · rintro ⟨z, hz⟩
        exact List.mem_map_of_mem (f := Prod.fst) hz

/-! ### Examples -/

/-- Two processes; grids 0, 1, 2; geometries for all, edited on different processes. -/
def exOps : List (Op 2) :=
  [.createGrids [2, 0, 1] (fun p g => decide (p.val = 0 ∧ g ≤ 1) || decide (p.val = 1 ∧ 1 ≤ g)),
   .create [2, 0], .create [1], .edit 0 1, .edit 1 2]

example : (run true exOps).isSome = true := by decide +kernel
example : (run true (exOps ++ [.endEdit])).map (fun w => (w 0).log) =
    some [(2, 1, false), (0, 1, true), (1, 1, true), (1, 4, false), (2, 4, true)] := by decide +kernel
example : (run true (exOps ++ [.destroyGrids [2, 1]])).map (fun w => ((w 1).records, (w 1).log.drop 3)) =
    some ([0], [(1, 4, false), (2, 4, true), (1, 2, false), (2, 2, true)]) := by decide +kernel
example : (run true (exOps ++ [.clear])).map (fun w => ((w 1).records, (w 1).grids)) = some ([], [0, 1, 2]) := by
  decide +kernel
example : ∀ o ∈ exOps, Spec.Distinct o := by simp [exOps, Spec.Distinct]

end Ovk.GData
