/-
Property C101: the tables of overlap and connectivity.
-/
import Verif.Model.Record
import Mathlib.Tactic.SplitIfs
import Mathlib.Tactic.FinCases
import Mathlib.Data.Fin.VecNotation

namespace Ovk.Rec
variable {C A D : Type} {V : C → Type} [DecidableEq C]

/-! ### Specification: calls are listed with the latest one first -/
namespace Spec

/-- The number of entries: what `Resize` was last called with. -/
def size : List (Op A V) → Nat
  | [] => 0
  | .resize n _ :: _ => n
  | _ :: t => size t

/-- The column is being edited. -/
def editing : List (Op A V) → C → Bool
  | [], _ => false
  | .edit k :: t, c => if k = c then true else editing t c
  | .restore k :: t, c => if k = c then false else editing t c
  | _ :: t, c => editing t c

/-- An entry: what was last written there since `Resize`, otherwise the default. -/
def entry (dflt : A → (c : C) → V c) : List (Op A V) → (c : C) → Nat → Option (V c)
  | [], _, _ => none
  | .resize n a :: _, c, i => if i < n then some (dflt a c) else none
  | .write k j v :: t, c, i => if h : k = c then if j = i then some (h ▸ v) else entry dflt t c i else entry dflt t c i
  | _ :: t, c, i => entry dflt t c i

/-- The calls respect the documented conditions, and the further condition `Q` when editing of a column ends. -/
def Valid (Q : List (Op A V) → C → Prop) : List (Op A V) → Prop
  | [] => True
  | .resize _ _ :: t => (∀ c, editing t c = false) ∧ Valid Q t
  | .edit _ :: t => Valid Q t
  | .write c i _ :: t => (editing t c = true ∧ i < size t) ∧ Valid Q t
  | .restore c :: t => (editing t c = true ∧ Q t c) ∧ Valid Q t

/-- A point that was not set: one below the grid in the dimensions in use. -/
def unset (G : Grids) : Tup 3 := fun i => if (i : Nat) < G.numDims then G.global.b i - 1 else 0

/-- When editing of points ends, points are either not set or local. -/
def Local (G : Grids) (t : List (Op Unit NVal)) : NCol → Prop
  | .points => ∀ i p, entry (overlapN G).dflt t .points i = some p →
      p = unset G ∨ ∀ j : Fin 3, G.locl.b j ≤ p j ∧ p j < G.locl.e j
  | _ => True

/-- The point is in the list of points. -/
def Listed (G : Grids) (t : List (Op Unit NVal)) (q : Tup 3) : Prop :=
  ∃ i, entry (overlapN G).dflt t .points i = some q

/-- The grid has 1 to 3 dimensions, padded as in the code, and the local range is inside the global one. -/
structure Sane (G : Grids) : Prop where
  dims : 1 ≤ G.numDims ∧ G.numDims ≤ 3
  pad : ∀ i : Fin 3, G.numDims ≤ i → G.global.b i = 0
  sub : ∀ (q : Tup 3), (∀ j, G.locl.b j ≤ q j ∧ q j < G.locl.e j) → ∀ j, G.global.b j ≤ q j ∧ q j < G.global.e j

/-- The calls before the last edit session of points ended. -/
def lastSession : List (Op Unit NVal) → List (Op Unit NVal)
  | [] => []
  | .restore .points :: t => t
  | _ :: t => lastSession t

/-- `Resize` was not called after the last edit session of points ended. -/
def Fresh : List (Op Unit NVal) → Prop
  | [] => True
  | .resize _ _ :: _ => False
  | .restore .points :: _ => True
  | _ :: t => Fresh t

end Spec

/-- C101, the part about masks: when points are not being edited, the mask marks exactly the points listed. -/
def C101_statement : Prop := ∀ (G : Grids) (t : List (Op Unit NVal)), Spec.Sane G → Spec.Valid (Spec.Local G) t →
  Spec.editing t .points = false →
  ∃ s, run (overlapN G) t.reverse = some s ∧
    ∀ q : Tup 3, (∀ j, G.locl.b j ≤ q j ∧ q j < G.locl.e j) → (s.derived q = true ↔ Spec.Listed G t q)

/-! ### Proofs -/

theorem setCol_same (f : (c : C) → List (V c)) (c : C) (xs : List (V c)) : setCol f c xs c = xs := by simp [setCol]

theorem setCol_ne (f : (c : C) → List (V c)) {c k : C} (xs : List (V c)) (h : k ≠ c) : setCol f c xs k = f k := by
  simp [setCol, h]

variable [Fintype C]

theorem run_cons (K : Kind A V D) (o : Op A V) (t : List (Op A V)) :
    run K (o :: t).reverse = (run K t.reverse).bind fun s => step K s o := by
  unfold run
  rw [List.reverse_cons, List.foldlM_append]
  cases List.foldlM (step K) (start K) t.reverse with
  | none => rfl
  | some m =>
    show List.foldlM (step K) m [o] = step K m o
    rw [List.foldlM_cons]
    cases step K m o <;> rfl

/-- What a state has to do with the calls. -/
structure Inv (K : Kind A V D) (t : List (Op A V)) (s : State V D) : Prop where
  size : s.size = Spec.size t
  seenSize : s.seenSize = s.size
  editing : ∀ c, s.editing c = Spec.editing t c
  length : ∀ c, (s.col c).length = s.size
  entry : ∀ c i, (s.col c)[i]? = Spec.entry K.dflt t c i
  seen : ∀ c, s.editing c = false → s.seen c = s.col c
  derived : s.seenDerived = s.derived

/-- C101: after any calls that respect the conditions, each array has one entry per point, which is what was written
last since `Resize`, otherwise the default; and a listener that copies the arrays when called has a current copy of
every array not being edited, of the size, and of the mask. -/
theorem C101_table (K : Kind A V D) (Q : List (Op A V) → C → Prop)
    (hk : ∀ t c (col : (c : C) → List (V c)) d, Q t c → (∀ c i, (col c)[i]? = Spec.entry K.dflt t c i) →
      ∃ d', K.hook c col d = some d')
    {t : List (Op A V)} (h : Spec.Valid Q t) : ∃ s, run K t.reverse = some s ∧ Inv K t s := by
  induction t with
  | nil =>
    exact ⟨start K, rfl, ⟨rfl, rfl, fun _ => rfl, fun _ => rfl, fun _ _ => rfl, fun _ _ => rfl, rfl⟩⟩
  | cons o t ih =>
    rw [run_cons]
    cases o with
    | resize n a =>
      obtain ⟨s, hs, I⟩ := ih h.2
      refine ⟨{ s with size := n, col := fun c => List.replicate n (K.dflt a c), seenSize := n,
                       seen := fun c => List.replicate n (K.dflt a c), seenDerived := s.derived }, ?_, ?_⟩
      · rw [hs]
        exact if_pos fun c => (I.editing c).trans (h.1 c)
      · refine ⟨rfl, rfl, I.editing, fun c => List.length_replicate, fun c i => ?_, fun c _ => rfl, rfl⟩
        exact List.getElem?_replicate
    | edit k =>
      obtain ⟨s, hs, I⟩ := ih h
      refine ⟨{ s with editing := setFlag s.editing k true }, by rw [hs]; rfl, ?_⟩
      refine ⟨I.size, I.seenSize, fun c => ?_, I.length, I.entry, fun c hc => ?_, I.derived⟩
      · show setFlag s.editing k true c = if k = c then true else Spec.editing t c
        unfold setFlag
        by_cases e : c = k
        · rw [if_pos e, if_pos e.symm]
        · rw [if_neg e, if_neg (Ne.symm e)]; exact I.editing c
      · change setFlag s.editing k true c = false at hc
        unfold setFlag at hc
        by_cases e : c = k
        · rw [if_pos e] at hc; cases hc
        · rw [if_neg e] at hc; exact I.seen c hc
    | write k j v =>
      obtain ⟨s, hs, I⟩ := ih h.2
      have he : s.editing k = true := (I.editing k).trans h.1.1
      have hj : j < (s.col k).length := by rw [I.length, I.size]; exact h.1.2
      refine ⟨{ s with col := setCol s.col k ((s.col k).set j v) }, by rw [hs]; exact if_pos ⟨he, hj⟩, ?_⟩
      refine ⟨I.size, I.seenSize, I.editing, fun c => ?_, fun c i => ?_, fun c hc => ?_, I.derived⟩
      · show (setCol s.col k ((s.col k).set j v) c).length = s.size
        by_cases e : c = k
        · subst e; rw [setCol_same, List.length_set]; exact I.length c
        · rw [setCol_ne _ _ e]; exact I.length c
      · show (setCol s.col k ((s.col k).set j v) c)[i]? =
          if h : k = c then if j = i then some (h ▸ v) else Spec.entry K.dflt t c i else Spec.entry K.dflt t c i
        by_cases e : k = c
        · subst e
          rw [setCol_same, dif_pos rfl, List.getElem?_set]
          by_cases e2 : j = i
          · rw [if_pos e2, if_pos e2, if_pos (e2 ▸ hj)]
          · rw [if_neg e2, if_neg e2]; exact I.entry k i
        · rw [setCol_ne _ _ (Ne.symm e), dif_neg e]; exact I.entry c i
      · show s.seen c = setCol s.col k ((s.col k).set j v) c
        have e : c ≠ k := by rintro rfl; change s.editing c = false at hc; rw [he] at hc; cases hc
        rw [setCol_ne _ _ e]
        exact I.seen c hc
    | restore k =>
      obtain ⟨s, hs, I⟩ := ih h.2
      have he : s.editing k = true := (I.editing k).trans h.1.1
      obtain ⟨d', hd⟩ := hk t k s.col s.derived h.1.2 I.entry
      refine ⟨{ s with editing := setFlag s.editing k false, derived := d',
                       seen := setCol s.seen k (s.col k), seenDerived := d' }, ?_, ?_⟩
      · rw [hs]
        show (if s.editing k = true then _ else none) = _
        rw [if_pos he, hd]
        rfl
      · refine ⟨I.size, I.seenSize, fun c => ?_, I.length, I.entry, fun c hc => ?_, rfl⟩
        · show setFlag s.editing k false c = if k = c then false else Spec.editing t c
          unfold setFlag
          by_cases e : c = k
          · rw [if_pos e, if_pos e.symm]
          · rw [if_neg e, if_neg (Ne.symm e)]; exact I.editing c
        · show setCol s.seen k (s.col k) c = s.col c
          by_cases e : c = k
          · subst e; exact setCol_same _ _ _
          · rw [setCol_ne _ _ e]
            apply I.seen c
            change setFlag s.editing k false c = false at hc
            unfold setFlag at hc
            rwa [if_neg e] at hc

/-- The mask after `UpdateMask_`. -/
theorem updateMask_spec {G : Grids} (hG : Spec.Sane G) {ps : List (Tup 3)}
    (h : ∀ p ∈ ps, p = Spec.unset G ∨ ∀ j, G.locl.b j ≤ p j ∧ p j < G.locl.e j) :
    ∃ m, updateMask G ps = some m ∧
      ∀ q, (∀ j, G.locl.b j ≤ q j ∧ q j < G.locl.e j) → (m q = true ↔ q ∈ ps) := by
  have hskip : (fun i : Fin 3 => if (i : Nat) < G.numDims then G.global.b i - 1 else G.global.b i) = Spec.unset G := by
    funext i
    unfold Spec.unset
    by_cases e : (i : Nat) < G.numDims
    · rw [if_pos e, if_pos e]
    · rw [if_neg e, if_neg e]; exact hG.pad i (by omega)
  have hun : ∀ q : Tup 3, (∀ j, G.locl.b j ≤ q j ∧ q j < G.locl.e j) → q ≠ Spec.unset G := by
    rintro q hq rfl
    have h0 := (hG.sub _ hq 0).1
    have : Spec.unset G 0 = G.global.b 0 - 1 := if_pos hG.dims.1
    omega
  unfold updateMask
  dsimp only
  rw [hskip]
  have gen : ∀ (m0 : Tup 3 → Bool), ∃ m, ps.foldlM (fun m p =>
      if p ≠ Spec.unset G then
        if G.locl.contains p then some (fun q => if q = p then true else m q) else none
      else some m) m0 = some m ∧
      ∀ q, (∀ j, G.locl.b j ≤ q j ∧ q j < G.locl.e j) → (m q = true ↔ m0 q = true ∨ q ∈ ps) := by
    induction ps with
    | nil => exact fun m0 => ⟨m0, rfl, fun q _ => by simp⟩
    | cons p ps ih =>
      intro m0
      have ih := ih fun p hp => h p (List.mem_cons_of_mem _ hp)
      rw [List.foldlM_cons]
      by_cases e : p = Spec.unset G
      · obtain ⟨m, h1, h2⟩ := ih m0
        refine ⟨m, ?_, fun q hq => ?_⟩
        · rw [if_neg (not_not.2 e)]; exact h1
        · rw [h2 q hq, List.mem_cons]
          have : q ≠ p := fun h => hun q hq (h.trans e)
          simp [this]
      · have hl := (h p List.mem_cons_self).resolve_left e
        obtain ⟨m, h1, h2⟩ := ih fun q => if q = p then true else m0 q
        refine ⟨m, ?_, fun q hq => ?_⟩
        · rw [if_pos e, if_pos (by simpa [Rng.contains] using hl)]; exact h1
        · rw [h2 q hq, List.mem_cons]
          by_cases e : q = p
          · simp [e]
          · simp [e]
  obtain ⟨m, h1, h2⟩ := gen fun _ => false
  exact ⟨m, h1, fun q hq => by rw [h2 q hq]; simp⟩

theorem mem_col {G : Grids} {t : List (Op Unit NVal)} {col : (c : NCol) → List (NVal c)}
    (h : ∀ c i, (col c)[i]? = Spec.entry (overlapN G).dflt t c i) (q : Tup 3) :
    q ∈ col .points ↔ Spec.Listed G t q := by
  rw [List.mem_iff_getElem?]
  exact ⟨fun ⟨i, hi⟩ => ⟨i, by rw [← h]; exact hi⟩, fun ⟨i, hi⟩ => ⟨i, by rw [h]; exact hi⟩⟩

theorem overlapN_hook {G : Grids} (hG : Spec.Sane G) (t : List (Op Unit NVal)) (c : NCol)
    (col : (c : NCol) → List (NVal c)) (d : Tup 3 → Bool) (hq : Spec.Local G t c)
    (h : ∀ c i, (col c)[i]? = Spec.entry (overlapN G).dflt t c i) : ∃ d', (overlapN G).hook c col d = some d' := by
  cases c with
  | points =>
    obtain ⟨m, h1, -⟩ := updateMask_spec (ps := col .points) hG fun p hp => by
      obtain ⟨i, hi⟩ := (mem_col h p).1 hp
      exact hq i p hi
    exact ⟨m, h1⟩
  | sources => exact ⟨d, rfl⟩
  | ranks => exact ⟨d, rfl⟩

/-- C101: always the mask marks exactly the points that were listed when the last edit session of points ended. -/
theorem C101_mask {G : Grids} (hG : Spec.Sane G) {t : List (Op Unit NVal)} (h : Spec.Valid (Spec.Local G) t) :
    ∃ s, run (overlapN G) t.reverse = some s ∧ Inv (overlapN G) t s ∧
      ∀ q : Tup 3, (∀ j, G.locl.b j ≤ q j ∧ q j < G.locl.e j) →
        (s.derived q = true ↔ Spec.Listed G (Spec.lastSession t) q) := by
  obtain ⟨s, hs, I⟩ := C101_table (overlapN G) (Spec.Local G) (overlapN_hook hG) h
  refine ⟨s, hs, I, ?_⟩
  clear I
  induction t generalizing s with
  | nil =>
    cases hs
    intro q hq
    constructor
    · intro h; cases h
    · rintro ⟨i, hi⟩; cases hi
  | cons o t ih =>
    have ht : Spec.Valid (Spec.Local G) t := by
      cases o with
      | resize n a => exact h.2
      | edit k => exact h
      | write k j v => exact h.2
      | restore k => exact h.2
    obtain ⟨s0, hs0, I0⟩ := C101_table (overlapN G) (Spec.Local G) (overlapN_hook hG) ht
    have ih := ih ht s0 hs0
    rw [run_cons, hs0] at hs
    change step (overlapN G) s0 o = some s at hs
    cases o with
    | resize n a =>
      unfold step at hs
      dsimp only at hs
      split_ifs at hs
      cases hs
      exact ih
    | edit k =>
      cases hs
      exact ih
    | write k j v =>
      unfold step at hs
      dsimp only at hs
      split_ifs at hs
      cases hs
      exact ih
    | restore k =>
      unfold step at hs
      dsimp only at hs
      split_ifs at hs
      cases k with
      | points =>
        obtain ⟨m, h1, h2⟩ := updateMask_spec (ps := s0.col .points) hG fun p hp => by
          obtain ⟨i, hi⟩ := (mem_col I0.entry p).1 hp
          exact h.1.2 i p hi
        change (updateMask G (s0.col .points)).map _ = _ at hs
        rw [h1] at hs
        cases hs
        intro q hq
        rw [show Spec.lastSession (.restore .points :: t) = t from rfl, ← mem_col I0.entry]
        exact h2 q hq
      | sources => cases hs; exact ih
      | ranks => cases hs; exact ih

theorem fresh_listed {G : Grids} {t : List (Op Unit NVal)} (h : Spec.Valid (Spec.Local G) t)
    (hf : Spec.Fresh t) (he : Spec.editing t .points = false) (q : Tup 3) :
    Spec.Listed G (Spec.lastSession t) q ↔ Spec.Listed G t q := by
  induction t with
  | nil => exact Iff.rfl
  | cons o t ih =>
    cases o with
    | resize n a => exact hf.elim
    | edit k =>
      cases k with
      | points => cases he
      | sources => exact ih h hf he
      | ranks => exact ih h hf he
    | write k j v =>
      cases k with
      | points => exact absurd (h.1.1.symm.trans he) (by decide)
      | sources => exact ih h.2 hf he
      | ranks => exact ih h.2 hf he
    | restore k =>
      cases k with
      | points => exact Iff.rfl
      | sources => exact ih h.2 hf he
      | ranks => exact ih h.2 hf he

/-- C101: the mask marks exactly the points listed, as long as `Resize` was not called since the last edit session of
points.  Missing: the time after `Resize`. -/
theorem C101_partial {G : Grids} (hG : Spec.Sane G) {t : List (Op Unit NVal)} (h : Spec.Valid (Spec.Local G) t)
    (he : Spec.editing t .points = false) (hf : Spec.Fresh t) :
    ∃ s, run (overlapN G) t.reverse = some s ∧
      ∀ q : Tup 3, (∀ j, G.locl.b j ≤ q j ∧ q j < G.locl.e j) → (s.derived q = true ↔ Spec.Listed G t q) := by
  obtain ⟨s, hs, -, hm⟩ := C101_mask hG h
  exact ⟨s, hs, fun q hq => (hm q hq).trans (fresh_listed h hf he q)⟩

/-- A grid with 4×4 points on one process. -/
def grid4 : Grids where
  numDims := 2
  global := ⟨![0, 0, 0], ![4, 4, 1]⟩
  cells := ⟨![0, 0, 0], ![3, 3, 1]⟩
  locl := ⟨![0, 0, 0], ![4, 4, 1]⟩
  otherGlobal := ⟨![0, 0, 0], ![4, 4, 1]⟩
  otherCells := ⟨![0, 0, 0], ![3, 3, 1]⟩

theorem grid4_sane : Spec.Sane grid4 := ⟨by decide, by decide, fun _ h => h⟩

/-- A point is listed. -/
def listed1 : List (Op Unit NVal) :=
  [.restore .points, .write .points 0 ![1, 2, 0], .edit .points, .resize 1 ()]

theorem listed1_valid : Spec.Valid (Spec.Local grid4) listed1 := by
  refine ⟨⟨rfl, ?_⟩, ⟨rfl, by decide⟩, fun _ => rfl, trivial⟩
  intro i p hp
  right
  cases i with
  | zero =>
    cases hp
    decide
  | succ i => simp [Spec.entry] at hp

/-- After `Resize`, the mask still marks the points of before. -/
theorem C101_false : ¬ C101_statement := by
  intro h
  have hv : Spec.Valid (Spec.Local grid4) (.resize 0 () :: listed1) :=
    ⟨fun c => by cases c <;> rfl, listed1_valid⟩
  obtain ⟨s, hs, hm⟩ := h grid4 _ grid4_sane hv rfl
  have e : (run (overlapN grid4) (.resize 0 () :: listed1).reverse).map (fun s => s.derived ![1, 2, 0]) = some true := by
    decide +kernel
  rw [hs] at e
  have := (hm ![1, 2, 0] (by decide)).1 (by simpa using e)
  obtain ⟨i, hi⟩ := this
  simp [Spec.entry] at hi

/-- C101: entries that are not set can be told from all others: points, cells, sources and destinations are outside
the grids, ranks are no ranks, and extents are empty. -/
theorem C101_unset (G : Grids) (hd : 1 ≤ G.numDims) (m : Nat) :
    G.global.contains (nDefault G .points) = false ∧ G.otherCells.contains (nDefault G .sources) = false ∧
    (nDefault G .ranks : Int) < 0 ∧
    G.cells.contains (omDefault G .cells) = false ∧ G.otherGlobal.contains (omDefault G .destinations) = false ∧
    (omDefault G .ranks : Int) < 0 ∧
    (cmDefault G m .extents).empty = true ∧ G.otherGlobal.contains (cmDefault G m .destinations) = false ∧
    (cmDefault G m .ranks : Int) < 0 := by
  have hb : ∀ r : Rng 3, r.contains (below G.numDims r) = false := by
    intro r
    unfold Rng.contains
    rw [decide_eq_false_iff_not]
    intro h
    have := (h 0).1
    rw [show below G.numDims r 0 = r.b 0 - 1 from if_pos hd] at this
    omega
  have hr : (-1 : Int) < 0 := by decide
  refine ⟨hb _, hb _, hr, hb _, hb _, hr, ?_, hb _, hr⟩
  show decide _ = true
  rw [decide_eq_true_iff]
  refine ⟨0, ?_⟩
  show (if ((0 : Fin 3) : Nat) < G.numDims then G.cells.b 0 - 1 else 1) ≤ below G.numDims G.cells 0
  rw [show below G.numDims G.cells 0 = G.cells.b 0 - 1 from if_pos hd, if_pos (show ((0 : Fin 3) : Nat) < G.numDims from hd)]

/-- C101: in unused dimensions, which the user need not set, the extents are `[0,1)` and the coefficients are 1 for
the only point, whatever the stencil size. -/
theorem C101_padding (G : Grids) (m : Nat) (hm : 0 < m) (i : Fin 3) (hi : G.numDims ≤ i) :
    (cmDefault G m .extents).b i = 0 ∧ (cmDefault G m .extents).e i = 1 ∧
    (cmDefault G m .coefs i).length = m ∧ (cmDefault G m .coefs i)[0]? = some 1 ∧
    ∀ k, 0 < k → k < m → (cmDefault G m .coefs i)[k]? = some 0 := by
  have hn : ¬ (i : Nat) < G.numDims := by omega
  refine ⟨if_neg hn, if_neg hn, by simp [cmDefault], by simp [cmDefault, hn, hm], fun k h0 hk => ?_⟩
  have : k ≠ 0 := by omega
  simp [cmDefault, hn, hk, this]

example : Spec.Sane grid4 ∧ Spec.Valid (Spec.Local grid4) listed1 ∧ Spec.editing listed1 .points = false ∧
    Spec.Fresh listed1 ∧ Spec.Listed grid4 listed1 ![1, 2, 0] :=
  ⟨grid4_sane, listed1_valid, rfl, trivial, 0, rfl⟩

/-- C101: the three classes without a mask compute nothing when editing ends, so that no further condition is needed. -/
theorem C101_others (G : Grids) :
    (∀ t : List (Op Unit NVal), Spec.Valid (fun _ _ => True) t →
      ∃ s, run (connectivityN G) t.reverse = some s ∧ Inv (connectivityN G) t s) ∧
    (∀ t : List (Op Unit OMVal), Spec.Valid (fun _ _ => True) t →
      ∃ s, run (overlapM G) t.reverse = some s ∧ Inv (overlapM G) t s) ∧
    (∀ t : List (Op Nat CMVal), Spec.Valid (fun _ _ => True) t →
      ∃ s, run (connectivityM G) t.reverse = some s ∧ Inv (connectivityM G) t s) :=
  ⟨fun _ h => C101_table _ _ (fun _ _ _ d _ _ => ⟨d, rfl⟩) h, fun _ h => C101_table _ _ (fun _ _ _ d _ _ => ⟨d, rfl⟩) h,
    fun _ h => C101_table _ _ (fun _ _ _ d _ _ => ⟨d, rfl⟩) h⟩

/-- C101: after `Resize(n)` all entries of a table are unset: those of `connectivity_n` and `overlap_n`. -/
theorem C101_new_n (G : Grids) (hd : 1 ≤ G.numDims) (i n : Nat) (hi : i < n) (t : List (Op Unit NVal)) :
    (∃ p : Tup 3, Spec.entry (connectivityN G).dflt (.resize n () :: t) .points i = some p ∧ G.global.contains p = false) ∧
    (∃ p : Tup 3, Spec.entry (connectivityN G).dflt (.resize n () :: t) .sources i = some p ∧
      G.otherCells.contains p = false) ∧
    (∃ r : Int, Spec.entry (connectivityN G).dflt (.resize n () :: t) .ranks i = some r ∧ r < 0) ∧
    (connectivityN G).dflt () = (overlapN G).dflt () := by
  obtain ⟨h1, h2, h3, -⟩ := C101_unset G hd 0
  exact ⟨⟨_, if_pos hi, h1⟩, ⟨_, if_pos hi, h2⟩, ⟨_, if_pos hi, h3⟩, rfl⟩

/-- C101: the same for `overlap_m`. -/
theorem C101_new_overlap_m (G : Grids) (hd : 1 ≤ G.numDims) (i n : Nat) (hi : i < n) (t : List (Op Unit OMVal)) :
    (∃ p : Tup 3, Spec.entry (overlapM G).dflt (.resize n () :: t) .cells i = some p ∧ G.cells.contains p = false) ∧
    (Spec.entry (overlapM G).dflt (.resize n () :: t) .coords i = some fun _ => 0) ∧
    (∃ p : Tup 3, Spec.entry (overlapM G).dflt (.resize n () :: t) .destinations i = some p ∧
      G.otherGlobal.contains p = false) ∧
    (∃ r : Int, Spec.entry (overlapM G).dflt (.resize n () :: t) .ranks i = some r ∧ r < 0) := by
  obtain ⟨-, -, -, h1, h2, h3, -⟩ := C101_unset G hd 0
  exact ⟨⟨_, if_pos hi, h1⟩, if_pos hi, ⟨_, if_pos hi, h2⟩, ⟨_, if_pos hi, h3⟩⟩

/-- C101: the same for `connectivity_m`; there are as many coefficients as `Resize` was told. -/
theorem C101_new_connectivity_m (G : Grids) (hd : 1 ≤ G.numDims) (m i n : Nat) (hi : i < n) (t : List (Op Nat CMVal)) :
    (∃ r : Rng 3, Spec.entry (connectivityM G).dflt (.resize n m :: t) .extents i = some r ∧ r.empty = true) ∧
    (Spec.entry (connectivityM G).dflt (.resize n m :: t) .coords i = some fun _ => 0) ∧
    (∃ w : Fin 3 → List Rat, Spec.entry (connectivityM G).dflt (.resize n m :: t) .coefs i = some w ∧
      ∀ j, (w j).length = m) ∧
    (∃ p : Tup 3, Spec.entry (connectivityM G).dflt (.resize n m :: t) .destinations i = some p ∧
      G.otherGlobal.contains p = false) ∧
    (∃ r : Int, Spec.entry (connectivityM G).dflt (.resize n m :: t) .ranks i = some r ∧ r < 0) := by
  obtain ⟨-, -, -, -, -, -, h1, h2, h3⟩ := C101_unset G hd m
  exact ⟨⟨_, if_pos hi, h1⟩, if_pos hi, ⟨cmDefault G m .coefs, if_pos hi, fun j => by simp [cmDefault]⟩, ⟨_, if_pos hi, h2⟩,
    ⟨_, if_pos hi, h3⟩⟩

end Ovk.Rec
