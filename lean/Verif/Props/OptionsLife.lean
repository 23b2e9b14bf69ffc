import Verif.Model.OptionsLife
import Verif.Props.Options
/-!
# C103: the options of an assembler follow the grids of its domain
-/
namespace Ovk.OLife
open Opt (Opt pair run1 run2)
variable {ν : Type} [DecidableEq ν] {sr : Bool} {dflt : ν}

namespace Spec
/-- What the user sees of the options: the grids of the domain, and the value for every grid and every pair. -/
structure View (ν : Type) where
  grid : Int → Prop
  one : Int → ν
  two : Int → Int → ν

/-- A setting for `p` is one for the grid `g`. -/
def Hits (p g : Int) : Prop := p = g ∨ p = -1

/-- What a call does to what the user sees: settings apply to the grids that exist, new grids and new bindings
have defaults, grids take their settings with them, and after an edit no grid has settings with itself (for the options for
which that makes sense). -/
noncomputable def see (sr : Bool) (dflt : ν) (w : View ν) : Op ν → View ν := by
  classical
  exact fun
  | .create ids => { w with grid := fun g => g ∈ ids ∨ w.grid g }
  | .destroy ids => {
      grid := fun g => g ∉ ids ∧ w.grid g
      one := fun g => if g ∈ ids then dflt else w.one g
      two := fun m n => if m ∈ ids ∨ n ∈ ids then dflt else w.two m n }
  | .bind | .unbind => { w with one := fun _ => dflt, two := fun _ _ => dflt }
  | .startEdit => w
  | .set1 p v => { w with one := fun g => if w.grid g ∧ Hits p g then v else w.one g }
  | .set2 p q v => { w with two := fun m n => if (w.grid m ∧ Hits p m) ∧ w.grid n ∧ Hits q n then v else w.two m n }
  | .endEdit => { w with two := fun m n => if sr = true ∧ m = n then dflt else w.two m n }

/-- What the user sees after a sequence of calls. -/
noncomputable def view (sr : Bool) (dflt : ν) (ops : List (Op ν)) : View ν :=
  ops.foldl (see sr dflt) ⟨fun _ => False, fun _ => dflt, fun _ _ => dflt⟩

/-- Whether options are being edited after a sequence of calls. -/
def editing : List (Op ν) → Bool → Bool
  | [], b => b
  | .startEdit :: ops, _ => editing ops true
  | .endEdit :: ops, _ => editing ops false
  | _ :: ops, b => editing ops b

/-- Whether the assembler is bound after a sequence of calls. -/
def bound : List (Op ν) → Bool → Bool
  | [], b => b
  | .bind :: ops, _ => bound ops true
  | .unbind :: ops, _ => bound ops false
  | _ :: ops, b => bound ops b

/-- Calls that are defined after `ops`. -/
def Allowed (sr : Bool) (dflt : ν) (ops : List (Op ν)) : Op ν → Prop
  | .create ids => ∀ g ∈ ids, 0 ≤ g ∧ ¬ (view sr dflt ops).grid g
  | .destroy ids => ∀ g ∈ ids, (view sr dflt ops).grid g
  | .bind => bound ops false = false
  | .unbind | .startEdit => bound ops false = true
  | .set1 p _ => editing ops false = true ∧ (p = -1 ∨ bound ops false = true ∧ (view sr dflt ops).grid p)
  | .set2 p q _ => editing ops false = true ∧ (p = -1 ∨ bound ops false = true ∧ (view sr dflt ops).grid p) ∧
      (q = -1 ∨ bound ops false = true ∧ (view sr dflt ops).grid q)
  | .endEdit => editing ops false = true ∧ bound ops false = true
end Spec

/-! ## Options after one more call -/

section
open Opt
variable {gs : List Int}

theorem get2_add {ops : List (Opt.Op (Int × Int) ν)} (h : Opt.Spec.Valid (fun p => [p.1, p.2]) (ops ++ [.add gs]))
    {m n : Int} (hm : m ∈ gs ∨ Opt.Spec.Known ops m) (hn : n ∈ gs ∨ Opt.Spec.Known ops n) {v : ν}
    (hv : Opt.Spec.Known ops m → Opt.Spec.Known ops n → (run2 dflt ops).get elemLess dflt (pair m n) = v)
    (hd : ¬ Opt.Spec.Known ops m ∨ ¬ Opt.Spec.Known ops n → v = dflt) :
    (run2 dflt (ops ++ [.add gs])).get elemLess dflt (pair m n) = v := by
  have h1 := C47_pair dflt _ h m n ((known_add _ _ _).2 hm) ((known_add _ _ _).2 hn)
  refine C47_value_unique h1 ?_
  by_cases hk : Opt.Spec.Known ops m ∧ Opt.Spec.Known ops n
  · rw [← hv hk.1 hk.2]
    exact value_skip (C47_pair dflt _ (valid_init h) m n hk.1 hk.2) _ (by simp) (by simp)
  · rw [not_and_or] at hk
    rw [hd hk]
    refine ⟨ops, [.add gs], rfl, by simp, by simp, .inr ⟨?_, rfl⟩⟩
    rcases hk with hk | hk
    · exact ⟨m, by simp, hk⟩
    · exact ⟨n, by simp, hk⟩

theorem get2_remove {ops : List (Opt.Op (Int × Int) ν)}
    (h : Opt.Spec.Valid (fun p => [p.1, p.2]) (ops ++ [.remove gs])) {m n : Int} (hm : Opt.Spec.Known ops m)
    (hn : Opt.Spec.Known ops n) (hm' : m ∉ gs) (hn' : n ∉ gs) :
    (run2 dflt (ops ++ [.remove gs])).get elemLess dflt (pair m n) = (run2 dflt ops).get elemLess dflt (pair m n) := by
  refine C47_value_unique (C47_pair dflt _ h m n ((known_remove _ _ _).2 ⟨hm', hm⟩) ((known_remove _ _ _).2 ⟨hn', hn⟩)) ?_
  refine value_skip (C47_pair dflt _ (valid_init h) m n hm hn) _ (by simp) ?_
  intro rs hrs g hg
  cases hrs
  simp at hg
  rcases hg with rfl | rfl <;> assumption

theorem get1_add {ops : List (Opt.Op Int ν)} (h : Opt.Spec.Valid (fun p => [p]) (ops ++ [.add gs]))
    {m : Int} (hm : m ∈ gs ∨ Opt.Spec.Known ops m) {v : ν}
    (hv : Opt.Spec.Known ops m → (run1 dflt ops).get intLess dflt m = v)
    (hd : ¬ Opt.Spec.Known ops m → v = dflt) :
    (run1 dflt (ops ++ [.add gs])).get intLess dflt m = v := by
  refine C47_value_unique (C47_grid dflt _ h m ((known_add _ _ _).2 hm)) ?_
  by_cases hk : Opt.Spec.Known ops m
  · rw [← hv hk]
    exact value_skip (C47_grid dflt _ (valid_init h) m hk) _ (by simp) (by simp)
  · rw [hd hk]
    exact ⟨ops, [.add gs], rfl, by simp, by simp, .inr ⟨⟨m, by simp, hk⟩, rfl⟩⟩

theorem get1_remove {ops : List (Opt.Op Int ν)} (h : Opt.Spec.Valid (fun p => [p]) (ops ++ [.remove gs])) {m : Int}
    (hm : Opt.Spec.Known ops m) (hm' : m ∉ gs) :
    (run1 dflt (ops ++ [.remove gs])).get intLess dflt m = (run1 dflt ops).get intLess dflt m := by
  refine C47_value_unique (C47_grid dflt _ h m ((known_remove _ _ _).2 ⟨hm', hm⟩)) ?_
  refine value_skip (C47_grid dflt _ (valid_init h) m hm) _ (by simp) ?_
  intro rs hrs g hg
  cases hrs
  simp at hg
  subst hg
  exact hm'

theorem get1_set {ops : List (Opt.Op Int ν)} {p : Int} {v : ν}
    (h : Opt.Spec.Valid (fun p => [p]) (ops ++ [.set p v])) {m : Int} (hm : Opt.Spec.Known ops m) :
    (run1 dflt (ops ++ [.set p v])).get intLess dflt m =
      if p = m ∨ p = -1 then v else (run1 dflt ops).get intLess dflt m := by
  refine C47_value_unique (C47_grid dflt _ h m ((known_set _ _ _ _).2 hm)) ?_
  split
  · rename_i hc
    exact ⟨ops ++ [.set p v], [], by simp, by simp, by simp, .inl ⟨ops, p, rfl, hc, by
      intro g hg; simp at hg; subst hg; exact hm⟩⟩
  · rename_i hc
    refine value_skip (C47_grid dflt _ (valid_init h) m hm) _ ?_ (by simp)
    intro q w hq; cases hq; exact hc
end

/-- The options of a bound assembler are those of a history of calls that shows what the user should see. -/
structure Holds (dflt : ν) (grids : List Int) (per1 : Opt Int ν) (per2 : Opt (Elem 2) ν) (w : Spec.View ν) : Prop where
  one : ∃ ops, per1 = run1 dflt ops ∧ Opt.Spec.Valid (fun p => [p]) ops ∧ (∀ g, Opt.Spec.Known ops g ↔ g ∈ grids) ∧
    ∀ g, g ∈ grids → (run1 dflt ops).get intLess dflt g = w.one g
  two : ∃ ops, per2 = run2 dflt ops ∧ Opt.Spec.Valid (fun p => [p.1, p.2]) ops ∧
    (∀ g, Opt.Spec.Known ops g ↔ g ∈ grids) ∧
    ∀ m n, m ∈ grids → n ∈ grids → (run2 dflt ops).get elemLess dflt (pair m n) = w.two m n

structure Inv (sr : Bool) (dflt : ν) (s : State ν) (w : Spec.View ν) : Prop where
  sorted : Sorted intLess s.grids
  nonneg : ∀ g ∈ s.grids, 0 ≤ g
  grids : ∀ g, w.grid g ↔ g ∈ s.grids
  add : s.toAdd = []
  rem : s.toRemove = []
  fresh1 : ∀ g, ¬ w.grid g → w.one g = dflt
  fresh2 : ∀ m n, ¬ w.grid m ∨ ¬ w.grid n → w.two m n = dflt
  self : s.bound = true → s.editing = false → sr = true → ∀ g, w.two g g = dflt
  bound : s.bound = true → Holds dflt s.grids s.per1 s.per2 w
  unbound : s.bound = false → s.per1 = {} ∧ s.per2 = {}

theorem known_lt {gs : List Int} (h : Sorted intLess gs) : gs.Pairwise (· < ·) := by
  refine List.Pairwise.imp ?_ h
  intro a b hab
  simpa [intLess] using hab

omit [DecidableEq ν] in
theorem events_cons (destroy : Bool) (g : Int) (gs : List Int) (s : State ν) (hb : s.bound = true) :
    events destroy (g :: gs) s = update (if destroy then
        { s with toRemove := (g :: gs).foldl (OSet.insert intLess) s.toRemove }
      else { s with toAdd := (g :: gs).foldl (OSet.insert intLess) s.toAdd }) := by
  induction gs generalizing g s with
  | nil =>
    unfold events
    rw [if_pos hb]
    unfold events onGridEvent
    cases destroy <;> rfl
  | cons g' gs ih =>
    unfold events
    rw [if_pos hb]
    cases destroy
    · exact ih g' _ hb
    · exact ih g' _ hb

omit [DecidableEq ν] in
theorem events_unbound (destroy : Bool) (gs : List Int) (s : State ν) (hb : s.bound = false) :
    events destroy gs s = s := by
  induction gs with
  | nil => rfl
  | cons g gs ih => unfold events; rw [if_neg (by simp [hb])]; exact ih

theorem insert_nonempty (g : Int) (gs : List Int) : ((g :: gs).foldl (OSet.insert intLess) []).isEmpty = false := by
  have := (Opt.ids_add [] (g :: gs) List.Pairwise.nil).2 g
  cases h : (g :: gs).foldl (OSet.insert intLess) [] with
  | nil => rw [h] at this; simp at this
  | cons => rfl

/-- Adding grids to the options. -/
theorem holds_add {grids : List Int} {per1 : Opt Int ν} {per2 : Opt (Elem 2) ν} {w : Spec.View ν}
    (h : Holds dflt grids per1 per2 w) (A grids' : List Int) (hA : ∀ g ∈ A, 0 ≤ g)
    (hg : ∀ g, g ∈ grids' ↔ g ∈ A ∨ g ∈ grids) (f1 : ∀ g, g ∉ grids → w.one g = dflt)
    (f2 : ∀ m n, m ∉ grids ∨ n ∉ grids → w.two m n = dflt) :
    Holds dflt grids' (per1.add A) (per2.add A) w := by
  obtain ⟨⟨o1, rfl, v1, k1, g1⟩, ⟨o2, rfl, v2, k2, g2⟩⟩ := h
  have v1' := Opt.valid_snoc (op := .add A) v1 hA
  have v2' := Opt.valid_snoc (op := .add A) v2 hA
  refine ⟨⟨o1 ++ [.add A], by simp [run1, Opt.step1], v1', fun g => ?_, fun g hgg => ?_⟩,
    ⟨o2 ++ [.add A], by simp [run2, Opt.step2], v2', fun g => ?_, fun m n hm hn => ?_⟩⟩
  · rw [Opt.known_add, k1, hg]
  · refine get1_add v1' ?_ (fun hk => g1 g ((k1 g).1 hk)) fun hk => f1 g fun hg => hk ((k1 g).2 hg)
    rw [k1]; exact (hg g).1 hgg
  · rw [Opt.known_add, k2, hg]
  · refine get2_add v2' ?_ ?_ (fun h1 h2 => g2 m n ((k2 m).1 h1) ((k2 n).1 h2)) fun hk => f2 m n ?_
    · rw [k2]; exact (hg m).1 hm
    · rw [k2]; exact (hg n).1 hn
    · rwa [k2, k2] at hk

/-- Removing grids from the options. -/
theorem holds_remove {grids : List Int} {per1 : Opt Int ν} {per2 : Opt (Elem 2) ν} {w w' : Spec.View ν}
    (h : Holds dflt grids per1 per2 w) (R grids' : List Int) (hR : Sorted intLess R)
    (hg : ∀ g, g ∈ grids' ↔ g ∉ R ∧ g ∈ grids) (f1 : ∀ g, g ∉ R → w'.one g = w.one g)
    (f2 : ∀ m n, m ∉ R → n ∉ R → w'.two m n = w.two m n) :
    Holds dflt grids' (per1.remove1 R) (per2.remove2 R) w' := by
  obtain ⟨⟨o1, rfl, v1, k1, g1⟩, ⟨o2, rfl, v2, k2, g2⟩⟩ := h
  have v1' := Opt.valid_snoc (op := .remove R) v1 (known_lt hR)
  have v2' := Opt.valid_snoc (op := .remove R) v2 (known_lt hR)
  refine ⟨⟨o1 ++ [.remove R], by simp [run1, Opt.step1], v1', fun g => ?_, fun g hgg => ?_⟩,
    ⟨o2 ++ [.remove R], by simp [run2, Opt.step2], v2', fun g => ?_, fun m n hm hn => ?_⟩⟩
  · rw [Opt.known_remove, k1, hg]
  · obtain ⟨h1, h2⟩ := (hg g).1 hgg
    rw [get1_remove v1' ((k1 g).2 h2) h1, g1 g h2, f1 g h1]
  · rw [Opt.known_remove, k2, hg]
  · obtain ⟨h1, h2⟩ := (hg m).1 hm
    obtain ⟨h3, h4⟩ := (hg n).1 hn
    rw [get2_remove v2' ((k2 m).2 h2) ((k2 n).2 h4) h1 h3, g2 m n h2 h4, f2 m n h1 h3]

theorem holds_new (w : Spec.View ν) : Holds dflt [] {} {} w := by
  refine ⟨⟨[], rfl, Opt.valid_nil, fun g => ?_, by simp⟩, ⟨[], rfl, Opt.valid_nil, fun g => ?_, by simp⟩⟩
  · simp [Opt.known_nil]
  · simp [Opt.known_nil]

theorem admits_iff {grids : List Int} {s : State ν} {w : Spec.View ν} (h : Holds dflt grids s.per1 s.per2 w) (g : Int) :
    admits s g = true ↔ g = -1 ∨ g ∈ grids := by
  obtain ⟨-, ⟨o2, e, v2, k2, -⟩⟩ := h
  have hG := Opt.good2 dflt o2 v2
  unfold admits
  rw [Bool.or_eq_true, beq_iff_eq, e, Opt.contains_iff (known_lt hG.sorted), hG.known, k2]
  rfl

theorem ids_erase (ids gs : List Int) (hs : Sorted intLess ids) :
    Sorted intLess (gs.foldl (OSet.erase intLess) ids) ∧
    ∀ g, g ∈ gs.foldl (OSet.erase intLess) ids ↔ g ∉ gs ∧ g ∈ ids := by
  induction gs generalizing ids with
  | nil => exact ⟨hs, by simp⟩
  | cons a gs ih =>
    obtain ⟨h1, h2⟩ := oset_erase_spec intLess_sto hs a
    obtain ⟨h3, h4⟩ := ih _ h1
    refine ⟨h3, fun g => ?_⟩
    rw [List.foldl_cons, h4, h2, List.mem_cons]
    tauto

theorem inv_start : Inv sr dflt ({} : State ν) (Spec.view sr dflt []) :=
  ⟨List.Pairwise.nil, by simp, fun g => by simp [Spec.view], rfl, rfl, fun _ _ => rfl, fun _ _ _ => rfl,
    fun h => (by cases h), fun h => (by cases h), fun _ => ⟨rfl, rfl⟩⟩

theorem inv_create {s s' : State ν} {w : Spec.View ν} (h : Inv sr dflt s w) (ids : List Int)
    (hs : step sr dflt s (.create ids) = some s') : Inv sr dflt s' (Spec.see sr dflt w (.create ids)) := by
  unfold step at hs
  dsimp only at hs
  split at hs
  swap
  · cases hs
  rename_i hc
  obtain ⟨a, b⟩ := Opt.ids_add s.grids ids h.sorted
  have hnn : ∀ g ∈ ids.foldl (OSet.insert intLess) s.grids, 0 ≤ g := by
    intro g hg
    rcases (b g).1 hg with hg | hg
    · exact (hc g hg).1
    · exact h.nonneg g hg
  have hgr : ∀ g, (Spec.see sr dflt w (.create ids)).grid g ↔ g ∈ ids.foldl (OSet.insert intLess) s.grids := by
    intro g
    rw [b, ← h.grids]
    rfl
  have f1 : ∀ g, ¬ (Spec.see sr dflt w (.create ids)).grid g → w.one g = dflt :=
    fun g hg => h.fresh1 g fun hw => hg (.inr hw)
  have f2 : ∀ m n, ¬ (Spec.see sr dflt w (.create ids)).grid m ∨ ¬ (Spec.see sr dflt w (.create ids)).grid n →
      w.two m n = dflt :=
    fun m n hg => h.fresh2 m n (hg.imp (fun hg hw => hg (.inr hw)) fun hg hw => hg (.inr hw))
  cases hb : s.bound
  · rw [events_unbound _ _ _ (by exact hb)] at hs
    cases hs
    exact ⟨a, hnn, hgr, h.add, h.rem, f1, f2, fun h' => (by rw [show s.bound = true from h'] at hb; cases hb),
      fun h' => (by rw [show s.bound = true from h'] at hb; cases hb), h.unbound⟩
  · cases ids with
    | nil =>
      cases hs
      refine ⟨a, hnn, hgr, h.add, h.rem, f1, f2, h.self, fun h' => ?_, h.unbound⟩
      obtain ⟨h1, h2⟩ := h.bound h'
      exact ⟨h1, h2⟩
    | cons g gs =>
      rw [events_cons false g gs _ (by exact hb)] at hs
      cases hs
      have hne : ((g :: gs).foldl (OSet.insert intLess) s.toAdd).isEmpty = false := by
        rw [h.add]; exact insert_nonempty g gs
      unfold update
      simp only [Bool.false_eq_true, if_false, hne, h.rem, List.isEmpty_nil, if_true]
      refine ⟨a, hnn, hgr, rfl, rfl, f1, f2, h.self, fun h' => ?_, fun h' => ?_⟩
      · obtain ⟨c, e⟩ := Opt.ids_add [] (g :: gs) List.Pairwise.nil
        have := h.bound h'
        refine holds_add (w := Spec.see sr dflt w (.create (g :: gs))) ⟨this.one, this.two⟩ _ _ ?_ ?_
          (fun x hx => h.fresh1 x fun hw => hx ((h.grids x).1 hw))
          (fun x y hx => h.fresh2 x y (hx.imp (fun hx hw => hx ((h.grids x).1 hw)) fun hx hw => hx ((h.grids y).1 hw)))
        · intro x hx
          rw [h.add, e] at hx
          exact (hc x (hx.resolve_right (by simp))).1
        · intro x
          rw [b, h.add, e]
          simp
      · dsimp only at h'
        rw [hb] at h'; cases h'

theorem inv_destroy {s s' : State ν} {w : Spec.View ν} (h : Inv sr dflt s w) (ids : List Int)
    (hs : step sr dflt s (.destroy ids) = some s') : Inv sr dflt s' (Spec.see sr dflt w (.destroy ids)) := by
  unfold step at hs
  dsimp only at hs
  split at hs
  swap
  · cases hs
  obtain ⟨a, b⟩ := ids_erase s.grids ids h.sorted
  have hnn : ∀ g ∈ ids.foldl (OSet.erase intLess) s.grids, 0 ≤ g := fun g hg => h.nonneg g ((b g).1 hg).2
  have hgr : ∀ g, (Spec.see sr dflt w (.destroy ids)).grid g ↔ g ∈ ids.foldl (OSet.erase intLess) s.grids := by
    intro g
    rw [b, ← h.grids]
    rfl
  have e1 : ∀ g, (Spec.see sr dflt w (.destroy ids)).one g = if g ∈ ids then dflt else w.one g := by
    intro g; unfold Spec.see; congr
  have e2 : ∀ m n, (Spec.see sr dflt w (.destroy ids)).two m n = if m ∈ ids ∨ n ∈ ids then dflt else w.two m n := by
    intro m n; unfold Spec.see; congr
  have f1 : ∀ g, ¬ (Spec.see sr dflt w (.destroy ids)).grid g → (Spec.see sr dflt w (.destroy ids)).one g = dflt := by
    intro g hg
    rw [e1]
    split
    · rfl
    · rename_i hn; exact h.fresh1 g fun hw => hg ⟨hn, hw⟩
  have f2 : ∀ m n, ¬ (Spec.see sr dflt w (.destroy ids)).grid m ∨ ¬ (Spec.see sr dflt w (.destroy ids)).grid n →
      (Spec.see sr dflt w (.destroy ids)).two m n = dflt := by
    intro m n hg
    rw [e2]
    split
    · rfl
    · rename_i hn
      rw [not_or] at hn
      exact h.fresh2 m n (hg.imp (fun hg hw => hg ⟨hn.1, hw⟩) fun hg hw => hg ⟨hn.2, hw⟩)
  have hself : s.bound = true → s.editing = false → sr = true → ∀ g, (Spec.see sr dflt w (.destroy ids)).two g g = dflt := by
    intro h1 h2 h3 g
    rw [e2, h.self h1 h2 h3 g]
    split <;> rfl
  cases hb : s.bound
  · rw [events_unbound _ _ _ (by exact hb)] at hs
    cases hs
    exact ⟨a, hnn, hgr, h.add, h.rem, f1, f2, fun h' => (by rw [show s.bound = true from h'] at hb; cases hb),
      fun h' => (by rw [show s.bound = true from h'] at hb; cases hb), h.unbound⟩
  · cases ids with
    | nil =>
      cases hs
      refine ⟨a, hnn, hgr, h.add, h.rem, f1, f2, hself, fun h' => ?_, h.unbound⟩
      obtain ⟨⟨o1, r1⟩, ⟨o2, r2⟩⟩ := h.bound h'
      refine ⟨⟨o1, r1.1, r1.2.1, r1.2.2.1, fun g hg => ?_⟩, ⟨o2, r2.1, r2.2.1, r2.2.2.1, fun m n hm hn => ?_⟩⟩
      · rw [e1]; exact r1.2.2.2 g hg
      · rw [e2, if_neg (by simp)]; exact r2.2.2.2 m n hm hn
    | cons g gs =>
      rw [events_cons true g gs _ (by exact hb)] at hs
      cases hs
      have hne : ((g :: gs).foldl (OSet.insert intLess) s.toRemove).isEmpty = false := by
        rw [h.rem]; exact insert_nonempty g gs
      unfold update
      simp only [Bool.false_eq_true, if_false, hne, h.add, List.isEmpty_nil, if_true]
      refine ⟨a, hnn, hgr, rfl, rfl, f1, f2, hself, fun h' => ?_, fun h' => ?_⟩
      · obtain ⟨c, e⟩ := Opt.ids_add [] (g :: gs) List.Pairwise.nil
        have e' : ∀ x, x ∈ (g :: gs).foldl (OSet.insert intLess) s.toRemove ↔ x ∈ g :: gs := by
          intro x; rw [h.rem, e]; simp
        refine holds_remove (h.bound h') _ _ (by rw [h.rem]; exact c) (fun x => ?_) (fun x hx => ?_) fun x y hx hy => ?_
        · rw [b, e']
        · rw [e'] at hx; rw [e1, if_neg hx]
        · rw [e'] at hx hy; rw [e2, if_neg (by rw [not_or]; exact ⟨hx, hy⟩)]
      · dsimp only at h'
        rw [hb] at h'; cases h'

theorem inv_bind {s s' : State ν} {w : Spec.View ν} (h : Inv sr dflt s w)
    (hs : step sr dflt s .bind = some s') : Inv sr dflt s' (Spec.see sr dflt w .bind) := by
  unfold step at hs
  dsimp only at hs
  split at hs
  · cases hs
  rename_i hb
  have hb : s.bound = false := by simpa using hb
  cases hs
  obtain ⟨c, e⟩ := Opt.ids_add [] s.grids List.Pairwise.nil
  have e' : ∀ x, x ∈ s.grids.foldl (OSet.insert intLess) s.toAdd ↔ x ∈ s.grids := by
    intro x; rw [h.add, e]; simp
  obtain ⟨u1, u2⟩ := h.unbound hb
  have key : Holds dflt s.grids (Opt.add ({} : Opt Int ν) (s.grids.foldl (OSet.insert intLess) s.toAdd))
      (Opt.add ({} : Opt (Elem 2) ν) (s.grids.foldl (OSet.insert intLess) s.toAdd)) (Spec.see sr dflt w .bind) := by
    refine holds_add (holds_new _) _ _ (fun g hg => h.nonneg g ((e' g).1 hg)) (fun g => ?_) (fun _ _ => rfl)
      fun _ _ _ => rfl
    rw [e']; simp
  unfold update
  simp only [h.rem]
  split
  · rename_i hem
    refine ⟨h.sorted, h.nonneg, h.grids, rfl, rfl, fun _ _ => rfl, fun _ _ _ => rfl, fun _ _ _ _ => rfl, fun _ => ?_,
      fun h' => by cases h'⟩
    rw [List.isEmpty_iff] at hem
    rw [hem] at key
    show Holds dflt s.grids s.per1 s.per2 _
    rw [u1, u2]
    exact key
  · refine ⟨h.sorted, h.nonneg, h.grids, rfl, rfl, fun _ _ => rfl, fun _ _ _ => rfl, fun _ _ _ _ => rfl, fun _ => ?_,
      fun h' => by cases h'⟩
    show Holds dflt s.grids (s.per1.add _) (s.per2.add _) _
    rw [u1, u2]
    exact key

theorem inv_unbind {s s' : State ν} {w : Spec.View ν} (h : Inv sr dflt s w)
    (hs : step sr dflt s .unbind = some s') : Inv sr dflt s' (Spec.see sr dflt w .unbind) := by
  unfold step at hs
  dsimp only at hs
  split at hs
  · cases hs
    exact ⟨h.sorted, h.nonneg, h.grids, h.add, h.rem, fun _ _ => rfl, fun _ _ _ => rfl, fun h' => (by cases h'),
      fun h' => (by cases h'), fun _ => ⟨rfl, rfl⟩⟩
  · cases hs

theorem inv_startEdit {s s' : State ν} {w : Spec.View ν} (h : Inv sr dflt s w)
    (hs : step sr dflt s .startEdit = some s') : Inv sr dflt s' (Spec.see sr dflt w .startEdit) := by
  unfold step at hs
  dsimp only at hs
  split at hs
  · cases hs
    exact ⟨h.sorted, h.nonneg, h.grids, h.add, h.rem, h.fresh1, h.fresh2, fun _ h' => (by cases h'),
      fun h' => ⟨(h.bound h').one, (h.bound h').two⟩, h.unbound⟩
  · cases hs

theorem inv_set1 {s s' : State ν} {w : Spec.View ν} (h : Inv sr dflt s w) (p : Int) (v : ν)
    (hs : step sr dflt s (.set1 p v) = some s') : Inv sr dflt s' (Spec.see sr dflt w (.set1 p v)) := by
  classical
  unfold step at hs
  dsimp only at hs
  split at hs
  swap
  · cases hs
  rename_i hc
  rw [Bool.and_eq_true] at hc
  cases hs
  have e1 : ∀ g, (Spec.see sr dflt w (.set1 p v)).one g = if w.grid g ∧ Spec.Hits p g then v else w.one g := by
    intro g; unfold Spec.see; congr
  refine ⟨h.sorted, h.nonneg, h.grids, h.add, h.rem, fun g hg => ?_, h.fresh2, h.self, fun hb => ?_, fun hb => ?_⟩
  · rw [e1, if_neg (fun hh => hg hh.1)]; exact h.fresh1 g hg
  · have hh := h.bound hb
    have ha := (admits_iff hh p).1 hc.2
    obtain ⟨⟨o1, r1, v1, k1, g1⟩, h2⟩ := hh
    have v1' := Opt.valid_snoc (op := .set p v) v1 (fun g hg => by
      rw [List.mem_singleton.1 hg, k1]; exact ha)
    refine ⟨⟨o1 ++ [.set p v], by simp [run1, Opt.step1, r1], v1', fun g => ?_, fun g hg => ?_⟩, h2⟩
    · rw [Opt.known_set]; exact k1 g
    · rw [get1_set v1' ((k1 g).2 hg), e1, g1 g hg]
      by_cases hp : p = g ∨ p = -1
      · rw [if_pos hp, if_pos ⟨(h.grids g).2 hg, hp⟩]
      · rw [if_neg hp, if_neg (fun hh => hp hh.2)]
  · obtain ⟨u1, u2⟩ := h.unbound hb
    refine ⟨?_, u2⟩
    have ha : p = Opt.allGrids := by
      have := hc.2
      unfold admits at this
      rw [u2] at this
      simpa [OSet.contains] using this
    rw [u1, ha]
    unfold Opt.set1
    split <;> rfl

theorem inv_set2 {s s' : State ν} {w : Spec.View ν} (h : Inv sr dflt s w) (p q : Int) (v : ν)
    (hs : step sr dflt s (.set2 p q v) = some s') : Inv sr dflt s' (Spec.see sr dflt w (.set2 p q v)) := by
  classical
  unfold step at hs
  dsimp only at hs
  split at hs
  swap
  · cases hs
  rename_i hc
  rw [Bool.and_eq_true, Bool.and_eq_true] at hc
  cases hs
  have e2 : ∀ m n, (Spec.see sr dflt w (.set2 p q v)).two m n =
      if (w.grid m ∧ Spec.Hits p m) ∧ w.grid n ∧ Spec.Hits q n then v else w.two m n := by
    intro m n; unfold Spec.see; congr
  refine ⟨h.sorted, h.nonneg, h.grids, h.add, h.rem, h.fresh1, fun m n hg => ?_, fun _ he => ?_, fun hb => ?_,
    fun hb => ?_⟩
  · rw [e2, if_neg (fun hh => hg.elim (fun hg => hg hh.1.1) fun hg => hg hh.2.1)]; exact h.fresh2 m n hg
  · rw [show s.editing = false from he] at hc
    cases hc.1.1
  · have hh := h.bound hb
    have ha := (admits_iff hh p).1 hc.1.2
    have ha' := (admits_iff hh q).1 hc.2
    obtain ⟨h1, ⟨o2, r2, v2, k2, g2⟩⟩ := hh
    have v2' := Opt.valid_snoc (op := .set (p, q) v) v2 (fun g hg => by
      rw [k2]
      simp at hg
      rcases hg with rfl | rfl <;> assumption)
    refine ⟨h1, ⟨o2 ++ [.set (p, q) v], by simp [run2, Opt.step2, r2], v2', fun g => ?_, fun m n hm hn => ?_⟩⟩
    · rw [Opt.known_set]; exact k2 g
    · rw [Opt.C47_read_back dflt o2 (p, q) v v2' m n ((k2 m).2 hm) ((k2 n).2 hn), e2, g2 m n hm hn]
      by_cases hp : (p = m ∨ p = -1) ∧ (q = n ∨ q = -1)
      · rw [if_pos hp, if_pos ⟨⟨(h.grids m).2 hm, hp.1⟩, (h.grids n).2 hn, hp.2⟩]
      · rw [if_neg hp, if_neg (fun hh => hp ⟨hh.1.2, hh.2.2⟩)]
  · obtain ⟨u1, u2⟩ := h.unbound hb
    refine ⟨u1, ?_⟩
    have ha : ∀ g, admits s g = true → g = Opt.allGrids := by
      intro g this
      unfold admits at this
      rw [u2] at this
      simpa [OSet.contains] using this
    rw [u2, ha p hc.1.2, ha q hc.2]
    unfold Opt.set2
    simp

theorem inv_endEdit {s s' : State ν} {w : Spec.View ν} (h : Inv sr dflt s w)
    (hs : step sr dflt s .endEdit = some s') : Inv sr dflt s' (Spec.see sr dflt w .endEdit) := by
  classical
  unfold step at hs
  dsimp only at hs
  split at hs
  swap
  · cases hs
  rename_i hc
  rw [Bool.and_eq_true] at hc
  cases hs
  have e2 : ∀ m n, (Spec.see sr dflt w .endEdit).two m n = if sr = true ∧ m = n then dflt else w.two m n := by
    intro m n; unfold Spec.see; congr
  have f2 : ∀ m n, ¬ w.grid m ∨ ¬ w.grid n → (Spec.see sr dflt w .endEdit).two m n = dflt := by
    intro m n hg
    rw [e2]
    split
    · rfl
    · exact h.fresh2 m n hg
  unfold resetSelf
  cases hsr : sr
  · simp only [Bool.false_eq_true, if_false]
    subst hsr
    refine ⟨h.sorted, h.nonneg, h.grids, h.add, h.rem, h.fresh1, f2, fun _ _ h' => (by cases h'), fun hb => ?_, h.unbound⟩
    obtain ⟨h1, ⟨o2, r2, v2, k2, g2⟩⟩ := h.bound hb
    refine ⟨h1, o2, r2, v2, k2, fun m n hm hn => ?_⟩
    rw [e2, if_neg (fun hh => (by cases hh.1))]
    exact g2 m n hm hn
  · simp only [if_true]
    subst hsr
    refine ⟨h.sorted, h.nonneg, h.grids, h.add, h.rem, h.fresh1, f2, fun _ _ _ g => ?_, fun hb => ?_, fun hb => ?_⟩
    · rw [e2, if_pos ⟨rfl, rfl⟩]
    · obtain ⟨h1, ⟨o2, r2, v2, k2, g2⟩⟩ := h.bound hb
      have key : ∀ l : List Int, (∀ g ∈ l, g ∈ s.grids) → ∃ o, Opt.endEdit dflt l s.per2 = run2 dflt o ∧
          Opt.Spec.Valid (fun p => [p.1, p.2]) o ∧ ∀ g, Opt.Spec.Known o g ↔ g ∈ s.grids := by
        intro l
        induction l using List.reverseRecOn with
        | nil => intro _; exact ⟨o2, r2, v2, k2⟩
        | append_singleton l i ih =>
          intro hl
          obtain ⟨o, e, hv, hk⟩ := ih fun g hg => hl g (by simp [hg])
          refine ⟨o ++ [.set (i, i) dflt], ?_, Opt.valid_snoc hv ?_, fun g => (Opt.known_set _ _ _ _).trans (hk g)⟩
          · unfold Opt.endEdit at e ⊢
            rw [List.foldl_append, e]
            simp [run2, Opt.step2]
          · intro g hg
            simp at hg
            rw [hk, hg]; exact .inr (hl i (by simp))
      obtain ⟨o, e, hv, hk⟩ := key s.grids fun _ h => h
      refine ⟨h1, o, e, hv, hk, fun m n hm hn => ?_⟩
      rw [← e]
      show (Opt.endEdit dflt s.grids s.per2).get elemLess dflt (pair m n) = _
      rw [r2, Opt.C47_end_edit dflt o2 v2 s.grids (fun g => (k2 g).symm) m n ((k2 m).2 hm) ((k2 n).2 hn), e2,
        g2 m n hm hn]
      by_cases hmn : m = n
      · rw [if_pos hmn, if_pos ⟨rfl, hmn⟩]
      · rw [if_neg hmn, if_neg (fun hh => hmn hh.2)]
    · dsimp only at hb
      rw [hc.2] at hb; cases hb

theorem inv_run (ops : List (Op ν)) {s : State ν} (h : run sr dflt ops = some s) :
    Inv sr dflt s (Spec.view sr dflt ops) := by
  induction ops using List.reverseRecOn generalizing s with
  | nil => cases h; exact inv_start
  | append_singleton ops op ih =>
    unfold run at h
    rw [List.foldlM_append] at h
    simp only [Option.bind_eq_bind, Option.bind_eq_some_iff, List.foldlM_cons, List.foldlM_nil] at h
    obtain ⟨t, ht, s', hs, h⟩ := h
    cases h
    have hi := ih ht
    have hv : Spec.view sr dflt (ops ++ [op]) = Spec.see sr dflt (Spec.view sr dflt ops) op := by
      unfold Spec.view
      rw [List.foldl_append]
      rfl
    rw [hv]
    cases op with
    | create ids => exact inv_create hi ids hs
    | destroy ids => exact inv_destroy hi ids hs
    | bind => exact inv_bind hi hs
    | unbind => exact inv_unbind hi hs
    | startEdit => exact inv_startEdit hi hs
    | set1 p v => exact inv_set1 hi p v hs
    | set2 p q v => exact inv_set2 hi p q v hs
    | endEdit => exact inv_endEdit hi hs

/-! ## Sessions and bindings -/

omit [DecidableEq ν] in
theorem events_flags (destroy : Bool) (gs : List Int) (s : State ν) :
    (events destroy gs s).editing = s.editing ∧ (events destroy gs s).bound = s.bound := by
  induction gs generalizing s with
  | nil => exact ⟨rfl, rfl⟩
  | cons g gs ih =>
    unfold events
    obtain ⟨h1, h2⟩ := ih (if s.bound then onGridEvent destroy g gs.isEmpty s else s)
    rw [h1, h2]
    unfold onGridEvent update
    constructor <;> (repeat' split) <;> first | rfl | (dsimp only; (repeat' split) <;> rfl)

theorem flags_step {s s' : State ν} {op : Op ν} (h : step sr dflt s op = some s') :
    s'.editing = Spec.editing [op] s.editing ∧ s'.bound = Spec.bound [op] s.bound := by
  cases op <;> simp only [step] at h <;> split at h <;> cases h
  case create.isTrue.refl ids hc => exact events_flags _ _ _
  case destroy.isTrue.refl ids hc => exact events_flags _ _ _
  case bind.isFalse.refl hc => unfold update; constructor <;> dsimp only <;> (repeat' split) <;> rfl
  case unbind.isTrue.refl hc => exact ⟨rfl, rfl⟩
  case startEdit.isTrue.refl hc => exact ⟨rfl, rfl⟩
  case set1.isTrue.refl hc => exact ⟨rfl, rfl⟩
  case set2.isTrue.refl hc => exact ⟨rfl, rfl⟩
  case endEdit.isTrue.refl hc => unfold resetSelf; constructor <;> split <;> rfl

omit [DecidableEq ν] in
theorem editing_snoc (ops : List (Op ν)) (op : Op ν) (b : Bool) :
    Spec.editing (ops ++ [op]) b = Spec.editing [op] (Spec.editing ops b) := by
  induction ops generalizing b with
  | nil => rfl
  | cons o ops ih => cases o <;> exact ih _

omit [DecidableEq ν] in
theorem bound_snoc (ops : List (Op ν)) (op : Op ν) (b : Bool) :
    Spec.bound (ops ++ [op]) b = Spec.bound [op] (Spec.bound ops b) := by
  induction ops generalizing b with
  | nil => rfl
  | cons o ops ih => cases o <;> exact ih _

theorem run_snoc (ops : List (Op ν)) (op : Op ν) :
    run sr dflt (ops ++ [op]) = (run sr dflt ops).bind fun s => step sr dflt s op := by
  unfold run
  rw [List.foldlM_append]
  simp only [Option.bind_eq_bind, List.foldlM_cons, List.foldlM_nil]
  congr 1
  funext s
  cases step sr dflt s op <;> rfl

theorem flags_run (ops : List (Op ν)) {s : State ν} (h : run sr dflt ops = some s) :
    s.editing = Spec.editing ops false ∧ s.bound = Spec.bound ops false := by
  induction ops using List.reverseRecOn generalizing s with
  | nil => cases h; exact ⟨rfl, rfl⟩
  | append_singleton ops op ih =>
    rw [run_snoc, Option.bind_eq_some_iff] at h
    obtain ⟨t, ht, hs⟩ := h
    obtain ⟨h1, h2⟩ := ih ht
    obtain ⟨h3, h4⟩ := flags_step hs
    rw [editing_snoc, bound_snoc, ← h1, ← h2]
    exact ⟨h3, h4⟩

/-! ## The property -/

/-- While an assembler is bound, its options are those of the grids of the domain, and have the values the calls
gave them. -/
theorem C103_values (ops : List (Op ν)) {s : State ν} (h : run sr dflt ops = some s)
    (hb : Spec.bound ops false = true) :
    (∀ g, g ∈ s.per1.ids ↔ (Spec.view sr dflt ops).grid g) ∧ (∀ g, g ∈ s.per2.ids ↔ (Spec.view sr dflt ops).grid g) ∧
    (∀ g, (Spec.view sr dflt ops).grid g → s.per1.get intLess dflt g = (Spec.view sr dflt ops).one g) ∧
    ∀ m n, (Spec.view sr dflt ops).grid m → (Spec.view sr dflt ops).grid n →
      s.per2.get elemLess dflt (pair m n) = (Spec.view sr dflt ops).two m n := by
  have hi := inv_run ops h
  have hb' := (flags_run ops h).2.trans hb
  obtain ⟨⟨o1, r1, v1, k1, g1⟩, ⟨o2, r2, v2, k2, g2⟩⟩ := hi.bound hb'
  refine ⟨fun g => ?_, fun g => ?_, fun g hg => ?_, fun m n hm hn => ?_⟩
  · rw [r1, (Opt.good1 dflt o1 v1).known, k1, hi.grids]
  · rw [r2, (Opt.good2 dflt o2 v2).known, k2, hi.grids]
  · rw [r1]; exact g1 g ((hi.grids g).1 hg)
  · rw [r2]; exact g2 m n ((hi.grids m).1 hm) ((hi.grids n).1 hn)

/-- While options are not being edited, no grid has settings with itself. -/
theorem C103_self (ops : List (Op ν)) {s : State ν} (h : run true dflt ops = some s)
    (hb : Spec.bound ops false = true) (he : Spec.editing ops false = false) (g : Int)
    (hg : (Spec.view true dflt ops).grid g) : s.per2.get elemLess dflt (pair g g) = dflt := by
  rw [(C103_values ops h hb).2.2.2 g g hg hg]
  exact (inv_run ops h).self ((flags_run ops h).2.trans hb) ((flags_run ops h).1.trans he) rfl g

/-- An assembler that is not bound has no options, and the domain never leaves changes of grids unprocessed. -/
theorem C103_unbound (ops : List (Op ν)) {s : State ν} (h : run sr dflt ops = some s) :
    s.toAdd = [] ∧ s.toRemove = [] ∧ (Spec.bound ops false = false →
      s.per1.ids = [] ∧ s.per1.map = ⟨[], []⟩ ∧ s.per2.ids = [] ∧ s.per2.map = ⟨[], []⟩) := by
  have hi := inv_run ops h
  refine ⟨hi.add, hi.rem, fun hb => ?_⟩
  obtain ⟨h1, h2⟩ := hi.unbound ((flags_run ops h).2.trans hb)
  rw [h1, h2]
  exact ⟨rfl, rfl, rfl, rfl⟩

/-- Which calls are defined. -/
theorem C103_defined (ops : List (Op ν)) {s : State ν} (h : run sr dflt ops = some s) (op : Op ν) :
    (run sr dflt (ops ++ [op])).isSome ↔ Spec.Allowed sr dflt ops op := by
  have hi := inv_run ops h
  obtain ⟨h1, h2⟩ := flags_run ops h
  have ha : ∀ g, admits s g = true ↔ g = -1 ∨ Spec.bound ops false = true ∧ (Spec.view sr dflt ops).grid g := by
    intro g
    cases hb : s.bound with
    | true =>
      rw [admits_iff (hi.bound hb), hi.grids, ← h2, hb]
      simp
    | false =>
      unfold admits
      rw [(hi.unbound hb).2, ← h2, hb]
      simp [OSet.contains, Opt.allGrids]
  rw [run_snoc, h, Option.bind_some]
  cases op with
  | create ids => simp only [step, Spec.Allowed, hi.grids]; split <;> simp_all
  | destroy ids => simp only [step, Spec.Allowed, hi.grids]; split <;> simp_all
  | bind => simp only [step, Spec.Allowed, ← h2]; split <;> simp_all
  | unbind => simp only [step, Spec.Allowed, ← h2]; split <;> simp_all
  | startEdit => simp only [step, Spec.Allowed, ← h2]; split <;> simp_all
  | set1 p v =>
    simp only [step, Spec.Allowed]
    rw [← ha, ← h1, ← Bool.and_eq_true]
    split <;> simp_all
  | set2 p q v =>
    simp only [step, Spec.Allowed]
    rw [← ha, ← ha, ← h1, ← Bool.and_eq_true, ← Bool.and_eq_true, ← Bool.and_assoc]
    split
    · rename_i hc; simp [hc]
    · rename_i hc; simp only [hc]; simp
  | endEdit =>
    simp only [step, Spec.Allowed]
    rw [← h1, ← h2, ← Bool.and_eq_true]
    split <;> simp_all

/-- Leaving the domain while options are being edited makes the end of the session undefined, unless the assembler is
bound again before. -/
theorem C103_unbind (ops : List (Op ν)) (hb : Spec.bound ops false = false) :
    run sr dflt (ops ++ [.endEdit]) = none := by
  cases h : run sr dflt ops with
  | none => rw [run_snoc, h]; rfl
  | some s =>
    have := C103_defined (sr := sr) (dflt := dflt) ops h .endEdit
    cases h' : run sr dflt (ops ++ [.endEdit]) with
    | none => rfl
    | some t =>
      rw [h'] at this
      rw [(this.1 rfl).2] at hb
      cases hb

/-! ## Examples -/

/-- Two grids, a binding, a session that sets both options for all grids, a new grid, and the end of the session. -/
def exOps : List (Op Nat) :=
  [.create [3, 5], .bind, .startEdit, .set1 (-1) 7, .set2 (-1) (-1) 8, .create [4], .endEdit]

/-- What `exOps` and two more calls give for grids `m` and `n`. -/
def exGet (sr : Bool) (ops : List (Op Nat)) (m n : Int) : Option (List Int × Nat × Nat) :=
  (run sr 0 ops).map fun s => (s.per2.ids, s.per1.get intLess 0 m, s.per2.get elemLess 0 (pair m n))

example : exGet true exOps 3 5 = some ([3, 4, 5], 7, 8) := by decide +kernel
example : exGet true exOps 3 3 = some ([3, 4, 5], 7, 0) := by decide +kernel
example : exGet true exOps 4 5 = some ([3, 4, 5], 0, 0) := by decide +kernel
example : exGet true (exOps ++ [.destroy [5], .create [5]]) 3 5 = some ([3, 4, 5], 7, 0) := by decide +kernel
example : exGet true (exOps ++ [.destroy [5], .create [5]]) 5 3 = some ([3, 4, 5], 0, 0) := by decide +kernel
example : Spec.bound exOps false = true ∧ Spec.editing exOps false = false := by decide
example : (Spec.view true 0 exOps).grid 3 ∧ (Spec.view true 0 exOps).grid 4 := by
  simp [Spec.view, exOps, Spec.see]
/-- The specification gives 8 for two grids that were there when the option was set, and the default for a grid created
later. -/
example : (Spec.view true 0 exOps).two 3 5 = 8 ∧ (Spec.view true 0 exOps).two 3 3 = 0 ∧
    (Spec.view true 0 exOps).two 4 5 = 0 := by
  simp [Spec.view, exOps, Spec.see, Spec.Hits]
/-- For an option that is not reset, the setting of a grid with itself stays. -/
example : exGet false exOps 3 3 = some ([3, 4, 5], 7, 8) := by decide +kernel
/-- During the session settings of a grid with itself are visible. -/
example : exGet true (exOps.take 6) 3 3 = some ([3, 4, 5], 7, 8) := by decide +kernel
/-- The session of `exOps` is not ended, but the assembler leaves the domain: the end of the session is undefined. -/
example : (run true 0 (exOps.take 6 ++ [.unbind])).isSome = true ∧
    (run true 0 (exOps.take 6 ++ [.unbind] ++ [.endEdit])).isSome = false := by decide +kernel
example : Spec.bound (exOps.take 6 ++ [.unbind]) false = false := by decide

end Ovk.OLife
