/-
Property C127: calls of a geometry or state component match on all processes.
-/
import Verif.Model.GeometryCalls
import Verif.Props.ComponentCalls
import Verif.Props.GridData

namespace Ovk.GeoC
open VColl
open CompC (Comm member All)
variable {n : Nat}

namespace Spec
/-- What exists: grids with the communicators they are on; geometries with their current values; the values they were
created with; geometries with changes that listeners have not been told of; handles that are held for geometries and for
the component. -/
structure World where
  grids : Int → Option Nat
  geos : Int → Option Data
  infos : Int → Data
  pend : Int → Prop
  handles : Int → Nat
  comp : Nat

def empty : World := ⟨fun _ => none, fun _ => none, fun _ => ⟨0, []⟩, fun _ => False, fun _ => 0, 0⟩

/-- The value for `g` in a list. -/
def value {α : Type} (es : List (Int × α)) (g : Int) : Option α := (es.find? fun e => e.1 = g).map Prod.snd

/-- The effect of a call. -/
def apply (S : World) : Act → World
  | .createGrids es => { S with
      grids := fun g => (value es g).or (S.grids g)
      pend := fun g => es = [] ∧ S.pend g }
  | .destroyGrids ids => { S with
      grids := fun g => if g ∈ ids then none else S.grids g
      geos := fun g => if g ∈ ids then none else S.geos g
      pend := fun g => ids = [] ∧ S.pend g }
  | .create es => { S with
      geos := fun g => (value es g).or (S.geos g)
      infos := fun g => (value es g).getD (S.infos g)
      pend := fun _ => False }
  | .destroy ids => { S with geos := fun g => if g ∈ ids then none else S.geos g, pend := fun _ => False }
  | .clear => { S with geos := fun _ => none, pend := fun _ => False }
  | .edit g => { S with handles := fun h => if h = g then S.handles g + 1 else S.handles h }
  | .restore g => { S with handles := fun h => if h = g then S.handles g - 1 else S.handles h }
  | .change g => { S with pend := fun h => S.pend h ∨ h = g }
  | .setLength g l => { S with
      geos := fun h => if h = g then (S.geos g).map fun d => ⟨d.type, l⟩ else S.geos h
      pend := fun h => S.pend h ∨ h = g }
  | .editComponent => { S with comp := S.comp + 1 }
  | .restoreComponent => { S with comp := S.comp - 1, pend := fun g => S.comp ≠ 1 ∧ S.pend g }

/-- Grids and geometries are created if they do not exist and destroyed if they do; grids are destroyed only if they have
geometries (see C95); no geometry is destroyed while it is edited, and it is changed only while it is edited; handles are
restored at most once; only geometries have a periodic length. -/
def Legal (mem : Nat → Fin n → Bool) (geo : Bool) (S : World) : Act → Prop
  | .createGrids es => (es.map Prod.fst).Nodup ∧ ∀ e ∈ es, 0 ≤ e.1 ∧ S.grids e.1 = none ∧ ∃ p, mem e.2 p = true
  | .destroyGrids ids => ∀ g ∈ ids, S.grids g ≠ none ∧ S.geos g ≠ none ∧ S.handles g = 0
  | .create es => (es.map Prod.fst).Nodup ∧ ∀ e ∈ es, S.grids e.1 ≠ none ∧ S.geos e.1 = none
  | .destroy ids => ∀ g ∈ ids, S.geos g ≠ none ∧ S.handles g = 0
  | .clear => ∀ g, S.geos g ≠ none → S.handles g = 0
  | .edit g => S.geos g ≠ none
  | .restore g => S.geos g ≠ none ∧ S.handles g ≠ 0
  | .change g => S.geos g ≠ none ∧ S.handles g ≠ 0
  | .setLength g _ => geo = true ∧ S.geos g ≠ none ∧ S.handles g ≠ 0
  | .editComponent => True
  | .restoreComponent => S.comp ≠ 0

def LegalAll (mem : Nat → Fin n → Bool) (geo : Bool) : World → List Act → Prop
  | _, [] => True
  | S, a :: as => Legal mem geo S a ∧ LegalAll mem geo (apply S a) as

def after (S : World) (as : List Act) : World := as.foldl apply S

/-- Listeners are called with each ID in turn, and the last call is marked. -/
def marks (flag : Nat) (ids : List Int) : List GData.Call :=
  ids.mapIdx fun i g => (g, flag, decide (i + 1 = ids.length))

/-- Listeners are told of an edit (4) once for each of the geometries, in the order of the IDs. -/
def Announces (pend : Int → Prop) (l : List GData.Call) : Prop :=
  ∃ ds : List Int, l = marks 4 ds ∧ ds.Pairwise (· < ·) ∧ ∀ g, g ∈ ds ↔ pend g

/-- What listeners are told in a call: first the changes they have not been told of, then of what is created (1) or
destroyed (2). -/
def Heard (S : World) : Act → List GData.Call → Prop
  | .createGrids es, l => (es = [] ∧ l = []) ∨ (es ≠ [] ∧ Announces S.pend l)
  | .destroyGrids ids, l => (ids = [] ∧ l = []) ∨ (ids ≠ [] ∧ ∃ l' ds, l = l' ++ marks 2 ds ∧
      Announces S.pend l' ∧ ds.Pairwise (· < ·) ∧ ∀ g, g ∈ ds ↔ g ∈ ids)
  | .create es, l => ∃ l', l = l' ++ marks 1 (es.map Prod.fst) ∧ Announces S.pend l'
  | .destroy ids, l => ∃ l', l = l' ++ marks 2 ids ∧ Announces S.pend l'
  | .clear, l => ∃ l' ds, l = l' ++ marks 2 ds ∧ Announces S.pend l' ∧ ds.Pairwise (· < ·) ∧
      ∀ g, g ∈ ds ↔ S.geos g ≠ none
  | .restoreComponent, l => (S.comp ≠ 1 ∧ l = []) ∨ (S.comp = 1 ∧ Announces S.pend l)
  | _, l => l = []

/-- What listeners are told in a history. -/
def Hears : World → List Act → List GData.Call → Prop
  | _, [], l => l = []
  | S, a :: as, l => ∃ l1 l2, l = l1 ++ l2 ∧ Heard S a l1 ∧ Hears (apply S a) as l2

/-- What process `p` stores is right: it knows the grids and the geometries, has the geometries on the grids it is a
member of with their values, and descriptions of all of them with the values they were created with. -/
def Right (mem : Nat → Fin n → Bool) (geo : Bool) (S : World) (p : Fin n) (s : State) : Prop :=
  (∀ g, g ∈ s.base.grids ↔ S.grids g ≠ none) ∧
  (∀ g, g ∈ s.base.localGrids ↔ ∃ k, S.grids g = some k ∧ mem k p = true) ∧
  (∀ g, g ∈ s.base.records ↔ S.geos g ≠ none) ∧
  (∀ g, (∃ f, (g, f) ∈ s.base.locals.entries) ↔ S.geos g ≠ none ∧ ∃ k, S.grids g = some k ∧ mem k p = true) ∧
  (∀ g d k, S.geos g = some d → S.grids g = some k → mem k p = true → s.data g = d) ∧
  (geo = true → ∀ g, S.geos g ≠ none → s.info g = S.infos g)

/-- One process of each communicator has rank 0. -/
def Roots (mem root : Nat → Fin n → Bool) : Prop :=
  ∀ k, (∃ p, mem k p = true) → ∃ r, mem k r = true ∧ ∀ p, mem k p = true → (root k p = true ↔ p = r)

/-- All executions of `x` end, process `p` with `a p`. -/
def Ends (mem : Nat → Fin n → Bool) {α : Type} (x : Fin n → Pr α) (a : Fin n → α) : Prop :=
  ∃ N, ∀ cs y, run (member mem) comb x cs = some y → cs.length ≤ N ∧
    ((∀ c, step (member mem) comb y c = none) → ∀ p, y p = .ret (a p))
end Spec

variable {mem root : Nat → Fin n → Bool}

/-! ### Operations -/

theorem barriers_runs {S : Fin n → Bool} {c : Comm} (hS : ∀ p, member mem c p = S p) :
    ∀ i, Runs (member mem) comb S (fun _ => barriers c i) fun _ => () := by
  intro i
  induction i with
  | zero => exact .ret _
  | succ i ih => exact .coll hS (r := []) (fun _ => rfl) ih

theorem world_runs (i : Nat) : Runs (member mem) comb All (fun _ => barriers .world i) fun _ => () :=
  barriers_runs (c := .world) (fun _ => rfl) i

theorem grid_runs (k i : Nat) : Runs (member mem) comb (mem k) (fun _ => barriers (.grid k) i) fun _ => () :=
  barriers_runs (c := .grid k) (fun _ => rfl) i

theorem filter_only {r : Fin n} {b : Fin n → Bool} (hb : ∀ p, b p = true ↔ p = r) :
    ∀ l : List (Fin n), l.Nodup → r ∈ l → l.filter b = [r] := by
  intro l
  induction l with
  | nil => intro _ h; cases h
  | cons q l ih =>
    intro hn hr
    rw [List.nodup_cons] at hn
    by_cases e : q = r
    · subst e
      rw [List.filter_cons_of_pos ((hb q).2 rfl), List.filter_eq_nil_iff.2 fun p hp h => hn.1 ((hb p).1 h ▸ hp)]
    · rw [List.filter_cons_of_neg fun h => e ((hb q).1 h)]
      exact ih hn.2 ((List.mem_cons.1 hr).resolve_left fun h => e h.symm)

theorem gathered_all {f : Fin n → List Nat} :
    gathered (member mem) .world f = (List.finRange n).map fun p => (p, f p) := by
  unfold gathered members
  rw [show (List.finRange n).filter (member mem .world) = List.finRange n from List.filter_eq_self.2 fun p _ => rfl]

theorem any_comb {r : Fin n} {f : Fin n → List Nat} (hf : ∀ p, (f p).headD 0 = 1 ↔ p = r) :
    comb .any (gathered (member mem) .world f) = some (f r).tail := by
  simp only [comb]
  rw [gathered_all, List.filter_map]
  have : (List.finRange n).filter ((fun x : Fin n × List Nat => x.2.headD 0 == 1) ∘ fun p => (p, f p)) = [r] :=
    filter_only (fun p => by simp only [Function.comp, beq_iff_eq]; exact hf p) _ (List.nodup_finRange n) (List.mem_finRange r)
  rw [this]
  rfl

theorem bcast_comb (r : Fin n) (f : Fin n → List Nat) :
    comb (.bcast r.val) (gathered (member mem) .world f) = some (f r) := by
  simp only [comb]
  rw [gathered_all]
  have : ∀ l : List (Fin n), r ∈ l →
      ((l.map fun p => (p, f p)).find? fun x => x.1.val == r.val) = some (r, f r) := by
    intro l
    induction l with
    | nil => intro h; cases h
    | cons q l ih =>
      intro hr
      rw [List.map_cons, List.find?_cons]
      by_cases e : q = r
      · subst e
        simp
      · have : (q.val == r.val) = false := by
          rw [beq_eq_false_iff_ne]
          exact fun h => e (Fin.ext h)
        simp only [this]
        exact ih ((List.mem_cons.1 hr).resolve_left fun h => e h.symm)
  rw [this _ (List.mem_finRange r)]
  rfl

theorem sync_runs {s : Fin n → State} (h : GData.Inv fun p => (s p).base) :
    ∃ l, GData.Announces (fun p => (s p).base) l ∧
      GData.sync (fun p => (s p).base) = some (GData.synced (fun p => (s p).base) l) ∧
      Runs (member mem) comb All (fun p => sync (s p)) fun p =>
        some { s p with base := GData.synced (fun p => (s p).base) l p } := by
  obtain ⟨l, h1, h2⟩ := GData.sync_spec h
  refine ⟨l, h2, h1, ?_⟩
  by_cases hn : ∃ p : Fin n, All p = true
  swap
  · intro β k x _
    have : (fun p => if All p then k p (some { s p with base := GData.synced (fun p => (s p).base) l p }) else x p) = x :=
      funext fun p => absurd ⟨p, rfl⟩ hn
    rw [this]
    exact .refl x
  obtain ⟨r, hr, hr0⟩ := CompC.max_comb (mem := mem) (fun p => GData.hasEdits (s p).base) hn
  unfold sync
  refine .coll (fun _ => rfl) (fun _ => hr) ?_
  unfold GData.sync at h1
  by_cases hE : ∀ p, GData.hasEdits (s p).base = false
  · rw [if_pos hE] at h1
    rw [hr0.2 hE]
    refine (Runs.ret _).congr (fun p _ => rfl) fun p _ => ?_
    show some (s p) = _
    have := congrFun (Option.some.inj h1) p
    rw [← this]
  · rw [if_neg hE] at h1
    obtain ⟨a, ha, h1⟩ := Option.bind_eq_some_iff.1 h1
    split_ifs at h1 with hlen
    obtain ⟨calls, hc, h1⟩ := Option.bind_eq_some_iff.1 h1
    obtain ⟨q, -⟩ := hn
    have hN : ∀ p, (a p).length = (a q).length := fun p => hlen p q
    refine Runs.congr (P := fun p => .coll .world (.base .bor) (a p) fun flags =>
        match GData.announce (s p).base flags with
        | none => .ret none
        | some calls => (barriers .world 1).bind fun _ => .ret (some { s p with base := { (s p).base with
            locals := GData.zero (s p).base.locals, log := (s p).base.log ++ calls } })) ?_ ?_
        (a := fun p => some { s p with base := GData.synced (fun p => (s p).base) l p }) fun _ _ => rfl
    · refine .coll (fun _ => rfl) (fun _ => CompC.bor_comb hN ⟨q, rfl⟩) ?_
      have hx : ∀ p, GData.announce (s p).base (Comp.allOr (a q).length a) = some (calls p) := fun p => by
        rw [← hN p]; exact CompC.everyone_inv hc p
      simp only [hx]
      refine .bind (world_runs 1) ((Runs.ret _).congr (fun p _ => rfl) fun p _ => ?_)
      have := congrFun (Option.some.inj h1) p
      rw [← this]
    · intro p _
      rw [if_neg fun e => hE (hr0.1 e), CompC.everyone_inv ha p]
      rfl

/-! ### Operations on the communicators of grids -/

/-- What the operations of the processes of a grid rely on. -/
def Placed (mem : Nat → Fin n → Bool) (G : Int → Option Nat) (s : Fin n → State) : Prop :=
  ∀ g k, G g = some k → ∀ p, (s p).isLocal g = mem k p ∧ (mem k p = true → (s p).comm g = k)

theorem on_grid {b : Fin n → Bool} {kf : Fin n → Nat} {k i : Nat} (hb : ∀ p, b p = mem k p)
    (hk : ∀ p, mem k p = true → kf p = k) :
    Runs (member mem) comb All (fun p => if b p then barriers (.grid (kf p)) i else .ret ()) fun _ => () := by
  refine Runs.sub (T := mem k) ?_ (fun _ _ => rfl) fun p _ hp => by rw [hb p, hp]; rfl
  refine (grid_runs k i).congr (fun p hp => ?_) fun _ _ => rfl
  rw [hb p, if_pos hp, hk p hp]

theorem off_grid {b : Fin n → Bool} {kf : Fin n → Nat} {i : Nat} (hb : ∀ p, b p = false) :
    Runs (member mem) comb All (fun p => if b p then barriers (.grid (kf p)) i else .ret ()) fun _ => () := by
  refine (Runs.ret _).congr (fun p _ => ?_) fun _ _ => rfl
  rw [hb p]
  rfl

theorem set_self {α : Type} (f : Int → α) (g : Int) (a : α) : set f g a g = a := if_pos rfl
theorem set_ne {α : Type} {f : Int → α} {g h : Int} {a : α} (e : h ≠ g) : set f g a h = f h := if_neg e

/-! ### Creating -/

def createNext (s : State) (e : Int × Data) : State :=
  if s.isLocal e.1 then { s with
      base := { s.base with locals := s.base.locals.insert intLess e.1 0 }
      data := set s.data e.1 e.2
      handles := set s.handles e.1 0 }
  else s

theorem createNext_fields (s : State) (e : Int × Data) :
    (createNext s e).base = GData.createLocal s.base e.1 ∧ (∀ g, (createNext s e).isLocal g = s.isLocal g) ∧
      (createNext s e).comm = s.comm ∧ (createNext s e).comp = s.comp ∧ (createNext s e).info = s.info := by
  unfold createNext GData.createLocal State.isLocal
  split <;> exact ⟨rfl, fun _ => rfl, rfl, rfl, rfl⟩

theorem createNext_data (s : State) (e : Int × Data) :
    (∀ g, g ≠ e.1 → (createNext s e).data g = s.data g ∧ (createNext s e).handles g = s.handles g) ∧
      (s.isLocal e.1 = true → (createNext s e).data e.1 = e.2 ∧ (createNext s e).handles e.1 = 0) := by
  unfold createNext
  refine ⟨fun g hg => ?_, fun h => ?_⟩
  · split
    · exact ⟨set_ne hg, set_ne hg⟩
    · exact ⟨rfl, rfl⟩
  · rw [if_pos h]
    exact ⟨set_self _ _ _, set_self _ _ _⟩

def created (es : List (Int × Data)) (s : State) : State := es.foldl createNext s

theorem createLocals_runs {G : Int → Option Nat} : ∀ (es : List (Int × Data)) {s : Fin n → State}, Placed mem G s →
    (∀ e ∈ es, G e.1 ≠ none) →
    Runs (member mem) comb All (fun p => createLocals es (s p)) fun p => created es (s p) := by
  intro es
  induction es with
  | nil => intro s _ _; exact .ret _
  | cons e es ih =>
    intro s h he
    obtain ⟨k, hk⟩ := Option.ne_none_iff_exists'.1 (he e (by simp))
    refine .bind (a := fun p => createNext (s p) e) ?_ (ih (fun g k hg p => ?_) fun e he' => he e (by simp [he']))
    · have h1 := Runs.bind (Q := fun p _ => .ret (createNext (s p) e))
        (on_grid (mem := mem) (i := 2) (b := fun p => (s p).isLocal e.1) (kf := fun p => (s p).comm e.1)
          (fun p => (h _ k hk p).1) fun p => (h _ k hk p).2) (.ret fun p => createNext (s p) e)
      refine h1.congr (fun p _ => ?_) fun _ _ => rfl
      unfold createLocal createNext
      split <;> rfl
    · obtain ⟨-, h2, h3, -⟩ := createNext_fields (s p) e
      rw [h2, h3]
      exact h g k hg p

theorem created_fields : ∀ (es : List (Int × Data)) (s : State),
    (created es s).base = (es.map Prod.fst).foldl GData.createLocal s.base ∧
      (∀ g, (created es s).isLocal g = s.isLocal g) ∧ (created es s).comm = s.comm ∧ (created es s).comp = s.comp ∧
      (created es s).info = s.info := by
  intro es
  induction es with
  | nil => intro s; exact ⟨rfl, fun _ => rfl, rfl, rfl, rfl⟩
  | cons e es ih =>
    intro s
    obtain ⟨h1, h2, h3, h4, h5⟩ := ih (createNext s e)
    obtain ⟨a1, a2, a3, a4, a5⟩ := createNext_fields s e
    refine ⟨h1.trans (by rw [a1]; rfl), fun g => (h2 g).trans (a2 g), h3.trans a3, h4.trans a4, h5.trans a5⟩

theorem created_data : ∀ (es : List (Int × Data)) (s : State), (es.map Prod.fst).Nodup →
    (∀ g, g ∉ es.map Prod.fst → (created es s).data g = s.data g ∧ (created es s).handles g = s.handles g) ∧
      ∀ e ∈ es, s.isLocal e.1 = true → (created es s).data e.1 = e.2 ∧ (created es s).handles e.1 = 0 := by
  intro es
  induction es with
  | nil => intro s _; exact ⟨fun _ _ => ⟨rfl, rfl⟩, by simp⟩
  | cons d es ih =>
    intro s hn
    rw [List.map_cons, List.nodup_cons] at hn
    obtain ⟨h1, h2⟩ := ih (createNext s d) hn.2
    obtain ⟨a1, a2⟩ := createNext_data s d
    refine ⟨fun g hg => ?_, fun e he hl => ?_⟩
    · rw [List.map_cons, List.mem_cons, not_or] at hg
      exact ⟨(h1 g hg.2).1.trans (a1 g hg.1).1, (h1 g hg.2).2.trans (a1 g hg.1).2⟩
    · rcases List.mem_cons.1 he with rfl | he
      · exact ⟨(h1 _ hn.1).1.trans (a2 hl).1, (h1 _ hn.1).2.trans (a2 hl).2⟩
      · exact h2 e he (by rw [(createNext_fields s d).2.1]; exact hl)

/-! ### Descriptions -/

theorem describe_runs {G : Int → Option Nat} {s : Fin n → State} (h : Placed mem G s) (hr : Spec.Roots mem root) {g : Int}
    {k : Nat} (hk : G g = some k) (hne : ∃ p, mem k p = true) {d : Data}
    (hd : ∀ p, mem k p = true → (s p).data g = d) :
    Runs (member mem) comb All (fun p => describe (fun k => root k p) p.val (s p) g) fun p =>
      { s p with info := set (s p).info g d } := by
  obtain ⟨r, h1, h2⟩ := hr k hne
  have hroot : ∀ p, ((s p).isLocal g && root ((s p).comm g) p) = decide (p = r) := by
    intro p
    obtain ⟨a, b⟩ := h g k hk p
    rw [a]
    cases e : mem k p with
    | false =>
      rw [Bool.false_and]
      have : p ≠ r := fun x => by rw [x, h1] at e; cases e
      simp [this]
    | true =>
      rw [b e, Bool.true_and, Bool.eq_iff_iff, decide_eq_true_eq]
      exact h2 p e
  unfold describe
  simp only [hroot]
  refine .coll (fun _ => rfl) (fun _ => any_comb (r := r) fun p => ?_) ?_
  · by_cases e : p = r <;> simp [e]
  · rw [decide_eq_true (rfl : r = r), if_pos rfl]
    refine .coll (fun _ => rfl) (fun _ => bcast_comb r _) (.coll (fun _ => rfl) (fun _ => bcast_comb r _) ?_)
    rw [decide_eq_true (rfl : r = r), if_pos rfl, if_pos rfl, hd r h1]
    exact .ret _

def described (es : List (Int × Data)) (s : State) : State :=
  { s with info := es.foldl (fun f e => set f e.1 e.2) s.info }

theorem describes_runs {G : Int → Option Nat} (hr : Spec.Roots mem root) : ∀ (es : List (Int × Data)) {s : Fin n → State},
    Placed mem G s → (∀ e ∈ es, ∃ k, G e.1 = some k ∧ (∃ p, mem k p = true) ∧
      ∀ p, mem k p = true → (s p).data e.1 = e.2) →
    Runs (member mem) comb All (fun p => describes (fun k => root k p) p.val (es.map Prod.fst) (s p)) fun p =>
      described es (s p) := by
  intro es
  induction es with
  | nil => intro s _ _; exact .ret _
  | cons e es ih =>
    intro s h he
    obtain ⟨k, hk, hne, hd⟩ := he e (by simp)
    exact .bind (describe_runs h hr hk hne hd) (ih (fun g k hg p => h g k hg p) fun e he' => he e (by simp [he']))

theorem described_info : ∀ (es : List (Int × Data)) (f : Int → Data), (es.map Prod.fst).Nodup →
    (∀ g, g ∉ es.map Prod.fst → es.foldl (fun f e => set f e.1 e.2) f g = f g) ∧
      ∀ e ∈ es, es.foldl (fun f e => set f e.1 e.2) f e.1 = e.2 := by
  intro es
  induction es with
  | nil => intro f _; exact ⟨fun _ _ => rfl, by simp⟩
  | cons d es ih =>
    intro f hn
    rw [List.map_cons, List.nodup_cons] at hn
    obtain ⟨h1, h2⟩ := ih (set f d.1 d.2) hn.2
    refine ⟨fun g hg => ?_, fun e he => ?_⟩
    · rw [List.map_cons, List.mem_cons, not_or] at hg
      exact (h1 g hg.2).trans (set_ne hg.1)
    · rcases List.mem_cons.1 he with rfl | he
      · exact (h1 _ hn.1).trans (set_self _ _ _)
      · exact h2 e he

/-! ### Destroying -/

def destroyNext (s : State) (g : Int) : State :=
  { s with base := { s.base with locals := s.base.locals.erase intLess g }, handles := set s.handles g 0 }

/-- The geometries that exist: those in `R`, on the processes of the grid. -/
def Held (mem : Nat → Fin n → Bool) (G : Int → Option Nat) (R : Int → Prop) (s : Fin n → State) : Prop :=
  ∀ p, (s p).base.locals.WF intLess ∧ ∀ g k, G g = some k → ((s p).has g = true ↔ R g ∧ mem k p = true)

theorem Held.destroy {G : Int → Option Nat} {R : Int → Prop} {s : Fin n → State} (h : Held mem G R s) (g : Int) :
    Held mem G (fun h => R h ∧ h ≠ g) fun p => destroyNext (s p) g := by
  intro p
  obtain ⟨h1, h2⟩ := h p
  obtain ⟨e1, e2⟩ := omap_erase_spec intLess_sto h1 g
  refine ⟨e1, fun g' k hk => ?_⟩
  show OMap.contains intLess (OMap.erase intLess (s p).base.locals g) g' = true ↔ _
  rw [omap_contains_spec intLess_sto e1]
  have h3 := h2 g' k hk
  unfold State.has at h3
  rw [omap_contains_spec intLess_sto h1] at h3
  simp only [e2, exists_and_left, h3]
  exact ⟨fun ⟨a, b, d⟩ => ⟨⟨b, a⟩, d⟩, fun ⟨⟨b, a⟩, d⟩ => ⟨a, b, d⟩⟩

def destroyed (ids : List Int) (s : State) : State := ids.foldl destroyNext s

theorem destroyLocals_runs {G : Int → Option Nat} : ∀ (ids : List Int) {R : Int → Prop} {s : Fin n → State},
    Placed mem G s → Held mem G R s → (∀ g ∈ ids, G g ≠ none) →
    Runs (member mem) comb All (fun p => destroyLocals ids (s p)) fun p => destroyed ids (s p) := by
  intro ids
  induction ids with
  | nil => intro R s _ _ _; exact .ret _
  | cons g ids ih =>
    intro R s h hr hg
    obtain ⟨k, hk⟩ := Option.ne_none_iff_exists'.1 (hg g (by simp))
    refine .bind (a := fun p => destroyNext (s p) g) (.bind (a := fun _ => ()) ?_ (.ret _))
      (ih (fun g' k' hg' p => h g' k' hg' p) (hr.destroy g) fun g' hg' => hg g' (by simp [hg']))
    by_cases hR : R g
    · refine on_grid (k := k) (b := fun p => (s p).has g) (fun p => ?_) fun p => (h _ k hk p).2
      rw [Bool.eq_iff_iff, (hr p).2 g k hk]
      simp [hR]
    · refine off_grid (b := fun p => (s p).has g) fun p => ?_
      rw [Bool.eq_false_iff, Ne, (hr p).2 g k hk]
      simp [hR]

theorem destroyed_fields : ∀ (ids : List Int) (s : State),
    (destroyed ids s).base = { s.base with locals := ids.foldl (OMap.erase intLess) s.base.locals } ∧
    (destroyed ids s).comm = s.comm ∧ (destroyed ids s).comp = s.comp ∧ (destroyed ids s).data = s.data ∧
    (destroyed ids s).info = s.info ∧ ∀ g, (destroyed ids s).handles g = if g ∈ ids then 0 else s.handles g := by
  intro ids
  induction ids with
  | nil => intro s; exact ⟨rfl, rfl, rfl, rfl, rfl, by simp [destroyed]⟩
  | cons d ids ih =>
    intro s
    obtain ⟨h1, h2, h3, h4, h5, h6⟩ := ih (destroyNext s d)
    refine ⟨h1, h2, h3, h4, h5, fun g => (h6 g).trans ?_⟩
    by_cases hi : g ∈ ids
    · simp [hi]
    · by_cases hd : g = d
      · subst hd
        rw [if_neg hi, if_pos (by simp)]
        exact set_self _ _ _
      · rw [if_neg hi, if_neg (by simp [hi, hd])]
        exact set_ne hd

/-! ### The invariant -/

structure Inv (mem : Nat → Fin n → Bool) (geo : Bool) (S : Spec.World) (s : Fin n → State) : Prop where
  base : GData.Inv fun p => (s p).base
  grids : ∀ p g, g ∈ (s p).base.grids ↔ S.grids g ≠ none
  loc : ∀ p g, g ∈ (s p).base.localGrids ↔ ∃ k, S.grids g = some k ∧ mem k p = true
  comm : ∀ p g k, S.grids g = some k → mem k p = true → (s p).comm g = k
  nonempty : ∀ g k, S.grids g = some k → ∃ p, mem k p = true
  geos : ∀ p g, g ∈ (s p).base.records ↔ S.geos g ≠ none
  data : ∀ p g k d, S.geos g = some d → S.grids g = some k → mem k p = true → (s p).data g = d
  info : geo = true → ∀ p g, S.geos g ≠ none → (s p).info g = S.infos g
  pend : ∀ g, GData.Spec.Pending (fun p => (s p).base) g ↔ S.pend g
  handles : ∀ p g k, S.geos g ≠ none → S.grids g = some k → mem k p = true → (s p).handles g = S.handles g
  fresh : ∀ g, S.geos g = none → S.handles g = 0
  comp : ∀ p, (s p).comp = S.comp

variable {S : Spec.World} {s : Fin n → State} {geo : Bool}

theorem inv_start : Inv mem geo Spec.empty fun _ => State.start where
  base := GData.inv_start
  grids := by intro p g; simp [State.start, GData.Proc.start, Spec.empty]
  loc := by intro p g; simp [State.start, GData.Proc.start, Spec.empty]
  comm := by intro p g k hk; cases hk
  nonempty := by intro g k hk; cases hk
  geos := by intro p c; simp [State.start, GData.Proc.start, Spec.empty]
  data := by intro p g k d hd; cases hd
  info := by intro _ p g hg; exact absurd rfl hg
  pend := by intro g; simp [GData.Spec.Pending, State.start, GData.Proc.start, Spec.empty]
  handles := by intro p g k hg; exact absurd rfl hg
  fresh := fun _ _ => rfl
  comp := fun _ => rfl

theorem Inv.congr {S' : Spec.World} (h : Inv mem geo S s) (h1 : ∀ g, S.grids g = S'.grids g)
    (h2 : ∀ g, S.geos g = S'.geos g) (h3 : ∀ g, S.infos g = S'.infos g) (h4 : ∀ g, S.pend g ↔ S'.pend g)
    (h5 : ∀ g, S.handles g = S'.handles g) (h6 : S.comp = S'.comp) : Inv mem geo S' s := by
  have : S = S' := by
    obtain ⟨a, b, c, d, e, f⟩ := S
    obtain ⟨a', b', c', d', e', f'⟩ := S'
    congr
    · exact funext h1
    · exact funext h2
    · exact funext h3
    · exact funext fun c => propext (h4 c)
    · exact funext h5
  rwa [← this]

theorem Inv.placed (h : Inv mem geo S s) : Placed mem S.grids s := by
  intro g k hg p
  refine ⟨?_, h.comm p g k hg⟩
  unfold State.isLocal
  rw [Bool.eq_iff_iff, oset_contains_iff intLess_sto (h.base.lsort p), h.loc, hg]
  simp

theorem Inv.ends (h : Inv mem geo S s) (p : Fin n) {g : Int} (hg : S.geos g ≠ none) : S.grids g ≠ none := by
  have := h.base.ends p g ((h.geos p g).2 hg)
  rwa [h.grids] at this

theorem Inv.held (h : Inv mem geo S s) : Held mem S.grids (fun g => S.geos g ≠ none) s := by
  intro p
  refine ⟨h.base.wf p, fun g k hk => ?_⟩
  show OMap.contains intLess (s p).base.locals g = true ↔ _
  rw [omap_contains_spec intLess_sto (h.base.wf p), h.base.key p g, h.geos, h.loc, hk]
  simp

theorem each_eq (flag : Nat) (ids : List Int) : GData.each flag ids.length ids 0 = Spec.marks flag ids := by
  have key : ∀ (m : Nat) (ids : List Int) (i : Nat), GData.each flag m ids i =
      ids.mapIdx fun j g => (g, flag, decide (i + j + 1 = m)) := by
    intro m ids
    induction ids with
    | nil => intro i; rfl
    | cons c ids ih =>
      intro i
      unfold GData.each
      rw [List.mapIdx_cons, ih]
      congr 1
      congr 1
      funext j g
      rw [show i + 1 + j + 1 = i + (j + 1) + 1 by omega]
  rw [key]
  unfold Spec.marks
  congr 1
  funext j g
  rw [Nat.zero_add]

theorem announces {w : Fin n → GData.Proc} {l : List GData.Call} (h : GData.Announces w l) :
    Spec.Announces (GData.Spec.Pending w) l := by
  refine ⟨l.map Prod.fst, ?_, ?_, fun g => ?_⟩
  · apply List.ext_getElem?
    intro i
    unfold Spec.marks
    rw [List.getElem?_mapIdx, List.getElem?_map, List.length_map]
    cases e : l[i]? with
    | none => rfl
    | some x =>
      have h1 := h.edits x (List.mem_of_getElem? e)
      have h2 := h.batch i x e
      obtain ⟨a, b, c⟩ := x
      dsimp only at h1 h2
      subst h1
      simp only [Option.map_some, GData.EDIT, Option.some.injEq, Prod.mk.injEq, true_and]
      rw [Bool.eq_iff_iff, h2, decide_eq_true_eq]
  · rw [List.pairwise_map]
    refine h.sorted.imp fun hab => ?_
    simpa [intLess] using hab
  · rw [h.pending, List.mem_map]
    constructor
    · rintro ⟨⟨a, b, c⟩, hx, rfl⟩
      exact ⟨c, by rw [← h.edits _ hx]; exact hx⟩
    · rintro ⟨z, hz⟩
      exact ⟨_, hz, rfl⟩

/-- No pending changes. -/
def Clean (w : GData.Proc) : Prop := ∀ e ∈ w.locals.entries, e.2 = 0

theorem Clean.pending {w : Fin n → GData.Proc} (h : ∀ p, Clean (w p)) (g : Int) : ¬ GData.Spec.Pending w g := by
  rintro ⟨p, f, hf, hb⟩
  exact hb (h p _ hf)

theorem clean_synced (w : Fin n → GData.Proc) (l : List GData.Call) (p : Fin n) : Clean (GData.synced w l p) := by
  rintro ⟨k, f⟩ he
  exact ((GData.zero_mem _ k f).1 he).1

/-- The state after edits were merged. -/
theorem Inv.synced (h : Inv mem geo S s) (l : List GData.Call) :
    Inv mem geo { S with pend := fun _ => False } fun p =>
      { s p with base := GData.synced (fun p => (s p).base) l p } where
  base := GData.inv_synced h.base l
  grids := h.grids
  loc := h.loc
  comm := h.comm
  nonempty := h.nonempty
  geos := h.geos
  data := h.data
  info := h.info
  pend := fun g => ⟨fun hp => Clean.pending (clean_synced _ l) g hp, False.elim⟩
  handles := h.handles
  fresh := h.fresh
  comp := h.comp

theorem Inv.sync (h : Inv mem geo S s) : ∃ l, Spec.Announces S.pend l ∧
    GData.sync (fun p => (s p).base) = some (GData.synced (fun p => (s p).base) l) ∧
    Runs (member mem) comb All (fun p => GeoC.sync (s p)) fun p =>
        some { s p with base := GData.synced (fun p => (s p).base) l p } := by
  obtain ⟨l, h1, h2⟩ := sync_runs (mem := mem) h.base
  refine ⟨l, ?_, h2⟩
  have : GData.Spec.Pending (fun p => (s p).base) = S.pend := funext fun g => propext (h.pend g)
  rw [← this]
  exact announces h1

theorem value_some {α : Type} {es : List (Int × α)} (hnd : (es.map Prod.fst).Nodup) {g : Int} {a : α} :
    Spec.value es g = some a ↔ (g, a) ∈ es := by
  unfold Spec.value
  induction es with
  | nil => simp
  | cons e es ih =>
    obtain ⟨g', k'⟩ := e
    rw [List.map_cons, List.nodup_cons] at hnd
    rw [List.find?_cons]
    by_cases hg : g' = g
    · subst hg
      have : (g', a) ∉ es := fun h => hnd.1 (List.mem_map.2 ⟨_, h, rfl⟩)
      simp [this, eq_comm]
    · simp only [hg, decide_false]
      rw [ih hnd.2, List.mem_cons]
      simp [Ne.symm hg]

theorem value_none {α : Type} {es : List (Int × α)} {g : Int} : Spec.value es g = none ↔ g ∉ es.map Prod.fst := by
  simp only [Spec.value, Option.map_eq_none_iff, List.find?_eq_none, decide_eq_true_eq, List.mem_map, not_exists, not_and]

/-- What there is after some was added. -/
theorem value_or {α : Type} {f : Int → Option α} {es : List (Int × α)} (hnd : (es.map Prod.fst).Nodup)
    (hfree : ∀ e ∈ es, f e.1 = none) (g : Int) (a : α) :
    (Spec.value es g).or (f g) = some a ↔ (g, a) ∈ es ∨ f g = some a := by
  cases e : Spec.value es g with
  | none =>
    have := value_none.1 e
    rw [Option.none_or]
    constructor
    · exact .inr
    · rintro (h | h)
      · exact absurd (List.mem_map.2 ⟨_, h, rfl⟩) this
      · exact h
  | some k' =>
    have := (value_some hnd).1 e
    rw [Option.some_or]
    constructor
    · intro h; cases h; exact .inl this
    · rintro (h | h)
      · rw [← e]; exact (value_some hnd).2 h
      · rw [hfree _ this] at h; cases h

theorem value_or_ne {α : Type} {f : Int → Option α} {es : List (Int × α)} (g : Int) :
    (Spec.value es g).or (f g) ≠ none ↔ g ∈ es.map Prod.fst ∨ f g ≠ none := by
  cases e : Spec.value es g with
  | none => simp [value_none.1 e]
  | some a =>
    have : g ∈ es.map Prod.fst := by
      by_contra h
      rw [value_none.2 h] at e
      cases e
    simp only [Option.some_or, ne_eq, reduceCtorEq, not_false_eq_true, this, true_or]

/-! ### Calls -/

/-- A call: it completes, the invariant holds again, and listeners are told what they should be. -/
def Works (mem root : Nat → Fin n → Bool) (geo debug : Bool) (S : Spec.World) (s : Fin n → State) (a : Act) : Prop :=
  ∃ t l, Inv mem geo (Spec.apply S a) t ∧ (∀ p, (t p).base.log = (s p).base.log ++ l) ∧ Spec.Heard S a l ∧
    Runs (member mem) comb All (fun p => callProg mem root geo debug p (s p) a) fun p => some (t p)

theorem works_create {debug : Bool} (hroot : Spec.Roots mem root) (h : Inv mem geo S s) {es : List (Int × Data)}
    (hl : Spec.Legal mem geo S (.create es)) : Works mem root geo debug S s (.create es) := by
  obtain ⟨hnd, hl⟩ := hl
  have hl' : ∀ g ∈ es.map Prod.fst, S.grids g ≠ none ∧ S.geos g = none := by
    intro g hg
    obtain ⟨e, he, rfl⟩ := List.mem_map.1 hg
    exact hl e he
  have hv : ∀ p, ∀ g ∈ es.map Prod.fst, GData.valid (s p).base false g = true := by
    intro p g hg
    obtain ⟨h1, h2⟩ := hl' g hg
    have g1 := (h.grids p g).2 h1
    exact (GData.valid_iff h.base p false g).2 ⟨h.base.nonneg p g g1, g1, by simp [h.geos, h2]⟩
  obtain ⟨l, hp, hs, hr⟩ := h.sync
  have hS := h.synced l
  generalize hu : (fun p => ({ s p with base := GData.synced (fun p => (s p).base) l p } : State)) = u at hS
  replace hr : Runs (member mem) comb All (fun p => GeoC.sync (s p)) fun p => some (u p) := by
    rw [← hu]
    exact hr
  have hub : ∀ p, (u p).base = GData.synced (fun p => (s p).base) l p := fun p => by rw [← hu]
  have hcomm : ∀ p, (u p).comm = (s p).comm := fun p => by rw [← hu]
  have hcomp : ∀ p, (u p).comp = (s p).comp := fun p => by rw [← hu]
  have hh : ∀ p, (u p).handles = (s p).handles := fun p => by rw [← hu]
  have hdt : ∀ p, (u p).data = (s p).data := fun p => by rw [← hu]
  have hin : ∀ p, (u p).info = (s p).info := fun p => by rw [← hu]
  have hcf := fun p => created_fields es (u p)
  have hcd := fun p => created_data es (u p) hnd
  let v : Fin n → State := fun p => if geo then described es (created es (u p)) else created es (u p)
  have hvf : ∀ p, (v p).base = (created es (u p)).base ∧ (v p).comm = (created es (u p)).comm ∧
      (v p).data = (created es (u p)).data ∧ (v p).handles = (created es (u p)).handles ∧
      (v p).comp = (created es (u p)).comp := by
    intro p
    show (if geo then described es (created es (u p)) else created es (u p)).base = _ ∧ _
    dsimp only [v]
    cases geo <;> exact ⟨rfl, rfl, rfl, rfl, rfl⟩
  let t : Fin n → State := fun p => { v p with base := { (v p).base with
            records := (es.map Prod.fst).foldl (OSet.insert intLess) (v p).base.records
            log := (v p).base.log ++ GData.each Comp.CREATE (es.map Prod.fst).length (es.map Prod.fst) 0 } }
  have hcr : GData.create (fun p => (s p).base) (es.map Prod.fst) = some fun p => (t p).base := by
    unfold GData.create
    rw [if_pos (fun p => List.all_eq_true.2 (hv p)), hs, Option.bind_some, Option.some.injEq]
    funext p
    show _ = ({ (v p).base with
            records := (es.map Prod.fst).foldl (OSet.insert intLess) (v p).base.records
            log := (v p).base.log ++ GData.each Comp.CREATE (es.map Prod.fst).length (es.map Prod.fst) 0 } : GData.Proc)
    rw [(hvf p).1, (hcf p).1, hub]
  obtain ⟨i1, i2, i3, i4, -, -⟩ := GData.create_spec h.base _ hcr
  have hgeo := value_or (f := S.geos) hnd fun e he => (hl e he).2
  refine ⟨t, l ++ Spec.marks 1 (es.map Prod.fst), ?_, fun p => ?_, ⟨l, rfl, hp⟩, ?_⟩
  · refine ⟨i1, fun p g => by rw [i2]; exact h.grids p g, fun p g => by rw [i3]; exact h.loc p g, fun p g k hk hm => ?_,
      h.nonempty, fun p g => ?_, fun p g k d hd hk hm => ?_, fun hgt p g hg => ?_, fun g => ?_, fun p g k hg hk hm => ?_,
      fun g hg => ?_, fun p => ?_⟩
    · show (v p).comm g = k
      rw [(hvf p).2.1, (hcf p).2.2.1, hcomm]
      exact h.comm p g k hk hm
    · show g ∈ (t p).base.records ↔ (Spec.value es g).or (S.geos g) ≠ none
      rw [i4, value_or_ne, h.geos]
    · show (v p).data g = d
      rw [(hvf p).2.2.1]
      rcases (hgeo g d).1 hd with a | a
      · refine ((hcd p).2 (g, d) a ?_).1
        rw [(hS.placed g k hk p).1, hm]
      · rw [((hcd p).1 g ?_).1, hdt]
        · exact h.data p g k d a hk hm
        · intro hmem
          rw [(hl' g hmem).2] at a
          cases a
    · have : (v p).info = es.foldl (fun f e => set f e.1 e.2) (u p).info := by
        dsimp only [v]
        rw [if_pos hgt, ← (hcf p).2.2.2.2]
        rfl
      show (v p).info g = (Spec.value es g).getD (S.infos g)
      rw [this]
      obtain ⟨d1, d2⟩ := described_info es (u p).info hnd
      by_cases hm : g ∈ es.map Prod.fst
      · obtain ⟨⟨g, d⟩, he, rfl⟩ := List.mem_map.1 hm
        rw [(value_some hnd).2 he, d2 _ he]
        rfl
      · rw [value_none.2 hm, d1 g hm, hin]
        refine h.info hgt p g ?_
        rcases (value_or_ne g).1 hg with a | a
        · exact absurd a hm
        · exact a
    · show _ ↔ False
      refine ⟨fun hp => Clean.pending (fun p => ?_) g hp, False.elim⟩
      rintro ⟨g', f⟩ hf
      change (g', f) ∈ (v p).base.locals.entries at hf
      rw [(hvf p).1, (hcf p).1] at hf
      rcases (GData.createLocals_spec (es.map Prod.fst) (u p).base (hS.base.wf p) (hS.base.lsort p)).2.2.2.2.2.2 g' f hf
        with a | a
      · exact a
      · have := clean_synced (fun p => (s p).base) l p
        rw [← hub] at this
        exact this _ a
    · show (v p).handles g = S.handles g
      rw [(hvf p).2.2.2.1]
      by_cases hm' : g ∈ es.map Prod.fst
      · rw [h.fresh g (hl' g hm').2]
        obtain ⟨e, he, rfl⟩ := List.mem_map.1 hm'
        refine ((hcd p).2 e he ?_).2
        rw [(hS.placed _ k hk p).1, hm]
      · rw [((hcd p).1 g hm').2, hh]
        refine h.handles p g k ?_ hk hm
        rcases (value_or_ne g).1 hg with a | a
        · exact absurd a hm'
        · exact a
    · refine h.fresh g ?_
      by_contra hc
      exact (value_or_ne (es := es) g).2 (.inr hc) hg
    · show (v p).comp = S.comp
      rw [(hvf p).2.2.2.2, (hcf p).2.2.2.1, hcomp]
      exact h.comp p
  · show (v p).base.log ++ _ = _
    have hs' := GData.createLocals_spec (es.map Prod.fst) (u p).base (hS.base.wf p) (hS.base.lsort p)
    rw [(hvf p).1, (hcf p).1, hs'.2.2.2.1, hub, each_eq]
    show (s p).base.log ++ l ++ _ = _
    rw [List.append_assoc]
    rfl
  · show Runs (member mem) comb All (fun p => create geo debug (fun k => root k p) p.val es (s p)) _
    unfold create
    refine .bind (world_runs 1) ?_
    refine Runs.congr ?_ (fun p _ => (if_neg fun hc => hc.2 (List.all_eq_true.2 (hv p))).symm) fun _ _ => rfl
    refine .bind hr ?_
    refine Runs.congr ?_ (fun p _ => (if_neg fun hc => hc (List.all_eq_true.2 fun g hg => ?_)).symm) fun _ _ => rfl
    · refine .bind (createLocals_runs es hS.placed fun e he => (hl e he).1) (.bind (a := v) ?_ (.bind (world_runs 1)
        (.bind (world_runs 1) (.ret _))))
      dsimp only [v]
      cases geo with
      | false => exact .ret _
      | true =>
        refine describes_runs (G := S.grids) hroot es (fun g k hg p => ?_) fun e he => ?_
        · rw [(hcf p).2.1, (hcf p).2.2.1]
          exact hS.placed g k hg p
        · obtain ⟨k, hk⟩ := Option.ne_none_iff_exists'.1 (hl e he).1
          refine ⟨k, hk, h.nonempty _ k hk, fun p hp => ((hcd p).2 e he ?_).1⟩
          rw [(hS.placed _ k hk p).1, hp]
    · rw [oset_contains_iff intLess_sto (hS.base.gsort p), hS.grids]
      exact (hl' g hg).1

theorem mapM_zero {f : Int → Option Nat} : ∀ ids : List Int, (∀ g ∈ ids, f g = some 0) →
    ids.mapM f = some (List.replicate ids.length 0) := by
  intro ids
  induction ids with
  | nil => intro _; rfl
  | cons c ids ih =>
    intro h
    rw [List.mapM_cons, h c (by simp), ih fun c hc => h c (by simp [hc])]
    rfl

theorem Inv.valid (h : Inv mem geo S s) (p : Fin n) {g : Int} (hg : S.geos g ≠ none) :
    GData.valid (s p).base true g = true := by
  have h1 := (h.geos p g).2 hg
  have h2 := h.base.ends p g h1
  exact (GData.valid_iff h.base p true g).2 ⟨h.base.nonneg p g h2, h2, by simp [h1]⟩

theorem Inv.editing (h : Inv mem geo S s) (p : Fin n) {g : Int} (hg : S.geos g ≠ none) (h0 : S.handles g = 0) :
    GeoC.editing (s p) g = some 0 := by
  obtain ⟨k, hk⟩ := Option.ne_none_iff_exists'.1 (h.ends p hg)
  unfold GeoC.editing
  cases e : (s p).isLocal g with
  | false => rfl
  | true =>
    have hmem : mem k p = true := by rw [← (h.placed _ k hk p).1, e]
    rw [if_pos rfl, if_pos (((h.held p).2 g k hk).2 ⟨hg, hmem⟩), if_neg (by
      rw [h.handles p g k hg hk hmem, h0]; simp)]

theorem Inv.checkEditing (h : Inv mem geo S s) {ids : List Int} (hl : ∀ g ∈ ids, S.geos g ≠ none ∧ S.handles g = 0) :
    Runs (member mem) comb All (fun p => GeoC.checkEditing ids (s p)) fun _ => true := by
  refine Runs.congr (.coll (c := Comm.world) (l := Kind.base .lor) (f := fun _ => List.replicate ids.length 0)
      (k := fun _ r => .ret (r.all fun x => x == 0)) (fun _ => rfl) (r := List.replicate ids.length 0)
      (fun hn => CompC.lor_comb _ hn) ((Runs.ret fun _ => true).congr (fun p _ => ?_) fun _ _ => rfl)) (fun p _ => ?_)
      fun _ _ => rfl
  · simp
  · unfold GeoC.checkEditing
    rw [mapM_zero ids fun g hg => h.editing p (hl g hg).1 (hl g hg).2]

theorem works_destroy {debug : Bool} (p0 : Fin n) (h : Inv mem geo S s) {ids : List Int}
    (hl : Spec.Legal mem geo S (.destroy ids)) : Works mem root geo debug S s (.destroy ids) := by
  have hv : ∀ p, ∀ g ∈ ids, GData.valid (s p).base true g = true := fun p g hg => h.valid p (hl g hg).1
  obtain ⟨l, hp, hs, hr⟩ := h.sync
  have hS := h.synced l
  generalize hu : (fun p => ({ s p with base := GData.synced (fun p => (s p).base) l p } : State)) = u at hS
  replace hr : Runs (member mem) comb All (fun p => GeoC.sync (s p)) fun p => some (u p) := by
    rw [← hu]
    exact hr
  have hub : ∀ p, (u p).base = GData.synced (fun p => (s p).base) l p := fun p => by rw [← hu]
  have hcomm : ∀ p, (u p).comm = (s p).comm := fun p => by rw [← hu]
  have hcomp : ∀ p, (u p).comp = (s p).comp := fun p => by rw [← hu]
  have hh : ∀ p, (u p).handles = (s p).handles := fun p => by rw [← hu]
  have hdt : ∀ p, (u p).data = (s p).data := fun p => by rw [← hu]
  have hin : ∀ p, (u p).info = (s p).info := fun p => by rw [← hu]
  have hf := fun p => destroyed_fields ids (u p)
  let t : Fin n → State := fun p => { destroyed ids (u p) with base := { (destroyed ids (u p)).base with
            records := ids.foldl (OSet.erase intLess) (destroyed ids (u p)).base.records
            log := (destroyed ids (u p)).base.log ++ GData.each Comp.DESTROY ids.length ids 0 } }
  have hde : GData.destroy true (fun p => (s p).base) ids = some fun p => (t p).base := by
    unfold GData.destroy
    rw [if_pos (fun _ p => List.all_eq_true.2 (hv p)), hs, Option.bind_some, Option.some.injEq]
    funext p
    show _ = ({ (destroyed ids (u p)).base with
            records := ids.foldl (OSet.erase intLess) (destroyed ids (u p)).base.records
            log := (destroyed ids (u p)).base.log ++ GData.each Comp.DESTROY ids.length ids 0 } : GData.Proc)
    rw [(hf p).1, hub]
  obtain ⟨i1, i2, i3, i4, -, -⟩ := GData.destroy_spec true h.base _ hde
  have hne : ∀ g, (if g ∈ ids then none else S.geos g) ≠ none ↔ g ∉ ids ∧ S.geos g ≠ none := by
    intro g
    split <;> simp [*]
  refine ⟨t, l ++ Spec.marks 2 ids, ?_, fun p => ?_, ⟨l, rfl, hp⟩, ?_⟩
  · refine ⟨i1, fun p g => by rw [i2]; exact h.grids p g, fun p g => by rw [i3]; exact h.loc p g, fun p g k hk hm => ?_,
      h.nonempty, fun p g => ?_, fun p g k d hd hk hm => ?_, fun hgt p g hg => ?_, fun g => ?_, fun p g k hg hk hm => ?_,
      fun g hg => ?_, fun p => ?_⟩
    · show (destroyed ids (u p)).comm g = k
      rw [(hf p).2.1, hcomm]
      exact h.comm p g k hk hm
    · rw [i4]
      show _ ↔ (if g ∈ ids then none else S.geos g) ≠ none
      rw [hne, h.geos]
    · show (destroyed ids (u p)).data g = d
      rw [(hf p).2.2.2.1, hdt]
      change (if g ∈ ids then none else S.geos g) = some d at hd
      split at hd
      · cases hd
      · exact h.data p g k d hd hk hm
    · show (destroyed ids (u p)).info g = S.infos g
      rw [(hf p).2.2.2.2.1, hin]
      exact h.info hgt p g ((hne g).1 hg).2
    · show _ ↔ False
      refine ⟨fun hp => Clean.pending (fun p => ?_) g hp, False.elim⟩
      rintro ⟨g', f⟩ hf'
      change (g', f) ∈ (destroyed ids (u p)).base.locals.entries at hf'
      rw [(hf p).1] at hf'
      have := clean_synced (fun p => (s p).base) l p
      rw [← hub] at this
      exact this _ (((Comp.fold_merase intLess_sto ids (hS.base.wf p)).2 g' f).1 hf').2
    · show (destroyed ids (u p)).handles g = S.handles g
      rw [(hf p).2.2.2.2.2, if_neg ((hne g).1 hg).1, hh]
      exact h.handles p g k ((hne g).1 hg).2 hk hm
    · by_cases hi : g ∈ ids
      · exact (hl g hi).2
      · exact h.fresh g (by
          change (if g ∈ ids then none else S.geos g) = none at hg
          rwa [if_neg hi] at hg)
    · show (destroyed ids (u p)).comp = S.comp
      rw [(hf p).2.2.1, hcomp]
      exact h.comp p
  · show (destroyed ids (u p)).base.log ++ _ = _
    rw [(hf p).1, hub, each_eq]
    show (s p).base.log ++ l ++ _ = _
    rw [List.append_assoc]
    rfl
  · show Runs (member mem) comb All (fun p => destroy debug ids (s p)) _
    unfold destroy
    refine .bind (world_runs 1) (.bind (a := fun _ => true) ?_ ?_)
    · cases debug
      · exact .ret _
      · refine (h.checkEditing hl).congr (fun p _ => ?_) fun _ _ => rfl
        rw [if_pos rfl, if_pos (List.all_eq_true.2 (hv p))]
    · refine Runs.congr ?_ (fun p _ => (if_neg fun hc => Bool.noConfusion hc).symm) fun _ _ => rfl
      refine .bind hr (.bind (world_runs 1) (.bind (destroyLocals_runs ids hS.placed hS.held fun g hg => ?_)
        (.bind (world_runs 1) (.ret _))))
      exact h.ends p0 (hl g hg).1

/-! ### Clearing -/

theorem sorted_eq : ∀ {a b : List Int}, a.Pairwise (· < ·) → b.Pairwise (· < ·) → (∀ x, x ∈ a ↔ x ∈ b) → a = b := by
  intro a
  induction a with
  | nil =>
    intro b _ _ h
    exact (List.eq_nil_iff_forall_not_mem.2 fun x hx => by have := (h x).2 hx; cases this).symm
  | cons x a ih =>
    intro b ha hb h
    cases b with
    | nil => have := (h x).1 (by simp); cases this
    | cons y b =>
      rw [List.pairwise_cons] at ha hb
      have e : x = y := by
        have h1 := (h x).1 (by simp)
        have h2 := (h y).2 (by simp)
        rcases List.mem_cons.1 h1 with h1 | h1
        · exact h1
        · rcases List.mem_cons.1 h2 with h2 | h2
          · exact h2.symm
          · have := hb.1 x h1
            have := ha.1 y h2
            omega
      subst e
      refine congrArg (x :: ·) (ih ha.2 hb.2 fun z => ?_)
      have := h z
      rw [List.mem_cons, List.mem_cons] at this
      constructor
      · intro hz
        rcases this.1 (.inr hz) with e | e
        · subst e
          have := ha.1 z hz
          omega
        · exact e
      · intro hz
        rcases this.2 (.inr hz) with e | e
        · subst e
          have := hb.1 z hz
          omega
        · exact e

theorem sorted_lt {l : List Int} (h : Sorted intLess l) : l.Pairwise (· < ·) :=
  List.Pairwise.imp (fun hab => by simpa [intLess] using hab) h

/-- The same operations, with a step for every grid. -/
theorem clearLocals_filter (s : State) : ∀ ids : List Int, clearLocals (ids.filter s.isLocal) s =
    ids.foldr (fun g x => Prog.bind (if s.isLocal g then barriers (.grid (s.comm g)) 2 else .ret ()) fun _ => x) (.ret ()) := by
  intro ids
  induction ids with
  | nil => rfl
  | cons g ids ih =>
    rw [List.foldr_cons, ← ih]
    by_cases h : s.isLocal g = true
    · rw [List.filter_cons_of_pos h, if_pos h]
      rfl
    · rw [List.filter_cons_of_neg h, if_neg h]
      rfl

theorem clearLocals_runs {G : Int → Option Nat} {s : Fin n → State} (h : Placed mem G s) {ids : List Int}
    (hk : ∀ p, (s p).base.locals.keys = ids.filter (s p).isLocal) (hg : ∀ g ∈ ids, G g ≠ none) :
    Runs (member mem) comb All (fun p => clearLocals (s p).base.locals.keys (s p)) fun _ => () := by
  simp only [hk, clearLocals_filter]
  clear hk
  induction ids with
  | nil => exact .ret _
  | cons g ids ih =>
    obtain ⟨k, hk⟩ := Option.ne_none_iff_exists'.1 (hg g (by simp))
    exact .bind (on_grid (k := k) (fun p => (h g k hk p).1) fun p => (h g k hk p).2) (ih fun g' hg' => hg g' (by simp [hg']))

theorem Inv.keys (h : Inv mem geo S s) (p : Fin n) :
    (s p).base.locals.keys = (s p).base.records.filter (s p).isLocal := by
  have hw := h.base.wf p
  refine sorted_eq (sorted_lt hw.2) (List.Pairwise.filter _ (sorted_lt (h.base.rsort p))) fun g => ?_
  rw [List.mem_filter, hw.1]
  unfold State.isLocal
  rw [oset_contains_iff intLess_sto (h.base.lsort p), ← h.base.key p g, List.mem_map]
  constructor
  · rintro ⟨⟨a, f⟩, hm, rfl⟩
    exact ⟨f, hm⟩
  · rintro ⟨f, hm⟩
    exact ⟨_, hm, rfl⟩

theorem works_clear {debug : Bool} (p0 : Fin n) (h : Inv mem geo S s) (hl : Spec.Legal mem geo S .clear) :
    Works mem root geo debug S s .clear := by
  obtain ⟨l, hp, hs, hr⟩ := h.sync
  have hS := h.synced l
  generalize hu : (fun p => ({ s p with base := GData.synced (fun p => (s p).base) l p } : State)) = u at hS
  replace hr : Runs (member mem) comb All (fun p => GeoC.sync (s p)) fun p => some (u p) := by
    rw [← hu]
    exact hr
  have hub : ∀ p, (u p).base = GData.synced (fun p => (s p).base) l p := fun p => by rw [← hu]
  let t : Fin n → State := fun p => { u p with
      base := { (u p).base with
        locals := ⟨[], []⟩
        records := []
        log := (u p).base.log ++ GData.each Comp.DESTROY (u p).base.records.length (u p).base.records 0 }
      handles := fun _ => 0 }
  have hcl : GData.clear (fun p => (s p).base) = some fun p => (t p).base := by
    unfold GData.clear
    rw [hs, Option.bind_some, Option.some.injEq]
    funext p
    show _ = ({ (u p).base with
        locals := ⟨[], []⟩
        records := []
        log := (u p).base.log ++ GData.each Comp.DESTROY (u p).base.records.length (u p).base.records 0 } : GData.Proc)
    rw [hub]
  obtain ⟨w', c1, i1, -, -, -⟩ := GData.clear_spec h.base
  rw [hcl] at c1
  cases c1
  have hrec : ∀ p, (u p).base.records = (s p0).base.records := fun p => by
    rw [hub]
    exact h.base.records p p0
  refine ⟨t, l ++ Spec.marks 2 (s p0).base.records, ?_, fun p => ?_, ⟨l, _, rfl, hp, sorted_lt (h.base.rsort p0),
    fun g => h.geos p0 g⟩, ?_⟩
  · refine ⟨i1, hS.grids, hS.loc, hS.comm, h.nonempty, fun p g => ?_, fun p g k d hd => ?_, fun _ p g hg => ?_,
      fun g => ?_, fun p g k hg => ?_, fun g _ => ?_, hS.comp⟩
    · show g ∈ [] ↔ (none : Option Data) ≠ none
      simp
    · cases hd
    · exact absurd rfl hg
    · show _ ↔ False
      refine ⟨fun hp => Clean.pending (fun p => ?_) g hp, False.elim⟩
      intro e he
      cases he
    · exact absurd rfl hg
    · by_cases hg : S.geos g = none
      · exact h.fresh g hg
      · exact hl g hg
  · show (u p).base.log ++ _ = _
    rw [hrec, hub, each_eq]
    show (s p).base.log ++ l ++ _ = _
    rw [List.append_assoc]
    rfl
  · show Runs (member mem) comb All (fun p => clear debug (s p)) _
    unfold clear
    refine .bind (world_runs 1) (.bind (a := fun _ => true) ?_ ?_)
    · cases debug
      · exact .ret _
      · refine (h.checkEditing (ids := (s p0).base.records) fun g hg => ?_).congr (fun p _ => ?_) fun _ _ => rfl
        · have := (h.geos p0 g).1 hg
          exact ⟨this, hl g this⟩
        · rw [if_pos rfl, h.base.records p p0]
    · refine Runs.congr ?_ (fun p _ => (if_neg fun hc => Bool.noConfusion hc).symm) fun _ _ => rfl
      refine .bind hr (.bind (world_runs 1) (.bind (clearLocals_runs (ids := (s p0).base.records) hS.placed (fun p => ?_)
        fun g hg => ?_) (.bind (world_runs 1) (.ret _))))
      · rw [hS.keys p, hrec]
      · exact h.ends p0 ((h.geos p0 g).1 hg)

/-! ### Grids -/

theorem gridEvent_destroy {debug : Bool} (p0 : Fin n) (h : Inv mem geo S s) {ids : List Int} (hi : ids ≠ [])
    (hl : ∀ g ∈ ids, S.geos g ≠ none ∧ S.handles g = 0) :
    ∃ t l l' ds, Inv mem geo { S with geos := fun g => if g ∈ ids then none else S.geos g, pend := fun _ => False } t ∧
      (∀ p, (t p).base.log = (s p).base.log ++ l) ∧ l = l' ++ Spec.marks 2 ds ∧ Spec.Announces S.pend l' ∧
      ds.Pairwise (· < ·) ∧ (∀ g, g ∈ ds ↔ g ∈ ids) ∧
      Runs (member mem) comb All (fun p => gridEvent debug Comp.DESTROY ids (s p)) fun p => some (t p) := by
  have hd := GData.mem_dying ids
  obtain ⟨t, l, h1, h2, ⟨l', h3, h4⟩, h5⟩ := works_destroy (root := mem) (debug := debug) p0 h
    (ids := GData.dying (Comp.gridFlags Comp.DESTROY ids)) fun g hg => hl g ((hd g).1 hg)
  refine ⟨t, l, l', _, h1.congr (fun _ => rfl) (fun g => ?_) (fun _ => rfl) (fun _ => Iff.rfl) (fun _ => rfl) rfl, h2, h3,
    h4, sorted_lt (GData.dying_spec Comp.DESTROY ids).1, hd, ?_⟩
  · show (if g ∈ _ then none else S.geos g) = if g ∈ ids then none else S.geos g
    simp only [hd]
  · refine h5.congr (fun p _ => ?_) fun _ _ => rfl
    unfold gridEvent
    rw [if_neg hi]
    rfl

theorem gridEvent_create {debug : Bool} (p0 : Fin n) (h : Inv mem geo S s) {ids : List Int} (hi : ids ≠ []) :
    ∃ t l, Inv mem geo { S with pend := fun _ => False } t ∧ (∀ p, (t p).base.log = (s p).base.log ++ l) ∧
      Spec.Announces S.pend l ∧
      Runs (member mem) comb All (fun p => gridEvent debug Comp.CREATE ids (s p)) fun p => some (t p) := by
  obtain ⟨t, l, h1, h2, ⟨l', h3, h4⟩, h5⟩ := works_destroy (root := mem) (debug := debug) p0 h (ids := []) (fun g hg => by cases hg)
  rw [show Spec.marks 2 [] = [] from rfl, List.append_nil] at h3
  subst h3
  refine ⟨t, l, h1.congr (fun _ => rfl) (fun g => ?_) (fun _ => rfl) (fun _ => Iff.rfl) (fun _ => rfl) rfl, h2, h4, ?_⟩
  · show (if g ∈ [] then none else S.geos g) = S.geos g
    simp
  · refine h5.congr (fun p _ => ?_) fun _ _ => rfl
    unfold gridEvent
    rw [if_neg hi, GData.dying_create]
    rfl

theorem added_fields (mine : Nat → Bool) : ∀ (es : List (Int × Nat)) (s : State), Sorted intLess s.base.localGrids →
    (es.map Prod.fst).Nodup →
    (addGrids mine es s).base = { s.base with localGrids := (addGrids mine es s).base.localGrids } ∧
    Sorted intLess (addGrids mine es s).base.localGrids ∧
    (∀ g, g ∈ (addGrids mine es s).base.localGrids ↔ (∃ k, (g, k) ∈ es ∧ mine k = true) ∨ g ∈ s.base.localGrids) ∧
    ((addGrids mine es s).handles = s.handles ∧ (addGrids mine es s).comp = s.comp ∧
      (addGrids mine es s).data = s.data ∧ (addGrids mine es s).info = s.info) ∧
    (∀ g, g ∉ es.map Prod.fst → (addGrids mine es s).comm g = s.comm g) ∧
    ∀ e ∈ es, mine e.2 = true → (addGrids mine es s).comm e.1 = e.2 := by
  intro es
  induction es with
  | nil => intro s hs _; exact ⟨rfl, hs, by simp [addGrids], ⟨rfl, rfl, rfl, rfl⟩, fun _ _ => rfl, by simp⟩
  | cons e es ih =>
    obtain ⟨g, k⟩ := e
    intro s hs hnd
    rw [List.map_cons, List.nodup_cons] at hnd
    unfold addGrids
    by_cases hm : mine k = true
    · rw [if_pos hm]
      obtain ⟨o1, o2⟩ := oset_insert_spec intLess_sto hs g
      obtain ⟨h1, h2, h3, h4, h6, h7⟩ := ih { s with
        base := { s.base with localGrids := OSet.insert intLess s.base.localGrids g }
        comm := set s.comm g k } o1 hnd.2
      refine ⟨h1, h2, fun x => ?_, h4, fun x hx => ?_, ?_⟩
      · rw [h3]
        dsimp only
        rw [o2]
        constructor
        · rintro (⟨k', a, b⟩ | e | a)
          · exact .inl ⟨k', List.mem_cons_of_mem _ a, b⟩
          · exact .inl ⟨k, by rw [e]; exact List.mem_cons_self, hm⟩
          · exact .inr a
        · rintro (⟨k', a, b⟩ | a)
          · rcases List.mem_cons.1 a with e | a
            · cases e; exact .inr (.inl rfl)
            · exact .inl ⟨k', a, b⟩
          · exact .inr (.inr a)
      · rw [List.map_cons, List.mem_cons, not_or] at hx
        rw [h6 x hx.2]
        exact set_ne hx.1
      · intro e he hme
        rcases List.mem_cons.1 he with e' | he
        · subst e'
          rw [h6 _ hnd.1]
          exact set_self _ _ _
        · exact h7 e he hme
    · rw [if_neg hm]
      obtain ⟨h1, h2, h3, h4, h6, h7⟩ := ih s hs hnd.2
      refine ⟨h1, h2, fun x => ?_, h4, fun x hx => h6 x fun h => hx (by simp [h]), ?_⟩
      · rw [h3]
        constructor
        · rintro (⟨k', a, b⟩ | a)
          · exact .inl ⟨k', List.mem_cons_of_mem _ a, b⟩
          · exact .inr a
        · rintro (⟨k', a, b⟩ | a)
          · rcases List.mem_cons.1 a with e | a
            · cases e; exact absurd b hm
            · exact .inl ⟨k', a, b⟩
          · exact .inr a
      · intro e he hme
        rcases List.mem_cons.1 he with e' | he
        · subst e'
          exact absurd hme hm
        · exact h7 e he hme

theorem Inv.add (h : Inv mem geo S s) {es : List (Int × Nat)} (hl : Spec.Legal mem geo S (.createGrids es)) :
    Inv mem geo { S with grids := fun g => (Spec.value es g).or (S.grids g) } fun p =>
      { addGrids (fun k => mem k p) es (s p) with base := { (addGrids (fun k => mem k p) es (s p)).base with
          grids := (es.map Prod.fst).foldl (OSet.insert intLess) (addGrids (fun k => mem k p) es (s p)).base.grids } } := by
  obtain ⟨hnd, hl⟩ := hl
  have hf := fun p => added_fields (fun k => mem k p) es (s p) (h.base.lsort p) hnd
  have hng := value_or (f := S.grids) hnd fun e he => (hl e he).2.1
  generalize hu : (fun p => addGrids (fun k => mem k p) es (s p)) = u
  replace hu : ∀ p, addGrids (fun k => mem k p) es (s p) = u p := fun p => congrFun hu p
  simp only [hu] at hf ⊢
  have b1 : ∀ p, (u p).base.grids = (s p).base.grids := fun p => by rw [(hf p).1]
  have b2 : ∀ p, (u p).base.records = (s p).base.records := fun p => by rw [(hf p).1]
  have b3 : ∀ p, (u p).base.locals = (s p).base.locals := fun p => by rw [(hf p).1]
  have b5 : ∀ p, (u p).base.log = (s p).base.log := fun p => by rw [(hf p).1]
  have hg := fun p => Comp.fold_insert intLess_sto (es.map Prod.fst) (h.base.gsort p)
  have hloc : ∀ p g, S.grids g ≠ none → (g ∈ (u p).base.localGrids ↔ g ∈ (s p).base.localGrids) := by
    intro p g hg
    rw [(hf p).2.2.1]
    constructor
    · rintro (⟨k, a, -⟩ | a)
      · exact absurd (hl _ a).2.1 hg
      · exact a
    · exact .inr
  have hsame : ∀ (p : Fin n) (g : Int) (k : Nat), S.geos g ≠ none → (Spec.value es g).or (S.grids g) = some k → S.grids g = some k := by
    intro p g k hgg hk
    rcases (hng g k).1 hk with a | a
    · exact absurd (hl _ a).2.1 (h.ends p hgg)
    · exact a
  refine ⟨⟨?_, ?_, ?_, ?_, fun p => (hf p).2.1, ?_, ?_, ?_, ?_, ?_, ?_, ?_⟩, ?_, ?_, ?_, ?_, ?_, ?_, ?_, ?_, ?_, h.fresh, ?_⟩
  · intro p q
    show (es.map Prod.fst).foldl (OSet.insert intLess) (u p).base.grids = _
    dsimp only
    rw [b1, b1, h.base.grids p q]
  · intro p q
    show (u p).base.records = (u q).base.records
    rw [b2, b2, h.base.records p q]
  · intro p q
    show (u p).base.log = (u q).base.log
    rw [b5, b5, h.base.log p q]
  · intro p
    dsimp only
    rw [b1]
    exact (hg p).1
  · intro p
    show Sorted intLess (u p).base.records
    rw [b2]
    exact h.base.rsort p
  · intro p g hgg
    dsimp only at hgg
    rw [b1, (hg p).2] at hgg
    rcases hgg with a | a
    · obtain ⟨e, he, rfl⟩ := List.mem_map.1 a
      exact (hl e he).1
    · exact h.base.nonneg p g a
  · intro p g hgl
    dsimp only at hgl ⊢
    rw [b1, (hg p).2]
    rcases ((hf p).2.2.1 g).1 hgl with ⟨k, a, -⟩ | a
    · exact .inl (List.mem_map.2 ⟨_, a, rfl⟩)
    · exact .inr (h.base.sub p g a)
  · intro p c hc
    dsimp only at hc ⊢
    rw [b2] at hc
    rw [b1, (hg p).2]
    exact .inr (h.base.ends p c hc)
  · intro p
    show (u p).base.locals.WF intLess
    rw [b3]
    exact h.base.wf p
  · intro p g
    dsimp only
    rw [b3, b2, h.base.key p g]
    constructor
    · exact fun ⟨a, b⟩ => ⟨a, (hloc p _ (h.ends p ((h.geos p g).1 a))).2 b⟩
    · exact fun ⟨a, b⟩ => ⟨a, (hloc p _ (h.ends p ((h.geos p g).1 a))).1 b⟩
  · intro p g f
    dsimp only
    rw [b3]
    exact h.base.flags p g f
  · intro p g
    dsimp only
    rw [b1, (hg p).2, h.grids, value_or_ne]
  · intro p g
    dsimp only
    rw [(hf p).2.2.1, h.loc]
    simp only [hng]
    constructor
    · rintro (⟨k, a, b⟩ | ⟨k, a, b⟩)
      · exact ⟨k, .inl a, b⟩
      · exact ⟨k, .inr a, b⟩
    · rintro ⟨k, a | a, b⟩
      · exact .inl ⟨k, a, b⟩
      · exact .inr ⟨k, a, b⟩
  · intro p g k hk hm
    show (u p).comm g = k
    rcases (hng g k).1 hk with a | a
    · exact (hf p).2.2.2.2.2 (g, k) a hm
    · rw [(hf p).2.2.2.2.1 g fun hmem => ?_]
      · exact h.comm p g k a hm
      · obtain ⟨e, he, rfl⟩ := List.mem_map.1 hmem
        rw [(hl e he).2.1] at a
        cases a
  · intro g k hk
    rcases (hng g k).1 hk with a | a
    · exact (hl _ a).2.2
    · exact h.nonempty g k a
  · intro p g
    show g ∈ (u p).base.records ↔ _
    rw [b2]
    exact h.geos p g
  · intro p g k d hd hk hm
    show (u p).data g = d
    rw [(hf p).2.2.2.1.2.2.1]
    exact h.data p g k d hd (hsame p g k (by rw [show S.geos g = some d from hd]; simp) hk) hm
  · intro hgt p g hg
    show (u p).info g = S.infos g
    rw [(hf p).2.2.2.1.2.2.2]
    exact h.info hgt p g hg
  · intro g
    refine Iff.trans ?_ (h.pend g)
    constructor <;>
    · rintro ⟨p, f, hf, hb⟩
      refine ⟨p, f, ?_, hb⟩
      dsimp only at hf ⊢
      first
        | rw [b3] at hf; exact hf
        | rw [b3]; exact hf
  · intro p g k hg hk hm
    show (u p).handles g = _
    rw [(hf p).2.2.2.1.1]
    exact h.handles p g k hg (hsame p g k hg hk) hm
  · intro p
    show (u p).comp = _
    rw [(hf p).2.2.2.1.2.1]
    exact h.comp p

theorem works_createGrids {debug : Bool} (p0 : Fin n) (h : Inv mem geo S s) {es : List (Int × Nat)}
    (hl : Spec.Legal mem geo S (.createGrids es)) : Works mem root geo debug S s (.createGrids es) := by
  have hA := h.add hl
  have hlog : ∀ p, (addGrids (fun k => mem k p) es (s p)).base.log = (s p).base.log := fun p => by
    rw [(added_fields (fun k => mem k p) es (s p) (h.base.lsort p) hl.1).1]
  have hchk : ∀ p, (es.map Prod.fst).all (fun g => decide (0 ≤ g) && !OSet.contains intLess (s p).base.grids g) = true := by
    intro p
    rw [List.all_eq_true]
    intro g hg
    obtain ⟨e, he, rfl⟩ := List.mem_map.1 hg
    have := hl.2 e he
    rw [Bool.and_eq_true, decide_eq_true_eq, Bool.not_eq_true', ← Bool.not_eq_true,
      oset_contains_iff intLess_sto (h.base.gsort p), h.grids]
    exact ⟨this.1, by simp [this.2.1]⟩
  by_cases he : es = []
  · subst he
    refine ⟨s, [], ?_, by simp, .inl ⟨rfl, rfl⟩, ?_⟩
    · exact h.congr (fun g => by simp [Spec.apply, Spec.value]) (fun _ => rfl) (fun _ => rfl)
        (fun c => by simp [Spec.apply]) (fun _ => rfl) rfl
    · show Runs (member mem) comb All (fun p => createGrids debug (fun k => mem k p) [] (s p)) _
      unfold createGrids
      refine .bind (world_runs 1) (Runs.congr ?_ (fun p _ => (if_neg fun hc => hc.2 (hchk p)).symm) fun _ _ => rfl)
      exact .bind (world_runs 1) (.bind (.ret _) (.bind (world_runs 1) (.ret _)))
  · have hi : es.map Prod.fst ≠ [] := by simpa using he
    obtain ⟨t, l, h1, h2, h4, h7⟩ := gridEvent_create (debug := debug) p0 hA hi
    refine ⟨t, l, h1.congr (fun _ => rfl) (fun _ => rfl) (fun _ => rfl) (fun g => ?_) (fun _ => rfl) rfl, fun p => ?_,
      .inr ⟨he, h4⟩, ?_⟩
    · show False ↔ es = [] ∧ _
      simp [he]
    · rw [h2 p]
      dsimp only
      rw [hlog]
    · show Runs (member mem) comb All (fun p => createGrids debug (fun k => mem k p) es (s p)) _
      unfold createGrids
      refine .bind (world_runs 1) (Runs.congr ?_ (fun p _ => (if_neg fun hc => hc.2 (hchk p)).symm) fun _ _ => rfl)
      exact .bind (world_runs 1) (.bind h7 (.bind (world_runs 1) (.ret _)))

/-- Local grids after some were removed. -/
def removed (ids : List Int) (s : State) : State :=
  { s with base := { s.base with localGrids := ids.foldl (OSet.erase intLess) s.base.localGrids } }

theorem removeGrids_runs : ∀ (ids : List Int) {s : Fin n → State},
    (∀ p, Sorted intLess (s p).base.localGrids) →
    (∀ g ∈ ids, (∀ p, (s p).isLocal g = false) ∨ ∃ k, ∀ p, (s p).isLocal g = mem k p ∧ (mem k p = true → (s p).comm g = k)) →
    Runs (member mem) comb All (fun p => removeGrids ids (s p)) fun p => removed ids (s p) := by
  intro ids
  induction ids with
  | nil => intro s _ _; exact .ret _
  | cons g ids ih =>
    intro s hs h
    have he := fun p => oset_erase_spec intLess_sto (hs p) g
    refine .bind (a := fun _ => ()) ?_ (ih (fun p => (he p).1) fun g' hg' => ?_)
    · rcases h g (by simp) with h | ⟨k, h⟩
      · exact off_grid h
      · exact on_grid (fun p => (h p).1) fun p => (h p).2
    · have hl : ∀ p, State.isLocal { s p with
          base := { (s p).base with localGrids := OSet.erase intLess (s p).base.localGrids g } } g' =
          (decide (g' ≠ g) && (s p).isLocal g') := by
        intro p
        unfold State.isLocal
        rw [Bool.eq_iff_iff, oset_contains_iff intLess_sto (he p).1, (he p).2, Bool.and_eq_true, decide_eq_true_eq,
          oset_contains_iff intLess_sto (hs p)]
      by_cases hgg : g' = g
      · exact .inl fun p => by rw [hl]; simp [hgg]
      · rcases h g' (by simp [hg']) with h | ⟨k, h⟩
        · exact .inl fun p => by rw [hl, h p]; simp
        · exact .inr ⟨k, fun p => by rw [hl, (h p).1]; exact ⟨by simp [hgg], (h p).2⟩⟩

theorem Inv.remove (h : Inv mem geo S s) {ids : List Int} (hc : ∀ g, S.geos g ≠ none → g ∉ ids) :
    Inv mem geo { S with grids := fun g => if g ∈ ids then none else S.grids g } fun p =>
      { removed ids (s p) with base := { (removed ids (s p)).base with
          grids := ids.foldl (OSet.erase intLess) (removed ids (s p)).base.grids } } := by
  have hg := fun p => Comp.fold_erase intLess_sto ids (h.base.gsort p)
  have hl := fun p => Comp.fold_erase intLess_sto ids (h.base.lsort p)
  have hcp := fun p g (h' : g ∈ (s p).base.records) => hc g ((h.geos p g).1 h')
  have hng : ∀ (g : Int) (k : Nat), (if g ∈ ids then none else S.grids g) = some k ↔ g ∉ ids ∧ S.grids g = some k := by
    intro g k
    split <;> simp [*]
  refine ⟨⟨?_, h.base.records, h.base.log, fun p => (hg p).1, fun p => (hl p).1, h.base.rsort, ?_, ?_, ?_, h.base.wf,
    ?_, h.base.flags⟩, ?_, ?_, ?_, ?_, h.geos, ?_, h.info, h.pend, ?_, h.fresh, h.comp⟩
  · intro p q
    show ids.foldl (OSet.erase intLess) (s p).base.grids = ids.foldl (OSet.erase intLess) (s q).base.grids
    rw [h.base.grids p q]
  · intro p g hgg
    exact h.base.nonneg p g (((hg p).2 g).1 hgg).2
  · intro p g hgl
    have := ((hl p).2 g).1 hgl
    exact ((hg p).2 g).2 ⟨this.1, h.base.sub p g this.2⟩
  · intro p g hgr
    exact ((hg p).2 _).2 ⟨hcp p g hgr, h.base.ends p g hgr⟩
  · intro p g
    refine (h.base.key p g).trans ?_
    refine and_congr_right fun hgr => ?_
    exact (Iff.trans ((hl p).2 _) (and_iff_right (hcp p g hgr))).symm
  · intro p g
    refine ((hg p).2 g).trans ?_
    rw [h.grids]
    dsimp only
    split <;> simp [*]
  · intro p g
    refine ((hl p).2 g).trans ?_
    rw [h.loc]
    simp only [hng]
    exact ⟨fun ⟨a, k, b, d⟩ => ⟨k, ⟨a, b⟩, d⟩, fun ⟨k, ⟨a, b⟩, d⟩ => ⟨a, k, b, d⟩⟩
  · intro p g k hk hmk
    exact h.comm p g k ((hng g k).1 hk).2 hmk
  · intro g k hk
    exact h.nonempty g k ((hng g k).1 hk).2
  · intro p g k d hd hk hmk
    exact h.data p g k d hd ((hng g k).1 hk).2 hmk
  · intro p g k hgg hk hmk
    exact h.handles p g k hgg ((hng _ k).1 hk).2 hmk

theorem works_destroyGrids {debug : Bool} (p0 : Fin n) (h : Inv mem geo S s) {ids : List Int}
    (hl : Spec.Legal mem geo S (.destroyGrids ids)) : Works mem root geo debug S s (.destroyGrids ids) := by
  have hchk : ∀ p, ids.all (fun g => decide (0 ≤ g) && OSet.contains intLess (s p).base.grids g) = true := by
    intro p
    rw [List.all_eq_true]
    intro g hg
    rw [Bool.and_eq_true, decide_eq_true_eq, oset_contains_iff intLess_sto (h.base.gsort p)]
    have := (h.grids p g).2 (hl g hg).1
    exact ⟨h.base.nonneg p g this, this⟩
  by_cases he : ids = []
  · subst he
    refine ⟨s, [], ?_, by simp, .inl ⟨rfl, rfl⟩, ?_⟩
    · exact h.congr (fun g => by simp [Spec.apply]) (fun c => by simp [Spec.apply]) (fun _ => rfl)
        (fun c => by simp [Spec.apply]) (fun _ => rfl) rfl
    · show Runs (member mem) comb All (fun p => destroyGrids debug [] (s p)) _
      unfold destroyGrids
      refine .bind (world_runs 1) (Runs.congr ?_ (fun p _ => (if_neg fun hc => hc.2 (hchk p)).symm) fun _ _ => rfl)
      exact .bind (.ret _) (.bind (world_runs 1) (.bind (.ret _) (.bind (world_runs 1) (.ret _))))
  · obtain ⟨t, l, l', ds, h1, h2, h3, h4, h5, h6, h7⟩ := gridEvent_destroy (debug := debug) p0 h he
      fun g hg => (hl g hg).2
    have hR := h1.remove (ids := ids) fun g hg hi => hg (if_pos hi)
    refine ⟨_, l, hR.congr (fun _ => rfl) (fun _ => rfl) (fun _ => rfl) (fun c => ?_) (fun _ => rfl) rfl, h2,
      .inr ⟨he, l', ds, h3, h4, h5, h6⟩, ?_⟩
    · show False ↔ ids = [] ∧ _
      simp [he]
    · show Runs (member mem) comb All (fun p => destroyGrids debug ids (s p)) _
      unfold destroyGrids
      refine .bind (world_runs 1) (Runs.congr ?_ (fun p _ => (if_neg fun hc => hc.2 (hchk p)).symm) fun _ _ => rfl)
      refine .bind h7 (.bind (world_runs 1) (.bind (removeGrids_runs ids h1.base.lsort ?_)
        (.bind (world_runs 1) (.ret _))))
      · intro g hg
        obtain ⟨k, hk⟩ := Option.ne_none_iff_exists'.1 (hl g hg).1
        exact .inr ⟨k, fun p => h1.placed g k hk p⟩

/-! ### Editing -/

theorem Inv.side (h : Inv mem geo S s) {g : Int} (hg : S.geos g ≠ none) (p : Fin n) :
    ∃ k, S.grids g = some k ∧ (∀ q, (s q).isLocal g = mem k q) ∧
      (∀ q, mem k q = true → (s q).comm g = k ∧ (s q).has g = true ∧ (s q).handles g = S.handles g) := by
  obtain ⟨k, hk⟩ := Option.ne_none_iff_exists'.1 (h.ends p hg)
  exact ⟨k, hk, fun q => (h.placed _ k hk q).1, fun q hq => ⟨h.comm q _ k hk hq,
    ((h.held q).2 g k hk).2 ⟨hg, hq⟩, h.handles q g k hg hk hq⟩⟩

/-- Another number of handles. -/
theorem Inv.setHandles (h : Inv mem geo S s) {g : Int} (hg : S.geos g ≠ none) (i : Nat) {b : Fin n → Bool}
    (hb : ∀ k p, S.grids g = some k → mem k p = true → b p = true) :
    Inv mem geo { S with handles := fun h => if h = g then i else S.handles h } fun p =>
      if b p then { s p with handles := set (s p).handles g i } else s p := by
  generalize ht : (fun p => if b p then { s p with handles := set (s p).handles g i } else s p) = t
  have hbase : ∀ p, (t p).base = (s p).base := fun p => by rw [← ht]; dsimp only; split <;> rfl
  have hcomm : ∀ p, (t p).comm = (s p).comm := fun p => by rw [← ht]; dsimp only; split <;> rfl
  have hcomp : ∀ p, (t p).comp = (s p).comp := fun p => by rw [← ht]; dsimp only; split <;> rfl
  have hdata : ∀ p, (t p).data = (s p).data := fun p => by rw [← ht]; dsimp only; split <;> rfl
  have hinfo : ∀ p, (t p).info = (s p).info := fun p => by rw [← ht]; dsimp only; split <;> rfl
  refine ⟨by simp only [hbase]; exact h.base, by simp only [hbase]; exact h.grids,
    by simp only [hbase]; exact h.loc, by simp only [hcomm]; exact h.comm, h.nonempty,
    by simp only [hbase]; exact h.geos, by simp only [hdata]; exact h.data, by simp only [hinfo]; exact h.info,
    by simp only [hbase]; exact h.pend, ?_, ?_, by simp only [hcomp]; exact h.comp⟩
  · intro p g' k hg' hk hm
    have := h.handles p g' k hg' hk hm
    rw [← ht]
    dsimp only
    by_cases e : g' = g
    · subst e
      rw [if_pos (hb k p hk hm), if_pos rfl]
      exact set_self _ _ _
    · rw [if_neg e]
      split
      · exact (set_ne e).trans this
      · exact this
  · intro g' hg'
    dsimp only
    rw [if_neg fun e => hg (by rw [← e]; exact hg')]
    exact h.fresh g' hg'

theorem works_edit {debug : Bool} (p0 : Fin n) (h : Inv mem geo S s) {g : Int}
    (hl : Spec.Legal mem geo S (.edit g)) : Works mem root geo debug S s (.edit g) := by
  obtain ⟨k, hk, h1, h2⟩ := h.side hl p0
  have hL : ∀ p, mem k p = true → (s p).isLocal g = true := fun p hp => by rw [h1, hp]
  refine ⟨fun p => if (s p).isLocal g then { s p with handles := set (s p).handles g (S.handles g + 1) } else s p, [],
    h.setHandles hl (S.handles g + 1) (fun k' p hk' hm => ?_), fun p => ?_, rfl, ?_⟩
  · rw [hk] at hk'
    cases hk'
    rw [h1, hm]
  · rw [List.append_nil]
    dsimp only
    split <;> rfl
  · refine Runs.sub (T := mem k) ?_ (fun _ _ => rfl) fun p _ hp => ?_
    · refine Runs.congr (a := fun p => some { s p with handles := set (s p).handles g (S.handles g + 1) })
        (P := fun p => (if S.handles g = 0 then barriers (.grid k) 1 else .ret ()).bind fun _ =>
        .ret (some { s p with handles := set (s p).handles g (S.handles g + 1) })) ?_ (fun p hp => ?_) fun p hp => ?_
      · refine .bind (a := fun _ => ()) ?_ (.ret _)
        split
        · exact grid_runs k 1
        · exact .ret _
      · show _ = edit g (s p)
        unfold edit
        obtain ⟨a, b, d⟩ := h2 p hp
        rw [if_pos (hL p hp), if_pos b, a, d]
      · dsimp only
        rw [if_pos (hL p hp)]
    · show edit g (s p) = _
      unfold edit
      have : ¬ (s p).isLocal g = true := by rw [h1, hp]; simp
      dsimp only
      rw [if_neg this, if_neg this]

theorem works_restore {debug : Bool} (p0 : Fin n) (h : Inv mem geo S s) {g : Int}
    (hl : Spec.Legal mem geo S (.restore g)) : Works mem root geo debug S s (.restore g) := by
  obtain ⟨hl, h0⟩ := hl
  obtain ⟨k, hk, h1, h2⟩ := h.side hl p0
  have hL : ∀ p, mem k p = true → (s p).isLocal g = true := fun p hp => by rw [h1, hp]
  refine ⟨fun p => if (s p).isLocal g then { s p with handles := set (s p).handles g (S.handles g - 1) } else s p, [],
    h.setHandles hl (S.handles g - 1) (fun k' p hk' hm => ?_), fun p => ?_, rfl, ?_⟩
  · rw [hk] at hk'
    cases hk'
    rw [h1, hm]
  · rw [List.append_nil]
    dsimp only
    split <;> rfl
  · refine Runs.sub (T := mem k) ?_ (fun _ _ => rfl) fun p _ hp => ?_
    · refine Runs.congr (a := fun p => some { s p with handles := set (s p).handles g (S.handles g - 1) })
        (P := fun p => (if S.handles g = 1 then barriers (.grid k) 1 else .ret ()).bind fun _ =>
        .ret (some { s p with handles := set (s p).handles g (S.handles g - 1) })) ?_ (fun p hp => ?_) fun p hp => ?_
      · refine .bind (a := fun _ => ()) ?_ (.ret _)
        split
        · exact grid_runs k 1
        · exact .ret _
      · show _ = restore g (s p)
        unfold restore
        obtain ⟨a, b, d⟩ := h2 p hp
        have b' : (s p).has g = true ∧ (s p).handles g ≠ 0 := ⟨b, by rw [d]; exact h0⟩
        rw [if_pos (hL p hp), if_pos b', a, d]
      · dsimp only
        rw [if_pos (hL p hp)]
    · show restore g (s p) = _
      unfold restore
      have : ¬ (s p).isLocal g = true := by rw [h1, hp]; simp
      dsimp only
      rw [if_neg this, if_neg this]

theorem raise_all {w : Fin n → GData.Proc} (h : GData.Inv w) (g : Int) : ∀ l : List (Fin n),
    l.Nodup → (∀ p ∈ l, OMap.contains intLess (w p).locals g = true) →
    GData.Inv (fun q => if q ∈ l then { w q with locals := (w q).locals.modify intLess g (· ||| GData.EDIT) } else w q) ∧
      ∀ k, GData.Spec.Pending (fun q => if q ∈ l then
          { w q with locals := (w q).locals.modify intLess g (· ||| GData.EDIT) } else w q) k ↔
        GData.Spec.Pending w k ∨ (l ≠ [] ∧ k = g) := by
  intro l
  induction l with
  | nil =>
    intro _ _
    simp only [List.not_mem_nil, if_false, ne_eq, not_true_eq_false, false_and, or_false, implies_true, and_true]
    exact h
  | cons p l ih =>
    intro hnd hc
    rw [List.nodup_cons] at hnd
    obtain ⟨i1, i2⟩ := ih hnd.2 fun q hq => hc q (by simp [hq])
    have hW : (if p ∈ l then { w p with locals := (w p).locals.modify intLess g (· ||| GData.EDIT) } else w p) = w p :=
      if_neg hnd.1
    have he : GData.edit (fun q => if q ∈ l then
          { w q with locals := (w q).locals.modify intLess g (· ||| GData.EDIT) } else w q) p g =
        some fun q => if q ∈ p :: l then { w q with locals := (w q).locals.modify intLess g (· ||| GData.EDIT) } else w q := by
      unfold GData.edit
      simp only [hW]
      rw [if_pos (hc p List.mem_cons_self)]
      congr 1
      funext q
      by_cases e : q = p
      · subst e
        rw [if_pos rfl, if_pos (List.mem_cons_self (a := q) (l := l))]
      · rw [if_neg e]
        simp [e]
    obtain ⟨j1, -, -, -, -, j2⟩ := GData.edit_spec i1 p g he
    refine ⟨j1, fun k => ?_⟩
    rw [j2, i2]
    constructor
    · rintro ((a | a) | a)
      · exact .inl a
      · exact .inr ⟨by simp, a.2⟩
      · exact .inr ⟨by simp, a⟩
    · rintro (a | a)
      · exact .inl (.inl a)
      · exact .inr a.2

/-- An event that all processes of the grid trigger. -/
theorem Inv.mark (h : Inv mem geo S s) {g : Int} (hg : S.geos g ≠ none) (p0 : Fin n) {b : Fin n → Bool}
    (hb : ∀ k p, S.grids g = some k → b p = mem k p) :
    Inv mem geo { S with pend := fun h => S.pend h ∨ h = g } fun p => if b p then GeoC.mark (s p) g else s p := by
  obtain ⟨k, hk, -, h2⟩ := h.side hg p0
  have hb := fun p => hb k p hk
  obtain ⟨i1, i2⟩ := raise_all h.base g ((List.finRange n).filter b) ((List.nodup_finRange n).filter _) (by
    intro p hp
    have : mem k p = true := by rw [← hb]; exact (List.mem_filter.1 hp).2
    exact (h2 p this).2.1)
  generalize ht : (fun p => if b p then GeoC.mark (s p) g else s p) = t
  have hbase : (fun p => (t p).base) = fun q => if q ∈ (List.finRange n).filter b then
      { (s q).base with locals := (s q).base.locals.modify intLess g (· ||| GData.EDIT) } else (s q).base := by
    funext p
    rw [← ht]
    dsimp only
    have : p ∈ (List.finRange n).filter b ↔ b p = true := by simp [List.mem_filter, List.mem_finRange]
    by_cases e : b p = true
    · rw [if_pos e, if_pos (this.2 e)]
      rfl
    · rw [if_neg e, if_neg fun a => e (this.1 a)]
  have hff : ∀ p, (t p).base.grids = (s p).base.grids ∧ (t p).base.localGrids = (s p).base.localGrids ∧
      (t p).base.records = (s p).base.records ∧ (t p).comm = (s p).comm ∧ (t p).data = (s p).data ∧
      (t p).info = (s p).info ∧ (t p).handles = (s p).handles ∧ (t p).comp = (s p).comp := by
    intro p
    rw [← ht]
    dsimp only
    split <;> exact ⟨rfl, rfl, rfl, rfl, rfl, rfl, rfl, rfl⟩
  refine ⟨by rw [hbase]; exact i1, fun p g => by rw [(hff p).1]; exact h.grids p g,
    fun p g => by rw [(hff p).2.1]; exact h.loc p g, fun p g => by rw [(hff p).2.2.2.1]; exact h.comm p g, h.nonempty,
    fun p g => by rw [(hff p).2.2.1]; exact h.geos p g, fun p g => by rw [(hff p).2.2.2.2.1]; exact h.data p g,
    fun hgt p g => by rw [(hff p).2.2.2.2.2.1]; exact h.info hgt p g, fun g' => ?_,
    fun p g => by rw [(hff p).2.2.2.2.2.2.1]; exact h.handles p g, h.fresh,
    fun p => by rw [(hff p).2.2.2.2.2.2.2]; exact h.comp p⟩
  rw [hbase, i2, h.pend]
  have hne : (List.finRange n).filter b ≠ [] := by
    obtain ⟨q, hq⟩ := h.nonempty _ k hk
    intro e
    have : q ∈ (List.finRange n).filter b := List.mem_filter.2 ⟨List.mem_finRange q, by rw [hb, hq]⟩
    rw [e] at this
    cases this
  simp [hne]

theorem works_change {debug : Bool} (p0 : Fin n) (h : Inv mem geo S s) {g : Int}
    (hl : Spec.Legal mem geo S (.change g)) : Works mem root geo debug S s (.change g) := by
  obtain ⟨hl, h0⟩ := hl
  obtain ⟨k, hk, h1, h2⟩ := h.side hl p0
  have hL : ∀ p, mem k p = true → (s p).isLocal g = true := fun p hp => by rw [h1, hp]
  have hI := h.mark hl p0 (b := fun p => (s p).isLocal g) (fun k' p hk' => by rw [hk] at hk'; cases hk'; exact h1 p)
  refine ⟨_, [], hI, fun p => ?_, rfl, ?_⟩
  · rw [List.append_nil]
    split <;> rfl
  · refine Runs.sub (T := mem k) ?_ (fun _ _ => rfl) fun p _ hp => ?_
    · refine Runs.congr (P := fun p => (barriers (.grid k) 2).bind fun _ =>
        (barriers (.grid k) (if geo then 2 else 1)).bind fun _ => .ret (some (mark (s p) g)))
        (a := fun p => some (mark (s p) g))
        (.bind (grid_runs k 2) (.bind (grid_runs k _) (.ret _))) (fun p hp => ?_) fun p hp => ?_
      · show _ = change geo g (s p)
        unfold change
        obtain ⟨a, b, d⟩ := h2 p hp
        rw [if_pos (hL p hp), if_pos b, a]
      · rw [if_pos (hL p hp)]
    · show change geo g (s p) = _
      unfold change
      have : ¬ (s p).isLocal g = true := by rw [h1, hp]; simp
      rw [if_neg this, if_neg this]

/-- Another periodic length. -/
theorem Inv.setData (h : Inv mem geo S s) {g : Int} (l : List Nat) {b : Fin n → Bool}
    (hb : ∀ k p, S.grids g = some k → b p = mem k p) :
    Inv mem geo { S with geos := fun h => if h = g then (S.geos g).map fun d => ⟨d.type, l⟩ else S.geos h } fun p =>
      if b p then { s p with data := set (s p).data g { (s p).data g with length := l } } else s p := by
  have hne : ∀ h, (if h = g then (S.geos g).map fun d => (⟨d.type, l⟩ : Data) else S.geos h) = none ↔ S.geos h = none := by
    intro h
    split
    · rename_i e
      rw [e, Option.map_eq_none_iff]
    · exact Iff.rfl
  generalize ht : (fun p => if b p then { s p with data := set (s p).data g { (s p).data g with length := l } } else s p) = t
  have hff : ∀ p, (t p).base = (s p).base ∧ (t p).comm = (s p).comm ∧ (t p).info = (s p).info ∧
      (t p).handles = (s p).handles ∧ (t p).comp = (s p).comp := by
    intro p
    rw [← ht]
    dsimp only
    split <;> exact ⟨rfl, rfl, rfl, rfl, rfl⟩
  have hbase := fun p => (hff p).1
  refine ⟨by simp only [hbase]; exact h.base, by simp only [hbase]; exact h.grids,
    by simp only [hbase]; exact h.loc, fun p g => by rw [(hff p).2.1]; exact h.comm p g, h.nonempty,
    fun p g => by rw [hbase, h.geos, Ne, Ne, hne], fun p g' k d hd hk hm => ?_,
    fun hgt p g' hg' => by rw [(hff p).2.2.1]; exact h.info hgt p g' fun e => hg' ((hne g').2 e),
    by simp only [hbase]; exact h.pend,
    fun p g' k hg' => by rw [(hff p).2.2.2.1]; exact h.handles p g' k fun e => hg' ((hne g').2 e),
    fun g' hg' => h.fresh g' ((hne g').1 hg'), fun p => by rw [(hff p).2.2.2.2]; exact h.comp p⟩
  rw [← ht]
  dsimp only at hd ⊢
  by_cases e : g' = g
  · subst e
    rw [if_pos rfl] at hd
    obtain ⟨d', hd', rfl⟩ := Option.map_eq_some_iff.1 hd
    rw [if_pos (by rw [hb k p hk, hm])]
    dsimp only
    rw [set_self, h.data p g' k d' hd' hk hm]
  · rw [if_neg e] at hd
    have := h.data p g' k d hd hk hm
    split
    · exact (set_ne e).trans this
    · exact this

theorem works_setLength {debug : Bool} (p0 : Fin n) (h : Inv mem geo S s) {g : Int} {l : List Nat}
    (hl : Spec.Legal mem geo S (.setLength g l)) : Works mem root geo debug S s (.setLength g l) := by
  obtain ⟨-, hl, h0⟩ := hl
  obtain ⟨k, hk, h1, h2⟩ := h.side hl p0
  have hb : ∀ k' p, S.grids g = some k' → (s p).isLocal g = mem k' p := fun k' p hk' => by
    rw [hk] at hk'; cases hk'; exact h1 p
  have hI := (h.setData l (b := fun p => (s p).isLocal g) hb).mark (g := g) (by simp [hl]) p0
    (b := fun p => (s p).isLocal g) hb
  refine ⟨_, [], hI, fun p => ?_, rfl, ?_⟩
  · rw [List.append_nil]
    split <;> rfl
  · refine (Runs.ret _).congr (fun p _ => ?_) fun _ _ => rfl
    show _ = setLength g l (s p)
    unfold setLength
    by_cases e : (s p).isLocal g = true
    · rw [if_pos e, if_pos e, if_pos e, if_pos (h2 p (by rw [← h1, e])).2.1]
    · rw [if_neg e, if_neg e, if_neg e]

theorem works_editComponent {debug : Bool} (h : Inv mem geo S s) : Works mem root geo debug S s .editComponent := by
  refine ⟨fun p => { s p with comp := (s p).comp + 1 }, [], ?_, by simp, rfl, ?_⟩
  · exact ⟨h.base, h.grids, h.loc, h.comm, h.nonempty, h.geos, h.data, h.info, h.pend, h.handles, h.fresh,
      fun p => congrArg (· + 1) (h.comp p)⟩
  · show Runs (member mem) comb All (fun p => editComponent (s p)) _
    unfold editComponent
    refine .bind (a := fun _ => ()) ?_ (.ret _)
    simp only [h.comp]
    split
    · exact world_runs 1
    · exact .ret _

theorem works_restoreComponent {debug : Bool} (h : Inv mem geo S s) (hl : Spec.Legal mem geo S .restoreComponent) :
    Works mem root geo debug S s .restoreComponent := by
  by_cases h1 : S.comp = 1
  · have h' : Inv mem geo { S with comp := 0 } fun p => { s p with comp := 0 } :=
      ⟨h.base, h.grids, h.loc, h.comm, h.nonempty, h.geos, h.data, h.info, h.pend, h.handles, h.fresh, fun _ => rfl⟩
    obtain ⟨l, hp, -, hr⟩ := h'.sync
    refine ⟨_, l, (h'.synced l).congr (fun _ => rfl) (fun _ => rfl) (fun _ => rfl) (fun c => ?_) (fun _ => rfl) ?_,
      fun p => rfl, .inr ⟨h1, hp⟩, ?_⟩
    · show False ↔ S.comp ≠ 1 ∧ _
      simp [h1]
    · show 0 = S.comp - 1
      omega
    · show Runs (member mem) comb All (fun p => restoreComponent (s p)) _
      refine Runs.congr (P := fun p => (sync { s p with comp := 0 }).bind fun r => match r with
        | none => .ret none
        | some s => (barriers .world 2).bind fun _ => .ret (some s)) (.bind hr (.bind (world_runs 2) (.ret _)))
        (fun p _ => ?_) fun _ _ => rfl
      unfold restoreComponent
      rw [if_neg (by rw [h.comp, h1]; decide), if_pos (by rw [h.comp, h1])]
      rfl
  · refine ⟨fun p => { s p with comp := (s p).comp - 1 }, [], ?_, by simp, .inl ⟨h1, rfl⟩, ?_⟩
    · exact ⟨h.base, h.grids, h.loc, h.comm, h.nonempty, h.geos, h.data, h.info,
        fun g => (h.pend g).trans ⟨fun a => ⟨h1, a⟩, fun a => a.2⟩, h.handles, h.fresh,
        fun p => congrArg (· - 1) (h.comp p)⟩
    · show Runs (member mem) comb All (fun p => restoreComponent (s p)) _
      refine (Runs.ret _).congr (fun p _ => ?_) fun _ _ => rfl
      unfold restoreComponent
      rw [if_neg (by rw [h.comp]; exact hl), if_neg (by rw [h.comp]; exact h1)]

theorem works (debug : Bool) (hroot : Spec.Roots mem root) (p0 : Fin n) (h : Inv mem geo S s) {a : Act}
    (hl : Spec.Legal mem geo S a) : Works mem root geo debug S s a := by
  cases a with
  | createGrids es => exact works_createGrids p0 h hl
  | destroyGrids ids => exact works_destroyGrids p0 h hl
  | create es => exact works_create hroot h hl
  | destroy ids => exact works_destroy p0 h hl
  | clear => exact works_clear p0 h hl
  | edit g => exact works_edit p0 h hl
  | restore g => exact works_restore p0 h hl
  | change g => exact works_change p0 h hl
  | setLength g l => exact works_setLength p0 h hl
  | editComponent => exact works_editComponent h
  | restoreComponent => exact works_restoreComponent h hl

theorem history_runs (debug : Bool) (hroot : Spec.Roots mem root) (p0 : Fin n) : ∀ (as : List Act) {S : Spec.World}
    {s : Fin n → State}, Inv mem geo S s → Spec.LegalAll mem geo S as →
    ∃ t l, Inv mem geo (Spec.after S as) t ∧ (∀ p, (t p).base.log = (s p).base.log ++ l) ∧ Spec.Hears S as l ∧
      Runs (member mem) comb All (fun p => history mem root geo debug p as (s p)) fun p => some (t p) := by
  intro as
  induction as with
  | nil => intro S s h _; exact ⟨s, [], h, by simp, rfl, .ret _⟩
  | cons a as ih =>
    intro S s h hl
    obtain ⟨t, l, h1, h2, h3, h4⟩ := works debug hroot p0 h hl.1
    obtain ⟨t', l', h1', h2', h3', h4'⟩ := ih h1 hl.2
    exact ⟨t', l ++ l', h1', fun p => by rw [h2', h2, List.append_assoc], ⟨l, l', rfl, h3, h3'⟩, .bind h4 h4'⟩

theorem Inv.right (h : Inv mem geo S s) (p : Fin n) : Spec.Right mem geo S p (s p) := by
  refine ⟨h.grids p, h.loc p, h.geos p, fun g => ?_, fun g d k hd => h.data p g k d hd, fun hg => h.info hg p⟩
  rw [h.base.key p g, h.geos, h.loc]

/-- **C127.** Whatever calls are made, if they are legal then they end in every execution, with and without
`OVK_DEBUG`: every process knows what exists, has what is on its grids, and all listeners have been told the same, which
is what happened. -/
theorem C127_calls (hn : 0 < n) (hroot : Spec.Roots mem root) (geo debug : Bool) {as : List Act}
    (hl : Spec.LegalAll mem geo Spec.empty as) :
    ∃ (t : Fin n → State) (l : List GData.Call),
      Spec.Ends mem (fun p => history mem root geo debug p as State.start) (fun p => some (t p)) ∧
      (∀ p, Spec.Right mem geo (Spec.after Spec.empty as) p (t p)) ∧ (∀ p, (t p).base.log = l) ∧
      Spec.Hears Spec.empty as l := by
  obtain ⟨t, l, h1, h2, h3, h4⟩ := history_runs debug hroot ⟨0, hn⟩ as inv_start hl
  obtain ⟨N, hN⟩ := h4.executions
  exact ⟨t, l, ⟨N, fun cs y hy => ⟨(hN cs y hy).1, (hN cs y hy).2.1⟩⟩, h1.right, fun p => by rw [h2]; rfl, h3⟩

theorem history_append (debug : Bool) (p : Fin n) (bs : List Act) : ∀ (as : List Act) (s : State),
    history mem root geo debug p (as ++ bs) s = (history mem root geo debug p as s).bind fun r => match r with
      | none => .ret none
      | some t => history mem root geo debug p bs t := by
  intro as
  induction as with
  | nil => intro s; rfl
  | cons a as ih =>
    intro s
    show (callProg mem root geo debug p s a).bind _ = ((callProg mem root geo debug p s a).bind _).bind _
    rw [Prog.bind_assoc]
    congr 1
    funext r
    cases r with
    | none => rfl
    | some t => exact ih t

/-- C127 needs all processes of the grid: if one of them does not take part in an edit of a geometry that is not being
edited, in the last restore, or in a change, no execution ends. -/
theorem C127_skip (debug : Bool) (hroot : Spec.Roots mem root) {as : List Act} (hl : Spec.LegalAll mem geo Spec.empty as)
    {g : Int} {a : Act}
    (ha : a = .edit g ∧ (Spec.after Spec.empty as).handles g = 0 ∨
      a = .restore g ∧ (Spec.after Spec.empty as).handles g = 1 ∨ a = .change g)
    (hg : (Spec.after Spec.empty as).geos g ≠ none) {k : Nat} (hk : (Spec.after Spec.empty as).grids g = some k)
    {p q : Fin n} (hp : mem k p = true) (hq : mem k q = true) {part : Fin n → Bool} (hpp : part p = true)
    (hqp : part q = false) :
    ∀ ds y, run (member mem) comb
      (fun r => history mem root geo debug r (if part r then as ++ [a] else as) State.start) ds = some y → ¬ Done y := by
  obtain ⟨t, l, h1, -, -, h4⟩ := history_runs debug hroot p as inv_start hl
  obtain ⟨k', hk', h5, h6⟩ := h1.side hg p
  rw [hk] at hk'
  cases hk'
  intro ds y hy hd
  obtain ⟨ds', hds'⟩ := h4 (Option State) (fun r x => match x with
      | none => .ret none
      | some t => if part r then history mem root geo debug r [a] t else .ret (some t))
    (fun r => history mem root geo debug r (if part r then as ++ [a] else as) State.start) fun r _ => by
      cases e : part r
      · have := history_append (mem := mem) (root := root) (geo := geo) debug r [] as State.start
        rw [List.append_nil] at this
        rw [if_neg (by simp), this]
        congr 1
      · rw [if_pos rfl, history_append]
        rfl
  obtain ⟨ds'', h7, -⟩ := confluent_run ds hy hd ds' hds'
  refine apart (c := .grid k) (l := .base .barrier) (p := p) (q := q) hp hq ds'' ?_ ?_ h7 hd
  · dsimp only
    rw [if_pos rfl, if_pos hpp]
    obtain ⟨g1, g2, g3⟩ := h6 p hp
    have hL : (t p).isLocal g = true := by rw [h5, hp]
    rcases ha with ⟨rfl, h0⟩ | ⟨rfl, h0⟩ | rfl
    · rw [h0] at g3
      show ∃ v, ((edit g (t p)).bind _).at (.grid k) = some (.base .barrier, v)
      unfold edit
      rw [if_pos hL, if_pos g2, if_pos g3, g1]
      exact ⟨[], if_pos rfl⟩
    · rw [h0] at g3
      show ∃ v, ((restore g (t p)).bind _).at (.grid k) = some (.base .barrier, v)
      unfold restore
      rw [if_pos hL, if_pos ⟨g2, by rw [g3]; decide⟩, if_pos g3, g1]
      exact ⟨[], if_pos rfl⟩
    · show ∃ v, ((change geo g (t p)).bind _).at (.grid k) = some (.base .barrier, v)
      unfold change
      rw [if_pos hL, if_pos g2, g1]
      exact ⟨[], if_pos rfl⟩
  · dsimp only
    rw [if_pos rfl, if_neg (by rw [hqp]; simp)]
    trivial

/-! ### Descriptions -/

/-- The description of a geometry that every process has says what the geometry is. -/
def C127_statement : Prop :=
  ∀ (n : Nat) (mem root : Nat → Fin n → Bool) (debug : Bool) (as : List Act), Spec.Roots mem root →
    Spec.LegalAll mem true Spec.empty as →
    ∀ cs y, run (member mem) comb (fun p => history mem root true debug p as State.start) cs = some y →
      ∀ p t, y p = .ret (some t) → ∀ g d, (Spec.after Spec.empty as).geos g = some d → t.info g = d

theorem described_after {g : Int} : ∀ (as : List Act) (S : Spec.World), (∀ l, Act.setLength g l ∉ as) →
    (∀ d, S.geos g = some d → S.infos g = d) →
    ∀ d, (Spec.after S as).geos g = some d → (Spec.after S as).infos g = d := by
  intro as
  induction as with
  | nil => intro S _ h; exact h
  | cons a as ih =>
    intro S hn h
    refine ih (Spec.apply S a) (fun l hl => hn l (List.mem_cons_of_mem _ hl)) ?_
    intro d
    cases a with
    | destroyGrids ids =>
      show (if g ∈ ids then none else S.geos g) = some d → _
      split
      · intro h; cases h
      · exact h d
    | destroy ids =>
      show (if g ∈ ids then none else S.geos g) = some d → _
      split
      · intro h; cases h
      · exact h d
    | clear => intro h; cases h
    | create es =>
      show (Spec.value es g).or (S.geos g) = some d → (Spec.value es g).getD (S.infos g) = d
      cases e : Spec.value es g with
      | none => exact h d
      | some v => intro hv; exact Option.some.inj hv
    | setLength g' l =>
      show (if g = g' then (S.geos g').map (fun d => (⟨d.type, l⟩ : Data)) else S.geos g) = some d → S.infos g = d
      rw [if_neg fun e => hn l (by rw [e]; exact List.mem_cons_self)]
      exact h d
    | _ => exact h d

/-- `C127_statement` for geometries whose periodic length is not set again. Missing: descriptions are not updated when it
is. -/
theorem C127_infos_partial (hn : 0 < n) (hroot : Spec.Roots mem root) (debug : Bool) {as : List Act}
    (hl : Spec.LegalAll mem true Spec.empty as) {g : Int} (hs : ∀ l, Act.setLength g l ∉ as) :
    ∃ t : Fin n → State, Spec.Ends mem (fun p => history mem root true debug p as State.start) (fun p => some (t p)) ∧
      ∀ p d, (Spec.after Spec.empty as).geos g = some d → (t p).info g = d := by
  obtain ⟨t, l, h1, h2, -, -⟩ := C127_calls hn hroot true debug hl
  refine ⟨t, h1, fun p d hd => ?_⟩
  rw [(h2 p).2.2.2.2.2 rfl g (by rw [hd]; simp)]
  exact described_after as Spec.empty hs (fun d hd => by cases hd) d hd

/-! ### Examples -/

/-- Three processes; communicator 0 has processes 0 and 1, communicator 1 has processes 1 and 2. -/
def exMem (k : Nat) (p : Fin 3) : Bool := decide (k = 0 ∧ p ≠ 2 ∨ k = 1 ∧ p ≠ 0)

/-- The processes with rank 0: 1 and 2. -/
def exRoot (k : Nat) (p : Fin 3) : Bool := decide (k = 0 ∧ p = 1 ∨ k = 1 ∧ p = 2)

/-- Two grids and geometries for both are created; in an edit of the component coordinates of one are changed, and the
periodic length of the other; then a grid is destroyed, and with it its geometry; then the other geometry. -/
def exActs : List Act :=
  [.createGrids [(5, 0), (3, 1)], .create [(5, ⟨1, [2]⟩), (3, ⟨4, [7, 0]⟩)], .editComponent, .edit 5, .edit 3, .change 5,
    .setLength 3 [8, 0], .restore 5, .restore 3, .restoreComponent, .destroyGrids [5], .clear]

example : Spec.Roots exMem exRoot := by
  rintro k ⟨p, hp⟩
  have : k = 0 ∨ k = 1 := by
    simp only [exMem, decide_eq_true_eq] at hp
    rcases hp with hp | hp
    · exact .inl hp.1
    · exact .inr hp.1
  rcases this with rfl | rfl
  · exact ⟨1, by decide, by decide⟩
  · exact ⟨2, by decide, by decide⟩

example : Spec.LegalAll exMem true Spec.empty exActs := by
  refine ⟨⟨by decide, ?_⟩, ⟨by decide, ?_⟩, trivial, ?_, ?_, ?_, ?_, ?_, ?_, ?_, ?_, ?_, trivial⟩
  · intro e he
    simp only [List.mem_cons, List.not_mem_nil, or_false] at he
    rcases he with rfl | rfl
    · exact ⟨by decide, rfl, 1, by decide⟩
    · exact ⟨by decide, rfl, 1, by decide⟩
  · intro e he
    simp only [List.mem_cons, List.not_mem_nil, or_false] at he
    rcases he with rfl | rfl
    · exact ⟨by decide, rfl⟩
    · exact ⟨by decide, rfl⟩
  · simp [Spec.Legal, Spec.apply, Spec.empty, Spec.value]
  · simp [Spec.Legal, Spec.apply, Spec.empty, Spec.value]
  · simp [Spec.Legal, Spec.apply, Spec.empty, Spec.value]
  · simp [Spec.Legal, Spec.apply, Spec.empty, Spec.value]
  · simp [Spec.Legal, Spec.apply, Spec.empty, Spec.value]
  · simp [Spec.Legal, Spec.apply, Spec.empty, Spec.value]
  · simp [Spec.Legal, Spec.apply, Spec.empty]
  · simp [Spec.Legal, Spec.apply, Spec.empty, Spec.value]
  · intro g hg
    simp only [Spec.apply, Spec.empty] at hg ⊢
    by_cases h5 : g = 5
    · simp [h5]
    · by_cases h3 : g = 3
      · simp [h3]
      · simp [h5, h3]

/-- The result on a process that has ended. -/
def result {α : Type} : Pr (Option α) → Option α
  | .ret a => a
  | _ => none

-- an execution of the first ten calls; at the end the description of geometry 3 has its old length on all processes
example : ((run (member exMem) comb (fun p => history exMem exRoot true true p (exActs.take 10) State.start)
      (List.replicate 10 .world ++ [.grid 0, .grid 0, .grid 1, .grid 1] ++ List.replicate 9 .world ++
        [.grid 0, .grid 1, .grid 0, .grid 0, .grid 0, .grid 0, .grid 0, .grid 1] ++ List.replicate 5 .world)).map fun y =>
        (List.finRange 3).map fun p => (result (y p)).map fun s =>
          ((s.info 3).length, (s.data 3).length, s.base.log.map fun e => e.1)) =
    some [some ([7, 0], [], [5, 3, 3, 5]), some ([7, 0], [8, 0], [5, 3, 3, 5]), some ([7, 0], [8, 0], [5, 3, 3, 5])] := by
  decide +kernel

-- what `C127_skip` requires
example : (Spec.after Spec.empty (exActs.take 3)).handles 5 = 0 ∧ (Spec.after Spec.empty (exActs.take 3)).geos 5 ≠ none ∧
    (Spec.after Spec.empty (exActs.take 3)).grids 5 = some 0 ∧ exMem 0 0 = true ∧ exMem 0 1 = true := by
  refine ⟨rfl, by decide, by decide, by decide, by decide⟩

-- what `C127_infos_partial` requires, for geometry 5
example : ∀ l, Act.setLength 5 l ∉ exActs := by simp [exActs]

/-- One process; the periodic length of a geometry is set. -/
def oneActs : List Act := [.createGrids [(0, 0)], .create [(0, ⟨1, [2]⟩)], .edit 0, .setLength 0 [3]]

theorem C127_false : ¬ C127_statement := by
  intro h
  have hr : Spec.Roots (n := 1) (fun _ _ => true) (fun _ _ => true) := fun k _ =>
    ⟨0, rfl, fun p _ => ⟨fun _ => Subsingleton.elim _ _, fun _ => rfl⟩⟩
  have hl : Spec.LegalAll (n := 1) (fun _ _ => true) true Spec.empty oneActs := by
    refine ⟨⟨by decide, ?_⟩, ⟨by decide, ?_⟩, ?_, ?_, trivial⟩
    · intro e he
      rw [List.mem_singleton] at he
      subst he
      exact ⟨by decide, rfl, 0, rfl⟩
    · intro e he
      rw [List.mem_singleton] at he
      subst he
      exact ⟨by decide, rfl⟩
    · simp [Spec.Legal, Spec.apply, Spec.empty, Spec.value]
    · simp [Spec.Legal, Spec.apply, Spec.empty, Spec.value]
  have hrun : ((run (member fun _ _ => true) comb
      (fun p : Fin 1 => history (fun _ _ => true) (fun _ _ => true) true false p oneActs State.start)
      (List.replicate 9 .world ++ [.grid 0, .grid 0] ++ List.replicate 5 .world ++ [.grid 0])).bind fun y =>
        (result (y 0)).map fun s => (s.info 0).length) = some [2] := by decide +kernel
  obtain ⟨y, hy, h1⟩ := Option.bind_eq_some_iff.1 hrun
  obtain ⟨t, ht, h2⟩ := Option.map_eq_some_iff.1 h1
  have ht' : y 0 = .ret (some t) := by
    cases e : y 0 with
    | ret a => rw [e] at ht; exact congrArg _ ht
    | coll c k v f => rw [e] at ht; cases ht
  have := h 1 _ _ false oneActs hr hl _ y hy 0 t ht' 0 ⟨1, [3]⟩ rfl
  rw [this] at h2
  exact absurd h2 (by decide)

end Ovk.GeoC
