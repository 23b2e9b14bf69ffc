/-
Property C119: calls of a component match on all processes.
-/
import Verif.Model.ComponentCalls
import Verif.Lemmas.CollectiveValues
import Verif.Lemmas.Component
import Verif.Props.Component
import Mathlib.Tactic.SplitIfs

namespace Ovk.CompC
open VColl
open Comp (CID mGrid nGrid)
variable {n : Nat}

namespace Spec
/-- What exists: grids with the communicators they are on; connectivities; bits of changes that listeners have not been
told of; handles that are held for the M side (`true`) and the N side of connectivities, and for the component. -/
structure World where
  grids : Int → Option Nat
  conns : CID → Prop
  pend : CID → Nat → Prop
  handles : Bool → CID → Nat
  comp : Nat

def empty : World := ⟨fun _ => none, fun _ => False, fun _ _ => False, fun _ _ => 0, 0⟩

/-- The bits of a change: size 2, extents 3, coordinates 4, coefficients 5, destinations 6 on the M side; size 7,
points 8, sources 9 on the N side.  A new size replaces all tables. -/
def bits : Change → List Nat
  | .resizeM => [2, 3, 4, 5, 6]
  | .extents => [3]
  | .coords => [4]
  | .interpCoefs => [5]
  | .destinations | .destinationRanks => [6]
  | .resizeN => [7, 8, 9]
  | .points => [8]
  | .sources | .sourceRanks => [9]

/-- The side that a change belongs to: the M side has the bits below 7. -/
def side (x : Change) : Bool := (bits x).all (· < 7)

/-- The connectivities with one of the grids. -/
def touches (ids : List Int) (c : CID) : Prop := mGrid c ∈ ids ∨ nGrid c ∈ ids

/-- The effect of a call. -/
def apply (S : World) : Act → World
  | .createGrids es => { S with
      grids := fun g => ((es.find? fun e => e.1 = g).map Prod.snd).or (S.grids g)
      pend := fun c b => es = [] ∧ S.pend c b }
  | .destroyGrids ids => { S with
      grids := fun g => if g ∈ ids then none else S.grids g
      conns := fun c => S.conns c ∧ ¬ touches ids c
      pend := fun c b => ids = [] ∧ S.pend c b }
  | .createConns ids => { S with conns := fun c => c ∈ ids ∨ S.conns c, pend := fun _ _ => False }
  | .destroyConns ids => { S with conns := fun c => c ∉ ids ∧ S.conns c, pend := fun _ _ => False }
  | .edit m c => { S with handles := fun m' c' => if m' = m ∧ c' = c then S.handles m c + 1 else S.handles m' c' }
  | .restore m c => { S with handles := fun m' c' => if m' = m ∧ c' = c then S.handles m c - 1 else S.handles m' c' }
  | .change x c => { S with pend := fun c' b => S.pend c' b ∨ (c' = c ∧ b ∈ bits x) }
  | .editComponent => { S with comp := S.comp + 1 }
  | .restoreComponent => { S with comp := S.comp - 1, pend := fun c b => S.comp ≠ 1 ∧ S.pend c b }

/-- Grids and connectivities are created if they do not exist and destroyed if they do; no connectivity is destroyed
while it is edited, and it is changed only while it is edited; handles are restored at most once. -/
def Legal (mem : Nat → Fin n → Bool) (S : World) : Act → Prop
  | .createGrids es => (es.map Prod.fst).Nodup ∧ ∀ e ∈ es, 0 ≤ e.1 ∧ S.grids e.1 = none ∧ ∃ p, mem e.2 p = true
  | .destroyGrids ids => (∀ g ∈ ids, S.grids g ≠ none) ∧
      ∀ c, S.conns c → touches ids c → ∀ m, S.handles m c = 0
  | .createConns ids => ids.Nodup ∧ ∀ c ∈ ids, ¬ S.conns c ∧ S.grids (mGrid c) ≠ none ∧ S.grids (nGrid c) ≠ none
  | .destroyConns ids => ∀ c ∈ ids, S.conns c ∧ ∀ m, S.handles m c = 0
  | .edit _ c => S.conns c
  | .restore m c => S.conns c ∧ S.handles m c ≠ 0
  | .change x c => S.conns c ∧ S.handles (side x) c ≠ 0
  | .editComponent => True
  | .restoreComponent => S.comp ≠ 0

def LegalAll (mem : Nat → Fin n → Bool) : World → List Act → Prop
  | _, [] => True
  | S, a :: as => Legal mem S a ∧ LegalAll mem (apply S a) as

def after (S : World) (as : List Act) : World := as.foldl apply S

/-- Listeners are called with each ID in turn, and the last call is marked. -/
def marks (flag : Nat) (ids : List CID) : List Comp.Call :=
  ids.mapIdx fun i c => (c, flag, decide (i + 1 = ids.length))

/-- What listeners are told in a call: first the changes they have not been told of, once for each connectivity, then of
what is created (1) or destroyed (2). -/
def Heard (S : World) : Act → List Comp.Call → Prop
  | .createGrids es, l => (es = [] ∧ l = []) ∨ (es ≠ [] ∧ Comp.Spec.Announces S.pend l)
  | .destroyGrids ids, l => (ids = [] ∧ l = []) ∨ (ids ≠ [] ∧ ∃ l' ds, l = l' ++ marks 2 ds ∧
      Comp.Spec.Announces S.pend l' ∧ ds.Pairwise (fun a b => elemLess a b = true) ∧
      ∀ c, c ∈ ds ↔ S.conns c ∧ touches ids c)
  | .createConns ids, l => ∃ l', l = l' ++ marks 1 ids ∧ Comp.Spec.Announces S.pend l'
  | .destroyConns ids, l => ∃ l', l = l' ++ marks 2 ids ∧ Comp.Spec.Announces S.pend l'
  | .restoreComponent, l => (S.comp ≠ 1 ∧ l = []) ∨ (S.comp = 1 ∧ Comp.Spec.Announces S.pend l)
  | _, l => l = []

/-- What listeners are told in a history. -/
def Hears : World → List Act → List Comp.Call → Prop
  | _, [], l => l = []
  | S, a :: as, l => ∃ l1 l2, l = l1 ++ l2 ∧ Heard S a l1 ∧ Hears (apply S a) as l2

/-- What process `p` stores is right: it knows the grids and the connectivities, and has the sides of connectivities
whose grids it is a member of. -/
def Right (mem : Nat → Fin n → Bool) (S : World) (p : Fin n) (s : State) : Prop :=
  (∀ g, g ∈ s.base.grids ↔ S.grids g ≠ none) ∧
  (∀ g, g ∈ s.base.localGrids ↔ ∃ k, S.grids g = some k ∧ mem k p = true) ∧
  (∀ c, c ∈ s.base.records ↔ S.conns c) ∧
  (∀ c, (∃ f, (c, f) ∈ s.base.ms.entries) ↔ S.conns c ∧ ∃ k, S.grids (mGrid c) = some k ∧ mem k p = true) ∧
  ∀ c, (∃ f, (c, f) ∈ s.base.ns.entries) ↔ S.conns c ∧ ∃ k, S.grids (nGrid c) = some k ∧ mem k p = true

/-- All executions of `x` end, process `p` with `a p`. -/
def Ends (mem : Nat → Fin n → Bool) {α : Type} (x : Fin n → Pr α) (a : Fin n → α) : Prop :=
  ∃ N, ∀ cs y, run (member mem) comb x cs = some y → cs.length ≤ N ∧
    ((∀ c, step (member mem) comb y c = none) → ∀ p, y p = .ret (a p))
end Spec

variable {mem : Nat → Fin n → Bool}

abbrev All : Fin n → Bool := fun _ => true

/-! ### Operations -/

theorem barriers_runs {S : Fin n → Bool} {c : Comm} (hS : ∀ p, member mem c p = S p) :
    ∀ i, Runs (member mem) comb S (fun _ => barriers c i) fun _ => () := by
  intro i
  induction i with
  | zero => exact .ret _
  | succ i ih => exact .coll hS (r := []) (fun _ => rfl) ih

theorem world_runs (i : Nat) : Runs (member mem) comb All (fun _ => barriers .world i) fun _ => () :=
  barriers_runs (c := .world) (fun _ => rfl) i

theorem grid_runs (k i : Nat) : Runs (member mem) comb (mem k) (fun _ => barriers (.grid k) i) fun _ => () :=
  barriers_runs (c := .grid k) (fun _ => rfl) i

theorem gathered_world {f : Fin n → List Nat} :
    (gathered (member mem) .world f).map Prod.snd = (List.finRange n).map f := by
  unfold gathered members
  rw [show (List.finRange n).filter (member mem .world) = List.finRange n from List.filter_eq_self.2 fun p _ => rfl,
    List.map_map]
  rfl

theorem everyone_inv {α : Type} {f : Fin n → Option α} {g : Fin n → α} (h : Comp.everyone f = some g) (p : Fin n) :
    f p = some (g p) := by
  unfold Comp.everyone at h
  split_ifs at h with hs
  cases h
  exact (Option.some_get (hs p)).symm

theorem reduce_cons {op : Nat → Nat → Nat} {a : List Nat} {l : List (List Nat)} (h : ∀ b ∈ l, b.length = a.length) :
    reduce op (a :: l) = some (l.foldl (List.zipWith op) a) := if_pos h

theorem foldl_one (op : Nat → Nat → Nat) : ∀ (l : List Nat) (a : Nat),
    (l.map fun x => [x]).foldl (List.zipWith op) [a] = [l.foldl op a] := by
  intro l
  induction l with
  | nil => intro a; rfl
  | cons x l ih => intro a; exact ih (op a x)

theorem foldl_max : ∀ (l : List Nat) (a : Nat), l.foldl Nat.max a = 0 ↔ a = 0 ∧ ∀ x ∈ l, x = 0 := by
  intro l
  induction l with
  | nil => intro a; simp
  | cons x l ih =>
    intro a
    rw [List.foldl_cons, ih]
    have : Nat.max a x = 0 ↔ a = 0 ∧ x = 0 := by
      show max a x = 0 ↔ _
      omega
    simp [this, and_assoc]

/-- The reduction of whether there are edits. -/
theorem max_comb (b : Fin n → Bool) (hn : ∃ p : Fin n, All p = true) :
    ∃ r, comb .max (gathered (member mem) .world fun p => [if b p then 1 else 0]) = some r ∧
      (r = [0] ↔ ∀ p, b p = false) := by
  simp only [comb]
  rw [gathered_world]
  cases e : List.finRange n with
  | nil =>
    obtain ⟨p, -⟩ := hn
    have := List.mem_finRange p
    rw [e] at this
    cases this
  | cons q qs =>
    rw [List.map_cons]
    rw [reduce_cons (by simp)]
    have := foldl_one Nat.max (qs.map fun p => if b p then 1 else 0) (if b q then 1 else 0)
    rw [List.map_map] at this
    refine ⟨_, congrArg some this, ?_⟩
    rw [List.cons.injEq, foldl_max]
    have hall : ∀ p, p = q ∨ p ∈ qs := fun p => by
      have := List.mem_finRange p
      rw [e] at this
      simpa using this
    constructor
    · rintro ⟨⟨h1, h2⟩, -⟩ p
      rcases hall p with rfl | h
      · cases hb : b p with
        | false => rfl
        | true => simp [hb] at h1
      · have := h2 _ (List.mem_map.2 ⟨p, h, rfl⟩)
        cases hb : b p with
        | false => rfl
        | true => simp [hb] at this
    · intro h
      refine ⟨⟨by simp [h], fun x hx => ?_⟩, rfl⟩
      obtain ⟨p, -, rfl⟩ := List.mem_map.1 hx
      simp [h]

/-- The reduction of flags. -/
theorem bor_comb {a : Fin n → List Nat} {N : Nat} (ha : ∀ p, (a p).length = N) (hn : ∃ p : Fin n, All p = true) :
    comb .bor (gathered (member mem) .world a) = some (Comp.allOr N a) := by
  simp only [comb]
  rw [gathered_world]
  unfold Comp.allOr
  cases e : List.finRange n with
  | nil =>
    obtain ⟨p, -⟩ := hn
    have := List.mem_finRange p
    rw [e] at this
    cases this
  | cons q qs =>
    rw [List.map_cons]
    rw [reduce_cons (by simp [ha])]
    rw [List.foldl_cons, List.foldl_map]
    congr 2
    have : ∀ (l : List Nat), List.zipWith (· ||| ·) (List.replicate l.length 0) l = l := by
      intro l
      induction l with
      | nil => rfl
      | cons x l ih => simp [List.replicate_succ, ih]
    rw [← ha q, this]

theorem sync_runs {s : Fin n → State} (h : Comp.Inv fun p => (s p).base) :
    ∃ l, Comp.Spec.Announces (Comp.Spec.Pending fun p => (s p).base) l ∧
      Comp.sync (fun p => (s p).base) = some (Comp.synced (fun p => (s p).base) l) ∧
      Runs (member mem) comb All (fun p => sync (s p)) fun p =>
        some { s p with base := Comp.synced (fun p => (s p).base) l p } := by
  obtain ⟨l, h1, h2⟩ := Comp.sync_spec h
  refine ⟨l, h2, h1, ?_⟩
  by_cases hn : ∃ p : Fin n, All p = true
  swap
  · intro β k x _
    have : (fun p => if All p then k p (some { s p with base := Comp.synced (fun p => (s p).base) l p }) else x p) = x :=
      funext fun p => absurd ⟨p, rfl⟩ hn
    rw [this]
    exact .refl x
  obtain ⟨r, hr, hr0⟩ := max_comb (mem := mem) (fun p => Comp.hasEdits (s p).base) hn
  unfold sync
  refine .coll (fun _ => rfl) (fun _ => hr) ?_
  unfold Comp.sync at h1
  by_cases hE : ∀ p, Comp.hasEdits (s p).base = false
  · rw [if_pos hE] at h1
    rw [hr0.2 hE]
    refine (Runs.ret _).congr (fun p _ => rfl) fun p _ => ?_
    show some (s p) = _
    have := congrFun (Option.some.inj h1) p
    rw [← this]
  · rw [if_neg hE] at h1
    obtain ⟨a, ha, h1⟩ := Option.bind_eq_some_iff.1 h1
    split_ifs at h1 with hlen
    obtain ⟨calls, hc, h1⟩ := Option.bind_eq_some_iff.1 h1
    obtain ⟨q, -⟩ := hn
    have hN : ∀ p, (a p).length = (a q).length := fun p => hlen p q
    refine Runs.congr (P := fun p => .coll .world .bor (a p) fun flags => match Comp.announce (s p).base flags with
        | none => .ret none
        | some calls => (barriers .world 1).bind fun _ => .ret (some { s p with base := { (s p).base with
            ms := Comp.zero (s p).base.ms, ns := Comp.zero (s p).base.ns, log := (s p).base.log ++ calls } })) ?_ ?_
        (a := fun p => some { s p with base := Comp.synced (fun p => (s p).base) l p }) fun _ _ => rfl
    · refine .coll (fun _ => rfl) (fun _ => bor_comb hN ⟨q, rfl⟩) ?_
      have hx : ∀ p, Comp.announce (s p).base (Comp.allOr (a q).length a) = some (calls p) := fun p => by
        rw [← hN p]; exact everyone_inv hc p
      simp only [hx]
      refine .bind (world_runs 1) ((Runs.ret _).congr (fun p _ => rfl) fun p _ => ?_)
      have := congrFun (Option.some.inj h1) p
      rw [← this]
    · intro p _
      rw [if_neg fun e => hE (hr0.1 e), everyone_inv ha p]
      rfl

/-! ### Operations on the communicators of grids -/

/-- What the operations of the processes of a grid rely on. -/
def Placed (mem : Nat → Fin n → Bool) (G : Int → Option Nat) (s : Fin n → State) : Prop :=
  ∀ g k, G g = some k → ∀ p, (s p).isLocal g = mem k p ∧ (mem k p = true → (s p).comm g = k)

theorem on_grid {b : Fin n → Bool} {kf : Fin n → Nat} {k i : Nat} (hb : ∀ p, b p = mem k p)
    (hk : ∀ p, mem k p = true → kf p = k) :
    Runs (member mem) comb All (fun p => if b p then barriers (.grid (kf p)) i else .ret ()) fun _ => () := by
  refine Runs.sub (T := mem k) ?_ (fun _ _ => rfl) fun p _ hp => by rw [hb p, hp]; rfl
  refine (grid_runs k i).congr (fun p hp => ?_) fun _ _ => rfl
  rw [hb p, if_pos hp, hk p hp]

theorem off_grid {b : Fin n → Bool} {kf : Fin n → Nat} {i : Nat} (hb : ∀ p, b p = false) :
    Runs (member mem) comb All (fun p => if b p then barriers (.grid (kf p)) i else .ret ()) fun _ => () := by
  refine (Runs.ret _).congr (fun p _ => ?_) fun _ _ => rfl
  rw [hb p]
  rfl

/-! ### Creating -/

def createNext (m : Bool) (s : State) (c : CID) : State :=
  if s.isLocal (sideGrid m c) then (s.setSide m ((s.side m).insert elemLess c 0)).setHandles m c 0 else s

theorem setSide_isLocal (s : State) (m : Bool) (x : OMap CID Nat) (g : Int) : (s.setSide m x).isLocal g = s.isLocal g := by
  cases m <;> rfl

theorem createNext_isLocal (m : Bool) (s : State) (c : CID) (g : Int) : (createNext m s c).isLocal g = s.isLocal g := by
  unfold createNext
  split
  · exact setSide_isLocal s m _ g
  · rfl

theorem createNext_comm (m : Bool) (s : State) (c : CID) : (createNext m s c).comm = s.comm := by
  unfold createNext
  split <;> rfl

theorem createNext_comp (m : Bool) (s : State) (c : CID) : (createNext m s c).comp = s.comp := by
  unfold createNext
  split <;> rfl

theorem Placed.create {G : Int → Option Nat} {s : Fin n → State} (h : Placed mem G s) (m : Bool) (c : CID) :
    Placed mem G fun p => createNext m (s p) c := by
  intro g k hg p
  rw [createNext_isLocal, createNext_comm]
  exact h g k hg p

theorem createSide_runs {G : Int → Option Nat} {s : Fin n → State} (h : Placed mem G s) {m : Bool} {c : CID}
    (hc : G (sideGrid m c) ≠ none) :
    Runs (member mem) comb All (fun p => createSide m (s p) c) fun p => createNext m (s p) c := by
  obtain ⟨k, hk⟩ := Option.ne_none_iff_exists'.1 hc
  have h1 := Runs.bind (Q := fun p _ => .ret (createNext m (s p) c))
    (on_grid (mem := mem) (i := 2) (b := fun p => (s p).isLocal (sideGrid m c)) (kf := fun p => (s p).comm (sideGrid m c))
      (fun p => (h _ k hk p).1) fun p => (h _ k hk p).2) (.ret fun p => createNext m (s p) c)
  refine h1.congr (fun p _ => ?_) fun _ _ => rfl
  unfold createSide createNext
  split <;> rfl

def created (ids : List CID) (s : State) : State := ids.foldl (fun s c => createNext false (createNext true s c) c) s

theorem createLocals_runs {G : Int → Option Nat} : ∀ (ids : List CID) {s : Fin n → State}, Placed mem G s →
    (∀ c ∈ ids, G (mGrid c) ≠ none ∧ G (nGrid c) ≠ none) →
    Runs (member mem) comb All (fun p => createLocals ids (s p)) fun p => created ids (s p) := by
  intro ids
  induction ids with
  | nil => intro s _ _; exact .ret _
  | cons c ids ih =>
    intro s h hc
    have hc' := hc c (by simp)
    exact .bind (createSide_runs h (m := true) hc'.1) (.bind (createSide_runs (h.create true c) (m := false) hc'.2)
      (ih ((h.create true c).create false c) fun c hc'' => hc c (by simp [hc''])))

theorem createNext_base (s : State) (c : CID) :
    (createNext false (createNext true s c) c).base = Comp.createLocal s.base c := by
  unfold Comp.createLocal
  have h1 : (createNext true s c).base = if OSet.contains intLess s.base.localGrids (mGrid c) then
      { s.base with ms := s.base.ms.insert elemLess c 0 } else s.base := by
    unfold createNext State.isLocal sideGrid
    simp only [if_true]
    split <;> rfl
  rw [← h1]
  generalize createNext true s c = t
  unfold createNext State.isLocal sideGrid
  simp only [Bool.false_eq_true, if_false]
  split <;> rfl

theorem created_base : ∀ (ids : List CID) (s : State), (created ids s).base = ids.foldl Comp.createLocal s.base := by
  intro ids
  induction ids with
  | nil => intro s; rfl
  | cons c ids ih =>
    intro s
    show (created ids _).base = _
    rw [ih, createNext_base]
    rfl

theorem created_comm : ∀ (ids : List CID) (s : State),
    (created ids s).comm = s.comm ∧ (created ids s).comp = s.comp := by
  intro ids
  induction ids with
  | nil => intro s; exact ⟨rfl, rfl⟩
  | cons c ids ih =>
    intro s
    obtain ⟨h1, h2⟩ := ih (createNext false (createNext true s c) c)
    exact ⟨h1.trans (by rw [createNext_comm, createNext_comm]), h2.trans (by rw [createNext_comp, createNext_comp])⟩

theorem createNext_handles (m : Bool) (s : State) (c : CID) (m' : Bool) (c' : CID) :
    (createNext m s c).handles m' c' = s.handles m' c' ∨
      (m' = m ∧ c' = c ∧ (createNext m s c).handles m' c' = 0) := by
  unfold createNext
  split
  · by_cases e : m' = m ∧ c' = c
    · exact .inr ⟨e.1, e.2, by simp [State.setHandles, e]⟩
    · exact .inl (by simp [State.setHandles, State.setSide, e])
  · exact .inl rfl

theorem createNext_here {m : Bool} {s : State} {c : CID} (h : s.isLocal (sideGrid m c) = true) :
    (createNext m s c).handles m c = 0 := by
  unfold createNext
  rw [if_pos h]
  simp [State.setHandles]

theorem created_handles : ∀ (ids : List CID) (s : State) (m : Bool) (c : CID),
    ((created ids s).handles m c = s.handles m c ∨ (created ids s).handles m c = 0) ∧
    (c ∉ ids → (created ids s).handles m c = s.handles m c) ∧
    (c ∈ ids → s.isLocal (sideGrid m c) = true → (created ids s).handles m c = 0) := by
  intro ids
  induction ids with
  | nil => intro s m c; exact ⟨.inl rfl, fun _ => rfl, by simp⟩
  | cons d ids ih =>
    intro s m c
    obtain ⟨h1, h2, h3⟩ := ih (createNext false (createNext true s d) d) m c
    have e1 := createNext_handles true s d m c
    have e2 := createNext_handles false (createNext true s d) d m c
    have hl : ∀ g, (createNext false (createNext true s d) d).isLocal g = s.isLocal g := fun g => by
      rw [createNext_isLocal, createNext_isLocal]
    show ((created ids _).handles m c = _ ∨ (created ids _).handles m c = 0) ∧ (_ → (created ids _).handles m c = _) ∧
      (_ → _ → (created ids _).handles m c = 0)
    refine ⟨?_, fun hc => ?_, fun hc hloc => ?_⟩
    · rcases h1 with h | h
      · rcases e2 with e2 | e2
        · rcases e1 with e1 | e1
          · exact .inl (by rw [h, e2, e1])
          · exact .inr (by rw [h, e2, e1.2.2])
        · exact .inr (by rw [h, e2.2.2])
      · exact .inr h
    · simp only [List.mem_cons, not_or] at hc
      rw [h2 hc.2]
      rcases e2 with e2 | e2
      · rcases e1 with e1 | e1
        · rw [e2, e1]
        · exact absurd e1.2.1 hc.1
      · exact absurd e2.2.1 hc.1
    · by_cases hi : c ∈ ids
      · exact h3 hi (by rw [hl]; exact hloc)
      · have hd : c = d := by
          rcases List.mem_cons.1 hc with h | h
          · exact h
          · exact absurd h hi
        subst hd
        rw [h2 hi]
        cases m with
        | true =>
          rcases e2 with e2 | e2
          · rw [e2]; exact createNext_here hloc
          · exact e2.2.2
        | false => exact createNext_here (by rw [createNext_isLocal]; exact hloc)

/-! ### Destroying -/

def destroyNext (m : Bool) (s : State) (c : CID) : State :=
  (s.setSide m ((s.side m).erase elemLess c)).setHandles m c 0

/-- The sides that exist: those of the connectivities in `R`, on the processes of the grid. -/
def Held (mem : Nat → Fin n → Bool) (G : Int → Option Nat) (R : Bool → CID → Prop) (s : Fin n → State) : Prop :=
  ∀ p m, ((s p).side m).WF elemLess ∧ ∀ c k, G (sideGrid m c) = some k →
    (((s p).side m).contains elemLess c = true ↔ R m c ∧ mem k p = true)

theorem destroyNext_side (m : Bool) (s : State) (c : CID) (m' : Bool) :
    (destroyNext m s c).side m' = if m' = m then (s.side m).erase elemLess c else s.side m' := by
  cases m <;> cases m' <;> rfl

theorem Placed.destroy {G : Int → Option Nat} {s : Fin n → State} (h : Placed mem G s) (m : Bool) (c : CID) :
    Placed mem G fun p => destroyNext m (s p) c := by
  intro g k hg p
  have : (destroyNext m (s p) c).isLocal g = (s p).isLocal g := setSide_isLocal (s p) m _ g
  rw [this]
  exact h g k hg p

theorem Held.destroy {G : Int → Option Nat} {R : Bool → CID → Prop} {s : Fin n → State} (h : Held mem G R s) (m : Bool)
    (c : CID) : Held mem G (fun m' c' => R m' c' ∧ ¬ (m' = m ∧ c' = c)) fun p => destroyNext m (s p) c := by
  intro p m'
  obtain ⟨h1, h2⟩ := h p m'
  dsimp only
  rw [destroyNext_side]
  split
  · rename_i hm
    subst hm
    obtain ⟨e1, e2⟩ := omap_erase_spec Comp.esto h1 c
    refine ⟨e1, fun c' k hk => ?_⟩
    rw [omap_contains_spec Comp.esto e1]
    have h3 := h2 c' k hk
    rw [omap_contains_spec Comp.esto h1] at h3
    simp only [e2, exists_and_left, h3, true_and]
    exact ⟨fun ⟨a, b, d⟩ => ⟨⟨b, a⟩, d⟩, fun ⟨⟨b, a⟩, d⟩ => ⟨a, b, d⟩⟩
  · rename_i hm
    refine ⟨h1, fun c' k hk => ?_⟩
    rw [h2 c' k hk]
    simp [hm]

theorem destroySide_runs {G : Int → Option Nat} {R : Bool → CID → Prop} {s : Fin n → State} (h : Placed mem G s)
    (hr : Held mem G R s) {m : Bool} {c : CID} (hc : G (sideGrid m c) ≠ none) :
    Runs (member mem) comb All (fun p => destroySide m (s p) c) fun p => destroyNext m (s p) c := by
  obtain ⟨k, hk⟩ := Option.ne_none_iff_exists'.1 hc
  refine .bind (a := fun _ => ()) ?_ (.ret fun p => destroyNext m (s p) c)
  by_cases hR : R m c
  · refine on_grid (k := k) (b := fun p => ((s p).side m).contains elemLess c) (fun p => ?_) fun p => (h _ k hk p).2
    rw [Bool.eq_iff_iff, (hr p m).2 c k hk]
    simp [hR]
  · refine off_grid (b := fun p => ((s p).side m).contains elemLess c) fun p => ?_
    rw [Bool.eq_false_iff, Ne, (hr p m).2 c k hk]
    simp [hR]

def destroyed (ids : List CID) (s : State) : State := ids.foldl (fun s c => destroyNext false (destroyNext true s c) c) s

theorem destroyLocals_runs {G : Int → Option Nat} : ∀ (ids : List CID) {R : Bool → CID → Prop} {s : Fin n → State},
    Placed mem G s → Held mem G R s → (∀ c ∈ ids, G (mGrid c) ≠ none ∧ G (nGrid c) ≠ none) →
    Runs (member mem) comb All (fun p => destroyLocals ids (s p)) fun p => destroyed ids (s p) := by
  intro ids
  induction ids with
  | nil => intro R s _ _ _; exact .ret _
  | cons c ids ih =>
    intro R s h hr hc
    have hc' := hc c (by simp)
    exact .bind (destroySide_runs h hr (m := true) hc'.1)
      (.bind (destroySide_runs (h.destroy true c) (hr.destroy true c) (m := false) hc'.2)
        (ih ((h.destroy true c).destroy false c) ((hr.destroy true c).destroy false c)
          fun c hc'' => hc c (by simp [hc''])))

theorem destroyed_fields : ∀ (ids : List CID) (s : State),
    (destroyed ids s).base = { s.base with
      ms := ids.foldl (OMap.erase elemLess) s.base.ms
      ns := ids.foldl (OMap.erase elemLess) s.base.ns } ∧
    (destroyed ids s).comm = s.comm ∧ (destroyed ids s).comp = s.comp ∧
    ∀ m c, (destroyed ids s).handles m c = if c ∈ ids then 0 else s.handles m c := by
  intro ids
  induction ids with
  | nil => intro s; exact ⟨rfl, rfl, rfl, by simp [destroyed]⟩
  | cons d ids ih =>
    intro s
    obtain ⟨h1, h2, h3, h4⟩ := ih (destroyNext false (destroyNext true s d) d)
    refine ⟨h1, h2, h3, fun m c => (h4 m c).trans ?_⟩
    by_cases hi : c ∈ ids
    · simp [hi]
    · by_cases hd : c = d
      · subst hd
        rw [if_neg hi, if_pos (by simp)]
        cases m <;> simp [destroyNext, State.setHandles, State.setSide]
      · rw [if_neg hi, if_neg (by simp [hi, hd])]
        cases m <;> simp [destroyNext, State.setHandles, State.setSide, hd]

/-! ### The invariant -/

structure Inv (mem : Nat → Fin n → Bool) (S : Spec.World) (s : Fin n → State) : Prop where
  base : Comp.Inv fun p => (s p).base
  nonneg : Comp.NonNeg fun p => (s p).base
  grids : ∀ p g, g ∈ (s p).base.grids ↔ S.grids g ≠ none
  loc : ∀ p g, g ∈ (s p).base.localGrids ↔ ∃ k, S.grids g = some k ∧ mem k p = true
  comm : ∀ p g k, S.grids g = some k → mem k p = true → (s p).comm g = k
  nonempty : ∀ g k, S.grids g = some k → ∃ p, mem k p = true
  conns : ∀ p c, c ∈ (s p).base.records ↔ S.conns c
  pend : ∀ c b, Comp.Spec.Pending (fun p => (s p).base) c b ↔ S.pend c b
  handles : ∀ p m c k, S.conns c → S.grids (sideGrid m c) = some k → mem k p = true → (s p).handles m c = S.handles m c
  fresh : ∀ m c, ¬ S.conns c → S.handles m c = 0
  comp : ∀ p, (s p).comp = S.comp

variable {S : Spec.World} {s : Fin n → State}

theorem inv_start : Inv mem Spec.empty fun _ => State.start where
  base := Comp.inv_start
  nonneg := by intro p g hg; cases hg
  grids := by intro p g; simp [State.start, Comp.Proc.start, Spec.empty]
  loc := by intro p g; simp [State.start, Comp.Proc.start, Spec.empty]
  comm := by intro p g k hk; cases hk
  nonempty := by intro g k hk; cases hk
  conns := by intro p c; simp [State.start, Comp.Proc.start, Spec.empty]
  pend := by intro c b; simp [Comp.Spec.Pending, State.start, Comp.Proc.start, Spec.empty]
  handles := by intro p m c k hc; cases hc
  fresh := fun _ _ _ => rfl
  comp := fun _ => rfl

theorem Inv.congr {S' : Spec.World} (h : Inv mem S s) (h1 : ∀ g, S.grids g = S'.grids g)
    (h2 : ∀ c, S.conns c ↔ S'.conns c) (h3 : ∀ c b, S.pend c b ↔ S'.pend c b)
    (h4 : ∀ m c, S.handles m c = S'.handles m c) (h5 : S.comp = S'.comp) : Inv mem S' s := by
  have : S = S' := by
    obtain ⟨a, b, c, d, e⟩ := S
    obtain ⟨a', b', c', d', e'⟩ := S'
    congr
    · exact funext h1
    · exact funext fun c => propext (h2 c)
    · exact funext fun c => funext fun b => propext (h3 c b)
    · exact funext fun m => funext fun c => h4 m c
  rwa [← this]

theorem Inv.placed (h : Inv mem S s) : Placed mem S.grids s := by
  intro g k hg p
  refine ⟨?_, h.comm p g k hg⟩
  unfold State.isLocal
  rw [Bool.eq_iff_iff, oset_contains_iff intLess_sto (h.base.lsort p), h.loc, hg]
  simp

theorem Inv.ends (h : Inv mem S s) (p : Fin n) {c : CID} (hc : S.conns c) :
    S.grids (mGrid c) ≠ none ∧ S.grids (nGrid c) ≠ none := by
  have := h.base.ends p c ((h.conns p c).2 hc)
  rw [h.grids, h.grids] at this
  exact this

theorem Inv.held (h : Inv mem S s) : Held mem S.grids (fun _ c => S.conns c) s := by
  intro p m
  cases m with
  | true =>
    refine ⟨h.base.mwf p, fun c k hk => ?_⟩
    show OMap.contains elemLess (s p).base.ms c = true ↔ _
    rw [omap_contains_spec Comp.esto (h.base.mwf p), h.base.mkey p c, h.conns, h.loc]
    rw [show mGrid c = sideGrid true c from rfl, hk]
    simp
  | false =>
    refine ⟨h.base.nwf p, fun c k hk => ?_⟩
    show OMap.contains elemLess (s p).base.ns c = true ↔ _
    rw [omap_contains_spec Comp.esto (h.base.nwf p), h.base.nkey p c, h.conns, h.loc]
    rw [show nGrid c = sideGrid false c from rfl, hk]
    simp

theorem each_eq (flag : Nat) : ∀ ids : List CID, Comp.each flag ids ids.length = Spec.marks flag ids := by
  have key : ∀ (ids : List CID) (r : Int), r = ids.length → Comp.each flag ids r = Spec.marks flag ids := by
    intro ids
    induction ids with
    | nil => intro r _; rfl
    | cons c ids ih =>
      intro r hr
      have hr' : r - 1 = ids.length := by simp at hr; omega
      unfold Comp.each Spec.marks
      rw [List.mapIdx_cons, ih _ hr', hr']
      unfold Spec.marks
      simp only [List.length_cons]
      congr 1
      · cases ids <;> simp <;> omega
      · congr 1
        funext i x
        simp
  exact fun ids => key ids _ rfl

/-- No pending changes. -/
def Clean (w : Comp.Proc) : Prop := (∀ e ∈ w.ms.entries, e.2 = 0) ∧ ∀ e ∈ w.ns.entries, e.2 = 0

theorem Clean.pending {w : Fin n → Comp.Proc} (h : ∀ p, Clean (w p)) (c : CID) (b : Nat) :
    ¬ Comp.Spec.Pending w c b := by
  rintro ⟨p, f, hf, hb⟩
  have : f = 0 := hf.elim (fun h' => (h p).1 _ h') fun h' => (h p).2 _ h'
  rw [this] at hb
  simp at hb

theorem clean_synced (w : Fin n → Comp.Proc) (l : List Comp.Call) (p : Fin n) : Clean (Comp.synced w l p) := by
  constructor <;>
  · rintro ⟨k, f⟩ he
    exact ((Comp.zero_mem _ k f).1 he).1

theorem clean_insert {m : OMap CID Nat} (hw : m.WF elemLess) (h : ∀ e ∈ m.entries, e.2 = 0) (c : CID) :
    (m.insert elemLess c 0).WF elemLess ∧ ∀ e ∈ (m.insert elemLess c 0).entries, e.2 = 0 := by
  obtain ⟨h1, h2⟩ := omap_insert_spec Comp.esto hw c 0
  refine ⟨h1, ?_⟩
  rintro ⟨k, f⟩ he
  rcases (h2 k f).1 he with h | h'
  · exact h.2
  · exact h _ h'.2

theorem clean_create (w : Comp.Proc) (h : Clean w) (hm : w.ms.WF elemLess) (hn : w.ns.WF elemLess) (c : CID) :
    Clean (Comp.createLocal w c) ∧ (Comp.createLocal w c).ms.WF elemLess ∧ (Comp.createLocal w c).ns.WF elemLess := by
  have a := clean_insert hm h.1 c
  have b := clean_insert hn h.2 c
  unfold Comp.createLocal
  dsimp only
  by_cases h1 : OSet.contains intLess w.localGrids (mGrid c) = true
  · rw [if_pos h1]
    dsimp only
    split
    · exact ⟨⟨a.2, b.2⟩, a.1, b.1⟩
    · exact ⟨⟨a.2, h.2⟩, a.1, hn⟩
  · rw [if_neg h1]
    split
    · exact ⟨⟨h.1, b.2⟩, hm, b.1⟩
    · exact ⟨⟨h.1, h.2⟩, hm, hn⟩

theorem clean_creates : ∀ (ids : List CID) (w : Comp.Proc), Clean w → w.ms.WF elemLess → w.ns.WF elemLess →
    Clean (ids.foldl Comp.createLocal w) := by
  intro ids
  induction ids with
  | nil => intro w h _ _; exact h
  | cons c ids ih =>
    intro w h hm hn
    obtain ⟨a, b, d⟩ := clean_create w h hm hn c
    exact ih _ a b d

/-- The state after edits were merged. -/
theorem Inv.synced (h : Inv mem S s) (l : List Comp.Call) :
    Inv mem { S with pend := fun _ _ => False } fun p =>
      { s p with base := Comp.synced (fun p => (s p).base) l p } where
  base := Comp.inv_synced h.base l
  nonneg := h.nonneg
  grids := h.grids
  loc := h.loc
  comm := h.comm
  nonempty := h.nonempty
  conns := h.conns
  pend := fun c b => ⟨fun hp => Clean.pending (clean_synced _ l) c b hp, False.elim⟩
  handles := h.handles
  fresh := h.fresh
  comp := h.comp

theorem Inv.sync (h : Inv mem S s) : ∃ l, Comp.Spec.Announces S.pend l ∧
    Comp.sync (fun p => (s p).base) = some (Comp.synced (fun p => (s p).base) l) ∧
    Runs (member mem) comb All (fun p => CompC.sync (s p)) fun p =>
        some { s p with base := Comp.synced (fun p => (s p).base) l p } := by
  obtain ⟨l, h1, h2⟩ := sync_runs (mem := mem) h.base
  refine ⟨l, ?_, h2⟩
  have : Comp.Spec.Pending (fun p => (s p).base) = S.pend := funext fun c => funext fun b => propext (h.pend c b)
  rwa [← this]

/-! ### Calls -/

/-- A call: it completes, the invariant holds again, and listeners are told what they should be. -/
def Works (mem : Nat → Fin n → Bool) (debug : Bool) (S : Spec.World) (s : Fin n → State) (a : Act) : Prop :=
  ∃ t l, Inv mem (Spec.apply S a) t ∧ (∀ p, (t p).base.log = (s p).base.log ++ l) ∧ Spec.Heard S a l ∧
    Runs (member mem) comb All (fun p => callProg mem debug p (s p) a) fun p => some (t p)

theorem works_createConns {debug : Bool} (p0 : Fin n) (h : Inv mem S s) {ids : List CID}
    (hl : Spec.Legal mem S (.createConns ids)) : Works mem debug S s (.createConns ids) := by
  obtain ⟨hnd, hl⟩ := hl
  have hin : ∀ p (g : Int), OSet.contains intLess (s p).base.grids g = true ↔ S.grids g ≠ none := fun p g => by
    rw [oset_contains_iff intLess_sto (h.base.gsort p), h.grids]
  have hv : ∀ p, ∀ c ∈ ids, Comp.valid (s p).base false c = true := by
    intro p c hc
    obtain ⟨h1, h2, h3⟩ := hl c hc
    have := Comp.valid_iff h.base p false c
    refine this.2 ?_
    have g1 := (h.grids p _).2 h2
    have g2 := (h.grids p _).2 h3
    exact ⟨h.nonneg p _ g1, h.nonneg p _ g2, g1, g2, by simp [h.conns, h1]⟩
  obtain ⟨w', hw'⟩ := Comp.createConns_defined h.base ids hv
  obtain ⟨i1, i2, i3, i4⟩ := Comp.createConns_spec h.base ids hw'
  obtain ⟨l, hp, hs, hr⟩ := h.sync
  have hS := h.synced l
  generalize hu : (fun p => ({ s p with base := Comp.synced (fun p => (s p).base) l p } : State)) = u at hS
  replace hr : Runs (member mem) comb All (fun p => CompC.sync (s p)) fun p => some (u p) := by
    rw [← hu]
    exact hr
  have hub : ∀ p, (u p).base = Comp.synced (fun p => (s p).base) l p := fun p => by rw [← hu]
  have hcomm : ∀ p, (u p).comm = (s p).comm := fun p => by rw [← hu]
  have hcomp : ∀ p, (u p).comp = (s p).comp := fun p => by rw [← hu]
  have hh : ∀ p, (u p).handles = (s p).handles := fun p => by rw [← hu]
  let t : Fin n → State := fun p => { created ids (u p) with base := { (created ids (u p)).base with
            records := ids.foldl (OSet.insert elemLess) (created ids (u p)).base.records
            log := (created ids (u p)).base.log ++ Comp.each Comp.CREATE ids ids.length } }
  have hbase : (fun p => (t p).base) = w' := by
    unfold Comp.createConns at hw'
    rw [if_pos (fun p => List.all_eq_true.2 (hv p)), hs, Option.bind_some, Option.some.injEq] at hw'
    rw [← hw']
    funext p
    show ({ (created ids (u p)).base with
            records := ids.foldl (OSet.insert elemLess) (created ids (u p)).base.records
            log := (created ids (u p)).base.log ++ Comp.each Comp.CREATE ids ids.length } : Comp.Proc) = _
    rw [created_base, hub]
  have hbp : ∀ p, (t p).base = w' p := fun p => congrFun hbase p
  have ht : ∀ p, (t p).comm = (s p).comm ∧ (t p).comp = (s p).comp := fun p => by
    have := created_comm ids (u p)
    exact ⟨this.1.trans (hcomm p), this.2.trans (hcomp p)⟩
  have hloc : ∀ p, (t p).base.localGrids = (s p).base.localGrids := fun p => by rw [hbp]; exact i3 p
  refine ⟨t, l ++ Spec.marks 1 ids, ?_, fun p => ?_, ⟨l, rfl, hp⟩, ?_⟩
  · refine ⟨by rw [hbase]; exact i1, ?_, ?_, ?_, fun p g k hk hm => ?_, h.nonempty, fun p c => ?_, fun c b => ?_, ?_, ?_,
      fun p => (ht p).2.trans (h.comp p)⟩
    · intro p g hg
      replace hg : g ∈ (t p).base.grids := hg
      rw [hbp, i2] at hg
      exact h.nonneg p g hg
    · intro p g
      rw [hbp, i2]
      exact h.grids p g
    · intro p g
      rw [hloc]
      exact h.loc p g
    · rw [(ht p).1]
      exact h.comm p g k hk hm
    · rw [hbp, i4]
      show _ ↔ c ∈ ids ∨ S.conns c
      rw [h.conns]
    · show _ ↔ False
      refine ⟨fun hp => ?_, False.elim⟩
      refine Clean.pending (fun p => ?_) c b hp
      have hc : Clean (created ids (u p)).base := by
        rw [created_base, hub]
        refine clean_creates ids _ (clean_synced _ l p) ?_ ?_
        · exact (Comp.inv_synced h.base l).mwf p
        · exact (Comp.inv_synced h.base l).nwf p
      exact hc
    · intro p m c k hc hk hm
      obtain ⟨-, c2, c3⟩ := created_handles ids (u p) m c
      show (created ids (u p)).handles m c = S.handles m c
      by_cases hi : c ∈ ids
      · rw [h.fresh m c (hl c hi).1]
        refine c3 hi ?_
        rw [(hS.placed (sideGrid m c) k hk p).1, hm]
      · rw [c2 hi, hh]
        refine h.handles p m c k ?_ hk hm
        rcases hc with hc | hc
        · exact absurd hc hi
        · exact hc
    · intro m c hc
      exact h.fresh m c fun hc' => hc (.inr hc')
  · show (created ids (u p)).base.log ++ _ = _
    have hs' := Comp.createLocals_spec ids (u p).base (by rw [hub]; exact (Comp.inv_synced h.base l).mwf p)
      (by rw [hub]; exact (Comp.inv_synced h.base l).nwf p) (by rw [hub]; exact (Comp.inv_synced h.base l).lsort p)
    rw [created_base, hs'.2.2.2.1, hub, each_eq]
    show (s p).base.log ++ l ++ _ = _
    rw [List.append_assoc]
    rfl
  · show Runs (member mem) comb All (fun p => createConns debug ids (s p)) _
    unfold createConns
    refine .bind (world_runs 1) ?_
    refine Runs.congr ?_ (fun p _ => (if_neg fun hc => hc.2 (List.all_eq_true.2 (hv p))).symm) fun _ _ => rfl
    refine .bind hr ?_
    refine Runs.congr ?_ (fun p _ => (if_neg fun hc => hc (List.all_eq_true.2 fun c hc => ?_)).symm) fun _ _ => rfl
    · refine .bind (createLocals_runs ids hS.placed fun c hc => (hl c hc).2) (.bind (world_runs 1)
        (.bind (world_runs 1) (.ret _)))
    · have : (u p).base.grids = (s p).base.grids := by rw [hub]; rfl
      rw [this, Bool.and_eq_true, hin, hin]
      exact (hl c hc).2

theorem mapM_zero {f : CID → Option Nat} : ∀ ids : List CID, (∀ c ∈ ids, f c = some 0) →
    ids.mapM f = some (List.replicate ids.length 0) := by
  intro ids
  induction ids with
  | nil => intro _; rfl
  | cons c ids ih =>
    intro h
    rw [List.mapM_cons, h c (by simp), ih fun c hc => h c (by simp [hc])]
    rfl

theorem foldl_same {op : Nat → Nat → Nat} (hop : op 0 0 = 0) (N : Nat) : ∀ l : List (List Nat),
    (∀ b ∈ l, b = List.replicate N 0) → l.foldl (List.zipWith op) (List.replicate N 0) = List.replicate N 0 := by
  intro l
  induction l with
  | nil => intro _; rfl
  | cons b l ih =>
    intro h
    rw [List.foldl_cons, h b (by simp), show List.zipWith op (List.replicate N 0) (List.replicate N 0) =
      List.replicate N 0 by simp [List.zipWith_replicate, hop]]
    exact ih fun b hb => h b (by simp [hb])

theorem lor_comb (N : Nat) (hn : ∃ p : Fin n, All p = true) :
    comb .lor (gathered (member mem) .world fun _ => List.replicate N 0) = some (List.replicate N 0) := by
  simp only [comb]
  rw [gathered_world]
  cases e : List.finRange n with
  | nil =>
    obtain ⟨p, -⟩ := hn
    have := List.mem_finRange p
    rw [e] at this
    cases this
  | cons q qs =>
    rw [List.map_cons, reduce_cons (by simp)]
    refine congrArg some (foldl_same (by simp) N _ ?_)
    simp

theorem Inv.valid (h : Inv mem S s) (p : Fin n) {c : CID} (hc : S.conns c) : Comp.valid (s p).base true c = true := by
  refine (Comp.valid_iff h.base p true c).2 ?_
  have := h.base.ends p c ((h.conns p c).2 hc)
  exact ⟨h.nonneg p _ this.1, h.nonneg p _ this.2, this.1, this.2, by simp [h.conns, hc]⟩

theorem Inv.editing (h : Inv mem S s) (p : Fin n) {c : CID} (hc : S.conns c) (h0 : ∀ m, S.handles m c = 0) :
    CompC.editing (s p) c = some 0 := by
  have key : ∀ m, (s p).isLocal (sideGrid m c) = true →
      ((s p).side m).contains elemLess c = true ∧ (s p).handles m c = 0 := by
    intro m hm
    have hg : S.grids (sideGrid m c) ≠ none := by
      cases m
      · exact (h.ends p hc).2
      · exact (h.ends p hc).1
    obtain ⟨k, hk⟩ := Option.ne_none_iff_exists'.1 hg
    have hmem : mem k p = true := by rw [← (h.placed _ k hk p).1, hm]
    exact ⟨((h.held p m).2 c k hk).2 ⟨hc, hmem⟩, (h.handles p m c k hc hk hmem).trans (h0 m)⟩
  have k1 := key true
  have k2 := key false
  unfold CompC.editing
  change ((s p).isLocal (mGrid c) = true → _) at k1
  change ((s p).isLocal (nGrid c) = true → _) at k2
  cases e1 : (s p).isLocal (mGrid c) <;> cases e2 : (s p).isLocal (nGrid c) <;> simp_all

theorem Inv.checkDestroy (h : Inv mem S s) {ids : List CID} (hl : ∀ c ∈ ids, S.conns c ∧ ∀ m, S.handles m c = 0) :
    Runs (member mem) comb All (fun p => CompC.checkDestroy ids (s p)) fun _ => true := by
  by_cases hn : ∃ p : Fin n, All p = true
  swap
  · exact (Runs.ret fun _ => true).congr (fun p hp => absurd ⟨p, hp⟩ hn) fun _ _ => rfl
  refine Runs.congr (.coll (c := Comm.world) (l := Kind.lor) (f := fun _ => List.replicate ids.length 0)
      (k := fun _ r => .ret (r.all fun x => x == 0)) (fun _ => rfl) (r := List.replicate ids.length 0)
      (fun hn => lor_comb _ hn) ((Runs.ret fun _ => true).congr (fun p _ => ?_) fun _ _ => rfl)) (fun p _ => ?_)
      fun _ _ => rfl
  · simp
  · unfold CompC.checkDestroy
    rw [if_neg (not_not.2 (List.all_eq_true.2 fun c hc => h.valid p (hl c hc).1)),
      mapM_zero ids fun c hc => h.editing p (hl c hc).1 (hl c hc).2]

theorem clean_erase {m : OMap CID Nat} (hw : m.WF elemLess) (h : ∀ e ∈ m.entries, e.2 = 0) (ids : List CID) :
    ∀ e ∈ (ids.foldl (OMap.erase elemLess) m).entries, e.2 = 0 := by
  rintro ⟨k, f⟩ he
  exact h _ (((Comp.fold_merase Comp.esto ids hw).2 k f).1 he).2

theorem works_destroyConns {debug : Bool} (p0 : Fin n) (h : Inv mem S s) {ids : List CID}
    (hl : Spec.Legal mem S (.destroyConns ids)) : Works mem debug S s (.destroyConns ids) := by
  have hv : ∀ p, ∀ c ∈ ids, Comp.valid (s p).base true c = true := fun p c hc => h.valid p (hl c hc).1
  obtain ⟨w', hw'⟩ := Comp.destroyConns_defined h.base (fun _ => ids) hv
  obtain ⟨i1, i2, i3, i4⟩ := Comp.destroyConns_spec h.base (fun _ => ids) (fun _ _ => rfl) hw'
  obtain ⟨l, hp, hs, hr⟩ := h.sync
  have hS := h.synced l
  generalize hu : (fun p => ({ s p with base := Comp.synced (fun p => (s p).base) l p } : State)) = u at hS
  replace hr : Runs (member mem) comb All (fun p => CompC.sync (s p)) fun p => some (u p) := by
    rw [← hu]
    exact hr
  have hub : ∀ p, (u p).base = Comp.synced (fun p => (s p).base) l p := fun p => by rw [← hu]
  have hcomm : ∀ p, (u p).comm = (s p).comm := fun p => by rw [← hu]
  have hcomp : ∀ p, (u p).comp = (s p).comp := fun p => by rw [← hu]
  have hh : ∀ p, (u p).handles = (s p).handles := fun p => by rw [← hu]
  have hf := fun p => destroyed_fields ids (u p)
  let t : Fin n → State := fun p => { destroyed ids (u p) with base := { (destroyed ids (u p)).base with
            records := ids.foldl (OSet.erase elemLess) (destroyed ids (u p)).base.records
            log := (destroyed ids (u p)).base.log ++ Comp.each Comp.DESTROY ids ids.length } }
  have hbp : ∀ p, (t p).base = w' p := by
    unfold Comp.destroyConns at hw'
    rw [if_pos (fun p => List.all_eq_true.2 (hv p)), hs, Option.bind_some, Option.some.injEq] at hw'
    intro p
    rw [← hw']
    show ({ (destroyed ids (u p)).base with
            records := ids.foldl (OSet.erase elemLess) (destroyed ids (u p)).base.records
            log := (destroyed ids (u p)).base.log ++ Comp.each Comp.DESTROY ids ids.length } : Comp.Proc) = _
    rw [(hf p).1, hub]
  have hbase : (fun p => (t p).base) = w' := funext hbp
  refine ⟨t, l ++ Spec.marks 2 ids, ?_, fun p => ?_, ⟨l, rfl, hp⟩, ?_⟩
  · refine ⟨by rw [hbase]; exact i1, ?_, ?_, ?_, fun p g k hk hm => ?_, h.nonempty, fun p c => ?_, fun c b => ?_, ?_, ?_,
      fun p => ((hf p).2.2.1.trans (hcomp p)).trans (h.comp p)⟩
    · intro p g hg
      replace hg : g ∈ (t p).base.grids := hg
      rw [hbp, i2] at hg
      exact h.nonneg p g hg
    · intro p g
      rw [hbp, i2]
      exact h.grids p g
    · intro p g
      rw [hbp, i3]
      exact h.loc p g
    · show (destroyed ids (u p)).comm g = k
      rw [(hf p).2.1, hcomm]
      exact h.comm p g k hk hm
    · rw [hbp, i4]
      show _ ↔ c ∉ ids ∧ S.conns c
      rw [h.conns]
    · show _ ↔ False
      refine ⟨fun hp => Clean.pending (fun p => ?_) c b hp, False.elim⟩
      have hc : Clean (destroyed ids (u p)).base := by
        rw [(hf p).1]
        have := clean_synced (fun p => (s p).base) l p
        rw [← hub] at this
        exact ⟨clean_erase (hS.base.mwf p) this.1 ids, clean_erase (hS.base.nwf p) this.2 ids⟩
      exact hc
    · intro p m c k hc hk hm
      show (destroyed ids (u p)).handles m c = S.handles m c
      rw [(hf p).2.2.2, if_neg hc.1, hh]
      exact h.handles p m c k hc.2 hk hm
    · intro m c hc
      by_cases hi : c ∈ ids
      · exact (hl c hi).2 m
      · exact h.fresh m c fun hc' => hc ⟨hi, hc'⟩
  · show (destroyed ids (u p)).base.log ++ _ = _
    rw [(hf p).1, hub, each_eq]
    show (s p).base.log ++ l ++ _ = _
    rw [List.append_assoc]
    rfl
  · show Runs (member mem) comb All (fun p => destroyConns debug ids (s p)) _
    unfold destroyConns
    refine .bind (world_runs 1) (.bind (a := fun _ => true) ?_ ?_)
    · cases debug
      · exact .ret _
      · exact h.checkDestroy hl
    · refine Runs.congr ?_ (fun p _ => (if_neg fun hc => Bool.noConfusion hc).symm) fun _ _ => rfl
      refine .bind hr (.bind (world_runs 1) (.bind (destroyLocals_runs ids hS.placed hS.held fun c hc => ?_)
        (.bind (world_runs 1) (.ret _))))
      exact h.ends p0 (hl c hc).1

/-! ### Grids -/

theorem dying_sorted (flags : OMap Int Nat) (s : Comp.Proc) :
    (Comp.dying flags s).Pairwise fun a b => elemLess a b = true := by
  have hnil' : Sorted (elemLess (n := 2)) ([] : List CID) := by unfold Sorted; exact List.Pairwise.nil
  unfold Comp.dying
  exact (Comp.fold_insert_if Comp.esto (fun c => _) id s.records hnil').1

theorem dying_touches (flag : Nat) (ids : List Int) (h : Inv mem S s) (p : Fin n) (c : CID) :
    c ∈ Comp.dying (Comp.gridFlags flag ids) (s p).base ↔ S.conns c ∧ flag &&& 2 ≠ 0 ∧ Spec.touches ids c := by
  rw [Comp.dying_spec, h.conns]
  have : (∃ g ∈ ids, Comp.Spec.Touches c g) ↔ Spec.touches ids c := by
    unfold Comp.Spec.Touches Spec.touches
    constructor
    · rintro ⟨g, hg, e | e⟩
      · exact .inl (e ▸ hg)
      · exact .inr (e ▸ hg)
    · rintro (hg | hg)
      · exact ⟨_, hg, .inl rfl⟩
      · exact ⟨_, hg, .inr rfl⟩
  rw [this]
  rfl

/-- What the component does when grids are created or about to be destroyed. -/
theorem gridEvent_runs {debug : Bool} (p0 : Fin n) (h : Inv mem S s) (flag : Nat) {ids : List Int} (hi : ids ≠ [])
    (hl : flag &&& 2 ≠ 0 → ∀ c, S.conns c → Spec.touches ids c → ∀ m, S.handles m c = 0) :
    ∃ t l l' ds, Inv mem { S with
        conns := fun c => S.conns c ∧ ¬ (flag &&& 2 ≠ 0 ∧ Spec.touches ids c), pend := fun _ _ => False } t ∧
      (∀ p, (t p).base.log = (s p).base.log ++ l) ∧ l = l' ++ Spec.marks 2 ds ∧ Comp.Spec.Announces S.pend l' ∧
      ds.Pairwise (fun a b => elemLess a b = true) ∧
      (∀ c, c ∈ ds ↔ S.conns c ∧ flag &&& 2 ≠ 0 ∧ Spec.touches ids c) ∧
      Runs (member mem) comb All (fun p => gridEvent debug flag ids (s p)) fun p => some (t p) := by
  have hsame : ∀ p, Comp.dying (Comp.gridFlags flag ids) (s p).base = Comp.dying (Comp.gridFlags flag ids) (s p0).base := by
    intro p
    unfold Comp.dying
    rw [h.base.records p p0]
  have hd := fun c => dying_touches flag ids h p0 c
  obtain ⟨t, l, h1, h2, ⟨l', h3, h4⟩, h5⟩ := works_destroyConns (debug := debug) p0 h
    (ids := Comp.dying (Comp.gridFlags flag ids) (s p0).base) fun c hc => by
      have := (hd c).1 hc
      exact ⟨this.1, hl this.2.1 c this.1 this.2.2⟩
  refine ⟨t, l, l', Comp.dying (Comp.gridFlags flag ids) (s p0).base, ?_, h2, h3, h4, dying_sorted _ _, hd, ?_⟩
  · refine h1.congr (fun _ => rfl) (fun c => ?_) (fun _ _ => Iff.rfl) (fun _ _ => rfl) rfl
    show c ∉ _ ∧ S.conns c ↔ S.conns c ∧ ¬ _
    rw [hd]
    constructor
    · exact fun ⟨a, b⟩ => ⟨b, fun d => a ⟨b, d⟩⟩
    · exact fun ⟨a, b⟩ => ⟨fun d => b d.2, a⟩
  · refine h5.congr (fun p _ => ?_) fun _ _ => rfl
    unfold gridEvent
    rw [if_neg hi, hsame p]
    rfl

theorem added_fields (mine : Nat → Bool) : ∀ (es : List (Int × Nat)) (s : State), Sorted intLess s.base.localGrids →
    (es.map Prod.fst).Nodup →
    (addGrids mine es s).base = { s.base with localGrids := (addGrids mine es s).base.localGrids } ∧
    Sorted intLess (addGrids mine es s).base.localGrids ∧
    (∀ g, g ∈ (addGrids mine es s).base.localGrids ↔ (∃ k, (g, k) ∈ es ∧ mine k = true) ∨ g ∈ s.base.localGrids) ∧
    (addGrids mine es s).handles = s.handles ∧ (addGrids mine es s).comp = s.comp ∧
    (∀ g, g ∉ es.map Prod.fst → (addGrids mine es s).comm g = s.comm g) ∧
    ∀ e ∈ es, mine e.2 = true → (addGrids mine es s).comm e.1 = e.2 := by
  intro es
  induction es with
  | nil => intro s hs _; exact ⟨rfl, hs, by simp [addGrids], rfl, rfl, fun _ _ => rfl, by simp⟩
  | cons e es ih =>
    obtain ⟨g, k⟩ := e
    intro s hs hnd
    rw [List.map_cons, List.nodup_cons] at hnd
    unfold addGrids
    by_cases hm : mine k = true
    · rw [if_pos hm]
      obtain ⟨o1, o2⟩ := oset_insert_spec intLess_sto hs g
      obtain ⟨h1, h2, h3, h4, h5, h6, h7⟩ := ih { s with
        base := { s.base with localGrids := OSet.insert intLess s.base.localGrids g }
        comm := fun h => if h = g then k else s.comm h } o1 hnd.2
      refine ⟨h1, h2, fun x => ?_, h4, h5, fun x hx => ?_, ?_⟩
      · rw [h3]
        dsimp only
        rw [o2]
        constructor
        · rintro (⟨k', a, b⟩ | e | a)
          · exact .inl ⟨k', List.mem_cons_of_mem _ a, b⟩
          · exact .inl ⟨k, by rw [e]; exact List.mem_cons_self, hm⟩
          · exact .inr a
        · rintro (⟨k', a, b⟩ | a)
          · rcases List.mem_cons.1 a with e | a
            · cases e; exact .inr (.inl rfl)
            · exact .inl ⟨k', a, b⟩
          · exact .inr (.inr a)
      · rw [List.map_cons, List.mem_cons, not_or] at hx
        rw [h6 x hx.2]
        exact if_neg hx.1
      · intro e he hme
        rcases List.mem_cons.1 he with e' | he
        · subst e'
          rw [h6 _ hnd.1]
          exact if_pos rfl
        · exact h7 e he hme
    · rw [if_neg hm]
      obtain ⟨h1, h2, h3, h4, h5, h6, h7⟩ := ih s hs hnd.2
      refine ⟨h1, h2, fun x => ?_, h4, h5, fun x hx => h6 x fun h => hx (by simp [h]), ?_⟩
      · rw [h3]
        constructor
        · rintro (⟨k', a, b⟩ | a)
          · exact .inl ⟨k', List.mem_cons_of_mem _ a, b⟩
          · exact .inr a
        · rintro (⟨k', a, b⟩ | a)
          · rcases List.mem_cons.1 a with e | a
            · cases e; exact absurd b hm
            · exact .inl ⟨k', a, b⟩
          · exact .inr a
      · intro e he hme
        rcases List.mem_cons.1 he with e' | he
        · subst e'
          exact absurd hme hm
        · exact h7 e he hme

theorem find_fst {es : List (Int × Nat)} (hnd : (es.map Prod.fst).Nodup) {g : Int} {k : Nat} :
    (es.find? fun e => e.1 = g).map Prod.snd = some k ↔ (g, k) ∈ es := by
  induction es with
  | nil => simp
  | cons e es ih =>
    obtain ⟨g', k'⟩ := e
    rw [List.map_cons, List.nodup_cons] at hnd
    rw [List.find?_cons]
    by_cases hg : g' = g
    · subst hg
      have : (g', k) ∉ es := fun h => hnd.1 (List.mem_map.2 ⟨_, h, rfl⟩)
      simp [this, eq_comm]
    · simp only [hg, decide_false]
      rw [ih hnd.2, List.mem_cons]
      simp [Ne.symm hg]

theorem find_none {es : List (Int × Nat)} {g : Int} :
    (es.find? fun e => e.1 = g).map Prod.snd = none ↔ g ∉ es.map Prod.fst := by
  simp only [Option.map_eq_none_iff, List.find?_eq_none, decide_eq_true_eq, List.mem_map, not_exists, not_and]

/-- Grids after some were added. -/
theorem new_grids {es : List (Int × Nat)} (hnd : (es.map Prod.fst).Nodup) (hfree : ∀ e ∈ es, S.grids e.1 = none)
    (g : Int) (k : Nat) : ((es.find? fun e => e.1 = g).map Prod.snd).or (S.grids g) = some k ↔
      (g, k) ∈ es ∨ S.grids g = some k := by
  cases e : (es.find? fun e => e.1 = g).map Prod.snd with
  | none =>
    have := find_none.1 e
    rw [Option.none_or]
    constructor
    · exact .inr
    · rintro (h | h)
      · exact absurd (List.mem_map.2 ⟨_, h, rfl⟩) this
      · exact h
  | some k' =>
    have := (find_fst hnd).1 e
    rw [Option.some_or]
    constructor
    · intro h; cases h; exact .inl this
    · rintro (h | h)
      · rw [← e]; exact (find_fst hnd).2 h
      · rw [hfree _ this] at h; cases h

theorem Inv.add (h : Inv mem S s) {es : List (Int × Nat)} (hl : Spec.Legal mem S (.createGrids es)) :
    Inv mem { S with grids := fun g => ((es.find? fun e => e.1 = g).map Prod.snd).or (S.grids g) } fun p =>
      { addGrids (fun k => mem k p) es (s p) with base := { (addGrids (fun k => mem k p) es (s p)).base with
          grids := (es.map Prod.fst).foldl (OSet.insert intLess) (addGrids (fun k => mem k p) es (s p)).base.grids } } := by
  obtain ⟨hnd, hl⟩ := hl
  have hf := fun p => added_fields (fun k => mem k p) es (s p) (h.base.lsort p) hnd
  have hng := new_grids (S := S) hnd fun e he => (hl e he).2.1
  generalize hu : (fun p => addGrids (fun k => mem k p) es (s p)) = u
  replace hu : ∀ p, addGrids (fun k => mem k p) es (s p) = u p := fun p => congrFun hu p
  simp only [hu] at hf ⊢
  have b1 : ∀ p, (u p).base.grids = (s p).base.grids := fun p => by rw [(hf p).1]
  have b2 : ∀ p, (u p).base.records = (s p).base.records := fun p => by rw [(hf p).1]
  have b3 : ∀ p, (u p).base.ms = (s p).base.ms := fun p => by rw [(hf p).1]
  have b4 : ∀ p, (u p).base.ns = (s p).base.ns := fun p => by rw [(hf p).1]
  have b5 : ∀ p, (u p).base.log = (s p).base.log := fun p => by rw [(hf p).1]
  have hg := fun p => Comp.fold_insert intLess_sto (es.map Prod.fst) (h.base.gsort p)
  have hloc : ∀ p g, S.grids g ≠ none → (g ∈ (u p).base.localGrids ↔ g ∈ (s p).base.localGrids) := by
    intro p g hg
    rw [(hf p).2.2.1]
    constructor
    · rintro (⟨k, a, -⟩ | a)
      · exact absurd (hl _ a).2.1 hg
      · exact a
    · exact .inr
  have hsome : ∀ g k, S.grids g = some k → S.grids g ≠ none := fun g k e => by rw [e]; simp
  refine ⟨⟨?_, ?_, ?_, ?_, fun p => (hf p).2.1, ?_, ?_, ?_, ?_, ?_, ?_, ?_⟩, ?_, ?_, ?_, ?_, ?_, ?_, ?_, ?_, h.fresh, ?_⟩
  · intro p q
    show (es.map Prod.fst).foldl (OSet.insert intLess) (u p).base.grids = _
    dsimp only
    rw [b1, b1, h.base.grids p q]
  · intro p q
    show (u p).base.records = (u q).base.records
    rw [b2, b2, h.base.records p q]
  · intro p q
    show (u p).base.log = (u q).base.log
    rw [b5, b5, h.base.log p q]
  · intro p
    dsimp only
    rw [b1]
    exact (hg p).1
  · intro p
    show Sorted elemLess (u p).base.records
    rw [b2]
    exact h.base.rsort p
  · intro p g hgl
    dsimp only at hgl ⊢
    rw [b1, (hg p).2]
    rcases ((hf p).2.2.1 g).1 hgl with ⟨k, a, -⟩ | a
    · exact .inl (List.mem_map.2 ⟨_, a, rfl⟩)
    · exact .inr (h.base.sub p g a)
  · intro p c hc
    dsimp only at hc ⊢
    rw [b2] at hc
    rw [b1, (hg p).2, (hg p).2]
    have := h.base.ends p c hc
    exact ⟨.inr this.1, .inr this.2⟩
  · intro p
    show (u p).base.ms.WF elemLess
    rw [b3]
    exact h.base.mwf p
  · intro p
    show (u p).base.ns.WF elemLess
    rw [b4]
    exact h.base.nwf p
  · intro p c
    dsimp only
    rw [b3, b2, h.base.mkey p c]
    constructor
    · exact fun ⟨a, b⟩ => ⟨a, (hloc p _ (h.ends p ((h.conns p c).1 a)).1).2 b⟩
    · exact fun ⟨a, b⟩ => ⟨a, (hloc p _ (h.ends p ((h.conns p c).1 a)).1).1 b⟩
  · intro p c
    dsimp only
    rw [b4, b2, h.base.nkey p c]
    constructor
    · exact fun ⟨a, b⟩ => ⟨a, (hloc p _ (h.ends p ((h.conns p c).1 a)).2).2 b⟩
    · exact fun ⟨a, b⟩ => ⟨a, (hloc p _ (h.ends p ((h.conns p c).1 a)).2).1 b⟩
  · intro p g hgg
    dsimp only at hgg
    rw [b1, (hg p).2] at hgg
    rcases hgg with a | a
    · obtain ⟨e, he, rfl⟩ := List.mem_map.1 a
      exact (hl e he).1
    · exact h.nonneg p g a
  · intro p g
    dsimp only
    rw [b1, (hg p).2, h.grids, Option.ne_none_iff_exists' (o := Option.or _ _)]
    simp only [hng]
    constructor
    · rintro (a | a)
      · obtain ⟨⟨g, k⟩, he, rfl⟩ := List.mem_map.1 a
        exact ⟨k, .inl he⟩
      · obtain ⟨k, hk⟩ := Option.ne_none_iff_exists'.1 a
        exact ⟨k, .inr hk⟩
    · rintro ⟨k, a | a⟩
      · exact .inl (List.mem_map.2 ⟨_, a, rfl⟩)
      · exact .inr (hsome _ _ a)
  · intro p g
    dsimp only
    rw [(hf p).2.2.1, h.loc]
    simp only [hng]
    constructor
    · rintro (⟨k, a, b⟩ | ⟨k, a, b⟩)
      · exact ⟨k, .inl a, b⟩
      · exact ⟨k, .inr a, b⟩
    · rintro ⟨k, a | a, b⟩
      · exact .inl ⟨k, a, b⟩
      · exact .inr ⟨k, a, b⟩
  · intro p g k hk hm
    show (u p).comm g = k
    rcases (hng g k).1 hk with a | a
    · exact (hf p).2.2.2.2.2.2 (g, k) a hm
    · rw [(hf p).2.2.2.2.2.1 g fun hmem => ?_]
      · exact h.comm p g k a hm
      · obtain ⟨e, he, rfl⟩ := List.mem_map.1 hmem
        rw [(hl e he).2.1] at a
        cases a
  · intro g k hk
    rcases (hng g k).1 hk with a | a
    · exact (hl _ a).2.2
    · exact h.nonempty g k a
  · intro p c
    show c ∈ (u p).base.records ↔ _
    rw [b2]
    exact h.conns p c
  · intro c b
    refine Iff.trans ?_ (h.pend c b)
    constructor <;>
    · rintro ⟨p, f, hf, hb⟩
      refine ⟨p, f, ?_, hb⟩
      dsimp only at hf ⊢
      first
        | rw [b3, b4] at hf; exact hf
        | rw [b3, b4]; exact hf
  · intro p m c k hc hk hm
    show (u p).handles m c = _
    rw [(hf p).2.2.2.1]
    have hg' : S.grids (sideGrid m c) ≠ none := by
      cases m
      · exact (h.ends p hc).2
      · exact (h.ends p hc).1
    refine h.handles p m c k hc ?_ hm
    rcases (hng _ k).1 hk with a | a
    · exact absurd (hl _ a).2.1 hg'
    · exact a
  · intro p
    show (u p).comp = _
    rw [(hf p).2.2.2.2.1]
    exact h.comp p

theorem works_createGrids {debug : Bool} (p0 : Fin n) (h : Inv mem S s) {es : List (Int × Nat)}
    (hl : Spec.Legal mem S (.createGrids es)) : Works mem debug S s (.createGrids es) := by
  have hA := h.add hl
  have hlog : ∀ p, (addGrids (fun k => mem k p) es (s p)).base.log = (s p).base.log := fun p => by
    rw [(added_fields (fun k => mem k p) es (s p) (h.base.lsort p) hl.1).1]
  have hchk : ∀ p, (es.map Prod.fst).all (fun g => decide (0 ≤ g) && !OSet.contains intLess (s p).base.grids g) = true := by
    intro p
    rw [List.all_eq_true]
    intro g hg
    obtain ⟨e, he, rfl⟩ := List.mem_map.1 hg
    have := hl.2 e he
    rw [Bool.and_eq_true, decide_eq_true_eq, Bool.not_eq_true', ← Bool.not_eq_true,
      oset_contains_iff intLess_sto (h.base.gsort p), h.grids]
    exact ⟨this.1, by simp [this.2.1]⟩
  by_cases he : es = []
  · subst he
    refine ⟨s, [], ?_, by simp, .inl ⟨rfl, rfl⟩, ?_⟩
    · exact h.congr (fun g => by simp [Spec.apply]) (fun _ => Iff.rfl) (fun c b => by simp [Spec.apply]) (fun _ _ => rfl) rfl
    · show Runs (member mem) comb All (fun p => createGrids debug (fun k => mem k p) [] (s p)) _
      unfold createGrids
      refine .bind (world_runs 1) (Runs.congr ?_ (fun p _ => (if_neg fun hc => hc.2 (hchk p)).symm) fun _ _ => rfl)
      exact .bind (world_runs 1) (.bind (.ret _) (.bind (world_runs 1) (.ret _)))
  · have hi : es.map Prod.fst ≠ [] := by simpa using he
    obtain ⟨t, l, l', ds, h1, h2, h3, h4, -, h6, h7⟩ := gridEvent_runs (debug := debug) p0 hA Comp.CREATE hi
      fun hc => absurd rfl hc
    have hds : ds = [] := List.eq_nil_iff_forall_not_mem.2 fun c hc => ((h6 c).1 hc).2.1 rfl
    refine ⟨t, l, ?_, fun p => ?_, .inr ⟨he, ?_⟩, ?_⟩
    · refine h1.congr (fun _ => rfl) (fun c => ?_) (fun c b => ?_) (fun _ _ => rfl) rfl
      · show S.conns c ∧ _ ↔ S.conns c
        exact ⟨fun a => a.1, fun a => ⟨a, fun b => b.1 rfl⟩⟩
      · show False ↔ es = [] ∧ _
        simp [he]
    · rw [h2 p]
      dsimp only
      rw [hlog]
    · rw [h3, hds]
      show Comp.Spec.Announces S.pend (l' ++ [])
      rw [List.append_nil]
      exact h4
    · show Runs (member mem) comb All (fun p => createGrids debug (fun k => mem k p) es (s p)) _
      unfold createGrids
      refine .bind (world_runs 1) (Runs.congr ?_ (fun p _ => (if_neg fun hc => hc.2 (hchk p)).symm) fun _ _ => rfl)
      exact .bind (world_runs 1) (.bind h7 (.bind (world_runs 1) (.ret _)))

/-- Local grids after some were removed. -/
def removed (ids : List Int) (s : State) : State :=
  { s with base := { s.base with localGrids := ids.foldl (OSet.erase intLess) s.base.localGrids } }

theorem removeGrids_runs : ∀ (ids : List Int) {s : Fin n → State},
    (∀ p, Sorted intLess (s p).base.localGrids) →
    (∀ g ∈ ids, (∀ p, (s p).isLocal g = false) ∨ ∃ k, ∀ p, (s p).isLocal g = mem k p ∧ (mem k p = true → (s p).comm g = k)) →
    Runs (member mem) comb All (fun p => removeGrids ids (s p)) fun p => removed ids (s p) := by
  intro ids
  induction ids with
  | nil => intro s _ _; exact .ret _
  | cons g ids ih =>
    intro s hs h
    have he := fun p => oset_erase_spec intLess_sto (hs p) g
    refine .bind (a := fun _ => ()) ?_ (ih (fun p => (he p).1) fun g' hg' => ?_)
    · rcases h g (by simp) with h | ⟨k, h⟩
      · exact off_grid h
      · exact on_grid (fun p => (h p).1) fun p => (h p).2
    · have hl : ∀ p, State.isLocal { s p with
          base := { (s p).base with localGrids := OSet.erase intLess (s p).base.localGrids g } } g' =
          (decide (g' ≠ g) && (s p).isLocal g') := by
        intro p
        unfold State.isLocal
        rw [Bool.eq_iff_iff, oset_contains_iff intLess_sto (he p).1, (he p).2, Bool.and_eq_true, decide_eq_true_eq,
          oset_contains_iff intLess_sto (hs p)]
      by_cases hgg : g' = g
      · exact .inl fun p => by rw [hl]; simp [hgg]
      · rcases h g' (by simp [hg']) with h | ⟨k, h⟩
        · exact .inl fun p => by rw [hl, h p]; simp
        · exact .inr ⟨k, fun p => by rw [hl, (h p).1]; exact ⟨by simp [hgg], (h p).2⟩⟩

theorem Inv.remove (h : Inv mem S s) {ids : List Int} (hc : ∀ c, S.conns c → ¬ Spec.touches ids c) :
    Inv mem { S with grids := fun g => if g ∈ ids then none else S.grids g } fun p =>
      { removed ids (s p) with base := { (removed ids (s p)).base with
          grids := ids.foldl (OSet.erase intLess) (removed ids (s p)).base.grids } } := by
  have hg := fun p => Comp.fold_erase intLess_sto ids (h.base.gsort p)
  have hl := fun p => Comp.fold_erase intLess_sto ids (h.base.lsort p)
  have hm : ∀ c, S.conns c → mGrid c ∉ ids ∧ nGrid c ∉ ids := fun c h' => not_or.1 (hc c h')
  have hcp := fun p c (h' : c ∈ (s p).base.records) => hm c ((h.conns p c).1 h')
  have hng : ∀ (g : Int) (k : Nat), (if g ∈ ids then none else S.grids g) = some k ↔ g ∉ ids ∧ S.grids g = some k := by
    intro g k
    split <;> simp [*]
  refine ⟨⟨?_, h.base.records, h.base.log, fun p => (hg p).1, fun p => (hl p).1, h.base.rsort, ?_, ?_, h.base.mwf,
    h.base.nwf, ?_, ?_⟩, ?_, ?_, ?_, ?_, ?_, h.conns, h.pend, ?_, h.fresh, h.comp⟩
  · intro p q
    show ids.foldl (OSet.erase intLess) (s p).base.grids = ids.foldl (OSet.erase intLess) (s q).base.grids
    rw [h.base.grids p q]
  · intro p g hgl
    have := ((hl p).2 g).1 hgl
    exact ((hg p).2 g).2 ⟨this.1, h.base.sub p g this.2⟩
  · intro p c hcr
    have := h.base.ends p c hcr
    exact ⟨((hg p).2 _).2 ⟨(hcp p c hcr).1, this.1⟩, ((hg p).2 _).2 ⟨(hcp p c hcr).2, this.2⟩⟩
  · intro p c
    refine (h.base.mkey p c).trans ?_
    refine and_congr_right fun hcr => ?_
    exact (Iff.trans ((hl p).2 _) (and_iff_right (hcp p c hcr).1)).symm
  · intro p c
    refine (h.base.nkey p c).trans ?_
    refine and_congr_right fun hcr => ?_
    exact (Iff.trans ((hl p).2 _) (and_iff_right (hcp p c hcr).2)).symm
  · intro p g hgg
    exact h.nonneg p g (((hg p).2 g).1 hgg).2
  · intro p g
    refine ((hg p).2 g).trans ?_
    rw [h.grids]
    dsimp only
    split <;> simp [*]
  · intro p g
    refine ((hl p).2 g).trans ?_
    rw [h.loc]
    simp only [hng]
    exact ⟨fun ⟨a, k, b, d⟩ => ⟨k, ⟨a, b⟩, d⟩, fun ⟨k, ⟨a, b⟩, d⟩ => ⟨a, k, b, d⟩⟩
  · intro p g k hk hmk
    exact h.comm p g k ((hng g k).1 hk).2 hmk
  · intro g k hk
    exact h.nonempty g k ((hng g k).1 hk).2
  · intro p m c k hcc hk hmk
    exact h.handles p m c k hcc ((hng _ k).1 hk).2 hmk

theorem works_destroyGrids {debug : Bool} (p0 : Fin n) (h : Inv mem S s) {ids : List Int}
    (hl : Spec.Legal mem S (.destroyGrids ids)) : Works mem debug S s (.destroyGrids ids) := by
  obtain ⟨hex, hl⟩ := hl
  have hchk : ∀ p, ids.all (fun g => decide (0 ≤ g) && OSet.contains intLess (s p).base.grids g) = true := by
    intro p
    rw [List.all_eq_true]
    intro g hg
    rw [Bool.and_eq_true, decide_eq_true_eq, oset_contains_iff intLess_sto (h.base.gsort p)]
    have := (h.grids p g).2 (hex g hg)
    exact ⟨h.nonneg p g this, this⟩
  by_cases he : ids = []
  · subst he
    refine ⟨s, [], ?_, by simp, .inl ⟨rfl, rfl⟩, ?_⟩
    · exact h.congr (fun g => by simp [Spec.apply]) (fun c => by simp [Spec.apply, Spec.touches])
        (fun c b => by simp [Spec.apply]) (fun _ _ => rfl) rfl
    · show Runs (member mem) comb All (fun p => destroyGrids debug [] (s p)) _
      unfold destroyGrids
      refine .bind (world_runs 1) (Runs.congr ?_ (fun p _ => (if_neg fun hc => hc.2 (hchk p)).symm) fun _ _ => rfl)
      exact .bind (.ret _) (.bind (world_runs 1) (.bind (.ret _) (.bind (world_runs 1) (.ret _))))
  · obtain ⟨t, l, l', ds, h1, h2, h3, h4, h5, h6, h7⟩ := gridEvent_runs (debug := debug) p0 h Comp.DESTROY he
      fun _ => hl
    have h2' : Comp.DESTROY &&& 2 ≠ 0 := by decide
    have hR := h1.remove (ids := ids) fun c hc hct => hc.2 ⟨h2', hct⟩
    refine ⟨_, l, hR.congr (fun _ => rfl) (fun c => ?_) (fun c b => ?_) (fun _ _ => rfl) rfl, h2,
      .inr ⟨he, l', ds, h3, h4, h5, fun c => ?_⟩, ?_⟩
    · show S.conns c ∧ ¬ _ ↔ S.conns c ∧ ¬ _
      rw [and_iff_right h2']
    · show False ↔ ids = [] ∧ _
      simp [he]
    · rw [h6, and_iff_right h2']
    · show Runs (member mem) comb All (fun p => destroyGrids debug ids (s p)) _
      unfold destroyGrids
      refine .bind (world_runs 1) (Runs.congr ?_ (fun p _ => (if_neg fun hc => hc.2 (hchk p)).symm) fun _ _ => rfl)
      refine .bind h7 (.bind (world_runs 1) (.bind (removeGrids_runs ids h1.base.lsort ?_)
        (.bind (world_runs 1) (.ret _))))
      · intro g hg
        obtain ⟨k, hk⟩ := Option.ne_none_iff_exists'.1 (hex g hg)
        exact .inr ⟨k, fun p => h1.placed g k hk p⟩

/-! ### Editing -/

theorem Inv.side (h : Inv mem S s) {m : Bool} {c : CID} (hc : S.conns c) (p : Fin n) :
    ∃ k, S.grids (sideGrid m c) = some k ∧ (∀ q, (s q).isLocal (sideGrid m c) = mem k q) ∧
      (∀ q, mem k q = true → (s q).comm (sideGrid m c) = k ∧ ((s q).side m).contains elemLess c = true ∧
        (s q).handles m c = S.handles m c) := by
  have hg : S.grids (sideGrid m c) ≠ none := by
    cases m
    · exact (h.ends p hc).2
    · exact (h.ends p hc).1
  obtain ⟨k, hk⟩ := Option.ne_none_iff_exists'.1 hg
  exact ⟨k, hk, fun q => (h.placed _ k hk q).1, fun q hq => ⟨h.comm q _ k hk hq,
    ((h.held q m).2 c k hk).2 ⟨hc, hq⟩, h.handles q m c k hc hk hq⟩⟩

/-- Another number of handles. -/
theorem Inv.setHandles (h : Inv mem S s) {m : Bool} {c : CID} (hc : S.conns c) (i : Nat) {b : Fin n → Bool}
    (hb : ∀ k p, S.grids (sideGrid m c) = some k → mem k p = true → b p = true) :
    Inv mem { S with handles := fun m' c' => if m' = m ∧ c' = c then i else S.handles m' c' } fun p =>
      if b p then (s p).setHandles m c i else s p := by
  have hbase : ∀ p, (if b p then (s p).setHandles m c i else s p).base = (s p).base := fun p => by split <;> rfl
  have hcomm : ∀ p, (if b p then (s p).setHandles m c i else s p).comm = (s p).comm := fun p => by split <;> rfl
  have hcomp : ∀ p, (if b p then (s p).setHandles m c i else s p).comp = (s p).comp := fun p => by split <;> rfl
  refine ⟨by simp only [hbase]; exact h.base, by simp only [hbase]; exact h.nonneg, by simp only [hbase]; exact h.grids,
    by simp only [hbase]; exact h.loc, by simp only [hcomm]; exact h.comm, h.nonempty,
    by simp only [hbase]; exact h.conns, by simp only [hbase]; exact h.pend, ?_, ?_, by simp only [hcomp]; exact h.comp⟩
  · intro p m' c' k hc' hk hm
    have := h.handles p m' c' k hc' hk hm
    dsimp only
    by_cases e : m' = m ∧ c' = c
    · obtain ⟨rfl, rfl⟩ := e
      rw [if_pos (hb k p hk hm), if_pos ⟨rfl, rfl⟩]
      simp [State.setHandles]
    · rw [if_neg e]
      split
      · simp only [State.setHandles]
        rw [if_neg e]
        exact this
      · exact this
  · intro m' c' hc'
    dsimp only
    rw [if_neg fun e => hc' (by rw [e.2]; exact hc)]
    exact h.fresh m' c' hc'

theorem works_edit {debug : Bool} (p0 : Fin n) (h : Inv mem S s) {m : Bool} {c : CID}
    (hl : Spec.Legal mem S (.edit m c)) : Works mem debug S s (.edit m c) := by
  obtain ⟨k, hk, h1, h2⟩ := h.side (m := m) hl p0
  have hL : ∀ p, mem k p = true → (s p).isLocal (sideGrid m c) = true := fun p hp => by rw [h1, hp]
  refine ⟨fun p => if (s p).isLocal (sideGrid m c) then (s p).setHandles m c (S.handles m c + 1) else s p, [],
    h.setHandles hl (S.handles m c + 1) (fun k' p hk' hm => ?_), fun p => ?_, rfl, ?_⟩
  · rw [hk] at hk'
    cases hk'
    rw [h1, hm]
  · rw [List.append_nil]
    dsimp only
    split <;> rfl
  · refine Runs.sub (T := mem k) ?_ (fun _ _ => rfl) fun p _ hp => ?_
    · refine Runs.congr (a := fun p => some ((s p).setHandles m c (S.handles m c + 1)))
        (P := fun p => (if S.handles m c = 0 then barriers (.grid k) 1 else .ret ()).bind fun _ =>
        .ret (some ((s p).setHandles m c (S.handles m c + 1)))) ?_ (fun p hp => ?_) fun p hp => ?_
      · refine .bind (a := fun _ => ()) ?_ (.ret _)
        split
        · exact grid_runs k 1
        · exact .ret _
      · show _ = edit m c (s p)
        unfold edit
        obtain ⟨a, b, d⟩ := h2 p hp
        rw [if_pos (hL p hp), if_pos b, a, d]
      · dsimp only
        rw [if_pos (hL p hp)]
    · show edit m c (s p) = _
      unfold edit
      have : ¬ (s p).isLocal (sideGrid m c) = true := by rw [h1, hp]; simp
      dsimp only
      rw [if_neg this, if_neg this]

theorem works_restore {debug : Bool} (p0 : Fin n) (h : Inv mem S s) {m : Bool} {c : CID}
    (hl : Spec.Legal mem S (.restore m c)) : Works mem debug S s (.restore m c) := by
  obtain ⟨hl, h0⟩ := hl
  obtain ⟨k, hk, h1, h2⟩ := h.side (m := m) hl p0
  have hL : ∀ p, mem k p = true → (s p).isLocal (sideGrid m c) = true := fun p hp => by rw [h1, hp]
  refine ⟨fun p => if (s p).isLocal (sideGrid m c) then (s p).setHandles m c (S.handles m c - 1) else s p, [],
    h.setHandles hl (S.handles m c - 1) (fun k' p hk' hm => ?_), fun p => ?_, rfl, ?_⟩
  · rw [hk] at hk'
    cases hk'
    rw [h1, hm]
  · rw [List.append_nil]
    dsimp only
    split <;> rfl
  · refine Runs.sub (T := mem k) ?_ (fun _ _ => rfl) fun p _ hp => ?_
    · refine Runs.congr (a := fun p => some ((s p).setHandles m c (S.handles m c - 1)))
        (P := fun p => (if S.handles m c = 1 then barriers (.grid k) 1 else .ret ()).bind fun _ =>
        .ret (some ((s p).setHandles m c (S.handles m c - 1)))) ?_ (fun p hp => ?_) fun p hp => ?_
      · refine .bind (a := fun _ => ()) ?_ (.ret _)
        split
        · exact grid_runs k 1
        · exact .ret _
      · show _ = restore m c (s p)
        unfold restore
        obtain ⟨a, b, d⟩ := h2 p hp
        have b' : ((s p).side m).contains elemLess c = true ∧ (s p).handles m c ≠ 0 := ⟨b, by rw [d]; exact h0⟩
        rw [if_pos (hL p hp), if_pos b', a, d]
      · dsimp only
        rw [if_pos (hL p hp)]
    · show restore m c (s p) = _
      unfold restore
      have : ¬ (s p).isLocal (sideGrid m c) = true := by rw [h1, hp]; simp
      dsimp only
      rw [if_neg this, if_neg this]

/-- A flag added on one process. -/
def raise (m : Bool) (c : CID) (f : Nat) (w : Comp.Proc) : Comp.Proc :=
  if m then { w with ms := w.ms.modify elemLess c (· ||| f) } else { w with ns := w.ns.modify elemLess c (· ||| f) }

theorem raise_fields (m : Bool) (c : CID) (f : Nat) (w : Comp.Proc) :
    (raise m c f w).grids = w.grids ∧ (raise m c f w).localGrids = w.localGrids ∧
      (raise m c f w).records = w.records ∧ (raise m c f w).log = w.log := by
  cases m <;> exact ⟨rfl, rfl, rfl, rfl⟩

theorem raise_all {w : Fin n → Comp.Proc} (h : Comp.Inv w) (m : Bool) (c : CID) (f : Nat) : ∀ l : List (Fin n),
    l.Nodup → (∀ p ∈ l, OMap.contains elemLess (if m then (w p).ms else (w p).ns) c = true) →
    Comp.Inv (fun q => if q ∈ l then raise m c f (w q) else w q) ∧
      ∀ k b, Comp.Spec.Pending (fun q => if q ∈ l then raise m c f (w q) else w q) k b ↔
        Comp.Spec.Pending w k b ∨ (l ≠ [] ∧ k = c ∧ f.testBit b = true) := by
  intro l
  induction l with
  | nil =>
    intro _ _
    simp only [List.not_mem_nil, if_false, ne_eq, not_true_eq_false, false_and, or_false, implies_true, and_true]
    exact h
  | cons p l ih =>
    intro hnd hc
    rw [List.nodup_cons] at hnd
    obtain ⟨i1, i2⟩ := ih hnd.2 fun q hq => hc q (by simp [hq])
    have hW : (if p ∈ l then raise m c f (w p) else w p) = w p := if_neg hnd.1
    have he : Comp.edit (fun q => if q ∈ l then raise m c f (w q) else w q) p m c f =
        some fun q => if q ∈ p :: l then raise m c f (w q) else w q := by
      unfold Comp.edit
      simp only [hW]
      rw [if_pos (hc p List.mem_cons_self)]
      congr 1
      funext q
      by_cases e : q = p
      · subst e
        rw [if_pos rfl, if_pos (List.mem_cons_self (a := q) (l := l))]
        rfl
      · rw [if_neg e]
        simp [e]
    obtain ⟨j1, -, -, -, j2⟩ := Comp.edit_spec i1 p m c f he
    refine ⟨j1, fun k b => ?_⟩
    rw [j2, i2]
    constructor
    · rintro ((a | a) | a)
      · exact .inl a
      · exact .inr ⟨by simp, a.2⟩
      · exact .inr ⟨by simp, a⟩
    · rintro (a | a)
      · exact .inl (.inl a)
      · exact .inr a.2

/-- An event that all processes of the grid trigger. -/
theorem Inv.raise (h : Inv mem S s) {m : Bool} {c : CID} (hc : S.conns c) (p0 : Fin n) (f : Nat) {b : Fin n → Bool}
    (hb : ∀ k p, S.grids (sideGrid m c) = some k → b p = mem k p) :
    Inv mem { S with pend := fun c' i => S.pend c' i ∨ (c' = c ∧ f.testBit i = true) } fun p =>
      if b p then (s p).setSide m (((s p).side m).modify elemLess c (· ||| f)) else s p := by
  obtain ⟨k, hk, -, h2⟩ := h.side (m := m) hc p0
  have hb := fun p => hb k p hk
  obtain ⟨i1, i2⟩ := raise_all h.base m c f ((List.finRange n).filter b) ((List.nodup_finRange n).filter _) (by
    intro p hp
    have : mem k p = true := by rw [← hb]; exact (List.mem_filter.1 hp).2
    exact (h2 p this).2.1)
  have hbase : (fun p => (if b p then (s p).setSide m (((s p).side m).modify elemLess c (· ||| f)) else s p).base) =
      fun q => if q ∈ (List.finRange n).filter b then CompC.raise m c f (s q).base else (s q).base := by
    funext p
    have : p ∈ (List.finRange n).filter b ↔ b p = true := by simp [List.mem_filter, List.mem_finRange]
    by_cases e : b p = true
    · rw [if_pos e, if_pos (this.2 e)]
      cases m <;> rfl
    · rw [if_neg e, if_neg fun a => e (this.1 a)]
  have hp := fun p => congrFun hbase p
  have hff : ∀ p, (if p ∈ (List.finRange n).filter b then CompC.raise m c f (s p).base else (s p).base).grids =
        (s p).base.grids ∧ (if p ∈ (List.finRange n).filter b then CompC.raise m c f (s p).base else (s p).base).localGrids =
        (s p).base.localGrids ∧ (if p ∈ (List.finRange n).filter b then CompC.raise m c f (s p).base else (s p).base).records =
        (s p).base.records := by
    intro p
    have := raise_fields m c f (s p).base
    split
    · exact ⟨this.1, this.2.1, this.2.2.1⟩
    · exact ⟨rfl, rfl, rfl⟩
  have hcomm : ∀ p, (if b p then (s p).setSide m (((s p).side m).modify elemLess c (· ||| f)) else s p).comm = (s p).comm :=
    fun p => by split <;> rfl
  have hcomp : ∀ p, (if b p then (s p).setSide m (((s p).side m).modify elemLess c (· ||| f)) else s p).comp = (s p).comp :=
    fun p => by split <;> rfl
  have hh : ∀ p, (if b p then (s p).setSide m (((s p).side m).modify elemLess c (· ||| f)) else s p).handles =
    (s p).handles := fun p => by split <;> rfl
  refine ⟨by rw [hbase]; exact i1, ?_, ?_, ?_, by simp only [hcomm]; exact h.comm, h.nonempty, ?_, ?_,
    by simp only [hh]; exact h.handles, h.fresh, by simp only [hcomp]; exact h.comp⟩
  · intro p g hg
    dsimp only at hg
    rw [hp, (hff p).1] at hg
    exact h.nonneg p g hg
  · intro p g
    rw [hp, (hff p).1]
    exact h.grids p g
  · intro p g
    rw [hp, (hff p).2.1]
    exact h.loc p g
  · intro p c'
    rw [hp, (hff p).2.2]
    exact h.conns p c'
  · intro c' i
    rw [hbase, i2, h.pend]
    have hne : (List.finRange n).filter b ≠ [] := by
      obtain ⟨q, hq⟩ := h.nonempty _ k hk
      intro e
      have : q ∈ (List.finRange n).filter b := List.mem_filter.2 ⟨List.mem_finRange q, by rw [hb, hq]⟩
      rw [e] at this
      cases this
    simp [hne]

/-- Events one after the other. -/
theorem Inv.raises {m : Bool} {c : CID} (p0 : Fin n) : ∀ (fs : List Nat) {S : Spec.World} {s : Fin n → State},
    Inv mem S s → S.conns c → ∀ {b : Fin n → Bool},
    (∀ k p, S.grids (sideGrid m c) = some k → b p = mem k p) →
    Inv mem { S with pend := fun c' i => S.pend c' i ∨ (c' = c ∧ ∃ f ∈ fs, Nat.testBit f i = true) } fun p =>
      if b p then fs.foldl (fun s f => s.setSide m ((s.side m).modify elemLess c (· ||| f))) (s p) else s p := by
  intro fs
  induction fs with
  | nil =>
    intro S s h _ b _
    simp only [List.foldl_nil, ite_self]
    exact h.congr (fun _ => rfl) (fun _ => Iff.rfl) (fun c' i => by simp) (fun _ _ => rfl) rfl
  | cons f fs ih =>
    intro S s h hc b hb
    have := ih (h.raise hc p0 f hb) hc hb
    have hst : (fun p => if b p then fs.foldl (fun s f => s.setSide m ((s.side m).modify elemLess c (· ||| f)))
          (if b p then (s p).setSide m (((s p).side m).modify elemLess c (· ||| f)) else s p)
        else if b p then (s p).setSide m (((s p).side m).modify elemLess c (· ||| f)) else s p) =
        fun p => if b p then (f :: fs).foldl (fun s f => s.setSide m ((s.side m).modify elemLess c (· ||| f))) (s p)
          else s p := by
      funext p
      by_cases e : b p = true
      · rw [if_pos e, if_pos e, if_pos e]
        rfl
      · rw [if_neg e, if_neg e, if_neg e]
    rw [hst] at this
    refine this.congr (fun _ => rfl) (fun _ => Iff.rfl) (fun c' i => ?_) (fun _ _ => rfl) rfl
    · dsimp only
      rw [or_assoc]
      refine or_congr_right ?_
      simp only [List.mem_cons, exists_eq_or_imp]
      exact ⟨fun a => a.elim (fun a => ⟨a.1, .inl a.2⟩) fun a => ⟨a.1, .inr a.2⟩,
        fun a => a.2.elim (fun d => .inl ⟨a.1, d⟩) fun d => .inr ⟨a.1, d⟩⟩

theorem bits_spec (x : Change) (b : Nat) : (∃ f ∈ x.events.map Change.flag, Nat.testBit f b = true) ↔ b ∈ Spec.bits x := by
  have key : ∀ i, Nat.testBit (1 <<< i) b = true ↔ b = i := fun i => by
    rw [Nat.one_shiftLeft, Nat.testBit_two_pow, decide_eq_true_eq, eq_comm]
  cases x <;> simp only [Change.events, Change.flag, List.map_cons, List.map_nil, List.mem_cons, exists_eq_or_imp, exists_eq_left,
    key, Spec.bits, List.not_mem_nil, false_and, exists_false, or_false, or_self]

theorem onM_side (x : Change) : x.onM = Spec.side x := by cases x <;> rfl

theorem works_change {debug : Bool} (p0 : Fin n) (h : Inv mem S s) {x : Change} {c : CID}
    (hl : Spec.Legal mem S (.change x c)) : Works mem debug S s (.change x c) := by
  obtain ⟨hl, h0⟩ := hl
  rw [← onM_side] at h0
  obtain ⟨k, hk, h1, h2⟩ := h.side (m := x.onM) hl p0
  have hL : ∀ p, mem k p = true → (s p).isLocal (sideGrid x.onM c) = true := fun p hp => by rw [h1, hp]
  have hI := Inv.raises (m := x.onM) p0 (x.events.map Change.flag) h hl
    (b := fun p => (s p).isLocal (sideGrid x.onM c)) (fun k' p hk' => by rw [hk] at hk'; cases hk'; exact h1 p)
  refine ⟨_, [], hI.congr (fun _ => rfl) (fun _ => Iff.rfl) (fun c' b => ?_) (fun _ _ => rfl) rfl, fun p => ?_, rfl, ?_⟩
  · dsimp only
    rw [bits_spec]
    rfl
  · rw [List.append_nil]
    split
    · have : ∀ (fs : List Nat) (s : State), (fs.foldl (fun s f => s.setSide x.onM ((s.side x.onM).modify elemLess c
        (· ||| f))) s).base.log = s.base.log := by
        intro fs
        induction fs with
        | nil => intro s; rfl
        | cons f fs ih =>
          intro s
          rw [List.foldl_cons, ih]
          unfold State.setSide
          dsimp only
          split <;> rfl
      exact this _ _
    · rfl
  · refine Runs.sub (T := mem k) ?_ (fun _ _ => rfl) fun p _ hp => ?_
    · refine Runs.congr (P := fun p => (barriers (.grid k) 2).bind fun _ => (barriers (.grid k) 1).bind fun _ => .ret (some
        ((x.events.map Change.flag).foldl (fun s f => s.setSide x.onM ((s.side x.onM).modify elemLess c (· ||| f))) (s p))))
        (a := fun p => some ((x.events.map Change.flag).foldl (fun s f => s.setSide x.onM ((s.side x.onM).modify
          elemLess c (· ||| f))) (s p)))
        (.bind (grid_runs k 2) (.bind (grid_runs k 1) (.ret _))) (fun p hp => ?_) fun p hp => ?_
      · show _ = change x c (s p)
        unfold change
        obtain ⟨a, b, d⟩ := h2 p hp
        rw [if_pos (hL p hp), if_pos b, a, List.foldl_map]
      · rw [if_pos (hL p hp)]
    · show change x c (s p) = _
      unfold change
      have : ¬ (s p).isLocal (sideGrid x.onM c) = true := by rw [h1, hp]; simp
      rw [if_neg this, if_neg this]

theorem works_editComponent {debug : Bool} (h : Inv mem S s) : Works mem debug S s .editComponent := by
  refine ⟨fun p => { s p with comp := (s p).comp + 1 }, [], ?_, by simp, rfl, ?_⟩
  · exact ⟨h.base, h.nonneg, h.grids, h.loc, h.comm, h.nonempty, h.conns, h.pend, h.handles, h.fresh,
      fun p => congrArg (· + 1) (h.comp p)⟩
  · show Runs (member mem) comb All (fun p => editComponent (s p)) _
    unfold editComponent
    refine .bind (a := fun _ => ()) ?_ (.ret _)
    simp only [h.comp]
    split
    · exact world_runs 1
    · exact .ret _

theorem works_restoreComponent {debug : Bool} (h : Inv mem S s) (hl : Spec.Legal mem S .restoreComponent) :
    Works mem debug S s .restoreComponent := by
  by_cases h1 : S.comp = 1
  · have h' : Inv mem { S with comp := 0 } fun p => { s p with comp := 0 } :=
      ⟨h.base, h.nonneg, h.grids, h.loc, h.comm, h.nonempty, h.conns, h.pend, h.handles, h.fresh, fun _ => rfl⟩
    obtain ⟨l, hp, -, hr⟩ := h'.sync
    refine ⟨_, l, (h'.synced l).congr (fun _ => rfl) (fun _ => Iff.rfl) (fun c b => ?_) (fun _ _ => rfl) ?_, fun p => rfl,
      .inr ⟨h1, hp⟩, ?_⟩
    · show False ↔ S.comp ≠ 1 ∧ _
      simp [h1]
    · show 0 = S.comp - 1
      omega
    · show Runs (member mem) comb All (fun p => restoreComponent (s p)) _
      refine Runs.congr (P := fun p => (sync { s p with comp := 0 }).bind fun r => match r with
        | none => .ret none
        | some s => (barriers .world 2).bind fun _ => .ret (some s)) (.bind hr (.bind (world_runs 2) (.ret _)))
        (fun p _ => ?_) fun _ _ => rfl
      unfold restoreComponent
      rw [if_neg (by rw [h.comp, h1]; decide), if_pos (by rw [h.comp, h1])]
      rfl
  · refine ⟨fun p => { s p with comp := (s p).comp - 1 }, [], ?_, by simp, .inl ⟨h1, rfl⟩, ?_⟩
    · exact ⟨h.base, h.nonneg, h.grids, h.loc, h.comm, h.nonempty, h.conns,
        fun c b => (h.pend c b).trans ⟨fun a => ⟨h1, a⟩, fun a => a.2⟩, h.handles, h.fresh,
        fun p => congrArg (· - 1) (h.comp p)⟩
    · show Runs (member mem) comb All (fun p => restoreComponent (s p)) _
      refine (Runs.ret _).congr (fun p _ => ?_) fun _ _ => rfl
      unfold restoreComponent
      rw [if_neg (by rw [h.comp]; exact hl), if_neg (by rw [h.comp]; exact h1)]

theorem works (debug : Bool) (p0 : Fin n) (h : Inv mem S s) {a : Act} (hl : Spec.Legal mem S a) :
    Works mem debug S s a := by
  cases a with
  | createGrids es => exact works_createGrids p0 h hl
  | destroyGrids ids => exact works_destroyGrids p0 h hl
  | createConns ids => exact works_createConns p0 h hl
  | destroyConns ids => exact works_destroyConns p0 h hl
  | edit m c => exact works_edit p0 h hl
  | restore m c => exact works_restore p0 h hl
  | change x c => exact works_change p0 h hl
  | editComponent => exact works_editComponent h
  | restoreComponent => exact works_restoreComponent h hl

/-! ### Histories -/

theorem history_runs (debug : Bool) (p0 : Fin n) : ∀ (as : List Act) {S : Spec.World} {s : Fin n → State}, Inv mem S s →
    Spec.LegalAll mem S as → ∃ t l, Inv mem (Spec.after S as) t ∧ (∀ p, (t p).base.log = (s p).base.log ++ l) ∧
      Spec.Hears S as l ∧ Runs (member mem) comb All (fun p => history mem debug p as (s p)) fun p => some (t p) := by
  intro as
  induction as with
  | nil => intro S s h _; exact ⟨s, [], h, by simp, rfl, .ret _⟩
  | cons a as ih =>
    intro S s h hl
    obtain ⟨t, l, h1, h2, h3, h4⟩ := works debug p0 h hl.1
    obtain ⟨t', l', h1', h2', h3', h4'⟩ := ih h1 hl.2
    exact ⟨t', l ++ l', h1', fun p => by rw [h2', h2, List.append_assoc], ⟨l, l', rfl, h3, h3'⟩, .bind h4 h4'⟩

theorem Inv.right (h : Inv mem S s) (p : Fin n) : Spec.Right mem S p (s p) := by
  refine ⟨h.grids p, h.loc p, h.conns p, fun c => ?_, fun c => ?_⟩
  · rw [h.base.mkey p c, h.conns, h.loc]
  · rw [h.base.nkey p c, h.conns, h.loc]

/-- **C119.** Whatever calls are made, if they are legal then they end in every execution, with and without
`OVK_DEBUG`: every process knows what exists, has the sides of connectivities on its grids, and all listeners have been
told the same, which is what happened. -/
theorem C119_calls (hn : 0 < n) (debug : Bool) {as : List Act} (hl : Spec.LegalAll mem Spec.empty as) :
    ∃ (t : Fin n → State) (l : List Comp.Call), Spec.Ends mem (fun p => history mem debug p as State.start) (fun p => some (t p)) ∧
      (∀ p, Spec.Right mem (Spec.after Spec.empty as) p (t p)) ∧ (∀ p, (t p).base.log = l) ∧
      Spec.Hears Spec.empty as l := by
  obtain ⟨t, l, h1, h2, h3, h4⟩ := history_runs debug ⟨0, hn⟩ as inv_start hl
  obtain ⟨N, hN⟩ := h4.executions
  exact ⟨t, l, ⟨N, fun cs y hy => ⟨(hN cs y hy).1, (hN cs y hy).2.1⟩⟩, h1.right, fun p => by rw [h2]; rfl, h3⟩

theorem history_append (debug : Bool) (p : Fin n) (bs : List Act) : ∀ (as : List Act) (s : State),
    history mem debug p (as ++ bs) s = (history mem debug p as s).bind fun r => match r with
      | none => .ret none
      | some t => history mem debug p bs t := by
  intro as
  induction as with
  | nil => intro s; rfl
  | cons a as ih =>
    intro s
    show (callProg mem debug p s a).bind _ = ((callProg mem debug p s a).bind _).bind _
    rw [Prog.bind_assoc]
    congr 1
    funext r
    cases r with
    | none => rfl
    | some t => exact ih t

/-- C119 needs all processes of the grid: if one of them does not take part in an edit of a connectivity that is not
being edited, or in the last restore, no execution ends. -/
theorem C119_skip (debug : Bool) {as : List Act} (hl : Spec.LegalAll mem Spec.empty as) {m : Bool} {c : CID} {a : Act}
    (ha : a = .edit m c ∧ (Spec.after Spec.empty as).handles m c = 0 ∨
      a = .restore m c ∧ (Spec.after Spec.empty as).handles m c = 1)
    (hc : (Spec.after Spec.empty as).conns c) {k : Nat}
    (hk : (Spec.after Spec.empty as).grids (sideGrid m c) = some k) {p q : Fin n} (hp : mem k p = true)
    (hq : mem k q = true) {part : Fin n → Bool} (hpp : part p = true) (hqp : part q = false) :
    ∀ ds y, run (member mem) comb (fun r => history mem debug r (if part r then as ++ [a] else as) State.start) ds =
      some y → ¬ Done y := by
  obtain ⟨t, l, h1, -, -, h4⟩ := history_runs debug p as inv_start hl
  obtain ⟨k', hk', h5, h6⟩ := h1.side (m := m) hc p
  rw [hk] at hk'
  cases hk'
  intro ds y hy hd
  obtain ⟨ds', hds'⟩ := h4 (Option State) (fun r x => match x with
      | none => .ret none
      | some t => if part r then history mem debug r [a] t else .ret (some t))
    (fun r => history mem debug r (if part r then as ++ [a] else as) State.start) fun r _ => by
      cases e : part r
      · have := history_append (mem := mem) debug r [] as State.start
        rw [List.append_nil] at this
        rw [if_neg (by simp), this]
        congr 1
      · rw [if_pos rfl, history_append]
        rfl
  obtain ⟨ds'', h7, -⟩ := confluent_run ds hy hd ds' hds'
  refine apart (c := .grid k) (l := .barrier) (p := p) (q := q) hp hq ds'' ?_ ?_ h7 hd
  · dsimp only
    rw [if_pos rfl, if_pos hpp]
    obtain ⟨g1, g2, g3⟩ := h6 p hp
    have hL : (t p).isLocal (sideGrid m c) = true := by rw [h5, hp]
    rcases ha with ⟨rfl, h0⟩ | ⟨rfl, h0⟩
    · rw [h0] at g3
      show ∃ v, ((edit m c (t p)).bind _).at (.grid k) = some (.barrier, v)
      unfold edit
      rw [if_pos hL, if_pos g2, if_pos g3, g1]
      exact ⟨[], if_pos rfl⟩
    · rw [h0] at g3
      show ∃ v, ((restore m c (t p)).bind _).at (.grid k) = some (.barrier, v)
      unfold restore
      rw [if_pos hL, if_pos ⟨g2, by rw [g3]; decide⟩, if_pos g3, g1]
      exact ⟨[], if_pos rfl⟩
  · dsimp only
    rw [if_pos rfl, if_neg (by rw [hqp]; simp)]
    trivial

/-! ### Example -/

/-- Three processes; communicator 0 has processes 0 and 1, communicator 1 has processes 1 and 2. -/
def exMem (k : Nat) (p : Fin 3) : Bool := decide (k = 0 ∧ p ≠ 2 ∨ k = 1 ∧ p ≠ 0)

/-- From grid 5 to grid 3, and back. -/
def exId : CID := ⟨[5, 3], rfl⟩
def exBack : CID := ⟨[3, 5], rfl⟩

/-- Two grids and connectivities in both directions are created; in an edit of the component the M side of one is given
its size and the N side of the other one its points; then a grid is destroyed, and with it both connectivities. -/
def exActs : List Act :=
  [.createGrids [(5, 0), (3, 1)], .createConns [exId, exBack], .editComponent, .edit true exId, .change .resizeM exId,
    .edit false exBack, .change .points exBack, .restore true exId, .restore false exBack, .restoreComponent,
    .destroyGrids [5]]

example : Spec.LegalAll exMem Spec.empty exActs := by
  have hne : exId ≠ exBack := by decide
  have hm : mGrid exId = 5 := rfl
  have hn : nGrid exId = 3 := rfl
  have hm' : mGrid exBack = 3 := rfl
  have hn' : nGrid exBack = 5 := rfl
  refine ⟨⟨by decide, ?_⟩, ⟨by simp [hne], ?_⟩, trivial, ?_, ?_, ?_, ?_, ?_, ?_, ?_, ?_, trivial⟩
  · intro e he
    simp only [List.mem_cons, List.not_mem_nil, or_false] at he
    rcases he with rfl | rfl
    · exact ⟨by decide, rfl, 1, by decide⟩
    · exact ⟨by decide, rfl, 1, by decide⟩
  · intro c hc
    simp only [List.mem_cons, List.not_mem_nil, or_false] at hc
    rcases hc with rfl | rfl
    · exact ⟨not_false, by rw [hm]; decide, by rw [hn]; decide⟩
    · exact ⟨not_false, by rw [hm']; decide, by rw [hn']; decide⟩
  · simp [Spec.Legal, Spec.apply, Spec.empty]
  · simp [Spec.Legal, Spec.apply, Spec.empty, Spec.side, Spec.bits]
  · simp [Spec.Legal, Spec.apply, Spec.empty]
  · simp [Spec.Legal, Spec.apply, Spec.empty, Spec.side, Spec.bits]
  · simp [Spec.Legal, Spec.apply, Spec.empty, Spec.side, Spec.bits, hne]
  · simp [Spec.Legal, Spec.apply, Spec.empty, Spec.side, Spec.bits, hne.symm]
  · simp [Spec.Legal, Spec.apply, Spec.empty]
  · refine ⟨by simp [Spec.apply, Spec.empty], ?_⟩
    intro c hc _ m
    simp only [Spec.apply, Spec.empty, List.mem_cons, List.not_mem_nil, or_false] at hc ⊢
    rcases hc with rfl | rfl <;> cases m <;> simp [hne, hne.symm]

/-- The result on a process that has ended. -/
def result {α : Type} : Pr (Option α) → Option α
  | .ret a => a
  | _ => none

-- an execution of the first three calls
example : ((run (member exMem) comb (fun p => history exMem false p (exActs.take 3) State.start)
      (List.replicate 9 .world ++ [.grid 0, .grid 0, .grid 1, .grid 1, .grid 1, .grid 1, .grid 0, .grid 0] ++
        List.replicate 3 .world)).map fun y => (List.finRange 3).map fun p => (result (y p)).map fun s =>
          (s.base.localGrids, s.base.ms.entries.length, s.base.log.map fun e => e.2.1)) =
    some [some ([5], 1, [1, 1]), some ([3, 5], 2, [1, 1]), some ([3], 1, [1, 1])] := by decide +kernel

-- what `C119_skip` requires
example : (Spec.after Spec.empty (exActs.take 3)).handles true exId = 0 ∧
    (Spec.after Spec.empty (exActs.take 3)).conns exId ∧
    (Spec.after Spec.empty (exActs.take 3)).grids (sideGrid true exId) = some 0 ∧ exMem 0 0 = true ∧ exMem 0 1 = true := by
  refine ⟨rfl, .inl (by simp), by decide, by decide, by decide⟩

end Ovk.CompC
