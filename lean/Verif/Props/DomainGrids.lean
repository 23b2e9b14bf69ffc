/-
Property C109: all processes agree about the grids of a domain.
-/
import Verif.Model.DomainGrids
import Verif.Lemmas.CollectiveValues
import Verif.Lemmas.Container
import Verif.Props.Container
import Mathlib.Tactic.SplitIfs

namespace Ovk.DomG
open VColl
variable {n : Nat}

namespace Spec
/-- What MPI guarantees: in a communicator that has members exactly one of them has rank 0. -/
def Ranks (C : Comms n) : Prop :=
  ∀ k, (∃ p, C.mem k p = true) → ∃ r, C.mem k r = true ∧ ∀ p, C.mem k p = true → (C.rank k p = 0 ↔ p = r)

/-- Parameters for a grid are given on the processes of one communicator, which has members. -/
def Proper (C : Comms n) (ps : Fin n → Option Params) : Prop :=
  ∃ k, (∃ p, C.mem k p = true) ∧ ∀ p, (C.mem k p = true ↔ ps p ≠ none) ∧ ∀ x, ps p = some x → x.comm = k

/-- The grids that exist, with the parameters each process has given. -/
abbrev Grids (n : Nat) := Int → Option (Fin n → Option Params)

/-- The effect of a call. -/
def apply (f : Grids n) : Act n → Grids n
  | .createGrids es => fun i => ((es.find? fun e => e.1 = i).map Prod.snd).or (f i)
  | .createGrid id x => fun i => if i = id then some x else f i
  | .destroyGrids ids => fun i => if i ∈ ids then none else f i
  | .destroyGrid id => fun i => if i = id then none else f i

/-- Grids are created with new IDs that are different and not negative; only grids that exist are destroyed. -/
def Legal (C : Comms n) (f : Grids n) : Act n → Prop
  | .createGrids es => (es.map Prod.fst).Nodup ∧ ∀ e ∈ es, 0 ≤ e.1 ∧ f e.1 = none ∧ Proper C e.2
  | .createGrid id x => 0 ≤ id ∧ f id = none ∧ Proper C x
  | .destroyGrids ids => ∀ id ∈ ids, f id ≠ none
  | .destroyGrid id => f id ≠ none

/-- In every call all processes have the same status logging threshold. -/
def LegalAll (C : Comms n) (f : Grids n) : List (Call n) → Prop
  | [] => True
  | c :: cs => (∃ t, ∀ p, c.threshold p = t) ∧ Legal C f c.act ∧ LegalAll C (apply f c.act) cs

def after (f : Grids n) (cs : List (Call n)) : Grids n := cs.foldl (fun f c => apply f c.act) f

/-- IDs with whether it is the last one. -/
def marked (created : Bool) (ids : List Int) : List (Int × Bool × Bool) :=
  ids.mapIdx fun i id => (id, created, decide (i + 1 = ids.length))

/-- What listeners hear of. -/
def heard : Act n → List (Int × Bool × Bool)
  | .createGrids es => marked true (es.map Prod.fst)
  | .createGrid id _ => marked true [id]
  | .destroyGrids ids => marked false ids
  | .destroyGrid id => marked false [id]

/-- The description of a grid on process `p`: the name and the index space given by the process with rank 0 in the
communicator of the grid, the rank of this process in the domain, and whether the grid is local. -/
def Describes (C : Comms n) (ps : Fin n → Option Params) (p : Fin n) (i : Info) : Prop :=
  ∃ r x, ps r = some x ∧ C.rank x.comm r = 0 ∧
    i = ⟨decide (ps p ≠ none), r.val, x.name, x.cart, x.cart.cells⟩

/-- What process `p` knows about a grid is right. -/
def Knows (C : Comms n) (p : Fin n) (s : Proc) (id : Int) : Option (Fin n → Option Params) → Prop
  | none => s.records.contains intLess id = false ∧ s.locals.contains intLess id = false
  | some ps => s.records.contains intLess id = true ∧
      (∃ i, s.records.get? intLess id = some i ∧ Describes C ps p i) ∧
      (s.locals.contains intLess id = true ↔ ps p ≠ none) ∧
      ∀ x, ps p = some x → s.locals.get? intLess id = some x

/-- All executions of `x` end, process `p` with `a p`. -/
def Ends (C : Comms n) {α : Type} (x : Fin n → Pr α) (a : Fin n → α) : Prop :=
  ∃ N, ∀ cs y, run C.member comb x cs = some y → cs.length ≤ N ∧
    ((∀ c, step C.member comb y c = none) → ∀ p, y p = .ret (a p))
end Spec

/-! ### Operations -/

variable {C : Comms n}

theorem gathered_world (f : Fin n → Option Val) :
    gathered C.member .world f = (List.finRange n).map fun p => (p, f p) := by
  unfold gathered members
  rw [show (List.finRange n).filter (C.member .world) = List.finRange n from List.filter_eq_self.2 fun p _ => rfl]

theorem filterMap_one {f : Fin n → Option Val} {r : Fin n} (h : ∀ p, p ≠ r → f p = none) :
    ∀ l : List (Fin n), l.Nodup → r ∈ l → l.filterMap f = (f r).toList := by
  intro l
  induction l with
  | nil => intro _ h; cases h
  | cons a l ih =>
    intro hn hm
    rw [List.nodup_cons] at hn
    by_cases har : a = r
    · subst har
      have : l.filterMap f = [] := by
        rw [List.filterMap_eq_nil_iff]
        intro p hp
        exact h p (by rintro rfl; exact hn.1 hp)
      cases hf : f a <;> simp [hf, this]
    · have hm' : r ∈ l := by
        rcases List.mem_cons.1 hm with e | e
        · exact absurd e.symm har
        · exact e
      rw [List.filterMap_cons, h a har]
      exact ih hn.2 hm'

theorem one_source {f : Fin n → Option Val} {r : Fin n} {v : Val} (hr : f r = some v) (h : ∀ p, p ≠ r → f p = none) :
    (gathered C.member .world f).filterMap Prod.snd = [v] := by
  rw [gathered_world, List.filterMap_map]
  have := filterMap_one h (List.finRange n) (List.nodup_finRange n) (List.mem_finRange r)
  rw [hr] at this
  exact this

theorem comb_anyInt {l : List (Fin n × Option Val)} {v : Val} (h : l.filterMap Prod.snd = [v]) :
    comb .anyInt l = some (some v) := by
  simp only [comb, h]

theorem comb_anyString {l : List (Fin n × Option Val)} {v : Val} (h : l.filterMap Prod.snd = [v]) :
    comb .anyString l = some (some v) := by
  simp only [comb, h]

theorem find_root (f : Fin n → Option Val) (r : Fin n) :
    (gathered C.member .world f).find? (fun x => decide (x.1.val = r.val)) = some (r, f r) := by
  rw [gathered_world]
  have : ∀ l : List (Fin n), r ∈ l →
      (l.map fun p => (p, f p)).find? (fun x => decide (x.1.val = r.val)) = some (r, f r) := by
    intro l
    induction l with
    | nil => intro h; cases h
    | cons a l ih =>
      intro hm
      by_cases har : a = r
      · subst har; simp
      · have hv : a.val ≠ r.val := fun e => har (Fin.ext e)
        rw [List.map_cons, List.find?_cons_of_neg (by simpa using hv)]
        refine ih ?_
        rcases List.mem_cons.1 hm with e | e
        · exact absurd e.symm har
        · exact e
  exact this _ (List.mem_finRange r)

abbrev All : Fin n → Bool := fun _ => true

theorem world_all (p : Fin n) : C.member .world p = All p := rfl

theorem plain_runs {S : Fin n → Bool} {c : Comm} {l : Kind} (hS : ∀ p, C.member c p = S p)
    (hl : ∀ x : List (Fin n × Option Val), comb l x = some none) :
    Runs C.member comb S (fun _ => plain c l) fun _ => () :=
  .coll hS (r := none) (fun _ => hl _) (.ret _)

theorem barrier_runs : Runs C.member comb All (fun _ => plain .world .barrier) fun _ => () :=
  plain_runs world_all fun _ => rfl

theorem plains_runs {S : Fin n → Bool} {c : Comm} (hS : ∀ p, C.member c p = S p) :
    ∀ ls : List Kind, (∀ l ∈ ls, ∀ x : List (Fin n × Option Val), comb l x = some none) →
      Runs C.member comb S (fun _ => plains c ls) fun _ => () := by
  intro ls
  induction ls with
  | nil => intro _; exact .ret _
  | cons l ls ih =>
    intro h
    exact .bind (plain_runs hS (h l (by simp))) (ih fun l' hl' => h l' (by simp [hl']))

theorem construct_runs {E : Env} {k : Nat} {x : Fin n → Params} (hx : ∀ p, C.mem k p = true → (x p).comm = k) :
    Runs C.member comb (C.mem k) (fun p => construct C E (x p)) fun _ => () := by
  have h := plains_runs (C := C) (S := C.mem k) (c := .grid k) (fun p => rfl)
    ([.dup] ++ (List.range E.ops).map .build ++ [.barrier] ++
      if E.logs 1 && E.logs 11 then List.replicate (C.size k + 1) .barrier else []) ?_
  · refine h.congr (fun p hp => ?_) fun _ _ => rfl
    unfold construct
    rw [hx p hp]
  · intro l hl y
    simp only [List.mem_append, List.mem_map, List.mem_singleton] at hl
    rcases hl with ((rfl | ⟨i, -, rfl⟩) | rfl) | hl
    · rfl
    · rfl
    · rfl
    · split at hl
      · rw [List.eq_of_mem_replicate hl]; rfl
      · cases hl

theorem bcast_runs {α : Type} {r : Fin n} {f : Fin n → Option Val} {k : Fin n → Option Val → Pr α} {a : Fin n → α}
    (h : Runs C.member comb All (fun p => k p (f r)) a) :
    Runs C.member comb All (fun p => .coll .world (.bcast r.val) (f p) (k p)) a := by
  refine .coll world_all (r := f r) (fun _ => ?_) h
  show ((gathered C.member .world f).find? _).map Prod.snd = some (f r)
  rw [find_root]
  rfl

/-- Everyone gets the string of the root. -/
theorem broadcastString_runs {r : Fin n} (f : Fin n → List Char) :
    Runs C.member comb All (fun p => broadcastString (f p) r.val) fun _ => f r := by
  unfold broadcastString
  refine bcast_runs (f := fun p => some (.nat (f p).length)) (bcast_runs (f := fun p => some (.str (f p))) ?_)
  refine (Runs.ret fun _ => f r).congr (fun p _ => ?_) fun _ _ => rfl
  simp [Val.toStr, Val.toNat]

/-! ### The description of a grid -/

open Classical in
/-- What `Describes` describes. -/
noncomputable def infoOf (C : Comms n) (ps : Fin n → Option Params) (p : Fin n) : Info :=
  if h : ∃ i, Spec.Describes C ps p i then h.choose else ⟨false, 0, [], ⟨0, [], [], [], .unique⟩, ⟨0, [], [], [], .unique⟩⟩

/-- The process with rank 0 in the communicator of the grid. -/
theorem root_of (hC : Spec.Ranks C) {ps : Fin n → Option Params} (hp : Spec.Proper C ps) :
    ∃ r x, ps r = some x ∧ C.rank x.comm r = 0 ∧ ∀ p y, ps p = some y → (C.rank y.comm p = 0 ↔ p = r) := by
  obtain ⟨k, hk, h⟩ := hp
  obtain ⟨r, hr, h0⟩ := hC k hk
  obtain ⟨x, hx⟩ := Option.ne_none_iff_exists'.1 ((h r).1.1 hr)
  refine ⟨r, x, hx, ?_, fun p y hy => ?_⟩
  · rw [(h r).2 x hx]; exact (h0 r hr).2 rfl
  · rw [(h p).2 y hy]
    exact h0 p ((h p).1.2 (by rw [hy]; simp))

theorem describes_unique (hC : Spec.Ranks C) {ps : Fin n → Option Params} (hp : Spec.Proper C ps) {p : Fin n}
    {i j : Info} (hi : Spec.Describes C ps p i) (hj : Spec.Describes C ps p j) : i = j := by
  obtain ⟨r, x, hx, h0, h⟩ := root_of hC hp
  obtain ⟨r1, x1, e1, z1, rfl⟩ := hi
  obtain ⟨r2, x2, e2, z2, rfl⟩ := hj
  obtain rfl := (h r1 x1 e1).1 z1
  obtain rfl := (h r2 x2 e2).1 z2
  rw [e1] at e2
  cases e2
  rfl

theorem infoOf_describes (hC : Spec.Ranks C) {ps : Fin n → Option Params} (hp : Spec.Proper C ps) (p : Fin n) :
    Spec.Describes C ps p (infoOf C ps p) := by
  obtain ⟨r, x, hx, h0, -⟩ := root_of hC hp
  have h : ∃ i, Spec.Describes C ps p i := ⟨_, r, x, hx, h0, rfl⟩
  unfold infoOf
  rw [dif_pos h]
  exact h.choose_spec

theorem gridInfo_runs (hC : Spec.Ranks C) {ps : Fin n → Option Params} (hp : Spec.Proper C ps) :
    Runs C.member comb All (fun p => gridInfo C p (ps p)) fun p => infoOf C ps p := by
  obtain ⟨r, x, hx, h0, h⟩ := root_of hC hp
  have root : ∀ p, ((ps p).any fun x => decide (C.rank x.comm p = 0)) = decide (p = r) := by
    intro p
    cases e : ps p with
    | none =>
      have : p ≠ r := by rintro rfl; rw [hx] at e; cases e
      simp [this]
    | some y => simp [h p y e]
  have hmine : (if decide (r = r) = true then ps r else none) = some x := by rw [if_pos (by simp), hx]
  have hinfo : ∀ p, infoOf C ps p = ⟨(ps p).isSome, r.val, x.name, x.cart, x.cart.cells⟩ := by
    intro p
    refine describes_unique hC hp (infoOf_describes hC hp p) ⟨r, x, hx, h0, ?_⟩
    congr 1
    cases ps p <;> simp
  unfold gridInfo
  simp only [root]
  refine .coll world_all (r := some (.nat r.val)) (fun _ => ?_) ?_
  · exact comb_anyInt (one_source (r := r) (by simp) (fun p hp => by simp [hp]))
  · show Runs C.member comb All (fun p => (broadcastString _ r.val).bind _) _
    refine .bind (broadcastString_runs _) ?_
    refine bcast_runs (r := r) (bcast_runs (r := r) (bcast_runs (r := r) (bcast_runs (r := r) (bcast_runs (r := r) ?_))))
    refine (Runs.ret _).congr (fun p _ => rfl) fun p _ => ?_
    rw [hinfo]
    rw [hmine]
    rfl

/-! ### Creating grids -/

/-- The arguments of process `p`. -/
def view (p : Fin n) (es : List (Int × (Fin n → Option Params))) : List (Int × Option Params) :=
  es.map fun e => (e.1, e.2 p)

theorem checkCreate_runs {s : Fin n → Proc} : ∀ es : List (Int × (Fin n → Option Params)),
    (∀ e ∈ es, 0 ≤ e.1 ∧ (∀ p, (s p).records.contains intLess e.1 = false) ∧ ∃ p, e.2 p ≠ none) →
    Runs C.member comb All (fun p => checkCreate (s p) (view p es)) fun _ => true := by
  intro es
  induction es with
  | nil => intro _; exact .ret _
  | cons e es ih =>
    intro h
    obtain ⟨h1, h2, q, h3⟩ := h e (by simp)
    have key : Runs C.member comb All (fun p => VColl.Prog.coll .world .lor (some (.bool (e.2 p).isSome)) fun r =>
        if Val.toBool r then checkCreate (s p) (view p es) else .ret false) fun _ => true := by
      refine .coll world_all (r := some (.bool true)) (fun _ => ?_) (ih fun e' he' => h e' (by simp [he']))
      show some (some (Val.bool ((gathered C.member .world _).any _))) = _
      rw [gathered_world]
      congr 3
      rw [List.any_eq_true]
      refine ⟨(q, some (.bool (e.2 q).isSome)), List.mem_map.2 ⟨q, List.mem_finRange q, rfl⟩, ?_⟩
      cases e' : e.2 q with
      | none => exact absurd e' h3
      | some y => rfl
    refine key.congr (fun p _ => ?_) fun _ _ => rfl
    show _ = checkCreate (s p) ((e.1, e.2 p) :: view p es)
    rw [checkCreate, if_neg]
    rw [h2 p]
    simp [h1]

theorem nameGrids_runs (hC : Spec.Ranks C) : ∀ es : List (Int × (Fin n → Option Params)),
    (∀ e ∈ es, Spec.Proper C e.2) → Runs C.member comb All (fun p => nameGrids C p (view p es)) fun _ => () := by
  intro es
  induction es with
  | nil => intro _; exact .ret _
  | cons e es ih =>
    intro h
    obtain ⟨r, x, hx, h0, hr⟩ := root_of hC (h e (by simp))
    refine .coll world_all (r := some (.str x.name)) (fun _ => ?_) (ih fun e' he' => h e' (by simp [he']))
    refine comb_anyString (one_source (r := r) ?_ ?_)
    · simp [hx, h0]
    · intro p hp
      cases e' : e.2 p with
      | none => simp
      | some y => simp [hr p y e', hp]

/-- The process after constructing a grid. -/
def localNext (id : Int) (x : Option Params) (s : Proc) : Proc :=
  match x with
  | none => s
  | some y => { s with locals := s.locals.insert intLess id y }

theorem createLocal_runs {E : Env} {id : Int} {ps : Fin n → Option Params} (hp : Spec.Proper C ps) (s : Fin n → Proc) :
    Runs C.member comb All (fun p => createLocal C E id (ps p) (s p)) fun p => localNext id (ps p) (s p) := by
  obtain ⟨k, hk, h⟩ := hp
  refine Runs.sub (T := C.mem k) ?_ (fun _ _ => rfl) ?_
  · let x : Fin n → Params := fun p => (ps p).getD ⟨[], 0, ⟨0, [], [], [], .unique⟩⟩
    have e : ∀ p, C.mem k p = true → ps p = some (x p) := by
      intro p hp
      obtain ⟨y, hy⟩ := Option.ne_none_iff_exists'.1 ((h p).1.1 hp)
      show ps p = some ((ps p).getD _)
      rw [hy]; rfl
    have h1 := construct_runs (C := C) (E := E) (k := k) (x := x) fun p hp => (h p).2 _ (e p hp)
    have h2 := Runs.bind (Q := fun p _ => .ret { s p with locals := (s p).locals.insert intLess id (x p) }) h1
      (Runs.ret fun p => { s p with locals := (s p).locals.insert intLess id (x p) })
    refine h2.congr (fun p hp => ?_) fun p hp => ?_
    · rw [e p hp]; rfl
    · rw [e p hp]; rfl
  · intro p _ hp
    have : ps p = none := by
      by_contra hne
      rw [(h p).1.2 hne] at hp
      cases hp
    rw [this]
    rfl

def constructed (es : List (Int × Option Params)) (s : Proc) : Proc := es.foldl (fun s e => localNext e.1 e.2 s) s

theorem constructAll_runs {E : Env} : ∀ (es : List (Int × (Fin n → Option Params))) (s : Fin n → Proc),
    (∀ e ∈ es, Spec.Proper C e.2) →
    Runs C.member comb All (fun p => constructAll C E (view p es) (s p)) fun p => constructed (view p es) (s p) := by
  intro es
  induction es with
  | nil => intro s _; exact .ret _
  | cons e es ih =>
    intro s h
    exact .bind (createLocal_runs (h e (by simp)) s)
      (ih (fun p => localNext e.1 (e.2 p) (s p)) fun e' he' => h e' (by simp [he']))

noncomputable def described (C : Comms n) (p : Fin n) (es : List (Int × (Fin n → Option Params)))
    (m : OMap Int Info) : OMap Int Info := es.foldl (fun m e => m.insert intLess e.1 (infoOf C e.2 p)) m

theorem describeAll_runs (hC : Spec.Ranks C) : ∀ (es : List (Int × (Fin n → Option Params))) (s : Fin n → Proc),
    (∀ e ∈ es, Spec.Proper C e.2) →
    (∀ p, ∀ e ∈ es, ∀ x, e.2 p = some x → (s p).locals.get? intLess e.1 = some x) →
    Runs C.member comb All (fun p => describeAll C p (view p es) (s p)) fun p =>
      some { s p with records := described C p es (s p).records } := by
  intro es
  induction es with
  | nil => intro s _ _; exact .ret _
  | cons e es ih =>
    intro s h hl
    have key := Runs.bind (Q := fun p i => describeAll C p (view p es) { s p with
      records := (s p).records.insert intLess e.1 i }) (gridInfo_runs hC (h e (by simp)))
      (ih (fun p => { s p with records := (s p).records.insert intLess e.1 (infoOf C e.2 p) })
        (fun e' he' => h e' (by simp [he'])) fun p e' he' => hl p e' (by simp [he']))
    refine key.congr (fun p _ => ?_) fun _ _ => rfl
    show _ = describeAll C p ((e.1, e.2 p) :: view p es) (s p)
    rw [describeAll]
    cases e' : e.2 p with
    | none => rfl
    | some x =>
      simp only [Option.isSome_some, if_true]
      rw [hl p e (by simp) x e']

theorem announce_eq (b : Bool) : ∀ ids : List Int, announce b ids = Spec.marked b ids := by
  intro ids
  induction ids with
  | nil => rfl
  | cons id ids ih =>
    unfold announce Spec.marked
    rw [List.mapIdx_cons, ih]
    unfold Spec.marked
    simp only [List.length_cons]
    congr 1
    · cases ids <;> simp
    · congr 1
      funext i x
      simp

/-! ### What the processes know -/

structure Inv (C : Comms n) (f : Spec.Grids n) (s : Fin n → Proc) : Prop where
  proper : ∀ id ps, f id = some ps → Spec.Proper C ps ∧ 0 ≤ id
  recs : ∀ p, (s p).records.WF intLess
  locs : ∀ p, (s p).locals.WF intLess
  mem_recs : ∀ p id i, (id, i) ∈ (s p).records.entries ↔ ∃ ps, f id = some ps ∧ i = infoOf C ps p
  mem_locs : ∀ p id x, (id, x) ∈ (s p).locals.entries ↔ ∃ ps, f id = some ps ∧ ps p = some x

theorem Inv.contains {f : Spec.Grids n} {s : Fin n → Proc} (h : Inv C f s) (p : Fin n) (id : Int) :
    (s p).records.contains intLess id = true ↔ f id ≠ none := by
  rw [omap_contains_spec intLess_sto (h.recs p)]
  constructor
  · rintro ⟨i, hi⟩
    obtain ⟨ps, e, -⟩ := (h.mem_recs p id i).1 hi
    rw [e]; simp
  · intro hne
    obtain ⟨ps, e⟩ := Option.ne_none_iff_exists'.1 hne
    exact ⟨_, (h.mem_recs p id _).2 ⟨ps, e, rfl⟩⟩

theorem Inv.knows (hC : Spec.Ranks C) {f : Spec.Grids n} {s : Fin n → Proc} (h : Inv C f s) (p : Fin n) (id : Int) :
    Spec.Knows C p (s p) id (f id) := by
  have hloc : (s p).locals.contains intLess id = true ↔ ∃ ps x, f id = some ps ∧ ps p = some x := by
    rw [omap_contains_spec intLess_sto (h.locs p)]
    exact ⟨fun ⟨x, hx⟩ => by obtain ⟨ps, h1, h2⟩ := (h.mem_locs p id x).1 hx; exact ⟨ps, x, h1, h2⟩,
      fun ⟨ps, x, h1, h2⟩ => ⟨x, (h.mem_locs p id x).2 ⟨ps, h1, h2⟩⟩⟩
  cases e : f id with
  | none =>
    refine ⟨?_, ?_⟩
    · rw [Bool.eq_false_iff, Ne, h.contains]; simp [e]
    · rw [Bool.eq_false_iff, Ne, hloc]
      rintro ⟨ps, x, h1, -⟩
      rw [e] at h1; cases h1
  | some ps =>
    refine ⟨(h.contains p id).2 (by rw [e]; simp), ⟨infoOf C ps p, ?_, infoOf_describes hC (h.proper id ps e).1 p⟩, ?_, ?_⟩
    · exact omap_get_spec intLess_sto (h.recs p) id _ ((h.mem_recs p id _).2 ⟨ps, e, rfl⟩)
    · rw [hloc]
      constructor
      · rintro ⟨ps', x, h1, h2⟩
        rw [e] at h1; cases h1
        rw [h2]; simp
      · intro hne
        obtain ⟨x, hx⟩ := Option.ne_none_iff_exists'.1 hne
        exact ⟨ps, x, e, hx⟩
    · intro x hx
      exact omap_get_spec intLess_sto (h.locs p) id _ ((h.mem_locs p id _).2 ⟨ps, e, hx⟩)

theorem inserted {es : List (Int × (Fin n → Option Params))} (g : Int × (Fin n → Option Params) → Info) :
    ∀ {m : OMap Int Info}, m.WF intLess → (es.map Prod.fst).Nodup →
      (es.foldl (fun m e => m.insert intLess e.1 (g e)) m).WF intLess ∧
      ∀ id i, (id, i) ∈ (es.foldl (fun m e => m.insert intLess e.1 (g e)) m).entries ↔
        (∃ e ∈ es, e.1 = id ∧ i = g e) ∨ ((∀ e ∈ es, e.1 ≠ id) ∧ (id, i) ∈ m.entries) := by
  induction es with
  | nil => intro m hm _; exact ⟨hm, by simp⟩
  | cons e es ih =>
    intro m hm hn
    rw [List.map_cons, List.nodup_cons] at hn
    have h1 := omap_insert_spec intLess_sto hm e.1 (g e)
    obtain ⟨h2, h3⟩ := ih h1.1 hn.2
    refine ⟨h2, fun id i => ?_⟩
    rw [List.foldl_cons, h3, h1.2]
    constructor
    · rintro (⟨e', he', h4, h5⟩ | ⟨h4, (⟨h5, h6⟩ | ⟨h5, h6⟩)⟩)
      · exact .inl ⟨e', by simp [he'], h4, h5⟩
      · exact .inl ⟨e, by simp, h5.symm, h6⟩
      · refine .inr ⟨fun e' he' => ?_, h6⟩
        rcases List.mem_cons.1 he' with rfl | he'
        · exact fun h => h5 h.symm
        · exact h4 e' he'
    · rintro (⟨e', he', h4, h5⟩ | ⟨h4, h5⟩)
      · rcases List.mem_cons.1 he' with rfl | he'
        · refine .inr ⟨fun e'' he'' h6 => hn.1 ?_, .inl ⟨h4.symm, h5⟩⟩
          rw [h4, ← h6]
          exact List.mem_map_of_mem he''
        · exact .inl ⟨e', he', h4, h5⟩
      · exact .inr ⟨fun e' he' => h4 e' (by simp [he']), .inr ⟨fun h => h4 e (by simp) h.symm, h5⟩⟩

theorem constructed_spec : ∀ (es : List (Int × Option Params)) {s : Proc}, s.locals.WF intLess → (es.map Prod.fst).Nodup →
    (constructed es s).records = s.records ∧ (constructed es s).log = s.log ∧ (constructed es s).locals.WF intLess ∧
      ∀ id x, (id, x) ∈ (constructed es s).locals.entries ↔
        (id, some x) ∈ es ∨ ((∀ y, (id, some y) ∉ es) ∧ (id, x) ∈ s.locals.entries) := by
  intro es
  induction es with
  | nil => intro s hs _; exact ⟨rfl, rfl, hs, by simp [constructed]⟩
  | cons e es ih =>
    intro s hs hn
    rw [List.map_cons, List.nodup_cons] at hn
    obtain ⟨id0, x0⟩ := e
    have hnot : ∀ y, (id0, y) ∉ es := fun y hy => hn.1 (List.mem_map.2 ⟨_, hy, rfl⟩)
    cases x0 with
    | none =>
      obtain ⟨h1, h2, h3, h4⟩ := ih hs hn.2
      refine ⟨h1, h2, h3, fun id x => ?_⟩
      show (id, x) ∈ (constructed es s).locals.entries ↔ _
      rw [h4]
      simp
    | some y =>
      have hi := omap_insert_spec intLess_sto hs id0 y
      obtain ⟨h1, h2, h3, h4⟩ := ih (s := { s with locals := s.locals.insert intLess id0 y }) hi.1 hn.2
      refine ⟨h1, h2, h3, fun id x => ?_⟩
      show (id, x) ∈ (constructed es { s with locals := s.locals.insert intLess id0 y }).locals.entries ↔ _
      rw [h4]
      show _ ∨ (_ ∧ (id, x) ∈ (s.locals.insert intLess id0 y).entries) ↔ _
      rw [hi.2]
      simp only [List.mem_cons, Prod.mk.injEq, Option.some.injEq, not_or, not_and]
      constructor
      · rintro (h5 | ⟨h5, (⟨rfl, rfl⟩ | ⟨h6, h7⟩)⟩)
        · exact .inl (.inr h5)
        · exact .inl (.inl ⟨rfl, rfl⟩)
        · exact .inr ⟨fun z => ⟨fun e => absurd e h6, h5 z⟩, h7⟩
      · rintro ((⟨rfl, rfl⟩ | h5) | ⟨h5, h6⟩)
        · exact .inr ⟨fun z => hnot _, .inl ⟨rfl, rfl⟩⟩
        · exact .inl h5
        · refine .inr ⟨fun z => (h5 z).2, .inr ⟨fun e => (h5 y).1 e rfl, h6⟩⟩

theorem find_entry {es : List (Int × (Fin n → Option Params))} (hn : (es.map Prod.fst).Nodup) (id : Int)
    (ps : Fin n → Option Params) :
    (es.find? fun e => decide (e.1 = id)).map Prod.snd = some ps ↔ (id, ps) ∈ es := by
  induction es with
  | nil => simp
  | cons e es ih =>
    rw [List.map_cons, List.nodup_cons] at hn
    obtain ⟨i, q⟩ := e
    by_cases h : i = id
    · subst h
      have : (i, ps) ∉ es := fun hm => hn.1 (List.mem_map.2 ⟨_, hm, rfl⟩)
      rw [List.find?_cons_of_pos (by simp)]
      simp only [Option.map_some, Option.some.injEq, List.mem_cons, Prod.mk.injEq, true_and, this, or_false]
      exact eq_comm
    · rw [List.find?_cons_of_neg (by simpa using h), ih hn.2]
      simp only [List.mem_cons, Prod.mk.injEq]
      constructor
      · exact .inr
      · rintro (⟨rfl, -⟩ | h')
        · exact absurd rfl h
        · exact h'

/-- The grids after creating some. -/
theorem apply_create {f : Spec.Grids n} {es : List (Int × (Fin n → Option Params))} (hn : (es.map Prod.fst).Nodup)
    (id : Int) (ps : Fin n → Option Params) :
    Spec.apply f (.createGrids es) id = some ps ↔ (id, ps) ∈ es ∨ ((∀ e ∈ es, e.1 ≠ id) ∧ f id = some ps) := by
  show ((es.find? fun e => decide (e.1 = id)).map Prod.snd).or (f id) = some ps ↔ _
  rw [Option.or_eq_some_iff, find_entry hn]
  refine or_congr_right ?_
  rw [Option.map_eq_none_iff, List.find?_eq_none]
  simp

theorem Inv.create {f : Spec.Grids n} {s : Fin n → Proc} (h : Inv C f s)
    {es : List (Int × (Fin n → Option Params))} (hl : Spec.Legal C f (.createGrids es)) {log : Fin n → List (Int × Bool × Bool)} :
    Inv C (Spec.apply f (.createGrids es)) fun p =>
      ⟨described C p es (s p).records, (constructed (view p es) (s p)).locals, log p⟩ := by
  obtain ⟨hn, hl⟩ := hl
  have hf := fun e he => (hl e he).2.1
  have hv : ∀ p, ((view p es).map Prod.fst).Nodup := by
    intro p
    unfold view
    rw [List.map_map]
    exact hn
  have hc := fun p => constructed_spec (view p es) (h.locs p) (hv p)
  have hd := fun p => inserted (fun e => infoOf C e.2 p) (h.recs p) hn
  refine ⟨fun id ps e => ?_, fun p => (hd p).1, fun p => (hc p).2.2.1, fun p id i => ?_, fun p id x => ?_⟩
  · rcases (apply_create hn id ps).1 e with h1 | ⟨-, h1⟩
    · exact ⟨(hl _ h1).2.2, (hl _ h1).1⟩
    · exact h.proper id ps h1
  · refine ((hd p).2 id i).trans ?_
    rw [h.mem_recs]
    constructor
    · rintro (⟨e, he, rfl, rfl⟩ | ⟨h1, ps, h2, h3⟩)
      · exact ⟨e.2, (apply_create hn _ _).2 (.inl he), rfl⟩
      · exact ⟨ps, (apply_create hn _ _).2 (.inr ⟨h1, h2⟩), h3⟩
    · rintro ⟨ps, h1, h2⟩
      rcases (apply_create hn id ps).1 h1 with h3 | ⟨h3, h4⟩
      · exact .inl ⟨_, h3, rfl, h2⟩
      · exact .inr ⟨h3, ps, h4, h2⟩
  · refine ((hc p).2.2.2 id x).trans ?_
    rw [h.mem_locs]
    have hm : ∀ y, (id, some y) ∈ view p es ↔ ∃ ps, (id, ps) ∈ es ∧ ps p = some y := by
      intro y
      unfold view
      rw [List.mem_map]
      constructor
      · rintro ⟨e, he, e'⟩
        simp only [Prod.mk.injEq] at e'
        exact ⟨e.2, by rw [← e'.1]; exact he, e'.2⟩
      · rintro ⟨ps, h1, h2⟩
        exact ⟨_, h1, Prod.ext rfl h2⟩
    constructor
    · rintro (h1 | ⟨h1, ps, h2, h3⟩)
      · obtain ⟨ps, h2, h3⟩ := (hm x).1 h1
        exact ⟨ps, (apply_create hn _ _).2 (.inl h2), h3⟩
      · refine ⟨ps, (apply_create hn _ _).2 (.inr ⟨fun e he e' => ?_, h2⟩), h3⟩
        have := hf e he
        rw [e', h2] at this
        cases this
    · rintro ⟨ps, h1, h2⟩
      rcases (apply_create hn id ps).1 h1 with h3 | ⟨h3, h4⟩
      · exact .inl ((hm x).2 ⟨ps, h3, h2⟩)
      · exact .inr ⟨fun y hy => by obtain ⟨q, h5, -⟩ := (hm y).1 hy; exact h3 _ h5 rfl, ps, h4, h2⟩

/-! ### Programs of calls -/

theorem createGrids_runs (hC : Spec.Ranks C) {E : Env} {f : Spec.Grids n} {s : Fin n → Proc} (h : Inv C f s)
    {es : List (Int × (Fin n → Option Params))} (hl : Spec.Legal C f (.createGrids es)) :
    Runs C.member comb All (fun p => createGrids C E p (view p es) (s p)) fun p =>
      some ⟨described C p es (s p).records, (constructed (view p es) (s p)).locals,
        (s p).log ++ Spec.marked true (es.map Prod.fst)⟩ := by
  have hp : ∀ e ∈ es, Spec.Proper C e.2 := fun e he => (hl.2 e he).2.2
  have hv : ∀ p, ((view p es).map Prod.fst) = es.map Prod.fst := by
    intro p
    unfold view
    rw [List.map_map]
    rfl
  have hc := fun p => constructed_spec (view p es) (h.locs p) (by rw [hv]; exact hl.1)
  unfold createGrids
  refine .bind barrier_runs (.bind (a := fun _ => true) ?_ ?_)
  · cases E.debug with
    | false => exact .ret _
    | true =>
      refine checkCreate_runs es fun e he => ⟨(hl.2 e he).1, fun p => ?_, ?_⟩
      · rw [Bool.eq_false_iff, Ne, h.contains]
        simpa using (hl.2 e he).2.1
      · obtain ⟨k, ⟨q, hq⟩, hk⟩ := hp e he
        exact ⟨q, (hk q).1.1 hq⟩
  · refine .bind (a := fun _ => ()) ?_ (.bind (constructAll_runs es s hp) (.bind (describeAll_runs hC es _ hp ?_) ?_))
    · cases E.logs 0 with
      | false => exact .ret _
      | true => exact nameGrids_runs hC es hp
    · intro p e he x hx
      refine omap_get_spec intLess_sto (hc p).2.2.1 _ _ (((hc p).2.2.2 e.1 x).2 (.inl ?_))
      exact List.mem_map.2 ⟨e, he, Prod.ext rfl hx⟩
    · refine .bind barrier_runs (.bind barrier_runs ((Runs.ret _).congr (fun p _ => rfl) fun p _ => ?_))
      rw [announce_eq, hv, (hc p).1, (hc p).2.1]

theorem createGrid_runs (hC : Spec.Ranks C) {E : Env} {f : Spec.Grids n} {s : Fin n → Proc} (h : Inv C f s)
    {id : Int} {x : Fin n → Option Params} (hl : Spec.Legal C f (.createGrid id x)) :
    Runs C.member comb All (fun p => createGrid C E p id (x p) (s p)) fun p =>
      some ⟨described C p [(id, x)] (s p).records, (constructed (view p [(id, x)]) (s p)).locals,
        (s p).log ++ Spec.marked true [id]⟩ := by
  have hp : ∀ e ∈ [(id, x)], Spec.Proper C e.2 := fun e he => by
    rw [List.mem_singleton] at he
    subst he
    exact hl.2.2
  unfold createGrid
  refine .bind barrier_runs (.bind (a := fun _ => true) ?_ ?_)
  · cases E.debug with
    | false => exact .ret _
    | true =>
      refine checkCreate_runs [(id, x)] fun e he => ?_
      rw [List.mem_singleton] at he
      subst he
      refine ⟨hl.1, fun p => ?_, ?_⟩
      · rw [Bool.eq_false_iff, Ne, h.contains]
        simpa using hl.2.1
      · obtain ⟨k, ⟨q, hq⟩, hk⟩ := hl.2.2
        exact ⟨q, (hk q).1.1 hq⟩
  · refine .bind (a := fun _ => ()) ?_ (.bind (createLocal_runs hl.2.2 s) (.bind (gridInfo_runs hC hl.2.2) ?_))
    · cases E.logs 0 with
      | false => exact .ret _
      | true => exact nameGrids_runs hC [(id, x)] hp
    · refine .bind barrier_runs (.bind barrier_runs ((Runs.ret _).congr (fun p _ => rfl) fun p _ => ?_))
      show some _ = some _
      congr 1
      cases e : x p <;> simp [localNext, constructed, view, described, e, Spec.marked]

/-- Grids without one. -/
def without (f : Spec.Grids n) (id : Int) : Spec.Grids n := fun i => if i = id then none else f i

theorem Inv.erase {f : Spec.Grids n} {s : Fin n → Proc} (h : Inv C f s) (id : Int)
    {log : Fin n → List (Int × Bool × Bool)} :
    Inv C (without f id) fun p => ⟨(s p).records.erase intLess id, (s p).locals.erase intLess id, log p⟩ := by
  have hr := fun p => omap_erase_spec intLess_sto (h.recs p) id
  have hl := fun p => omap_erase_spec intLess_sto (h.locs p) id
  have hf : ∀ i ps, without f id i = some ps ↔ i ≠ id ∧ f i = some ps := by
    intro i ps
    unfold without
    by_cases e : i = id <;> simp [e]
  refine ⟨fun i ps e => h.proper i ps ((hf i ps).1 e).2, fun p => (hr p).1, fun p => (hl p).1, fun p i j => ?_,
    fun p i x => ?_⟩
  · refine ((hr p).2 i j).trans ?_
    rw [h.mem_recs]
    simp only [hf]
    exact ⟨fun ⟨h1, ps, h2, h3⟩ => ⟨ps, ⟨h1, h2⟩, h3⟩, fun ⟨ps, ⟨h1, h2⟩, h3⟩ => ⟨h1, ps, h2, h3⟩⟩
  · refine ((hl p).2 i x).trans ?_
    rw [h.mem_locs]
    simp only [hf]
    exact ⟨fun ⟨h1, ps, h2, h3⟩ => ⟨ps, ⟨h1, h2⟩, h3⟩, fun ⟨ps, ⟨h1, h2⟩, h3⟩ => ⟨h1, ps, h2, h3⟩⟩

theorem apply_destroy (f : Spec.Grids n) (ids : List Int) :
    Spec.apply f (.destroyGrids ids) = ids.foldl without f := by
  induction ids generalizing f with
  | nil => funext i; simp [Spec.apply]
  | cons id ids ih =>
    rw [List.foldl_cons, ← ih]
    funext i
    simp only [Spec.apply, without, List.mem_cons]
    by_cases h1 : i = id <;> by_cases h2 : i ∈ ids <;> simp [h1, h2]

theorem Inv.eraseAll {log : Fin n → List (Int × Bool × Bool)} : ∀ (ids : List Int) {f : Spec.Grids n}
    {s : Fin n → Proc}, Inv C f s → Inv C (ids.foldl without f) fun p =>
      ⟨ids.foldl (fun m id => m.erase intLess id) (s p).records, ids.foldl (fun m id => m.erase intLess id) (s p).locals,
        log p⟩ := by
  intro ids
  induction ids with
  | nil =>
    intro f s h
    exact ⟨h.proper, h.recs, h.locs, h.mem_recs, h.mem_locs⟩
  | cons id ids ih =>
    intro f s h
    exact ih (h.erase id (log := log))

theorem destroyLocal_runs {f : Spec.Grids n} {s : Fin n → Proc} (h : Inv C f s) (id : Int) :
    Runs C.member comb All (fun p => destroyLocal id (s p)) fun _ => () := by
  have hnone : ∀ p, (∀ ps, f id = some ps → ps p = none) → destroyLocal id (s p) = .ret () := by
    intro p hp
    unfold destroyLocal
    rw [omap_find_none intLess_sto (h.locs p) id fun x hx => ?_]
    obtain ⟨ps, h1, h2⟩ := (h.mem_locs p id x).1 hx
    rw [hp ps h1] at h2
    cases h2
  cases e : f id with
  | none =>
    refine (Runs.ret fun _ => ()).congr (fun p _ => (hnone p fun ps h1 => ?_).symm) fun _ _ => rfl
    rw [e] at h1
    cases h1
  | some ps =>
    obtain ⟨k, -, hk⟩ := (h.proper id ps e).1
    refine Runs.sub (T := C.mem k) ?_ (fun _ _ => rfl) fun p _ hp => ?_
    · refine (plains_runs (c := .grid k) (fun p => rfl) [.barrier, .barrier] (by simp [comb])).congr (fun p hp => ?_) fun _ _ => rfl
      obtain ⟨x, hx⟩ := Option.ne_none_iff_exists'.1 ((hk p).1.1 hp)
      unfold destroyLocal
      rw [(omap_find_spec intLess_sto (h.locs p) id x).2 ((h.mem_locs p id x).2 ⟨ps, e, hx⟩)]
      show _ = plains (.grid x.comm) [.barrier, .barrier]
      rw [(hk p).2 x hx]
    · refine hnone p fun ps' h1 => ?_
      rw [e] at h1
      cases h1
      by_contra hne
      rw [(hk p).1.2 hne] at hp
      cases hp

theorem destroyAll_runs : ∀ (ids : List Int) {f : Spec.Grids n} {s : Fin n → Proc}, Inv C f s →
    Runs C.member comb All (fun p => destroyAll ids (s p)) fun p =>
      { s p with locals := ids.foldl (fun m id => m.erase intLess id) (s p).locals } := by
  intro ids
  induction ids with
  | nil => intro f s _; exact .ret _
  | cons id ids ih =>
    intro f s h
    have h1 : Inv C (without f id) fun p => ⟨(s p).records.erase intLess id, (s p).locals.erase intLess id, (s p).log⟩ :=
      h.erase id
    refine .bind (destroyLocal_runs h id) ?_
    -- the records do not matter
    have key : ∀ (ids : List Int) (f : Spec.Grids n) (s t : Fin n → Proc), Inv C f s → (∀ p, (t p).locals = (s p).locals) →
        Runs C.member comb All (fun p => destroyAll ids (t p)) fun p =>
          { t p with locals := ids.foldl (fun m id => m.erase intLess id) (t p).locals } := by
      intro ids
      induction ids with
      | nil => intro f s t _ _; exact .ret _
      | cons id ids ih =>
        intro f s t h ht
        refine .bind ((destroyLocal_runs h id).congr (fun p _ => ?_) fun _ _ => rfl)
          (ih (without f id) _ (fun p => { t p with locals := (t p).locals.erase intLess id })
            (h.erase id (log := fun p => (s p).log)) fun p => ?_)
        · unfold destroyLocal; rw [ht p]
        · show (t p).locals.erase intLess id = (s p).locals.erase intLess id
          rw [ht p]
    exact key ids _ _ (fun p => { s p with locals := (s p).locals.erase intLess id }) h1 fun p => rfl

theorem destroyGrids_runs {E : Env} {f : Spec.Grids n} {s : Fin n → Proc} (h : Inv C f s) {ids : List Int}
    (hl : Spec.Legal C f (.destroyGrids ids)) :
    Runs C.member comb All (fun p => destroyGrids E ids (s p)) fun p =>
      some ⟨ids.foldl (fun m id => m.erase intLess id) (s p).records,
        ids.foldl (fun m id => m.erase intLess id) (s p).locals, (s p).log ++ Spec.marked false ids⟩ := by
  have hc : ∀ p, ∀ id ∈ ids, (s p).records.contains intLess id = true := fun p id hid => (h.contains p id).2 (hl id hid)
  have hz : ∀ id ∈ ids, 0 ≤ id := by
    intro id hid
    obtain ⟨ps, e⟩ := Option.ne_none_iff_exists'.1 (hl id hid)
    exact (h.proper id ps e).2
  unfold destroyGrids
  refine .bind barrier_runs ?_
  have h1 := Runs.bind (Q := fun p _ => if E.logs 0 = true ∧ ¬ ∀ id ∈ ids, (s p).records.contains intLess id = true then
      (.ret none : Pr (Option Proc)) else (destroyAll ids (s p)).bind fun t => (plain .world .barrier).bind fun _ =>
        .ret (some { t with
          records := ids.foldl (fun m id => m.erase intLess id) t.records
          log := (s p).log ++ announce false ids })) (barrier_runs (C := C))
      (b := fun p => some ⟨ids.foldl (fun m id => m.erase intLess id) (s p).records,
        ids.foldl (fun m id => m.erase intLess id) (s p).locals, (s p).log ++ Spec.marked false ids⟩) ?_
  · refine h1.congr (fun p _ => ?_) fun _ _ => rfl
    rw [if_neg (c := E.debug = true ∧ _)]
    rintro ⟨-, hn⟩
    exact hn fun id hid => ⟨hz id hid, hc p id hid⟩
  · have h2 := Runs.bind (Q := fun p t => (plain .world .barrier).bind fun _ => .ret (some { t with
          records := ids.foldl (fun m id => m.erase intLess id) t.records
          log := (s p).log ++ announce false ids })) (destroyAll_runs ids h) (Runs.bind barrier_runs (Runs.ret _))
    refine h2.congr (fun p _ => ?_) fun p _ => ?_
    · rw [if_neg]
      rintro ⟨-, hn⟩
      exact hn (hc p)
    · rw [announce_eq]

theorem destroyGrid_runs {E : Env} {f : Spec.Grids n} {s : Fin n → Proc} (h : Inv C f s) {id : Int}
    (hl : Spec.Legal C f (.destroyGrid id)) :
    Runs C.member comb All (fun p => destroyGrid E id (s p)) fun p =>
      some ⟨(s p).records.erase intLess id, (s p).locals.erase intLess id, (s p).log ++ Spec.marked false [id]⟩ := by
  have hc : ∀ p, (s p).records.contains intLess id = true := fun p => (h.contains p id).2 hl
  have hz : 0 ≤ id := by
    obtain ⟨ps, e⟩ := Option.ne_none_iff_exists'.1 hl
    exact (h.proper id ps e).2
  unfold destroyGrid
  refine .bind barrier_runs ?_
  have h2 := Runs.bind (Q := fun p _ => (plain .world .barrier).bind fun _ => .ret (some (⟨(s p).records.erase intLess id,
    (s p).locals.erase intLess id, (s p).log ++ [(id, false, true)]⟩ : Proc))) (destroyLocal_runs h id)
    (Runs.bind barrier_runs (Runs.ret _))
  have h3 := Runs.bind (Q := fun p _ => (destroyLocal id (s p)).bind fun _ => (plain .world .barrier).bind fun _ =>
    .ret (some (⟨(s p).records.erase intLess id, (s p).locals.erase intLess id, (s p).log ++ [(id, false, true)]⟩ : Proc)))
    (barrier_runs (C := C)) h2
  refine h3.congr (fun p _ => ?_) fun p _ => ?_
  · rw [if_neg (by rintro ⟨-, hn⟩; exact hn ⟨hz, hc p⟩)]
    congr 1
    funext _
    rw [if_neg (by rintro ⟨-, hn⟩; exact hn (hc p))]
  · simp [Spec.marked]

theorem call_runs (hC : Spec.Ranks C) {debug : Bool} {ops : Nat} {f : Spec.Grids n} {s : Fin n → Proc} (h : Inv C f s)
    {c : Call n} (ht : ∃ t, ∀ p, c.threshold p = t) (hl : Spec.Legal C f c.act) :
    ∃ t : Fin n → Proc, Inv C (Spec.apply f c.act) t ∧ (∀ p, (t p).log = (s p).log ++ Spec.heard c.act) ∧
      Runs C.member comb All (fun p => callProg C debug ops p c (s p)) fun p => some (t p) := by
  obtain ⟨t, ht⟩ := ht
  obtain ⟨level, threshold, act⟩ := c
  obtain rfl : threshold = fun _ => t := funext ht
  cases act with
  | createGrids es => exact ⟨_, h.create hl, fun p => rfl, createGrids_runs (E := ⟨debug, level, t, ops⟩) hC h hl⟩
  | createGrid id x =>
    have h1 := h.create (es := [(id, x)]) (log := fun p => (s p).log ++ Spec.marked true [id])
      ⟨by simp, fun e he => by rw [List.mem_singleton] at he; subst he; exact hl⟩
    have e : Spec.apply f (.createGrids [(id, x)]) = Spec.apply f (.createGrid id x) := by
      funext i
      simp only [Spec.apply, List.find?_cons, List.find?_nil]
      by_cases hi : i = id
      · simp [hi]
      · simp [hi, Ne.symm hi]
    rw [e] at h1
    exact ⟨_, h1, fun p => rfl, createGrid_runs (E := ⟨debug, level, t, ops⟩) hC h hl⟩
  | destroyGrids ids =>
    have h1 := Inv.eraseAll (log := fun p => (s p).log ++ Spec.marked false ids) ids h
    rw [← apply_destroy] at h1
    exact ⟨_, h1, fun p => rfl, destroyGrids_runs (E := ⟨debug, level, t, ops⟩) h hl⟩
  | destroyGrid id =>
    exact ⟨_, h.erase id (log := fun p => (s p).log ++ Spec.marked false [id]), fun p => rfl,
      destroyGrid_runs (E := ⟨debug, level, t, ops⟩) h hl⟩

theorem history_runs (hC : Spec.Ranks C) {debug : Bool} {ops : Nat} : ∀ (cs : List (Call n)) {f : Spec.Grids n}
    {s : Fin n → Proc}, Inv C f s → Spec.LegalAll C f cs →
    ∃ t : Fin n → Proc, Inv C (Spec.after f cs) t ∧
      (∀ p, (t p).log = (s p).log ++ cs.flatMap fun c => Spec.heard c.act) ∧
      Runs C.member comb All (fun p => history C debug ops p cs (s p)) fun p => some (t p) := by
  intro cs
  induction cs with
  | nil => intro f s h _; exact ⟨s, h, fun p => by simp, .ret _⟩
  | cons c cs ih =>
    intro f s h hl
    obtain ⟨t, h1, h2, h3⟩ := call_runs (debug := debug) (ops := ops) hC h hl.1 hl.2.1
    obtain ⟨u, h4, h5, h6⟩ := ih h1 hl.2.2
    refine ⟨u, h4, fun p => ?_, .bind h3 h6⟩
    rw [h5, h2, List.flatMap_cons, List.append_assoc]

theorem inv_start : Inv C (fun _ => none) fun _ => Proc.start :=
  ⟨fun _ _ h => (by cases h), fun _ => ⟨rfl, List.Pairwise.nil⟩, fun _ => ⟨rfl, List.Pairwise.nil⟩,
    fun _ _ _ => by simp [Proc.start], fun _ _ _ => by simp [Proc.start]⟩

/-! ### The property -/

/-- C109: all executions end, and then every process knows exactly the grids that were created and not destroyed, with
the description given by the process with rank 0 in the communicator of the grid; the grids for which a process has
given parameters are local to it; listeners have heard of all creations and destructions in order. -/
theorem C109_knows (hC : Spec.Ranks C) (debug : Bool) (ops : Nat) (cs : List (Call n))
    (hl : Spec.LegalAll C (fun _ => none) cs) :
    ∃ t : Fin n → Proc, Spec.Ends C (fun p => history C debug ops p cs Proc.start) (fun p => some (t p)) ∧
      ∀ p, (∀ id, Spec.Knows C p (t p) id (Spec.after (fun _ => none) cs id)) ∧
        (t p).log = cs.flatMap fun c => Spec.heard c.act := by
  obtain ⟨t, h1, h2, h3⟩ := history_runs (debug := debug) (ops := ops) hC cs inv_start hl
  obtain ⟨N, hN⟩ := h3.executions
  exact ⟨t, ⟨N, fun cs y hy => ⟨(hN cs y hy).1, (hN cs y hy).2.1⟩⟩, fun p => ⟨fun id => h1.knows hC p id, h2 p⟩⟩

/-- C109: all processes list the same grids in the same order, and have the same descriptions of them except for whether
they are local. -/
theorem C109_agree (hC : Spec.Ranks C) (debug : Bool) (ops : Nat) (cs : List (Call n))
    (hl : Spec.LegalAll C (fun _ => none) cs) :
    ∃ t : Fin n → Proc, Spec.Ends C (fun p => history C debug ops p cs Proc.start) (fun p => some (t p)) ∧
      ∀ p q, (t p).records.keys = (t q).records.keys ∧ ∀ id ∈ (t p).records.keys, ∃ i j,
        (t p).records.get? intLess id = some i ∧ (t q).records.get? intLess id = some j ∧
          j = { i with isLocal := (t q).locals.contains intLess id } := by
  obtain ⟨t, h1, h2, h3⟩ := history_runs (debug := debug) (ops := ops) hC cs inv_start hl
  obtain ⟨N, hN⟩ := h3.executions
  refine ⟨t, ⟨N, fun cs y hy => ⟨(hN cs y hy).1, (hN cs y hy).2.1⟩⟩, fun p q => ⟨?_, fun id hid => ?_⟩⟩
  · have hm : ∀ p id, id ∈ (t p).records.keys ↔ Spec.after (fun _ => none) cs id ≠ none := by
      intro p id
      rw [← h1.contains p id, OMap.contains, oset_contains_iff intLess_sto (h1.recs p).2]
    refine List.Perm.eq_of_pairwise (le := fun a b => intLess a b = true) (fun a b _ _ h4 h5 => ?_)
      (h1.recs p).2 (h1.recs q).2 ?_
    · have := intLess_sto.trans _ _ _ h4 h5
      rw [intLess_sto.irrefl] at this
      cases this
    · have nd : ∀ p, (t p).records.keys.Nodup := fun p =>
        (h1.recs p).2.imp fun {a b} h => by rintro rfl; rw [intLess_sto.irrefl] at h; cases h
      exact (List.perm_ext_iff_of_nodup (nd p) (nd q)).2 fun id => by rw [hm p, hm q]
  · have hc := (h1.contains p id).1 (by rw [OMap.contains, oset_contains_iff intLess_sto (h1.recs p).2]; exact hid)
    obtain ⟨ps, e⟩ := Option.ne_none_iff_exists'.1 hc
    have kp := h1.knows hC p id
    have kq := h1.knows hC q id
    rw [e] at kp kq
    obtain ⟨-, ⟨i, gi, r, x, hx, h0, rfl⟩, -⟩ := kp
    obtain ⟨-, ⟨j, gj, r', x', hx', h0', rfl⟩, hloc, -⟩ := kq
    obtain ⟨r0, x0, -, -, hr⟩ := root_of hC (h1.proper id ps e).1
    obtain rfl := (hr r x hx).1 h0
    obtain rfl := (hr r' x' hx').1 h0'
    rw [hx] at hx'
    cases hx'
    refine ⟨_, _, gi, gj, ?_⟩
    congr 1
    rw [Bool.eq_iff_iff, hloc]
    simp

/-! ### Different thresholds -/

theorem avoids_bind_plains {α : Type} {k : Nat} {l : Kind} {f : Unit → Pr α} (hf : Avoids .world l (f ())) :
    ∀ ls : List Kind, Avoids .world l ((plains (.grid k) ls).bind f) := by
  intro ls
  induction ls with
  | nil => exact hf
  | cons a ls ih =>
    show Avoids Comm.world l (VColl.Prog.coll (.grid k) a none fun _ => (plains (.grid k) ls).bind f)
    rw [Avoids, if_neg (by simp)]
    exact fun _ => ih

theorem avoids_createLocal {α : Type} {E : Env} {l : Kind} {id : Int} {x : Option Params} {s : Proc} {f : Proc → Pr α}
    (hf : ∀ t, Avoids .world l (f t)) : Avoids .world l ((createLocal C E id x s).bind f) := by
  cases x with
  | none => exact hf s
  | some y =>
    show Avoids Comm.world l (((construct C E y).bind _).bind f)
    rw [Prog.bind_assoc]
    exact avoids_bind_plains (hf _) _

theorem avoids_constructAll {α : Type} {E : Env} {l : Kind} {f : Proc → Pr α} (hf : ∀ t, Avoids .world l (f t)) :
    ∀ (es : List (Int × Option Params)) (s : Proc), Avoids .world l ((constructAll C E es s).bind f) := by
  intro es
  induction es with
  | nil => intro s; exact hf s
  | cons e es ih =>
    intro s
    show Avoids Comm.world l (((createLocal C E e.1 e.2 s).bind _).bind f)
    rw [Prog.bind_assoc]
    exact avoids_createLocal fun t => ih t

/-- A process that describes a grid does not take part in sending a name from an unknown source. -/
theorem avoids_gridInfo {α : Type} {p : Fin n} {g : Option Params} {f : Info → Pr α} :
    Avoids .world .anyString ((gridInfo C p g).bind f) := by
  show Avoids Comm.world Kind.anyString (VColl.Prog.coll Comm.world Kind.anyInt _ _)
  rw [Avoids, if_pos rfl]
  simp

/-- C109 needs equal thresholds: if one process writes status messages at the level of the call and another one does
not, no execution of `CreateGrids` ends, since only the former takes part in sending the names for the messages. -/
theorem C109_thresholds (hC : Spec.Ranks C) (debug : Bool) (ops : Nat) (cs : List (Call n))
    (hl : Spec.LegalAll C (fun _ => none) cs) {c : Call n} {e : Int × (Fin n → Option Params)}
    {es : List (Int × (Fin n → Option Params))} (hact : c.act = .createGrids (e :: es))
    (hc : Spec.Legal C (Spec.after (fun _ => none) cs) c.act) {p q : Fin n} (hp : c.level ≤ c.threshold p)
    (hq : ¬ c.level ≤ c.threshold q) :
    ∀ ds y, run C.member comb (fun p => history C debug ops p (cs ++ [c]) Proc.start) ds = some y → ¬ Done y := by
  obtain ⟨t, h1, -, h3⟩ := history_runs (debug := debug) (ops := ops) hC cs inv_start hl
  obtain ⟨level, threshold, act⟩ := c
  dsimp only at hact hp hq
  subst hact
  obtain ⟨hn, hl'⟩ := hc
  let E : Fin n → Env := fun p => ⟨debug, level, threshold p, ops⟩
  have happ : ∀ (p : Fin n) (cs : List (Call n)) (d : Call n) (s : Proc), history C debug ops p (cs ++ [d]) s =
      (history C debug ops p cs s).bind fun r => match r with
        | none => .ret none
        | some t => history C debug ops p [d] t := by
    intro p cs d
    induction cs with
    | nil => intro s; rfl
    | cons c cs ih =>
      intro s
      show (callProg C debug ops p c s).bind _ = ((callProg C debug ops p c s).bind _).bind _
      rw [Prog.bind_assoc]
      congr 1
      funext r
      cases r with
      | none => rfl
      | some t => exact ih t
  -- what is left after the checks
  let rest : Fin n → Proc → Pr (Option Proc) := fun p s =>
    ((if (E p).logs 0 then nameGrids C p (view p (e :: es)) else .ret ()).bind fun _ =>
      (constructAll C (E p) (view p (e :: es)) s).bind fun s' =>
        (describeAll C p (view p (e :: es)) s').bind fun r =>
          match r with
          | none => .ret none
          | some t => (plain .world .barrier).bind fun _ =>
            (plain .world .barrier).bind fun _ =>
              .ret (some { t with log := t.log ++ announce true ((view p (e :: es)).map Prod.fst) }))
  have hcheck : Runs C.member comb All (fun p => if debug then checkCreate (t p) (view p (e :: es)) else .ret true)
      fun _ => true := by
    cases debug with
    | false => exact .ret _
    | true =>
      refine checkCreate_runs (e :: es) fun e he => ⟨(hl' e he).1, fun p => ?_, ?_⟩
      · rw [Bool.eq_false_iff, Ne, h1.contains]
        simpa using (hl' e he).2.1
      · obtain ⟨k, ⟨q, hq⟩, hk⟩ := (hl' e he).2.2
        exact ⟨q, (hk q).1.1 hq⟩
  let fin : Option Proc → Pr (Option Proc) := fun r => match r with
    | none => .ret none
    | some t => .ret (some t)
  have lead : Leads C.member comb
      (fun p => history C debug ops p (cs ++ [⟨level, threshold, .createGrids (e :: es)⟩]) Proc.start)
      (fun p => (rest p (t p)).bind fin) := by
    have a1 := h3 _ (fun p r => match r with
        | none => .ret none
        | some t => history C debug ops p [⟨level, threshold, .createGrids (e :: es)⟩] t)
      (fun p => history C debug ops p (cs ++ [⟨level, threshold, .createGrids (e :: es)⟩]) Proc.start)
      fun p _ => happ p cs _ _
    have a2 := (Runs.bind (Q := fun p _ => if debug then checkCreate (t p) (view p (e :: es)) else .ret true)
      (barrier_runs (C := C)) hcheck) _ (fun p ok => (if ok = false then (.ret none : Pr (Option Proc)) else
        rest p (t p)).bind fin)
      (fun p => history C debug ops p [⟨level, threshold, .createGrids (e :: es)⟩] (t p)) fun p _ => by
        show (createGrids C (E p) p (view p (e :: es)) (t p)).bind fin = _
        rw [Prog.bind_assoc]
        unfold createGrids
        rw [Prog.bind_assoc]
        congr 1
        funext _
        rw [Prog.bind_assoc]
        rfl
    exact a1.trans a2
  intro ds y hy hd
  obtain ⟨ds', h4⟩ := lead
  obtain ⟨ds'', h5, -⟩ := confluent_run ds hy hd ds' h4
  refine apart (c := .world) (l := .anyString) (p := p) (q := q) rfl rfl ds'' ?_ ?_ h5 hd
  · have : (E p).logs 0 = true := by
      unfold Env.logs
      simpa [E] using hp
    show ∃ v, (((if (E p).logs 0 = true then nameGrids C p (view p (e :: es)) else .ret ()).bind _).bind fin).at .world = _
    rw [if_pos this]
    exact ⟨_, rfl⟩
  · have : (E q).logs 0 = false := by
      unfold Env.logs
      simpa [E] using hq
    show Avoids .world .anyString (((if (E q).logs 0 = true then nameGrids C q (view q (e :: es)) else .ret ()).bind _).bind fin)
    rw [if_neg (by rw [this]; simp)]
    show Avoids .world .anyString ((VColl.Prog.bind (constructAll C (E q) (view q (e :: es)) (t q)) _).bind fin)
    rw [Prog.bind_assoc]
    refine avoids_constructAll (fun u => ?_) _ _
    rw [Prog.bind_assoc]
    show Avoids .world .anyString ((describeAll C q ((e.1, e.2 q) :: view q es) u).bind _)
    rw [describeAll]
    dsimp only
    split
    · split
      · trivial
      · rw [Prog.bind_assoc]; exact avoids_gridInfo
    · rw [Prog.bind_assoc]; exact avoids_gridInfo

/-- Without `OVK_DEBUG`, creating a grid for which no process gives parameters never ends. -/
theorem C109_nobody (ops : Nat) (level t id : Int) (p : Fin n) :
    ∀ ds y, run C.member comb (fun p => history C false ops p [⟨level, fun _ => t, .createGrid id fun _ => none⟩] Proc.start)
      ds = some y → ¬ Done y := by
  let fin : Option Proc → Pr (Option Proc) := fun r => match r with
    | none => .ret none
    | some t => .ret (some t)
  let E : Env := ⟨false, level, t, ops⟩
  -- after the first barrier
  let rest : Fin n → Pr (Option Proc) := fun p =>
    ((if E.logs 0 then nameGrids C p [(id, none)] else .ret ()).bind fun _ =>
      (gridInfo C p none).bind fun i => (plain .world .barrier).bind fun _ => (plain .world .barrier).bind fun _ =>
        .ret (some { Proc.start with
          records := Proc.start.records.insert intLess id i
          log := Proc.start.log ++ [(id, true, true)] })).bind fin
  have lead : Leads C.member comb
      (fun p => history C false ops p [⟨level, fun _ => t, .createGrid id fun _ => none⟩] Proc.start) rest :=
    (barrier_runs (C := C)) _ (fun p _ => rest p) _ fun p _ => rfl
  have hat : ∃ l, (l = .anyString ∨ l = .anyInt) ∧ ∀ p, (rest p).at .world = some (l, none) := by
    cases e : E.logs 0 with
    | true => exact ⟨.anyString, .inl rfl, fun p => by simp only [rest, e]; rfl⟩
    | false => exact ⟨.anyInt, .inr rfl, fun p => by simp only [rest, e]; rfl⟩
  have stuck : ∀ c, step C.member comb rest c = none := by
    intro c
    cases e : step C.member comb rest c with
    | none => rfl
    | some y =>
      obtain ⟨l, hl, hat⟩ := hat
      obtain ⟨⟨q, hq⟩, l', f, hf, r, hr, -⟩ := step_iff.1 e
      obtain rfl := at_unique (hf q hq) (hat q)
      have hl' : l' = l := by
        have := hf q hq
        rw [hat q] at this
        simp only [Option.some.injEq, Prod.mk.injEq] at this
        exact this.1.symm
      have hnone : ∀ q, f q = none := by
        intro q
        have := hf q rfl
        rw [hat q] at this
        simp only [Option.some.injEq, Prod.mk.injEq] at this
        exact this.2.symm
      have hz : (gathered C.member .world f).filterMap Prod.snd = [] := by
        rw [List.filterMap_eq_nil_iff]
        intro x hx
        obtain ⟨q, -, rfl⟩ := List.mem_map.1 hx
        exact hnone q
      rcases hl with h | h <;>
      · rw [hl', h] at hr
        simp [comb, hz] at hr
  intro ds y hy hd
  obtain ⟨ds', h1⟩ := lead
  obtain ⟨ds'', h2, -⟩ := confluent_run ds hy hd ds' h1
  cases ds'' with
  | nil =>
    cases h2
    obtain ⟨a, ha⟩ := hd p
    obtain ⟨l, -, hat⟩ := hat
    have := hat p
    rw [ha] at this
    cases this
  | cons c ds'' =>
    unfold run at h2
    rw [stuck c] at h2
    cases h2

/-! ### Examples -/

/-- Communicator 0 has processes 0 and 1, communicator 1 has processes 2 and 1 in this order. -/
def exComms : Comms 3 where
  mem k p := decide (k = 0 ∧ p ≠ 2 ∨ k = 1 ∧ p ≠ 0)
  rank k p := if k = 0 then p.val else 2 - p.val
  size _ := 2

def exParams (k : Nat) (name : List Char) (p : Fin 3) : Option Params :=
  if exComms.mem k p then some ⟨name, k, ⟨2, [0, 0, 0], [4, 5 + p.val, 1], [true, false, false], .unique⟩⟩ else none

/-- Two grids are created at once, then one of them is destroyed, then another one is created. -/
def exCalls : List (Call 3) :=
  [⟨1, fun _ => 1, .createGrids [(5, exParams 0 ['a']), (3, exParams 1 ['b', 'c'])]⟩,
    ⟨1, fun _ => 20, .destroyGrid 5⟩, ⟨2, fun _ => 20, .createGrid 7 (exParams 1 ['d'])⟩]

theorem exComms_ranks : Spec.Ranks exComms := by
  intro k hk
  by_cases h0 : k = 0
  · subst h0; exact ⟨0, by decide, by decide⟩
  · by_cases h1 : k = 1
    · subst h1; exact ⟨2, by decide, by decide⟩
    · obtain ⟨p, hp⟩ := hk
      simp [exComms, h0, h1] at hp

theorem exParams_proper {k : Nat} (hk : k = 0 ∨ k = 1) (name : List Char) : Spec.Proper exComms (exParams k name) := by
  refine ⟨k, ⟨1, by rcases hk with rfl | rfl <;> decide⟩, fun p => ⟨?_, fun x hx => ?_⟩⟩
  · unfold exParams; split <;> simp [*]
  · unfold exParams at hx
    split at hx
    · cases hx; rfl
    · cases hx

example : Spec.LegalAll exComms (fun _ => none) exCalls := by
  refine ⟨⟨1, fun _ => rfl⟩, ⟨by decide, ?_⟩, ⟨20, fun _ => rfl⟩, ?_, ⟨20, fun _ => rfl⟩, ?_, trivial⟩
  · intro e he
    simp only [List.mem_cons, List.not_mem_nil, or_false] at he
    rcases he with rfl | rfl
    · exact ⟨by decide, rfl, exParams_proper (.inl rfl) _⟩
    · exact ⟨by decide, rfl, exParams_proper (.inr rfl) _⟩
  · simp [Spec.Legal, Spec.apply]
  · exact ⟨by decide, rfl, exParams_proper (.inr rfl) _⟩

example : (Spec.after (fun _ => none) exCalls 5).isNone = true ∧
    (Spec.after (fun _ => none) exCalls 3).map (fun ps => (ps 0).isSome) = some false ∧
    (Spec.after (fun _ => none) exCalls 7).map (fun ps => (ps 1).map Params.name) = some (some ['d']) := by decide

/-- The result on a process that has ended. -/
def result {α : Type} : Pr (Option α) → Option α
  | .ret a => a
  | _ => none

-- one grid: barrier, name, construction, description, barriers
example : ((run exComms.member comb (fun p => history exComms false 0 p [⟨1, fun _ => 1, .createGrid 7 (exParams 1 ['d'])⟩]
      Proc.start) (List.replicate 2 .world ++ List.replicate 2 (.grid 1) ++ List.replicate 10 .world)).map fun y =>
    (List.finRange 3).map fun p => (result (y p)).bind fun s => s.records.get? intLess 7) =
    some ([false, true, true].map fun b => some ⟨b, 2, ['d'], ⟨2, [0, 0, 0], [4, 7, 1], [true, false, false], .unique⟩,
      ⟨2, [0, 0, 0], [4, 6, 1], [true, false, false], .unique⟩⟩) := by decide +kernel

-- with different thresholds
example : ∃ c : Call 3, c.act = .createGrids [(5, exParams 0 ['a'])] ∧ c.level ≤ c.threshold 0 ∧
    ¬ c.level ≤ c.threshold 1 := ⟨⟨1, fun p => if p = 0 then 1 else 0, .createGrids [(5, exParams 0 ['a'])]⟩, rfl,
  by decide, by decide⟩

end Ovk.DomG
