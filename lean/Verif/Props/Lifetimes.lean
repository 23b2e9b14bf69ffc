/-
C130: objects of a domain are destroyed while everything their destructors use exists.
-/
import Verif.Lemmas.Lifetimes

namespace Ovk.Lifetimes

namespace Spec

/-- The domain of variable `v`, if the variable exists. -/
def var (s : State) (v : Nat) : Option Domain := s.vars[v]?.join

/-- Variable `v` holds a domain (it was not moved from) with property `P`. -/
def Holds (s : State) (v : Nat) (P : Domain → Prop) : Prop :=
  ∃ d, var s v = some d ∧ d ≠ Domain.movedFrom ∧ P d

/-- What the assertions of the interface and the rules of C++ ask of a program. -/
def Allowed (s : State) : Op → Prop
  | .newContext => True
  | .copyPointer c => c ∈ s.user
  | .releasePointer c => c ∈ s.user
  | .createDomain c => c ∈ s.user
  | .createGrid v g => Holds s v fun d => ∀ p ∈ d.grids, p.2.gid ≠ g
  | .destroyGrid v _ => Holds s v fun _ => True
  | .createComp v x => Holds s v fun d => ∀ c ∈ d.comps, c.cid ≠ x
  | .destroyComp v x => Holds s v fun d => ∃ c ∈ d.comps, c.cid = x
  | .createObject v x key _ => Holds s v fun d =>
      (∃ c ∈ d.comps, c.cid = x ∧ ∀ l ∈ c.entries, l.key ≠ key) ∧ ∃ p ∈ d.grids, p.2.gid = key.on
  | .destroyObject v x key => Holds s v fun d => ∃ c ∈ d.comps, c.cid = x ∧ ∃ l ∈ c.entries, l.key = key
  | .moveNew v => Holds s v fun _ => True
  | .moveTo v w => v ≠ w ∧ (Holds s v fun _ => True) ∧ (var s w).isSome
  | .destroyDomain v => (var s v).isSome

/-- The states programs reach. -/
inductive Reached : State → Prop
  | init : Reached State.init
  | step {s s' : State} {op : Op} : Reached s → Allowed s op → step s op = some s' → Reached s'

/-- Assignment only to domains without components. -/
def Careful (s : State) : Op → Prop
  | .moveTo _ w => ∀ d, var s w = some d → d.comps = []
  | _ => True

/-- What the destruction of a domain writes: the objects of each component before the component, components before
grids, grids before the end of the domain, and all of that before the end of the context. -/
def farewell (v : Nat) (d : Domain) (contextUsed : Bool) : List Msg :=
  .destroying v ::
    (d.comps.flatMap fun x => (x.entries.map fun l => .object l.flagsLoc) ++ [.component x.cid]) ++
    (d.grids.map fun p => .grid p.1) ++ [.done v] ++
    (if contextUsed then [] else d.ctx.toList.map .context)

end Spec

open Spec

/-! ### The invariant -/

def ownVars (vs : List (Option Domain)) : Multiset Res := (vs.map ownVar).sum

def ownUser (us : List Nat) : Multiset Res := ((us.map .share : List Res) : Multiset Res)

/-- Every entry of an event refers to something that exists. -/
def Targets (F : Multiset Res) : Prop := ∀ e t, Res.lis e t ∈ F → Res.loc t ∈ F

theorem Targets.add {F G : Multiset Res} (hF : Targets F) (hG : Targets G) : Targets (F + G) := by
  intro e t h
  rcases Multiset.mem_add.1 h with h | h
  · exact Multiset.mem_add.2 (Or.inl (hF e t h))
  · exact Multiset.mem_add.2 (Or.inr (hG e t h))

theorem NoEntry.targets {F : Multiset Res} (h : NoEntry F) : Targets F := fun e t ht => absurd ht (h e t)

theorem noEntry_user (us : List Nat) : NoEntry (ownUser us) := by
  intro e t h; simp [ownUser] at h

theorem Entry.targets {c : Nat} {grids : List (Nat × Grid)} {l : Entry} (h : EntryOK c grids l) :
    Targets l.own := by
  intro e t ht
  unfold Entry.own at ht ⊢
  simp only [Multiset.mem_add, Multiset.mem_coe, List.mem_map, Multiset.mem_singleton] at ht ⊢
  rcases ht with (⟨x, hx, he⟩ | he) | he
  · injection he with he1 he2
    rw [← he2, h.target x hx]
    exact Or.inl (Or.inr rfl)
  · cases he
  · exact absurd he (l.obj.noEntry e t)

theorem entries_targets {c : Nat} {grids : List (Nat × Grid)} {ls : List Entry}
    (h : ∀ l ∈ ls, EntryOK c grids l) : Targets (ownEntries ls) := by
  induction ls with
  | nil => exact noEntry_zero.targets
  | cons l ls ih =>
    simpa [ownEntries] using (Entry.targets (h l (by simp))).add (ih fun x hx => h x (by simp [hx]))

theorem Comp.targets {c l e : Nat} {grids : List (Nat × Grid)} {x : Comp} (h : CompOK c l e grids x) :
    Targets x.own := by
  obtain ⟨t, ht1, ht2⟩ := h.loc
  intro e' t' ht
  simp only [Comp.own, ht2, ofH, Multiset.mem_add] at ht ⊢
  rcases ht with ((ht | ht) | ht) | ht
  · exact absurd ht (noEntry_ofO_loc _ _ _)
  · exact Or.inl (Or.inl (Or.inr (entries_targets h.entries _ _ ht)))
  · simp only [Multiset.mem_singleton, Res.lis.injEq] at ht
    rw [ht.2, ht1]
    exact Or.inr (by simp [ofO])
  · exact absurd ht (noEntry_ofO_loc _ _ _)

theorem comps_targets {c l e : Nat} {grids : List (Nat × Grid)} {cs : List Comp}
    (h : ∀ x ∈ cs, CompOK c l e grids x) : Targets (ownComps cs) := by
  induction cs with
  | nil => exact noEntry_zero.targets
  | cons x cs ih =>
    simpa [ownComps] using (Comp.targets (h x (by simp))).add (ih fun y hy => h y (by simp [hy]))

theorem DomOK.targets {d : Domain} (h : DomOK d) : Targets d.own := by
  rcases h with rfl | ⟨c, n, l, e, f, h⟩
  · rw [movedFrom_own]; exact noEntry_zero.targets
  · rw [h.own_eq]
    exact (noEntry_loc _).targets.add ((comps_targets h.comps).add ((noEntry_loc _).targets.add
      (noEntry_base _ _ _ _).targets))

structure Inv (s : State) : Prop where
  res : s.mem.res = ownUser s.user + ownVars s.vars
  nd : LocND s.mem.res
  fresh : ∀ n, .loc n ∈ s.mem.res → n < s.next
  ok : ∀ d, some d ∈ s.vars → DomOK d

theorem ownVars_set (vs : List (Option Domain)) (v : Nat) (y : Option Domain) (h : v < vs.length) :
    ownVars (vs.set v y) = ownVar y + ownVars (vs.set v none) := by
  induction vs generalizing v with
  | nil => simp at h
  | cons x vs ih =>
    cases v with
    | zero => simp [ownVars, ownVar]
    | succ v =>
      have := ih v (by simpa using h)
      simp only [ownVars] at this
      simp only [ownVars, List.set_cons_succ, List.map_cons, List.sum_cons, this]
      abel

theorem ownVars_append (a b : List (Option Domain)) : ownVars (a ++ b) = ownVars a + ownVars b := by
  simp [ownVars]

theorem vars_closed {vs : List (Option Domain)} (h : ∀ d, some d ∈ vs → DomOK d) {F : Multiset Res}
    (hF : Closed F) : Closed (ownVars vs + F) := by
  induction vs with
  | nil => simpa [ownVars] using hF
  | cons x vs ih =>
    have h1 := ih fun d hd => h d (by simp [hd])
    cases x with
    | none => simpa [ownVars, ownVar] using h1
    | some d =>
      have := (h d (by simp)).closed_add h1
      simpa [ownVars, ownVar, add_assoc] using this

theorem vars_targets {vs : List (Option Domain)} (h : ∀ d, some d ∈ vs → DomOK d) : Targets (ownVars vs) := by
  induction vs with
  | nil => exact noEntry_zero.targets
  | cons x vs ih =>
    have h1 := ih fun d hd => h d (by simp [hd])
    cases x with
    | none => simpa [ownVars, ownVar] using h1
    | some d => simpa [ownVars, ownVar] using (h d (by simp)).targets.add h1

/-- What the rest of the program owns besides variable `v`. -/
def rest (s : State) (v : Nat) : Multiset Res := ownUser s.user + ownVars (s.vars.set v none)

theorem var_some {s : State} {v : Nat} {d : Domain} (h : var s v = some d) :
    s.vars[v]? = some (some d) := by
  unfold var at h
  cases hx : s.vars[v]? with
  | none => rw [hx] at h; cases h
  | some x => rw [hx] at h; simpa using h

theorem mem_vars {s : State} {v : Nat} {d : Domain} (h : var s v = some d) : some d ∈ s.vars :=
  List.mem_of_getElem? (var_some h)

theorem var_lt {s : State} {v : Nat} {d : Domain} (h : var s v = some d) : v < s.vars.length :=
  (List.getElem?_eq_some_iff.1 (var_some h)).1

theorem Inv.split {s : State} (hI : Inv s) {v : Nat} {d : Domain} (h : var s v = some d) :
    s.mem.res = d.own + rest s v := by
  have h1 : s.vars = s.vars.set v (some d) := by
    obtain ⟨hl, hv⟩ := List.getElem?_eq_some_iff.1 (var_some h)
    rw [← hv]
    simp
  rw [hI.res]
  conv_lhs => rw [h1, ownVars_set _ _ _ (var_lt h)]
  simp only [rest, ownVar]
  abel

theorem mem_set {α : Type} {l : List α} {i : Nat} {a b : α} (h : a ∈ l.set i b) : a ∈ l ∨ a = b :=
  List.mem_or_eq_of_mem_set h

theorem Inv.rest_closed {s : State} (hI : Inv s) (v : Nat) : Closed (rest s v) := by
  have : Closed (ownVars (s.vars.set v none) + ownUser s.user) :=
    vars_closed (fun d hd => by
      rcases mem_set hd with hd | hd
      · exact hI.ok d hd
      · cases hd) (noEntry_user _).closed
  rw [rest, add_comm]
  exact this

theorem Inv.trigger_eq {s : State} (hI : Inv s) (e : Nat) {G : Multiset Res} {L : List Msg}
    (hG : Targets G) : trigger e ⟨G, L⟩ = some ⟨G, L⟩ := by
  unfold trigger
  refine if_pos ?_
  intro r hr
  cases r with
  | lis e' t => exact fun _ => hG _ _ hr
  | _ => trivial

theorem Inv.targets {s : State} (hI : Inv s) : Targets s.mem.res := by
  rw [hI.res]
  exact (noEntry_user _).targets.add (vars_targets hI.ok)

/-- A variable gets a new content. -/
theorem Inv.put {s : State} (hI : Inv s) {v : Nat} {d : Domain} (h : var s v = some d)
    {d' : Option Domain} {m : Mem} {k : Nat} (hm : m.res = ownVar d' + rest s v) (hN : LocND m.res)
    (hk : ∀ n, .loc n ∈ m.res → n < k) (hok : ∀ x, d' = some x → DomOK x) :
    Inv (({ s with next := k } : State).put v d' m) where
  res := by
    simp only [State.put]
    rw [ownVars_set _ _ _ (var_lt h), hm, rest]
    abel
  nd := hN
  fresh := hk
  ok := by
    intro x hx
    rcases mem_set hx with hx | hx
    · exact hI.ok x hx
    · exact hok x hx.symm

/-- With less than before. -/
theorem Inv.putLess {s : State} (hI : Inv s) {v : Nat} {d : Domain} (h : var s v = some d)
    {d' : Option Domain} {m : Mem} (hm : m.res = ownVar d' + rest s v) (hle : m.res ≤ s.mem.res)
    (hok : ∀ x, d' = some x → DomOK x) : Inv (s.put v d' m) :=
  hI.put (k := s.next) h hm (hI.nd.mono hle) (fun n hn => hI.fresh n (Multiset.mem_of_le hle hn)) hok

/-- New locations that were not used before keep locations unique. -/
theorem locND_add {F : Multiset Res} {N : Multiset Res} {k k' : Nat} (hF : LocND F)
    (hf : ∀ n, .loc n ∈ F → n < k) (hN : LocND N) (hn : ∀ n, .loc n ∈ N → k ≤ n ∧ n < k') (hk : k ≤ k') :
    LocND (N + F) ∧ ∀ n, .loc n ∈ N + F → n < k' := by
  constructor
  · intro n
    rw [Multiset.count_add]
    by_cases h1 : .loc n ∈ N
    · have h2 : .loc n ∉ F := fun h => absurd (hf n h) (by have := (hn n h1).1; omega)
      rw [Multiset.count_eq_zero_of_notMem h2]
      have := hN n
      omega
    · rw [Multiset.count_eq_zero_of_notMem h1]
      have := hF n
      omega
  · intro n hm
    rcases Multiset.mem_add.1 hm with hm | hm
    · exact (hn n hm).2
    · exact lt_of_lt_of_le (hf n hm) hk

theorem Holds.live {s : State} (hI : Inv s) {v : Nat} {P : Domain → Prop} (h : Holds s v P) :
    ∃ d, var s v = some d ∧ P d ∧ ∃ c n l e f, LiveOK d c n l e f := by
  obtain ⟨d, hd, hne, hP⟩ := h
  refine ⟨d, hd, hP, ?_⟩
  rcases hI.ok d (mem_vars hd) with h | h
  · exact absurd h hne
  · exact h

theorem dom_eq (s : State) (v : Nat) : s.dom v = var s v := rfl

theorem live_mem {d : Domain} {c n l e f : Nat} (h : LiveOK d c n l e f) {F : Multiset Res} :
    .comm n ∈ d.own + F ∧ .share c ∈ d.own + F ∧ .loc l ∈ d.own + F ∧ .loc e ∈ d.own + F := by
  rw [h.own_eq]
  simp

/-! ### Steps -/

theorem newContext_inv {s : State} (hI : Inv s) : Inv (newContext s) where
  res := by
    simp only [newContext, Mem.add, hI.res, ownUser, List.map_cons]
    rw [← Multiset.cons_coe, ← Multiset.singleton_add]
    abel
  nd := by
    intro n
    simp only [newContext, Mem.add, Multiset.count_add]
    rw [Multiset.count_singleton, if_neg (by simp)]
    simpa using hI.nd n
  fresh := by
    intro n hn
    simp only [newContext, Mem.add, Multiset.mem_add, Multiset.mem_singleton] at hn
    rcases hn with hn | hn
    · cases hn
    · exact Nat.lt_succ_of_lt (hI.fresh n hn)
  ok := hI.ok

theorem user_share {s : State} (hI : Inv s) {c : Nat} (h : c ∈ s.user) : .share c ∈ s.mem.res := by
  rw [hI.res]
  simp [ownUser, h]

theorem copyPointer_ok {s : State} (hI : Inv s) {c : Nat} (h : c ∈ s.user) :
    ∃ s', copyPointer c s = some s' ∧ Inv s' := by
  refine ⟨_, by unfold copyPointer; rw [use_some (user_share hI h)]; rfl, ?_⟩
  exact
    { res := by
        simp only [Mem.add, hI.res, ownUser, List.map_cons]
        rw [← Multiset.cons_coe, ← Multiset.singleton_add]
        abel
      nd := by
        intro n
        simp only [Mem.add, Multiset.count_add]
        rw [Multiset.count_singleton, if_neg (by simp)]
        simpa using hI.nd n
      fresh := by
        intro n hn
        simp only [Mem.add, Multiset.mem_add, Multiset.mem_singleton] at hn
        rcases hn with hn | hn
        · cases hn
        · exact hI.fresh n hn
      ok := hI.ok }

theorem releasePointer_ok {s : State} (hI : Inv s) {c : Nat} (h : c ∈ s.user) :
    ∃ s', releasePointer c s = some s' ∧ Inv s' := by
  have e1 : s.mem.res = {.share c} + (ownUser (s.user.erase c) + ownVars s.vars) := by
    have := (List.perm_cons_erase h).map Res.share
    rw [hI.res, ownUser, Multiset.coe_eq_coe.2 this, List.map_cons, ← Multiset.cons_coe,
      ← Multiset.singleton_add, ownUser]
    abel
  have e2 : releasePointer c s = some { s with
      mem := ⟨ownUser (s.user.erase c) + ownVars s.vars,
        s.mem.log ++ lastWord c (ownUser (s.user.erase c) + ownVars s.vars)⟩,
      user := s.user.erase c } := by
    unfold releasePointer
    rw [show s.mem = ⟨s.mem.res, s.mem.log⟩ from rfl, dropShare_eq e1]
    rfl
  have hle : ownUser (s.user.erase c) + ownVars s.vars ≤ s.mem.res := by
    rw [e1]
    exact Multiset.le_add_left _ _
  refine ⟨_, e2, ?_⟩
  exact { res := rfl, nd := hI.nd.mono hle
          fresh := fun n hn => hI.fresh n (Multiset.mem_of_le hle hn), ok := hI.ok }

theorem createDomain_ok {s : State} (hI : Inv s) {c : Nat} (h : c ∈ s.user) :
    ∃ s', createDomain c s = some s' ∧ Inv s' := by
  let n := s.next
  let d : Domain := { ctx := some c, comm := some n, loc := some n, grids := [], gridEvent := some (n + 1),
                      comps := [], compEvent := some (n + 2) }
  have hd : LiveOK d c n n (n + 1) (n + 2) :=
    ⟨rfl, rfl, rfl, rfl, rfl, by simp [d], by simp [d], by simp [d]⟩
  have e1 : createDomain c s = some { s with
      mem := s.mem.add ({.share c, .comm n, .loc n, .loc (n + 1), .loc (n + 2)} : Multiset Res),
      next := n + 3, vars := s.vars ++ [some d] } := by
    unfold createDomain
    rw [use_some (user_share hI h)]
    rfl
  have hown : d.own = ({.share c, .comm n, .loc n, .loc (n + 1), .loc (n + 2)} : Multiset Res) := by
    rw [hd.own_eq]
    simp only [d, ownComps, ownGrids, List.map_nil, List.sum_nil, Multiset.insert_eq_cons,
      ← Multiset.singleton_add]
    abel
  have hl := locND_add (k' := n + 3) (N := ({.share c, .comm n, .loc n, .loc (n + 1), .loc (n + 2)} : Multiset Res))
    hI.nd hI.fresh (by
      intro k
      simp only [Multiset.insert_eq_cons, Multiset.count_cons, Multiset.count_singleton, Res.loc.injEq,
        reduceCtorEq, if_false]
      split <;> split <;> split <;> omega) (by
      intro k hk
      simp only [Multiset.insert_eq_cons, Multiset.mem_cons, Multiset.mem_singleton, Res.loc.injEq,
        reduceCtorEq, false_or] at hk
      omega) (by omega)
  refine ⟨_, e1, ?_⟩
  exact
    { res := by
        simp only [Mem.add]
        rw [ownVars_append, hI.res, ← hown]
        simp only [ownVars, List.map_cons, List.map_nil, List.sum_cons, List.sum_nil, ownVar]
        abel
      nd := hl.1
      fresh := hl.2
      ok := by
        intro x hx
        rcases List.mem_append.1 hx with hx | hx
        · exact hI.ok x hx
        · simp only [List.mem_singleton, Option.some.injEq] at hx
          exact Or.inr ⟨_, _, _, _, _, hx ▸ hd⟩ }

theorem EntryOK.mono {c : Nat} {gs gs' : List (Nat × Grid)} {l : Entry} (h : EntryOK c gs l)
    (hs : ∀ p ∈ gs, p.2.gid = l.key.on → p ∈ gs') : EntryOK c gs' l :=
  ⟨h.ctx, h.loc, h.handles, h.target, by
    obtain ⟨p, hp, h1, h2⟩ := h.grid
    exact ⟨p, hs p hp h1, h1, h2⟩⟩

theorem createGrid_ok {s : State} (hI : Inv s) {v g : Nat} (h : Holds s v fun d => ∀ p ∈ d.grids, p.2.gid ≠ g) :
    ∃ s', createGrid v g s = some s' ∧ Inv s' := by
  obtain ⟨d, hd, -, c, n, l, e, f, hL⟩ := Holds.live hI h
  have hsp := hI.split hd
  obtain ⟨m1, m2, m3, m4⟩ := live_mem hL (F := rest s v)
  let k := s.next
  let made : Grid := { gid := g, ctx := some c, comm := some k, loc := some k }
  let N : Multiset Res := {.share c, .comm k, .loc k, .addr k}
  have hl := locND_add (k' := k + 1) (N := N) hI.nd hI.fresh (by
      intro j
      simp only [N, Multiset.insert_eq_cons, Multiset.count_cons, Multiset.count_singleton, Res.loc.injEq,
        reduceCtorEq, if_false]
      split <;> omega) (by
      intro j hj
      simp only [N, Multiset.insert_eq_cons, Multiset.mem_cons, Multiset.mem_singleton, Res.loc.injEq,
        reduceCtorEq, false_or, or_false] at hj
      omega) (by omega)
  have hNt : NoEntry N := by intro a b hm; simp [N] at hm
  let d' : Domain := { d with grids := d.grids ++ [(k, made)] }
  have hL' : LiveOK d' c n l e f :=
    { ctx := hL.ctx, comm := hL.comm, loc := hL.loc, gridEvent := hL.gridEvent, compEvent := hL.compEvent
      grids := by
        intro p hp
        rcases List.mem_append.1 hp with hp | hp
        · exact hL.grids p hp
        · simp only [List.mem_singleton] at hp
          subst hp
          exact ⟨rfl, rfl, rfl⟩
      comps := by
        intro x hx
        have := hL.comps x hx
        exact ⟨this.ctx, this.dom, this.loc, this.event, fun y hy => (this.entries y hy).mono
          (fun p hp _ => List.mem_append.2 (Or.inl hp))⟩
      nodup := hL.nodup }
  have hown : d'.own = N + d.own := by
    rw [hL.own_eq, hL'.own_eq]
    simp only [d', N, ownGrids, List.map_append, List.sum_append, List.map_cons, List.map_nil, List.sum_cons,
      List.sum_nil, ownGrid, made, Grid.own, ofO, Multiset.insert_eq_cons, ← Multiset.singleton_add]
    abel
  have e1 : createGrid v g s = some (({ s with next := k + 1 } : State).put v (some d') (s.mem.add N)) := by
    unfold createGrid
    rw [dom_eq, hd]
    simp only [Option.bind_eq_bind, Option.bind_some, hL.ctx, hL.comm, hL.gridEvent, barrier]
    rw [use_some (by rw [hsp]; exact m1), Option.bind_some, use_some (by rw [hsp]; exact m2),
      Option.bind_some, Grid.destroy_moved, Option.bind_some,
      show s.mem.add ({.share c, .comm s.next, .loc s.next, .addr s.next} : Multiset Res) =
        ⟨N + s.mem.res, s.mem.log⟩ from rfl, hI.trigger_eq e (hNt.targets.add hI.targets)]
    simp only [Option.bind_some, d', made, k, hL.ctx, hL.comm, hL.gridEvent]
    first | done | rfl
  refine ⟨_, e1, hI.put hd ?_ hl.1 hl.2 ?_⟩
  · simp only [Mem.add, ownVar]
    rw [hown, hsp]
    abel
  · intro x hx
    cases hx
    exact Or.inr ⟨_, _, _, _, _, hL'⟩

theorem ownEntries_filter (p : Entry → Bool) (ls : List Entry) :
    ownEntries ls = ownEntries (ls.filter p) + ownEntries (ls.filter fun l => !p l) := by
  induction ls with
  | nil => simp [ownEntries]
  | cons l ls ih =>
    simp only [ownEntries] at ih
    cases hp : p l <;> simp [ownEntries, hp, ih] <;> abel

theorem ownComps_filter (p : Comp → Bool) (ls : List Comp) :
    ownComps ls = ownComps (ls.filter p) + ownComps (ls.filter fun l => !p l) := by
  induction ls with
  | nil => simp [ownComps]
  | cons l ls ih =>
    simp only [ownComps] at ih
    cases hp : p l <;> simp [ownComps, hp, ih] <;> abel

theorem ownGrids_filter (p : Nat × Grid → Bool) (ls : List (Nat × Grid)) :
    ownGrids ls = ownGrids (ls.filter p) + ownGrids (ls.filter fun l => !p l) := by
  induction ls with
  | nil => simp [ownGrids]
  | cons l ls ih =>
    simp only [ownGrids] at ih
    cases hp : p l <;> simp [ownGrids, hp, ih] <;> abel

/-- The component without the objects that belong to grid `g`. -/
def Comp.without (g : Nat) (x : Comp) : Comp :=
  { x with entries := x.entries.filter fun l => !l.key.touches g }

theorem CompOK.sub {c l e : Nat} {gs : List (Nat × Grid)} {x : Comp} (h : CompOK c l e gs x)
    (p : Entry → Bool) : CompOK c l e gs { x with entries := x.entries.filter p } :=
  ⟨h.ctx, h.dom, h.loc, h.event, fun y hy => h.entries y (List.mem_of_mem_filter hy)⟩

theorem own_without (g : Nat) (x : Comp) :
    x.own = ownEntries (x.entries.filter fun l => l.key.touches g) + (x.without g).own := by
  simp only [Comp.own, Comp.without]
  rw [ownEntries_filter (fun l => l.key.touches g) x.entries]
  abel

theorem onGridDestroyed_eq {c l e g : Nat} {gs : List (Nat × Grid)} : ∀ (cs : List Comp)
    {F G : Multiset Res} {L : List Msg}, (∀ x ∈ cs, CompOK c l e gs x) → G = ownComps cs + F → Closed F →
    LocND G → .share c ∈ F → .loc e ∈ F →
    (∀ p ∈ gs, .addr p.1 ∈ F ∧ ∀ y, p.2.comm = some y → .comm y ∈ F) →
    ∃ L', onGridDestroyedAll g cs ⟨G, L⟩ =
      some (cs.map (Comp.without g), ⟨ownComps (cs.map (Comp.without g)) + F, L'⟩)
  | [], F, G, L, _, hG, _, _, _, _, _ => by
    subst hG; exact ⟨L, by simp [onGridDestroyedAll, ownComps]⟩
  | x :: cs, F, G, L, hok, hG, hC, hN, hs, he, hg => by
    have hx := hok x (by simp)
    have hok' : ∀ y ∈ cs, CompOK c l e gs y := fun y hy => hok y (by simp [hy])
    have hx' : CompOK c l e gs (x.without g) := hx.sub _
    obtain ⟨t, ht1, ht2⟩ := hx.loc
    have r : ∀ {a : Res} {A : Multiset Res}, a ∈ F → a ∈ A + F := fun h => Multiset.mem_add.2 (Or.inr h)
    have e1 : G = ownEntries (x.entries.filter fun l => l.key.touches g) +
        ((x.without g).own + (ownComps cs + F)) := by
      rw [hG]
      simp only [ownComps, List.map_cons, List.sum_cons]
      rw [own_without g x]
      abel
    have h1 := entries_destroy_eq (c := c) (grids := gs) (x.entries.filter fun l => l.key.touches g) (L := L)
      (fun y hy => hx.entries y (List.mem_of_mem_filter hy)) e1
      (Comp.closed_add hx' (comps_closed_add hok' hC he) (r he)) hN
      (Multiset.mem_add.2 (Or.inr (r hs)))
      (fun p hp => ⟨Multiset.mem_add.2 (Or.inr (r (hg p hp).1)),
        fun y hy => Multiset.mem_add.2 (Or.inr (r ((hg p hp).2 y hy)))⟩)
    have hN2 : LocND ((x.without g).own + (ownComps cs + F)) := by rw [e1] at hN; exact hN.right
    obtain ⟨L2, h2⟩ := onGridDestroyed_eq cs (F := (x.without g).own + F)
      (G := (x.without g).own + (ownComps cs + F))
      (L := L ++ (x.entries.filter fun l => l.key.touches g).map fun l => .object l.flagsLoc)
      hok' (by abel) (Comp.closed_add hx' hC he) hN2 (r hs) (r he)
      (fun p hp => ⟨r (hg p hp).1, fun y hy => r ((hg p hp).2 y hy)⟩)
    refine ⟨L2, ?_⟩
    have hmem : Res.lis e t ∈ G := by
      rw [hG]
      simp [ownComps, Comp.own, ht2, ofH]
    have hone : x.onGridDestroyed g ⟨G, L⟩ = some (x.without g, ⟨(x.without g).own + (ownComps cs + F),
        L ++ (x.entries.filter fun l => l.key.touches g).map fun l => .object l.flagsLoc⟩) := by
      unfold Comp.onGridDestroyed
      split
      · rename_i hh
        rw [ht2] at hh
        cases hh
      · rename_i h hh
        rw [ht2] at hh
        cases hh
        rw [if_pos hmem, h1]
        rfl
    have hr : ownComps (cs.map (Comp.without g)) + ((x.without g).own + F) =
        ownComps ((x :: cs).map (Comp.without g)) + F := by
      simp only [ownComps, List.map_cons, List.sum_cons]
      abel
    simp only [onGridDestroyedAll, Option.bind_eq_bind]
    rw [hone, Option.bind_some, h2, Option.bind_some, hr, List.map_cons]

theorem mem_fringe {gs : List (Nat × Grid)} {R F : Multiset Res} (p : Nat × Grid) (hp : p ∈ gs) :
    .addr p.1 ∈ R + (ownGrids gs + F) ∧ ∀ y, p.2.comm = some y → .comm y ∈ R + (ownGrids gs + F) := by
  obtain ⟨a, b⟩ := grids_there hp
  exact ⟨by simp [a], fun y hy => by simp [b y hy]⟩

theorem on_touches (k : Key) : k.touches k.on = true := by
  unfold Key.touches Key.on
  split <;> simp

theorem destroyGrid_ok {s : State} (hI : Inv s) {v g : Nat} (h : Holds s v fun _ => True) :
    ∃ s', destroyGrid v g s = some s' ∧ Inv s' := by
  obtain ⟨d, hd, -, c, n, l, e, f, hL⟩ := Holds.live hI h
  have hsp := hI.split hd
  obtain ⟨m1, m2, m3, m4⟩ := live_mem hL (F := rest s v)
  let cs := d.comps.map (Comp.without g)
  let keep := d.grids.filter fun p => !(p.2.gid == g)
  let gone := d.grids.filter fun p => p.2.gid == g
  have hC := hI.rest_closed v
  let B : Multiset Res := {.loc f} + ({.loc e} + ({.loc l} + ({.comm n} + {.share c})))
  have hBn : NoEntry B := (noEntry_loc _).add ((noEntry_loc _).add ((noEntry_loc _).add
    ((noEntry_comm _).add (noEntry_share _))))
  let F : Multiset Res := B + (ownGrids d.grids + rest s v)
  have e1 : s.mem.res = ownComps d.comps + F := by
    rw [hsp, hL.own_eq]
    simp only [F, B]
    abel
  have hFc : Closed F := hBn.closed.add ((noEntry_grids _).closed.add hC)
  obtain ⟨L1, h1⟩ := onGridDestroyed_eq (g := g) d.comps (L := s.mem.log) hL.comps e1 hFc hI.nd
    (by simp [F, B]) (by simp [F, B]) (fun p hp => mem_fringe p hp)
  have e2 : ownComps cs + F = ownGrids gone + (ownComps cs + (B + (ownGrids keep + rest s v))) := by
    simp only [F]
    rw [ownGrids_filter (fun p => p.2.gid == g) d.grids]
    simp only [gone, keep]
    abel
  obtain ⟨L2, h2, -⟩ := grids_destroy_eq (c := c) gone (L := L1)
    (fun p hp => hL.grids p (List.mem_of_mem_filter hp)) e2
  let d' : Domain := { d with comps := cs, grids := keep }
  have hL' : LiveOK d' c n l e f :=
    { ctx := hL.ctx, comm := hL.comm, loc := hL.loc, gridEvent := hL.gridEvent, compEvent := hL.compEvent
      grids := fun p hp => hL.grids p (List.mem_of_mem_filter hp)
      comps := by
        intro x hx
        obtain ⟨y, hy, rfl⟩ := List.mem_map.1 hx
        have hy' := hL.comps y hy
        refine ⟨hy'.ctx, hy'.dom, hy'.loc, hy'.event, ?_⟩
        intro z hz
        obtain ⟨hz1, hz2⟩ := List.mem_filter.1 hz
        refine (hy'.entries z hz1).mono fun p hp hpg => List.mem_filter.2 ⟨hp, ?_⟩
        by_contra hcon
        have hg : p.2.gid = g := by simpa using hcon
        rw [← hg, hpg, on_touches] at hz2
        cases hz2
      nodup := by
        have : (cs.map Comp.cid) = d.comps.map Comp.cid := by
          simp only [cs, List.map_map]
          rfl
        show (cs.map Comp.cid).Nodup
        rw [this]
        exact hL.nodup }
  have hown : ownComps cs + (B + (ownGrids keep + rest s v)) = d'.own + rest s v := by
    rw [hL'.own_eq]
    simp only [d', B]
    abel
  rw [hown] at h2
  have e3 : destroyGrid v g s = some (s.put v (some d') ⟨d'.own + rest s v, L2⟩) := by
    unfold destroyGrid
    rw [dom_eq, hd]
    simp only [Option.bind_eq_bind, Option.bind_some]
    have a1 : d.ctx.bind (fun c => some c) = some c := by rw [hL.ctx]; rfl
    rw [hL.ctx, Option.bind_some, hL.gridEvent, Option.bind_some, hL.comm]
    simp only [barrier]
    rw [use_some (by rw [hsp]; exact m1), Option.bind_some,
      show s.mem = ⟨s.mem.res, s.mem.log⟩ from rfl, hI.trigger_eq e hI.targets, Option.bind_some, h1,
      Option.bind_some]
    simp only
    rw [use_some (by simp [F, B]), Option.bind_some, use_some (by simp [F, B]), Option.bind_some, h2,
      Option.bind_some, use_some (live_mem hL').1, Option.bind_some]
    simp only [d', cs, keep, hL.ctx, hL.comm, hL.gridEvent]
  refine ⟨_, e3, hI.putLess hd rfl ?_ ?_⟩
  · rw [hsp]
    refine Multiset.add_le_add_right ?_
    rw [hL.own_eq, hL'.own_eq]
    have q1 : ownComps d'.comps ≤ ownComps d.comps := by
      simp only [d', cs]
      generalize d.comps = zs
      induction zs with
      | nil => exact le_refl _
      | cons z zs ih =>
        simp only [ownComps, List.map_cons, List.sum_cons] at ih ⊢
        refine add_le_add ?_ ih
        conv_rhs => rw [own_without g z]
        exact Multiset.le_add_left _ _
    have q2 : ownGrids d'.grids ≤ ownGrids d.grids := by
      simp only [d', keep]
      conv_rhs => rw [ownGrids_filter (fun p => p.2.gid == g) d.grids]
      exact Multiset.le_add_left _ _
    gcongr
  · intro x hx
    cases hx
    exact Or.inr ⟨_, _, _, _, _, hL'⟩

theorem createComp_ok {s : State} (hI : Inv s) {v x : Nat}
    (h : Holds s v fun d => ∀ c ∈ d.comps, c.cid ≠ x) : ∃ s', createComp v x s = some s' ∧ Inv s' := by
  obtain ⟨d, hd, hx, c, n, l, e, f, hL⟩ := Holds.live hI h
  have hsp := hI.split hd
  obtain ⟨m1, m2, m3, m4⟩ := live_mem hL (F := rest s v)
  let k := s.next
  let made : Comp := { cid := x, ctxRef := some c, domRef := l, loc := some k, gridHandle := some (e, k),
                       entries := [], event := some (k + 1) }
  let N : Multiset Res := {.loc k, .loc (k + 1), .lis e k}
  have hl := locND_add (k' := k + 2) (N := N) hI.nd hI.fresh (by
      intro j
      simp only [N, Multiset.insert_eq_cons, Multiset.count_cons, Multiset.count_singleton, Res.loc.injEq,
        reduceCtorEq, if_false]
      split <;> split <;> omega) (by
      intro j hj
      simp only [N, Multiset.insert_eq_cons, Multiset.mem_cons, Multiset.mem_singleton, Res.loc.injEq,
        reduceCtorEq, or_false] at hj
      omega) (by omega)
  let d' : Domain := { d with comps := d.comps ++ [made] }
  have hL' : LiveOK d' c n l e f :=
    { ctx := hL.ctx, comm := hL.comm, loc := hL.loc, gridEvent := hL.gridEvent, compEvent := hL.compEvent
      grids := hL.grids
      comps := by
        intro y hy
        rcases List.mem_append.1 hy with hy | hy
        · exact hL.comps y hy
        · simp only [List.mem_singleton] at hy
          subst hy
          exact ⟨rfl, rfl, ⟨k, rfl, rfl⟩, rfl, by simp [made]⟩
      nodup := by
        show ((d.comps ++ [made]).map Comp.cid).Nodup
        rw [List.map_append]
        refine List.nodup_append.2 ⟨hL.nodup, by simp, ?_⟩
        intro a ha b hb
        obtain ⟨y, hy, rfl⟩ := List.mem_map.1 ha
        have : b = x := by simpa [made] using hb
        rw [this]
        exact hx y hy }
  have hown : d'.own = N + d.own := by
    rw [hL.own_eq, hL'.own_eq]
    simp only [d', N, ownComps, List.map_append, List.sum_append, List.map_cons, List.map_nil, List.sum_cons,
      List.sum_nil, made, Comp.own, ofO, ofH, ownEntries, Multiset.insert_eq_cons, ← Multiset.singleton_add]
    abel
  have e1 : createComp v x s = some (({ s with next := k + 2 } : State).put v (some d') (s.mem.add N)) := by
    unfold createComp
    rw [dom_eq, hd]
    simp only [Option.bind_eq_bind, Option.bind_some, hL.ctx, hL.comm, hL.loc, hL.gridEvent, barrier]
    rw [use_some (by rw [hsp]; exact m1), Option.bind_some, use_some (by rw [hsp]; exact m2),
      Option.bind_some, use_some (by rw [hsp]; exact m4), Option.bind_some, Comp.destroy_moved,
      Option.bind_some, Comp.destroy_moved, Option.bind_some]
    simp only [d', made, k, N, hL.ctx, hL.comm, hL.loc, hL.gridEvent]
  refine ⟨_, e1, hI.put hd ?_ hl.1 hl.2 ?_⟩
  · simp only [Mem.add, ownVar]
    rw [hown, hsp]
    abel
  · intro y hy
    cases hy
    exact Or.inr ⟨_, _, _, _, _, hL'⟩

theorem destroyComp_ok {s : State} (hI : Inv s) {v x : Nat} (h : Holds s v fun _ => True) :
    ∃ s', destroyComp v x s = some s' ∧ Inv s' := by
  obtain ⟨d, hd, -, c, n, l, e, f, hL⟩ := Holds.live hI h
  have hsp := hI.split hd
  obtain ⟨m1, m2, m3, m4⟩ := live_mem hL (F := rest s v)
  let keep := d.comps.filter fun c => !(c.cid == x)
  let gone := d.comps.filter fun c => c.cid == x
  have hkeep : ∀ y ∈ keep, CompOK c l e d.grids y := fun y hy => hL.comps y (List.mem_of_mem_filter hy)
  have hgone : ∀ y ∈ gone, CompOK c l e d.grids y := fun y hy => hL.comps y (List.mem_of_mem_filter hy)
  let d' : Domain := { d with comps := keep }
  have hL' : LiveOK d' c n l e f :=
    { ctx := hL.ctx, comm := hL.comm, loc := hL.loc, gridEvent := hL.gridEvent, compEvent := hL.compEvent
      grids := hL.grids, comps := hkeep
      nodup := List.Nodup.sublist (List.Sublist.map _ List.filter_sublist) hL.nodup }
  have e1 : s.mem.res = ownComps gone + (d'.own + rest s v) := by
    rw [hsp, hL.own_eq, hL'.own_eq, ownComps_filter (fun c => c.cid == x) d.comps]
    simp only [d', gone, keep]
    abel
  have hC : Closed (d'.own + rest s v) := hL'.closed_add (hI.rest_closed v)
  obtain ⟨q1, q2, q3, q4⟩ := live_mem hL' (F := rest s v)
  have h1 := comps_destroy_eq (c := c) (e := e) (grids := d.grids) hL.loc hL.comm gone (L := s.mem.log)
    hgone e1 hC hI.nd q1 q2 q3 q4 (by
      intro p hp
      obtain ⟨a, b⟩ := grids_there hp
      rw [hL'.own_eq]
      exact ⟨by simp [d', a], fun y hy => by simp [d', b y hy]⟩)
  have e3 : destroyComp v x s = some (s.put v (some d')
      ⟨d'.own + rest s v, s.mem.log ++ gone.flatMap Comp.words⟩) := by
    unfold destroyComp
    rw [dom_eq, hd]
    simp only [Option.bind_eq_bind, Option.bind_some]
    rw [hL.comm]
    simp only [barrier]
    rw [use_some (by rw [hsp]; exact m1), Option.bind_some, show s.mem = ⟨s.mem.res, s.mem.log⟩ from rfl, h1,
      Option.bind_some, use_some q1, Option.bind_some]
    simp only [d', keep, hL.comm]
  refine ⟨_, e3, hI.putLess hd rfl ?_ ?_⟩
  · rw [e1]
    exact Multiset.le_add_left _ _
  · intro y hy
    cases hy
    exact Or.inr ⟨_, _, _, _, _, hL'⟩

/-- Changing the one component with ID `x`. -/
theorem comps_update {cs : List Comp} {x : Nat} (hn : (cs.map Comp.cid).Nodup) {comp : Comp}
    (hf : cs.find? (fun c => c.cid == x) = some comp) (g : Comp → Comp) :
    comp ∈ cs ∧ comp.cid = x ∧ ∃ l1 l2, cs = l1 ++ comp :: l2 ∧
      (cs.map fun c => if c.cid == x then g c else c) = l1 ++ g comp :: l2 := by
  obtain ⟨hc, l1, l2, hl, -⟩ := List.find?_eq_some_iff_append.1 hf
  have hcx : comp.cid = x := by simpa using hc
  rw [hl] at hn
  simp only [List.map_append, List.map_cons] at hn
  obtain ⟨n1, n2, n3⟩ := List.nodup_append.1 hn
  have n4 := List.nodup_cons.1 n2
  refine ⟨by simp [hl], hcx, l1, l2, hl, ?_⟩
  have same : ∀ l : List Comp, (∀ c ∈ l, c.cid ≠ x) →
      (l.map fun c => if c.cid == x then g c else c) = l := by
    intro l hl
    conv_rhs => rw [← List.map_id l]
    refine List.map_congr_left fun c hc => ?_
    have : (c.cid == x) = false := by simpa using hl c hc
    simp [this]
  rw [hl, List.map_append, List.map_cons, same l1 (fun c hc hcc => n3 c.cid (List.mem_map_of_mem hc) comp.cid
    (by simp) (by rw [hcc, hcx])), same l2 (fun c hc hcc => n4.1 (by
      rw [hcx, ← hcc]; exact List.mem_map_of_mem hc))]
  simp [hcx]

theorem ownComps_mid (l1 l2 : List Comp) (x : Comp) :
    ownComps (l1 ++ x :: l2) = x.own + (ownComps l1 + ownComps l2) := by
  simp only [ownComps, List.map_append, List.map_cons, List.sum_append, List.sum_cons]
  abel

theorem find_comp {cs : List Comp} {x : Nat} (h : ∃ c ∈ cs, c.cid = x) :
    ∃ comp, cs.find? (fun c => c.cid == x) = some comp := by
  obtain ⟨c, hc, hx⟩ := h
  cases hf : cs.find? (fun c => c.cid == x) with
  | none => exact absurd (by simpa using hx) (List.find?_eq_none.1 hf c hc)
  | some y => exact ⟨y, rfl⟩

theorem map_cid {cs : List Comp} {x : Nat} {g : Comp → Comp} (hg : ∀ c, (g c).cid = c.cid) :
    ((cs.map fun c => if c.cid == x then g c else c).map Comp.cid) = cs.map Comp.cid := by
  rw [List.map_map]
  refine List.map_congr_left fun c _ => ?_
  simp only [Function.comp]
  split
  · exact hg c
  · rfl

theorem locND_coe {l : List Nat} (h : l.Nodup) : LocND ((l.map Res.loc : List Res) : Multiset Res) := by
  intro n
  have : (l.map Res.loc).Nodup := h.map (fun a b hab => by injection hab)
  rw [Multiset.coe_count]
  exact List.nodup_iff_count_le_one.1 this _

theorem createObject_ok {s : State} (hI : Inv s) {v x k : Nat} {key : Key}
    (h : Holds s v fun d => (∃ c ∈ d.comps, c.cid = x ∧ ∀ l ∈ c.entries, l.key ≠ key) ∧
      ∃ p ∈ d.grids, p.2.gid = key.on) :
    ∃ s', createObject v x key k s = some s' ∧ Inv s' := by
  obtain ⟨d, hd, ⟨hx, hgr⟩, c, n, l, e, f, hL⟩ := Holds.live hI h
  have hsp := hI.split hd
  obtain ⟨m1, m2, m3, m4⟩ := live_mem hL (F := rest s v)
  obtain ⟨comp, hf⟩ := find_comp (cs := d.comps) (x := x) (by
    obtain ⟨y, hy, hyx, -⟩ := hx; exact ⟨y, hy, hyx⟩)
  obtain ⟨p, hp⟩ : ∃ p, d.grids.find? (fun p => p.2.gid == key.on) = some p := by
    obtain ⟨q, hq, hqk⟩ := hgr
    cases hf : d.grids.find? (fun p => p.2.gid == key.on) with
    | none => exact absurd (by simpa using hqk) (List.find?_eq_none.1 hf q hq)
    | some y => exact ⟨y, rfl⟩
  have hpm : p ∈ d.grids := List.mem_of_find?_eq_some hp
  have hpg : p.2.gid = key.on := by simpa using List.find?_some hp
  obtain ⟨gc, hgc⟩ := Option.isSome_iff_exists.1 (hL.grids p hpm).comm
  let j := s.next
  let events := List.range' (j + 2) k
  let made : Object := { ctx := some c, grid := p.1, comm := gc, loc := some j, events := events }
  let entry : Entry := { key := key, obj := made, flagsLoc := j + 1, handles := events.map fun e => (e, j + 1) }
  let g : Comp → Comp := fun c => { c with entries := c.entries ++ [entry] }
  obtain ⟨hcm, hcx, l1, l2, hl1, hl2⟩ := comps_update hL.nodup hf g
  have hco := hL.comps comp hcm
  let N : Multiset Res := .share c ::ₘ .loc j ::ₘ .loc (j + 1) ::ₘ
    ((events.map .loc : List Res) + (events.map fun e => .lis e (j + 1) : List Res))
  have hev : ∀ a ∈ events, j + 2 ≤ a ∧ a < j + 2 + k := by
    intro a ha
    simpa [events, List.mem_range'_1] using ha
  have hNn : N = entry.own := by
    simp only [N, Entry.own, Object.own, entry, made, ofO, List.map_map]
    rw [← Multiset.singleton_add, ← Multiset.singleton_add, ← Multiset.singleton_add]
    have : (events.map fun e => Res.lis e (j + 1)) =
        events.map ((fun h : Nat × Nat => Res.lis h.1 h.2) ∘ fun e => (e, j + 1)) := rfl
    rw [this]
    abel
  have hl := locND_add (k' := j + 2 + k) (N := N) hI.nd hI.fresh (by
      intro a
      have q1 : Multiset.count (Res.loc a) ((events.map Res.loc : List Res) : Multiset Res) ≤ 1 :=
        locND_coe (List.nodup_range' ..) a
      have q2 : Multiset.count (Res.loc a)
          ((events.map fun e => Res.lis e (j + 1) : List Res) : Multiset Res) = 0 :=
        Multiset.count_eq_zero_of_notMem (by simp)
      have q3 : a < j + 2 → Multiset.count (Res.loc a) ((events.map Res.loc : List Res) : Multiset Res) = 0 := by
        intro ha
        refine Multiset.count_eq_zero_of_notMem ?_
        intro hm
        obtain ⟨b, hb, hba⟩ := List.mem_map.1 (Multiset.mem_coe.1 hm)
        injection hba with hba
        have := (hev b hb).1
        omega
      simp only [N, Multiset.count_cons, Multiset.count_add, q2, Res.loc.injEq, reduceCtorEq, if_false]
      by_cases ha : a < j + 2
      · rw [q3 ha]
        split <;> split <;> omega
      · split <;> split <;> omega) (by
      intro a ha
      simp only [N, Multiset.mem_cons, Multiset.mem_add, Multiset.mem_coe, List.mem_map, Res.loc.injEq,
        reduceCtorEq, false_or, and_false, exists_false, or_false] at ha
      rcases ha with ha | ha | ⟨b, hb, hba⟩
      · omega
      · omega
      · have := hev b hb
        omega) (by omega)
  let d' : Domain := { d with comps := d.comps.map fun c => if c.cid == x then g c else c }
  have hentry : EntryOK c d.grids entry :=
    ⟨rfl, rfl, by
      intro h hh
      obtain ⟨a, ha, rfl⟩ := List.mem_map.1 hh
      exact ha, by
      intro h hh
      obtain ⟨a, ha, rfl⟩ := List.mem_map.1 hh
      rfl, ⟨p, hpm, hpg, rfl, hgc⟩⟩
  have hL' : LiveOK d' c n l e f :=
    { ctx := hL.ctx, comm := hL.comm, loc := hL.loc, gridEvent := hL.gridEvent, compEvent := hL.compEvent
      grids := hL.grids
      comps := by
        intro y hy
        obtain ⟨z, hz, rfl⟩ := List.mem_map.1 hy
        have hz' := hL.comps z hz
        split
        · refine ⟨hz'.ctx, hz'.dom, hz'.loc, hz'.event, ?_⟩
          intro w hw
          rcases List.mem_append.1 hw with hw | hw
          · exact hz'.entries w hw
          · rw [List.mem_singleton.1 hw]
            exact hentry
        · exact hz'
      nodup := by
        show ((d.comps.map fun c => if c.cid == x then g c else c).map Comp.cid).Nodup
        rw [map_cid (g := g) (fun _ => rfl)]
        exact hL.nodup }
  have hown : d'.own = N + d.own := by
    rw [hL.own_eq, hL'.own_eq]
    simp only [d']
    rw [hl2, hl1, ownComps_mid, ownComps_mid, hNn]
    simp only [g, Comp.own, ownEntries, List.map_append, List.sum_append, List.map_cons, List.map_nil,
      List.sum_cons, List.sum_nil]
    abel
  have hgcm : .comm gc ∈ s.mem.res := by
    rw [hsp, hL.own_eq]
    have := (grids_there hpm).2 gc hgc
    simp [this]
  have e1 : createObject v x key k s =
      some (({ s with next := j + 2 + k } : State).put v (some d') (s.mem.add N)) := by
    unfold createObject
    rw [dom_eq, hd]
    simp only [Option.bind_eq_bind, Option.bind_some]
    rw [hL.ctx, Option.bind_some, hf, Option.bind_some]
    simp only [Comp.domainBarrier, Option.bind_eq_bind, hco.dom]
    rw [use_some (by rw [hsp]; exact m3), Option.bind_some, if_pos hL.loc, hL.comm]
    simp only [barrier]
    rw [use_some (by rw [hsp]; exact m1), Option.bind_some, use_some (by rw [hsp]; exact m2),
      Option.bind_some, hp, Option.bind_some, hgc, Option.bind_some, use_some hgcm, Option.bind_some,
      Object.destroy_moved, Option.bind_some, Object.destroy_moved, Option.bind_some]
    simp only [d', g, entry, made, events, j, hL.ctx, hL.comm, N]
  refine ⟨_, e1, hI.put hd ?_ hl.1 hl.2 ?_⟩
  · simp only [Mem.add, ownVar]
    rw [hown, hsp]
    abel
  · intro y hy
    cases hy
    exact Or.inr ⟨_, _, _, _, _, hL'⟩

theorem destroyObject_ok {s : State} (hI : Inv s) {v x : Nat} {key : Key}
    (h : Holds s v fun d => ∃ c ∈ d.comps, c.cid = x ∧ ∃ l ∈ c.entries, l.key = key) :
    ∃ s', destroyObject v x key s = some s' ∧ Inv s' := by
  obtain ⟨d, hd, hx, c, n, l, e, f, hL⟩ := Holds.live hI h
  have hsp := hI.split hd
  obtain ⟨m1, m2, m3, m4⟩ := live_mem hL (F := rest s v)
  obtain ⟨comp, hf⟩ := find_comp (cs := d.comps) (x := x) (by
    obtain ⟨y, hy, hyx, -⟩ := hx; exact ⟨y, hy, hyx⟩)
  let g : Comp → Comp := fun c => { c with entries := c.entries.filter fun l => !(l.key == key) }
  obtain ⟨hcm, hcx, l1, l2, hl1, hl2⟩ := comps_update hL.nodup hf g
  have hco := hL.comps comp hcm
  let gone := comp.entries.filter fun l => l.key == key
  let d' : Domain := { d with comps := d.comps.map fun c => if c.cid == x then g c else c }
  have hL' : LiveOK d' c n l e f :=
    { ctx := hL.ctx, comm := hL.comm, loc := hL.loc, gridEvent := hL.gridEvent, compEvent := hL.compEvent
      grids := hL.grids
      comps := by
        intro y hy
        obtain ⟨z, hz, rfl⟩ := List.mem_map.1 hy
        have hz' := hL.comps z hz
        split
        · exact hz'.sub _
        · exact hz'
      nodup := by
        show ((d.comps.map fun c => if c.cid == x then g c else c).map Comp.cid).Nodup
        rw [map_cid (g := g) (fun _ => rfl)]
        exact hL.nodup }
  have e1 : s.mem.res = ownEntries gone + (d'.own + rest s v) := by
    rw [hsp, hL.own_eq, hL'.own_eq]
    simp only [d']
    rw [hl2, hl1, ownComps_mid, ownComps_mid]
    simp only [g, Comp.own, gone]
    rw [ownEntries_filter (fun l => l.key == key) comp.entries]
    abel
  obtain ⟨q1, q2, q3, q4⟩ := live_mem hL' (F := rest s v)
  have h1 := entries_destroy_eq (c := c) (grids := d.grids) gone (L := s.mem.log)
    (fun y hy => hco.entries y (List.mem_of_mem_filter hy)) e1 (hL'.closed_add (hI.rest_closed v)) hI.nd q2 (by
      intro p hp
      obtain ⟨a, b⟩ := grids_there hp
      rw [hL'.own_eq]
      exact ⟨by simp [d', a], fun y hy => by simp [d', b y hy]⟩)
  have e3 : destroyObject v x key s = some (s.put v (some d')
      ⟨d'.own + rest s v, s.mem.log ++ gone.map fun l => .object l.flagsLoc⟩) := by
    unfold destroyObject
    rw [dom_eq, hd]
    simp only [Option.bind_eq_bind, Option.bind_some]
    rw [hf, Option.bind_some]
    simp only [Comp.domainBarrier, Option.bind_eq_bind, hco.dom]
    rw [use_some (by rw [hsp]; exact m3), Option.bind_some, if_pos hL.loc, hL.comm]
    simp only [barrier]
    rw [use_some (by rw [hsp]; exact m1), Option.bind_some, show s.mem = ⟨s.mem.res, s.mem.log⟩ from rfl, h1,
      Option.bind_some, use_some q3, Option.bind_some, if_pos hL.loc, use_some q1, Option.bind_some]
    simp only [d', g, hL.comm]
  refine ⟨_, e3, hI.putLess hd rfl ?_ ?_⟩
  · rw [e1]
    exact Multiset.le_add_left _ _
  · intro y hy
    cases hy
    exact Or.inr ⟨_, _, _, _, _, hL'⟩

theorem moveNew_ok {s : State} (hI : Inv s) {v : Nat} (h : Holds s v fun _ => True) :
    ∃ s', moveNew v s = some s' ∧ Inv s' := by
  obtain ⟨d, hd, -, c, n, l, e, f, hL⟩ := Holds.live hI h
  have e1 : moveNew v s = some { s with vars := s.vars.set v (some Domain.movedFrom) ++ [some d] } := by
    unfold moveNew
    rw [dom_eq, hd]
    simp only [Option.bind_eq_bind, Option.bind_some, hL.loc, hL.gridEvent, hL.compEvent]
  refine ⟨_, e1, ?_⟩
  exact
    { res := by
        show s.mem.res = _
        rw [hI.split hd]
        simp only [ownVars_append, rest]
        rw [ownVars_set s.vars v (some Domain.movedFrom) (var_lt hd)]
        simp only [ownVar, movedFrom_own]
        simp only [ownVars, List.map_cons, List.map_nil, List.sum_cons, List.sum_nil, ownVar]
        abel
      nd := hI.nd
      fresh := hI.fresh
      ok := by
        intro x hx
        rcases List.mem_append.1 hx with hx | hx
        · rcases mem_set hx with hx | hx
          · exact hI.ok x hx
          · cases hx; exact Or.inl rfl
        · simp only [List.mem_singleton, Option.some.injEq] at hx
          exact Or.inr ⟨_, _, _, _, _, hx ▸ hL⟩ }

theorem var_set_ne {vs : List (Option Domain)} {v w : Nat} (h : v ≠ w) (x : Option Domain) :
    (vs.set w x)[v]? = vs[v]? := List.getElem?_set_ne (Ne.symm h)

theorem moveTo_ok {s : State} (hI : Inv s) {v w : Nat} (hvw : v ≠ w) (h : Holds s v fun _ => True)
    (hw : (var s w).isSome) (hc : ∀ d, var s w = some d → d.comps = []) :
    ∃ s', moveTo v w s = some s' ∧ Inv s' := by
  obtain ⟨d, hd, -, c, n, l, e, f, hL⟩ := Holds.live hI h
  obtain ⟨t, ht⟩ := Option.isSome_iff_exists.1 hw
  have hsp := hI.split ht
  have hC := hI.rest_closed w
  have hN : LocND (t.own + rest s w) := hsp ▸ hI.nd
  obtain ⟨L', ha⟩ : ∃ L', t.assign d s.mem = some ⟨rest s w, L'⟩ := by
    have hs1 : d.loc.isSome := by rw [hL.loc]; rfl
    have hs2 : d.gridEvent.isSome := by rw [hL.gridEvent]; rfl
    have hs3 : d.compEvent.isSome := by rw [hL.compEvent]; rfl
    rcases hI.ok t (mem_vars ht) with rfl | ⟨c', n', l', e', f', hT⟩
    · refine ⟨s.mem.log, ?_⟩
      rw [movedFrom_assign hs1 hs2 hs3]
      have : s.mem.res = rest s w := by rw [hsp, movedFrom_own]; simp
      rw [← this]
    · exact hT.assign_eq (L := s.mem.log) hs1 hs2 hs3 (hc t ht) hsp hC hI.nd
  have e1 : moveTo v w s = some { s with
      mem := ⟨rest s w, L'⟩, vars := (s.vars.set w (some d)).set v (some Domain.movedFrom) } := by
    unfold moveTo
    rw [dom_eq, hd, dom_eq, ht]
    simp only [Option.bind_eq_bind, Option.bind_some, ha]
  have hle : rest s w ≤ s.mem.res := by rw [hsp]; exact Multiset.le_add_left _ _
  refine ⟨_, e1, ?_⟩
  exact
    { res := by
        have h1 : ownVars ((s.vars.set w (some d)).set v (some Domain.movedFrom)) =
            ownVars ((s.vars.set w (some d)).set v none) := by
          rw [ownVars_set _ _ _ (by simpa using var_lt hd)]
          simp [ownVar, movedFrom_own]
        have h2 : (s.vars.set w (some d)).set v none = (s.vars.set v none).set w (some d) :=
          List.set_comm _ _ (Ne.symm hvw)
        have h3 : s.vars.set w none = (s.vars.set w none).set v (some d) := by
          have hv := var_some hd
          rw [← var_set_ne hvw none] at hv
          obtain ⟨hl, hv⟩ := List.getElem?_eq_some_iff.1 hv
          rw [← hv]
          simp
        have h4 : (s.vars.set w none).set v none = (s.vars.set v none).set w none :=
          List.set_comm _ _ (Ne.symm hvw)
        show ownUser s.user + ownVars (s.vars.set w none) = _
        show _ = ownUser s.user + ownVars ((s.vars.set w (some d)).set v (some Domain.movedFrom))
        rw [h1, h2, ownVars_set (s.vars.set v none) w (some d) (by simpa using var_lt ht), ← h4]
        conv_lhs => rw [h3, ownVars_set (s.vars.set w none) v (some d) (by simpa using var_lt hd)]
      nd := hI.nd.mono hle
      fresh := fun n hn => hI.fresh n (Multiset.mem_of_le hle hn)
      ok := by
        intro x hx
        rcases mem_set hx with hx | hx
        · rcases mem_set hx with hx | hx
          · exact hI.ok x hx
          · cases hx; exact Or.inr ⟨_, _, _, _, _, hL⟩
        · cases hx; exact Or.inl rfl }

theorem destroyDomain_eq {s : State} (hI : Inv s) {v : Nat} {d : Domain} (h : var s v = some d) :
    ∃ L', d.destroy v s.mem = some ⟨rest s v, L'⟩ ∧ (d ≠ Domain.movedFrom →
      L' = s.mem.log ++ farewell v d (decide (∀ c, d.ctx = some c → .share c ∈ rest s v))) := by
  have hsp := hI.split h
  rcases hI.ok d (mem_vars h) with rfl | ⟨c, n, l, e, f, hL⟩
  · refine ⟨s.mem.log, ?_, fun h => absurd rfl h⟩
    rw [movedFrom_destroy]
    have : s.mem.res = rest s v := by rw [hsp, movedFrom_own]; simp
    rw [← this]
  · refine ⟨_, hL.destroy_eq (L := s.mem.log) hsp (hI.rest_closed v) hI.nd, fun _ => ?_⟩
    simp only [farewell, hL.ctx, lastWord]
    by_cases hm : .share c ∈ rest s v
    · simp [hm]
      rfl
    · simp [hm]
      rfl

theorem destroyDomain_ok {s : State} (hI : Inv s) {v : Nat} (h : (var s v).isSome) :
    ∃ s', destroyDomain v s = some s' ∧ Inv s' := by
  obtain ⟨d, hd⟩ := Option.isSome_iff_exists.1 h
  obtain ⟨L', h1, -⟩ := destroyDomain_eq hI hd
  refine ⟨s.put v none ⟨rest s v, L'⟩, ?_, hI.putLess hd (by simp [ownVar]) ?_ (fun x hx => by cases hx)⟩
  · unfold destroyDomain
    rw [dom_eq, hd]
    simp only [Option.bind_eq_bind, Option.bind_some, h1]
  · rw [hI.split hd]
    exact Multiset.le_add_left _ _

theorem moveTo_none {s : State} (hI : Inv s) {v w : Nat} {t : Domain} (ht : var s w = some t)
    (hc : t.comps ≠ []) : moveTo v w s = none := by
  unfold moveTo
  simp only [dom_eq, ht, Option.bind_eq_bind, Option.bind_some]
  cases var s v with
  | none => rfl
  | some d =>
    rw [Option.bind_some]
    rcases hI.ok t (mem_vars ht) with rfl | ⟨c, n, l, e, f, hT⟩
    · exact absurd rfl hc
    · rw [hT.assign_none hc hI.nd]
      rfl

theorem step_ok {s : State} (hI : Inv s) {op : Op} (ha : Allowed s op) (hc : Careful s op) :
    ∃ s', step s op = some s' ∧ Inv s' := by
  cases op with
  | newContext => exact ⟨_, rfl, newContext_inv hI⟩
  | copyPointer c => exact copyPointer_ok hI ha
  | releasePointer c => exact releasePointer_ok hI ha
  | createDomain c => exact createDomain_ok hI ha
  | createGrid v g => exact createGrid_ok hI ha
  | destroyGrid v g => exact destroyGrid_ok hI ha
  | createComp v x => exact createComp_ok hI ha
  | destroyComp v x =>
    obtain ⟨d, h1, h2, -⟩ := ha
    exact destroyComp_ok hI ⟨d, h1, h2, trivial⟩
  | createObject v x key k => exact createObject_ok hI ha
  | destroyObject v x key => exact destroyObject_ok hI ha
  | moveNew v => exact moveNew_ok hI ha
  | moveTo v w => exact moveTo_ok hI ha.1 ha.2.1 ha.2.2 hc
  | destroyDomain v => exact destroyDomain_ok hI ha

theorem init_inv : Inv State.init where
  res := by simp [State.init, ownUser, ownVars]
  nd := by intro n; simp [State.init]
  fresh := by intro n h; simp [State.init] at h
  ok := by intro d h; simp [State.init] at h

theorem reached_inv {s : State} (h : Reached s) : Inv s := by
  induction h with
  | init => exact init_inv
  | @step s s' op _ ha hs ih =>
    have hc : Careful s op := by
      cases op with
      | moveTo v w =>
        intro d hd
        by_contra hne
        have := moveTo_none (v := v) ih hd hne
        simp only [step] at hs
        rw [this] at hs
        cases hs
      | _ => trivial
    obtain ⟨s2, h2, hI⟩ := step_ok ih ha hc
    rw [h2] at hs
    cases hs
    exact hI

/-! ### Who keeps a context -/

theorem ownEntries_share {c c' : Nat} {gs : List (Nat × Grid)} {ls : List Entry}
    (h : ∀ l ∈ ls, EntryOK c gs l) (hs : .share c' ∈ ownEntries ls) : c' = c := by
  induction ls with
  | nil => simp [ownEntries] at hs
  | cons l ls ih =>
    simp only [ownEntries, List.map_cons, List.sum_cons, Multiset.mem_add] at hs
    rcases hs with hs | hs
    · obtain ⟨n, hn⟩ := Option.isSome_iff_exists.1 (h l (by simp)).loc
      simpa [Entry.own, Object.own, (h l (by simp)).ctx, hn, ofO] using hs
    · exact ih (fun x hx => h x (by simp [hx])) hs

theorem ownComps_share {c l e c' : Nat} {gs : List (Nat × Grid)} {cs : List Comp}
    (h : ∀ x ∈ cs, CompOK c l e gs x) (hs : .share c' ∈ ownComps cs) : c' = c := by
  induction cs with
  | nil => simp [ownComps] at hs
  | cons x cs ih =>
    simp only [ownComps, List.map_cons, List.sum_cons, Multiset.mem_add] at hs
    rcases hs with hs | hs
    · have hx := h x (by simp)
      obtain ⟨t, ht1, ht2⟩ := hx.loc
      obtain ⟨u, hu⟩ := Option.isSome_iff_exists.1 hx.event
      simp only [Comp.own, ht1, ht2, hu, ofO, ofH, Multiset.mem_add, Multiset.mem_singleton, reduceCtorEq,
        false_or, or_false] at hs
      exact ownEntries_share hx.entries hs
    · exact ih (fun y hy => h y (by simp [hy])) hs

theorem ownGrids_share {c c' : Nat} {gs : List (Nat × Grid)} (h : ∀ p ∈ gs, GridOK c p.2)
    (hs : .share c' ∈ ownGrids gs) : c' = c := by
  induction gs with
  | nil => simp [ownGrids] at hs
  | cons p gs ih =>
    simp only [ownGrids, List.map_cons, List.sum_cons, Multiset.mem_add] at hs
    rcases hs with hs | hs
    · have hp := h p (by simp)
      obtain ⟨a, ha⟩ := Option.isSome_iff_exists.1 hp.comm
      obtain ⟨b, hb⟩ := Option.isSome_iff_exists.1 hp.loc
      simpa [ownGrid, Grid.own, hp.ctx, ha, hb, ofO] using hs
    · exact ih (fun y hy => h y (by simp [hy])) hs

theorem own_share {d : Domain} (h : DomOK d) (c : Nat) : .share c ∈ d.own ↔ d.ctx = some c := by
  rcases h with rfl | ⟨c', n, l, e, f, h⟩
  · rw [movedFrom_own]
    simp [Domain.movedFrom]
  · rw [h.own_eq, h.ctx]
    constructor
    · intro hs
      simp only [Multiset.mem_add, Multiset.mem_singleton, reduceCtorEq, false_or, or_false,
        Res.share.injEq] at hs
      rcases hs with hs | hs | hs
      · rw [ownComps_share h.comps hs]
      · rw [ownGrids_share h.grids hs]
      · rw [hs]
    · intro hs
      cases hs
      simp

theorem mem_ownVars {vs : List (Option Domain)} {r : Res} :
    r ∈ ownVars vs ↔ ∃ d, some d ∈ vs ∧ r ∈ d.own := by
  induction vs with
  | nil => simp [ownVars]
  | cons x vs ih =>
    have : ownVars (x :: vs) = ownVar x + ownVars vs := rfl
    rw [this, Multiset.mem_add, ih]
    cases x with
    | none => simp [ownVar]
    | some d =>
      simp only [ownVar, List.mem_cons, Option.some.injEq]
      constructor
      · rintro (h | ⟨y, hy, h⟩)
        · exact ⟨d, Or.inl rfl, h⟩
        · exact ⟨y, Or.inr hy, h⟩
      · rintro ⟨y, rfl | hy, h⟩
        · exact Or.inl h
        · exact Or.inr ⟨y, hy, h⟩

theorem mem_vars_iff {s : State} {d : Domain} : some d ∈ s.vars ↔ ∃ v, var s v = some d := by
  constructor
  · intro h
    obtain ⟨v, hv⟩ := List.mem_iff_getElem?.1 h
    exact ⟨v, by unfold var; rw [hv]; rfl⟩
  · rintro ⟨v, hv⟩
    exact mem_vars hv

theorem rest_share {s : State} (hI : Inv s) {v c : Nat} :
    .share c ∈ rest s v ↔ c ∈ s.user ∨ ∃ w d, w ≠ v ∧ var s w = some d ∧ d.ctx = some c := by
  unfold rest
  rw [Multiset.mem_add, mem_ownVars]
  refine or_congr (by simp [ownUser]) ?_
  constructor
  · rintro ⟨d, hd, hs⟩
    obtain ⟨w, hw⟩ := List.mem_iff_getElem?.1 hd
    have hwv : w ≠ v := by
      rintro rfl
      rw [List.getElem?_set] at hw
      split at hw
      · split at hw <;> cases hw
      · exact absurd rfl ‹_›
    rw [List.getElem?_set_ne (Ne.symm hwv)] at hw
    have hv : var s w = some d := by unfold var; rw [hw]; rfl
    exact ⟨w, d, hwv, hv, (own_share (hI.ok d (mem_vars hv)) c).1 hs⟩
  · rintro ⟨w, d, hwv, hv, hs⟩
    refine ⟨d, ?_, (own_share (hI.ok d (mem_vars hv)) c).2 hs⟩
    refine List.mem_iff_getElem?.2 ⟨w, ?_⟩
    rw [List.getElem?_set_ne (Ne.symm hwv)]
    exact var_some hv

/-! ## The theorems -/

/-- Every allowed step of every program is defined: no destructor uses, frees or dereferences anything that does
not exist any more. -/
def C130_statement : Prop := ∀ s op, Reached s → Allowed s op → (step s op).isSome

/-- So it is for all programs that do not assign to a domain with components. -/
theorem C130_partial {s : State} {op : Op} (h : Reached s) (ha : Allowed s op) (hc : Careful s op) :
    (step s op).isSome := by
  obtain ⟨s', h1, -⟩ := step_ok (reached_inv h) ha hc
  rw [h1]
  rfl

/-- Assignment is defined exactly when the domain assigned to has no components. -/
theorem C130_assign {s : State} {v w : Nat} {t : Domain} (h : Reached s) (ha : Allowed s (.moveTo v w))
    (ht : var s w = some t) : (step s (.moveTo v w)).isSome ↔ t.comps = [] := by
  constructor
  · intro hs
    by_contra hc
    simp only [step] at hs
    rw [moveTo_none (reached_inv h) ht hc] at hs
    cases hs
  · intro hc
    refine C130_partial h ha ?_
    intro d hd
    rw [ht] at hd
    cases hd
    exact hc

/-- A domain may be destroyed at any time, also before the program gives up its own pointer to the context or
after, and writes the messages of its parts in the order from the outside in. -/
theorem C130_order {s : State} {v c : Nat} {d : Domain} (h : Reached s) (hv : var s v = some d)
    (hc : d.ctx = some c) :
    ∃ s' used, step s (.destroyDomain v) = some s' ∧ s'.mem.log = s.mem.log ++ farewell v d used ∧
      (used = true ↔ c ∈ s.user ∨ ∃ w d', w ≠ v ∧ var s w = some d' ∧ d'.ctx = some c) := by
  have hI := reached_inv h
  obtain ⟨L', h1, h2⟩ := destroyDomain_eq hI hv
  refine ⟨s.put v none ⟨rest s v, L'⟩, _, ?_, h2 ?_, ?_⟩
  · show destroyDomain v s = _
    unfold destroyDomain
    rw [dom_eq, hv]
    simp only [Option.bind_eq_bind, Option.bind_some, h1]
  · rintro rfl
    cases hc
  · rw [← rest_share hI]
    simp [hc]

/-- A context exists exactly while the program has a pointer to it or a domain with it. -/
theorem C130_context {s : State} (h : Reached s) (c : Nat) :
    .share c ∈ s.mem.res ↔ c ∈ s.user ∨ ∃ v d, var s v = some d ∧ d.ctx = some c := by
  have hI := reached_inv h
  rw [hI.res, Multiset.mem_add, mem_ownVars]
  refine or_congr (by simp [ownUser]) ?_
  constructor
  · rintro ⟨d, hd, hs⟩
    obtain ⟨v, hv⟩ := mem_vars_iff.1 hd
    exact ⟨v, d, hv, (own_share (hI.ok d hd) c).1 hs⟩
  · rintro ⟨v, d, hv, hs⟩
    exact ⟨d, mem_vars hv, (own_share (hI.ok d (mem_vars hv)) c).2 hs⟩

/-- When all domains are gone and the program has no pointers left, nothing is left: no communicator, no location,
no grid, no entry of an event, no context. -/
theorem C130_nothing_left {s : State} (h : Reached s) (hv : ∀ v, var s v = none ∨ var s v = some Domain.movedFrom)
    (hu : s.user = []) : s.mem.res = 0 := by
  have hI := reached_inv h
  rw [hI.res, hu]
  refine Multiset.eq_zero_of_forall_notMem fun r hr => ?_
  rw [Multiset.mem_add, mem_ownVars] at hr
  rcases hr with hr | ⟨d, hd, hr⟩
  · simp [ownUser] at hr
  · obtain ⟨v, hvd⟩ := mem_vars_iff.1 hd
    rcases hv v with h0 | h0
    · rw [h0] at hvd; cases hvd
    · rw [h0] at hvd
      cases hvd
      rw [movedFrom_own] at hr
      simp at hr

/-! ## Programs -/

instance (s : State) (v : Nat) (P : Domain → Prop) [DecidablePred P] : Decidable (Holds s v P) :=
  match h : var s v with
  | none => .isFalse (by rintro ⟨d, hd, -⟩; rw [h] at hd; cases hd)
  | some d =>
    if hd : d ≠ Domain.movedFrom ∧ P d then .isTrue ⟨d, h, hd⟩
    else .isFalse (by rintro ⟨x, hx, hp⟩; rw [h] at hx; cases hx; exact hd hp)

instance (s : State) (op : Op) : Decidable (Allowed s op) := by
  cases op <;> unfold Allowed <;> infer_instance

/-- Runs a program, checking that every step is allowed. -/
def program : List Op → State → Option State
  | [], s => some s
  | op :: l, s => if Allowed s op then (step s op).bind (program l) else none

theorem program_reached {l : List Op} : ∀ {s s' : State}, Reached s → program l s = some s' → Reached s' := by
  induction l with
  | nil => intro s s' h hs; cases hs; exact h
  | cons op l ih =>
    intro s s' h hs
    unfold program at hs
    split at hs
    · cases h1 : step s op with
      | none => rw [h1] at hs; cases hs
      | some s1 =>
        rw [h1] at hs
        exact ih (h.step ‹_› h1) hs
    · cases hs

/-- Two domains, the first with a component; then `second domain` is moved onto it. -/
def badProgram : List Op := [.newContext, .createDomain 0, .createComp 0 1, .createDomain 0]

theorem C130_false : ¬ C130_statement := by
  intro hall
  cases hp : program badProgram State.init with
  | none =>
    have : (program badProgram State.init).isSome = true := by decide +kernel
    rw [hp] at this
    cases this
  | some s =>
    have hr := program_reached .init hp
    have h1 : (program badProgram State.init).all (fun s => decide (Allowed s (.moveTo 1 0))) = true := by
      decide +kernel
    have h2 : (program badProgram State.init).all (fun s => (step s (.moveTo 1 0)).isNone) = true := by
      decide +kernel
    rw [hp] at h1 h2
    have h3 := hall s _ hr (of_decide_eq_true h1)
    rw [Option.isNone_iff_eq_none.1 h2] at h3
    cases h3

def exProgram : List Op :=
  [.newContext, .createDomain 0, .createGrid 0 5, .createGrid 0 6, .createComp 0 1, .createComp 0 2,
    .createObject 0 1 ⟨5, 5, false⟩ 2, .createObject 0 2 ⟨5, 6, true⟩ 1, .createObject 0 2 ⟨6, 5, true⟩ 0,
    .moveNew 0, .destroyGrid 1 5, .createDomain 0, .moveTo 1 2, .createGrid 2 5, .createObject 2 1 ⟨5, 5, false⟩ 2,
    .destroyObject 2 1 ⟨5, 5, false⟩, .createObject 2 2 ⟨5, 6, true⟩ 3, .releasePointer 0]

example : (program exProgram State.init).isSome = true := by decide +kernel
example : ((program (exProgram ++ [.destroyDomain 2]) State.init).map fun s => decide (s.mem.res = 0)) =
    some true := by decide +kernel
example : ((program exProgram State.init).map fun s => decide (s.mem.res = 0)) = some false := by decide +kernel
example : ((program (exProgram ++ [.destroyDomain 2, .destroyDomain 0, .destroyDomain 1]) State.init).map
    fun s => s.mem.log.drop 5) = some [.destroying 2, .component 1, .object 28, .component 2, .grid 5, .grid 22,
      .done 2, .context 0] := by decide +kernel

end Ovk.Lifetimes
