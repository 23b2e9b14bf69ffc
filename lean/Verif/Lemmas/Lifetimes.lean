/-
Facts about the model of lifetimes: what each destructor does to the resources when those it needs are there.
-/
import Verif.Model.Lifetimes
import Mathlib.Algebra.Order.Group.Multiset
import Mathlib.Tactic.Abel

namespace Ovk.Lifetimes

/-! ### What an object owns -/

def ofO (k : Nat → Res) : Option Nat → Multiset Res
  | none => 0
  | some n => {k n}

def ofH : Option (Nat × Nat) → Multiset Res
  | none => 0
  | some h => {.lis h.1 h.2}

def Grid.own (g : Grid) : Multiset Res := ofO .loc g.loc + ofO .comm g.comm + ofO .share g.ctx

def ownGrid (p : Nat × Grid) : Multiset Res := {.addr p.1} + p.2.own

def Object.own (o : Object) : Multiset Res :=
  ((o.events.map .loc : List Res) : Multiset Res) + ofO .loc o.loc + ofO .share o.ctx

def Entry.own (l : Entry) : Multiset Res :=
  ((l.handles.map fun h => .lis h.1 h.2 : List Res) : Multiset Res) + {.loc l.flagsLoc} + l.obj.own

def ownEntries (ls : List Entry) : Multiset Res := (ls.map Entry.own).sum

def Comp.own (c : Comp) : Multiset Res :=
  ofO .loc c.event + ownEntries c.entries + ofH c.gridHandle + ofO .loc c.loc

def ownComps (cs : List Comp) : Multiset Res := (cs.map Comp.own).sum

def ownGrids (gs : List (Nat × Grid)) : Multiset Res := (gs.map ownGrid).sum

def Domain.own (d : Domain) : Multiset Res :=
  ofO .loc d.compEvent + ownComps d.comps + ofO .loc d.gridEvent + ownGrids d.grids + ofO .loc d.loc +
    ofO .comm d.comm + ofO .share d.ctx

def ownVar : Option Domain → Multiset Res
  | none => 0
  | some d => d.own

/-! ### Conditions on what is around -/

/-- Every entry of an event has its event. -/
def Closed (F : Multiset Res) : Prop := ∀ e t, Res.lis e t ∈ F → Res.loc e ∈ F

/-- No location occurs twice. -/
def LocND (F : Multiset Res) : Prop := ∀ n, F.count (Res.loc n) ≤ 1

theorem LocND.mono {F G : Multiset Res} (h : LocND G) (hle : F ≤ G) : LocND F :=
  fun n => le_trans (Multiset.count_le_of_le _ hle) (h n)

theorem LocND.right {F G : Multiset Res} (h : LocND (F + G)) : LocND G := h.mono (Multiset.le_add_left _ _)

theorem Closed.add {F G : Multiset Res} (hF : Closed F) (hG : Closed G) : Closed (F + G) := by
  intro e t h
  rcases Multiset.mem_add.1 h with h | h
  · exact Multiset.mem_add.2 (Or.inl (hF e t h))
  · exact Multiset.mem_add.2 (Or.inr (hG e t h))

/-- Nothing in it is an entry of an event. -/
def NoEntry (F : Multiset Res) : Prop := ∀ e t, Res.lis e t ∉ F

theorem NoEntry.closed {F : Multiset Res} (h : NoEntry F) : Closed F := fun e t ht => absurd ht (h e t)

theorem NoEntry.add {F G : Multiset Res} (hF : NoEntry F) (hG : NoEntry G) : NoEntry (F + G) := by
  intro e t h
  rcases Multiset.mem_add.1 h with h | h
  · exact hF e t h
  · exact hG e t h

theorem noEntry_loc (n : Nat) : NoEntry {.loc n} := by intro e t h; simp at h
theorem noEntry_comm (n : Nat) : NoEntry {.comm n} := by intro e t h; simp at h
theorem noEntry_share (n : Nat) : NoEntry {.share n} := by intro e t h; simp at h
theorem noEntry_addr (n : Nat) : NoEntry {.addr n} := by intro e t h; simp at h
theorem noEntry_zero : NoEntry 0 := by intro e t h; simp at h
theorem noEntry_ofO_loc (o : Option Nat) : NoEntry (ofO .loc o) := by
  cases o; exacts [noEntry_zero, noEntry_loc _]
theorem noEntry_ofO_comm (o : Option Nat) : NoEntry (ofO .comm o) := by
  cases o; exacts [noEntry_zero, noEntry_comm _]
theorem noEntry_ofO_share (o : Option Nat) : NoEntry (ofO .share o) := by
  cases o; exacts [noEntry_zero, noEntry_share _]
theorem noEntry_locs (l : List Nat) : NoEntry ((l.map .loc : List Res) : Multiset Res) := by
  intro e t h; simp at h

theorem Grid.noEntry (g : Grid) : NoEntry g.own :=
  ((noEntry_ofO_loc _).add (noEntry_ofO_comm _)).add (noEntry_ofO_share _)

theorem noEntry_grid (p : Nat × Grid) : NoEntry (ownGrid p) := (noEntry_addr _).add p.2.noEntry

theorem noEntry_grids (gs : List (Nat × Grid)) : NoEntry (ownGrids gs) := by
  induction gs with
  | nil => exact noEntry_zero
  | cons p gs ih => simpa [ownGrids] using (noEntry_grid p).add ih

theorem Object.noEntry (o : Object) : NoEntry o.own :=
  ((noEntry_locs _).add (noEntry_ofO_loc _)).add (noEntry_ofO_share _)

/-- An event around which everything has its event, and whose location is not there twice, has no entries. -/
theorem no_entries {e : Nat} {F : Multiset Res} (hC : Closed F) (hN : LocND ({.loc e} + F)) (t : Nat) :
    Res.lis e t ∉ F := by
  intro h
  have h1 := Multiset.one_le_count_iff_mem.2 (hC e t h)
  have h2 := hN e
  rw [Multiset.count_add, Multiset.count_singleton_self] at h2
  omega

/-! ### Basic steps -/

theorem use_some {r : Res} {m : Mem} (h : r ∈ m.res) : use r m = some m := if_pos h

theorem use_none {r : Res} {m : Mem} (h : r ∉ m.res) : use r m = none := if_neg h

theorem free_eq {r : Res} {F : Multiset Res} {G : Multiset Res} {L : List Msg} (h : G = {r} + F) :
    free r ⟨G, L⟩ = some ⟨F, L⟩ := by
  subst h
  simp [free]

/-- The message of a context that ends, if it does. -/
def lastWord (c : Nat) (F : Multiset Res) : List Msg := if .share c ∈ F then [] else [.context c]

theorem lastWord_nil {c : Nat} {F : Multiset Res} (h : .share c ∈ F) : lastWord c F = [] := if_pos h

theorem dropShare_eq {c : Nat} {F G : Multiset Res} {L : List Msg} (h : G = {.share c} + F) :
    dropShare (some c) ⟨G, L⟩ = some ⟨F, L ++ lastWord c F⟩ := by
  simp only [dropShare]
  rw [free_eq h]
  simp only [Option.map_some, lastWord]
  split <;> simp [say]

theorem freeEvent_eq {e : Nat} {F G : Multiset Res} {L : List Msg} (h : G = {.loc e} + F)
    (hC : Closed F) (hN : LocND G) : freeEvent e ⟨G, L⟩ = some ⟨F, L⟩ := by
  unfold freeEvent
  rw [free_eq h]
  simp only [Option.map_some, Option.some.injEq, Mem.mk.injEq, and_true]
  refine Multiset.filter_eq_self.2 ?_
  intro r hr
  cases r with
  | lis e' t =>
    have hne : e' ≠ e := by
      intro he
      subst he
      exact no_entries hC (h ▸ hN) t hr
    simp [Res.entryOf, hne]
  | _ => rfl

theorem resetHandle_eq {h : Nat × Nat} {F G : Multiset Res} {L : List Msg} (hG : G = {.lis h.1 h.2} + F)
    (hl : .loc h.1 ∈ F) : resetHandle h ⟨G, L⟩ = some ⟨F, L⟩ := by
  unfold resetHandle
  subst hG
  rw [use_some (by simp [hl])]
  simp

theorem handles_eq : ∀ (hs : List (Nat × Nat)) {F G : Multiset Res} {L : List Msg},
    G = ((hs.map fun h => Res.lis h.1 h.2 : List Res) : Multiset Res) + F →
    (∀ h ∈ hs, .loc h.1 ∈ F) → each resetHandle hs ⟨G, L⟩ = some ⟨F, L⟩
  | [], F, G, L, hG, _ => by subst hG; simp [each]
  | h :: hs, F, G, L, hG, hl => by
    unfold each
    rw [resetHandle_eq (F := ((hs.map fun h => Res.lis h.1 h.2 : List Res) : Multiset Res) + F)
      (by rw [hG, List.map_cons, ← Multiset.cons_coe, Multiset.cons_add, Multiset.singleton_add]) (by simp [hl h])]
    exact handles_eq hs rfl (fun x hx => hl x (by simp [hx]))

theorem events_eq : ∀ (es : List Nat) {F G : Multiset Res} {L : List Msg},
    G = ((es.map Res.loc : List Res) : Multiset Res) + F → Closed F → LocND G →
    each freeEvent es ⟨G, L⟩ = some ⟨F, L⟩
  | [], F, G, L, hG, _, _ => by subst hG; simp [each]
  | e :: es, F, G, L, hG, hC, hN => by
    have h1 : G = {Res.loc e} + (((es.map Res.loc : List Res) : Multiset Res) + F) := by
      rw [hG, List.map_cons, ← Multiset.cons_coe, Multiset.cons_add, Multiset.singleton_add]
    unfold each
    rw [freeEvent_eq h1 ((noEntry_locs es).closed.add hC) hN]
    exact events_eq es rfl hC (by rw [h1] at hN; exact hN.right)

theorem Object.destroy_eq {o : Object} {c l n : Nat} {F G : Multiset Res} {L : List Msg}
    (hc : o.ctx = some c) (hl : o.loc = some l) (hG : G = o.own + F) (hC : Closed F) (hN : LocND G)
    (h1 : .comm o.comm ∈ F) (h2 : .share c ∈ F) (h3 : .addr o.grid ∈ F) :
    o.destroy n ⟨G, L⟩ = some ⟨F, L ++ [.object n]⟩ := by
  have e1 : G = ((o.events.reverse.map Res.loc : List Res) : Multiset Res) +
      ({.loc l} + ({.share c} + F)) := by
    rw [hG, Object.own, hc, hl, List.map_reverse, Multiset.coe_reverse]
    simp only [ofO]
    abel
  unfold Object.destroy
  simp only [hc, hl, whenSome, Option.bind_eq_bind]
  rw [use_some (by rw [hG]; simp [h1]), Option.bind_some,
    events_eq o.events.reverse e1 ((noEntry_loc l).closed.add ((noEntry_share c).closed.add hC)) hN,
    Option.bind_some]
  simp only [freeOpt]
  rw [free_eq rfl, Option.bind_some, use_some (by simp [h1]), Option.bind_some, use_some (by simp),
    Option.bind_some, use_some (by simp [h3]), Option.bind_some, Option.bind_some]
  simp only [say]
  rw [dropShare_eq rfl, lastWord_nil h2]
  simp

theorem Object.destroy_moved (o : Object) (n : Nat) (m : Mem) : o.movedFrom.destroy n m = some m := by
  simp [Object.destroy, Object.movedFrom, whenSome, each, freeOpt, dropShare]

/-- An entry as the components make it. -/
structure EntryOK (c : Nat) (grids : List (Nat × Grid)) (l : Entry) : Prop where
  ctx : l.obj.ctx = some c
  loc : l.obj.loc.isSome
  handles : ∀ h ∈ l.handles, h.1 ∈ l.obj.events
  target : ∀ h ∈ l.handles, h.2 = l.flagsLoc
  grid : ∃ p ∈ grids, p.2.gid = l.key.on ∧ p.1 = l.obj.grid ∧ p.2.comm = some l.obj.comm

theorem Entry.closed {c : Nat} {grids : List (Nat × Grid)} {l : Entry} (h : EntryOK c grids l) :
    Closed l.own := by
  intro e t ht
  unfold Entry.own at ht ⊢
  simp only [Multiset.mem_add, Multiset.mem_coe, List.mem_map, Multiset.mem_singleton] at ht ⊢
  rcases ht with (⟨x, hx, he⟩ | he) | he
  · injection he with he1 he2
    subst he1 he2
    refine Or.inr ?_
    unfold Object.own
    simp only [Multiset.mem_add, Multiset.mem_coe, List.mem_map]
    exact Or.inl (Or.inl ⟨_, h.handles x hx, rfl⟩)
  · cases he
  · exact absurd he (l.obj.noEntry e t)

theorem entries_closed {c : Nat} {grids : List (Nat × Grid)} {ls : List Entry}
    (h : ∀ l ∈ ls, EntryOK c grids l) : Closed (ownEntries ls) := by
  induction ls with
  | nil => exact noEntry_zero.closed
  | cons l ls ih =>
    simpa [ownEntries] using (Entry.closed (h l (by simp))).add (ih fun x hx => h x (by simp [hx]))

theorem Entry.destroy_eq {c : Nat} {l : Entry} {F G : Multiset Res} {L : List Msg}
    (hc : l.obj.ctx = some c) (hl : l.obj.loc.isSome) (hh : ∀ h ∈ l.handles, h.1 ∈ l.obj.events)
    (hG : G = l.own + F) (hC : Closed F) (hN : LocND G)
    (h1 : .comm l.obj.comm ∈ F) (h2 : .share c ∈ F) (h3 : .addr l.obj.grid ∈ F) :
    l.destroy ⟨G, L⟩ = some ⟨F, L ++ [.object l.flagsLoc]⟩ := by
  obtain ⟨n, hn⟩ := Option.isSome_iff_exists.1 hl
  have e1 : G = ((l.handles.reverse.map fun h => Res.lis h.1 h.2 : List Res) : Multiset Res) +
      ({.loc l.flagsLoc} + (l.obj.own + F)) := by
    rw [hG, Entry.own, List.map_reverse, Multiset.coe_reverse]
    abel
  unfold Entry.destroy
  simp only [Option.bind_eq_bind]
  rw [handles_eq _ e1 (by
    intro h hm
    have := hh h (by simpa using hm)
    simp only [Multiset.mem_add, Object.own, Multiset.mem_coe, List.mem_map]
    exact Or.inr (Or.inl (Or.inl (Or.inl ⟨_, this, rfl⟩)))), Option.bind_some, free_eq rfl, Option.bind_some]
  exact Object.destroy_eq hc hn rfl hC
    (by rw [e1] at hN; exact hN.right.right) h1 h2 h3

theorem entries_destroy_eq {c : Nat} {grids : List (Nat × Grid)} : ∀ (ls : List Entry)
    {F G : Multiset Res} {L : List Msg}, (∀ l ∈ ls, EntryOK c grids l) →
    G = ownEntries ls + F → Closed F → LocND G → .share c ∈ F →
    (∀ p ∈ grids, .addr p.1 ∈ F ∧ ∀ x, p.2.comm = some x → .comm x ∈ F) →
    each Entry.destroy ls ⟨G, L⟩ = some ⟨F, L ++ ls.map fun l => .object l.flagsLoc⟩
  | [], F, G, L, _, hG, _, _, _, _ => by subst hG; simp [each, ownEntries]
  | l :: ls, F, G, L, hok, hG, hC, hN, hs, hg => by
    have e1 : G = l.own + (ownEntries ls + F) := by rw [hG]; simp [ownEntries, add_assoc]
    have h := hok l (by simp)
    have hok' : ∀ x ∈ ls, EntryOK c grids x := fun x hx => hok x (by simp [hx])
    obtain ⟨p, hp, _, hp1, hp2⟩ := h.grid
    unfold each
    rw [Entry.destroy_eq h.ctx h.loc h.handles e1 ((entries_closed hok').add hC) hN
      (Multiset.mem_add.2 (Or.inr ((hg p hp).2 _ hp2))) (Multiset.mem_add.2 (Or.inr hs))
      (Multiset.mem_add.2 (Or.inr (hp1 ▸ (hg p hp).1))), Option.bind_some,
      entries_destroy_eq ls hok' rfl hC (by rw [e1] at hN; exact hN.right) hs hg]
    simp

/-- A component as the domain makes it. -/
structure CompOK (c l e : Nat) (grids : List (Nat × Grid)) (x : Comp) : Prop where
  ctx : x.ctxRef = some c
  dom : x.domRef = l
  loc : ∃ t, x.loc = some t ∧ x.gridHandle = some (e, t)
  event : x.event.isSome
  entries : ∀ y ∈ x.entries, EntryOK c grids y

/-- With the grid event around, everything a component owns has its event. -/
theorem Comp.closed_add {c l e : Nat} {grids : List (Nat × Grid)} {x : Comp} (h : CompOK c l e grids x)
    {F : Multiset Res} (hF : Closed F) (he : .loc e ∈ F) : Closed (x.own + F) := by
  intro e' t' ht
  obtain ⟨t, ht1, ht2⟩ := h.loc
  have hE := entries_closed h.entries
  rcases Multiset.mem_add.1 ht with ht | ht
  · simp only [Comp.own, ht2, ofH, Multiset.mem_add] at ht
    rcases ht with ((ht | ht) | ht) | ht
    · exact absurd ht (noEntry_ofO_loc _ _ _)
    · simp only [Comp.own, Multiset.mem_add]
      exact Or.inl (Or.inl (Or.inl (Or.inr (hE _ _ ht))))
    · simp only [Multiset.mem_singleton, Res.lis.injEq] at ht
      rw [ht.1]
      exact Multiset.mem_add.2 (Or.inr he)
    · exact absurd ht (noEntry_ofO_loc _ _ _)
  · exact Multiset.mem_add.2 (Or.inr (hF _ _ ht))

theorem comps_closed_add {c l e : Nat} {grids : List (Nat × Grid)} {cs : List Comp}
    (h : ∀ x ∈ cs, CompOK c l e grids x) {F : Multiset Res} (hF : Closed F) (he : .loc e ∈ F) :
    Closed (ownComps cs + F) := by
  induction cs with
  | nil => simpa [ownComps] using hF
  | cons x cs ih =>
    have := Comp.closed_add (h x (by simp)) (ih fun y hy => h y (by simp [hy]))
      (Multiset.mem_add.2 (Or.inr he))
    simpa [ownComps, add_assoc] using this

/-- What a component writes when it is destroyed. -/
def Comp.words (x : Comp) : List Msg := (x.entries.map fun l => .object l.flagsLoc) ++ [.component x.cid]

theorem Comp.destroy_eq {c l e n : Nat} {d : Domain} {grids : List (Nat × Grid)} {x : Comp}
    {F G : Multiset Res} {L : List Msg} (h : CompOK c l e grids x) (hd : d.loc = some l)
    (hn : d.comm = some n) (hG : G = x.own + F) (hC : Closed F) (hN : LocND G)
    (h1 : .comm n ∈ F) (h2 : .share c ∈ F) (h3 : .loc l ∈ F) (h4 : .loc e ∈ F)
    (hg : ∀ p ∈ grids, .addr p.1 ∈ F ∧ ∀ y, p.2.comm = some y → .comm y ∈ F) :
    x.destroy d ⟨G, L⟩ = some ⟨F, L ++ x.words⟩ := by
  obtain ⟨t, ht1, ht2⟩ := h.loc
  obtain ⟨v, hv⟩ := Option.isSome_iff_exists.1 h.event
  have hC1 : Closed ({.lis e t} + ({.loc t} + F)) := by
    intro e' t' hm
    simp only [Multiset.mem_add, Multiset.mem_singleton] at hm ⊢
    rcases hm with hm | hm | hm
    · injection hm with hm1 _
      exact Or.inr (Or.inr (hm1 ▸ h4))
    · cases hm
    · exact Or.inr (Or.inr (hC _ _ hm))
  have e1 : G = {.loc v} + (ownEntries x.entries + ({.lis e t} + ({.loc t} + F))) := by
    rw [hG, Comp.own, ht1, ht2, hv]
    simp only [ofO, ofH]
    abel
  have hN1 := hN
  rw [e1] at hN1
  unfold Comp.destroy
  simp only [Option.bind_eq_bind, hv, freeEventOpt, ht1, ht2, freeOpt, resetHandleOpt, h.ctx, whenSome]
  rw [freeEvent_eq e1 ((entries_closed h.entries).add hC1) hN, Option.bind_some,
    entries_destroy_eq x.entries h.entries rfl hC1 hN1.right (by simp [h2]) (by
      intro p hp
      refine ⟨by simp [(hg p hp).1], fun y hy => by simp [(hg p hp).2 y hy]⟩), Option.bind_some,
    resetHandle_eq (h := (e, t)) rfl (by simp [h4]), Option.bind_some, free_eq rfl, Option.bind_some]
  simp only [Comp.domainBarrier, Option.bind_eq_bind, h.dom]
  rw [use_some (by simpa using h3), Option.bind_some, if_pos hd, hn]
  simp only [barrier]
  rw [use_some (by simpa using h1), Option.bind_some, use_some (by simpa using h2), Option.bind_some]
  simp [say, Comp.words]

theorem Comp.destroy_moved (x : Comp) (d : Domain) (m : Mem) : x.movedFrom.destroy d m = some m := by
  simp [Comp.destroy, Comp.movedFrom, whenSome, each, freeOpt, freeEventOpt, resetHandleOpt]

theorem comps_destroy_eq {c l e n : Nat} {d : Domain} {grids : List (Nat × Grid)} (hd : d.loc = some l)
    (hn : d.comm = some n) : ∀ (cs : List Comp) {F G : Multiset Res} {L : List Msg},
    (∀ x ∈ cs, CompOK c l e grids x) → G = ownComps cs + F → Closed F → LocND G →
    .comm n ∈ F → .share c ∈ F → .loc l ∈ F → .loc e ∈ F →
    (∀ p ∈ grids, .addr p.1 ∈ F ∧ ∀ y, p.2.comm = some y → .comm y ∈ F) →
    each (Comp.destroy d) cs ⟨G, L⟩ = some ⟨F, L ++ cs.flatMap Comp.words⟩
  | [], F, G, L, _, hG, _, _, _, _, _, _, _ => by subst hG; simp [each, ownComps]
  | x :: cs, F, G, L, hok, hG, hC, hN, h1, h2, h3, h4, hg => by
    have e1 : G = x.own + (ownComps cs + F) := by rw [hG]; simp [ownComps, add_assoc]
    have hok' : ∀ y ∈ cs, CompOK c l e grids y := fun y hy => hok y (by simp [hy])
    have r : ∀ {a : Res}, a ∈ F → a ∈ ownComps cs + F := fun h => Multiset.mem_add.2 (Or.inr h)
    unfold each
    rw [Comp.destroy_eq (hok x (by simp)) hd hn e1 (comps_closed_add hok' hC h4) hN (r h1) (r h2) (r h3)
      (r h4) (fun p hp => ⟨r (hg p hp).1, fun y hy => r ((hg p hp).2 y hy)⟩), Option.bind_some,
      comps_destroy_eq hd hn cs hok' rfl hC (by rw [e1] at hN; exact hN.right) h1 h2 h3 h4 hg]
    simp

/-- A grid as the domain makes it. -/
structure GridOK (c : Nat) (g : Grid) : Prop where
  ctx : g.ctx = some c
  comm : g.comm.isSome
  loc : g.loc.isSome

theorem Grid.destroy_eq {g : Grid} {c n : Nat} {F G : Multiset Res} {L : List Msg} (h : GridOK c g)
    (hG : G = g.own + F) :
    g.destroy n ⟨G, L⟩ = some ⟨F, L ++ [.grid n] ++ lastWord c F⟩ := by
  obtain ⟨a, ha⟩ := Option.isSome_iff_exists.1 h.comm
  obtain ⟨b, hb⟩ := Option.isSome_iff_exists.1 h.loc
  have e1 : G = {.loc b} + ({.comm a} + ({.share c} + F)) := by
    rw [hG, Grid.own, ha, hb, h.ctx]
    simp only [ofO]
    abel
  unfold Grid.destroy
  simp only [h.ctx, ha, hb, whenSome, Option.bind_eq_bind, barrier, freeOpt]
  rw [use_some (by rw [e1]; simp), Option.bind_some, free_eq e1, Option.bind_some, use_some (by simp),
    Option.bind_some, use_some (by simp), Option.bind_some, Option.bind_some]
  simp only [say]
  rw [free_eq rfl, Option.bind_some, dropShare_eq rfl]

theorem Grid.destroy_moved (g : Grid) (n : Nat) (m : Mem) : g.movedFrom.destroy n m = some m := by
  simp [Grid.destroy, Grid.movedFrom, whenSome, freeOpt, dropShare]

theorem destroyGridAt_eq {p : Nat × Grid} {c : Nat} {F G : Multiset Res} {L : List Msg}
    (h : GridOK c p.2) (hG : G = ownGrid p + F) :
    ∃ L', destroyGridAt p ⟨G, L⟩ = some ⟨F, L'⟩ ∧ (.share c ∈ F → L' = L ++ [.grid p.1]) := by
  refine ⟨L ++ [.grid p.1] ++ lastWord c ({.addr p.1} + F), ?_, ?_⟩
  · unfold destroyGridAt
    simp only [Option.bind_eq_bind]
    rw [Grid.destroy_eq (F := {.addr p.1} + F) h (by rw [hG, ownGrid]; abel), Option.bind_some, free_eq rfl]
  · intro hs
    rw [lastWord_nil (by simp [hs])]
    simp

theorem grids_destroy_eq {c : Nat} : ∀ (gs : List (Nat × Grid)) {F G : Multiset Res} {L : List Msg},
    (∀ p ∈ gs, GridOK c p.2) → G = ownGrids gs + F →
    ∃ L', each destroyGridAt gs ⟨G, L⟩ = some ⟨F, L'⟩ ∧
      (.share c ∈ F → L' = L ++ gs.map fun p => .grid p.1)
  | [], F, G, L, _, hG => by subst hG; exact ⟨L, by simp [each, ownGrids], by simp⟩
  | p :: gs, F, G, L, hok, hG => by
    obtain ⟨L1, h1, h1'⟩ := destroyGridAt_eq (F := ownGrids gs + F) (G := G) (L := L) (hok p (by simp))
      (by rw [hG]; simp [ownGrids, add_assoc])
    obtain ⟨L2, h2, h2'⟩ := grids_destroy_eq gs (G := ownGrids gs + F) (L := L1)
      (fun q hq => hok q (by simp [hq])) rfl
    refine ⟨L2, ?_, ?_⟩
    · unfold each
      rw [h1, Option.bind_some, h2]
    · intro hs
      rw [h2' hs, h1' (by simp [hs])]
      simp

/-- A domain that was not moved from. -/
structure LiveOK (d : Domain) (c n l e f : Nat) : Prop where
  ctx : d.ctx = some c
  comm : d.comm = some n
  loc : d.loc = some l
  gridEvent : d.gridEvent = some e
  compEvent : d.compEvent = some f
  grids : ∀ p ∈ d.grids, GridOK c p.2
  comps : ∀ x ∈ d.comps, CompOK c l e d.grids x
  nodup : (d.comps.map Comp.cid).Nodup

/-- A domain variable. -/
def DomOK (d : Domain) : Prop := d = Domain.movedFrom ∨ ∃ c n l e f, LiveOK d c n l e f

theorem mem_ownGrids {gs : List (Nat × Grid)} {p : Nat × Grid} (hp : p ∈ gs) {r : Res} (hr : r ∈ ownGrid p) :
    r ∈ ownGrids gs := by
  induction gs with
  | nil => cases hp
  | cons q gs ih =>
    simp only [ownGrids, List.map_cons, List.sum_cons, Multiset.mem_add] at ih ⊢
    rcases List.mem_cons.1 hp with rfl | hp
    · exact Or.inl hr
    · exact Or.inr (ih hp)

theorem grids_there {gs : List (Nat × Grid)} {p : Nat × Grid} (hp : p ∈ gs) :
    Res.addr p.1 ∈ ownGrids gs ∧ ∀ y, p.2.comm = some y → Res.comm y ∈ ownGrids gs := by
  refine ⟨mem_ownGrids hp (by simp [ownGrid]), fun y hy => mem_ownGrids hp ?_⟩
  simp [ownGrid, Grid.own, hy, ofO]

theorem LiveOK.own_eq {d : Domain} {c n l e f : Nat} (h : LiveOK d c n l e f) :
    d.own = {.loc f} + (ownComps d.comps + ({.loc e} + (ownGrids d.grids +
      ({.loc l} + ({.comm n} + {.share c}))))) := by
  rw [Domain.own, h.ctx, h.comm, h.loc, h.gridEvent, h.compEvent]
  simp only [ofO]
  abel

theorem noEntry_base (gs : List (Nat × Grid)) (l n c : Nat) :
    NoEntry (ownGrids gs + ({.loc l} + ({.comm n} + {.share c}))) :=
  (noEntry_grids _).add ((noEntry_loc _).add ((noEntry_comm _).add (noEntry_share _)))

theorem LiveOK.closed_add {d : Domain} {c n l e f : Nat} (h : LiveOK d c n l e f) {F : Multiset Res}
    (hF : Closed F) : Closed (d.own + F) := by
  have h1 := (noEntry_base d.grids l n c).closed
  have h2 : Closed ({.loc e} + (ownGrids d.grids + ({.loc l} + ({.comm n} + {.share c}))) + F) :=
    ((noEntry_loc _).closed.add h1).add hF
  have h3 := comps_closed_add h.comps h2 (by simp)
  have h4 := (noEntry_loc f).closed.add h3
  rw [h.own_eq]
  simpa only [add_assoc] using h4

theorem movedFrom_own : Domain.movedFrom.own = 0 := by
  simp [Domain.own, Domain.movedFrom, ofO, ownComps, ownGrids]

theorem DomOK.closed_add {d : Domain} (h : DomOK d) {F : Multiset Res} (hF : Closed F) :
    Closed (d.own + F) := by
  rcases h with rfl | ⟨c, n, l, e, f, h⟩
  · rw [movedFrom_own]; simpa using hF
  · exact h.closed_add hF

/-- What a domain writes when it is destroyed. -/
theorem LiveOK.destroy_eq {d : Domain} {c n l e f v : Nat} (h : LiveOK d c n l e f) {F G : Multiset Res}
    {L : List Msg} (hG : G = d.own + F) (hC : Closed F) (hN : LocND G) :
    d.destroy v ⟨G, L⟩ = some ⟨F, L ++ ([.destroying v] ++ d.comps.flatMap Comp.words ++
      (d.grids.map fun p => .grid p.1) ++ [.done v] ++ lastWord c F)⟩ := by
  have e1 : G = {.loc f} + (ownComps d.comps + ({.loc e} + (ownGrids d.grids +
      ({.loc l} + ({.comm n} + ({.share c} + F)))))) := by
    rw [hG, h.own_eq]
    abel
  have hB : Closed ({.loc l} + ({.comm n} + ({.share c} + F))) :=
    (noEntry_loc _).closed.add ((noEntry_comm _).closed.add ((noEntry_share _).closed.add hC))
  have hB1 : Closed (ownGrids d.grids + ({.loc l} + ({.comm n} + ({.share c} + F)))) :=
    (noEntry_grids _).closed.add hB
  have hB2 : Closed ({.loc e} + (ownGrids d.grids + ({.loc l} + ({.comm n} + ({.share c} + F))))) :=
    (noEntry_loc _).closed.add hB1
  have hN1 := hN
  rw [e1] at hN1
  have hcs := comps_destroy_eq (c := c) (e := e) (grids := d.grids) h.loc h.comm d.comps
    (F := {.loc e} + (ownGrids d.grids + ({.loc l} + ({.comm n} + ({.share c} + F)))))
    (L := L ++ [.destroying v]) h.comps rfl hB2 hN1.right (by simp) (by simp) (by simp) (by simp) (by
      intro p hp
      obtain ⟨a, b⟩ := grids_there hp
      exact ⟨by simp [a], fun y hy => by simp [b y hy]⟩)
  obtain ⟨L2, hg, hg'⟩ := grids_destroy_eq (c := c) d.grids
    (F := {.loc l} + ({.comm n} + ({.share c} + F))) (L := L ++ [.destroying v] ++ d.comps.flatMap Comp.words)
    h.grids rfl
  unfold Domain.destroy
  simp only [h.ctx, h.comm, h.loc, h.gridEvent, h.compEvent, Option.bind_eq_bind, barrier, freeOpt,
    freeEventOpt, whenSome]
  rw [use_some (by rw [e1]; simp), Option.bind_some, use_some (by rw [e1]; simp), Option.bind_some,
    Option.bind_some]
  simp only [say]
  rw [freeEvent_eq e1 (comps_closed_add h.comps hB2 (by simp)) hN, Option.bind_some, hcs, Option.bind_some,
    freeEvent_eq rfl hB1 hN1.right.right, Option.bind_some, hg, Option.bind_some, free_eq rfl,
    Option.bind_some, use_some (by simp), Option.bind_some, use_some (by simp), Option.bind_some,
    Option.bind_some, free_eq rfl, Option.bind_some, dropShare_eq rfl, hg' (by simp)]
  simp

theorem movedFrom_destroy (v : Nat) (m : Mem) : Domain.movedFrom.destroy v m = some m := by
  simp [Domain.destroy, Domain.movedFrom, whenSome, freeOpt, freeEventOpt, each, dropShare]

/-- A domain without components can be assigned to. -/
theorem LiveOK.assign_eq {t s : Domain} {c n l e f : Nat} (h : LiveOK t c n l e f) (hs : s.loc.isSome)
    (hs1 : s.gridEvent.isSome) (hs2 : s.compEvent.isSome) (ht : t.comps = []) {F G : Multiset Res}
    {L : List Msg} (hG : G = t.own + F) (hC : Closed F) (hN : LocND G) :
    ∃ L', t.assign s ⟨G, L⟩ = some ⟨F, L'⟩ := by
  have e1 : G = {.share c} + ({.comm n} + ({.loc l} + (ownGrids t.grids + ({.loc e} + ({.loc f} + F))))) := by
    rw [hG, h.own_eq, ht]
    simp only [ownComps, List.map_nil, List.sum_nil]
    abel
  have hN1 := hN
  rw [e1] at hN1
  obtain ⟨L2, hg, -⟩ := grids_destroy_eq (c := c) t.grids (F := {.loc e} + ({.loc f} + F))
    (L := L ++ lastWord c ({.comm n} + ({.loc l} + (ownGrids t.grids + ({.loc e} + ({.loc f} + F))))))
    h.grids rfl
  refine ⟨L2, ?_⟩
  unfold Domain.assign
  simp only [h.ctx, h.comm, h.loc, h.gridEvent, h.compEvent, hs, hs1, hs2, ht, Option.bind_eq_bind, freeOpt,
    freeEventOpt, needs, if_true, each]
  rw [dropShare_eq e1, Option.bind_some, free_eq rfl, Option.bind_some, free_eq rfl, Option.bind_some,
    Option.bind_some, hg, Option.bind_some,
    freeEvent_eq rfl ((noEntry_loc _).closed.add hC) hN1.right.right.right.right, Option.bind_some,
    Option.bind_some, Option.bind_some, freeEvent_eq rfl hC hN1.right.right.right.right.right, Option.bind_some]

theorem movedFrom_assign {s : Domain} (hs : s.loc.isSome) (hs1 : s.gridEvent.isSome)
    (hs2 : s.compEvent.isSome) (m : Mem) : Domain.movedFrom.assign s m = some m := by
  simp [Domain.assign, Domain.movedFrom, needs, freeOpt, freeEventOpt, each, dropShare, hs, hs1, hs2]

/-! ### Steps only take away -/

theorem use_le {r : Res} {m m' : Mem} (h : use r m = some m') : m'.res ≤ m.res := by
  unfold use at h
  split at h
  · cases h; exact le_refl _
  · cases h

theorem free_le {r : Res} {m m' : Mem} (h : free r m = some m') : m'.res ≤ m.res := by
  unfold free at h
  split at h
  · cases h; exact Multiset.erase_le _ _
  · cases h

theorem freeOpt_le {k : Nat → Res} {o : Option Nat} {m m' : Mem} (h : freeOpt k o m = some m') :
    m'.res ≤ m.res := by
  cases o with
  | none => cases h; exact le_refl _
  | some n => exact free_le h

theorem dropShare_le {o : Option Nat} {m m' : Mem} (h : dropShare o m = some m') : m'.res ≤ m.res := by
  cases o with
  | none => cases h; exact le_refl _
  | some c =>
    simp only [dropShare, Option.map_eq_some_iff] at h
    obtain ⟨a, ha, rfl⟩ := h
    split
    · exact free_le ha
    · exact free_le (m' := a) ha

theorem resetHandle_le {x : Nat × Nat} {m m' : Mem} (h : resetHandle x m = some m') : m'.res ≤ m.res := by
  simp only [resetHandle, Option.map_eq_some_iff] at h
  obtain ⟨a, ha, rfl⟩ := h
  exact le_trans (Multiset.erase_le _ _) (use_le ha)

theorem freeEvent_le {e : Nat} {m m' : Mem} (h : freeEvent e m = some m') : m'.res ≤ m.res := by
  simp only [freeEvent, Option.map_eq_some_iff] at h
  obtain ⟨a, ha, rfl⟩ := h
  exact le_trans (Multiset.filter_le _ _) (free_le ha)

theorem freeEventOpt_le {o : Option Nat} {m m' : Mem} (h : freeEventOpt o m = some m') : m'.res ≤ m.res := by
  cases o with
  | none => cases h; exact le_refl _
  | some e => exact freeEvent_le h

theorem each_le {α : Type} {f : α → Mem → Option Mem}
    (hf : ∀ a m m', f a m = some m' → m'.res ≤ m.res) : ∀ (l : List α) (m m' : Mem),
    each f l m = some m' → m'.res ≤ m.res
  | [], m, m', h => by cases h; exact le_refl _
  | a :: l, m, m', h => by
    simp only [each, Option.bind_eq_some_iff] at h
    obtain ⟨x, hx, hl⟩ := h
    exact le_trans (each_le hf l x m' hl) (hf a m x hx)

theorem whenSome_le {o : Option Nat} {f : Nat → Mem → Option Mem}
    (hf : ∀ c a b, f c a = some b → b.res ≤ a.res) {m m' : Mem} (h : whenSome o f m = some m') :
    m'.res ≤ m.res := by
  cases o with
  | none => cases h; exact le_refl _
  | some c => exact hf c _ _ h

theorem barrier_le {o : Option Nat} {m m' : Mem} (h : barrier o m = some m') : m'.res ≤ m.res := by
  cases o with
  | none => cases h
  | some n => exact use_le h

theorem Object.destroy_le {o : Object} {n : Nat} {m m' : Mem} (h : o.destroy n m = some m') :
    m'.res ≤ m.res := by
  unfold Object.destroy at h
  simp only [Option.bind_eq_bind, Option.bind_eq_some_iff] at h
  obtain ⟨m1, h1, m2, h2, m3, h3, m4, h4, h5⟩ := h
  have a1 : m1.res ≤ m.res := whenSome_le (fun _ _ _ => use_le) h1
  have a4 : m4.res ≤ m3.res := by
    refine whenSome_le (fun c a b h4 => ?_) h4
    simp only [Option.bind_eq_some_iff] at h4
    obtain ⟨x, hx, y, hy, z, hz, hw⟩ := h4
    cases hw
    exact le_trans (b := y.res) (use_le (m' := z) hz) (le_trans (use_le hy) (use_le hx))
  exact le_trans (dropShare_le h5) (le_trans a4 (le_trans (freeOpt_le h3)
    (le_trans (each_le (fun _ _ _ => freeEvent_le) _ _ _ h2) a1)))

theorem Entry.destroy_le {l : Entry} {m m' : Mem} (h : l.destroy m = some m') : m'.res ≤ m.res := by
  unfold Entry.destroy at h
  simp only [Option.bind_eq_bind, Option.bind_eq_some_iff] at h
  obtain ⟨m1, h1, m2, h2, h3⟩ := h
  exact le_trans (Object.destroy_le h3) (le_trans (free_le h2)
    (each_le (fun _ _ _ => resetHandle_le) _ _ _ h1))

/-- A component whose grid event is gone cannot be destroyed. -/
theorem Comp.destroy_none {x : Comp} {d : Domain} {e t : Nat} {m : Mem} (hx : x.gridHandle = some (e, t))
    (h : .loc e ∉ m.res) : x.destroy d m = none := by
  unfold Comp.destroy
  simp only [Option.bind_eq_bind]
  cases h1 : freeEventOpt x.event m with
  | none => rfl
  | some m1 =>
    rw [Option.bind_some]
    cases h2 : each Entry.destroy x.entries m1 with
    | none => rfl
    | some m2 =>
      rw [Option.bind_some]
      have hle := le_trans (each_le (fun _ _ _ => Entry.destroy_le) _ _ _ h2) (freeEventOpt_le h1)
      have : .loc e ∉ m2.res := fun hm => h (Multiset.mem_of_le hle hm)
      simp only [hx, resetHandleOpt, resetHandle]
      rw [use_none this]
      rfl

/-- A domain with a component cannot be assigned to. -/
theorem LiveOK.assign_none {t s : Domain} {c n l e f : Nat} (h : LiveOK t c n l e f) (ht : t.comps ≠ [])
    {m : Mem} (hN : LocND m.res) : t.assign s m = none := by
  obtain ⟨x, cs, hcs⟩ := List.exists_cons_of_ne_nil ht
  obtain ⟨y, -, hy⟩ := (h.comps x (by simp [hcs])).loc
  unfold Domain.assign
  simp only [h.ctx, h.comm, h.loc, h.gridEvent, h.compEvent, Option.bind_eq_bind]
  cases h1 : dropShare (some c) m with
  | none => rfl
  | some m1 =>
    cases h2 : freeOpt .comm (some n) m1 with
    | none => simp [h2]
    | some m2 =>
      cases h3 : freeOpt .loc (some l) m2 with
      | none => simp [h2, h3]
      | some m3 =>
        cases h4 : each destroyGridAt t.grids m3 with
        | none => 
          simp only [h2, h3, Option.bind_some, needs]
          split
          · rw [Option.bind_some, h4]; rfl
          · rfl
        | some m4 =>
          simp only [h2, h3, Option.bind_some, needs]
          split
          · simp only [h4, Option.bind_some]
            cases h5 : freeEventOpt (some e) m4 with
            | none => rfl
            | some m5 =>
              have hle4 : m4.res ≤ m.res := by
                refine le_trans (each_le ?_ _ _ _ h4) (le_trans (freeOpt_le h3) (le_trans (freeOpt_le h2)
                  (dropShare_le h1)))
                intro a b b' hb
                unfold destroyGridAt at hb
                simp only [Option.bind_eq_bind, Option.bind_eq_some_iff] at hb
                obtain ⟨z, hz, hz'⟩ := hb
                refine le_trans (free_le hz') ?_
                unfold Grid.destroy at hz
                simp only [Option.bind_eq_bind, Option.bind_eq_some_iff] at hz
                obtain ⟨z1, q1, z2, q2, z3, q3, z4, q4, q5⟩ := hz
                have b1 : z1.res ≤ b.res := whenSome_le (fun _ _ _ => barrier_le) q1
                have b3 : z3.res ≤ z2.res := by
                  refine whenSome_le (fun c y y' q3 => ?_) q3
                  simp only [Option.bind_eq_some_iff] at q3
                  obtain ⟨u1, w1, u2, w2, w3⟩ := q3
                  cases w3
                  exact le_trans (b := u1.res) (use_le (m' := u2) w2) (barrier_le w1)
                exact le_trans (dropShare_le q5) (le_trans (freeOpt_le q4) (le_trans b3
                  (le_trans (freeOpt_le q2) b1)))
              have hno : .loc e ∉ m5.res := by
                intro hm
                simp only [freeEventOpt, freeEvent, Option.map_eq_some_iff] at h5
                obtain ⟨a, ha, rfl⟩ := h5
                have hm' := Multiset.mem_of_mem_filter hm
                unfold free at ha
                split at ha
                · cases ha
                  have hc1 := Multiset.count_erase_self (Res.loc e) m4.res
                  have hc2 := (hN.mono hle4) e
                  have hc3 := Multiset.one_le_count_iff_mem.2 hm'
                  dsimp only at hc3
                  omega
                · cases ha
              rw [Option.bind_some]
              split
              · simp only [hcs, each, Option.bind_some]
                rw [Comp.destroy_none hy hno]
                rfl
              · rfl
          · rfl

end Ovk.Lifetimes
