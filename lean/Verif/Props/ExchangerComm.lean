/-
Property C122: the communication of an exchanger matches on all processes, and no change is left out.
-/
import Verif.Model.ExchangerComm
import Verif.Props.ComponentCalls
import Verif.Props.Schedule
import Verif.Props.Exchanger

namespace Ovk.XComm
open Sched (Cmd Swap Round Pair Staged RoundOk)
open Comp (CID Call)
variable {d n : Nat}

namespace Spec
/-- What listeners are told, divided after each call that is marked as the last of a sequence. -/
def batches : List Call → List Call → List (List Call)
  | _, [] => []
  | acc, e :: l => if e.2.2 then (acc ++ [e]) :: batches [] l else batches (acc ++ [e]) l

/-- Connectivity `c` was created, or its destinations or sources were changed (bits 0, 6 and 9). -/
def Relocated (B : List Call) (c : CID) : Prop := ∃ e ∈ B, e.1 = c ∧ ∃ b ∈ [0, 6, 9], e.2.1.testBit b = true

/-- Connectivity `c` was created or changed. -/
def Changed (B : List Call) (c : CID) : Prop := ∃ e ∈ B, e.1 = c ∧ ∃ b ∈ [0, 2, 3, 4, 5, 6, 7, 8, 9], e.2.1.testBit b = true
end Spec

/-! ### Messages -/

theorem everyone_paired (l : Sched.Label) : Sched.Spec.Paired (everyone l : Swap n) where
  agree _ _ := by simp [everyone]
  toOnce _ := List.nodup_finRange n
  fromOnce _ := List.nodup_finRange n

theorem everyone_staged (l : Sched.Label) : Staged fun p : Fin n => (everyone l).prog p := by
  have := Sched.staged_swaps (l := [(everyone l : Swap n)]) (by simpa using everyone_paired l)
  simpa using this

theorem ask_ok (w : Xch.World d n) : RoundOk (ask w) [(0, 0), (0, 1)] (fun _ _ => true) fun _ _ => true where
  recvIDs _ := rfl
  sendIDs _ := rfl
  agree id _ a b := by simp [ask, asking]
  toOnce _ _ _ := Sched.peers_nodup _
  fromOnce _ _ _ := (List.nodup_finRange n).filter _
  pre _ _ w hw := by simp [ask] at hw
  preComm _ _ w hw := by simp [ask] at hw
  preMem _ _ w hw := by simp [ask] at hw

theorem answer_ok (w : Xch.World d n) : RoundOk (answer w) [(0, 0), (0, 1)] (fun _ _ => true) fun _ _ => true where
  recvIDs _ := rfl
  sendIDs _ := rfl
  agree id _ a b := by simp [answer, asking]
  toOnce _ _ _ := (List.nodup_finRange n).filter _
  fromOnce _ _ _ := Sched.peers_nodup _
  pre _ _ w hw := by simp [answer] at hw
  preComm _ _ w hw := by simp [answer] at hw
  preMem _ _ w hw := by simp [answer] at hw

theorem ranks_staged (w : Xch.World d n) (u : Nat) : Staged (ranks w u) := by
  unfold ranks
  exact ((((((everyone_staged _).append (everyone_staged _)).append (everyone_staged _)).append
    (Sched.staged_round (ask_ok w) _)).append (Sched.staged_round (ask_ok w) _)).append
    (Sched.staged_round (answer_ok w) _)).append (everyone_staged _)

theorem staged_nil : Staged fun _ : Fin n => ([] : List (Cmd n)) :=
  Sched.staged_swaps (l := []) (by simp)

/-! ### All processes -/

/-- All processes agree and what they communicated is in order. -/
structure Agree (x : Fin n → State n) : Prop where
  ranks : ∀ p q, (x p).manifest.ranks = [] ↔ (x q).manifest.ranks = []
  updates : ∀ p q, (x p).updates = (x q).updates
  staged : Staged fun p => (x p).prog

theorem Agree.update {x : Fin n → State n} (h : Agree x) (W : Nat → Xch.World d n) :
    Agree fun p => update W p (x p) := by
  refine ⟨fun _ _ => Iff.rfl, fun p q => by simp only [XComm.update, h.updates p q], ?_⟩
  show Staged fun p => (x p).prog ++ _
  apply h.staged.append
  cases n with
  | zero => exact ⟨[], fun p => p.elim0, Sched.good_nil, Sched.bal_nil⟩
  | succ n =>
    by_cases e : (x 0).manifest.ranks = []
    · have : (fun p => if (x p).manifest.ranks = [] then [] else XComm.ranks (W (x p).updates) (x p).updates p) =
          fun _ : Fin (n + 1) => ([] : List (Cmd (n + 1))) := by
        funext p
        rw [if_pos ((h.ranks p 0).2 e)]
      rw [this]
      exact staged_nil
    · have : (fun p => if (x p).manifest.ranks = [] then [] else XComm.ranks (W (x p).updates) (x p).updates p) =
          XComm.ranks (W (x 0).updates) (x 0).updates := by
        funext p
        rw [if_neg fun e' => e ((h.ranks p 0).1 e'), h.updates p 0]
      rw [this]
      exact ranks_staged _ _

theorem insert_ne_nil (s : List CID) (c : CID) : OSet.insert elemLess s c ≠ [] := by
  unfold OSet.insert OSet.insertAt
  have hi : s.insertIdx (OSet.lowerBound elemLess s c) c ≠ [] ∨ s ≠ [] := by
    cases s with
    | nil => exact Or.inl (by unfold OSet.lowerBound bisect; simp)
    | cons a s => exact Or.inr (by simp)
  have hs : s ≠ [] → s.insertIdx (OSet.lowerBound elemLess s c) c ≠ [] := by
    intro h e
    have := congrArg List.length e
    rw [List.length_insertIdx] at this
    have := List.length_pos_iff.2 h
    split at * <;> simp_all
  have hn : s.insertIdx (OSet.lowerBound elemLess s c) c ≠ [] := hi.elim id hs
  split
  · exact hn
  · rename_i x hx
    split
    · exact hn
    · rintro rfl
      simp at hx

theorem Agree.onEvent {x : Fin n → State n} (h : Agree x) (W : Nat → Xch.World d n) (e : Call) :
    Agree fun p => onEvent W p (x p) e := by
  have h1 : Agree fun p => { x p with manifest := (x p).manifest.add e.1 e.2.1 } := by
    refine ⟨fun p q => ?_, h.updates, h.staged⟩
    simp only [Manifest.add, insertIf]
    split
    · exact ⟨fun h => absurd h (insert_ne_nil _ _), fun h => absurd h (insert_ne_nil _ _)⟩
    · exact h.ranks p q
  unfold XComm.onEvent
  cases e.2.2
  · exact h1
  · exact h1.update W

theorem Agree.events {x : Fin n → State n} (h : Agree x) (W : Nat → Xch.World d n) (l : List Call) :
    Agree fun p => l.foldl (XComm.onEvent W p) (x p) := by
  induction l generalizing x with
  | nil => exact h
  | cons e l ih => exact ih (h.onEvent W e)

theorem bind_manifest (ids : List CID) : ∀ m : Manifest, Sorted elemLess m.ranks → Sorted elemLess m.reset →
    (∀ c, c ∈ (ids.foldl (fun m c => (⟨OSet.insert elemLess m.create c, m.destroy, OSet.insert elemLess m.ranks c,
      OSet.insert elemLess m.reset c⟩ : Manifest)) m).ranks ↔ c ∈ ids ∨ c ∈ m.ranks) ∧
    ∀ c, c ∈ (ids.foldl (fun m c => (⟨OSet.insert elemLess m.create c, m.destroy, OSet.insert elemLess m.ranks c,
      OSet.insert elemLess m.reset c⟩ : Manifest)) m).reset ↔ c ∈ ids ∨ c ∈ m.reset := by
  induction ids with
  | nil => intro m _ _; simp
  | cons a ids ih =>
    intro m h1 h2
    have k1 := Comp.fold_insert Comp.esto [a] h1
    have k2 := Comp.fold_insert Comp.esto [a] h2
    simp only [List.foldl_cons, List.foldl_nil] at k1 k2
    have := ih ⟨OSet.insert elemLess m.create a, m.destroy, OSet.insert elemLess m.ranks a,
      OSet.insert elemLess m.reset a⟩ k1.1 k2.1
    simp only [List.foldl_cons]
    refine ⟨fun c => ?_, fun c => ?_⟩
    · rw [this.1 c, k1.2 c]; simp only [List.mem_cons, List.not_mem_nil, or_false]; tauto
    · rw [this.2 c, k2.2 c]; simp only [List.mem_cons, List.not_mem_nil, or_false]; tauto

theorem sorted_nil : Sorted elemLess ([] : List CID) := List.Pairwise.nil

theorem Agree.bind (W : Nat → Xch.World d n) {ids : Fin n → List CID} (h : ∀ p q c, c ∈ ids p ↔ c ∈ ids q) :
    Agree fun p => bind W (ids p) p := by
  refine Agree.update (x := fun p => ⟨(ids p).foldl (fun m c => ⟨OSet.insert elemLess m.create c, m.destroy,
    OSet.insert elemLess m.ranks c, OSet.insert elemLess m.reset c⟩) {}, 0, (everyone (0, (2, 0), 0)).prog p, []⟩) ⟨fun p q => ?_, fun _ _ => rfl, everyone_staged _⟩ W
  have e : ∀ p, ((ids p).foldl (fun m c => (⟨OSet.insert elemLess m.create c, m.destroy,
      OSet.insert elemLess m.ranks c, OSet.insert elemLess m.reset c⟩ : Manifest)) {}).ranks = [] ↔ ∀ c, c ∉ ids p := by
    intro p
    rw [List.eq_nil_iff_forall_not_mem]
    refine forall_congr' fun c => ?_
    rw [(bind_manifest (ids p) {} sorted_nil sorted_nil).1 c]
    simp
  dsimp only
  rw [e p, e q]
  exact forall_congr' fun c => not_congr (h p q c)

/-- **C122.** The communication of an exchanger that hears the same on all processes is safe: no process waits forever,
each message is received where it is meant to be, and none is left. -/
theorem C122_safe (W : Nat → Xch.World d n) {ids : Fin n → List CID} (h : ∀ p q c, c ∈ ids p ↔ c ∈ ids q)
    (l : List Call) : Sched.Spec.Safe fun p => (bound W (ids p) l p).prog := by
  have h1 := (Agree.bind W h).events W l
  obtain ⟨S, hS, hg, hb⟩ := (h1.staged.append (everyone_staged (0, (2, 1), 0))).append (everyone_staged (0, (2, 2), 0))
  have : (fun p => (bound W (ids p) l p).prog) = Sched.flat S := by
    funext p
    rw [hS p]
    rfl
  rw [this]
  exact Sched.safe_of_good hg hb

/-! ### Nothing is left out -/

theorem matchAny_iff (f m : Nat) : matchAny f m = true ↔ ∃ b, f.testBit b = true ∧ m.testBit b = true := by
  simp only [matchAny, bne_iff_ne, ne_eq]
  constructor
  · intro h
    by_contra hc
    push Not at hc
    refine h (Nat.eq_of_testBit_eq fun i => ?_)
    rw [Nat.testBit_and, Nat.zero_testBit]
    cases hf : f.testBit i
    · rfl
    · simpa using hc i hf
  · rintro ⟨b, h1, h2⟩ h
    have := congrArg (fun x => Nat.testBit x b) h
    simp [Nat.testBit_and, h1, h2] at this

theorem bits_of {m : Nat} {bs : List Nat} (hlt : m < 2 ^ 10) (hb : ∀ b < 10, m.testBit b = true ↔ b ∈ bs)
    (hbs : ∀ b ∈ bs, b < 10) (f : Nat) : matchAny f m = true ↔ ∃ b ∈ bs, f.testBit b = true := by
  rw [matchAny_iff]
  constructor
  · rintro ⟨b, h1, h2⟩
    have : b < 10 := by
      by_contra hc
      rw [Nat.testBit_lt_two_pow (lt_of_lt_of_le hlt (Nat.pow_le_pow_right (by omega) (by omega)))] at h2
      exact absurd h2 (by simp)
    exact ⟨b, (hb b this).1 h2, h1⟩
  · rintro ⟨b, h1, h2⟩
    exact ⟨b, h2, (hb b (hbs b h1)).2 h1⟩

theorem relocated_iff (f : Nat) :
    (matchAny f Comp.CREATE || matchAny f editDests || matchAny f editSources) = true ↔
      ∃ b ∈ [0, 6, 9], f.testBit b = true := by
  rw [Bool.or_eq_true, Bool.or_eq_true,
    bits_of (m := Comp.CREATE) (bs := [0]) (by decide) (by decide) (by decide),
    bits_of (m := editDests) (bs := [6]) (by decide) (by decide) (by decide),
    bits_of (m := editSources) (bs := [9]) (by decide) (by decide) (by decide)]
  simp [or_assoc]

theorem changed_iff (f : Nat) : (matchAny f Comp.CREATE || matchAny f allEdits) = true ↔
    ∃ b ∈ [0, 2, 3, 4, 5, 6, 7, 8, 9], f.testBit b = true := by
  rw [Bool.or_eq_true, bits_of (m := Comp.CREATE) (bs := [0]) (by decide) (by decide) (by decide),
    bits_of (m := allEdits) (bs := [2, 3, 4, 5, 6, 7, 8, 9]) (by decide) (by decide) (by decide)]
  simp

/-- The manifest contains what has been heard since the last update. -/
structure Holds (m : Manifest) (acc : List Call) : Prop where
  rsort : Sorted elemLess m.ranks
  esort : Sorted elemLess m.reset
  ranks : ∀ c, c ∈ m.ranks ↔ Spec.Relocated acc c
  reset : ∀ c, c ∈ m.reset ↔ Spec.Changed acc c

theorem insertIf_spec {b : Bool} {s : List CID} (h : Sorted elemLess s) (c : CID) :
    Sorted elemLess (insertIf b s c) ∧ ∀ x, x ∈ insertIf b s c ↔ x ∈ s ∨ (b = true ∧ c = x) := by
  unfold insertIf
  cases b
  · exact ⟨h, by simp⟩
  · have := Comp.fold_insert Comp.esto [c] h
    simp only [List.foldl_cons, List.foldl_nil] at this
    refine ⟨this.1, fun x => ?_⟩
    rw [if_pos rfl, this.2 x]
    simp only [List.mem_cons, List.not_mem_nil, or_false, true_and]
    constructor
    · rintro (rfl | h)
      · exact Or.inr rfl
      · exact Or.inl h
    · rintro (h | rfl)
      · exact Or.inr h
      · exact Or.inl rfl

theorem Holds.add {m : Manifest} {acc : List Call} (h : Holds m acc) (e : Call) :
    Holds (m.add e.1 e.2.1) (acc ++ [e]) := by
  have k1 := insertIf_spec (b := matchAny e.2.1 Comp.CREATE || matchAny e.2.1 editDests || matchAny e.2.1 editSources)
    h.rsort e.1
  have k2 := insertIf_spec (b := matchAny e.2.1 Comp.CREATE || matchAny e.2.1 allEdits) h.esort e.1
  refine ⟨k1.1, k2.1, fun c => ?_, fun c => ?_⟩
  · refine (k1.2 c).trans ?_
    rw [h.ranks, relocated_iff]
    simp only [Spec.Relocated, List.mem_append, List.mem_singleton]
    constructor
    · rintro (⟨e', h1, h2⟩ | ⟨h1, h2⟩)
      · exact ⟨e', Or.inl h1, h2⟩
      · exact ⟨e, Or.inr rfl, h2, h1⟩
    · rintro ⟨e', h1 | rfl, h2⟩
      · exact Or.inl ⟨e', h1, h2⟩
      · exact Or.inr ⟨h2.2, h2.1⟩
  · refine (k2.2 c).trans ?_
    rw [h.reset, changed_iff]
    simp only [Spec.Changed, List.mem_append, List.mem_singleton]
    constructor
    · rintro (⟨e', h1, h2⟩ | ⟨h1, h2⟩)
      · exact ⟨e', Or.inl h1, h2⟩
      · exact ⟨e, Or.inr rfl, h2, h1⟩
    · rintro ⟨e', h1 | rfl, h2⟩
      · exact Or.inl ⟨e', h1, h2⟩
      · exact Or.inr ⟨h2.2, h2.1⟩

theorem holds_nil : Holds {} [] := ⟨sorted_nil, sorted_nil, by simp [Spec.Relocated], by simp [Spec.Changed]⟩

theorem events_done (W : Nat → Xch.World d n) (p : Fin n) : ∀ (l acc : List Call) (s : State n), Holds s.manifest acc →
    ∃ rest, (l.foldl (onEvent W p) s).done = s.done ++ rest ∧
      List.Forall₂ (fun B x => (∀ c, c ∈ x.1 ↔ Spec.Relocated B c) ∧ ∀ c, c ∈ x.2 ↔ Spec.Changed B c)
        (Spec.batches acc l) rest := by
  intro l
  induction l with
  | nil => intro acc s _; exact ⟨[], by simp, .nil⟩
  | cons e l ih =>
    intro acc s h
    have h1 := h.add e
    simp only [List.foldl_cons, Spec.batches]
    by_cases he : e.2.2 = true
    · rw [if_pos he]
      obtain ⟨rest, r1, r2⟩ := ih [] (onEvent W p s e) (by
        unfold onEvent
        rw [if_pos he]
        exact holds_nil)
      refine ⟨((s.manifest.add e.1 e.2.1).ranks, (s.manifest.add e.1 e.2.1).reset) :: rest, ?_, .cons ⟨h1.ranks, h1.reset⟩ r2⟩
      rw [r1]
      unfold onEvent
      rw [if_pos he]
      simp [update]
    · rw [if_neg he]
      obtain ⟨rest, r1, r2⟩ := ih (acc ++ [e]) (onEvent W p s e) (by
        unfold onEvent
        rw [if_neg he]
        exact h1)
      refine ⟨rest, ?_, r2⟩
      rw [r1]
      unfold onEvent
      rw [if_neg he]

/-- **C122.** There is one update when the exchanger is bound and one for each sequence of events, on every process.  It
looks for the ranks of exactly the connectivities that were created or whose destinations or sources were changed, and
resets the operations of exactly those that were created or changed. -/
theorem C122_updates (W : Nat → Xch.World d n) (ids : List CID) (l : List Call) (p : Fin n) :
    ∃ x rest, (bound W ids l p).done = x :: rest ∧ (∀ c, c ∈ x.1 ↔ c ∈ ids) ∧ (∀ c, c ∈ x.2 ↔ c ∈ ids) ∧
      List.Forall₂ (fun B x => (∀ c, c ∈ x.1 ↔ Spec.Relocated B c) ∧ ∀ c, c ∈ x.2 ↔ Spec.Changed B c)
        (Spec.batches [] l) rest := by
  obtain ⟨rest, r1, r2⟩ := events_done W p l [] (bind W ids p) holds_nil
  have hb := bind_manifest ids {} sorted_nil sorted_nil
  refine ⟨_, rest, r1, fun c => ?_, fun c => ?_, r2⟩
  · simpa using hb.1 c
  · simpa using hb.2 c

/-! ### With a component -/

/-- Nothing is heard after the last sequence. -/
def Whole (l : List Call) : Prop := ∀ e, l.getLast? = some e → e.2.2 = true

theorem Whole.append {l l' : List Call} (h : Whole l) (h' : Whole l') : Whole (l ++ l') := by
  intro e he
  rw [List.getLast?_append] at he
  cases e' : l'.getLast? with
  | none =>
    rw [e'] at he
    exact h e (by simpa using he)
  | some x =>
    rw [e'] at he
    cases he
    exact h' _ e'

theorem whole_nil : Whole [] := fun e h => by simp at h

theorem announces_whole {pend : CID → Nat → Prop} {l : List Call} (h : Comp.Spec.Announces pend l) : Whole l := by
  intro e he
  rw [List.getLast?_eq_getElem?] at he
  refine (h.2.2.2 _ e he).2 ?_
  have := (List.getElem?_eq_some_iff.1 he).1
  omega

theorem marks_whole (flag : Nat) (ids : List CID) : Whole (CompC.Spec.marks flag ids) := by
  intro e he
  rw [List.getLast?_eq_getElem?] at he
  simp only [CompC.Spec.marks, List.length_mapIdx, List.getElem?_mapIdx] at he
  obtain ⟨c, h1, rfl⟩ := Option.map_eq_some_iff.1 he
  have := (List.getElem?_eq_some_iff.1 h1).1
  simp only [decide_eq_true_eq]
  omega

theorem heard_whole {S : CompC.Spec.World} {a : CompC.Act} {l : List Call} (h : CompC.Spec.Heard S a l) : Whole l := by
  cases a with
  | createGrids es =>
    rcases h with ⟨-, rfl⟩ | ⟨-, h⟩
    · exact whole_nil
    · exact announces_whole h
  | destroyGrids ids =>
    rcases h with ⟨-, rfl⟩ | ⟨-, l', ds, rfl, h, -⟩
    · exact whole_nil
    · exact (announces_whole h).append (marks_whole _ _)
  | createConns ids =>
    obtain ⟨l', rfl, h⟩ := h
    exact (announces_whole h).append (marks_whole _ _)
  | destroyConns ids =>
    obtain ⟨l', rfl, h⟩ := h
    exact (announces_whole h).append (marks_whole _ _)
  | restoreComponent =>
    rcases h with ⟨-, rfl⟩ | ⟨-, h⟩
    · exact whole_nil
    · exact announces_whole h
  | edit m c => rw [show l = [] from h]; exact whole_nil
  | restore m c => rw [show l = [] from h]; exact whole_nil
  | change x c => rw [show l = [] from h]; exact whole_nil
  | editComponent => rw [show l = [] from h]; exact whole_nil

theorem hears_whole : ∀ {as : List CompC.Act} {S : CompC.Spec.World} {l : List Call}, CompC.Spec.Hears S as l → Whole l := by
  intro as
  induction as with
  | nil => intro S l h; rw [show l = [] from h]; exact whole_nil
  | cons a as ih =>
    rintro S l ⟨l1, l2, rfl, h1, h2⟩
    exact (heard_whole h1).append (ih h2)

theorem whole_manifest (W : Nat → Xch.World d n) (ids : List CID) (p : Fin n) {l : List Call} (h : Whole l) :
    (bound W ids l p).manifest = {} := by
  show (l.foldl (onEvent W p) (bind W ids p)).manifest = {}
  rcases List.eq_nil_or_concat l with rfl | ⟨l', e, rfl⟩
  · rfl
  · rw [List.concat_eq_append] at h ⊢
    rw [List.foldl_append, List.foldl_cons, List.foldl_nil]
    unfold onEvent
    rw [if_pos (h e (by simp))]
    rfl

/-- **C122.** Whatever calls of a connectivity component are made before an exchanger is bound to it (`as`) and until it
is unbound (`bs`): the communication of the exchanger is safe, and after the last call nothing is left to be updated. -/
theorem C122_component {mem : Nat → Fin n → Bool} (hn : 0 < n) (debug : Bool) {as bs : List CompC.Act}
    (ha : CompC.Spec.LegalAll mem CompC.Spec.empty as)
    (hb : CompC.Spec.LegalAll mem (CompC.Spec.after CompC.Spec.empty as) bs) (W : Nat → Xch.World d n) :
    ∃ (t u : Fin n → CompC.State) (l : List Call),
      CompC.Spec.Ends mem (fun p => CompC.history mem debug p as CompC.State.start) (fun p => some (t p)) ∧
      CompC.Spec.Ends mem (fun p => CompC.history mem debug p bs (t p)) (fun p => some (u p)) ∧
      (∀ p, (u p).base.log = (t p).base.log ++ l) ∧ CompC.Spec.Hears (CompC.Spec.after CompC.Spec.empty as) bs l ∧
      (Sched.Spec.Safe fun p => (bound W (t p).base.records l p).prog) ∧
      ∀ p, (bound W (t p).base.records l p).manifest = {} := by
  obtain ⟨t, l, h1, -, -, h4⟩ := CompC.history_runs debug ⟨0, hn⟩ as CompC.inv_start ha
  obtain ⟨u, l', -, h2', h3', h4'⟩ := CompC.history_runs debug ⟨0, hn⟩ bs h1 hb
  obtain ⟨N, hN⟩ := h4.executions
  obtain ⟨N', hN'⟩ := h4'.executions
  refine ⟨t, u, l', ⟨N, fun cs y hy => ⟨(hN cs y hy).1, (hN cs y hy).2.1⟩⟩,
    ⟨N', fun cs y hy => ⟨(hN' cs y hy).1, (hN' cs y hy).2.1⟩⟩, h2', h3', C122_safe W (fun p q c => ?_) l',
    fun p => whole_manifest W _ p (hears_whole h3')⟩
  rw [(h1.right p).2.2.1 c, (h1.right q).2.2.1 c]

/-! ### An example, and a wrong version -/

/-- Three processes: 0 and 1 ask 2 about the destinations of their donors. -/
example : (2 : Fin 3) ∈ asked Xch.exShared true 0 ∧ (2 : Fin 3) ∈ asked Xch.exShared true 1 ∧
    (0 : Fin 3) ∈ asking Xch.exShared true 2 := by
  have h : ∀ p : Fin 3, p = 0 ∨ p = 1 → (2 : Fin 3) ∈ asked Xch.exShared true p := by
    intro p hp
    refine (Sched.mem_peers _ _).2 ?_
    rcases hp with rfl | rfl <;> decide +kernel
  exact ⟨h 0 (Or.inl rfl), h 1 (Or.inr rfl), List.mem_filter.2 ⟨List.mem_finRange _, decide_eq_true (h 0 (Or.inl rfl))⟩⟩

/-- A change of destinations and of sources in one sequence, then one of interpolation coefficients. -/
example : (Spec.batches [] [(⟨[1, 2], rfl⟩, 1 <<< 6, false), (⟨[1, 2], rfl⟩, 1 <<< 9, true), (⟨[1, 2], rfl⟩, 1 <<< 5, true)]) =
    [[(⟨[1, 2], rfl⟩, 1 <<< 6, false), (⟨[1, 2], rfl⟩, 1 <<< 9, true)], [(⟨[1, 2], rfl⟩, 1 <<< 5, true)]] := by rfl

/-- **C122.** If one process does not hear of a change of destinations, the communication is not safe: its barrier in
`Unbind` meets the barrier with which the others start looking for ranks. -/
theorem C122_skip : ¬ Sched.Spec.Safe fun p : Fin 3 =>
    (bound (fun _ => Xch.exShared) [] (if p = 2 then [] else [(⟨[1, 2], rfl⟩, 1 <<< 6, true)]) p).prog := by
  intro h
  have := h.matching ((List.replicate 13 [0, 1, 2]).flatten) (fun _ => 13) (by decide +kernel) (.all none) 0 2 1
    (0, (2, 1), 0) (3, (1, 0), 0) (by decide +kernel) (by decide +kernel)
  exact absurd this (by decide)

end Ovk.XComm
