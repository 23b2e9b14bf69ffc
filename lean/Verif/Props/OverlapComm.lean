/-
Property C125: the messages of overlap detection meet the receives meant for them and no process waits forever; both
sides know who may overlap whom.
-/
import Verif.Model.OverlapComm
import Verif.Props.ImportComm
import Verif.Lemmas.Component
import Verif.Lemmas.DistHash

namespace Ovk.OvlComm
open Sched (Cmd Swap Comm Pair Label Op Stage Staged Bal chan opsOf)
open ImpComm (Group Hash world)
variable {n : Nat}

namespace Spec
/-- The hash works as it should (C19, C28); a process finds only fragments of the grids that the other process has. -/
structure Fit (W : Search n) : Prop where
  grids : W.grids.Nodup
  hash : ImpComm.Spec.Sound world W.hash
  found : ∀ s k m r, W.found s k m r ≠ [] → W.loc m r = true

/-- Process `s` has found a fragment of grid `m` on process `r` that may contain one of its points of grid `k`. -/
def MayOverlap (W : Search n) (s : Fin n) (k m : Nat) (r : Fin n) : Prop := W.loc k s = true ∧ W.found s k m r ≠ []
end Spec

/-! ### Rounds -/

structure Slot.Ok (x : Slot n) : Prop where
  agree : ∀ a b, b ∈ x.to_ a ↔ a ∈ x.from_ b
  toOnce : ∀ a, (x.to_ a).Nodup
  fromOnce : ∀ a, (x.from_ a).Nodup

def Slot.ops (x : Slot n) (send : Bool) (s : Nat) (p : Fin n) : List (Op n) :=
  if send then (x.to_ p).flatMap fun q => ((x.labels p q).map fun l => (s, l)).map fun l => ⟨.grid x.tag, true, q, l⟩
  else (x.from_ p).flatMap fun q => ((x.labels q p).map fun l => (s, l)).map fun l => ⟨.grid x.tag, false, q, l⟩

def roundStage (s : Nat) (R S : List (Slot n)) : Stage n where
  ops p := R.flatMap (·.ops false s p) ++ S.flatMap (·.ops true s p)
  wait _ := some ((R ++ S).map fun x => .grid x.tag)

theorem chan_peers {l : List (Fin n)} (hl : l.Nodup) (t : Bool) (c : Comm) (f : Fin n → List Label) (t' : Bool) (c' : Comm)
    (q : Fin n) : chan (l.flatMap fun q => (f q).map fun i => (⟨c, t, q, i⟩ : Op n)) t' c' q =
      if t = t' ∧ c = c' ∧ q ∈ l then f q else [] := by
  induction l with
  | nil => simp [chan]
  | cons y l ih =>
    obtain ⟨h1, h2⟩ := List.nodup_cons.1 hl
    rw [List.flatMap_cons, Sched.chan_append, ih h2]
    have hy : chan ((f y).map fun i => (⟨c, t, y, i⟩ : Op n)) t' c' q = if t = t' ∧ c = c' ∧ y = q then f y else [] := by
      unfold chan
      rw [List.filterMap_map]
      by_cases h : t = t' ∧ c = c' ∧ y = q
      · rw [if_pos h]
        simp only [Function.comp_def, h, and_self, if_true]
        simp
      · rw [if_neg h]
        simp only [Function.comp_def, h, if_false]
        simp
    rw [hy]
    by_cases hsc : t = t' ∧ c = c'
    · by_cases hyq : y = q
      · subst hyq
        simp [hsc, h1]
      · simp [hsc, hyq, Ne.symm hyq]
    · have : ∀ P : Prop, ¬ (t = t' ∧ c = c' ∧ P) := fun P h => hsc ⟨h.1, h.2.1⟩
      rw [if_neg (this _), if_neg (this _), if_neg (this _), List.append_nil]

theorem Slot.Ok.chan_ops {x : Slot n} (h : x.Ok) (t : Bool) (s : Nat) (p : Fin n) (t' : Bool) (c : Comm) (q : Fin n) :
    chan (x.ops t s p) t' c q = if t = t' ∧ .grid x.tag = c ∧ (if t then q ∈ x.to_ p else q ∈ x.from_ p) then
      (if t then x.labels p q else x.labels q p).map fun l => (s, l) else [] := by
  unfold Slot.ops
  cases t
  · simp only [Bool.false_eq_true, if_false]
    exact chan_peers (h.fromOnce p) false _ (fun q => (x.labels q p).map fun l => (s, l)) t' c q
  · simp only [if_true]
    exact chan_peers (h.toOnce p) true _ (fun q => (x.labels p q).map fun l => (s, l)) t' c q

/-- A round is balanced if both loops go through the slots of each tag in the same order. -/
theorem round_staged {s : Nat} {R S : List (Slot n)} (hR : ∀ x ∈ R, x.Ok) (hS : ∀ x ∈ S, x.Ok)
    (h : ∀ t, R.filter (fun x => decide (x.tag = t)) = S.filter fun x => decide (x.tag = t)) :
    Staged fun p => round s R S p := by
  have e : (fun p => round s R S p) = (roundStage s R S).prog := by
    funext p
    simp only [round, roundStage, Stage.prog, Option.toList_some, List.map_cons, List.map_nil, List.map_append,
      List.map_flatMap]
    congr 1
    congr 1
    · apply Sched.flatMap_congr'
      intro x _
      simp [Slot.msgs, Slot.ops, List.map_flatMap, Function.comp_def]
    · apply Sched.flatMap_congr'
      intro x _
      simp [Slot.msgs, Slot.ops, List.map_flatMap, Function.comp_def]
  rw [e]
  apply ImpComm.single_staged
  intro c a b
  have e1 : ∀ p, opsOf [roundStage s R S] p = R.flatMap (·.ops false s p) ++ S.flatMap (·.ops true s p) := fun p => by
    simp [opsOf, roundStage]
  have nil : ∀ (l : List (Slot n)) (t t' : Bool) p q, t ≠ t' → (∀ x ∈ l, x.Ok) →
      chan (l.flatMap (·.ops t s p)) t' c q = [] := by
    intro l t t' p q ht hl
    rw [Sched.chan_flatMap, List.flatMap_eq_nil_iff]
    intro x hx
    rw [(hl x hx).chan_ops, if_neg fun e => ht e.1]
  rw [e1, e1, Sched.chan_append, Sched.chan_append, nil S true false b a (by decide) hS, nil R false true a b (by decide) hR,
    List.append_nil, List.nil_append, Sched.chan_flatMap, Sched.chan_flatMap]
  cases c with
  | grid t =>
    have key : ∀ (l : List (Slot n)) (f : Slot n → List Label), (∀ x ∈ l, x.tag ≠ t → f x = []) →
        l.flatMap f = (l.filter fun x => decide (x.tag = t)).flatMap f := by
      intro l f hf
      rw [Sched.flatMap_filter_if]
      apply Sched.flatMap_congr'
      intro x hx
      by_cases hxt : x.tag = t
      · simp [hxt]
      · simp [hxt, hf x hx hxt]
    rw [key R _ fun x hx hxt => by rw [(hR x hx).chan_ops, if_neg fun e => hxt (by simpa using e.2.1)],
      key S _ fun x hx hxt => by rw [(hS x hx).chan_ops, if_neg fun e => hxt (by simpa using e.2.1)], h t]
    apply Sched.flatMap_congr'
    intro x hx
    have hx' := List.mem_filter.1 hx
    have ok := hS x hx'.1
    rw [ok.chan_ops, ok.chan_ops]
    simp only [Bool.false_eq_true, if_false, if_true, true_and]
    have := ok.agree a b
    by_cases h' : b ∈ x.to_ a
    · simp [h', this.1 h']
    · simp [h', mt this.2 h']
  | domain =>
    have : ∀ (l : List (Slot n)) (t : Bool) p q, (∀ x ∈ l, x.Ok) → (l.flatMap fun x => chan (x.ops t s p) t .domain q) = [] := by
      intro l t p q hl
      rw [List.flatMap_eq_nil_iff]
      intro x hx
      rw [(hl x hx).chan_ops, if_neg fun e => by simp at e]
    rw [this R false b a hR, this S true a b hS]
  | all g =>
    have : ∀ (l : List (Slot n)) (t : Bool) p q, (∀ x ∈ l, x.Ok) → (l.flatMap fun x => chan (x.ops t s p) t (.all g) q) = [] := by
      intro l t p q hl
      rw [List.flatMap_eq_nil_iff]
      intro x hx
      rw [(hl x hx).chan_ops, if_neg fun e => by simp at e]
    rw [this R false b a hR, this S true a b hS]

/-! ### The two sides agree -/

section
variable {W : Search n}

theorem mem_mRanks {s r : Fin n} {k m : Nat} : r ∈ W.mRanks s k m ↔ Spec.MayOverlap W s k m r := by
  unfold Search.mRanks Spec.MayOverlap
  split <;> simp_all

theorem mem_remoteM {s r : Fin n} :
    r ∈ W.remoteM s ↔ r ≠ s ∧ ∃ k ∈ W.grids, ∃ m ∈ W.grids, Spec.MayOverlap W s k m r := by
  simp [Search.remoteM, mem_mRanks]

theorem mem_remoteN {s r : Fin n} : s ∈ W.remoteN r ↔ r ∈ W.remoteM s := by
  simp [Search.remoteN, ImpComm.asking, Group.members, world]

theorem mem_pairsTo {s r : Fin n} {m k : Nat} :
    (m, k) ∈ W.pairsTo s r ↔ m ∈ W.grids ∧ k ∈ W.grids ∧ Spec.MayOverlap W s k m r := by
  unfold Search.pairsTo
  simp only [List.mem_flatMap]
  constructor
  · rintro ⟨k', hk, m', hm, h⟩
    split at h
    · rename_i hr
      simp only [List.mem_singleton, Prod.mk.injEq] at h
      obtain ⟨rfl, rfl⟩ := h
      exact ⟨hm, hk, mem_mRanks.1 hr⟩
    · cases h
  · rintro ⟨hm, hk, h⟩
    exact ⟨k, hk, m, hm, by rw [if_pos (mem_mRanks.2 h)]; simp⟩

/-- **C125.** The process that has a grid knows exactly the processes and grids for which some fragment of it was found. -/
theorem C125_agree (h : Spec.Fit W) {m k : Nat} (hm : m ∈ W.grids) (hk : k ∈ W.grids) (r s : Fin n) :
    s ∈ W.nRanks r m k ↔ Spec.MayOverlap W s k m r := by
  unfold Search.nRanks
  constructor
  · intro hs
    split at hs
    · simp only [List.mem_filter, List.mem_finRange, true_and] at hs
      split at hs
      · rename_i e
        subst e
        exact mem_mRanks.1 (by simpa using hs)
      · simp only [Bool.and_eq_true, decide_eq_true_eq] at hs
        exact (mem_pairsTo.1 hs.2).2.2
    · cases hs
  · intro hs
    rw [if_pos (h.found _ _ _ _ hs.2)]
    simp only [List.mem_filter, List.mem_finRange, true_and]
    split
    · rename_i e
      subst e
      simpa using mem_mRanks.2 hs
    · rename_i e
      simp only [Bool.and_eq_true, decide_eq_true_eq]
      exact ⟨mem_remoteN.2 (mem_remoteM.2 ⟨Ne.symm e, k, hk, m, hm, hs⟩), mem_pairsTo.2 ⟨hm, hk, hs⟩⟩

theorem agree (h : Spec.Fit W) {m k : Nat} (hm : m ∈ W.grids) (hk : k ∈ W.grids) (r s : Fin n) :
    s ∈ W.nRanks r m k ↔ r ∈ W.mRanks s k m := (C125_agree h hm hk r s).trans mem_mRanks.symm

theorem grid_agree (h : Spec.Fit W) {m : Nat} (hm : m ∈ W.grids) (r s : Fin n) : s ∈ W.gridSends r m ↔ r ∈ W.gridRecvs s m := by
  simp only [Search.gridSends, Search.gridRecvs, List.mem_filter, List.mem_finRange, true_and, Bool.and_eq_true,
    decide_eq_true_eq, List.any_eq_true]
  constructor
  · rintro ⟨h1, k, hk, h2⟩
    exact ⟨Ne.symm h1, k, hk, (agree h hm hk r s).1 h2⟩
  · rintro ⟨h1, k, hk, h2⟩
    exact ⟨Ne.symm h1, k, hk, (agree h hm hk r s).2 h2⟩

theorem fin_nodup (q : Fin n → Bool) : ((List.finRange n).filter q).Nodup := (List.nodup_finRange n).filter _

theorem mRanks_nodup (s : Fin n) (k m : Nat) : (W.mRanks s k m).Nodup := by
  unfold Search.mRanks
  split
  · exact fin_nodup _
  · exact List.nodup_nil

theorem nRanks_nodup (r : Fin n) (m k : Nat) : (W.nRanks r m k).Nodup := by
  unfold Search.nRanks
  split
  · exact fin_nodup _
  · exact List.nodup_nil

theorem toM_ok (h : Spec.Fit W) {m : Nat} (hm : m ∈ W.grids) : (W.toM m).Ok :=
  ⟨fun a b => (grid_agree h hm b a).symm, fun _ => fin_nodup _, fun _ => fin_nodup _⟩

theorem cells_ok (h : Spec.Fit W) {m : Nat} (hm : m ∈ W.grids) : (W.cells m).Ok :=
  ⟨fun a b => grid_agree h hm a b, fun _ => fin_nodup _, fun _ => fin_nodup _⟩

theorem ranges_ok (h : Spec.Fit W) {m : Nat} (hm : m ∈ W.grids) : (W.ranges m).Ok :=
  ⟨fun a b => grid_agree h hm a b, fun _ => fin_nodup _, fun _ => fin_nodup _⟩

theorem numbers_ok (h : Spec.Fit W) {m k : Nat} (hm : m ∈ W.grids) (hk : k ∈ W.grids) : (W.numbers m k).Ok :=
  ⟨fun a b => (agree h hm hk b a).symm, fun _ => mRanks_nodup _ _ _, fun _ => nRanks_nodup _ _ _⟩

theorem entries_ok (h : Spec.Fit W) {m k : Nat} (hm : m ∈ W.grids) (hk : k ∈ W.grids) : (W.entries m k).Ok := by
  refine ⟨fun a b => ?_, fun _ => (mRanks_nodup _ _ _).filter _, fun _ => (nRanks_nodup _ _ _).filter _⟩
  simp only [Search.entries, List.mem_filter, agree h hm hk, Bool.and_eq_true, decide_eq_true_eq, ne_comm]

/-! ### Programs -/

theorem talk_staged {l : List (Swap n)} (h : ∀ w ∈ l, ∃ (G : Group n) (s : Nat), w = G.coll s) :
    Staged fun p => Search.talk l p :=
  Sched.staged_swaps fun w hw => by
    obtain ⟨G, s, rfl⟩ := h w hw
    exact ImpComm.coll_paired G s

theorem mem_said {s : Nat} {w : Swap n} (h : w ∈ W.said s) : ∃ (G : Group n) (s : Nat), w = G.coll s := by
  unfold Search.said at h
  split at h
  · exact ⟨world, s, List.mem_singleton.1 h⟩
  · cases h

theorem mem_synced {s : Nat} {w : Swap n} (h : w ∈ W.synced s) : ∃ (G : Group n) (s : Nat), w = G.coll s :=
  ⟨world, ImpComm.mem_sync h⟩

theorem mem_reductions {s : Nat} {w : Swap n} (h : w ∈ W.reductions s) : ∃ (G : Group n) (s : Nat), w = G.coll s := by
  simp only [Search.reductions, List.mem_flatMap, List.mem_map] at h
  obtain ⟨k, _, m, _, rfl⟩ := h
  exact ⟨_, _, rfl⟩

theorem grids_staged {f : Nat → Slot n} (hf : ∀ m ∈ W.grids, (f m).Ok) (s : Nat) :
    Staged fun p => round s (W.grids.map f) (W.grids.map f) p := by
  have : ∀ x ∈ W.grids.map f, x.Ok := fun x hx => by
    obtain ⟨m, hm, rfl⟩ := List.mem_map.1 hx
    exact hf m hm
  exact round_staged this this fun _ => rfl

/-- With the M grid as tag the order of the loops does not matter. -/
theorem pairs_staged (h : W.grids.Nodup) {f : Nat → Nat → Slot n} (hf : ∀ m ∈ W.grids, ∀ k ∈ W.grids, (f m k).Ok)
    (ht : ∀ m k, (f m k).tag = m) (s : Nat) : Staged fun p => round s (W.byM f) (W.byN f) p := by
  refine round_staged ?_ ?_ ?_
  · intro x hx
    simp only [Search.byM, List.mem_flatMap, List.mem_map] at hx
    obtain ⟨m, hm, k, hk, rfl⟩ := hx
    exact hf m hm k hk
  · intro x hx
    simp only [Search.byN, List.mem_flatMap, List.mem_map] at hx
    obtain ⟨k, hk, m, hm, rfl⟩ := hx
    exact hf m hm k hk
  · intro t
    unfold Search.byM Search.byN
    rw [List.filter_flatMap, List.filter_flatMap]
    simp only [List.filter_map, Function.comp_def, ht]
    have one : ∀ g : Nat → Slot n, ∀ l : List Nat, l.Nodup →
        (l.filter fun m => decide (m = t)).map g = if t ∈ l then [g t] else [] := by
      intro g l hl
      induction l with
      | nil => simp
      | cons y l ih =>
        obtain ⟨h1, h2⟩ := List.nodup_cons.1 hl
        rw [List.filter_cons]
        by_cases hy : y = t
        · subst hy
          simp [ih h2, h1]
        · simp [hy, ih h2, Ne.symm hy]
    have outer : ∀ g : Nat → List (Slot n), ∀ l : List Nat, l.Nodup →
        (l.flatMap fun m => if m = t then g m else []) = if t ∈ l then g t else [] := by
      intro g l hl
      induction l with
      | nil => simp
      | cons y l ih =>
        obtain ⟨h1, h2⟩ := List.nodup_cons.1 hl
        rw [List.flatMap_cons, ih h2]
        by_cases hy : y = t
        · subst hy
          simp [h1]
        · simp [hy, Ne.symm hy]
    have e1 : ∀ m, (W.grids.filter fun _ => decide (m = t)).map (fun k => f m k) =
        if m = t then W.grids.map (fun k => f m k) else [] := by
      intro m
      by_cases hmt : m = t <;> simp [hmt]
    simp only [e1, one _ _ h]
    rw [outer (fun m => W.grids.map fun k => f m k) _ h]
    by_cases htm : t ∈ W.grids
    · simp only [htm, if_true]
      induction W.grids with
      | nil => rfl
      | cons y l ih => simp [ih]
    · simp [htm]

theorem coll_mem {w : Swap n} {G : Group n} {s : Nat} (h : w ∈ [G.coll s]) : ∃ (G : Group n) (s : Nat), w = G.coll s :=
  ⟨G, s, List.mem_singleton.1 h⟩

theorem before_staged (h : Spec.Fit W) : Staged fun p => W.before p := by
  have hx : ∀ s, Staged fun p => ImpComm.exchange world s [⟨0, 1, W.remoteN, W.remoteM⟩] [] p := fun s =>
    ImpComm.exchange_staged (fun x hx => by
      obtain rfl := List.mem_singleton.1 hx
      exact (ImpComm.Heard.ok (ImpComm.heard_asking world W.remoteM) (fun _ => fin_nodup _) (fun _ _ _ _ => rfl) 0 1).1)
      (by simp)
  have hg := fun s => grids_staged (fun m hm => toM_ok h hm) s
  unfold Search.before
  refine ((((((((((talk_staged ?_).append (ImpComm.construct_staged h.hash 5)).append (talk_staged ?_)).append
    (ImpComm.retrieve_staged h.hash 16)).append (talk_staged ?_)).append (hx _)).append (hx _)).append
    (talk_staged ?_)).append (hg _)).append (hg _)).append (grids_staged (fun m hm => cells_ok h hm) _)
  · intro w hw
    simp only [List.mem_append] at hw
    rcases hw with (((h | h) | h) | h) | h
    exacts [coll_mem h, mem_synced h, mem_synced h, mem_said h, mem_synced h]
  · intro w hw
    simp only [List.mem_append] at hw
    rcases hw with (h | h) | h
    exacts [mem_said h, mem_said h, mem_synced h]
  · intro w hw
    simp only [List.mem_append] at hw
    rcases hw with (h | h) | h
    exacts [mem_said h, mem_synced h, coll_mem h]
  · intro w hw
    rcases List.mem_append.1 hw with h | h
    exacts [mem_said h, mem_synced h]

theorem after_staged (h : Spec.Fit W) : Staged fun p => W.after p := by
  unfold Search.after
  refine ((((((talk_staged ?_).append (grids_staged (fun m hm => ranges_ok h hm) _)).append
    (pairs_staged h.grids (fun m hm k hk => numbers_ok h hm hk) (fun _ _ => rfl) _)).append (talk_staged ?_)).append
    (talk_staged ?_)).append (talk_staged ?_)).append
    (pairs_staged h.grids (fun m hm k hk => entries_ok h hm hk) (fun _ _ => rfl) _)
  · exact fun w hw => coll_mem hw
  · intro w hw
    simp only [List.mem_append] at hw
    rcases hw with ((h | h) | h) | h
    · exact mem_said h
    · split at h
      · rcases List.mem_append.1 h with h | h
        · exact mem_reductions h
        · simp only [Search.byM, List.mem_flatMap, List.mem_map] at h
          obtain ⟨_, _, _, _, rfl⟩ := h
          exact ⟨_, _, rfl⟩
      · cases h
    · exact mem_said h
    · exact mem_synced h
  · intro w hw
    rcases List.mem_append.1 hw with h | h
    · exact mem_reductions h
    · simp only [List.mem_flatMap, List.mem_cons, List.mem_map] at h
      obtain ⟨k, _, rfl | ⟨_, _, rfl⟩⟩ := h <;> exact ⟨_, _, rfl⟩
  · intro w hw
    rcases List.mem_append.1 hw with h | h <;> exact mem_synced h

end

/-- **C125.** From the start of overlap detection to the transfer of fragments. -/
theorem C125_before {W : Search n} (h : Spec.Fit W) : Sched.Spec.Safe W.before := ImpComm.safe_of_staged (before_staged h)

/-- **C125.** From the transfer of fragments to the overlap data. -/
theorem C125_after {W : Search n} (h : Spec.Fit W) : Sched.Spec.Safe W.after := ImpComm.safe_of_staged (after_staged h)

/-- **C125.** A process asks another for the fragments of a grid that it has found for any of its own grids and for no
others, each once and in order. -/
theorem C125_needed (W : Search n) (s : Fin n) (m : Nat) (r : Fin n) :
    (W.needed s m r).Pairwise (· < ·) ∧
    ∀ i, i ∈ W.needed s m r ↔ ∃ k ∈ W.grids, W.loc k s = true ∧ i ∈ W.found s k m r := by
  have key : ∀ (gs : List Nat) (l : List Nat), Sorted (fun x y => decide (x < y)) l →
      Sorted (fun x y => decide (x < y))
        (gs.foldl (fun a k => (W.found s k m r).foldl (OSet.insert fun x y => decide (x < y)) a) l) ∧
      ∀ i, i ∈ gs.foldl (fun a k => (W.found s k m r).foldl (OSet.insert fun x y => decide (x < y)) a) l ↔
        (∃ k ∈ gs, i ∈ W.found s k m r) ∨ i ∈ l := by
    intro gs
    induction gs with
    | nil => intro l hl; exact ⟨hl, by simp⟩
    | cons g gs ih =>
      intro l hl
      obtain ⟨h1, h2⟩ := Comp.fold_insert DHash.natSTO (W.found s g m r) hl
      obtain ⟨h3, h4⟩ := ih _ h1
      refine ⟨h3, fun i => ?_⟩
      rw [List.foldl_cons, h4, h2]
      simp only [List.mem_cons, exists_eq_or_imp]
      constructor
      · rintro (h | h | h) <;> simp [h]
      · rintro ((h | h) | h) <;> simp [h]
  obtain ⟨h1, h2⟩ := key (W.grids.filter fun k => W.loc k s) [] List.Pairwise.nil
  refine ⟨?_, fun i => ?_⟩
  · have h1 : Sorted _ (W.needed s m r) := h1
    exact List.Pairwise.imp (fun h => of_decide_eq_true h) h1
  · unfold Search.needed
    rw [h2]
    simp [and_assoc]

/-- **C125.** Messages are told apart by the grids that they are about, so that a message that meets the receive meant for
it is about the right grids. -/
theorem C125_labels (W : Search n) (m k : Nat) (a b : Fin n) :
    (∀ l ∈ (W.toM m).labels a b, l.1.1 = m) ∧ (∀ l ∈ (W.cells m).labels a b, l.1.1 = m) ∧
    (∀ l ∈ (W.ranges m).labels a b, l.1.1 = m) ∧ (∀ l ∈ (W.numbers m k).labels a b, l.1 = (m, k)) ∧
    (∀ l ∈ (W.entries m k).labels a b, l.1 = (m, k)) ∧ ((W.toM m).labels a b).Nodup ∧
    ((W.cells m).labels a b).Nodup ∧ ((W.ranges m).labels a b).Nodup ∧ ((W.numbers m k).labels a b).Nodup ∧
    ((W.entries m k).labels a b).Nodup := by
  refine ⟨?_, ?_, ?_, ?_, ?_, ?_, ?_, ?_, ?_, ?_⟩
  · simp [Search.toM]
  · intro l hl
    simp only [Search.cells, List.mem_flatMap, List.mem_cons, List.not_mem_nil, or_false] at hl
    obtain ⟨i, _, rfl | rfl⟩ := hl <;> rfl
  · simp [Search.ranges]
  · simp [Search.numbers]
  · simp [Search.entries]
  · simp [Search.toM]
  · show ((W.needed b m a).flatMap fun i => [((m, i), 0), ((m, i), 1)]).Nodup
    rw [List.nodup_flatMap]
    refine ⟨fun i _ => by simp, (C125_needed W b m a).1.imp fun {i j} hij => ?_⟩
    simp [Function.onFun, Ne.symm (Nat.ne_of_lt hij), Nat.ne_of_lt hij]
  · show ((List.range 4).map fun j => ((m, 0), j)).Nodup
    exact List.nodup_range.map fun x y h => (Prod.mk.inj h).2
  · simp [Search.numbers]
  · show ((List.range 3).map fun j => ((m, k), j)).Nodup
    exact List.nodup_range.map fun x y h => (Prod.mk.inj h).2

/-- **C125.** The processes that take part in a reduction about a pair of grids are those of the N grid. -/
theorem C125_reductions (W : Search n) (s : Nat) (p : Fin n) {c : Cmd n} (h : c ∈ Search.talk (W.reductions s) p) :
    ∃ k ∈ W.grids, ∃ m ∈ W.grids, W.overlappable m k = true ∧ W.loc k p = true ∧
      ∀ o, c = .op o → o.comm = .all (some k) ∧ W.loc k o.peer = true ∧ o.label.1 = s + 2 * m := by
  simp only [Search.talk, Search.reductions, List.mem_flatMap, List.mem_map, List.mem_filter] at h
  obtain ⟨w, ⟨k, hk, m, ⟨hm, ho⟩, rfl⟩, hc⟩ := h
  unfold Swap.prog at hc
  split at hc
  · rename_i hp
    refine ⟨k, hk, m, hm, ho, hp, ?_⟩
    rintro o rfl
    have hmem : ∀ q, q ∈ (W.group k).members → W.loc k q = true := fun q hq => (List.mem_filter.1 hq).2
    simp only [List.mem_append, List.mem_map, List.mem_singleton] at hc
    rcases hc with (⟨q, hq, e⟩ | ⟨q, hq, e⟩) | e
    · cases e; exact ⟨rfl, hmem q hq, rfl⟩
    · cases e; exact ⟨rfl, hmem q hq, rfl⟩
    · cases e
  · cases hc

/-! ### An example, and a wrong version -/

/-- Grid 1 on processes 0 and 1, grid 2 on processes 1 and 2; grid 1 overlaps grid 2 on three pairs of processes, one of
which is a process with itself, and grid 2 overlaps grid 1 on one. -/
def exSearch : Search 3 where
  sync := true
  status := true
  grids := [1, 2]
  loc g p := if g = 1 then p != 2 else p != 0
  overlappable m k := m != k
  hash := ImpComm.exHash
  found s k m r :=
    if (s, k, m, r) = (2, 2, 1, 0) then [1, 3] else if (s, k, m, r) = (1, 2, 1, 0) then [3]
    else if (s, k, m, r) = (1, 2, 1, 1) then [1] else if (s, k, m, r) = (0, 1, 2, 2) then [2] else []
  count s _ _ r := if (s, r) = (1, 0) then 0 else 5

example : Spec.Fit exSearch := by
  refine ⟨by decide, ImpComm.exHash_sound none, fun s k m r h => ?_⟩
  simp only [exSearch, Prod.mk.injEq] at h ⊢
  split at h
  · rename_i e; obtain ⟨rfl, rfl, rfl, rfl⟩ := e; decide
  · split at h
    · rename_i e; obtain ⟨rfl, rfl, rfl, rfl⟩ := e; decide
    · split at h
      · rename_i e; obtain ⟨rfl, rfl, rfl, rfl⟩ := e; decide
      · split at h
        · rename_i e; obtain ⟨rfl, rfl, rfl, rfl⟩ := e; decide
        · exact absurd rfl h

/-- Process 0 learns of processes 1 and 2, but process 1 turns out to need nothing from it. -/
example : exSearch.nRanks 0 1 2 = [1, 2] ∧ (exSearch.entries 1 2).from_ 0 = [2] ∧ (exSearch.entries 1 2).to_ 1 = [] ∧
    (exSearch.cells 1).labels 0 2 = [((1, 1), 0), ((1, 1), 1), ((1, 3), 0), ((1, 3), 1)] := by decide +kernel

/-- Fragments that two of its grids need are asked for once; process 0 takes no part in reductions on grid 2. -/
example : exSearch.needed 2 1 0 = [1, 3] ∧ (Search.talk (exSearch.reductions 0) 0).length = 5 ∧
    (Search.talk (exSearch.reductions 0) 1).length = 10 := by decide +kernel

/-- **C125.** The tags are needed: with one tag for all grids, numbers of overlapping points would be mixed up, since one
loop runs over M grids first and the other over N grids. -/
theorem C125_tags : ¬ Sched.Spec.Safe fun p : Fin 2 =>
    let W : Search 2 := ⟨false, false, [1, 2], fun _ _ => true, fun _ _ => true, ⟨fun _ => [], fun _ => [], fun _ => [], fun _ => []⟩,
      fun s k m r => if s = 0 ∧ r = 1 ∧ k ≠ m then [1] else [], fun _ _ _ _ => 1⟩
    let f := fun m k => { W.numbers m k with tag := 0 }
    round 42 (W.byM f) (W.byN f) p := by
  intro h
  have := h.matching [0, 0, 1, 1] (fun _ => 2) (by decide +kernel) (.grid 0) 0 1 0 (42, (1, 2), 0) (42, (2, 1), 0)
    (by decide +kernel) (by decide +kernel)
  exact absurd this (by decide)

end Ovk.OvlComm
