/-
C52: profiler timers started by a wait are stopped when it returns.
-/
import Verif.Props.Request

namespace Ovk.Req

namespace Spec

def isStartWait : Ev → Bool
  | .startWait _ => true
  | _ => false

def isStopWait : Ev → Bool
  | .stopWait _ => true
  | _ => false

def isStartMPI : Ev → Bool
  | .startMPI _ => true
  | _ => false

def isStopMPI : Ev → Bool
  | .stopMPI _ => true
  | _ => false

/-- `ActiveCount` of the wait timer and of the MPI timer, when nothing else uses them. -/
def waitTimer (l : List Ev) : Option Nat := activeCount isStartWait isStopWait l
def mpiTimer (l : List Ev) : Option Nat := activeCount isStartMPI isStopMPI l

/-- Both timers are off. -/
def Off (l : List Ev) : Prop := waitTimer l = some 0 ∧ mpiTimer l = some 0

end Spec

/-! ### Counting -/

/-- As `activeCount`, from a given count. -/
def countFrom (isStart isStop : Ev → Bool) (c : Nat) (l : List Ev) : Option Nat :=
  l.foldlM (fun (c : Nat) e =>
    if isStart e then some (c + 1)
    else if isStop e then (if 0 < c then some (c - 1) else none)
    else some c) c

theorem activeCount_append (f g : Ev → Bool) (l m : List Ev) :
    activeCount f g (l ++ m) = (activeCount f g l).bind fun c => countFrom f g c m := by
  unfold activeCount countFrom
  rw [List.foldlM_append]
  rfl

theorem countFrom_starts (f g : Ev → Bool) {l : List Ev} (h : ∀ e ∈ l, f e = true) (c : Nat) :
    countFrom f g c l = some (c + l.length) := by
  induction l generalizing c with
  | nil => rfl
  | cons e l ih =>
    have := ih (fun e he => h e (List.mem_cons_of_mem _ he)) (c + 1)
    unfold countFrom at this ⊢
    rw [List.foldlM_cons, if_pos (h e List.mem_cons_self)]
    show List.foldlM _ (c + 1) l = _
    rw [this]
    simp; omega

theorem countFrom_stops (f g : Ev → Bool) {l : List Ev} (h : ∀ e ∈ l, f e = false ∧ g e = true) (c : Nat)
    (hc : l.length ≤ c) : countFrom f g c l = some (c - l.length) := by
  induction l generalizing c with
  | nil => rfl
  | cons e l ih =>
    simp only [List.length_cons] at hc
    have := ih (fun e he => h e (List.mem_cons_of_mem _ he)) (c - 1) (by omega)
    obtain ⟨h1, h2⟩ := h e List.mem_cons_self
    unfold countFrom at this ⊢
    rw [List.foldlM_cons, if_neg (by simp [h1]), if_pos h2, if_pos (by omega)]
    show List.foldlM _ (c - 1) l = _
    rw [this]
    simp; omega

theorem countFrom_other (f g : Ev → Bool) {l : List Ev} (h : ∀ e ∈ l, f e = false ∧ g e = false) (c : Nat) :
    countFrom f g c l = some c := by
  induction l generalizing c with
  | nil => rfl
  | cons e l ih =>
    have := ih (fun e he => h e (List.mem_cons_of_mem _ he)) c
    obtain ⟨h1, h2⟩ := h e List.mem_cons_self
    unfold countFrom at this ⊢
    rw [List.foldlM_cons, if_neg (by simp [h1]), if_neg (by simp [h2])]
    exact this

theorem count_starts {f g : Ev → Bool} {l m : List Ev} {c : Nat} (hl : activeCount f g l = some c)
    (h : ∀ e ∈ m, f e = true) : activeCount f g (l ++ m) = some (c + m.length) := by
  rw [activeCount_append, hl]
  exact countFrom_starts f g h c

theorem count_stops {f g : Ev → Bool} {l m : List Ev} {c : Nat} (hl : activeCount f g l = some c)
    (h : ∀ e ∈ m, f e = false ∧ g e = true) (hc : m.length ≤ c) :
    activeCount f g (l ++ m) = some (c - m.length) := by
  rw [activeCount_append, hl]
  exact countFrom_stops f g h c hc

theorem count_other {f g : Ev → Bool} {l m : List Ev} {c : Nat} (hl : activeCount f g l = some c)
    (h : ∀ e ∈ m, f e = false ∧ g e = false) : activeCount f g (l ++ m) = some c := by
  rw [activeCount_append, hl]
  exact countFrom_other f g h c

/-! ### Invariant: the wait timer counts the requests still there -/

/-- The wait timer has been started once per request still there; the MPI timer is off. -/
def Clock (s : St) : Prop :=
  Spec.waitTimer s.log = some (Spec.numLive s.reqs) ∧ Spec.mpiTimer s.log = some 0

theorem length_live (reqs : List (Option Handles)) :
    ((List.range reqs.length).filter (live reqs)).length = Spec.numLive reqs := by
  induction reqs with
  | nil => rfl
  | cons o l ih =>
    rw [List.length_cons, List.range_succ_eq_map, List.filter_cons, Spec.numLive, List.countP_cons]
    have : (((List.range l.length).map Nat.succ).filter (live (o :: l))).length = Spec.numLive l := by
      rw [List.filter_map, List.length_map, ← ih]
      rfl
    unfold Spec.numLive at this
    cases o
    · simpa [live] using this
    · simp [live, this]

theorem clock_startWait (reqs : List (Option Handles)) : Clock (tick .startWait ⟨reqs, []⟩) := by
  refine ⟨?_, ?_⟩
  · have := count_starts (f := Spec.isStartWait) (g := Spec.isStopWait) (l := []) (c := 0)
      (m := ((List.range reqs.length).filter (live reqs)).map .startWait) rfl (by
        intro e he
        obtain ⟨r, -, rfl⟩ := List.mem_map.1 he
        rfl)
    rw [List.length_map, length_live, Nat.zero_add] at this
    exact this
  · exact count_other (l := []) rfl (by
      intro e he
      obtain ⟨r, -, rfl⟩ := List.mem_map.1 he
      exact ⟨rfl, rfl⟩)

theorem clock_timed {s : Loop} (h : Clock s.st) : Clock (timed s).st := by
  have he : ∀ (k : Nat → Ev) (P : Ev → Prop), (∀ r, P (k r)) →
      ∀ e ∈ ((List.range s.st.reqs.length).filter (live s.st.reqs)).map k, P e := by
    intro k P hk e he
    obtain ⟨r, -, rfl⟩ := List.mem_map.1 he
    exact hk r
  refine ⟨?_, ?_⟩
  · exact count_other (count_other h.1 (he _ _ fun _ => ⟨rfl, rfl⟩)) (he _ _ fun _ => ⟨rfl, rfl⟩)
  · have h1 := count_starts h.2 (he .startMPI _ fun _ => rfl)
    have h2 := count_stops h1 (he .stopMPI _ fun _ => ⟨rfl, rfl⟩) (by simp)
    simp only [List.length_map, Nat.zero_add, Nat.sub_self] at h2
    exact h2

theorem numLive_set_some {reqs : List (Option Handles)} {r : Nat} {h g : Handles}
    (e : reqs[r]?.join = some h) : Spec.numLive (reqs.set r (some g)) = Spec.numLive reqs :=
  numLive_congr (by simp) (fun q => by
    rw [getJoin_set _ _ _ _ (live_lt e)]
    split_ifs with hq
    · subst hq; simp [e]
    · rfl)

theorem clock_message {map : List (Nat × Nat)} {s t : Loop} {i r : Nat} (h : Clock s.st)
    (hm : message map s i = some (r, t)) : Clock t.st := by
  unfold message at hm
  split at hm
  · cases hm
  · split at hm
    · rename_i e1 e2
      split_ifs at hm
      cases hm
      refine ⟨?_, count_other h.2 (by simp [Spec.isStartMPI, Spec.isStopMPI])⟩
      show _ = some (Spec.numLive (s.st.reqs.set _ _))
      rw [numLive_set_some e1]
      exact count_other h.1 (by simp [Spec.isStartWait, Spec.isStopWait])
    · cases hm

theorem clock_complete {s t : St} {r : Nat} (h : Clock s) (hc : complete s r = some t) : Clock t := by
  unfold complete at hc
  split_ifs at hc with hl
  cases hc
  cases e : s.reqs[r]?.join with
  | none => simp [live, e] at hl
  | some g =>
    have hn := countP_set_none e
    refine ⟨?_, count_other h.2 (by simp [Spec.isStartMPI, Spec.isStopMPI])⟩
    have h1 := count_other (m := [.fin r]) h.1 (by simp [Spec.isStartWait, Spec.isStopWait])
    have h2 := count_stops (m := [.stopWait r]) h1 (by simp [Spec.isStartWait, Spec.isStopWait])
      (by simp only [Spec.numLive, List.length_singleton]; omega)
    rw [List.append_assoc] at h2
    show activeCount _ _ (s.log ++ [.fin r, .stopWait r]) = some (Spec.numLive (s.reqs.set r none))
    refine h2.trans ?_
    simp only [Spec.numLive, List.length_singleton] at hn ⊢
    congr 1
    omega

theorem clock_finishEmpty {rem : List Nat} {l : List Nat} : ∀ {s t : St}, Clock s →
    l.foldlM (finishOne rem) s = some t → Clock t := by
  induction l with
  | nil => intro s t h e; cases e; exact h
  | cons r l ih =>
    intro s t h e
    rw [List.foldlM_cons] at e
    cases e1 : finishOne rem s r with
    | none => rw [e1] at e; cases e
    | some u =>
      rw [e1] at e
      refine ih (s := u) ?_ e
      unfold finishOne at e1
      split_ifs at e1
      · exact clock_complete h e1
      · cases e1; exact h

theorem clock_allLoop {map : List (Nat × Nat)} (order : List Nat) : ∀ {s t : Loop}, Clock s.st →
    allLoop map order s = some t → Clock t.st := by
  induction order with
  | nil => intro s t h e; cases e; exact clock_timed h
  | cons i is ih =>
    intro s t h e
    unfold allLoop at e
    split at e
    · cases e
    · rename_i r u hm
      have hu := clock_message (clock_timed h) hm
      split_ifs at e
      · split at e
        · cases e
        · rename_i v hv
          exact ih (clock_complete hu hv) e
      · exact ih hu e

theorem clock_anyLoop {map : List (Nat × Nat)} (order : List Nat) : ∀ {s t : Loop} {k : Int}, Clock s.st →
    anyLoop map order s = some (k, t) → Clock t.st := by
  induction order with
  | nil => intro s t k h e; cases e; exact clock_timed h
  | cons i is ih =>
    intro s t k h e
    unfold anyLoop at e
    split at e
    · cases e
    · rename_i r u hm
      have hu := clock_message (clock_timed h) hm
      split_ifs at e
      · split at e
        · cases e
        · rename_i v hv
          cases e
          exact clock_complete hu hv
      · exact ih hu e

/-! ### C52 -/

/-- Full statement: whichever way the program waits, the timers are off when the wait returns. -/
def C52_statement : Prop :=
  (∀ reqs order t, Serves (waitAllHandles reqs) order → waitAll reqs order = some t → Spec.Off t.log) ∧
  (∀ reqs r order t, Serves (waitHandles reqs r) order → wait reqs r order = some t → Spec.Off t.log) ∧
  (∀ reqs order k t, Serves (waitAllHandles reqs) order → waitAny reqs order = some (k, t) → Spec.Off t.log)

theorem C52_waitAny {reqs : List (Option Handles)} {order : List Nat} {k : Int} {t : St}
    (h : waitAny reqs order = some (k, t)) : Clock t := by
  have h0 := clock_startWait reqs
  unfold waitAny at h
  dsimp only at h
  split at h
  · rename_i r _
    cases e : complete (tick .startWait ⟨reqs, []⟩) r with
    | none => rw [e] at h; cases h
    | some u => rw [e] at h; cases h; exact clock_complete h0 e
  · cases e : anyLoop (gather (tick Ev.startWait ⟨reqs, []⟩).reqs) order
        ⟨remaining (tick .startWait ⟨reqs, []⟩).reqs, tick .startWait ⟨reqs, []⟩⟩ with
    | none => rw [e] at h; cases h
    | some u =>
      rw [e] at h
      cases h
      exact clock_anyLoop order (s := ⟨_, tick .startWait ⟨reqs, []⟩⟩) h0 e

theorem clock_oneLoop {r : Nat} (order : List Nat) : ∀ {s t : St}, Spec.waitTimer s.log = some 1 →
    Spec.mpiTimer s.log = some 0 → oneLoop r order s = some t →
    Spec.waitTimer t.log = some 1 ∧ Spec.mpiTimer t.log = some 0 := by
  have key : ∀ {l : List Ev}, Spec.waitTimer l = some 1 → Spec.mpiTimer l = some 0 →
      Spec.waitTimer (l ++ [.startMPI r, .stopMPI r]) = some 1 ∧
        Spec.mpiTimer (l ++ [.startMPI r, .stopMPI r]) = some 0 := by
    intro l h1 h2
    refine ⟨count_other h1 (by simp [Spec.isStartWait, Spec.isStopWait]), ?_⟩
    show activeCount _ _ _ = _
    rw [activeCount_append, show activeCount Spec.isStartMPI Spec.isStopMPI l = some 0 from h2]
    rfl
  induction order with
  | nil => intro s t h1 h2 e; cases e; exact key h1 h2
  | cons i is ih =>
    intro s t h1 h2 e
    unfold oneLoop at e
    split at e
    · cases e
    · split_ifs at e
      obtain ⟨k1, k2⟩ := key h1 h2
      have e1 : s.log ++ [.startMPI r, .stopMPI r, .msg r i] =
          (s.log ++ [.startMPI r, .stopMPI r]) ++ [.msg r i] := by simp
      rw [e1] at e
      refine ih ?_ ?_ e
      · exact count_other k1 (by simp [Spec.isStartWait, Spec.isStopWait])
      · exact count_other k2 (by simp [Spec.isStartMPI, Spec.isStopMPI])

/-- **C52 (partial)**: `Wait` and `WaitAll` leave both timers off.  `WaitAny` leaves the MPI timer off but
the wait timer started once for every request that has not completed.
Missing: `WaitAny` with two or more requests (`C52_false`). -/
theorem C52_partial :
    (∀ reqs order t, Serves (waitAllHandles reqs) order → waitAll reqs order = some t → Spec.Off t.log) ∧
    (∀ reqs r order t, Serves (waitHandles reqs r) order → wait reqs r order = some t → Spec.Off t.log) ∧
    (∀ reqs order k t, waitAny reqs order = some (k, t) →
      Spec.waitTimer t.log = some (Spec.numLive t.reqs) ∧ Spec.mpiTimer t.log = some 0) := by
  refine ⟨?_, ?_, fun reqs order k t h => C52_waitAny h⟩
  · intro reqs order t hs e
    obtain ⟨t', e', -, hg⟩ := C27_waitAll reqs order hs
    rw [e] at e'
    cases e'
    have hc : Clock t := by
      unfold waitAll at e
      dsimp only at e
      split at e
      · cases e
      · rename_i u hu
        have hu' := clock_finishEmpty (clock_startWait reqs) hu
        cases e1 : allLoop (gather u.reqs) order ⟨remaining (tick .startWait ⟨reqs, []⟩).reqs, u⟩ with
        | none => rw [e1] at e; cases e
        | some v =>
          rw [e1] at e
          cases e
          exact clock_allLoop order (s := ⟨_, u⟩) hu' e1
    exact ⟨by rw [hc.1, numLive_zero.2 hg], hc.2⟩
  · intro reqs r order t hs e
    unfold wait at e
    split_ifs at e with hl
    · split at e
      · cases e
      · rename_i u hu
        obtain ⟨h1, h2⟩ := clock_oneLoop order (s := ⟨reqs, [.startWait r]⟩) rfl rfl hu
        unfold complete at e
        split_ifs at e
        cases e
        refine ⟨?_, count_other h2 (by simp [Spec.isStartMPI, Spec.isStopMPI])⟩
        show activeCount _ _ (u.log ++ _) = _
        rw [activeCount_append, show activeCount Spec.isStartWait Spec.isStopWait u.log = some 1 from h1]
        rfl
    · cases e
      exact ⟨rfl, rfl⟩

/-- **C52 is false**: waiting for any of two requests leaves the wait timer running, and a second such wait
starts it again. -/
theorem C52_false : ¬ C52_statement := by
  intro h
  have e : (waitAny [some [true], some [true]] [0, 1]).isSome = true := by decide +kernel
  cases hw : waitAny [some [true], some [true]] [0, 1] with
  | none => rw [hw] at e; cases e
  | some x =>
    have := (h.2.2 [some [true], some [true]] [0, 1] x.1 x.2 (by decide) hw).1
    rw [(C52_waitAny hw).1] at this
    have hx : (waitAny [some [true], some [true]] [0, 1]).map (fun x => Spec.numLive x.2.reqs) = some 1 := by
      decide +kernel
    rw [hw] at hx
    simp at hx
    simp [hx] at this

example : (waitAll exReqs [1, 2, 0]).map (fun t => (Spec.waitTimer t.log, Spec.mpiTimer t.log)) =
    some (some 0, some 0) := by decide +kernel

end Ovk.Req
