/-
Property C108: profiler timers.
-/
import Verif.Model.Profiler
import Mathlib.Algebra.BigOperators.Group.List.Basic
import Mathlib.Algebra.BigOperators.Group.Finset.Basic
import Mathlib.Algebra.BigOperators.Fin
import Mathlib.Tactic.Ring
import Mathlib.Tactic.Linarith
import Mathlib.Tactic.FieldSimp

namespace Ovk.Prof
variable {N P : Nat}

namespace Spec

/-- Profiling is on after a history (latest call first): the latest of the calls to switch it was `Enable`. -/
def On : List (Rat × Op N) → Prop
  | [] => False
  | (_, .enable) :: _ => True
  | (_, .disable) :: _ => False
  | _ :: h => On h

instance : (h : List (Rat × Op N)) → Decidable (On h)
  | [] => .isFalse id
  | (_, .enable) :: _ => .isTrue trivial
  | (_, .disable) :: _ => .isFalse id
  | (_, .start _) :: h => instDecidableOn h
  | (_, .stop _) :: h => instDecidableOn h

/-- How many calls of `Start` have no `Stop` yet, counting calls made while profiling is on. -/
def depth (id : Fin N) : List (Rat × Op N) → Int
  | [] => 0
  | (_, o) :: h => depth id h +
    (if On h then (if o = .start id then 1 else 0) - (if o = .stop id then 1 else 0) else 0)

/-- Every `Stop` made while profiling is on stops something. -/
def Matched : List (Rat × Op N) → Prop
  | [] => True
  | (_, o) :: h => Matched h ∧ ∀ id, o = .stop id → On h → 0 < depth id h

/-- Time, up to `now`, during which a timer has a `Start` without a `Stop`: every stretch between two calls counts in
full if there is one during the stretch, otherwise not at all. -/
def busy (id : Fin N) : List (Rat × Op N) → Rat → Rat
  | [], _ => 0
  | (t, o) :: h, now => busy id h t + if 0 < depth id ((t, o) :: h) then now - t else 0

/-- Calls happen in the order of their times, and before `now`. -/
def Ordered : List (Rat × Op N) → Rat → Prop
  | [], _ => True
  | (t, _) :: h, now => t ≤ now ∧ Ordered h t

/-- A timer was started at least once while profiling was on. -/
def Used (id : Fin N) : List (Rat × Op N) → Prop
  | [] => False
  | (_, o) :: h => Used id h ∨ o = .start id ∧ On h

end Spec

/-! ### One process -/

/-- What the entry of a timer says after a history. -/
structure Tells (id : Fin N) (h : List (Rat × Op N)) (e : Entry) : Prop where
  count : e.activeCount = Spec.depth id h
  nonneg : 0 ≤ e.activeCount
  active : e.timer.active = true ↔ 0 < e.activeCount
  started : e.timer.active = true → e.timer.lastStart.isSome
  time : ∀ now, e.timer.accumulated now = Spec.busy id h now

structure Inv (h : List (Rat × Op N)) (x : Profiler N) : Prop where
  on : x.enabled = true ↔ Spec.On h
  none_ : ∀ id, x.timers id = none → ¬ Spec.Used id h ∧ Spec.depth id h = 0 ∧ ∀ now, Spec.busy id h now = 0
  some_ : ∀ id e, x.timers id = some e → Spec.Used id h ∧ Tells id h e

theorem depth_other (id : Fin N) (t : Rat) (o : Op N) (h : List (Rat × Op N))
    (ho : ¬ Spec.On h ∨ o ≠ .start id ∧ o ≠ .stop id) : Spec.depth id ((t, o) :: h) = Spec.depth id h := by
  rcases ho with ho | ⟨h1, h2⟩
  · simp [Spec.depth, ho]
  · simp [Spec.depth, h1, h2]

/-- A call that does not concern a timer leaves what its entry says. -/
theorem tells_other (id : Fin N) (t : Rat) (o : Op N) (h : List (Rat × Op N)) (e : Entry)
    (ho : ¬ Spec.On h ∨ o ≠ .start id ∧ o ≠ .stop id) (hi : Tells id h e) : Tells id ((t, o) :: h) e := by
  have hd := depth_other id t o h ho
  refine ⟨by rw [hd]; exact hi.count, hi.nonneg, hi.active, hi.started, fun now => ?_⟩
  rw [Spec.busy, hd, ← hi.count, ← hi.time t]
  unfold Timer.accumulated
  by_cases ha : e.timer.active = true
  · rw [if_pos ha, if_pos ha, if_pos (hi.active.1 ha)]; ring
  · rw [if_neg ha, if_neg ha, if_neg (fun h => ha (hi.active.2 h))]; ring

theorem none_other (id : Fin N) (t : Rat) (o : Op N) (h : List (Rat × Op N))
    (ho : ¬ Spec.On h ∨ o ≠ .start id ∧ o ≠ .stop id)
    (hi : ¬ Spec.Used id h ∧ Spec.depth id h = 0 ∧ ∀ now, Spec.busy id h now = 0) :
    ¬ Spec.Used id ((t, o) :: h) ∧ Spec.depth id ((t, o) :: h) = 0 ∧ ∀ now, Spec.busy id ((t, o) :: h) now = 0 := by
  have hd := depth_other id t o h ho
  refine ⟨?_, by rw [hd]; exact hi.2.1, fun now => ?_⟩
  · rintro (hu | ⟨rfl, hon⟩)
    · exact hi.1 hu
    · rcases ho with ho | ho
      · exact ho hon
      · exact ho.1 rfl
  · rw [Spec.busy, hd, hi.2.1, hi.2.2 t]; simp

theorem used_other (id : Fin N) (t : Rat) (o : Op N) (h : List (Rat × Op N)) (hu : Spec.Used id h) :
    Spec.Used id ((t, o) :: h) := .inl hu

theorem inv_same {h : List (Rat × Op N)} {x : Profiler N} (t : Rat) (o : Op N) (b : Bool)
    (hb : b = true ↔ Spec.On ((t, o) :: h)) (hi : Inv h x)
    (ho : ∀ id, ¬ Spec.On h ∨ o ≠ .start id ∧ o ≠ .stop id) : Inv ((t, o) :: h) { x with enabled := b } where
  on := hb
  none_ id hn := none_other id t o h (ho id) (hi.none_ id hn)
  some_ id e he := ⟨.inl (hi.some_ id e he).1, tells_other id t o h e (ho id) (hi.some_ id e he).2⟩

/-- The entry after `Start`. -/
theorem tells_start (id : Fin N) (t : Rat) (h : List (Rat × Op N)) (hon : Spec.On h) (e : Entry) (hi : Tells id h e) :
    Tells id ((t, .start id) :: h) { timer := e.timer.start t, activeCount := e.activeCount + 1 } := by
  have hd : Spec.depth id ((t, .start id) :: h) = Spec.depth id h + 1 := by simp [Spec.depth, hon]
  have hn := hi.nonneg
  refine ⟨by rw [hd, ← hi.count], by show 0 ≤ e.activeCount + 1; omega, ?_, ?_, ?_⟩
  · show true = true ↔ 0 < e.activeCount + 1
    simp; omega
  · intro _
    show (if e.timer.active then e.timer.lastStart else some t).isSome
    by_cases ha : e.timer.active = true
    · rw [if_pos ha]; exact hi.started ha
    · rw [if_neg ha]; rfl
  · intro now
    rw [Spec.busy, hd, ← hi.count, if_pos (by omega), ← hi.time t]
    unfold Timer.accumulated Timer.start
    by_cases ha : e.timer.active = true
    · simp only [ha, if_true]; ring
    · simp only [ha, if_true]; simp

/-- The entry after a `Stop` that matches a `Start`. -/
theorem tells_stop (id : Fin N) (t : Rat) (h : List (Rat × Op N)) (hon : Spec.On h) (hm : 0 < Spec.depth id h)
    (e : Entry) (hi : Tells id h e) :
    Tells id ((t, .stop id) :: h)
      { timer := if e.activeCount - 1 = 0 then e.timer.stop t else e.timer, activeCount := e.activeCount - 1 } := by
  have hd : Spec.depth id ((t, .stop id) :: h) = Spec.depth id h - 1 := by
    simp only [Spec.depth, hon, if_true]; simp; omega
  rw [← hi.count] at hm
  have ha := hi.active.2 hm
  refine ⟨by rw [hd, ← hi.count], by show 0 ≤ e.activeCount - 1; omega, ?_, ?_, ?_⟩
  · by_cases hc : e.activeCount - 1 = 0
    · simp only [if_pos hc, Timer.stop]; simp [hc]
    · simp only [if_neg hc]
      exact ⟨fun _ => by omega, fun _ => ha⟩
  · by_cases hc : e.activeCount - 1 = 0
    · simp only [if_pos hc, Timer.stop]; simp
    · simp only [if_neg hc]; exact hi.started
  · intro now
    rw [Spec.busy, hd, ← hi.count, ← hi.time t]
    by_cases hc : e.activeCount - 1 = 0
    · simp only [if_pos hc]
      rw [if_neg (show ¬ 0 < e.activeCount - 1 by omega)]
      simp only [Timer.stop, Timer.accumulated, ha, if_true]
      simp
    · simp only [if_neg hc]
      rw [if_pos (show 0 < e.activeCount - 1 by omega)]
      simp only [Timer.accumulated, ha, if_true]
      ring

theorem tells_new (id : Fin N) (h : List (Rat × Op N)) (h1 : Spec.depth id h = 0) (h2 : ∀ now, Spec.busy id h now = 0) :
    Tells id h {} :=
  ⟨h1.symm, le_refl _, by simp, by simp, fun now => by rw [h2]; rfl⟩

theorem inv_after : ∀ (h : List (Rat × Op N)), Spec.Matched h → ∃ x, after h = some x ∧ Inv h x
  | [], _ => ⟨{}, rfl, by simp [Spec.On], fun id _ => ⟨fun h => h, rfl, fun _ => rfl⟩, by simp⟩
  | (t, o) :: h, hm => by
    obtain ⟨x, hx, hi⟩ := inv_after h hm.1
    simp only [after, hx, Option.bind_some]
    cases o with
    | enable => exact ⟨_, rfl, inv_same t _ true (by simp [Spec.On]) hi (fun id => .inr ⟨by simp, by simp⟩)⟩
    | disable => exact ⟨_, rfl, inv_same t _ false (by simp [Spec.On]) hi (fun id => .inr ⟨by simp, by simp⟩)⟩
    | start id =>
      unfold Profiler.step
      by_cases hon : x.enabled = true
      · have hon' := hi.on.1 hon
        simp only [hon, if_true]
        refine ⟨_, rfl, ⟨fun _ => hon', fun _ => rfl⟩, ?_, ?_⟩
        · intro k hk
          by_cases hkid : k = id
          · subst hkid; simp at hk
          · simp only [Function.update_of_ne hkid] at hk
            exact none_other k t _ h (.inr ⟨by simpa using Ne.symm hkid, by simp⟩) (hi.none_ k hk)
        · intro k e hk
          by_cases hkid : k = id
          · subst hkid
            simp only [Function.update_self, Option.some.injEq] at hk
            subst hk
            refine ⟨.inr ⟨rfl, hon'⟩, tells_start k t h hon' _ ?_⟩
            cases he : x.timers k with
            | none => exact tells_new k h (hi.none_ k he).2.1 (hi.none_ k he).2.2
            | some e => exact (hi.some_ k e he).2
          · simp only [Function.update_of_ne hkid] at hk
            exact ⟨.inl (hi.some_ k e hk).1,
              tells_other k t _ h e (.inr ⟨by simpa using Ne.symm hkid, by simp⟩) (hi.some_ k e hk).2⟩
      · simp only [if_neg hon]
        exact ⟨x, rfl, inv_same t _ x.enabled hi.on hi (fun id => .inl (fun h => hon (hi.on.2 h)))⟩
    | stop id =>
      unfold Profiler.step
      by_cases hon : x.enabled = true
      · have hon' := hi.on.1 hon
        have hdep := hm.2 id rfl hon'
        simp only [hon, if_true]
        cases he : x.timers id with
        | none => rw [(hi.none_ id he).2.1] at hdep; exact absurd hdep (lt_irrefl _)
        | some e =>
          refine ⟨_, rfl, ⟨fun _ => hon', fun _ => rfl⟩, ?_, ?_⟩
          · intro k hk
            by_cases hkid : k = id
            · subst hkid; simp at hk
            · simp only [Function.update_of_ne hkid] at hk
              exact none_other k t _ h (.inr ⟨by simp, by simpa using Ne.symm hkid⟩) (hi.none_ k hk)
          · intro k e' hk
            by_cases hkid : k = id
            · subst hkid
              simp only [Function.update_self, Option.some.injEq] at hk
              subst hk
              exact ⟨.inl (hi.some_ k e he).1, tells_stop k t h hon' hdep e (hi.some_ k e he).2⟩
            · simp only [Function.update_of_ne hkid] at hk
              exact ⟨.inl (hi.some_ k e' hk).1,
                tells_other k t _ h e' (.inr ⟨by simp, by simpa using Ne.symm hkid⟩) (hi.some_ k e' hk).2⟩
      · simp only [if_neg hon]
        exact ⟨x, rfl, inv_same t _ x.enabled hi.on hi (fun id => .inl (fun h => hon (hi.on.2 h)))⟩

/-- C108: if every `Stop` matches a `Start`, nothing is undefined, and the time reported for a timer is the time during
which it had a `Start` without a `Stop`. -/
theorem C108_time (h : List (Rat × Op N)) (hm : Spec.Matched h) :
    ∃ x, after h = some x ∧ ∀ id now, x.time id now = Spec.busy id h now := by
  obtain ⟨x, hx, hi⟩ := inv_after h hm
  refine ⟨x, hx, fun id now => ?_⟩
  unfold Profiler.time
  cases he : x.timers id with
  | none => exact ((hi.none_ id he).2.2 now).symm
  | some e => exact (hi.some_ id e he).2.time now

/-- C108: starting a running timer again, and stopping it again, changes no time: nested calls are not counted twice. -/
theorem C108_nested (id : Fin N) (h : List (Rat × Op N)) (hm : Spec.Matched h) (hon : Spec.On h)
    (hd : 0 < Spec.depth id h) (t t' : Rat) :
    Spec.Matched ((t', .stop id) :: (t, .start id) :: h) ∧
    ∃ x y, after h = some x ∧ after ((t', .stop id) :: (t, .start id) :: h) = some y ∧
      ∀ k now, y.time k now = x.time k now := by
  have hd1 : Spec.depth id ((t, .start id) :: h) = Spec.depth id h + 1 := by simp [Spec.depth, hon]
  have hm1 : Spec.Matched ((t, .start id) :: h) := ⟨hm, fun _ h => by cases h⟩
  have hm2 : Spec.Matched ((t', .stop id) :: (t, .start id) :: h) :=
    ⟨hm1, fun k hk _ => by cases hk; rw [hd1]; omega⟩
  refine ⟨hm2, ?_⟩
  obtain ⟨x, hx, hxt⟩ := C108_time h hm
  obtain ⟨y, hy, hyt⟩ := C108_time _ hm2
  refine ⟨x, y, hx, hy, fun k now => ?_⟩
  obtain ⟨x', hx', hi⟩ := inv_after h hm
  rw [hyt, hxt]
  by_cases hk : k = id
  · subst hk
    have hd2 : Spec.depth k ((t', .stop k) :: (t, .start k) :: h) = Spec.depth k h := by
      have : Spec.On ((t, Op.start k) :: h) := hon
      simp only [Spec.depth, hon, this, if_true]; simp
    have hb : ∀ a b, Spec.busy k h b = Spec.busy k h a + (b - a) := by
      intro a b
      cases he : x'.timers k with
      | none => rw [(hi.none_ k he).2.1] at hd; exact absurd hd (lt_irrefl _)
      | some e =>
        have ht := (hi.some_ k e he).2
        have ha := ht.active.2 (by rw [ht.count]; exact hd)
        rw [← ht.time, ← ht.time]
        unfold Timer.accumulated
        rw [if_pos ha, if_pos ha]; ring
    rw [Spec.busy, hd2, if_pos hd, Spec.busy, hd1, if_pos (by omega), hb t now]
    ring
  · have o1 : Spec.depth k ((t, .start id) :: h) = Spec.depth k h :=
      depth_other k t _ h (.inr ⟨by simpa using Ne.symm hk, by simp⟩)
    have o2 : Spec.depth k ((t', .stop id) :: (t, .start id) :: h) = Spec.depth k ((t, .start id) :: h) :=
      depth_other k t' _ _ (.inr ⟨by simp, by simpa using Ne.symm hk⟩)
    have hb : ∀ a b, Spec.busy k h b = Spec.busy k h a + if 0 < Spec.depth k h then b - a else 0 := by
      intro a b
      cases he : x'.timers k with
      | none => rw [(hi.none_ k he).2.1, (hi.none_ k he).2.2, (hi.none_ k he).2.2]; simp
      | some e =>
        have ht := (hi.some_ k e he).2
        rw [← ht.time, ← ht.time, ← ht.count]
        unfold Timer.accumulated
        by_cases ha : e.timer.active = true
        · rw [if_pos ha, if_pos ha, if_pos (ht.active.1 ha)]; ring
        · rw [if_neg ha, if_neg ha, if_neg (fun h => ha (ht.active.2 h))]; ring
    rw [Spec.busy, o2, o1, Spec.busy, o1, hb t now]
    split_ifs <;> ring

theorem busy_bounds (id : Fin N) : ∀ (h : List (Rat × Op N)) (now : Rat), Spec.Ordered h now →
    0 ≤ Spec.busy id h now ∧ ∀ e ∈ h.getLast?, Spec.busy id h now ≤ now - e.1
  | [], _, _ => ⟨le_refl _, by simp⟩
  | (t, o) :: h, now, ho => by
    have ih := busy_bounds id h t ho.2
    have h1 := ho.1
    rw [Spec.busy]
    refine ⟨by split_ifs <;> linarith [ih.1], ?_⟩
    intro e he
    cases h with
    | nil =>
      simp at he; subst he
      simp only [Spec.busy]
      split_ifs <;> linarith
    | cons a l =>
      have : e ∈ (a :: l).getLast? := by simpa using he
      have := ih.2 e this
      split_ifs <;> linarith

/-- C108: with a clock that does not go back, the time of a timer is not negative and at most the time since the first
call. -/
theorem C108_bounds (h : List (Rat × Op N)) (hm : Spec.Matched h) (now : Rat) (ho : Spec.Ordered h now) :
    ∃ x, after h = some x ∧ ∀ id, 0 ≤ x.time id now ∧ ∀ e ∈ h.getLast?, x.time id now ≤ now - e.1 := by
  obtain ⟨x, hx, hxt⟩ := C108_time h hm
  refine ⟨x, hx, fun id => ?_⟩
  rw [hxt]
  exact busy_bounds id h now ho

/-! ### The profile -/

theorem foldl_min_spec : ∀ (xs : List Rat) (x : Rat),
    (xs.foldl min x = x ∨ xs.foldl min x ∈ xs) ∧ xs.foldl min x ≤ x ∧ ∀ y ∈ xs, xs.foldl min x ≤ y
  | [], x => by simp
  | y :: xs, x => by
    have ih := foldl_min_spec xs (min x y)
    rw [List.foldl_cons]
    refine ⟨?_, ih.2.1.trans (min_le_left _ _), ?_⟩
    · rcases ih.1 with h | h
      · rcases min_choice x y with h' | h'
        · left; rw [h, h']
        · right; rw [h, h']; simp
      · right; exact List.mem_cons_of_mem _ h
    · intro z hz
      rcases List.mem_cons.1 hz with rfl | hz
      · exact ih.2.1.trans (min_le_right _ _)
      · exact ih.2.2 z hz

theorem foldl_max_spec : ∀ (xs : List Rat) (x : Rat),
    (xs.foldl max x = x ∨ xs.foldl max x ∈ xs) ∧ x ≤ xs.foldl max x ∧ ∀ y ∈ xs, y ≤ xs.foldl max x
  | [], x => by simp
  | y :: xs, x => by
    have ih := foldl_max_spec xs (max x y)
    rw [List.foldl_cons]
    refine ⟨?_, (le_max_left _ _).trans ih.2.1, ?_⟩
    · rcases ih.1 with h | h
      · rcases max_choice x y with h' | h'
        · left; rw [h, h']
        · right; rw [h, h']; simp
      · right; exact List.mem_cons_of_mem _ h
    · intro z hz
      rcases List.mem_cons.1 hz with rfl | hz
      · exact (le_max_right _ _).trans ih.2.1
      · exact ih.2.2 z hz

theorem foldl_add : ∀ (xs : List Rat) (x : Rat), xs.foldl (· + ·) x = x + xs.sum
  | [], x => by simp
  | y :: xs, x => by rw [List.foldl_cons, foldl_add xs, List.sum_cons]; ring

theorem reduce_min (xs : List Rat) (h : xs ≠ []) : reduce min xs ∈ xs ∧ ∀ y ∈ xs, reduce min xs ≤ y := by
  cases xs with
  | nil => exact absurd rfl h
  | cons x xs =>
    have := foldl_min_spec xs x
    refine ⟨?_, ?_⟩
    · rcases this.1 with e | e
      · show xs.foldl min x ∈ _; rw [e]; simp
      · exact List.mem_cons_of_mem _ e
    · intro y hy
      rcases List.mem_cons.1 hy with rfl | hy
      · exact this.2.1
      · exact this.2.2 y hy

theorem reduce_max (xs : List Rat) (h : xs ≠ []) : reduce max xs ∈ xs ∧ ∀ y ∈ xs, y ≤ reduce max xs := by
  cases xs with
  | nil => exact absurd rfl h
  | cons x xs =>
    have := foldl_max_spec xs x
    refine ⟨?_, ?_⟩
    · rcases this.1 with e | e
      · show xs.foldl max x ∈ _; rw [e]; simp
      · exact List.mem_cons_of_mem _ e
    · intro y hy
      rcases List.mem_cons.1 hy with rfl | hy
      · exact this.2.1
      · exact this.2.2 y hy

theorem reduce_sum (xs : List Rat) : reduce (· + ·) xs = xs.sum := by
  cases xs with
  | nil => rfl
  | cons x xs => rw [List.sum_cons]; exact foldl_add xs x

/-- C108: if profiling is on everywhere, every process gets the same profile: one line for each timer that some process
has used, in the order of their numbers, with the least, the greatest and the mean of the busy times of all processes (0
for a process that has not used the timer). -/
theorem C108_profile (hs : Fin P → List (Rat × Op N)) (hm : ∀ p, Spec.Matched (hs p)) (hon : ∀ p, Spec.On (hs p))
    (now : Fin P → Fin N → Rat) :
    ∃ (xs : Fin P → Profiler N) (ls : List (Line N)), (∀ p, after (hs p) = some (xs p)) ∧
      (∀ p, writeProfile xs now p = some ls) ∧
      (ls.map Line.id).Pairwise (· < ·) ∧
      (∀ id, id ∈ ls.map Line.id ↔ ∃ p, Spec.Used id (hs p)) ∧
      ∀ l ∈ ls, ((∃ p, l.min = Spec.busy l.id (hs p) (now p l.id)) ∧ ∀ p, l.min ≤ Spec.busy l.id (hs p) (now p l.id)) ∧
        ((∃ p, l.max = Spec.busy l.id (hs p) (now p l.id)) ∧ ∀ p, Spec.busy l.id (hs p) (now p l.id) ≤ l.max) ∧
        l.avg * (P : Rat) = ∑ p, Spec.busy l.id (hs p) (now p l.id) := by
  choose xs hxs hi using fun p => inv_after (hs p) (hm p)
  have ht : ∀ p id t, (xs p).time id t = Spec.busy id (hs p) t := by
    intro p id t
    obtain ⟨x, hx, h⟩ := C108_time (hs p) (hm p)
    rw [hxs p] at hx
    rw [Option.some.inj hx]; exact h id t
  have hen : ∀ q, (xs q).enabled = true := fun q => (hi q).on.2 (hon q)
  have hids : ∀ id, id ∈ globalIDs xs ↔ ∃ p, Spec.Used id (hs p) := by
    intro id
    unfold globalIDs
    simp only [List.mem_filter, List.mem_finRange, true_and, List.any_eq_true]
    refine exists_congr fun p => ?_
    cases he : (xs p).timers id with
    | none => simp [((hi p).none_ id he).1]
    | some e => simp [((hi p).some_ id e he).1]
  refine ⟨xs, _, hxs, fun p => by unfold writeProfile; rw [if_pos (hen p), if_pos hen], ?_, ?_, ?_⟩
  · rw [List.map_map]
    have : (Line.id ∘ fun id : Fin N =>
        let times := (List.finRange P).map fun q => (xs q).time id (now q id)
        ({ id, min := reduce min times, max := reduce max times, avg := reduce (· + ·) times / (P : Rat) } : Line N)) =
        fun id => id := rfl
    rw [this, List.map_id']
    unfold globalIDs
    exact List.Pairwise.filter _ (List.pairwise_lt_finRange N)
  · intro id
    rw [← hids id]
    simp
  · intro l hl
    obtain ⟨id, hid, rfl⟩ := List.mem_map.1 hl
    obtain ⟨p0, -⟩ := (hids id).1 hid
    have hne : ((List.finRange P).map fun q => (xs q).time id (now q id)) ≠ [] := by
      intro h
      have : (xs p0).time id (now p0 id) ∈ (List.finRange P).map fun q => (xs q).time id (now q id) :=
        List.mem_map.2 ⟨p0, List.mem_finRange _, rfl⟩
      rw [h] at this; simp at this
    have hmin := reduce_min _ hne
    have hmax := reduce_max _ hne
    have hmem : ∀ p, Spec.busy id (hs p) (now p id) ∈ (List.finRange P).map fun q => (xs q).time id (now q id) :=
      fun p => List.mem_map.2 ⟨p, List.mem_finRange _, ht p id _⟩
    refine ⟨⟨?_, fun p => hmin.2 _ (hmem p)⟩, ⟨?_, fun p => hmax.2 _ (hmem p)⟩, ?_⟩
    · obtain ⟨p, -, hp⟩ := List.mem_map.1 hmin.1
      exact ⟨p, by rw [← ht]; exact hp.symm⟩
    · obtain ⟨p, -, hp⟩ := List.mem_map.1 hmax.1
      exact ⟨p, by rw [← ht]; exact hp.symm⟩
    · have hP : (P : Rat) ≠ 0 := by
        have : 0 < P := Nat.lt_of_le_of_lt (Nat.zero_le _) p0.isLt
        exact_mod_cast this.ne'
      show reduce (· + ·) _ / (P : Rat) * (P : Rat) = _
      rw [div_mul_cancel₀ _ hP, reduce_sum, ← List.sum_ofFn, List.ofFn_eq_map]
      simp only [ht]

/-! ### A timer on its own -/

/-- Calls of a timer. -/
inductive TOp | start | stop | reset

def TOp.apply (x : Timer) (t : Rat) : TOp → Timer
  | .start => x.start t
  | .stop => x.stop t
  | .reset => x.reset

def timerAfter : List (Rat × TOp) → Timer
  | [] => {}
  | e :: h => e.2.apply (timerAfter h) e.1

/-- The timer runs: the latest call is `Start`. -/
def Spec.running : List (Rat × TOp) → Bool
  | (_, .start) :: _ => true
  | _ => false

/-- Time during which the timer runs, since the latest `Reset`. -/
def Spec.ran : List (Rat × TOp) → Rat → Rat
  | [], _ => 0
  | (_, .reset) :: _, _ => 0
  | (t, .start) :: h, now => Spec.ran h t + (now - t)
  | (t, .stop) :: h, _ => Spec.ran h t

/-- C108: a timer accumulates the time during which it runs. -/
theorem C108_timer (h : List (Rat × TOp)) (now : Rat) : (timerAfter h).accumulated now = Spec.ran h now := by
  have key : ∀ h : List (Rat × TOp), (timerAfter h).active = Spec.running h ∧
      ∀ now, (timerAfter h).accumulated now = Spec.ran h now := by
    intro h
    induction h with
    | nil => exact ⟨rfl, fun _ => rfl⟩
    | cons e h ih =>
      obtain ⟨t, o⟩ := e
      cases o with
      | reset => exact ⟨rfl, fun _ => rfl⟩
      | start =>
        refine ⟨rfl, fun now => ?_⟩
        rw [Spec.ran, ← ih.2 t]
        show ((timerAfter h).start t).accumulated now = _
        unfold Timer.accumulated Timer.start
        by_cases ha : (timerAfter h).active = true
        · simp only [ha, if_true]; ring
        · simp only [ha, if_true]; simp
      | stop =>
        refine ⟨rfl, fun now => ?_⟩
        rw [Spec.ran, ← ih.2 t]
        show ((timerAfter h).stop t).accumulated now = _
        unfold Timer.accumulated Timer.stop
        by_cases ha : (timerAfter h).active = true
        · simp [ha]
        · simp [ha]
  exact (key h).2 now

/-- Length of the run in progress, or else of the latest run, since the latest `Reset`. -/
def Spec.lastRun : List (Rat × TOp) → Rat → Option Rat
  | [], _ => none
  | (_, .reset) :: _, _ => none
  | (t, .start) :: h, now => if Spec.running h then Spec.lastRun h now else some (now - t)
  | (t, .stop) :: h, _ => Spec.lastRun h t

/-- C108: `Elapsed` is the length of the run in progress or of the latest run; it is undefined if there was none. -/
theorem C108_elapsed (h : List (Rat × TOp)) (now : Rat) : (timerAfter h).elapsed now = Spec.lastRun h now := by
  have key : ∀ h : List (Rat × TOp), (timerAfter h).active = Spec.running h ∧
      ((timerAfter h).active = true → (timerAfter h).lastStart.isSome) ∧
      ∀ now, (timerAfter h).elapsed now = Spec.lastRun h now := by
    intro h
    induction h with
    | nil => exact ⟨rfl, fun h => by simp [timerAfter] at h, fun _ => rfl⟩
    | cons e h ih =>
      obtain ⟨t, o⟩ := e
      cases o with
      | reset => exact ⟨rfl, fun h => by simp [timerAfter, TOp.apply, Timer.reset] at h, fun _ => rfl⟩
      | start =>
        have e : timerAfter ((t, .start) :: h) = (timerAfter h).start t := rfl
        refine ⟨rfl, fun _ => ?_, fun now => ?_⟩
        · rw [e]
          unfold Timer.start
          by_cases ha : (timerAfter h).active = true
          · simp only [ha, if_true]; exact ih.2.1 ha
          · simp [ha]
        · rw [Spec.lastRun, ← ih.1, ← ih.2.2 now, e]
          unfold Timer.elapsed Timer.start
          by_cases ha : (timerAfter h).active = true
          · simp [ha]
          · simp [ha]
      | stop =>
        have e : timerAfter ((t, .stop) :: h) = (timerAfter h).stop t := rfl
        refine ⟨rfl, fun ha => by rw [e] at ha; simp [Timer.stop] at ha, fun now => ?_⟩
        rw [Spec.lastRun, ← ih.2.2 t, e]
        unfold Timer.elapsed Timer.stop
        by_cases ha : (timerAfter h).active = true
        · simp [ha]
        · simp [ha]
  exact (key h).2.2 now

/-! ### Stops without a start -/

/-- C108: stopping a timer that was never started while profiling was on is undefined behaviour: it happens if
profiling is enabled between a `Start` and its `Stop`. -/
theorem C108_enable_inside (id : Fin N) (t0 t1 t2 : Rat) :
    after [(t2, .stop id), (t1, .enable), (t0, .start id)] = none := by
  simp [after, Profiler.step]

/-- C108: if the timer has been used before, the extra `Stop` is defined, but every later pair of `Start` and `Stop`
leaves the timer running: the time reported grows although nothing is timed. -/
theorem C108_unmatched (id : Fin N) (t0 t1 t2 t3 t4 now : Rat) :
    (after [(t4, .stop id), (t3, .start id), (t2, .stop id), (t1, .stop id), (t0, .start id), (0, .enable)]).map
      (fun x => x.time id now) = some ((t1 - t0) + (now - t3)) := by
  simp [after, Profiler.step, Profiler.time, Timer.accumulated, Timer.start, Timer.stop]

/-! ### Examples -/

/-- Nested use of timer 0 between 1 and 6 with a pause, timer 1 once. -/
def exHistory : List (Rat × Op 2) :=
  [(7, .stop 0), (6, .start 0), (5, .stop 0), (4, .stop 0), (3, .stop 1), (2, .start 0), (2, .start 1), (1, .start 0),
   (0, .enable)]

example : Spec.Matched exHistory := by
  unfold exHistory
  simp [Spec.Matched, Spec.depth, Spec.On]

example : Spec.busy 0 exHistory 9 = 5 ∧ Spec.busy 1 exHistory 9 = 1 := by
  unfold exHistory
  constructor <;> simp [Spec.busy, Spec.depth, Spec.On] <;> norm_num

example : Spec.Ordered exHistory 9 := by
  unfold exHistory; simp [Spec.Ordered]; norm_num

example : Spec.On (((2 : Rat), Op.start (0 : Fin 2)) :: [(0, .enable)]) ∧
    0 < Spec.depth (0 : Fin 2) [((2 : Rat), .start 0), (0, .enable)] := by
  simp [Spec.On, Spec.depth]

example : Spec.ran [(9, .stop), (7, .start), (5, .stop), (4, .start), (3, .start), (2, .reset)] 20 = 4 ∧
    Spec.lastRun [(9, .stop), (7, .start), (5, .stop), (4, .start), (3, .start), (2, .reset)] 20 = some 2 := by
  simp [Spec.ran, Spec.lastRun, Spec.running]; norm_num

end Ovk.Prof
