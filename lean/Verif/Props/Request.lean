/-
C27: waiting completes every message exactly once.
-/
import Verif.Model.Request
import Mathlib.Data.List.Nodup
import Mathlib.Tactic.SplitIfs
import Mathlib.Tactic.Tauto
import Mathlib.Tactic.ByContra

namespace Ovk.Req

/-! ### Specification -/
namespace Spec

/-- What the log says about request `r`: `some j`, message `j` was processed; `none`, the final step ran. -/
def about (r : Nat) : Ev → Option (Option Nat)
  | .msg r' j => if r' = r then some (some j) else none
  | .fin r' => if r' = r then some none else none
  | _ => none

/-- A request before, after, and what happened to it in between, in order.  A request that is still
there has had exactly the messages processed that were active and no longer are, each once, and not its final step.
A request that has gone had all its active messages processed, each once, and then its final step, once. -/
def ReqProgress : Option Handles → Option Handles → List (Option Nat) → Prop
  | none, after, es => after = none ∧ es = []
  | some b, some a, es => a.length = b.length ∧ (∀ j : Nat, a[j]? = some true → b[j]? = some true) ∧
      ∃ js : List Nat, es = js.map some ∧ js.Nodup ∧
        ∀ j : Nat, j ∈ js ↔ b[j]? = some true ∧ a[j]? ≠ some true
  | some b, none, es => ∃ js : List Nat, es = js.map some ++ [none] ∧ js.Nodup ∧
        ∀ j : Nat, j ∈ js ↔ b[j]? = some true

/-- All requests of a list. -/
def Progress (before after : List (Option Handles)) (log : List Ev) : Prop :=
  after.length = before.length ∧
    ∀ r : Nat, ReqProgress before[r]?.join after[r]?.join (log.filterMap (about r))

/-- No request is left. -/
def AllGone (reqs : List (Option Handles)) : Prop := ∀ r : Nat, reqs[r]?.join = none

end Spec

/-! ### Progress composes -/

theorem reqProgress_trans {a b c : Option Handles} {e f : List (Option Nat)}
    (h₁ : Spec.ReqProgress a b e) (h₂ : Spec.ReqProgress b c f) : Spec.ReqProgress a c (e ++ f) := by
  cases a with
  | none =>
    obtain ⟨rfl, rfl⟩ := h₁
    obtain ⟨rfl, rfl⟩ := h₂
    exact ⟨rfl, rfl⟩
  | some a =>
    cases b with
    | none =>
      obtain ⟨rfl, rfl⟩ := h₂
      simpa [Spec.ReqProgress] using h₁
    | some b =>
      obtain ⟨l₁, s₁, js, rfl, n₁, m₁⟩ := h₁
      cases c with
      | none =>
        obtain ⟨ks, rfl, n₂, m₂⟩ := h₂
        refine ⟨js ++ ks, by simp, ?_, ?_⟩
        · refine List.nodup_append.2 ⟨n₁, n₂, ?_⟩
          rintro x hx y hy rfl
          exact ((m₁ x).1 hx).2 ((m₂ x).1 hy)
        · intro j
          rw [List.mem_append, m₁, m₂]
          have := s₁ j
          tauto
      | some c =>
        obtain ⟨l₂, s₂, ks, rfl, n₂, m₂⟩ := h₂
        refine ⟨l₂.trans l₁, fun j h => s₁ j (s₂ j h), js ++ ks, by simp, ?_, ?_⟩
        · refine List.nodup_append.2 ⟨n₁, n₂, ?_⟩
          rintro x hx y hy rfl
          exact ((m₁ x).1 hx).2 ((m₂ x).1 hy).1
        · intro j
          rw [List.mem_append, m₁, m₂]
          have := s₁ j
          have := s₂ j
          tauto

theorem reqProgress_refl (a : Option Handles) : Spec.ReqProgress a a [] := by
  cases a with
  | none => exact ⟨rfl, rfl⟩
  | some a => exact ⟨rfl, fun _ h => h, [], by simp, by simp, by simp⟩

/-- **C27 (progress adds up)**: what two successive waits did is what one wait from the first to the last state
would have done; nothing is lost or repeated. -/
theorem C27_progress_trans {a b c : List (Option Handles)} {e f : List Ev}
    (h₁ : Spec.Progress a b e) (h₂ : Spec.Progress b c f) : Spec.Progress a c (e ++ f) :=
  ⟨h₂.1.trans h₁.1, fun r => by
    rw [List.filterMap_append]
    exact reqProgress_trans (h₁.2 r) (h₂.2 r)⟩

/-- An event that is not a message or a final step. -/
def timer : Ev → Prop
  | .msg _ _ => False
  | .fin _ => False
  | _ => True

theorem progress_timers (a : List (Option Handles)) {l : List Ev} (h : ∀ e ∈ l, timer e) :
    Spec.Progress a a l := by
  refine ⟨rfl, fun r => ?_⟩
  have : l.filterMap (Spec.about r) = [] := by
    rw [List.filterMap_eq_nil_iff]
    intro e he
    have := h e he
    cases e <;> first | rfl | exact absurd this (by simp [timer])
  rw [this]
  exact reqProgress_refl _

theorem getJoin_set {α : Type} (l : List (Option α)) (r q : Nat) (x : Option α) (h : r < l.length) :
    ((l.set r x)[q]?).join = if r = q then x else (l[q]?).join := by
  rw [List.getElem?_set]
  split_ifs with h1
  · rfl
  · rfl

theorem live_lt {reqs : List (Option Handles)} {r : Nat} {h : Handles} (e : reqs[r]?.join = some h) :
    r < reqs.length := by
  by_contra hc
  rw [List.getElem?_eq_none (by omega)] at e
  simp at e

theorem progress_msg {a : List (Option Handles)} {r j : Nat} {h : Handles} (e : a[r]?.join = some h)
    (hj : h[j]? = some true) : Spec.Progress a (a.set r (some (h.set j false))) [.msg r j] := by
  have hr := live_lt e
  have hjl : j < h.length := by
    by_contra hc
    rw [List.getElem?_eq_none (by omega)] at hj
    cases hj
  refine ⟨by simp, fun q => ?_⟩
  rw [getJoin_set _ _ _ _ hr]
  split_ifs with hq
  · subst hq
    rw [e]
    refine ⟨by simp, ?_, [j], by simp [Spec.about], by simp, ?_⟩
    · intro k hk
      rw [List.getElem?_set] at hk
      split_ifs at hk
      · cases hk
      · exact hk
    · intro k
      rw [List.mem_singleton, List.getElem?_set]
      by_cases hk : j = k
      · subst hk
        rw [if_pos rfl, if_pos hjl]
        simp [hj]
      · rw [if_neg hk]
        simp [Ne.symm hk]
  · have : [Ev.msg r j].filterMap (Spec.about q) = [] := by simp [Spec.about, hq]
    rw [this]
    exact reqProgress_refl _

theorem progress_fin {a : List (Option Handles)} {r : Nat} {h : Handles} (e : a[r]?.join = some h)
    (hj : ∀ j : Nat, h[j]? ≠ some true) :
    Spec.Progress a (a.set r none) [.fin r, .stopWait r] := by
  have hr := live_lt e
  refine ⟨by simp, fun q => ?_⟩
  rw [getJoin_set _ _ _ _ hr]
  split_ifs with hq
  · subst hq
    rw [e]
    exact ⟨[], by simp [Spec.about], by simp, fun k => by simp [hj k]⟩
  · have : [Ev.fin r, Ev.stopWait r].filterMap (Spec.about q) = [] := by simp [Spec.about, hq]
    rw [this]
    exact reqProgress_refl _

/-! ### Pieces of the waits -/

/-- Progress of a state from the start of the wait. -/
def Since (a : List (Option Handles)) (s : St) : Prop := Spec.Progress a s.reqs s.log

theorem since_tick {a : List (Option Handles)} {s : St} (k : Nat → Ev) (hk : ∀ r, timer (k r))
    (h : Since a s) : Since a (tick k s) := by
  refine C27_progress_trans h (progress_timers _ ?_)
  intro e he
  obtain ⟨r, -, rfl⟩ := List.mem_map.1 he
  exact hk r

theorem since_timed {a : List (Option Handles)} {s : Loop} (h : Since a s.st) : Since a (timed s).st :=
  since_tick _ (fun _ => trivial) (since_tick _ (fun _ => trivial) h)

theorem numActive_zero {h : Handles} (e : numActive (some h) = 0) (j : Nat) : h[j]? ≠ some true := by
  intro hj
  have := List.mem_of_getElem? hj
  exact absurd e (by simp [numActive, List.count_eq_zero, this])

theorem complete_spec {a : List (Option Handles)} {s : St} {r : Nat} {h : Handles}
    (hs : Since a s) (e : s.reqs[r]?.join = some h) (hz : numActive (some h) = 0) :
    ∃ t, complete s r = some t ∧ t.reqs = s.reqs.set r none ∧ Since a t := by
  refine ⟨⟨s.reqs.set r none, s.log ++ [.fin r, .stopWait r]⟩, ?_, rfl, ?_⟩
  · simp [complete, live, e]
  · exact C27_progress_trans hs (progress_fin e (numActive_zero hz))

theorem count_set_false {h : Handles} {j : Nat} (hj : h[j]? = some true) :
    (h.set j false).count true + 1 = h.count true := by
  induction h generalizing j with
  | nil => simp at hj
  | cons b h ih =>
    cases j with
    | zero =>
      simp at hj
      subst hj
      simp
    | succ j =>
      simp at hj
      have := ih (by simpa using hj)
      simp only [List.set_cons_succ, List.count_cons]
      omega

theorem count_pos_exists {h : Handles} (hc : 0 < h.count true) : ∃ j : Nat, h[j]? = some true := by
  obtain ⟨j, hj⟩ := List.mem_iff_getElem?.1 (List.count_pos_iff.1 hc)
  exact ⟨j, hj⟩

theorem remaining_get (reqs : List (Option Handles)) (r : Nat) (h : r < reqs.length) :
    (remaining reqs)[r]? = some (numActive reqs[r]?.join) := by
  simp [remaining, List.getElem?_eq_getElem h]

theorem mem_gather {reqs : List (Option Handles)} {r j : Nat} :
    (r, j) ∈ gather reqs ↔ ∃ h, reqs[r]?.join = some h ∧ h[j]? = some true := by
  unfold gather
  rw [List.mem_flatMap]
  constructor
  · rintro ⟨q, -, hq⟩
    cases e : reqs[q]?.join with
    | none => rw [e] at hq; simp [gatherOne] at hq
    | some h =>
      rw [e] at hq
      simp only [gatherOne, List.mem_map, List.mem_filter, Prod.mk.injEq] at hq
      obtain ⟨k, ⟨-, hk⟩, rfl, rfl⟩ := hq
      exact ⟨h, e, by simpa using hk⟩
  · rintro ⟨h, e, hj⟩
    refine ⟨r, List.mem_range.2 (live_lt e), ?_⟩
    rw [e]
    simp only [gatherOne, List.mem_map, List.mem_filter]
    refine ⟨j, ⟨List.mem_range.2 ?_, by simpa using hj⟩, rfl⟩
    by_contra hc
    rw [List.getElem?_eq_none (by omega)] at hj
    cases hj

theorem nodup_gather (reqs : List (Option Handles)) : (gather reqs).Nodup := by
  unfold gather
  rw [List.nodup_flatMap]
  refine ⟨?_, ?_⟩
  · intro r _
    cases reqs[r]?.join with
    | none => simp [gatherOne]
    | some h =>
      exact (List.Nodup.filter _ List.nodup_range).map fun x y hxy => (Prod.mk.inj hxy).2
  · refine List.Pairwise.imp ?_ List.nodup_range
    intro p q hpq x hp hq
    have : ∀ {r : Nat} {o : Option Handles}, x ∈ gatherOne r o → x.1 = r := by
      intro r o hx
      cases o with
      | none => simp [gatherOne] at hx
      | some h =>
        simp only [gatherOne, List.mem_map] at hx
        obtain ⟨k, -, rfl⟩ := hx
        rfl
    exact hpq ((this hp).symm.trans (this hq))

theorem length_gatherOne (r : Nat) (o : Option Handles) : (gatherOne r o).length = numActive o := by
  cases o with
  | none => rfl
  | some h =>
    simp only [gatherOne, numActive, List.length_map]
    induction h with
    | nil => rfl
    | cons b h ih =>
      rw [List.length_cons, List.range_succ_eq_map, List.filter_cons, List.count_cons, ← ih]
      have : (((List.range h.length).map Nat.succ).filter fun j => (b :: h)[j]? == some true).length =
          ((List.range h.length).filter fun j => h[j]? == some true).length := by
        rw [List.filter_map, List.length_map]
        rfl
      cases b
      · simpa using this
      · simpa using this

theorem length_gather (reqs : List (Option Handles)) : (gather reqs).length = (remaining reqs).sum := by
  unfold gather
  rw [List.length_flatMap]
  congr 1
  apply List.ext_getElem?
  intro i
  by_cases hi : i < reqs.length
  · simp [remaining, length_gatherOne, hi]
  · simp [remaining, hi]

/-! ### The main loops -/

/-- Loop invariant; `hs` are the handles still active in the array given to `MPI_Waitany`. -/
structure Inv (a : List (Option Handles)) (map : List (Nat × Nat)) (hs : Handles) (s : Loop) : Prop where
  since : Since a s.st
  len : s.rem.length = s.st.reqs.length
  rem : ∀ (r : Nat) (h : Handles), s.st.reqs[r]?.join = some h → s.rem[r]? = some (numActive (some h)) ∧ 0 < numActive (some h)
  fwd : ∀ i : Nat, hs[i]? = some true →
    ∃ (r j : Nat) (h : Handles), map[i]? = some (r, j) ∧ s.st.reqs[r]?.join = some h ∧ h[j]? = some true
  bwd : ∀ (r j : Nat) (h : Handles), s.st.reqs[r]?.join = some h → h[j]? = some true →
    ∃ i : Nat, map[i]? = some (r, j) ∧ hs[i]? = some true

theorem inv_timed {a : List (Option Handles)} {map : List (Nat × Nat)} {hs : Handles} {s : Loop} (h : Inv a map hs s) : Inv a map hs (timed s) :=
  ⟨since_timed h.since, h.len, h.rem, h.fwd, h.bwd⟩

theorem map_inj {map : List (Nat × Nat)} (hn : map.Nodup) {i k : Nat} {x : Nat × Nat}
    (hi : map[i]? = some x) (hk : map[k]? = some x) : i = k := by
  obtain ⟨h1, e1⟩ := List.getElem?_eq_some_iff.1 hi
  obtain ⟨h2, e2⟩ := List.getElem?_eq_some_iff.1 hk
  exact (List.Nodup.getElem_inj_iff hn).1 (e1.trans e2.symm)

/-- One message, and the final step of its request when it was the last one. -/
theorem step_spec {a : List (Option Handles)} {map : List (Nat × Nat)} {hs : Handles} {s : Loop} (hn : map.Nodup) (inv : Inv a map hs s) {i : Nat}
    (hi : hs[i]? = some true) :
    ∃ (r : Nat) (t : Loop) (h : Handles), message map (timed s) i = some (r, t) ∧ s.st.reqs[r]?.join = some h ∧
      t.st.reqs.length = s.st.reqs.length ∧
      (∀ q : Nat, q ≠ r → t.st.reqs[q]?.join = s.st.reqs[q]?.join) ∧
      ((t.rem[r]? ≠ some 0 ∧ t.st.reqs[r]?.join ≠ none ∧ Inv a map (hs.set i false) t) ∨
        (t.rem[r]? = some 0 ∧ ∃ u, complete t.st r = some u ∧ Since a u ∧ u.reqs = t.st.reqs.set r none ∧
          Inv a map (hs.set i false) ⟨t.rem, u⟩)) := by
  obtain ⟨r, j, h, hm, hr, hj⟩ := inv.fwd i hi
  obtain ⟨hrem, hpos⟩ := inv.rem r h hr
  have hrl := live_lt hr
  have hjl : j < h.length := by
    by_contra hc
    rw [List.getElem?_eq_none (by omega)] at hj
    cases hj
  have hil : i < hs.length := by
    by_contra hc
    rw [List.getElem?_eq_none (by omega)] at hi
    cases hi
  have hrr : r < s.rem.length := by rw [inv.len]; exact hrl
  have hcount := count_set_false hj
  let t : Loop := ⟨s.rem.set r (numActive (some h) - 1),
    ⟨s.st.reqs.set r (some (h.set j false)), (timed s).st.log ++ [.msg r j]⟩⟩
  have hmsg : message map (timed s) i = some (r, t) := by
    have e1 : (timed s).st.reqs = s.st.reqs := rfl
    have e2 : (timed s).rem = s.rem := rfl
    simp only [message, hm, e1, e2, hr, hrem, if_pos hjl]
    rfl
  have hsince : Since a t.st :=
    C27_progress_trans (since_timed inv.since) (progress_msg (a := (timed s).st.reqs) hr hj)
  have htr : t.st.reqs[r]?.join = some (h.set j false) := by
    show (s.st.reqs.set r _)[r]?.join = _
    rw [getJoin_set _ _ _ _ hrl, if_pos rfl]
  have hto : ∀ q : Nat, q ≠ r → t.st.reqs[q]?.join = s.st.reqs[q]?.join := by
    intro q hq
    show (s.st.reqs.set r _)[q]?.join = _
    rw [getJoin_set _ _ _ _ hrl, if_neg (Ne.symm hq)]
  have htrem : t.rem[r]? = some (numActive (some (h.set j false))) := by
    show (s.rem.set r _)[r]? = _
    rw [List.getElem?_set, if_pos rfl, if_pos hrr]
    simp only [numActive]
    congr 1
    omega
  have htremo : ∀ q : Nat, q ≠ r → t.rem[q]? = s.rem[q]? := by
    intro q hq
    show (s.rem.set r _)[q]? = _
    rw [List.getElem?_set, if_neg (Ne.symm hq)]
  -- handles of requests other than the finished one
  have fwd : ∀ k : Nat, (hs.set i false)[k]? = some true → ∃ (q l : Nat) (g : Handles), map[k]? = some (q, l) ∧
      t.st.reqs[q]?.join = some g ∧ g[l]? = some true := by
    intro k hk
    rw [List.getElem?_set] at hk
    by_cases hik : i = k
    · rw [if_pos hik, if_pos hil] at hk
      cases hk
    · rw [if_neg hik] at hk
      obtain ⟨q, l, g, h1, h2, h3⟩ := inv.fwd k hk
      by_cases hq : q = r
      · subst hq
        rw [hr] at h2
        cases h2
        refine ⟨q, l, _, h1, htr, ?_⟩
        rw [List.getElem?_set, if_neg, h3]
        rintro rfl
        exact hik (map_inj hn hm h1)
      · exact ⟨q, l, g, h1, (hto q hq).trans h2, h3⟩
  have bwd : ∀ (q l : Nat) (g : Handles), t.st.reqs[q]?.join = some g → g[l]? = some true →
      ∃ k : Nat, map[k]? = some (q, l) ∧ (hs.set i false)[k]? = some true := by
    intro q l g hg hl
    by_cases hq : q = r
    · subst hq
      rw [htr] at hg
      cases hg
      rw [List.getElem?_set] at hl
      by_cases hjl' : j = l
      · rw [if_pos hjl'] at hl
        split_ifs at hl
        cases hl
      · rw [if_neg hjl'] at hl
        obtain ⟨k, hk1, hk2⟩ := inv.bwd q l h hr hl
        refine ⟨k, hk1, ?_⟩
        rw [List.getElem?_set, if_neg, hk2]
        rintro rfl
        rw [hm] at hk1
        cases hk1
        exact hjl' rfl
    · rw [hto q hq] at hg
      obtain ⟨k, hk1, hk2⟩ := inv.bwd q l g hg hl
      refine ⟨k, hk1, ?_⟩
      rw [List.getElem?_set, if_neg, hk2]
      rintro rfl
      rw [hm] at hk1
      cases hk1
      exact hq rfl
  have hlen : t.rem.length = t.st.reqs.length := by
    show (s.rem.set r _).length = (s.st.reqs.set r _).length
    simp [inv.len]
  refine ⟨r, t, h, hmsg, hr, by show (s.st.reqs.set r _).length = _; simp, hto, ?_⟩
  by_cases hz : numActive (some (h.set j false)) = 0
  · right
    refine ⟨by rw [htrem, hz], ?_⟩
    obtain ⟨u, hu1, hu2, hu3⟩ := complete_spec hsince htr hz
    have hur : ∀ q : Nat, u.reqs[q]?.join = if r = q then none else t.st.reqs[q]?.join := by
      intro q
      rw [hu2, getJoin_set _ _ _ _ (live_lt htr)]
    refine ⟨u, hu1, hu3, hu2, hu3, ?_, ?_, ?_, ?_⟩
    · show t.rem.length = u.reqs.length
      rw [hu2, hlen]
      simp
    · intro q g hg
      have hg' : u.reqs[q]?.join = some g := hg
      rw [hur] at hg'
      split_ifs at hg' with hq
      rw [hto q (Ne.symm hq)] at hg'
      have := inv.rem q g hg'
      exact ⟨(htremo q (Ne.symm hq)).trans this.1, this.2⟩
    · intro k hk
      obtain ⟨q, l, g, h1, h2, h3⟩ := fwd k hk
      refine ⟨q, l, g, h1, ?_, h3⟩
      show u.reqs[q]?.join = _
      rw [hur, if_neg, h2]
      rintro rfl
      rw [htr] at h2
      cases h2
      exact numActive_zero hz l h3
    · intro q l g hg hl
      have hg' : u.reqs[q]?.join = some g := hg
      rw [hur] at hg'
      split_ifs at hg'
      exact bwd q l g hg' hl
  · left
    refine ⟨by rw [htrem]; simpa using hz, by rw [htr]; simp, hsince, hlen, ?_, fwd, bwd⟩
    intro q g hg
    by_cases hq : q = r
    · subst hq
      rw [htr] at hg
      cases hg
      exact ⟨htrem, Nat.pos_of_ne_zero hz⟩
    · rw [hto q hq] at hg
      have := inv.rem q g hg
      exact ⟨(htremo q hq).trans this.1, this.2⟩

theorem inv_done {a : List (Option Handles)} {map : List (Nat × Nat)} {hs : Handles} {s : Loop} (inv : Inv a map hs s) (h : ∀ b ∈ hs, b = false) :
    Spec.AllGone s.st.reqs := by
  intro r
  cases e : s.st.reqs[r]?.join with
  | none => rfl
  | some g =>
    exfalso
    obtain ⟨-, hp⟩ := inv.rem r g e
    obtain ⟨j, hj⟩ := count_pos_exists hp
    obtain ⟨i, -, hi⟩ := inv.bwd r j g e hj
    exact absurd (h true (List.mem_of_getElem? hi)) (by simp)

theorem allLoop_spec {a : List (Option Handles)} {map : List (Nat × Nat)} (hn : map.Nodup) (order : List Nat) : ∀ {hs : Handles} {s : Loop}, Inv a map hs s →
    Serves hs order → ∃ t, allLoop map order s = some t ∧ Since a t.st ∧ Spec.AllGone t.st.reqs := by
  induction order with
  | nil =>
    intro hs s inv hsv
    exact ⟨_, rfl, since_timed inv.since, inv_done (inv_timed inv) hsv⟩
  | cons i is ih =>
    intro hs s inv hsv
    obtain ⟨r, t, h, hm, -, -, -, hc⟩ := step_spec hn inv hsv.1
    rcases hc with ⟨hz, -, inv'⟩ | ⟨hz, u, hu, -, -, inv'⟩
    · obtain ⟨t', h1, h2⟩ := ih inv' hsv.2
      exact ⟨t', by simp only [allLoop, hm, if_neg hz, h1], h2⟩
    · obtain ⟨t', h1, h2⟩ := ih inv' hsv.2
      exact ⟨t', by simp only [allLoop, hm, if_pos hz, hu, h1], h2⟩

/-- Result of the loop of `WaitAny`. -/
theorem anyLoop_spec {a : List (Option Handles)} {map : List (Nat × Nat)} (hn : map.Nodup) (order : List Nat) : ∀ {hs : Handles} {s : Loop}, Inv a map hs s →
    Serves hs order → ∃ k t, anyLoop map order s = some (k, t) ∧ Since a t.st ∧
      ((k = -1 ∧ Spec.AllGone s.st.reqs ∧ t.st.reqs = s.st.reqs) ∨
        ∃ r : Nat, k = r ∧ s.st.reqs[r]?.join ≠ none ∧ t.st.reqs[r]?.join = none ∧
          ∀ q : Nat, q ≠ r → s.st.reqs[q]?.join ≠ none → t.st.reqs[q]?.join ≠ none) := by
  induction order with
  | nil =>
    intro hs s inv hsv
    exact ⟨_, _, rfl, since_timed inv.since, Or.inl ⟨rfl, inv_done inv hsv, rfl⟩⟩
  | cons i is ih =>
    intro hs s inv hsv
    obtain ⟨r, t, h, hm, hr, hl, ho, hc⟩ := step_spec hn inv hsv.1
    rcases hc with ⟨hz, hne, inv'⟩ | ⟨hz, u, hu, hus, hur, -⟩
    · obtain ⟨k, t', h1, h2, h3⟩ := ih inv' hsv.2
      refine ⟨k, t', by simp only [anyLoop, hm, if_neg hz, h1], h2, ?_⟩
      rcases h3 with ⟨-, hg, -⟩ | ⟨r', rfl, hr1, hr2, hr3⟩
      · exact absurd (hg r) hne
      · refine Or.inr ⟨r', rfl, ?_, hr2, ?_⟩
        · by_cases e : r' = r
          · subst e; simp [hr]
          · rw [← ho r' e]; exact hr1
        · intro q hq hq'
          apply hr3 q hq
          by_cases e : q = r
          · subst e; exact hne
          · rw [ho q e]; exact hq'
    · refine ⟨(r : Int), ⟨t.rem, u⟩, by simp only [anyLoop, hm, if_pos hz, hu], hus, Or.inr ⟨r, rfl, by simp [hr], ?_, ?_⟩⟩
      · show u.reqs[r]?.join = none
        rw [hur, getJoin_set _ _ _ _ (by rw [hl]; exact live_lt hr), if_pos rfl]
      · intro q hq hq'
        show u.reqs[q]?.join ≠ none
        rw [hur, getJoin_set _ _ _ _ (by rw [hl]; exact live_lt hr), if_neg (Ne.symm hq), ho q hq]
        exact hq'

/-! ### Requests without messages -/

theorem finishEmpty_spec {a : List (Option Handles)} {s : St} (hs : Since a s) :
    ∃ t, finishEmpty (remaining s.reqs) s = some t ∧ Since a t ∧ t.reqs.length = s.reqs.length ∧
      ∀ r : Nat, t.reqs[r]?.join = if numActive s.reqs[r]?.join = 0 then none else s.reqs[r]?.join := by
  have key : ∀ m, m ≤ s.reqs.length → ∃ t, (List.range m).foldlM (finishOne (remaining s.reqs)) s = some t ∧
      Since a t ∧ t.reqs.length = s.reqs.length ∧
      ∀ r : Nat, t.reqs[r]?.join = if r < m ∧ numActive s.reqs[r]?.join = 0 then none else s.reqs[r]?.join := by
    intro m
    induction m with
    | zero => intro _; exact ⟨s, rfl, hs, rfl, by simp⟩
    | succ m ih =>
      intro hm
      obtain ⟨t, h1, h2, h3, h4⟩ := ih (by omega)
      rw [List.range_succ, List.foldlM_append, h1]
      have htm : t.reqs[m]?.join = s.reqs[m]?.join := by rw [h4]; simp
      cases e : s.reqs[m]?.join with
      | none =>
        refine ⟨t, by simp [finishOne, live, htm, e], h2, h3, ?_⟩
        intro r
        rw [h4]
        by_cases hr : r = m
        · subst hr; simp [e]
        · have : r < m ↔ r < m + 1 := by omega
          simp only [this]
      | some h =>
        have hrem := remaining_get s.reqs m (by omega)
        rw [e] at hrem
        by_cases hz : numActive (some h) = 0
        · obtain ⟨u, hu1, hu2, hu3⟩ := complete_spec h2 (htm.trans e) hz
          refine ⟨u, by simp [finishOne, live, htm, e, hrem, hz, hu1], hu3, by simp [hu2, h3], ?_⟩
          intro r
          rw [hu2, getJoin_set _ _ _ _ (by omega)]
          by_cases hr : m = r
          · subst hr; simp [e, hz]
          · have : r < m ↔ r < m + 1 := by omega
            rw [if_neg hr, h4]
            simp only [this]
        · refine ⟨t, by simp [finishOne, hrem, hz], h2, h3, ?_⟩
          intro r
          rw [h4]
          by_cases hr : r = m
          · subst hr; simp [e, hz]
          · have : r < m ↔ r < m + 1 := by omega
            simp only [this]
  obtain ⟨t, h1, h2, h3, h4⟩ := key s.reqs.length (Nat.le_refl _)
  refine ⟨t, h1, h2, h3, ?_⟩
  intro r
  rw [h4]
  by_cases hr : r < s.reqs.length
  · simp [hr]
  · simp [List.getElem?_eq_none (Nat.le_of_not_lt hr), numActive]

theorem inv_start {a : List (Option Handles)} {s : St} (rem : List Nat) (hs : Since a s)
    (hl : rem.length = s.reqs.length)
    (hr : ∀ (r : Nat) (h : Handles), s.reqs[r]?.join = some h → rem[r]? = some (numActive (some h)) ∧ 0 < numActive (some h)) :
    Inv a (gather s.reqs) (List.replicate (gather s.reqs).length true) ⟨rem, s⟩ := by
  refine ⟨hs, hl, hr, ?_, ?_⟩
  · intro i hi
    have hi' : i < (gather s.reqs).length := by
      by_contra hc
      rw [List.getElem?_eq_none (by simpa using hc)] at hi
      cases hi
    obtain ⟨h, h1, h2⟩ := (mem_gather (r := (gather s.reqs)[i].1) (j := (gather s.reqs)[i].2)).1
      (List.getElem_mem hi')
    exact ⟨_, _, h, List.getElem?_eq_getElem hi', h1, h2⟩
  · intro r j h h1 h2
    obtain ⟨i, hi⟩ := List.mem_iff_getElem?.1 (mem_gather.2 ⟨h, h1, h2⟩)
    refine ⟨i, hi, ?_⟩
    obtain ⟨hi', -⟩ := List.getElem?_eq_some_iff.1 hi
    simp [hi']

theorem sum_remaining_congr {a b : List (Option Handles)} (hl : a.length = b.length)
    (h : ∀ r : Nat, numActive a[r]?.join = numActive b[r]?.join) : remaining a = remaining b := by
  apply List.ext_getElem?
  intro r
  by_cases hr : r < a.length
  · rw [remaining_get a r hr, remaining_get b r (by omega), h]
  · rw [List.getElem?_eq_none (by simpa [remaining] using hr),
      List.getElem?_eq_none (by simp [remaining]; omega)]

/-! ### C27 -/

/-- **C27 (WaitAll)**: for every list of requests, null ones included, and every order in which messages may
complete, `WaitAll` is defined, and on return every request is gone, every message that was active was processed
exactly once and the final step of each request ran exactly once, after its messages. -/
theorem C27_waitAll (reqs : List (Option Handles)) (order : List Nat)
    (hs : Serves (waitAllHandles reqs) order) :
    ∃ t, waitAll reqs order = some t ∧ Spec.Progress reqs t.reqs t.log ∧ Spec.AllGone t.reqs := by
  have h0 : Since reqs (tick .startWait ⟨reqs, []⟩) :=
    since_tick _ (fun _ => trivial) (progress_timers _ (by simp))
  obtain ⟨t, h1, h2, h3, h4⟩ := finishEmpty_spec h0
  have hreqs : (tick .startWait ⟨reqs, []⟩).reqs = reqs := rfl
  rw [hreqs] at h3 h4 h1
  have hna : ∀ r : Nat, numActive t.reqs[r]?.join = numActive reqs[r]?.join := by
    intro r
    rw [h4]
    split_ifs with h
    · rw [h]; rfl
    · rfl
  have inv := inv_start (remaining reqs) h2 (by simp [remaining, h3]) (by
    intro r h e
    have e' := h4 r
    rw [e] at e'
    split_ifs at e' with hz
    have hl := live_lt e'.symm
    refine ⟨by rw [remaining_get _ _ hl, ← e'], ?_⟩
    rw [← e'] at hz
    exact Nat.pos_of_ne_zero hz)
  rw [length_gather, sum_remaining_congr h3 hna] at inv
  obtain ⟨u, hu1, hu2, hu3⟩ := allLoop_spec (nodup_gather _) order inv hs
  refine ⟨u.st, ?_, hu2, hu3⟩
  simp only [waitAll, hreqs, h1, hu1, Option.map_some]

/-- **C27 (WaitAny)**: `WaitAny` is defined; it returns −1 exactly when there is no request, and then does
nothing; otherwise it returns the position of one request, which is gone, all others are still there, and all
progress is recorded. -/
theorem C27_waitAny (reqs : List (Option Handles)) (order : List Nat)
    (hs : Serves (waitAllHandles reqs) order) :
    ∃ k t, waitAny reqs order = some (k, t) ∧ Spec.Progress reqs t.reqs t.log ∧
      ((k = -1 ∧ Spec.AllGone reqs ∧ t.reqs = reqs) ∨
        ∃ r : Nat, k = r ∧ reqs[r]?.join ≠ none ∧ t.reqs[r]?.join = none ∧
          ∀ q : Nat, q ≠ r → reqs[q]?.join ≠ none → t.reqs[q]?.join ≠ none) := by
  have h0 : Since reqs (tick .startWait ⟨reqs, []⟩) :=
    since_tick _ (fun _ => trivial) (progress_timers _ (by simp))
  have hreqs : (tick .startWait ⟨reqs, []⟩).reqs = reqs := rfl
  cases hf : firstEmpty reqs with
  | some r =>
    have hp : live reqs r = true ∧ (remaining reqs)[r]? = some 0 := by
      have := List.find?_some hf
      simpa using this
    cases e : reqs[r]?.join with
    | none => simp [live, e] at hp
    | some h =>
      have hz : numActive (some h) = 0 := by
        have := remaining_get reqs r (live_lt e)
        rw [hp.2, e] at this
        exact (Option.some.inj this).symm
      obtain ⟨t, ht1, ht2, ht3⟩ := complete_spec h0 e hz
      refine ⟨(r : Int), t, ?_, ht3, Or.inr ⟨r, rfl, by simp [e], ?_, ?_⟩⟩
      · simp only [waitAny, hreqs, hf, ht1, Option.map_some]
      · rw [ht2, hreqs, getJoin_set _ _ _ _ (live_lt e), if_pos rfl]
      · intro q hq hq'
        rw [ht2, hreqs, getJoin_set _ _ _ _ (live_lt e), if_neg (Ne.symm hq)]
        exact hq'
  | none =>
    have inv := inv_start (remaining reqs) h0 (by simp [remaining, hreqs]) (by
      intro r h e
      rw [hreqs] at e
      have hl := live_lt e
      have := List.find?_eq_none.1 hf r (List.mem_range.2 hl)
      rw [remaining_get _ _ hl, e] at this ⊢
      refine ⟨rfl, Nat.pos_of_ne_zero ?_⟩
      intro hz
      simp [live, e, hz] at this)
    rw [length_gather, hreqs] at inv
    obtain ⟨k, u, hu1, hu2, hu3⟩ := anyLoop_spec (nodup_gather _) order inv hs
    refine ⟨k, u.st, ?_, hu2, hu3⟩
    simp only [waitAny, hreqs, hf, hu1, Option.map_some]

theorem oneLoop_spec {a : List (Option Handles)} {r : Nat} (order : List Nat) : ∀ {s : St} {h : Handles},
    Since a s → s.reqs[r]?.join = some h → Serves h order →
    ∃ t g, oneLoop r order s = some t ∧ Since a t ∧ t.reqs[r]?.join = some g ∧ numActive (some g) = 0 ∧
      t.reqs.length = s.reqs.length ∧ ∀ q : Nat, q ≠ r → t.reqs[q]?.join = s.reqs[q]?.join := by
  induction order with
  | nil =>
    intro s h hs e hv
    refine ⟨_, h, rfl, C27_progress_trans hs (progress_timers _ ?_), e, ?_, rfl, fun _ _ => rfl⟩
    · intro e he
      simp at he
      rcases he with rfl | rfl <;> trivial
    · rw [numActive, List.count_eq_zero]
      intro ht
      exact absurd (hv true ht) (by simp)
  | cons i is ih =>
    intro s h hs e hv
    have hl := live_lt e
    have hil : i < h.length := by
      by_contra hc
      have := hv.1
      rw [List.getElem?_eq_none (by omega)] at this
      cases this
    have h1 : Since a ⟨s.reqs.set r (some (h.set i false)),
        s.log ++ [.startMPI r, .stopMPI r, .msg r i]⟩ := by
      have := C27_progress_trans (C27_progress_trans hs
        (progress_timers s.reqs (l := [.startMPI r, .stopMPI r]) (by
          intro e he
          simp at he
          rcases he with rfl | rfl <;> trivial))) (progress_msg e hv.1)
      simpa [Since] using this
    obtain ⟨t, g, g1, g2, g3, g4, g5, g6⟩ := ih h1
      (by show (s.reqs.set r _)[r]?.join = _; rw [getJoin_set _ _ _ _ hl, if_pos rfl]) hv.2
    refine ⟨t, g, ?_, g2, g3, g4, by simpa using g5, ?_⟩
    · simp only [oneLoop, e, if_pos hil, g1]
    · intro q hq
      rw [g6 q hq]
      show (s.reqs.set r _)[q]?.join = _
      rw [getJoin_set _ _ _ _ hl, if_neg (Ne.symm hq)]

/-- **C27 (Wait)**: waiting on an empty request does nothing and asks MPI for nothing. -/
theorem C27_wait_empty (reqs : List (Option Handles)) (r : Nat) (order : List Nat)
    (h : reqs[r]?.join = none) : waitHandles reqs r = [] ∧ wait reqs r order = some ⟨reqs, []⟩ := by
  constructor
  · simp [waitHandles, h]
  · simp [wait, live, h]

example : waitHandles [some [true], none] 1 = [] ∧ wait [some [true], none] 1 [3] = some ⟨[some [true], none], []⟩ :=
  C27_wait_empty _ 1 _ rfl

/-- **C27 (Wait)**: waiting on one request completes it, each active message once and then the final step,
and leaves the others alone; on an empty request it does nothing. -/
theorem C27_wait (reqs : List (Option Handles)) (r : Nat) (order : List Nat)
    (hs : Serves (waitHandles reqs r) order) :
    ∃ t, wait reqs r order = some t ∧ Spec.Progress reqs t.reqs t.log ∧ t.reqs[r]?.join = none ∧
      ∀ q : Nat, q ≠ r → t.reqs[q]?.join = reqs[q]?.join := by
  cases e : reqs[r]?.join with
  | none =>
    exact ⟨⟨reqs, []⟩, by simp [wait, live, e], progress_timers _ (by simp), e, fun _ _ => rfl⟩
  | some h =>
    have h0 : Since reqs ⟨reqs, [.startWait r]⟩ := progress_timers _ (by simp [timer])
    obtain ⟨t, g, g1, g2, g3, g4, g5, g6⟩ := oneLoop_spec order h0 e (by simpa [waitHandles, e] using hs)
    obtain ⟨u, u1, u2, u3⟩ := complete_spec g2 g3 g4
    have hl := live_lt g3
    refine ⟨u, by simp [wait, live, e, g1, u1], u3, ?_, ?_⟩
    · rw [u2, getJoin_set _ _ _ _ hl, if_pos rfl]
    · intro q hq
      rw [u2, getJoin_set _ _ _ _ hl, if_neg (Ne.symm hq), g6 q hq]

/-- Successive calls of `WaitAny` on the same list: returned indices, final requests and all events. -/
inductive Calls : List (Option Handles) → List Int → List (Option Handles) → List Ev → Prop
  | nil (a) : Calls a [] a []
  | cons {a order k t ks c log} : Serves (waitAllHandles a) order → waitAny a order = some (k, t) →
      Calls t.reqs ks c log → Calls a (k :: ks) c (t.log ++ log)

/-- Number of non-empty requests. -/
def Spec.numLive (reqs : List (Option Handles)) : Nat := reqs.countP Option.isSome

theorem countP_set_none {reqs : List (Option Handles)} {r : Nat} {h : Handles}
    (e : reqs[r]?.join = some h) : (reqs.set r none).countP Option.isSome + 1 = reqs.countP Option.isSome := by
  induction reqs generalizing r with
  | nil => simp at e
  | cons o l ih =>
    cases r with
    | zero => cases o <;> simp_all
    | succ r =>
      have := ih (r := r) (by simpa using e)
      simp only [List.set_cons_succ, List.countP_cons]
      omega

theorem numLive_congr {a b : List (Option Handles)} (hl : a.length = b.length)
    (h : ∀ r : Nat, a[r]?.join = none ↔ b[r]?.join = none) : Spec.numLive a = Spec.numLive b := by
  induction a generalizing b with
  | nil => cases b with
    | nil => rfl
    | cons _ _ => simp at hl
  | cons x a ih =>
    cases b with
    | nil => simp at hl
    | cons y b =>
      have h0 := h 0
      have := ih (b := b) (by simpa using hl) (fun r => by simpa using h (r + 1))
      simp only [Spec.numLive, List.countP_cons] at this ⊢
      cases x <;> cases y <;> simp_all

theorem numLive_zero {a : List (Option Handles)} : Spec.numLive a = 0 ↔ Spec.AllGone a := by
  unfold Spec.numLive Spec.AllGone
  rw [List.countP_eq_zero]
  constructor
  · intro h r
    cases e : a[r]? with
    | none => rfl
    | some o =>
      have := h o (List.mem_of_getElem? e)
      simpa using this
  · intro h o ho
    obtain ⟨r, hr⟩ := List.mem_iff_getElem?.1 ho
    have := h r
    rw [hr] at this
    simp at this
    simp [this]

theorem progress_numLive {a b : List (Option Handles)} {log : List Ev} (h : Spec.Progress a b log)
    (r : Nat) (hb : b[r]?.join ≠ none) : a[r]?.join ≠ none := by
  intro e
  have := h.2 r
  rw [e] at this
  exact hb this.1

/-- **C27 (a loop of WaitAny)**: after as many calls of `WaitAny` as there are requests all are gone, and over
all calls together every message was processed exactly once and every final step ran exactly once, after the
messages of its request. -/
theorem C27_waitAny_loop {a c : List (Option Handles)} {ks : List Int} {log : List Ev}
    (h : Calls a ks c log) : Spec.Progress a c log ∧ (Spec.numLive a ≤ ks.length → Spec.AllGone c) ∧
      (∀ (r : Nat), (r : Int) ∈ ks → c[r]?.join = none) ∧ (Spec.AllGone a ∨ ks = [] ∨ ∃ r : Nat, (r : Int) ∈ ks) := by
  induction h with
  | nil a =>
    exact ⟨progress_timers _ (by simp), fun h => numLive_zero.1 (by simpa using h), by simp, by simp⟩
  | @cons a order k t ks c log hs hw _ ih =>
    obtain ⟨k', t', hw', hp, hc⟩ := C27_waitAny a order hs
    rw [hw] at hw'
    cases hw'
    have hpc := C27_progress_trans hp ih.1
    refine ⟨hpc, ?_, ?_, ?_⟩
    · intro hl
      simp only [List.length_cons] at hl
      apply ih.2.1
      rcases hc with ⟨-, hg, hr⟩ | ⟨r, -, h1, h2, h3⟩
      · rw [hr, numLive_zero.2 hg]; omega
      · have hlt : Spec.numLive t.reqs + 1 = Spec.numLive a := by
          cases e : a[r]?.join with
          | none => exact absurd e h1
          | some h =>
            have hc := countP_set_none e
            have := numLive_congr (a := t.reqs) (b := a.set r none) (by rw [hp.1]; simp) (by
              intro q
              rw [getJoin_set _ _ _ _ (live_lt e)]
              split_ifs with hq
              · subst hq; simp [h2]
              · constructor
                · intro hq2
                  by_contra hne
                  exact h3 q (Ne.symm hq) hne hq2
                · intro hq2
                  by_contra hne
                  exact progress_numLive hp q hne hq2)
            unfold Spec.numLive at this ⊢
            omega
        omega
    · intro r hr
      rcases List.mem_cons.1 hr with hr | hr
      · rcases hc with ⟨hk, -, -⟩ | ⟨r', hk, -, h2, -⟩
        · omega
        · have : r = r' := by omega
          subst this
          by_contra hne
          exact progress_numLive ih.1 r hne h2
      · exact ih.2.2.1 r hr
    · rcases hc with ⟨-, hg, -⟩ | ⟨r', hk, -, -, -⟩
      · exact Or.inl hg
      · exact Or.inr (Or.inr ⟨r', by rw [hk]; simp⟩)

/-- MPI can always serve the waits: there is a legal completion order for every array of handles. -/
theorem C27_serves_exists (h : Handles) : ∃ order, Serves h order := by
  induction hn : h.count true generalizing h with
  | zero =>
    refine ⟨[], ?_⟩
    intro b hb
    rw [List.count_eq_zero] at hn
    cases b
    · rfl
    · exact absurd hb hn
  | succ n ih =>
    obtain ⟨j, hj⟩ := count_pos_exists (h := h) (by omega)
    obtain ⟨o, ho⟩ := ih (h.set j false) (by have := count_set_false hj; omega)
    exact ⟨j :: o, hj, ho⟩

/-! ### Examples -/

/-- A null request, one with three messages of which one has already completed, one without messages, one with
one message. -/
def exReqs : List (Option Handles) := [none, some [true, false, true], some [], some [true]]

def servesDec : ∀ (o : List Nat) (h : Handles), Decidable (Serves h o)
  | [], h => inferInstanceAs (Decidable (∀ b ∈ h, b = false))
  | i :: is, h => @instDecidableAnd _ _ _ (servesDec is (h.set i false))

instance (h : Handles) (o : List Nat) : Decidable (Serves h o) := servesDec o h

example : Serves (waitAllHandles exReqs) [1, 2, 0] := by decide

example : (waitAll exReqs [1, 2, 0]).map (fun t => (t.reqs, t.log.filter fun e => match e with
    | .msg _ _ => true | .fin _ => true | _ => false)) =
    some ([none, none, none, none],
      [.fin 2, .msg 1 2, .msg 3 0, .fin 3, .msg 1 0, .fin 1]) := by decide +kernel

example : (waitAny exReqs [1, 2, 0]).map (fun t => (t.1, t.2.reqs)) =
    some (2, [none, some [true, false, true], none, some [true]]) := by decide +kernel

example : (waitAny [none, some [true, false, true], none, some [true]] [1, 2, 0]).map
    (fun t => (t.1, t.2.reqs)) = some (3, [none, some [true, false, false], none, none]) := by decide +kernel

example : Serves (waitHandles exReqs 1) [2, 0] ∧ (wait exReqs 1 [2, 0]).map (fun t => t.reqs) =
    some [none, none, some [], some [true]] := by decide +kernel

end Ovk.Req
