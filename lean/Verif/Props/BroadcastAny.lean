/-
Property C78: broadcasting from a source only the source knows about.
-/
import Verif.Model.BroadcastAny
import Mathlib.Algebra.BigOperators.Fin
import Mathlib.Algebra.Order.BigOperators.Group.Finset
import Mathlib.Data.Fin.VecNotation
import Mathlib.Tactic.FinCases

namespace Ovk.Bcast
variable {n : Nat} {V : Type}

namespace Spec
/-- In every round exactly one process, `s k`, says it is the source. -/
def OneSource (c : Calls n V) (s : Nat → Fin (n + 1)) : Prop := ∀ k p, c.isSource k p = true ↔ p = s k
end Spec

/-- Process `p` has sent its message of round `k`. -/
def After (x : State n V) (p : Fin (n + 1)) (k : Nat) : Prop := k < x.round p ∨ (k = x.round p ∧ x.phase p ≠ .start)

structure Inv (c : Calls n V) (s : Nat → Fin (n + 1)) (x : State n V) : Prop where
  sent : ∀ k, x.sent k = if k < x.round 0 then some (c.value k (s k)) else none
  behind : ∀ p, x.round p ≤ x.round 0
  result : ∀ p k, x.result p k = if k < x.round p then some (c.value k (s k)) else none
  chanSome : x.phase 0 = .start → s (x.round 0) ≠ 0 → x.round (s (x.round 0)) = x.round 0 →
    x.phase (s (x.round 0)) ≠ .start → x.chan = [(s (x.round 0), c.value (x.round 0) (s (x.round 0)))]
  chanNone : ¬ (x.phase 0 = .start ∧ s (x.round 0) ≠ 0 ∧ x.round (s (x.round 0)) = x.round 0 ∧
    x.phase (s (x.round 0)) ≠ .start) → x.chan = []
  data : x.phase 0 = .ready → x.data = c.value (x.round 0) (s (x.round 0))
  root : x.phase 0 ≠ .sending
  past : ∀ k, (k < x.round 0 ∨ (k = x.round 0 ∧ x.phase 0 = .ready)) → s k ≠ 0 → After x (s k) k
  bound : ∀ p, x.round p ≤ c.rounds
  ended : ∀ p, x.round p = c.rounds → x.phase p = .start

theorem inv_initial (c : Calls n V) (s : Nat → Fin (n + 1)) (v : V) : Inv c s (initial v) := by
  constructor <;> simp [initial]

variable {c : Calls n V} {s : Nat → Fin (n + 1)}

theorem inv_step (hs : Spec.OneSource c s) {x y : State n V} (h : Inv c s x) (e : Event n)
    (he : step c x e = some y) : Inv c s y := by
  cases e with
  | pass p =>
    simp only [step] at he
    split at he
    · rename_i hc
      obtain ⟨h1, h2, h3⟩ := hc
      have hy := Option.some.inj he
      subst hy
      rw [hs] at h3
      by_cases hp : p = 0
      · subst hp
        have hs0 : s (x.round 0) = 0 := (h3.1 rfl).symm
        have hch : x.chan = [] := h.chanNone (by simp [hs0])
        refine ⟨?_, ?_, ?_, ?_, ?_, ?_, ?_, ?_, ?_, ?_⟩
        · exact h.sent
        · exact h.behind
        · exact h.result
        · intro h4; simp [State.setPhase] at h4
        · intro _; exact hch
        · intro _; simp [State.setPhase, hs0]
        · simp [State.setPhase]
        · intro k hk hk0
          simp only [State.setPhase] at hk ⊢
          have hk' : k < x.round 0 := by
            rcases hk with hk | ⟨hk, _⟩
            · exact hk
            · subst hk; exact absurd hs0 hk0
          have := h.past k (.inl hk') hk0
          unfold After at this ⊢
          simp only [if_neg hk0]
          exact this
        · exact h.bound
        · intro q hq
          simp only [State.setPhase] at hq ⊢
          by_cases hq0 : q = 0
          · subst hq0; omega
          · rw [if_neg hq0]; exact h.ended q hq
      · have hsp : p ≠ s (x.round p) := fun e => hp (h3.2 e)
        refine ⟨?_, ?_, ?_, ?_, ?_, ?_, ?_, ?_, ?_, ?_⟩
        · exact h.sent
        · exact h.behind
        · exact h.result
        · intro h4 h5 h6 h7
          simp only [State.setPhase, Ne.symm hp, if_false] at h4 h5 h6 h7 ⊢
          have hne : s (x.round 0) ≠ p := by
            intro e; rw [e] at h6; exact hsp (by rw [h6]; exact e.symm)
          rw [if_neg hne] at h7
          exact h.chanSome h4 h5 h6 h7
        · intro hn
          simp only [State.setPhase, Ne.symm hp, if_false] at hn ⊢
          apply h.chanNone
          rintro ⟨h4, h5, h6, h7⟩
          have hne : s (x.round 0) ≠ p := by
            intro e; rw [e] at h6; exact hsp (by rw [h6]; exact e.symm)
          exact hn ⟨h4, h5, h6, by rw [if_neg hne]; exact h7⟩
        · intro h4
          simp only [State.setPhase, Ne.symm hp, if_false, hp] at h4 ⊢
          exact h.data h4
        · simp only [State.setPhase, Ne.symm hp, if_false]; exact h.root
        · intro k hk hk0
          simp only [State.setPhase, Ne.symm hp, if_false] at hk ⊢
          have := h.past k hk hk0
          unfold After at this ⊢
          dsimp only
          rcases this with h8 | ⟨h8, h9⟩
          · exact .inl h8
          · refine .inr ⟨h8, ?_⟩
            split_ifs
            · simp
            · exact h9
        · exact h.bound
        · intro q hq
          simp only [State.setPhase] at hq ⊢
          by_cases hq0 : q = p
          · subst hq0; omega
          · rw [if_neg hq0]; exact h.ended q hq
    · simp at he
  | send p =>
    simp only [step] at he
    split at he
    · rename_i hc
      obtain ⟨h1, h2, hp, h3⟩ := hc
      have hy := Option.some.inj he
      subst hy
      rw [hs] at h3
      -- the round is the root's and the root has not gone on
      have hr : x.round p = x.round 0 := by
        rcases Nat.lt_or_ge (x.round p) (x.round 0) with hlt | hge
        · have := h.past (x.round p) (.inl hlt) (by rw [← h3]; exact hp)
          rw [← h3] at this
          rcases this with h4 | ⟨_, h4⟩
          · omega
          · exact absurd h2 h4
        · have := h.behind p; omega
      have h0 : x.phase 0 = .start := by
        cases h4 : x.phase 0 with
        | start => rfl
        | sending => exact absurd h4 h.root
        | ready =>
          have := h.past (x.round p) (.inr ⟨hr, h4⟩) (by rw [← h3]; exact hp)
          rw [← h3] at this
          rcases this with h5 | ⟨_, h5⟩
          · omega
          · exact absurd h2 h5
      have hsp : s (x.round 0) = p := by rw [← hr]; exact h3.symm
      have hch : x.chan = [] := h.chanNone (by rw [hsp]; rintro ⟨_, _, _, h4⟩; exact h4 h2)
      refine ⟨?_, ?_, ?_, ?_, ?_, ?_, ?_, ?_, ?_, ?_⟩
      · exact h.sent
      · exact h.behind
      · exact h.result
      · intro _ _ _ _
        simp only [State.setPhase]
        rw [hch, hsp, hr]; rfl
      · intro hn
        exfalso
        apply hn
        simp only [State.setPhase, Ne.symm hp, if_false]
        refine ⟨h0, by rw [hsp]; exact hp, by rw [hsp]; exact hr, by rw [hsp]; simp⟩
      · intro h4
        simp only [State.setPhase, Ne.symm hp, if_false] at h4 ⊢
        exact h.data h4
      · simp only [State.setPhase, Ne.symm hp, if_false]; exact h.root
      · intro k hk hk0
        simp only [State.setPhase, Ne.symm hp, if_false] at hk ⊢
        have := h.past k hk hk0
        unfold After at this ⊢
        dsimp only
        rcases this with h8 | ⟨h8, h9⟩
        · exact .inl h8
        · refine .inr ⟨h8, ?_⟩
          split_ifs
          · simp
          · exact h9
      · exact h.bound
      · intro q hq
        simp only [State.setPhase] at hq ⊢
        by_cases hq0 : q = p
        · subst hq0; omega
        · rw [if_neg hq0]; exact h.ended q hq
    · simp at he
  | sendDone p =>
    simp only [step] at he
    split at he
    · rename_i hc
      obtain ⟨h1, _⟩ := hc
      have hy := Option.some.inj he
      subst hy
      have hp : p ≠ 0 := fun e => h.root (e ▸ h1)
      have hph : ∀ q, (if q = p then Phase.ready else x.phase q) ≠ .start ↔ x.phase q ≠ .start := by
        intro q
        by_cases hq : q = p
        · subst hq; simp [h1]
        · rw [if_neg hq]
      refine ⟨?_, ?_, ?_, ?_, ?_, ?_, ?_, ?_, ?_, ?_⟩
      · exact h.sent
      · exact h.behind
      · exact h.result
      · intro h4 h5 h6 h7
        simp only [State.setPhase, Ne.symm hp, if_false] at h4 h5 h6 h7 ⊢
        exact h.chanSome h4 h5 h6 ((hph _).1 h7)
      · intro hn
        simp only [State.setPhase, Ne.symm hp, if_false] at hn ⊢
        apply h.chanNone
        rintro ⟨h4, h5, h6, h7⟩
        exact hn ⟨h4, h5, h6, (hph _).2 h7⟩
      · intro h4
        simp only [State.setPhase, Ne.symm hp, if_false] at h4 ⊢
        exact h.data h4
      · simp only [State.setPhase, Ne.symm hp, if_false]; exact h.root
      · intro k hk hk0
        simp only [State.setPhase, Ne.symm hp, if_false] at hk ⊢
        have := h.past k hk hk0
        unfold After at this ⊢
        exact this.imp id fun h8 => ⟨h8.1, (hph _).2 h8.2⟩
      · exact h.bound
      · intro q hq
        simp only [State.setPhase] at hq ⊢
        by_cases hq0 : q = p
        · subst hq0
          have := h.ended q hq
          rw [h1] at this; simp at this
        · rw [if_neg hq0]; exact h.ended q hq
    · simp at he
  | recv i =>
    simp only [step] at he
    split at he
    · rename_i hc
      obtain ⟨h1, h2, h3⟩ := hc
      obtain ⟨m, hm, hy⟩ := Option.map_eq_some_iff.1 he
      subst hy
      have hs0 : s (x.round 0) ≠ 0 := by
        intro e
        have := (hs (x.round 0) 0).2 e.symm
        rw [h3] at this; simp at this
      have hcond : x.phase 0 = .start ∧ s (x.round 0) ≠ 0 ∧ x.round (s (x.round 0)) = x.round 0 ∧
          x.phase (s (x.round 0)) ≠ .start := by
        by_contra hn
        rw [h.chanNone hn] at hm
        simp at hm
      have hch := h.chanSome hcond.1 hcond.2.1 hcond.2.2.1 hcond.2.2.2
      rw [hch] at hm
      have hi : i = 0 := by
        have := (List.getElem?_eq_some_iff.1 hm).1
        simpa using this
      subst hi
      have hmv : m = (s (x.round 0), c.value (x.round 0) (s (x.round 0))) := by simpa using hm.symm
      refine ⟨?_, ?_, ?_, ?_, ?_, ?_, ?_, ?_, ?_, ?_⟩
      · exact h.sent
      · exact h.behind
      · exact h.result
      · intro h4; simp [State.setPhase] at h4
      · intro _; simp [State.setPhase, hch]
      · intro _; simp [State.setPhase, hmv]
      · simp [State.setPhase]
      · intro k hk hk0
        simp only [State.setPhase] at hk ⊢
        have : After x (s k) k := by
          rcases hk with hk | ⟨hk, _⟩
          · exact h.past k (.inl hk) hk0
          · subst hk; exact .inr ⟨hcond.2.2.1.symm, hcond.2.2.2⟩
        unfold After at this ⊢
        simp only [if_neg hk0]
        exact this
      · exact h.bound
      · intro q hq
        simp only [State.setPhase] at hq ⊢
        by_cases hq0 : q = 0
        · subst hq0; omega
        · rw [if_neg hq0]; exact h.ended q hq
    · simp at he
  | bcast p =>
    simp only [step] at he
    split at he
    · rename_i h1
      have hlt : x.round p < c.rounds := by
        have h2 := h.bound p
        rcases Nat.lt_or_ge (x.round p) c.rounds with h3 | h3
        · exact h3
        · have := h.ended p (by omega)
          rw [h1] at this; simp at this
      split at he
      · rename_i hp
        subst hp
        have hy := Option.some.inj he
        subst hy
        have hch : x.chan = [] := h.chanNone (by rw [h1]; simp)
        have hd := h.data h1
        refine ⟨?_, ?_, ?_, ?_, ?_, ?_, ?_, ?_, ?_, ?_⟩
        · intro k
          simp only [State.leave, if_true]
          rw [h.sent k, hd]
          by_cases hk : k = x.round 0
          · subst hk; simp
          · rw [if_neg hk]
            by_cases hk' : k < x.round 0
            · rw [if_pos hk', if_pos (by omega)]
            · rw [if_neg hk', if_neg (by omega)]
        · intro q
          simp only [State.leave, if_true]
          have := h.behind q
          split_ifs <;> omega
        · intro q k
          simp only [State.leave]
          rw [h.result q k, hd]
          by_cases hq : q = 0
          · subst hq
            by_cases hk : k = x.round 0
            · subst hk; simp
            · simp only [hk, and_false, if_false, if_true]
              by_cases hk' : k < x.round 0
              · rw [if_pos hk', if_pos (by omega)]
              · rw [if_neg hk', if_neg (by omega)]
          · simp only [hq, false_and, if_false]
        · intro _ h5 h6
          simp only [State.leave, if_true] at h5 h6
          rw [if_neg h5] at h6
          have := h.behind (s (x.round 0 + 1))
          omega
        · intro _; simp only [State.leave]; exact hch
        · intro h4; simp [State.leave] at h4
        · simp [State.leave]
        · intro k hk hk0
          simp only [State.leave, if_true] at hk
          have hk' : k < x.round 0 ∨ (k = x.round 0 ∧ x.phase 0 = .ready) := by
            rcases hk with hk | ⟨_, hk⟩
            · rcases Nat.lt_or_ge k (x.round 0) with h2 | h2
              · exact .inl h2
              · exact .inr ⟨by omega, h1⟩
            · simp at hk
          have := h.past k hk' hk0
          unfold After at this ⊢
          simp only [State.leave, if_neg hk0]
          exact this
        · intro q
          simp only [State.leave]
          have := h.bound q
          by_cases hq : q = 0
          · subst hq; rw [if_pos rfl]; omega
          · rw [if_neg hq]; exact this
        · intro q hq
          simp only [State.leave] at hq ⊢
          by_cases hq0 : q = 0
          · rw [if_pos hq0]
          · rw [if_neg hq0] at hq ⊢; exact h.ended q hq
      · rename_i hp
        obtain ⟨v, hv, hy⟩ := Option.map_eq_some_iff.1 he
        subst hy
        rw [h.sent] at hv
        split at hv
        · rename_i hlt0
          have hv' := Option.some.inj hv
          refine ⟨?_, ?_, ?_, ?_, ?_, ?_, ?_, ?_, ?_, ?_⟩
          · intro k; simp only [State.leave, Ne.symm hp, if_false]; exact h.sent k
          · intro q
            simp only [State.leave, Ne.symm hp, if_false]
            have := h.behind q
            by_cases hq : q = p
            · subst hq; rw [if_pos rfl]; omega
            · rw [if_neg hq]; exact this
          · intro q k
            simp only [State.leave]
            rw [h.result q k, ← hv']
            by_cases hq : q = p
            · subst hq
              by_cases hk : k = x.round q
              · subst hk; simp
              · simp only [hk, and_false, if_false, if_true]
                by_cases hk' : k < x.round q
                · rw [if_pos hk', if_pos (by omega)]
                · rw [if_neg hk', if_neg (by omega)]
            · simp only [hq, false_and, if_false]
          · intro h4 h5 h6 h7
            simp only [State.leave, Ne.symm hp, if_false] at h4 h5 h6 h7 ⊢
            by_cases hq : s (x.round 0) = p
            · rw [if_pos hq] at h7; simp at h7
            · rw [if_neg hq] at h6 h7
              exact h.chanSome h4 h5 h6 h7
          · intro hn
            simp only [State.leave, Ne.symm hp, if_false] at hn ⊢
            apply h.chanNone
            rintro ⟨h4, h5, h6, h7⟩
            by_cases hq : s (x.round 0) = p
            · rw [hq] at h6; omega
            · exact hn ⟨h4, h5, by rw [if_neg hq]; exact h6, by rw [if_neg hq]; exact h7⟩
          · intro h4
            simp only [State.leave, Ne.symm hp, if_false] at h4 ⊢
            exact h.data h4
          · simp only [State.leave, Ne.symm hp, if_false]; exact h.root
          · intro k hk hk0
            simp only [State.leave, Ne.symm hp, if_false] at hk
            have := h.past k hk hk0
            unfold After at this ⊢
            simp only [State.leave]
            by_cases hq : s k = p
            · rw [if_pos hq]
              left
              rcases this with h8 | ⟨h8, _⟩ <;> omega
            · rw [if_neg hq, if_neg hq]; exact this
          · intro q
            simp only [State.leave]
            have := h.bound q
            by_cases hq : q = p
            · subst hq; rw [if_pos rfl]; omega
            · rw [if_neg hq]; exact this
          · intro q hq
            simp only [State.leave] at hq ⊢
            by_cases hq0 : q = p
            · rw [if_pos hq0]
            · rw [if_neg hq0] at hq ⊢; exact h.ended q hq
        · simp at hv
    · simp at he

theorem inv_run (hs : Spec.OneSource c s) : ∀ (es : List (Event n)) (x y : State n V), Inv c s x →
    run c x es = some y → Inv c s y := by
  intro es
  induction es with
  | nil => intro x y h hr; simp only [run, Option.some.injEq] at hr; subst hr; exact h
  | cons e es ih =>
    intro x y h hr
    simp only [run, Option.bind_eq_some_iff] at hr
    obtain ⟨z, hz, hr⟩ := hr
    exact ih z y (inv_step hs h e hz) hr

/-- C78: in every execution, a process that has finished a call has the value of that call's source. -/
theorem C78_values (hs : Spec.OneSource c s) (v : V) (es : List (Event n)) (x : State n V)
    (hr : run c (initial v) es = some x) (p : Fin (n + 1)) (k : Nat) (hk : k < x.round p) :
    x.result p k = some (c.value k (s k)) := by
  rw [(inv_run hs es _ _ (inv_initial c s v) hr).result, if_pos hk]

/-- C78: no execution gets stuck before all processes have finished all calls, whether sends are buffered or not. -/
theorem C78_progress (hs : Spec.OneSource c s) (v : V) (es : List (Event n)) (x : State n V)
    (hr : run c (initial v) es = some x) (hn : ¬ ∀ p, x.round p = c.rounds) : ∃ e y, step c x e = some y := by
  have h := inv_run hs es _ _ (inv_initial c s v) hr
  -- a process behind the root that is not waited for can go on
  have other : ∀ p, p ≠ 0 → x.round p < x.round 0 → (x.phase p = .sending → x.chan = []) →
      ∃ e y, step c x e = some y := by
    intro p hp hlt hch
    have hb := h.bound 0
    cases hph : x.phase p with
    | start =>
      by_cases hsrc : c.isSource (x.round p) p = true
      · exact ⟨.send p, _, if_pos ⟨by omega, hph, hp, hsrc⟩⟩
      · exact ⟨.pass p, _, if_pos ⟨by omega, hph, by simp [hp, hsrc]⟩⟩
    | sending => exact ⟨.sendDone p, _, if_pos ⟨hph, .inr (by rw [hch hph]; simp)⟩⟩
    | ready =>
      refine ⟨.bcast p, x.leave p (c.value (x.round p) (s (x.round p))), ?_⟩
      simp only [step]
      rw [if_pos hph, if_neg hp, h.sent, if_pos hlt]; rfl
  by_cases h0 : x.round 0 = c.rounds
  · obtain ⟨p, hp⟩ : ∃ p, x.round p ≠ c.rounds := by push Not at hn; exact hn
    have hp0 : p ≠ 0 := fun e => hp (e ▸ h0)
    have := h.bound p
    refine other p hp0 (by omega) fun _ => ?_
    apply h.chanNone
    rintro ⟨_, _, h6, h7⟩
    exact h7 (h.ended _ (by omega))
  · have hb := h.bound 0
    have hlt : x.round 0 < c.rounds := by omega
    cases hph : x.phase 0 with
    | sending => exact absurd hph h.root
    | ready => exact ⟨.bcast 0, _, by simp only [step]; rw [if_pos hph, if_pos trivial]⟩
    | start =>
      by_cases hsrc : s (x.round 0) = 0
      · have := (hs (x.round 0) 0).2 hsrc.symm
        exact ⟨.pass 0, _, if_pos ⟨hlt, hph, by simp [this]⟩⟩
      · have hno : c.isSource (x.round 0) 0 = false := by
          rw [Bool.eq_false_iff]
          intro e; exact hsrc ((hs _ _).1 e).symm
        by_cases hsent : x.round (s (x.round 0)) = x.round 0 ∧ x.phase (s (x.round 0)) ≠ .start
        · have hch := h.chanSome hph hsrc hsent.1 hsent.2
          refine ⟨.recv 0, ?_⟩
          simp only [step]
          rw [if_pos ⟨hlt, hph, hno⟩, hch]
          exact ⟨_, rfl⟩
        · have hch : x.chan = [] := h.chanNone fun hc => hsent ⟨hc.2.2.1, hc.2.2.2⟩
          rcases Nat.lt_or_ge (x.round (s (x.round 0))) (x.round 0) with h2 | h2
          · exact other _ hsrc h2 fun _ => hch
          · have h3 := h.behind (s (x.round 0))
            have h4 : x.round (s (x.round 0)) = x.round 0 := by omega
            have h5 : x.phase (s (x.round 0)) = .start := by
              by_contra hne; exact hsent ⟨h4, hne⟩
            refine ⟨.send (s (x.round 0)), _, if_pos ⟨by omega, h5, hsrc, ?_⟩⟩
            rw [h4]; exact (hs _ _).2 rfl

/-- How far a process is. -/
def Phase.index : Phase → Nat | .start => 0 | .sending => 1 | .ready => 2

def work (x : State n V) : Nat := ∑ p, (3 * x.round p + (x.phase p).index)

theorem work_lt {x y : State n V} (p : Fin (n + 1))
    (hp : 3 * x.round p + (x.phase p).index < 3 * y.round p + (y.phase p).index)
    (ho : ∀ q, q ≠ p → 3 * y.round q + (y.phase q).index = 3 * x.round q + (x.phase q).index) :
    work x < work y := by
  unfold work
  refine Finset.sum_lt_sum ?_ ⟨p, Finset.mem_univ p, hp⟩
  intro q _
  by_cases hq : q = p
  · subst hq; exact le_of_lt hp
  · exact le_of_eq (ho q hq).symm

theorem work_step {x y : State n V} (e : Event n) (he : step c x e = some y) : work x < work y := by
  cases e with
  | pass p =>
    simp only [step] at he
    split at he
    · rename_i hc
      rw [← Option.some.inj he]
      refine work_lt p ?_ fun q hq => ?_
      · simp only [State.setPhase, if_true, hc.2.1, Phase.index]; omega
      · simp only [State.setPhase, if_neg hq]
    · simp at he
  | send p =>
    simp only [step] at he
    split at he
    · rename_i hc
      rw [← Option.some.inj he]
      refine work_lt p ?_ fun q hq => ?_
      · simp only [State.setPhase, if_true, hc.2.1, Phase.index]; omega
      · simp only [State.setPhase, if_neg hq]
    · simp at he
  | sendDone p =>
    simp only [step] at he
    split at he
    · rename_i hc
      rw [← Option.some.inj he]
      refine work_lt p ?_ fun q hq => ?_
      · simp only [State.setPhase, if_true, hc.1, Phase.index]; omega
      · simp only [State.setPhase, if_neg hq]
    · simp at he
  | recv i =>
    simp only [step] at he
    split at he
    · rename_i hc
      obtain ⟨m, _, hy⟩ := Option.map_eq_some_iff.1 he
      rw [← hy]
      refine work_lt 0 ?_ fun q hq => ?_
      · simp only [State.setPhase, if_true, hc.2.1, Phase.index]; omega
      · simp only [State.setPhase, if_neg hq]
    · simp at he
  | bcast p =>
    simp only [step] at he
    split at he
    · rename_i hc
      split at he
      · rename_i hp
        subst hp
        rw [← Option.some.inj he]
        refine work_lt 0 ?_ fun q hq => ?_
        · simp only [State.leave, if_true, hc, Phase.index]; omega
        · simp only [State.leave, if_neg hq]
      · obtain ⟨v, _, hy⟩ := Option.map_eq_some_iff.1 he
        rw [← hy]
        refine work_lt p ?_ fun q hq => ?_
        · simp only [State.leave, if_true, hc, Phase.index]; omega
        · simp only [State.leave, if_neg hq]
    · simp at he

/-- C78: every execution ends. -/
theorem C78_terminates (hs : Spec.OneSource c s) (v : V) (es : List (Event n)) (x : State n V)
    (hr : run c (initial v) es = some x) : es.length ≤ 3 * (n + 1) * c.rounds := by
  have h := inv_run hs es _ _ (inv_initial c s v) hr
  have key : ∀ (es : List (Event n)) (x y : State n V), run c x es = some y → es.length + work x ≤ work y := by
    intro es
    induction es with
    | nil => intro x y h; simp only [run, Option.some.injEq] at h; subst h; simp
    | cons e es ih =>
      intro x y h
      simp only [run, Option.bind_eq_some_iff] at h
      obtain ⟨z, hz, h⟩ := h
      have h1 := work_step e hz
      have h2 := ih z y h
      simp only [List.length_cons]; omega
  have h1 := key es _ _ hr
  have h2 : work x ≤ ∑ _p : Fin (n + 1), 3 * c.rounds := by
    unfold work
    apply Finset.sum_le_sum
    intro p _
    have hb := h.bound p
    have hi : (x.phase p).index ≤ 2 := by cases x.phase p <;> simp [Phase.index]
    rcases Nat.lt_or_ge (x.round p) c.rounds with h3 | h3
    · omega
    · rw [h.ended p (by omega)]; simp only [Phase.index]; omega
  simp only [Finset.sum_const, Finset.card_univ, Fintype.card_fin, smul_eq_mul] at h2
  have h3 : (n + 1) * (3 * c.rounds) = 3 * (n + 1) * c.rounds := by
    rw [Nat.mul_left_comm, Nat.mul_assoc]
  omega

/-! Examples: two calls with sources 2 and 1. -/

def exCalls : Calls 2 Nat where
  rounds := 2
  isSource := fun k p => if k = 0 then p = 2 else p = 1
  value := fun k p => 10 * k + p
  buffered := fun _ _ => false

example : Spec.OneSource exCalls fun k => if k = 0 then 2 else 1 := by
  intro k p
  by_cases hk : k = 0 <;> simp [exCalls, hk]

example : ((run exCalls (initial 0) [.pass 1, .send 2, .recv 0, .bcast 0, .bcast 1, .send 1, .sendDone 2, .bcast 2,
    .recv 0, .sendDone 1, .pass 2, .bcast 0, .bcast 2, .bcast 1]).map fun x =>
      ((List.finRange 3).map x.round, (List.finRange 3).map fun p => (x.result p 0, x.result p 1))) =
    some ([2, 2, 2], [(some 2, some 11), (some 2, some 11), (some 2, some 11)]) := by decide +kernel

/-- The assumption is needed in every round: if two processes say they are the source in the first call, then in the
second call, which has the one source 1, all processes may get what process 1 wanted to broadcast in the first. -/
def exTwoSources : Calls 2 Nat where
  rounds := 2
  isSource := fun k p => if k = 0 then p ≠ 0 else p = 1
  value := fun k p => 10 * k + p
  buffered := fun _ _ => true

theorem C78_two_sources :
    (run exTwoSources (initial 0) [.send 1, .send 2, .recv 1, .bcast 0, .recv 0, .bcast 0]).map (fun x => x.result 0 1) =
      some (some 1) ∧ exTwoSources.value 1 1 = 11 := by decide +kernel

/-- Without any source the calls never end. -/
theorem C78_no_source (c : Calls n V) (hs : ∀ p, c.isSource 0 p = false) (v : V) (es : List (Event n)) (x : State n V)
    (hr : run c (initial v) es = some x) : ∀ p, x.round p = 0 := by
  have key : ∀ (es : List (Event n)) (x y : State n V), ((∀ p, x.round p = 0) ∧ x.phase 0 = .start ∧ x.chan = [] ∧
      ∀ k, x.sent k = none) → run c x es = some y → ∀ p, y.round p = 0 := by
    intro es
    induction es with
    | nil => intro x y h hr; simp only [run, Option.some.injEq] at hr; subst hr; exact h.1
    | cons e es ih =>
      intro x y h hr
      simp only [run, Option.bind_eq_some_iff] at hr
      obtain ⟨z, hz, hr⟩ := hr
      refine ih z y ?_ hr
      obtain ⟨h1, h2, h3, h4⟩ := h
      cases e with
      | pass p =>
        simp only [step] at hz
        split at hz
        · rename_i hc
          rw [← Option.some.inj hz]
          have hp : p ≠ 0 := by
            intro e; have := hc.2.2.1 e; rw [h1, hs] at this; simp at this
          exact ⟨h1, by simp [State.setPhase, Ne.symm hp, h2], h3, h4⟩
        · simp at hz
      | send p =>
        simp only [step] at hz
        split at hz
        · rename_i hc
          have := hc.2.2.2
          rw [h1, hs] at this; simp at this
        · simp at hz
      | sendDone p =>
        simp only [step] at hz
        split at hz
        · rename_i hc
          rw [← Option.some.inj hz]
          have hp : p ≠ 0 := by
            intro e; rw [e, h2] at hc; simp at hc
          exact ⟨h1, by simp [State.setPhase, Ne.symm hp, h2], h3, h4⟩
        · simp at hz
      | recv i =>
        simp only [step] at hz
        split at hz
        · rw [h3] at hz; simp at hz
        · simp at hz
      | bcast p =>
        simp only [step] at hz
        split at hz
        · rename_i hc
          split at hz
          · rename_i hp
            rw [hp, h2] at hc; simp at hc
          · rw [h4] at hz; simp at hz
        · simp at hz
  exact key es _ _ ⟨fun _ => rfl, rfl, rfl, fun _ => rfl⟩ hr

end Ovk.Bcast
