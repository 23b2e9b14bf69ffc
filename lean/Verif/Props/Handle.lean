/-
Property C100: handles of MPI resources.
-/
import Verif.Model.Handle
import Verif.Props.Optional
import Mathlib.Logic.ExistsUnique
import Mathlib.Tactic.SplitIfs
import Mathlib.Tactic.Push

namespace Ovk.Hdl
open Optn.Spec (upd)

/-! ### Specification -/
namespace Spec

/-- The handles that exist and what they own; resources given back to the caller by `Release`; resources freed. -/
structure World where
  has : Nat → Option (Option Nat)
  out : List Nat
  freed : List Nat
  /-- all resources ever put into a handle -/
  all : List Nat

def nothing : World := ⟨fun _ => none, [], [], []⟩

/-- What a handle owns. -/
def owned (w : World) (h : Nat) : List Nat := ((w.has h).bind id).toList

def Allowed (w : World) : Op → Prop
  | .empty h => w.has h = none
  | .make h r => w.has h = none ∧ r ∉ w.all
  | .move h k => w.has h = none ∧ w.has k ≠ none
  | .assign h k => w.has h ≠ none ∧ w.has k ≠ none
  | .reset h | .destroy h => w.has h ≠ none
  | .release h => ∃ r, w.has h = some (some r)

/-- What a call should do: whatever a handle owns is freed when the handle gives it up. -/
def next (w : World) : Op → World
  | .empty h => { w with has := upd w.has h (some none) }
  | .make h r => { w with has := upd w.has h (some (some r)), all := r :: w.all }
  | .move h k => { w with has := upd (upd w.has h (w.has k)) k (some none) }
  | .assign h k =>
    if h = k then w
    else { w with has := upd (upd w.has h (w.has k)) k (some none), freed := owned w h ++ w.freed }
  | .reset h => { w with has := upd w.has h (some none), freed := owned w h ++ w.freed }
  | .release h => { w with has := upd w.has h (some none), out := owned w h ++ w.out }
  | .destroy h => { w with has := upd w.has h none, freed := owned w h ++ w.freed }

/-- `w` is what there should be after allowed calls, each satisfying `P`. -/
inductive Reach (P : World → Op → Prop) : List Op → World → Prop
  | nil : Reach P [] nothing
  | snoc {ops w o} : Reach P ops w → Allowed w o → P w o → Reach P (ops ++ [o]) (next w o)

def Agrees (s : State) (w : World) : Prop := Optn.Spec.Agrees s.opt w.has ∧ s.freed = w.freed

/-- Handles are assigned to only when they own nothing. -/
def Vacant (w : World) : Op → Prop
  | .assign h _ => w.has h = some none
  | _ => True

end Spec

/-- C100, the whole claim. -/
def C100_statement : Prop := ∀ ops w, Spec.Reach (fun _ _ => True) ops w → ∃ s, run ops = some s ∧ Spec.Agrees s w

/-- `n` handles own `r`, where `n` is 0 or 1. -/
def Held (has : Nat → Option (Option Nat)) (r n : Nat) : Prop :=
  (n = 1 ∧ ∃ h, has h = some (some r) ∧ ∀ k, has k = some (some r) → k = h) ∨ (n = 0 ∧ ∀ h, has h ≠ some (some r))

theorem held_give {has : Nat → Option (Option Nat)} {r n : Nat} (H : Held has r n) (h : Nat) (x : Option (Option Nat))
    (hx : ∀ v, x ≠ some (some v)) :
    ∃ n', Held (upd has h x) r n' ∧ n' + (((has h).bind id).toList).count r = n := by
  by_cases hh : has h = some (some r)
  · have hc : (((has h).bind id).toList).count r = 1 := by rw [hh]; simp
    rcases H with ⟨rfl, k, hk, hu⟩ | ⟨rfl, hno⟩
    · refine ⟨0, Or.inr ⟨rfl, fun q hq => ?_⟩, by rw [hc]⟩
      unfold upd at hq
      split_ifs at hq with e
      · exact hx r hq
      · exact e ((hu q hq).trans (hu h hh).symm)
    · exact absurd hh (hno h)
  · have hc : (((has h).bind id).toList).count r = 0 := by
      rw [List.count_eq_zero]
      intro hm
      apply hh
      cases e : has h with
      | none => rw [e] at hm; simp at hm
      | some y =>
        rw [e] at hm
        cases y with
        | none => simp at hm
        | some v => simp at hm; rw [hm]
    refine ⟨n, ?_, by rw [hc]; rfl⟩
    have hiff : ∀ q, upd has h x q = some (some r) ↔ has q = some (some r) := by
      intro q
      unfold upd
      split_ifs with e
      · subst e
        exact ⟨fun h' => absurd h' (hx r), fun h' => absurd h' hh⟩
      · exact Iff.rfl
    rcases H with ⟨rfl, k, hk, hu⟩ | ⟨rfl, hno⟩
    · exact Or.inl ⟨rfl, k, (hiff k).2 hk, fun q hq => hu q ((hiff q).1 hq)⟩
    · exact Or.inr ⟨rfl, fun q hq => hno q ((hiff q).1 hq)⟩

theorem held_put {has : Nat → Option (Option Nat)} {r n : Nat} (H : Held has r n) (h r0 : Nat)
    (hv : ∀ v, has h ≠ some (some v)) (hn : r0 = r → n = 0) :
    Held (upd has h (some (some r0))) r (n + [r0].count r) := by
  by_cases e : r0 = r
  · subst e
    have hn' := hn rfl
    subst hn'
    rcases H with ⟨h0, -⟩ | ⟨-, hno⟩
    · cases h0
    · refine Or.inl ⟨by simp, h, by simp [upd], fun q hq => ?_⟩
      unfold upd at hq
      split_ifs at hq with e
      · exact e
      · exact absurd hq (hno q)
  · have hc : [r0].count r = 0 := by rw [List.count_eq_zero]; simpa using fun h => e h.symm
    rw [hc]
    have hiff : ∀ q, upd has h (some (some r0)) q = some (some r) ↔ has q = some (some r) := by
      intro q
      unfold upd
      split_ifs with e'
      · subst e'
        simp only [Option.some.injEq]
        exact ⟨fun h' => absurd h' e, fun h' => absurd h' (hv r)⟩
      · exact Iff.rfl
    rcases H with ⟨rfl, k, hk, hu⟩ | ⟨rfl, hno⟩
    · exact Or.inl ⟨rfl, k, (hiff k).2 hk, fun q hq => hu q ((hiff q).1 hq)⟩
    · exact Or.inr ⟨rfl, fun q hq => hno q ((hiff q).1 hq)⟩

/-- Moving what `k` owns to `h`, which owns nothing. -/
theorem held_move {has : Nat → Option (Option Nat)} {r n : Nat} (H : Held has r n) (h k : Nat) (hne : h ≠ k)
    (hk : has k ≠ none) (hv : ∀ v, has h ≠ some (some v)) :
    Held (upd (upd has h (has k)) k (some none)) r n := by
  obtain ⟨n', H', hn'⟩ := held_give H k (some none) (by simp)
  have hv' : ∀ v, upd has k (some none) h ≠ some (some v) := by
    intro v
    unfold upd
    rw [if_neg hne]
    exact hv v
  have hcomm : upd (upd has h (has k)) k (some none) = upd (upd has k (some none)) h (has k) := by
    funext q
    unfold upd
    by_cases e1 : q = k <;> by_cases e2 : q = h
    · exact absurd (e2.symm.trans e1) hne
    · simp [e1, Ne.symm hne]
    · simp [e2, hne]
    · simp [e1, e2]
  rw [hcomm]
  cases e : has k with
  | none => exact absurd e hk
  | some x =>
    cases x with
    | none =>
      rw [e] at hn'
      obtain ⟨m, hm, hmn⟩ := held_give H' h (some none) (by simp)
      have : ((upd has k (some none) h).bind id).toList = [] := by
        cases e' : upd has k (some none) h with
        | none => rfl
        | some y =>
          cases y with
          | none => rfl
          | some v => exact absurd e' (hv' v)
      rw [this] at hmn
      simp at hmn hn'
      rw [← hn', ← hmn]
      exact hm
    | some v =>
      rw [e] at hn'
      rw [← hn']
      have := held_put H' h v hv' (by
        rintro rfl
        simp at hn'
        rcases H with ⟨rfl, -⟩ | ⟨rfl, hno⟩
        · omega
        · exact absurd e (hno k))
      simpa using this

theorem held_spec {P : Spec.World → Op → Prop} {ops : List Op} {w : Spec.World} (h : Spec.Reach P ops w) (r : Nat) :
    ∃ n, Held w.has r n ∧ n + w.out.count r + w.freed.count r = if r ∈ w.all then 1 else 0 := by
  induction h with
  | nil => exact ⟨0, Or.inr ⟨rfl, fun h => by simp [Spec.nothing]⟩, by simp [Spec.nothing]⟩
  | @snoc ops w o _ ha _ ih =>
    obtain ⟨n, H, hn⟩ := ih
    have hnone : ∀ q, w.has q = none → ∀ v, w.has q ≠ some (some v) := by
      intro q hq v hv; rw [hq] at hv; cases hv
    cases o with
    | empty q =>
      obtain ⟨n', H', hn'⟩ := held_give H q (some none) (by simp)
      rw [show w.has q = none from ha] at hn'
      simp at hn'
      subst hn'
      exact ⟨_, H', hn⟩
    | make q r0 =>
      have hc : r0 = r → n = 0 ∧ r ∉ w.all := by
        rintro rfl
        have h2 := ha.2
        rw [if_neg h2] at hn
        exact ⟨by omega, h2⟩
      refine ⟨_, held_put H q r0 (hnone q ha.1) fun e => (hc e).1, ?_⟩
      show n + [r0].count r + w.out.count r + w.freed.count r = if r ∈ r0 :: w.all then 1 else 0
      by_cases e : r0 = r
      · obtain ⟨-, h2⟩ := hc e
        rw [if_neg h2] at hn
        subst e
        simp; omega
      · have : [r0].count r = 0 := by rw [List.count_eq_zero]; simpa using fun h => e h.symm
        have h3 : r ∈ r0 :: w.all ↔ r ∈ w.all := by
          rw [List.mem_cons]
          exact ⟨fun h => h.resolve_left fun h => e h.symm, Or.inr⟩
        rw [this]
        simp only [h3]
        omega
    | move q k =>
      have hne : q ≠ k := by rintro rfl; exact ha.2 ha.1
      exact ⟨n, held_move H q k hne ha.2 (hnone q ha.1), hn⟩
    | assign q k =>
      by_cases e : q = k
      · rw [show Spec.next w (.assign q k) = w from if_pos e]
        exact ⟨n, H, hn⟩
      · rw [show Spec.next w (.assign q k) = { w with has := upd (upd w.has q (w.has k)) k (some none), freed := Spec.owned w q ++ w.freed } from if_neg e]
        obtain ⟨n', H', hn'⟩ := held_give H q (some none) (by simp)
        have hk : upd w.has q (some none) k = w.has k := by unfold upd; rw [if_neg (Ne.symm e)]
        have := held_move H' q k e (by rw [hk]; exact ha.2) (by intro v; simp [upd])
        rw [hk] at this
        have h2 : upd (upd w.has q (some none)) q (w.has k) = upd w.has q (w.has k) := by
          funext x; unfold upd; split_ifs <;> rfl
        rw [h2] at this
        refine ⟨n', this, ?_⟩
        show n' + w.out.count r + (Spec.owned w q ++ w.freed).count r = if r ∈ w.all then 1 else 0
        rw [List.count_append, ← hn]
        unfold Spec.owned
        omega
    | reset q =>
      obtain ⟨n', H', hn'⟩ := held_give H q (some none) (by simp)
      refine ⟨n', H', ?_⟩
      show n' + w.out.count r + (Spec.owned w q ++ w.freed).count r = if r ∈ w.all then 1 else 0
      rw [List.count_append, ← hn]
      unfold Spec.owned
      omega
    | release q =>
      obtain ⟨n', H', hn'⟩ := held_give H q (some none) (by simp)
      refine ⟨n', H', ?_⟩
      show n' + (Spec.owned w q ++ w.out).count r + w.freed.count r = if r ∈ w.all then 1 else 0
      rw [List.count_append, ← hn]
      unfold Spec.owned
      omega
    | destroy q =>
      obtain ⟨n', H', hn'⟩ := held_give H q none (by simp)
      refine ⟨n', H', ?_⟩
      show n' + w.out.count r + (Spec.owned w q ++ w.freed).count r = if r ∈ w.all then 1 else 0
      rw [List.count_append, ← hn]
      unfold Spec.owned
      omega

/-- The specification says what is meant: every resource ever put into a handle is owned by exactly one handle, or has
been given back, or has been freed once. -/
theorem C100_once {P : Spec.World → Op → Prop} {ops : List Op} {w : Spec.World} (h : Spec.Reach P ops w) (r : Nat)
    (hr : r ∈ w.all) :
    ((∃! h, w.has h = some (some r)) ∧ r ∉ w.out ∧ r ∉ w.freed) ∨
    ((∀ h, w.has h ≠ some (some r)) ∧ w.out.count r + w.freed.count r = 1) := by
  obtain ⟨n, H, hn⟩ := held_spec h r
  rw [if_pos hr] at hn
  rcases H with ⟨rfl, k, hk, hu⟩ | ⟨rfl, hno⟩
  · left
    exact ⟨⟨k, hk, hu⟩, List.count_eq_zero.1 (by omega), List.count_eq_zero.1 (by omega)⟩
  · right
    exact ⟨hno, by omega⟩

/-- The state of the handles and what they should own. -/
structure Rel (s : State) (w : Spec.World) : Prop where
  opt : ∀ q, Optn.Stands (w.has q) (s.opt.slot q)
  del : ∀ q v, w.has q = some (some v) → s.del q = true
  freed : s.freed = w.freed

theorem stands_cases {x : Option (Option Nat)} {s : Option (Optn.Slot Nat)} (h : Optn.Stands x s) :
    x = none ∧ s = none ∨ (x = some none ∧ ∃ l, s = some ⟨l, false⟩) ∨
      ∃ v, x = some (some v) ∧ s = some ⟨some v, true⟩ := by
  cases x with
  | none => exact Or.inl ⟨rfl, h⟩
  | some y =>
    cases y with
    | none => exact Or.inr (Or.inl ⟨rfl, h⟩)
    | some v => exact Or.inr (Or.inr ⟨v, rfl, h⟩)

theorem reset_spec {s : State} {w : Spec.World} (h : Rel s w) (q : Nat) (hq : w.has q ≠ none) :
    ∃ t, reset s q = some t ∧ Rel t (Spec.next w (.reset q)) := by
  rcases stands_cases (h.opt q) with ⟨hw, -⟩ | ⟨hw, l, hs⟩ | ⟨v, hw, hs⟩
  · exact absurd hw hq
  · refine ⟨s, by simp [reset, Optn.present, hs], ?_, ?_, ?_⟩
    · intro x
      show Optn.Stands (upd w.has q (some none) x) _
      unfold upd
      split_ifs with e
      · subst e; exact ⟨l, hs⟩
      · exact h.opt x
    · intro x v hx
      change upd w.has q (some none) x = _ at hx
      unfold upd at hx
      split_ifs at hx
      · cases hx
      · exact h.del x v hx
    · show s.freed = Spec.owned w q ++ w.freed
      rw [h.freed]
      unfold Spec.owned
      rw [hw]
      rfl
  · obtain ⟨m', h1, h2, -⟩ := Optn.step_spec id s.opt w.has h.opt (.reset q) hq trivial
    have hd := h.del q v hw
    refine ⟨⟨m', setDel s.del q false, v :: s.freed⟩, ?_, h2, ?_, ?_⟩
    · simp only [reset, Optn.present, hs, Optn.get, hd, h1]
      rfl
    · intro x u hx
      change upd w.has q (some none) x = _ at hx
      unfold upd at hx
      split_ifs at hx with e
      · cases hx
      · show setDel s.del q false x = true
        unfold setDel
        rw [if_neg e]
        exact h.del x u hx
    · show v :: s.freed = Spec.owned w q ++ w.freed
      rw [h.freed]
      unfold Spec.owned
      rw [hw]
      rfl

theorem step_spec {s : State} {w : Spec.World} (h : Rel s w) (o : Op) (ha : Spec.Allowed w o) (hp : Spec.Vacant w o) :
    ∃ t, step s o = some t ∧ Rel t (Spec.next w o) := by
  cases o with
  | empty q =>
    obtain ⟨m', h1, h2, -⟩ := Optn.step_spec id s.opt w.has h.opt (.empty q) ha trivial
    refine ⟨{ s with opt := m', del := setDel s.del q false }, by simp only [step, h1, Option.map_some], h2, ?_, h.freed⟩
    intro x u hx
    change upd w.has q (some none) x = _ at hx
    unfold upd at hx
    split_ifs at hx with e
    · cases hx
    · show setDel s.del q false x = true
      unfold setDel
      rw [if_neg e]
      exact h.del x u hx
  | make q r =>
    obtain ⟨m', h1, h2, -⟩ := Optn.step_spec id s.opt w.has h.opt (.value q r false) ha.1 trivial
    refine ⟨{ s with opt := m', del := setDel s.del q true }, by simp only [step, h1, Option.map_some], h2, ?_, h.freed⟩
    intro x u hx
    change upd w.has q (some (some r)) x = _ at hx
    unfold upd at hx
    show setDel s.del q true x = true
    unfold setDel
    split_ifs at hx ⊢
    · rfl
    · exact h.del x u hx
  | move q k =>
    obtain ⟨m', h1, h2, -⟩ := Optn.step_spec id s.opt w.has h.opt (.move q k) ha trivial
    refine ⟨{ s with opt := m', del := setDel (setDel s.del q (s.del k)) k false },
      by simp only [step, h1, Option.map_some], h2, ?_, h.freed⟩
    intro x u hx
    change upd (upd w.has q (w.has k)) k (some none) x = _ at hx
    unfold upd at hx
    show setDel (setDel s.del q (s.del k)) k false x = true
    unfold setDel
    split_ifs at hx ⊢
    · cases hx
    · exact h.del k u hx
    · exact h.del x u hx
  | assign q k =>
    have hp : w.has q = some none := hp
    obtain ⟨m', h1, h2, -⟩ := Optn.step_spec id s.opt w.has h.opt (.assignMove q k) ha fun _ => hp
    refine ⟨{ s with opt := m', del := if q = k then s.del else setDel (setDel s.del q (s.del k)) k false },
      by simp only [step, h1, Option.map_some], ?_, ?_, ?_⟩
    · intro x
      have := h2 x
      unfold Spec.next
      unfold Optn.Spec.next at this
      dsimp only at this ⊢
      split_ifs at this ⊢ <;> exact this
    · intro x u hx
      unfold Spec.next at hx
      dsimp only at hx ⊢
      split_ifs at hx ⊢
      · exact h.del x u hx
      · change upd (upd w.has q (w.has k)) k (some none) x = _ at hx
        unfold upd at hx
        unfold setDel
        split_ifs at hx ⊢
        · cases hx
        · exact h.del k u hx
        · exact h.del x u hx
    · unfold Spec.next
      dsimp only
      split_ifs
      · exact h.freed
      · show s.freed = Spec.owned w q ++ w.freed
        rw [h.freed]
        unfold Spec.owned
        rw [hp]
        rfl
  | reset q => exact reset_spec h q ha
  | release q =>
    obtain ⟨m', h1, h2, -⟩ := Optn.step_spec id s.opt w.has h.opt (.release q) ha trivial
    refine ⟨{ s with opt := m', del := setDel s.del q false }, by simp only [step, h1, Option.map_some], h2, ?_, h.freed⟩
    intro x u hx
    change upd w.has q (some none) x = _ at hx
    unfold upd at hx
    split_ifs at hx with e
    · cases hx
    · show setDel s.del q false x = true
      unfold setDel
      rw [if_neg e]
      exact h.del x u hx
  | destroy q =>
    obtain ⟨t, h1, h2⟩ := reset_spec h q ha
    obtain ⟨m', h3, h4, -⟩ := Optn.step_spec id t.opt _ h2.opt (.destroy q) (by
      show upd w.has q (some none) q ≠ none
      simp [upd]) trivial
    refine ⟨{ t with opt := m' }, by simp only [step, h1]; show (Optn.step id t.opt (.destroy q)).bind _ = _; rw [h3]; rfl,
      ?_, ?_, h2.freed⟩
    · intro x
      have := h4 x
      change Optn.Stands (upd (upd w.has q (some none)) q none x) _ at this
      show Optn.Stands (upd w.has q none x) _
      unfold upd at this ⊢
      split_ifs at this ⊢ <;> exact this
    · intro x u hx
      change upd w.has q none x = _ at hx
      apply h2.del x u
      show upd w.has q (some none) x = _
      unfold upd at hx ⊢
      split_ifs at hx ⊢
      exact hx

theorem run_snoc (ops : List Op) (o : Op) : run (ops ++ [o]) = (run ops).bind fun s => step s o := by
  unfold run
  rw [List.foldlM_append]
  cases List.foldlM step start ops with
  | none => rfl
  | some m =>
    show List.foldlM step m [o] = step m o
    rw [List.foldlM_cons]
    cases step m o <;> rfl

/-- C100: resources are freed exactly when they should, as long as handles are assigned to only when they own
nothing.  Missing: assignment to a handle that owns a resource. -/
theorem C100_partial {ops : List Op} {w : Spec.World} (h : Spec.Reach Spec.Vacant ops w) :
    ∃ s, run ops = some s ∧ Spec.Agrees s w := by
  have : ∃ s, run ops = some s ∧ Rel s w := by
    induction h with
    | nil => exact ⟨start, rfl, ⟨fun _ => rfl, fun _ _ h => (nomatch h), rfl⟩⟩
    | @snoc ops w o _ ha hp ih =>
      obtain ⟨s, hs, hr⟩ := ih
      obtain ⟨t, h1, h2⟩ := step_spec hr o ha hp
      exact ⟨t, by rw [run_snoc, hs]; exact h1, h2⟩
  obtain ⟨s, hs, hr⟩ := this
  exact ⟨s, hs, Optn.agrees_of hr.opt, hr.freed⟩

/-- A handle is replaced by another one. -/
def replaced : List Op := [.make 0 10, .make 1 11, .assign 0 1, .destroy 0, .destroy 1]

/-- Assigning to a handle that owns a resource loses it: it is never freed (Handle.hpp:31). -/
theorem C100_false : ¬ C100_statement := by
  intro h
  have hr : ∃ w, Spec.Reach (fun _ _ => True) replaced w ∧ w.freed = [11, 10] := by
    refine ⟨_, .snoc (ops := [.make 0 10, .make 1 11, .assign 0 1, .destroy 0])
      (.snoc (ops := [.make 0 10, .make 1 11, .assign 0 1]) (.snoc (ops := [.make 0 10, .make 1 11])
      (.snoc (ops := [.make 0 10]) (.snoc (ops := []) .nil ?_ trivial) ?_ trivial) ?_ trivial) ?_ trivial) ?_
      trivial, ?_⟩ <;> simp [Spec.Allowed, Spec.next, upd, Spec.nothing, Spec.owned]
  obtain ⟨w, hw, hf⟩ := hr
  obtain ⟨s, hs, -, hb⟩ := h _ _ hw
  have e : (run replaced).map (fun s => s.freed) = some [11] := by decide +kernel
  rw [hs, Option.map_some, hb, hf] at e
  exact absurd e (by decide)

example : ∃ w, Spec.Reach Spec.Vacant [.make 0 10, .empty 1, .assign 1 0, .make 2 12, .release 2, .destroy 1] w ∧
    w.freed = [10] ∧ w.out = [12] := by
  refine ⟨_, .snoc (ops := [.make 0 10, .empty 1, .assign 1 0, .make 2 12, .release 2])
    (.snoc (ops := [.make 0 10, .empty 1, .assign 1 0, .make 2 12]) (.snoc (ops := [.make 0 10, .empty 1, .assign 1 0])
    (.snoc (ops := [.make 0 10, .empty 1]) (.snoc (ops := [.make 0 10])
    (.snoc (ops := []) .nil ?_ ?_) ?_ ?_) ?_ ?_) ?_ ?_) ?_ ?_) ?_ ?_, ?_, ?_⟩ <;>
    simp [Spec.Allowed, Spec.next, upd, Spec.nothing, Spec.owned, Spec.Vacant]

end Ovk.Hdl
