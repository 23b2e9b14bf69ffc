/-
C29: edit sessions end exactly once.  C30: registered listeners hear each event exactly once.
-/
import Verif.Model.Editor
import Verif.Lemmas.Container
import Verif.Props.Container
import Mathlib.Data.Finset.Card
import Mathlib.Tactic.SplitIfs

namespace Ovk.Edit

/-! ### Specification -/
namespace Spec

/-- Who is editing: the handle variables holding the object, and references released from a handle and not
yet given back through the object. -/
structure Who where
  held : Finset Nat
  loose : Nat
deriving DecidableEq

/-- The effect an operation is supposed to have on who is editing; `none` if it is not allowed. -/
def after (w : Who) : Op → Option Who
  | .edit h => some { w with held := insert h w.held }
  | .copy k h => some { w with held := if h ∈ w.held then insert k w.held else w.held.erase k }
  | .move k h => some { w with held := if h ∈ w.held then insert k (w.held.erase h) else w.held.erase k }
  | .destroy h => some { w with held := w.held.erase h }
  | .restore h => some { w with held := w.held.erase h }
  | .release h => some (if h ∈ w.held then ⟨w.held.erase h, w.loose + 1⟩ else w)
  | .editorRestore => if w.loose = 0 then none else some { w with loose := w.loose - 1 }

/-- Number of references. -/
def Who.total (w : Who) : Nat := w.held.card + w.loose

/-- Who is editing, and how many edit sessions have ended, after a history. -/
def sessions : List Op → Who → Nat → Option (Who × Nat)
  | [], w, n => some (w, n)
  | o :: os, w, n =>
    match after w o with
    | none => none
    | some w' => sessions os w' (if 0 < w.total ∧ w'.total = 0 then n + 1 else n)

def nobody : Who := ⟨∅, 0⟩

/-- The editor agrees: it is active exactly while somebody is editing, and the end-of-edit action has run once per
ended session. -/
def Agrees (s : State) (w : Who) (n : Nat) : Prop := (s.active = true ↔ 0 < w.total) ∧ s.ended = n

end Spec

/-- Full statement: in every allowed history. -/
def C29_statement : Prop := ∀ ops w n, Spec.sessions ops Spec.nobody 0 = some (w, n) →
  ∃ s, run ops start = some s ∧ Spec.Agrees s w n

structure Rel (s : State) (w : Spec.Who) (n : Nat) : Prop where
  count : s.count = w.total
  active : s.active = true ↔ 0 < w.total
  ended : s.ended = n
  holds : ∀ h, s.holds h = true ↔ h ∈ w.held

theorem decrement_spec {s : State} {w w' : Spec.Who} {n : Nat} (hc : s.count = w.total)
    (ha : s.active = true ↔ 0 < w.total) (he : s.ended = n) (ht : w.total = w'.total + 1)
    (hh : ∀ h, s.holds h = true ↔ h ∈ w'.held) :
    ∃ t, decrement s = some t ∧ Rel t w' (if w'.total = 0 then n + 1 else n) := by
  have hact : s.active = true := ha.2 (by omega)
  unfold decrement
  dsimp only
  by_cases h0 : s.count - 1 = 0
  · have : w'.total = 0 := by omega
    rw [if_pos h0, if_pos hact, if_pos this]
    refine ⟨_, rfl, ?_, ?_, by simp [he], hh⟩
    · show s.count - 1 = _
      omega
    · simp [this]
  · have : w'.total ≠ 0 := by omega
    rw [if_neg h0, if_neg this]
    refine ⟨_, rfl, ?_, ?_, he, hh⟩
    · show s.count - 1 = _
      omega
    · show s.active = true ↔ _
      simp only [hact, true_iff]
      omega

/-- No operation calls `Restore` of a handle. -/
def NoRestore (ops : List Op) : Prop := ∀ h, Op.restore h ∉ ops

theorem step_spec {s : State} {w w' : Spec.Who} {n : Nat} (r : Rel s w n) (o : Op)
    (ho : ∀ h, o ≠ .restore h) (hw : Spec.after w o = some w') :
    ∃ t, step s o = some t ∧ Rel t w' (if 0 < w.total ∧ w'.total = 0 then n + 1 else n) := by
  cases o with
  | edit h =>
    cases hw
    by_cases hh : s.holds h = true
    · have hm := (r.holds h).1 hh
      have hpos : 0 < w.held.card := Finset.card_pos.2 ⟨h, hm⟩
      have hact : s.active = true := r.active.2 (by unfold Spec.Who.total; omega)
      have hins : insert h w.held = w.held := Finset.insert_eq_self.2 hm
      obtain ⟨t, h1, h2⟩ := decrement_spec (s := setHold (increment s) h true) (n := n)
        (w := ⟨w.held, w.loose + 1⟩) (w' := w)
        (by show s.count + 1 = _; rw [r.count]; simp [Spec.Who.total]; omega)
        (by show s.active = true ↔ _; simp only [hact, Spec.Who.total, true_iff]; omega)
        r.ended (by simp [Spec.Who.total]; omega)
        (by
          intro k
          show (if k = h then true else s.holds k) = true ↔ _
          split_ifs with e
          · subst e; simp [hm]
          · exact r.holds k)
      refine ⟨t, ?_, ?_⟩
      · simp only [step, hact, if_true, dropIf]
        rw [if_pos hh]
        exact h1
      · have e : w.total ≠ 0 := by unfold Spec.Who.total; omega
        simp only [hins]
        rw [if_neg e] at h2
        rw [if_neg (by rintro ⟨-, h⟩; exact e h)]
        exact h2
    · have hm : h ∉ w.held := fun h' => hh ((r.holds h).2 h')
      refine ⟨setHold (increment (if s.active then s else { s with active := true })) h true, ?_, ?_⟩
      · simp only [step, dropIf]
        rw [if_neg]
        split_ifs <;> exact hh
      · have e : ({ w with held := insert h w.held } : Spec.Who).total = w.total + 1 := by
          simp [Spec.Who.total, Finset.card_insert_of_notMem hm]
          omega
        have hn : (if 0 < w.total ∧ ({ w with held := insert h w.held } : Spec.Who).total = 0 then n + 1
            else n) = n := if_neg (by rw [e]; omega)
        have hs : ∃ s0, (if s.active then s else { s with active := true }) = s0 ∧ s0.count = s.count ∧
            s0.active = true ∧ s0.ended = s.ended ∧ s0.holds = s.holds := by
          refine ⟨_, rfl, ?_⟩
          split_ifs with ha
          · exact ⟨rfl, ha, rfl, rfl⟩
          · exact ⟨rfl, rfl, rfl, rfl⟩
        obtain ⟨s0, hs0, a1, a2, a3, a4⟩ := hs
        rw [hs0]
        show Rel _ _ (if 0 < w.total ∧ ({ w with held := insert h w.held } : Spec.Who).total = 0 then n + 1
            else n)
        rw [hn]
        refine ⟨?_, ?_, ?_, ?_⟩
        · rw [e]
          show s0.count + 1 = _
          have := r.count
          omega
        · show s0.active = true ↔ _
          rw [e]
          simp [a2]
        · show s0.ended = _
          rw [a3, r.ended]
        · intro k
          show (if k = h then true else s0.holds k) = true ↔ _
          rw [Finset.mem_insert, a4]
          split_ifs with e1
          · simp [e1]
          · simp [e1, r.holds k]
  | copy k h =>
    cases hw
    have key : ∀ (x : Spec.Who) (s' : State), s'.count = x.total → (s'.active = true ↔ 0 < x.total) →
        s'.ended = n → ∀ v : Spec.Who, (∀ q, s'.holds q = true ↔ q ∈ v.held) →
        x.total = v.total + (if s.holds k then 1 else 0) →
        ∃ t, dropIf (s.holds k) s' = some t ∧ Rel t v (if 0 < x.total ∧ v.total = 0 then n + 1 else n) := by
      intro x s' a b c v d e
      unfold dropIf
      by_cases hk : s.holds k = true
      · rw [if_pos hk] at e ⊢
        obtain ⟨t, t1, t2⟩ := decrement_spec a b c e d
        refine ⟨t, t1, ?_⟩
        have : 0 < x.total := by omega
        simpa [this] using t2
      · rw [if_neg hk] at e ⊢
        refine ⟨s', rfl, by rw [a, e]; rfl, by rw [b, e]; rfl, ?_, d⟩
        rw [if_neg (by omega)]
        exact c
    by_cases hh : s.holds h = true
    · have hm := (r.holds h).1 hh
      have hpos : 0 < w.total := by
        have : 0 < w.held.card := Finset.card_pos.2 ⟨h, hm⟩
        unfold Spec.Who.total; omega
      have hhold : ∀ q, (setHold (increment s) k (s.holds h)).holds q = true ↔ q ∈ insert k w.held := by
        intro q
        show (if q = k then s.holds h else s.holds q) = true ↔ _
        rw [Finset.mem_insert]
        split_ifs with e
        · simp [e, hh]
        · simp [e, r.holds q]
      obtain ⟨t, t1, t2⟩ := key ⟨w.held, w.loose + 1⟩ (setHold (increment s) k (s.holds h))
        (by show s.count + 1 = _; rw [r.count]; simp [Spec.Who.total]; omega)
        (by show s.active = true ↔ _; rw [r.active]; simp [Spec.Who.total] at hpos ⊢; omega)
        r.ended { w with held := insert k w.held } hhold (by
          by_cases hk : s.holds k = true
          · have := (r.holds k).1 hk
            simp [Spec.Who.total, hk, Finset.insert_eq_self.2 this]; omega
          · have : k ∉ w.held := fun h' => hk ((r.holds k).2 h')
            simp [Spec.Who.total, hk, Finset.card_insert_of_notMem this]; omega)
      refine ⟨t, ?_, ?_⟩
      · simp only [step]
        rw [if_pos hh]
        exact t1
      · have e : ({ w with held := insert k w.held } : Spec.Who).total ≠ 0 := by
          have : 0 < (insert k w.held).card := Finset.card_pos.2 ⟨k, by simp⟩
          simp only [Spec.Who.total]; omega
        rw [if_pos hm]
        rw [if_neg (fun h => e h.2)] at t2 ⊢
        exact t2
    · have hm : h ∉ w.held := fun h' => hh ((r.holds h).2 h')
      have hhold : ∀ q, (setHold s k (s.holds h)).holds q = true ↔ q ∈ w.held.erase k := by
        intro q
        show (if q = k then s.holds h else s.holds q) = true ↔ _
        rw [Finset.mem_erase]
        split_ifs with e
        · simp [e, hh]
        · simp [e, r.holds q]
      obtain ⟨t, t1, t2⟩ := key w (setHold s k (s.holds h)) r.count r.active r.ended
        { w with held := w.held.erase k } hhold (by
          by_cases hk : s.holds k = true
          · have hk' := (r.holds k).1 hk
            have := Finset.card_erase_add_one hk'
            simp only [Spec.Who.total, hk, if_true]; omega
          · have : k ∉ w.held := fun h' => hk ((r.holds k).2 h')
            simp [Spec.Who.total, hk, Finset.erase_eq_of_notMem this])
      refine ⟨t, ?_, ?_⟩
      · simp only [step]
        rw [if_neg hh]
        exact t1
      · rw [if_neg hm]
        exact t2
  | move k h =>
    cases hw
    have key : ∀ (b : Bool) (s' : State), s'.count = s.count → s'.active = s.active → s'.ended = s.ended →
        ∀ v : Spec.Who, (∀ q, s'.holds q = true ↔ q ∈ v.held) →
        w.total = v.total + (if b then 1 else 0) →
        ∃ t, dropIf b s' = some t ∧ Rel t v (if 0 < w.total ∧ v.total = 0 then n + 1 else n) := by
      intro b s' e1 e2 e3 v d e
      unfold dropIf
      cases b with
      | true =>
        rw [if_pos rfl] at e ⊢
        obtain ⟨t, t1, t2⟩ := decrement_spec (s := s') (by rw [e1, r.count]) (by rw [e2, r.active])
          (by rw [e3, r.ended]) e d
        refine ⟨t, t1, ?_⟩
        have : 0 < w.total := by omega
        simpa [this] using t2
      | false =>
        simp only [Bool.false_eq_true, if_false] at e ⊢
        refine ⟨s', rfl, by rw [e1, r.count, e]; rfl, by rw [e2, r.active, e]; rfl, ?_, d⟩
        rw [if_neg (by omega), e3, r.ended]
    by_cases hh : s.holds h = true
    · have hm := (r.holds h).1 hh
      have hcard := Finset.card_erase_add_one hm
      refine Exists.imp (fun t ht => ⟨ht.1, ?_⟩) (key ((setHold s h false).holds k)
        (setHold (setHold s h false) k (s.holds h)) rfl rfl rfl
        { w with held := insert k (w.held.erase h) } ?_ ?_)
      · rw [if_pos hm]; exact ht.2
      · intro q
        show (if q = k then s.holds h else if q = h then false else s.holds q) = true ↔ _
        rw [Finset.mem_insert, Finset.mem_erase]
        split_ifs with e1 e2
        · simp [e1, hh]
        · subst e2; simp [e1]
        · simp [e1, e2, r.holds q]
      · have hk : (setHold s h false).holds k = true ↔ k ∈ w.held.erase h := by
          show (if k = h then false else s.holds k) = true ↔ _
          rw [Finset.mem_erase]
          split_ifs with e
          · simp [e]
          · simp [e, r.holds k]
        by_cases hk' : k ∈ w.held.erase h
        · rw [if_pos (hk.2 hk')]
          simp only [Spec.Who.total, Finset.insert_eq_self.2 hk']; omega
        · rw [if_neg (fun h' => hk' (hk.1 h'))]
          simp only [Spec.Who.total, Finset.card_insert_of_notMem hk']; omega
    · have hm : h ∉ w.held := fun h' => hh ((r.holds h).2 h')
      refine Exists.imp (fun t ht => ⟨ht.1, ?_⟩) (key ((setHold s h false).holds k)
        (setHold (setHold s h false) k (s.holds h)) rfl rfl rfl
        { w with held := w.held.erase k } ?_ ?_)
      · rw [if_neg hm]; exact ht.2
      · intro q
        show (if q = k then s.holds h else if q = h then false else s.holds q) = true ↔ _
        rw [Finset.mem_erase]
        split_ifs with e1 e2
        · simp [e1, hh]
        · subst e2; simp [hm]
        · simp [e1, r.holds q]
      · have hk : (setHold s h false).holds k = true ↔ k ∈ w.held := by
          show (if k = h then false else s.holds k) = true ↔ _
          split_ifs with e
          · subst e; simp [hm]
          · exact r.holds k
        by_cases hk' : k ∈ w.held
        · rw [if_pos (hk.2 hk')]
          have := Finset.card_erase_add_one hk'
          simp only [Spec.Who.total]; omega
        · rw [if_neg (fun h' => hk' (hk.1 h'))]
          simp [Spec.Who.total, Finset.erase_eq_of_notMem hk']
  | destroy h =>
    cases hw
    have hhold : ∀ q, (setHold s h false).holds q = true ↔ q ∈ w.held.erase h := by
      intro q
      show (if q = h then false else s.holds q) = true ↔ _
      rw [Finset.mem_erase]
      split_ifs with e
      · simp [e]
      · simp [e, r.holds q]
    by_cases hh : s.holds h = true
    · have hm := (r.holds h).1 hh
      have hcard := Finset.card_erase_add_one hm
      have ht : w.total = ({ w with held := w.held.erase h } : Spec.Who).total + 1 := by
        simp only [Spec.Who.total]; omega
      obtain ⟨t, t1, t2⟩ := decrement_spec (s := setHold s h false) r.count r.active r.ended ht hhold
      refine ⟨t, by simp only [step, dropIf, hh, if_true]; exact t1, ?_⟩
      have : 0 < w.total := by omega
      simpa [this] using t2
    · have hm : h ∉ w.held := fun h' => hh ((r.holds h).2 h')
      have ht : ({ w with held := w.held.erase h } : Spec.Who).total = w.total := by
        simp [Spec.Who.total, Finset.erase_eq_of_notMem hm]
      refine ⟨setHold s h false, by simp only [step, dropIf]; rw [if_neg hh], ?_, ?_, ?_, hhold⟩
      · rw [ht]; exact r.count
      · rw [ht]; exact r.active
      · rw [if_neg (by rw [ht]; omega)]; exact r.ended
  | restore h => exact absurd rfl (ho h)
  | release h =>
    refine ⟨setHold s h false, rfl, ?_⟩
    have hhold : ∀ q, (setHold s h false).holds q = true ↔ q ∈ w.held.erase h := by
      intro q
      show (if q = h then false else s.holds q) = true ↔ _
      rw [Finset.mem_erase]
      split_ifs with e
      · simp [e]
      · simp [e, r.holds q]
    dsimp only [Spec.after] at hw
    by_cases hm : h ∈ w.held
    · rw [if_pos hm] at hw
      cases hw
      have hcard := Finset.card_erase_add_one hm
      have ht : (⟨w.held.erase h, w.loose + 1⟩ : Spec.Who).total = w.total := by
        simp only [Spec.Who.total]; omega
      rw [if_neg (by rw [ht]; omega)]
      exact ⟨by rw [ht]; exact r.count, by rw [ht]; exact r.active, r.ended, hhold⟩
    · rw [if_neg hm] at hw
      cases hw
      rw [if_neg (by omega)]
      refine ⟨r.count, r.active, r.ended, ?_⟩
      intro q
      rw [hhold, Finset.erase_eq_of_notMem hm]
  | editorRestore =>
    dsimp only [Spec.after] at hw
    split_ifs at hw with h0
    cases hw
    have ht : w.total = ({ w with loose := w.loose - 1 } : Spec.Who).total + 1 := by
      simp only [Spec.Who.total]; omega
    obtain ⟨t, t1, t2⟩ := decrement_spec r.count r.active r.ended ht r.holds
    refine ⟨t, t1, ?_⟩
    have : 0 < w.total := by omega
    simpa [this] using t2

theorem run_spec (ops : List Op) : ∀ {s : State} {w w' : Spec.Who} {n n' : Nat}, NoRestore ops → Rel s w n →
    Spec.sessions ops w n = some (w', n') → ∃ t, run ops s = some t ∧ Rel t w' n' := by
  induction ops with
  | nil => intro s w w' n n' _ r e; cases e; exact ⟨s, rfl, r⟩
  | cons o os ih =>
    intro s w w' n n' hn r e
    unfold Spec.sessions at e
    split at e
    · cases e
    · rename_i v hv
      obtain ⟨t, t1, t2⟩ := step_spec r o (fun h e => hn h (by simp [e])) hv
      obtain ⟨u, u1, u2⟩ := ih (fun h hm => hn h (List.mem_cons_of_mem _ hm)) t2 e
      refine ⟨u, ?_, u2⟩
      show List.foldlM step s (o :: os) = some u
      rw [List.foldlM_cons, t1]
      exact u1

/-- **C29 (partial)**: in every allowed history of editing, copying, moving, destroying and releasing handles and
of restoring the object after a release, the object is being edited exactly while somebody holds it, and the
end-of-edit action runs exactly once when the last one lets go.
Missing: histories in which `Restore` of a handle is called (`C29_false`). -/
theorem C29_partial (ops : List Op) (w : Spec.Who) (n : Nat) (hn : NoRestore ops)
    (h : Spec.sessions ops Spec.nobody 0 = some (w, n)) :
    ∃ s, run ops start = some s ∧ Spec.Agrees s w n := by
  obtain ⟨t, h1, h2⟩ := run_spec ops hn (s := start)
    ⟨rfl, by simp [start, Spec.nobody, Spec.Who.total], rfl, by simp [start, Spec.nobody]⟩ h
  exact ⟨t, h1, h2.active, h2.ended⟩

/-- **C29 is false**: `edit_handle::Restore` gives up the reference but keeps the handle, whose destructor gives it
up again; the next edit session of the object then never ends.  This is what `ImportXINTOUT` does
(src/extras/XINTOUT.cpp:2507). -/
theorem C29_false : ¬ C29_statement := by
  intro h
  obtain ⟨s, h1, h2, h3⟩ := h [.edit 0, .restore 0, .destroy 0, .edit 1, .destroy 1] ⟨∅, 0⟩ 2
    (by decide +kernel)
  have e : (run [.edit 0, .restore 0, .destroy 0, .edit 1, .destroy 1] start).map
      (fun s => (s.active, s.ended)) = some (true, 1) := by decide +kernel
  rw [h1] at e
  simp at e
  omega

example : Spec.sessions [.edit 0, .copy 1 0, .move 2 0, .release 1, .destroy 2, .edit 0, .editorRestore,
    .destroy 0, .edit 5, .edit 5, .destroy 5] Spec.nobody 0 = some (⟨∅, 0⟩, 2) ∧
    NoRestore [.edit 0, .copy 1 0, .move 2 0, .release 1, .destroy 2, .edit 0, .editorRestore,
    .destroy 0, .edit 5, .edit 5, .destroy 5] :=
  ⟨by decide +kernel, by intro h; simp⟩

end Ovk.Edit

namespace Ovk.Event
variable {L : Type}

/-! ### Specification -/
namespace Spec

/-- The listener each handle variable keeps registered, if any. -/
def registered (r : Nat → Option L) : Op L → Nat → Option L
  | .add h l => fun k => if k = h then some l else r k
  | .move k h => fun q => if q = k then r h else if q = h then none else r q
  | .reset h => fun k => if k = h then none else r k

def after (ops : List (Op L)) : Nat → Option L := ops.foldl registered fun _ => none

/-- `calls`, as (ID, listener) in order of the calls, are exactly the registered listeners, one call for each
handle, in increasing order of ID. -/
def Heard (r : Nat → Option L) (id : Nat → Int) (calls : List (Int × L)) : Prop :=
  calls.Pairwise (fun a b => a.1 < b.1) ∧
    (∀ i l, (i, l) ∈ calls ↔ ∃ h, r h = some l ∧ id h = i) ∧
    ∀ h k, r h ≠ none → r k ≠ none → id h = id k → h = k

end Spec

structure Rel (s : State L) (r : Nat → Option L) : Prop where
  wf : s.listeners.WF intLess
  nonneg : ∀ i l, (i, l) ∈ s.listeners.entries → 0 ≤ i
  idle : ∀ h, r h = none → s.ids h = -1
  used : ∀ h l, r h = some l → 0 ≤ s.ids h
  inj : ∀ h k, r h ≠ none → r k ≠ none → s.ids h = s.ids k → h = k
  ent : ∀ i l, (i, l) ∈ s.listeners.entries ↔ ∃ h, r h = some l ∧ s.ids h = i

theorem rel_start : Rel (start : State L) fun _ => none := by
  refine ⟨⟨rfl, by unfold Sorted; exact List.Pairwise.nil⟩, ?_, ?_, ?_, ?_, ?_⟩ <;> simp [start]

theorem sorted_keys {m : OMap Int L} (hm : m.WF intLess) : m.keys.Pairwise (· < ·) := by
  refine List.Pairwise.imp ?_ hm.2
  intro a b h
  simpa [intLess] using h

/-- Forgetting the listener of one handle. -/
theorem rel_remove {s : State L} {r : Nat → Option L} (h : Rel s r) (k : Nat) :
    Rel (setId { s with listeners := remove s.listeners (s.ids k) } k (-1))
      (fun q => if q = k then none else r q) := by
  cases hk : r k with
  | none =>
    have hid := h.idle k hk
    have e : remove s.listeners (s.ids k) = s.listeners := by
      unfold remove; rw [hid]; simp
    have e2 : (fun q => if q = k then none else r q) = r := by
      funext q; split_ifs with hq
      · subst hq; exact hk.symm
      · rfl
    have e3 : setId { s with listeners := remove s.listeners (s.ids k) } k (-1) = s := by
      unfold setId
      rw [e]
      cases s
      congr 1
      funext q
      dsimp only
      split_ifs with hq
      · subst hq; exact hid.symm
      · rfl
    rw [e2, e3]
    exact h
  | some l =>
    have hid := h.used k l hk
    have e : remove s.listeners (s.ids k) = s.listeners.erase intLess (s.ids k) := by
      unfold remove; rw [if_pos hid]
    obtain ⟨w1, w2⟩ := omap_erase_spec intLess_sto h.wf (s.ids k)
    have hids : ∀ q, (setId { s with listeners := remove s.listeners (s.ids k) } k (-1)).ids q =
        if q = k then -1 else s.ids q := fun q => rfl
    have hlis : (setId { s with listeners := remove s.listeners (s.ids k) } k (-1)).listeners =
        s.listeners.erase intLess (s.ids k) := e
    refine ⟨by rw [hlis]; exact w1, ?_, ?_, ?_, ?_, ?_⟩
    · intro i l' hi
      rw [hlis, w2] at hi
      exact h.nonneg i l' hi.2
    · intro q hq
      rw [hids]
      split_ifs with e1
      · rfl
      · rw [if_neg e1] at hq; exact h.idle q hq
    · intro q l' hq
      rw [hids]
      split_ifs at hq ⊢ with e1
      exact h.used q l' hq
    · intro a b ha hb hab
      rw [hids, hids] at hab
      split_ifs at ha hb hab <;> first | exact absurd rfl ha | exact absurd rfl hb | skip
      exact h.inj a b ha hb hab
    · intro i l'
      rw [hlis, w2, h.ent]
      constructor
      · rintro ⟨hne, q, hq1, hq2⟩
        have : q ≠ k := by
          rintro rfl
          exact hne hq2.symm
        exact ⟨q, by rw [if_neg this]; exact hq1, by rw [hids, if_neg this]; exact hq2⟩
      · rintro ⟨q, hq1, hq2⟩
        split_ifs at hq1 with e1
        rw [hids, if_neg e1] at hq2
        refine ⟨?_, q, hq1, hq2⟩
        rintro rfl
        exact e1 (h.inj q k (by simp [hq1]) (by simp [hk]) hq2)

theorem rel_step {s : State L} {r : Nat → Option L} (h : Rel s r) (o : Op L) :
    Rel (step s o) (Spec.registered r o) := by
  cases o with
  | reset k => exact rel_remove h k
  | add k l =>
    -- the new ID is free
    have hkeys : (-1 :: s.listeners.keys).Pairwise (· < ·) := by
      refine List.pairwise_cons.2 ⟨?_, sorted_keys h.wf⟩
      intro i hi
      rw [h.wf.1, List.mem_map] at hi
      obtain ⟨x, hx, rfl⟩ := hi
      have := h.nonneg x.1 x.2 hx
      omega
    obtain ⟨n1, n2, -⟩ := nextIDFrom_spec _ _ hkeys
    have n1' : 0 ≤ nextAvailableID s.listeners.keys := by unfold nextAvailableID; omega
    have n2' : ∀ l', (nextAvailableID s.listeners.keys, l') ∉ s.listeners.entries := by
      intro l' hl
      apply n2
      show nextAvailableID s.listeners.keys ∈ _
      have := List.mem_map_of_mem (f := Prod.fst) hl
      rw [← h.wf.1] at this
      exact this
    generalize hid : nextAvailableID s.listeners.keys = id at n1' n2'
    obtain ⟨i1, i2⟩ := omap_insert_spec intLess_sto h.wf id l
    have hstep : step s (.add k l) =
        setId { s with listeners := remove (s.listeners.insert intLess id l) (s.ids k) } k id := by
      simp only [step, hid]
    have hids : ∀ q, (step s (.add k l)).ids q = if q = k then id else s.ids q := fun q => by
      rw [hstep]; rfl
    have hreg : ∀ q, Spec.registered r (.add k l) q = if q = k then some l else r q := fun q => rfl
    -- entries of the result
    have hent : (step s (.add k l)).listeners.WF intLess ∧
        ∀ i l', (i, l') ∈ (step s (.add k l)).listeners.entries ↔
          (i = id ∧ l' = l) ∨ ∃ q, q ≠ k ∧ r q = some l' ∧ s.ids q = i := by
      rw [hstep]
      show (remove _ _).WF intLess ∧ ∀ i l', (i, l') ∈ (remove _ _).entries ↔ _
      cases hk : r k with
      | none =>
        have : remove (s.listeners.insert intLess id l) (s.ids k) = s.listeners.insert intLess id l := by
          unfold remove; rw [h.idle k hk]; simp
        rw [this]
        refine ⟨i1, fun i l' => ?_⟩
        rw [i2]
        constructor
        · rintro (⟨rfl, rfl⟩ | ⟨hne, hm⟩)
          · exact Or.inl ⟨rfl, rfl⟩
          · obtain ⟨q, hq1, hq2⟩ := (h.ent i l').1 hm
            exact Or.inr ⟨q, (by rintro rfl; simp [hk] at hq1), hq1, hq2⟩
        · rintro (⟨rfl, rfl⟩ | ⟨q, -, hq1, hq2⟩)
          · exact Or.inl ⟨rfl, rfl⟩
          · have hm := (h.ent i l').2 ⟨q, hq1, hq2⟩
            refine Or.inr ⟨?_, hm⟩
            rintro rfl
            exact n2' _ hm
      | some l0 =>
        have hkid := h.used k l0 hk
        have : remove (s.listeners.insert intLess id l) (s.ids k) =
            (s.listeners.insert intLess id l).erase intLess (s.ids k) := by
          unfold remove; rw [if_pos hkid]
        obtain ⟨e1, e2⟩ := omap_erase_spec intLess_sto i1 (s.ids k)
        have hkent := (h.ent (s.ids k) l0).2 ⟨k, hk, rfl⟩
        have hne : s.ids k ≠ id := by
          intro e
          rw [e] at hkent
          exact n2' _ hkent
        rw [this]
        refine ⟨e1, fun i l' => ?_⟩
        rw [e2, i2]
        constructor
        · rintro ⟨hik, ⟨rfl, rfl⟩ | ⟨-, hm⟩⟩
          · exact Or.inl ⟨rfl, rfl⟩
          · obtain ⟨q, hq1, hq2⟩ := (h.ent i l').1 hm
            exact Or.inr ⟨q, by rintro rfl; exact hik hq2.symm, hq1, hq2⟩
        · rintro (⟨rfl, rfl⟩ | ⟨q, hqk, hq1, hq2⟩)
          · exact ⟨Ne.symm hne, Or.inl ⟨rfl, rfl⟩⟩
          · have hm := (h.ent i l').2 ⟨q, hq1, hq2⟩
            refine ⟨?_, Or.inr ⟨?_, hm⟩⟩
            · rintro rfl
              exact hqk (h.inj q k (by simp [hq1]) (by simp [hk]) hq2)
            · rintro rfl
              exact n2' _ hm
    have hfree : ∀ q l', r q = some l' → s.ids q ≠ id := by
      intro q l' hq e
      exact n2' l' ((h.ent id l').2 ⟨q, hq, e⟩)
    refine ⟨hent.1, ?_, ?_, ?_, ?_, ?_⟩
    · intro i l' hi
      rcases (hent.2 i l').1 hi with ⟨rfl, -⟩ | ⟨q, -, hq1, rfl⟩
      · exact n1'
      · exact h.used q l' hq1
    · intro q hq
      rw [hreg] at hq
      rw [hids]
      split_ifs at hq ⊢
      exact h.idle q hq
    · intro q l' hq
      rw [hreg] at hq
      rw [hids]
      split_ifs at hq ⊢
      · exact n1'
      · exact h.used q l' hq
    · intro a b ha hb hab
      rw [hids, hids] at hab
      rw [hreg] at ha hb
      by_cases ea : a = k
      · by_cases eb : b = k
        · rw [ea, eb]
        · rw [if_neg eb] at hb hab
          rw [if_pos ea] at hab
          exfalso
          cases hrb : r b with
          | none => exact hb hrb
          | some l' => exact hfree b l' hrb hab.symm
      · rw [if_neg ea] at ha hab
        by_cases eb : b = k
        · rw [if_pos eb] at hab
          exfalso
          cases hra : r a with
          | none => exact ha hra
          | some l' => exact hfree a l' hra hab
        · rw [if_neg eb] at hb hab
          exact h.inj a b ha hb hab
    · intro i l'
      rw [hent.2]
      constructor
      · rintro (⟨rfl, rfl⟩ | ⟨q, hqk, hq1, hq2⟩)
        · exact ⟨k, by rw [hreg, if_pos rfl], by rw [hids, if_pos rfl]⟩
        · exact ⟨q, by rw [hreg, if_neg hqk]; exact hq1, by rw [hids, if_neg hqk]; exact hq2⟩
      · rintro ⟨q, hq1, hq2⟩
        rw [hreg] at hq1
        rw [hids] at hq2
        split_ifs at hq1 hq2 with e
        · exact Or.inl ⟨hq2.symm, (Option.some.inj hq1).symm⟩
        · exact Or.inr ⟨q, e, hq1, hq2⟩
  | move k m =>
    -- drop what `k` had, then rename `m` to `k`
    by_cases hkm : k = m
    · subst hkm
      have e1 : step s (.move k k) = s := by
        have e : remove s.listeners (-1) = s.listeners := by simp [remove]
        simp only [step, setId, if_true, e]
        cases s
        congr 1
        funext q
        dsimp only
        split_ifs with hq
        · subst hq; rfl
        · rfl
      have e2 : Spec.registered r (.move k k) = r := by
        funext q
        show (if q = k then r k else if q = k then none else r q) = r q
        split_ifs with hq
        · subst hq; rfl
        · rfl
      rw [e1, e2]
      exact h
    · have h1 := rel_remove h k
      generalize ht : setId { s with listeners := remove s.listeners (s.ids k) } k (-1) = t at h1
      have tids : ∀ q, t.ids q = if q = k then -1 else s.ids q := fun q => by rw [← ht]; rfl
      have tlis : t.listeners = remove s.listeners (s.ids k) := by rw [← ht]; rfl
      have hids : ∀ q, (step s (.move k m)).ids q =
          if q = k then t.ids m else if q = m then -1 else t.ids q := by
        intro q
        show (if q = k then s.ids m else if q = m then -1 else s.ids q) = _
        rw [tids, tids]
        by_cases e1 : q = k
        · simp [e1, Ne.symm hkm]
        · simp [e1]
      have hlis : (step s (.move k m)).listeners = t.listeners := by
        rw [tlis]
        show remove s.listeners (if k = m then -1 else s.ids k) = _
        rw [if_neg hkm]
      have hreg : ∀ q, Spec.registered r (.move k m) q =
          if q = k then (if m = k then none else r m) else if q = m then none else
            (if q = k then none else r q) := by
        intro q
        show (if q = k then r m else if q = m then none else r q) = _
        rw [if_neg (Ne.symm hkm)]
        split_ifs <;> rfl
      have hrk : (fun q => if q = k then none else r q) k = none := by simp
      have hreg' : ∃ r', (fun q => if q = k then none else r q) = r' ∧ ∀ q, Spec.registered r (.move k m) q =
          if q = k then r' m else if q = m then none else r' q := ⟨_, rfl, hreg⟩
      obtain ⟨r', hr', hreg'⟩ := hreg'
      rw [hr'] at h1 hrk
      refine ⟨by rw [hlis]; exact h1.wf, by rw [hlis]; exact h1.nonneg, ?_, ?_, ?_, ?_⟩
      · intro q hq
        rw [hreg'] at hq
        rw [hids]
        split_ifs at hq ⊢
        · exact h1.idle m hq
        · rfl
        · exact h1.idle q hq
      · intro q l hq
        rw [hreg'] at hq
        rw [hids]
        split_ifs at hq ⊢
        · exact h1.used m l hq
        · exact h1.used q l hq
      · intro a b ha hb hab
        rw [hids, hids] at hab
        rw [hreg'] at ha hb
        by_cases ea : a = k <;> by_cases eb : b = k
        · rw [ea, eb]
        · rw [if_pos ea] at ha hab
          rw [if_neg eb] at hb hab
          split_ifs at hb hab with e
          · exact absurd rfl hb
          · exact absurd (h1.inj m b ha hb hab).symm e
        · rw [if_pos eb] at hb hab
          rw [if_neg ea] at ha hab
          split_ifs at ha hab with e
          · exact absurd rfl ha
          · exact absurd (h1.inj a m ha hb hab) e
        · rw [if_neg ea] at ha hab
          rw [if_neg eb] at hb hab
          split_ifs at ha hb hab <;> first | exact absurd rfl ha | exact absurd rfl hb | skip
          exact h1.inj a b ha hb hab
      · intro i l
        rw [hlis, h1.ent]
        constructor
        · rintro ⟨q, hq1, hq2⟩
          by_cases e : q = m
          · subst e
            exact ⟨k, by rw [hreg', if_pos rfl]; exact hq1, by rw [hids, if_pos rfl]; exact hq2⟩
          · have : q ≠ k := by
              rintro rfl
              rw [hrk] at hq1
              cases hq1
            exact ⟨q, by rw [hreg', if_neg this, if_neg e]; exact hq1,
              by rw [hids, if_neg this, if_neg e]; exact hq2⟩
        · rintro ⟨q, hq1, hq2⟩
          rw [hreg'] at hq1
          rw [hids] at hq2
          split_ifs at hq1 hq2
          · exact ⟨m, hq1, hq2⟩
          · exact ⟨q, hq1, hq2⟩

theorem rel_run (ops : List (Op L)) : Rel (run ops) (Spec.after ops) := by
  have key : ∀ (ops : List (Op L)) (s : State L) (r : Nat → Option L), Rel s r →
      Rel (ops.foldl step s) (ops.foldl Spec.registered r) := by
    intro ops
    induction ops with
    | nil => intro s r h; exact h
    | cons o os ih => intro s r h; exact ih _ _ (rel_step h o)
  exact key ops _ _ rel_start

/-- **C30**: after any history of registering, moving and releasing handles, triggering the event calls every
currently registered listener exactly once, in increasing order of ID, and no other. -/
theorem C30_trigger (ops : List (Op L)) :
    Spec.Heard (Spec.after ops) (run ops).ids (trigger (run ops)) := by
  have h := rel_run ops
  refine ⟨?_, h.ent, h.inj⟩
  have := sorted_keys h.wf
  rw [h.wf.1, List.pairwise_map] at this
  exact this

/-- **C30 (IDs)**: a new listener gets the smallest ID not in use. -/
theorem C30_new_id (ops : List (Op L)) (h : Nat) (l : L) :
    let id := (run (ops ++ [.add h l])).ids h
    0 ≤ id ∧ (∀ k, Spec.after ops k ≠ none → (run ops).ids k ≠ id) ∧
      ∀ j, 0 ≤ j → j < id → ∃ k, Spec.after ops k ≠ none ∧ (run ops).ids k = j := by
  have r := rel_run ops
  have e : (run (ops ++ [.add h l])).ids h = nextAvailableID (run ops).listeners.keys := by
    unfold run
    rw [List.foldl_append]
    show (if h = h then _ else _) = _
    rw [if_pos rfl]
  intro id
  have hid : id = nextIDFrom (-1) (run ops).listeners.keys := e
  have hkeys : (-1 :: (run ops).listeners.keys).Pairwise (· < ·) := by
    refine List.pairwise_cons.2 ⟨?_, sorted_keys r.wf⟩
    intro i hi
    rw [r.wf.1, List.mem_map] at hi
    obtain ⟨x, hx, rfl⟩ := hi
    have := r.nonneg x.1 x.2 hx
    omega
  obtain ⟨n1, n2, n3⟩ := nextIDFrom_spec _ _ hkeys
  refine ⟨by omega, ?_, ?_⟩
  · intro k hk hke
    cases hl : Spec.after ops k with
    | none => exact hk hl
    | some l' =>
      apply n2
      rw [← hid, r.wf.1, List.mem_map]
      exact ⟨(id, l'), (r.ent id l').2 ⟨k, hl, hke⟩, rfl⟩
  · intro j hj1 hj2
    have := n3 j (by omega) (by omega)
    rw [r.wf.1, List.mem_map] at this
    obtain ⟨x, hx, hxe⟩ := this
    obtain ⟨k, hk1, hk2⟩ := (r.ent x.1 x.2).1 hx
    exact ⟨k, by simp [hk1], hk2.trans hxe⟩

example : trigger (run [.add 0 'a', .add 1 'b', .add 2 'c', .reset 1, .move 5 2, .add 3 'd', .add 0 'e']) =
    [(1, 'd'), (2, 'c'), (3, 'e')] := by decide +kernel

end Ovk.Event
