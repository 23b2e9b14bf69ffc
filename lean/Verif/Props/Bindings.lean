/-
C83: destroying a component unbinds what is bound to it.
-/
import Verif.Model.Bindings
import Verif.Props.Editor

namespace Ovk.Bind

/-! ### Specification -/
namespace Spec

/-- Which components exist, and which ones each exchanger or assembler is bound to. -/
structure World where
  exist : Int → Prop
  uses : Nat → Option (List Int)

/-- What each call should do; `False`: the caller broke a precondition. -/
def Does (w : World) : Op → World → Prop
  | .create c, w' => 0 ≤ c ∧ ¬ w.exist c ∧ (∀ x, w'.exist x ↔ x = c ∨ w.exist x) ∧ w'.uses = w.uses
  | .edit c, w' => w.exist c ∧ (∀ x, w'.exist x ↔ w.exist x) ∧ w'.uses = w.uses
  | .bind i cs, w' => w.uses i = none ∧ (∀ c ∈ cs, w.exist c) ∧ (∀ x, w'.exist x ↔ w.exist x) ∧
      w'.uses i = some cs ∧ ∀ k, k ≠ i → w'.uses k = w.uses k
  | .unbind i, w' => w.uses i ≠ none ∧ (∀ x, w'.exist x ↔ w.exist x) ∧
      w'.uses i = none ∧ ∀ k, k ≠ i → w'.uses k = w.uses k
  | .destroy c, w' => w.exist c ∧ (∀ x, w'.exist x ↔ x ≠ c ∧ w.exist x) ∧
      (∀ i cs, w.uses i = some cs → c ∈ cs → w'.uses i = none) ∧
      (∀ i cs, w.uses i = some cs → c ∉ cs → w'.uses i = some cs) ∧ ∀ i, w.uses i = none → w'.uses i = none

/-- `w` is the situation after the calls. -/
inductive Leads : World → List Op → World → Prop
  | nil (w) : Leads w [] w
  | cons {w w' w'' o os} : Does w o w' → Leads w' os w'' → Leads w (o :: os) w''

def nothing : World := ⟨fun _ => False, fun _ => none⟩

def Matches (s : State) (w : World) : Prop := (∀ x, x ∈ s.comps ↔ w.exist x) ∧ s.bound = w.uses

/-- Object `i` is bound to component `c`. -/
def Uses (s : State) (i : Nat) (c : Int) : Prop := ∃ cs, s.bound i = some cs ∧ c ∈ cs

end Spec

/-- After every history of permitted calls, exactly what should be bound is bound. -/
def C83_statement : Prop := ∀ ops w, Spec.Leads Spec.nothing ops w →
  ∃ s, run start ops = some s ∧ Spec.Matches s w

/-! ### Invariant -/

/-- Bound objects are exactly those with a registered listener. -/
def Inv (s : State) : Prop := Ovk.Event.Rel s.ev fun i => (s.bound i).map fun _ => i

theorem inv_start : Inv start := Ovk.Event.rel_start

theorem inv_release {s : State} (h : Inv s) (i : Nat) : Inv (release s i) := by
  have := Ovk.Event.rel_step h (.reset i)
  unfold Inv release
  convert this using 1
  funext k
  show Option.map _ (if k = i then none else s.bound k) = if k = i then none else (s.bound k).map fun _ => k
  split_ifs <;> rfl

theorem inv_onDestroy {s : State} (h : Inv s) (c : Int) (i : Nat) : Inv (onDestroy c s i) := by
  unfold onDestroy
  split
  · exact h
  · split
    · exact inv_release h i
    · exact h

theorem inv_visit {s s' : State} (h : Inv s) {c : Int} {k : Nat} (hv : visit c s k = some s') : Inv s' := by
  unfold visit at hv
  split at hv
  · cases hv
  · cases hv
    exact inv_onDestroy h c _

theorem inv_visits {c : Int} : ∀ (m k : Nat) {s s' : State}, Inv s → visits c k m s = some s' → Inv s'
  | 0, _, _, _, h, hv => by
    simp only [visits, Option.some.injEq] at hv
    exact hv ▸ h
  | m + 1, k, s, s', h, hv => by
    simp only [visits, Option.bind_eq_some_iff] at hv
    obtain ⟨t, h1, h2⟩ := hv
    exact inv_visits m (k + 1) (inv_visit h h1) h2

/-! ### The loop -/

theorem entry_bound {s : State} (h : Inv s) {k : Nat} {e : Int × Nat}
    (he : s.ev.listeners.entries[k]? = some e) : s.bound e.2 ≠ none ∧ s.ev.ids e.2 = e.1 := by
  obtain ⟨i, hi, hid⟩ := (h.ent e.1 e.2).1 (List.mem_of_getElem? he)
  cases hb : s.bound i with
  | none => rw [hb] at hi; cases hi
  | some cs =>
    rw [hb] at hi
    simp only [Option.map_some, Option.some.injEq] at hi
    subst hi
    exact ⟨by rw [hb]; exact Option.some_ne_none _, hid⟩

theorem bound_entry {s : State} (h : Inv s) {i : Nat} (hi : s.bound i ≠ none) :
    ∃ k : Nat, s.ev.listeners.entries[k]? = some (s.ev.ids i, i) := by
  cases hb : s.bound i with
  | none => exact absurd hb hi
  | some cs => exact List.getElem?_of_mem ((h.ent _ _).2 ⟨i, by rw [hb]; rfl, rfl⟩)

theorem visit_idle {s : State} {c : Int} {k : Nat} {e : Int × Nat}
    (he : s.ev.listeners.entries[k]? = some e) (hn : ¬ Spec.Uses s e.2 c) : visit c s k = some s := by
  unfold visit
  rw [he]
  show some (onDestroy c s e.2) = some s
  congr 1
  unfold onDestroy
  split
  · rfl
  · rename_i cs hcs
    rw [if_neg fun hc => hn ⟨cs, hcs, hc⟩]

theorem visit_used {s : State} {c : Int} {k : Nat} {e : Int × Nat}
    (he : s.ev.listeners.entries[k]? = some e) (hu : Spec.Uses s e.2 c) :
    visit c s k = some (release s e.2) := by
  obtain ⟨cs, hcs, hc⟩ := hu
  unfold visit
  rw [he]
  show some (onDestroy c s e.2) = some _
  congr 1
  unfold onDestroy
  rw [hcs]
  exact if_pos hc

theorem erase_length {m : OMap Int Nat} (hm : m.WF intLess) (k : Int) (v : Nat) (hk : (k, v) ∈ m.entries) :
    (m.erase intLess k).entries.length + 1 = m.entries.length := by
  rcases mlook intLess_sto hm k with ⟨a, b, rfl, -, ha, hb⟩ | ⟨a, b, v0, rfl, hlb, ha, hb⟩
  · have hna := not_mem_absent intLess_sto ha hb
    rcases List.mem_append.1 hk with hk | hk
    · exact absurd hk (hna.1 v)
    · exact absurd hk (hna.2 v)
  · unfold OMap.erase
    simp only at hlb
    have e1 : (a ++ (k, v0) :: b).eraseIdx a.length = a ++ b := by
      rw [List.eraseIdx_append_of_length_le (Nat.le_refl _)]; simp
    simp only [hlb, e1]
    simp [intLess]
    omega

theorem release_length {s : State} (h : Inv s) {i : Nat} (hi : s.bound i ≠ none) :
    (release s i).ev.listeners.entries.length + 1 = s.ev.listeners.entries.length := by
  obtain ⟨k, hk⟩ := bound_entry h hi
  have hm := List.mem_of_getElem? hk
  have hn := h.nonneg _ _ hm
  show (Ovk.Event.remove s.ev.listeners (s.ev.ids i)).entries.length + 1 = _
  unfold Ovk.Event.remove
  rw [if_pos hn]
  exact erase_length h.wf _ _ hm

theorem visit_length {s s' : State} (h : Inv s) {c : Int} {k : Nat} (hv : visit c s k = some s') :
    s'.ev.listeners.entries.length ≤ s.ev.listeners.entries.length := by
  cases he : s.ev.listeners.entries[k]? with
  | none => unfold visit at hv; rw [he] at hv; cases hv
  | some e =>
    by_cases hu : Spec.Uses s e.2 c
    · rw [visit_used he hu] at hv
      cases hv
      have := release_length h (entry_bound h he).1
      omega
    · rw [visit_idle he hu] at hv
      cases hv
      exact Nat.le_refl _

/-- The loop fails once an entry is gone. -/
theorem visits_short {c : Int} : ∀ (m k : Nat) {s : State}, Inv s → 0 < m →
    s.ev.listeners.entries.length < k + m → visits c k m s = none
  | 0, _, _, _, h0, _ => absurd h0 (Nat.lt_irrefl _)
  | m + 1, k, s, h, _, hl => by
    unfold visits
    cases hv : visit c s k with
    | none => rfl
    | some t =>
      show visits c (k + 1) m t = none
      have ht := visit_length h hv
      by_cases hm : m = 0
      · subst hm
        exfalso
        unfold visit at hv
        rw [List.getElem?_eq_none (by omega)] at hv
        cases hv
      · exact visits_short m (k + 1) (inv_visit h hv) (by omega) (by omega)

/-- The loop succeeds exactly when only the last entry uses the component. -/
theorem visits_some {c : Int} : ∀ (m k : Nat) {s : State}, Inv s →
    k + m = s.ev.listeners.entries.length →
    ((visits c k m s).isSome ↔ ∀ (j : Nat) e, k ≤ j → s.ev.listeners.entries[j]? = some e → Spec.Uses s e.2 c →
      j + 1 = k + m)
  | 0, k, s, _, hl => by
    simp only [visits, Option.isSome_some, true_iff]
    intro j e hj he
    have := (List.getElem?_eq_some_iff.1 he).1
    omega
  | m + 1, k, s, h, hl => by
    have hk : k < s.ev.listeners.entries.length := by omega
    have he := List.getElem?_eq_getElem hk
    unfold visits
    by_cases hu : Spec.Uses s (s.ev.listeners.entries[k]).2 c
    · rw [visit_used he hu]
      show (visits c (k + 1) m (release s _)).isSome ↔ _
      by_cases hm : m = 0
      · subst hm
        refine ⟨fun _ j e hj hje _ => ?_, fun _ => rfl⟩
        have := (List.getElem?_eq_some_iff.1 hje).1
        omega
      · have hr := release_length h (entry_bound h he).1
        rw [visits_short m (k + 1) (inv_release h _) (by omega) (by omega)]
        constructor
        · intro hx; cases hx
        · intro hx
          have := hx k _ (Nat.le_refl _) he hu
          omega
    · rw [visit_idle he hu]
      show (visits c (k + 1) m s).isSome ↔ _
      rw [visits_some m (k + 1) h (by omega)]
      constructor
      · intro hx j e hj hje hue
        by_cases hjk : j = k
        · subst hjk
          rw [he] at hje
          cases hje
          exact absurd hue hu
        · have := hx j e (by omega) hje hue
          omega
      · intro hx j e hj hje hue
        have := hx j e (by omega) hje hue
        omega

/-- Nothing is bound by the loop, and nothing but users of the component is unbound. -/
theorem visits_keep {c : Int} : ∀ (m k : Nat) {s s' : State}, visits c k m s = some s' →
    s'.comps = s.comps ∧ ∀ i, s'.bound i = s.bound i ∨ (Spec.Uses s i c ∧ s'.bound i = none)
  | 0, _, s, s', hv => by
    simp only [visits, Option.some.injEq] at hv
    subst hv
    exact ⟨rfl, fun _ => Or.inl rfl⟩
  | m + 1, k, s, s', hv => by
    simp only [visits, Option.bind_eq_some_iff] at hv
    obtain ⟨t, h1, h2⟩ := hv
    obtain ⟨i1, i2⟩ := visits_keep m (k + 1) h2
    cases he : s.ev.listeners.entries[k]? with
    | none => unfold visit at h1; rw [he] at h1; cases h1
    | some e =>
      by_cases hu : Spec.Uses s e.2 c
      · rw [visit_used he hu] at h1
        cases h1
        refine ⟨i1, fun i => ?_⟩
        have hb : (release s e.2).bound i = if i = e.2 then none else s.bound i := rfl
        by_cases hi : i = e.2
        · subst hi
          rw [if_pos rfl] at hb
          right
          refine ⟨hu, ?_⟩
          rcases i2 e.2 with h | ⟨-, h⟩
          · rw [h, hb]
          · exact h
        · rw [if_neg hi] at hb
          rcases i2 i with h | ⟨⟨cs, h, hc⟩, h'⟩
          · left; rw [h, hb]
          · right; exact ⟨⟨cs, hb ▸ h, hc⟩, h'⟩
      · rw [visit_idle he hu] at h1
        cases h1
        exact ⟨i1, i2⟩

/-- Users found at a visited position are unbound. -/
theorem visits_unbind {c : Int} : ∀ (m k : Nat) {s s' : State}, Inv s → k + m = s.ev.listeners.entries.length →
    visits c k m s = some s' → ∀ (j : Nat) e, k ≤ j → s.ev.listeners.entries[j]? = some e → Spec.Uses s e.2 c →
    s'.bound e.2 = none
  | 0, k, s, _, _, hl, _ => by
    intro j e hj he
    have := (List.getElem?_eq_some_iff.1 he).1
    omega
  | m + 1, k, s, s', h, hl, hv => by
    intro j e hj hje hue
    have hsome := (visits_some (c := c) (m + 1) k h hl).1 (by rw [hv]; rfl)
    have hlast := hsome j e hj hje hue
    have hk : k < s.ev.listeners.entries.length := by omega
    have he := List.getElem?_eq_getElem hk
    simp only [visits, Option.bind_eq_some_iff] at hv
    obtain ⟨t, h1, h2⟩ := hv
    by_cases hjk : j = k
    · subst hjk
      have hm : m = 0 := by omega
      subst hm
      rw [visit_used hje hue] at h1
      cases h1
      simp only [visits, Option.some.injEq] at h2
      subst h2
      show (if e.2 = e.2 then none else _) = none
      exact if_pos rfl
    · have hu : ¬ Spec.Uses s (s.ev.listeners.entries[k]).2 c := by
        intro hu
        have := hsome k _ (Nat.le_refl _) he hu
        omega
      rw [visit_idle he hu] at h1
      cases h1
      exact visits_unbind m (k + 1) h (by omega) h2 j e (by omega) hje hue

/-! ### One call -/

theorem inv_step {s s' : State} (h : Inv s) {o : Op} (hs : step s o = some s') : Inv s' := by
  cases o with
  | create c =>
    simp only [step] at hs
    split at hs <;> cases hs
    exact h
  | edit c =>
    simp only [step] at hs
    split at hs <;> cases hs
    exact h
  | bind i cs =>
    simp only [step] at hs
    split at hs <;> cases hs
    have := Ovk.Event.rel_step h (.add i i)
    unfold Inv
    convert this using 1
    funext k
    show Option.map _ (if k = i then some cs else s.bound k) = if k = i then some i else (s.bound k).map fun _ => k
    split_ifs with hk
    · subst hk; rfl
    · rfl
  | unbind i =>
    simp only [step] at hs
    split at hs <;> cases hs
    exact inv_release h i
  | destroy c =>
    simp only [step, destroy] at hs
    split at hs
    · simp only [Option.map_eq_some_iff] at hs
      obtain ⟨t, ht, rfl⟩ := hs
      have := inv_visits _ _ h ht
      exact this
    · cases hs

theorem inv_run : ∀ (ops : List Op) {s s' : State}, Inv s → run s ops = some s' → Inv s'
  | [], s, s', h, hr => by
    simp only [run, List.foldlM_nil, Option.pure_def, Option.some.injEq] at hr
    exact hr ▸ h
  | o :: os, s, s', h, hr => by
    simp only [run, List.foldlM_cons, Option.bind_eq_bind, Option.bind_eq_some_iff] at hr
    obtain ⟨t, h1, h2⟩ := hr
    exact inv_run os (inv_step h h1) h2

theorem destroy_does {s s' : State} (h : Inv s) {c : Int} (hs : destroy s c = some s') :
    Spec.Does ⟨(· ∈ s.comps), s.bound⟩ (.destroy c) ⟨(· ∈ s'.comps), s'.bound⟩ := by
  unfold destroy at hs
  split at hs
  · rename_i hc
    simp only [Option.map_eq_some_iff] at hs
    obtain ⟨t, ht, rfl⟩ := hs
    obtain ⟨k1, k2⟩ := visits_keep _ _ ht
    refine ⟨hc, ?_, ?_, ?_, ?_⟩
    · intro x
      show x ∈ t.comps.filter _ ↔ _
      rw [k1]
      simp [and_comm]
    · intro i cs hi hcs
      have hi : s.bound i = some cs := hi
      obtain ⟨k, hk⟩ := bound_entry h (i := i) (by rw [hi]; exact Option.some_ne_none _)
      exact visits_unbind _ 0 h (by omega) ht k _ (Nat.zero_le _) hk ⟨cs, hi, hcs⟩
    · intro i cs hi hcs
      have hi : s.bound i = some cs := hi
      rcases k2 i with hx | ⟨⟨cs', hx, hc'⟩, -⟩
      · exact hx.trans hi
      · rw [hi] at hx
        cases hx
        exact absurd hc' hcs
    · intro i hi
      have hi : s.bound i = none := hi
      rcases k2 i with hx | ⟨-, hx⟩
      · exact hx.trans hi
      · exact hx
  · cases hs

theorem step_does {s s' : State} (h : Inv s) {o : Op} (hs : step s o = some s') :
    Spec.Does ⟨(· ∈ s.comps), s.bound⟩ o ⟨(· ∈ s'.comps), s'.bound⟩ := by
  cases o with
  | create c =>
    simp only [step] at hs
    split at hs
    · rename_i hc
      cases hs
      exact ⟨hc.1, hc.2, fun x => by simp, rfl⟩
    · cases hs
  | edit c =>
    simp only [step] at hs
    split at hs
    · rename_i hc
      cases hs
      exact ⟨hc, fun _ => Iff.rfl, rfl⟩
    · cases hs
  | bind i cs =>
    simp only [step] at hs
    split at hs
    · rename_i hc
      cases hs
      exact ⟨hc.1, hc.2, fun _ => Iff.rfl, if_pos rfl, fun k hk => if_neg hk⟩
    · cases hs
  | unbind i =>
    simp only [step] at hs
    split at hs
    · cases hs
    · rename_i hc
      cases hs
      exact ⟨hc, fun _ => Iff.rfl, if_pos rfl, fun k hk => if_neg hk⟩
  | destroy c => exact destroy_does h hs

/-! ### C83 -/

/-- **C83 (when it works)**: after every history, destroying an existing component goes through exactly when every
object bound to it registered the last of the listeners, that is, has a listener ID no other bound object
exceeds. -/
theorem C83_defined (ops : List Op) (s : State) (hr : run start ops = some s) (c : Int) (hc : c ∈ s.comps) :
    (destroy s c).isSome ↔
      ∀ i, Spec.Uses s i c → ∀ k, s.bound k ≠ none → s.ev.ids k ≤ s.ev.ids i := by
  have h := inv_run ops inv_start hr
  have hsort : s.ev.listeners.entries.Pairwise fun a b => a.1 < b.1 := by
    have := Ovk.Event.sorted_keys h.wf
    rw [h.wf.1, List.pairwise_map] at this
    exact this
  unfold destroy
  rw [if_pos hc, Option.isSome_map, visits_some _ 0 h (by omega)]
  rw [List.pairwise_iff_getElem] at hsort
  constructor
  · intro hx i hi k hk
    have hib : s.bound i ≠ none := by obtain ⟨cs, h1, -⟩ := hi; rw [h1]; exact Option.some_ne_none _
    obtain ⟨a, ha⟩ := bound_entry h hib
    obtain ⟨b, hb⟩ := bound_entry h hk
    have hlast := hx a _ (Nat.zero_le _) ha hi
    obtain ⟨ha1, ha2⟩ := List.getElem?_eq_some_iff.1 ha
    obtain ⟨hb1, hb2⟩ := List.getElem?_eq_some_iff.1 hb
    by_cases hab : b = a
    · subst hab
      rw [ha2] at hb2
      have := congrArg Prod.fst hb2
      simp only at this
      omega
    · have := hsort b a hb1 ha1 (by omega)
      rw [ha2, hb2] at this
      simp only at this
      omega
  · intro hx j e _ hje hue
    obtain ⟨hj1, hj2⟩ := List.getElem?_eq_some_iff.1 hje
    by_contra hne
    have hlt : j + 1 < s.ev.listeners.entries.length := by omega
    have hnext := List.getElem?_eq_getElem hlt
    obtain ⟨b1, b2⟩ := entry_bound h hnext
    obtain ⟨-, c2⟩ := entry_bound h hje
    have h1 := hx e.2 hue _ b1
    have h2 := hsort j (j + 1) hj1 hlt (by omega)
    rw [hj2] at h2
    omega

/-- **C83 (partial)**: whenever a history of calls runs without error, exactly what should be bound is bound
afterwards: objects using a destroyed component are unbound, all others stay bound.  Missing from `C83_statement`:
that permitted histories always run without error, see `C83_false`. -/
theorem C83_partial (ops : List Op) (s : State) (hr : run start ops = some s) :
    ∃ w, Spec.Leads Spec.nothing ops w ∧ Spec.Matches s w := by
  have key : ∀ (ops : List Op) (s0 s : State), Inv s0 → run s0 ops = some s →
      Spec.Leads ⟨(· ∈ s0.comps), s0.bound⟩ ops ⟨(· ∈ s.comps), s.bound⟩ := by
    intro ops
    induction ops with
    | nil =>
      intro s0 s _ hr
      simp only [run, List.foldlM_nil, Option.pure_def, Option.some.injEq] at hr
      subst hr
      exact .nil _
    | cons o os ih =>
      intro s0 s h hr
      simp only [run, List.foldlM_cons, Option.bind_eq_bind, Option.bind_eq_some_iff] at hr
      obtain ⟨t, h1, h2⟩ := hr
      exact .cons (step_does h h1) (ih t s (inv_step h h1) h2)
  refine ⟨⟨(· ∈ s.comps), s.bound⟩, ?_, fun _ => Iff.rfl, rfl⟩
  have e : Spec.nothing = ⟨(· ∈ start.comps), start.bound⟩ := by
    unfold Spec.nothing
    congr 1
    funext x
    exact (eq_false (List.not_mem_nil (a := x))).symm
  rw [e]
  exact key ops start s inv_start hr

/-- The situation is determined by the history. -/
theorem leads_unique : ∀ (ops : List Op) {w w1 w2 : Spec.World}, Spec.Leads w ops w1 → Spec.Leads w ops w2 →
    w1 = w2
  | [], _, _, _, .nil _, .nil _ => rfl
  | o :: os, w, w1, w2, .cons (w' := a) d1 l1, .cons (w' := b) d2 l2 => by
    have hab : a = b := by
      obtain ⟨ae, au⟩ := a
      obtain ⟨be, bu⟩ := b
      cases o with
      | create c =>
        obtain ⟨-, -, a1, a2⟩ := d1
        obtain ⟨-, -, b1, b2⟩ := d2
        congr 1
        · funext x; exact propext ((a1 x).trans (b1 x).symm)
        · exact a2.trans b2.symm
      | edit c =>
        obtain ⟨-, a1, a2⟩ := d1
        obtain ⟨-, b1, b2⟩ := d2
        congr 1
        · funext x; exact propext ((a1 x).trans (b1 x).symm)
        · exact a2.trans b2.symm
      | bind i cs =>
        obtain ⟨-, -, a1, a2, a3⟩ := d1
        obtain ⟨-, -, b1, b2, b3⟩ := d2
        congr 1
        · funext x; exact propext ((a1 x).trans (b1 x).symm)
        · funext k
          by_cases hk : k = i
          · subst hk; exact a2.trans b2.symm
          · exact (a3 k hk).trans (b3 k hk).symm
      | unbind i =>
        obtain ⟨-, a1, a2, a3⟩ := d1
        obtain ⟨-, b1, b2, b3⟩ := d2
        congr 1
        · funext x; exact propext ((a1 x).trans (b1 x).symm)
        · funext k
          by_cases hk : k = i
          · subst hk; exact a2.trans b2.symm
          · exact (a3 k hk).trans (b3 k hk).symm
      | destroy c =>
        obtain ⟨-, a1, a2, a3, a4⟩ := d1
        obtain ⟨-, b1, b2, b3, b4⟩ := d2
        congr 1
        · funext x; exact propext ((a1 x).trans (b1 x).symm)
        · funext k
          cases hk : w.uses k with
          | none => exact (a4 k hk).trans (b4 k hk).symm
          | some cs =>
            by_cases hc : c ∈ cs
            · exact (a2 k cs hk hc).trans (b2 k cs hk hc).symm
            · exact (a3 k cs hk hc).trans (b3 k cs hk hc).symm
    subst hab
    exact leads_unique os l1 l2

/-- **C83 (partial, unique)**: and no other situation would be right. -/
theorem C83_exact_partial (ops : List Op) (s : State) (hr : run start ops = some s) (w : Spec.World)
    (hw : Spec.Leads Spec.nothing ops w) : Spec.Matches s w := by
  obtain ⟨w', h1, h2⟩ := C83_partial ops s hr
  exact leads_unique ops h1 hw ▸ h2

/-- Two exchangers bound to the same connectivity component. -/
def exTwo : List Op := [.create 3, .bind 0 [3], .bind 1 [3], .destroy 3]

/-- **C83 is false**: destroying a component with two exchangers bound to it accesses a listener that no longer
exists. -/
theorem C83_false : ¬ C83_statement := by
  intro h
  have hl : Spec.Leads Spec.nothing exTwo ⟨fun x => x ≠ 3 ∧ x = 3, fun _ => none⟩ := by
    refine .cons (w' := ⟨fun x => x = 3, fun _ => none⟩) ⟨by decide, id, fun x => ?_, rfl⟩ ?_
    · simp [Spec.nothing]
    refine .cons (w' := ⟨fun x => x = 3, fun k => if k = 0 then some [3] else none⟩)
      ⟨rfl, by simp, fun _ => Iff.rfl, rfl, fun k hk => if_neg hk⟩ ?_
    refine .cons (w' := ⟨fun x => x = 3, fun k => if k = 1 then some [3] else if k = 0 then some [3] else none⟩)
      ⟨rfl, by simp, fun _ => Iff.rfl, rfl, fun k hk => if_neg hk⟩ ?_
    refine .cons ⟨rfl, fun _ => Iff.rfl, fun _ _ _ _ => rfl, ?_, fun _ _ => rfl⟩ (.nil _)
    intro i cs hi hc
    simp only at hi
    split_ifs at hi <;> cases hi <;> simp at hc
  obtain ⟨s, hs, -⟩ := h _ _ hl
  have : (run start exTwo).isNone = true := by decide +kernel
  rw [hs] at this
  cases this

-- an assembler (0) with four components, an exchanger (1) with a connectivity component of its own: destroying that
-- one unbinds the exchanger only
example : (run start [.create 0, .create 1, .create 2, .create 3, .create 4, .bind 0 [0, 1, 2, 3], .edit 3,
    .bind 1 [4], .destroy 4]).map (fun s => (s.bound 0, s.bound 1, s.comps)) =
    some (some [0, 1, 2, 3], none, [3, 2, 1, 0]) := by
  decide +kernel

-- destroying the overlap component of the assembler, registered first, does not go through
example : (run start [.create 0, .create 1, .create 2, .create 3, .create 4, .bind 0 [0, 1, 2, 3],
    .bind 1 [4], .destroy 2]).isNone = true := by
  decide +kernel

-- hypotheses of `C83_defined`: the exchanger uses ID 1, the assembler ID 0
example : (run start [.create 0, .create 4, .bind 0 [0], .bind 1 [4]]).map
    (fun s => (s.ev.ids 0, s.ev.ids 1, decide ((4 : Int) ∈ s.comps), (destroy s 4).isSome, (destroy s 0).isSome)) =
    some (0, 1, true, true, false) := by
  decide +kernel

end Ovk.Bind
