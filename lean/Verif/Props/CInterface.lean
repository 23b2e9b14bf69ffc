/-
Property C105: ownership in the C interface.
-/
import Verif.Model.CInterface
import Mathlib.Data.Fintype.Card
import Mathlib.Algebra.BigOperators.Group.Finset.Basic
import Mathlib.Algebra.BigOperators.Ring.Finset
import Mathlib.Data.Fintype.Basic
import Mathlib.Tactic.SplitIfs
import Mathlib.Tactic.Push

namespace Ovk.CApi
variable {n : Nat}

/-! ### Specification -/
namespace Spec

/-- What a pointer variable of the caller means.  Shared contexts are numbered in the order in which they were
shared. -/
inductive Role (n : Nat)
  | null
  | params
  /-- a context that is not shared -/
  | context
  /-- a context that belongs to someone else -/
  | view (k : Nat)
  | shared (k : Nat)
  /-- a domain, assembler or exchanger with shared context `k` -/
  | user (k : Nat)
  /-- a request of the exchanger in variable `e` -/
  | request (e : Fin n)
  deriving DecidableEq

/-- The caller must give back what the variable points to. -/
def Role.Owns : Role n → Prop
  | .null | .view _ => False
  | _ => True

/-- The variable keeps shared context `k` alive. -/
def Role.Holds (k : Nat) (r : Role n) : Prop := r = .shared k ∨ r = .user k

instance (k : Nat) (r : Role n) : Decidable (r.Holds k) := inferInstanceAs (Decidable (_ ∨ _))

structure Roles (n : Nat) where
  role : Fin n → Role n
  /-- how many contexts were shared -/
  count : Nat

def nothing (n : Nat) : Roles n := ⟨fun _ => .null, 0⟩

def Roles.give (w : Roles n) (v : Fin n) (r : Role n) : Roles n := { w with role := Function.update w.role v r }

/-- The rules for calls: a variable that owns something is not overwritten, only what is owned is given back, a
context is only used while something keeps it alive, and an exchanger is not destroyed before its requests are waited
for.  `Does w c w'` says that the rules allow call `c` and what the variables mean after it. -/
inductive Does (w : Roles n) : Call n → Roles n → Prop
  | createParams {p} : ¬(w.role p).Owns → Does w (.createParams p) (w.give p .params)
  | destroyParams {p} : w.role p = .params → Does w (.destroyParams p) (w.give p .null)
  | createContext {x p} : ¬(w.role x).Owns → w.role p = .params →
      Does w (.createContext x p true) ((w.give p .null).give x .context)
  | failContext {x p} : ¬(w.role x).Owns → w.role p = .params →
      Does w (.createContext x p false) ((w.give p .null).give x .null)
  | destroyContext {x} : w.role x = .context → Does w (.destroyContext x) (w.give x .null)
  | shareContext {x s} : w.role x = .context → ¬(w.role s).Owns →
      Does w (.shareContext x s) { (w.give x (.view w.count)).give s (.shared w.count) with count := w.count + 1 }
  | resetShared {s k} : w.role s = .shared k → Does w (.resetShared s) (w.give s .null)
  | fromShared {s x k} : w.role s = .shared k → ¬(w.role x).Owns → Does w (.fromShared s x) (w.give x (.view k))
  | useOwn {x} : w.role x = .context → Does w (.useContext x) w
  | useView {x k v} : w.role x = .view k → (w.role v).Holds k → Does w (.useContext x) w
  | create {opt u s p k} : w.role s = .shared k → ¬(w.role u).Owns → w.role p = .params →
      Does w (.create opt u s p) ((w.give u (.user k)).give p .null)
  | createDefault {u s p k} : w.role s = .shared k → ¬(w.role u).Owns → w.role p = .null →
      Does w (.create true u s p) (w.give u (.user k))
  | destroy {u k} : w.role u = .user k → (∀ v, w.role v ≠ .request u) → Does w (.destroy u) (w.give u .null)
  | contextOf {u x k} : w.role u = .user k → ¬(w.role x).Owns → Does w (.contextOf u x) (w.give x (.view k))
  | sharedOf {u s k} : w.role u = .user k → ¬(w.role s).Owns → Does w (.sharedOf u s) (w.give s (.shared k))
  | begin {e r k} : w.role e = .user k → ¬(w.role r).Owns → Does w (.begin e r) (w.give r (.request e))
  | wait {r} : (w.role r = .null ∨ ∃ e, w.role r = .request e) → Does w (.wait r) (w.give r .null)
  | waitAll {rs : List (Fin n)} : rs.Nodup → (∀ r ∈ rs, w.role r = .null ∨ ∃ e, w.role r = .request e) →
      Does w (.waitAll rs) { w with role := fun v => if v ∈ rs then .null else w.role v }
  | waitAnyNone {rs} : (∀ r ∈ rs, w.role r = .null) → Does w (.waitAny rs none) w
  | waitAny {rs i r e} : (∀ r ∈ rs, w.role r = .null ∨ ∃ e, w.role r = .request e) → rs[i]? = some r →
      w.role r = .request e → Does w (.waitAny rs (some i)) (w.give r .null)

/-- Calls that follow the rules. -/
inductive Follows : List (Call n) → Roles n → Roles n → Prop
  | nil {w} : Follows [] w w
  | cons {c cs w w' w''} : Does w c w' → Follows cs w' w'' → Follows (c :: cs) w w''

end Spec
open Spec State

/-! ### The invariant -/

/-- The number of variables that keep shared context `k` alive. -/
def holders (w : Roles n) (k : Nat) : Nat := (Finset.univ.filter fun v => (w.role v).Holds k).card

/-- What variable and heap contain for a role; shared context `k` is at `A k`. -/
def Good (s : State n) (A : Nat → Nat) (count : Nat) (p : Option Nat) : Role n → Prop
  | .null => p = none
  | .params => ∃ a, p = some a ∧ s.cells a = some .params
  | .context => ∃ a, p = some a ∧ s.cells a = some .context
  | .view k => k < count ∧ p = some (A k)
  | .shared k => k < count ∧ ∃ a, p = some a ∧ s.cells a = some (.ref (A k))
  | .user k => k < count ∧ ∃ a, p = some a ∧ s.cells a = some (.user (A k))
  | .request e => ∃ a b k, p = some a ∧ s.cells a = some (.request b) ∧ s.var e = some b ∧ s.cells b = some (.user k)

/-- `H k` is the number of shared pointers to context `k`. -/
structure Inv (s : State n) (w : Roles n) (A H : Nat → Nat) : Prop where
  good : ∀ v, Good s A w.count (s.var v) (w.role v)
  /-- a request's exchanger is in its variable -/
  exch : ∀ v e, w.role v = .request e → ∃ k, w.role e = .user k
  uniq : ∀ v v' a, (w.role v).Owns → (w.role v').Owns → s.var v = some a → s.var v' = some a → v = v'
  cell : ∀ a o, s.cells a = some o → (∃ v, (w.role v).Owns ∧ s.var v = some a) ∨ ∃ k < w.count, A k = a
  shared : ∀ k < w.count, s.cells (A k) = if H k = 0 then none else some (.shared (H k))
  inj : ∀ k < w.count, ∀ l < w.count, A k = A l → k = l
  addr : ∀ k < w.count, A k < s.next
  bound : ∀ a, s.next ≤ a → s.cells a = none
  once : s.freed.Nodup
  freed : ∀ a, a ∈ s.freed ↔ a < s.next ∧ s.cells a = none

theorem holders_give (w : Roles n) (v : Fin n) (r : Role n) (k : Nat) :
    holders (w.give v r) k + (if (w.role v).Holds k then 1 else 0) =
      holders w k + (if r.Holds k then 1 else 0) := by
  unfold holders
  simp only [Finset.card_filter]
  rw [← Finset.add_sum_erase _ _ (Finset.mem_univ v), ← Finset.add_sum_erase (a := v) _ _ (Finset.mem_univ v)]
  have : ∑ x ∈ Finset.univ.erase v, (if ((w.give v r).role x).Holds k then 1 else 0) =
      ∑ x ∈ Finset.univ.erase v, (if (w.role x).Holds k then 1 else 0) := by
    refine Finset.sum_congr rfl fun x hx => ?_
    simp only [Finset.mem_erase] at hx
    simp [Roles.give, hx.1]
  rw [this]
  simp only [Roles.give, Function.update_self]
  omega

theorem holders_same (w : Roles n) (v : Fin n) (r : Role n) (k : Nat)
    (h : (w.role v).Holds k ↔ r.Holds k) : holders (w.give v r) k = holders w k := by
  have := holders_give w v r k
  simp only [h] at this
  omega

theorem holders_pos (w : Roles n) (k : Nat) : holders w k ≠ 0 ↔ ∃ v, (w.role v).Holds k := by
  unfold holders
  rw [Finset.card_ne_zero]
  constructor
  · rintro ⟨v, hv⟩
    exact ⟨v, by simpa using hv⟩
  · rintro ⟨v, hv⟩
    exact ⟨v, by simpa using hv⟩

theorem Good.mono {s s' : State n} {A A' : Nat → Nat} {c c' : Nat} {p : Option Nat} {r : Role n}
    (h : Good s A c p r) (hc : c ≤ c') (hA : ∀ k < c, A' k = A k)
    (hp : ∀ a o, r.Owns → p = some a → s.cells a = some o → s'.cells a = some o)
    (he : ∀ e b k, r = .request e → s.var e = some b → s.cells b = some (.user k) →
      s'.var e = some b ∧ s'.cells b = some (.user k)) : Good s' A' c' p r := by
  cases r with
  | null => exact h
  | params =>
    obtain ⟨a, h1, h2⟩ := h
    exact ⟨a, h1, hp a _ trivial h1 h2⟩
  | context =>
    obtain ⟨a, h1, h2⟩ := h
    exact ⟨a, h1, hp a _ trivial h1 h2⟩
  | view k => exact ⟨by have := h.1; omega, by rw [hA k h.1]; exact h.2⟩
  | shared k =>
    obtain ⟨h0, a, h1, h2⟩ := h
    exact ⟨by omega, a, h1, by rw [hA k h0]; exact hp a _ trivial h1 h2⟩
  | user k =>
    obtain ⟨h0, a, h1, h2⟩ := h
    exact ⟨by omega, a, h1, by rw [hA k h0]; exact hp a _ trivial h1 h2⟩
  | request e =>
    obtain ⟨a, b, k, h1, h2, h3, h4⟩ := h
    exact ⟨a, b, k, h1, hp a _ trivial h1 h2, (he e b k rfl h3 h4).1, (he e b k rfl h3 h4).2⟩

/-- Owned objects are not shared contexts. -/
theorem Inv.owned {s : State n} {w A H} (I : Inv s w A H) {v : Fin n} (h : (w.role v).Owns) :
    ∃ a o, s.var v = some a ∧ s.cells a = some o ∧ ∀ r, o ≠ .shared r := by
  have := I.good v
  cases hr : w.role v with
  | null => rw [hr] at h; exact h.elim
  | view k => rw [hr] at h; exact h.elim
  | params | context =>
    rw [hr] at this
    obtain ⟨a, h1, h2⟩ := this
    exact ⟨a, _, h1, h2, fun r => by simp⟩
  | shared k | user k =>
    rw [hr] at this
    obtain ⟨_, a, h1, h2⟩ := this
    exact ⟨a, _, h1, h2, fun r => by simp⟩
  | request e =>
    rw [hr] at this
    obtain ⟨a, b, k, h1, h2, _⟩ := this
    exact ⟨a, _, h1, h2, fun r => by simp⟩

theorem Inv.lt {s : State n} {w A H} (I : Inv s w A H) {a : Nat} {o} (h : s.cells a = some o) : a < s.next := by
  by_contra hc
  rw [I.bound a (by omega)] at h
  cases h

theorem Inv.apart {s : State n} {w A H} (I : Inv s w A H) {v : Fin n} (h : (w.role v).Owns) {a k : Nat}
    (ha : s.var v = some a) (hk : k < w.count) : A k ≠ a := by
  obtain ⟨a', o, h1, h2, h3⟩ := I.owned h
  rw [ha] at h1
  cases h1
  rintro rfl
  rw [I.shared k hk] at h2
  split_ifs at h2
  cases h2
  exact h3 _ rfl

/-- A variable that owns nothing gets another meaning that owns nothing. -/
theorem Inv.look {s : State n} {w A H} (I : Inv s w A H) {v : Fin n} (h : ¬(w.role v).Owns) {r : Role n} {p : Option Nat}
    (hr : ¬r.Owns) (hg : Good s A w.count p r) : Inv (s.set v p) (w.give v r) A H := by
  have hv : ∀ v', (w.role v').Owns → v' ≠ v := by
    rintro v' h1 rfl
    exact h h1
  have ho : ∀ v', ((w.give v r).role v').Owns → (w.role v').Owns ∧ (s.set v p).var v' = s.var v' := by
    intro v' h1
    by_cases hvv : v' = v
    · subst hvv
      simp only [Roles.give, Function.update_self] at h1
      exact (hr h1).elim
    · simp only [Roles.give, Function.update_apply, hvv, if_false] at h1
      exact ⟨h1, by simp [State.set, hvv]⟩
  refine ⟨?_, ?_, ?_, ?_, I.shared, I.inj, I.addr, I.bound, I.once, I.freed⟩
  · intro v'
    by_cases hvv : v' = v
    · subst hvv
      simp only [Roles.give, State.set, Function.update_self]
      refine hg.mono (le_refl _) (fun _ _ => rfl) (fun _ _ h1 => (hr h1).elim) ?_
      rintro e b k rfl
      exact (hr trivial).elim
    · simp only [Roles.give, State.set, Function.update_apply, hvv, if_false]
      refine (I.good v').mono (le_refl _) (fun _ _ => rfl) (fun _ _ _ _ h => h) ?_
      intro e b k h1 h2 h3
      obtain ⟨k', hk'⟩ := I.exch v' e h1
      have : e ≠ v := hv e (by rw [hk']; trivial)
      exact ⟨by simpa [Function.update_apply, this] using h2, h3⟩
  · intro v' e h1
    have h2 := (ho v' (by rw [h1]; trivial)).1
    simp only [Roles.give, Function.update_apply, hv v' h2, if_false] at h1
    obtain ⟨k, hk⟩ := I.exch v' e h1
    refine ⟨k, ?_⟩
    simpa [Roles.give, Function.update_apply, hv e (by rw [hk]; trivial)] using hk
  · intro v1 v2 a h1 h2 h3 h4
    rw [(ho v1 h1).2] at h3
    rw [(ho v2 h2).2] at h4
    exact I.uniq v1 v2 a (ho v1 h1).1 (ho v2 h2).1 h3 h4
  · intro a o h1
    rcases I.cell a o h1 with ⟨v', h2, h3⟩ | h2
    · left
      refine ⟨v', ?_, ?_⟩
      · simpa [Roles.give, Function.update_apply, hv v' h2] using h2
      · simpa [State.set, Function.update_apply, hv v' h2] using h3
    · exact Or.inr h2

/-- A variable that owns nothing gets a new object. -/
theorem Inv.gain {s : State n} {w A H} (I : Inv s w A H) {v : Fin n} (h : ¬(w.role v).Owns) {r : Role n} {o : Obj}
    (hr : r.Owns) (hg : Good ((s.put o).set v (some s.next)) A w.count (some s.next) r)
    (he : ∀ e, r = .request e → ∃ k, w.role e = .user k) :
    Inv ((s.put o).set v (some s.next)) (w.give v r) A H := by
  have hv : ∀ v', (w.role v').Owns → v' ≠ v := by
    rintro v' h1 rfl
    exact h h1
  have hc : ∀ a o', s.cells a = some o' → ((s.put o).set v (some s.next)).cells a = some o' := by
    intro a o' h1
    have := I.lt h1
    simp only [State.put, State.set, Function.update_apply]
    rw [if_neg (by omega)]
    exact h1
  have hvar : ∀ v', v' ≠ v → ((s.put o).set v (some s.next)).var v' = s.var v' := by
    intro v' hvv
    simp [State.set, State.put, hvv]
  have hrole : ∀ v', v' ≠ v → (w.give v r).role v' = w.role v' := by
    intro v' hvv
    simp [Roles.give, hvv]
  have hself : ((s.put o).set v (some s.next)).var v = some s.next := by simp [State.set]
  have hrself : (w.give v r).role v = r := by simp [Roles.give]
  have hlt : ∀ v' a, (w.role v').Owns → s.var v' = some a → a < s.next := by
    intro v' a h1 h2
    obtain ⟨a', o', h3, h4, _⟩ := I.owned h1
    rw [h2] at h3
    cases h3
    exact I.lt h4
  refine ⟨?_, ?_, ?_, ?_, ?_, I.inj, ?_, ?_, I.once, ?_⟩
  · intro v'
    by_cases hvv : v' = v
    · subst hvv
      rw [hself, hrself]
      exact hg
    · rw [hvar v' hvv, hrole v' hvv]
      refine (I.good v').mono (le_refl _) (fun _ _ => rfl) (fun a o' _ _ h => hc a o' h) ?_
      intro e b k h1 h2 h3
      obtain ⟨k', hk'⟩ := I.exch v' e h1
      exact ⟨by rw [hvar e (hv e (by rw [hk']; trivial))]; exact h2, hc _ _ h3⟩
  · intro v' e h1
    have key : ∃ k, w.role e = .user k := by
      by_cases hvv : v' = v
      · subst hvv
        rw [hrself] at h1
        exact he e h1
      · rw [hrole v' hvv] at h1
        exact I.exch v' e h1
    obtain ⟨k, hk⟩ := key
    exact ⟨k, by rw [hrole e (hv e (by rw [hk]; trivial))]; exact hk⟩
  · intro v1 v2 a h1 h2 h3 h4
    by_cases e1 : v1 = v <;> by_cases e2 : v2 = v
    · rw [e1, e2]
    · subst e1
      rw [hself] at h3
      cases h3
      rw [hvar v2 e2] at h4
      rw [hrole v2 e2] at h2
      exact absurd (hlt _ _ h2 h4) (by omega)
    · subst e2
      rw [hself] at h4
      cases h4
      rw [hvar v1 e1] at h3
      rw [hrole v1 e1] at h1
      exact absurd (hlt _ _ h1 h3) (by omega)
    · rw [hvar _ e1] at h3
      rw [hvar _ e2] at h4
      rw [hrole _ e1] at h1
      rw [hrole _ e2] at h2
      exact I.uniq v1 v2 a h1 h2 h3 h4
  · intro a o' h1
    by_cases ha : a = s.next
    · subst ha
      exact Or.inl ⟨v, by rw [hrself]; exact hr, hself⟩
    · simp only [State.put, State.set, Function.update_apply, ha, if_false] at h1
      rcases I.cell a o' h1 with ⟨v', h2, h3⟩ | h2
      · exact Or.inl ⟨v', by rw [hrole v' (hv v' h2)]; exact h2, by rw [hvar v' (hv v' h2)]; exact h3⟩
      · exact Or.inr h2
  · intro k hk
    have := I.addr k hk
    simp only [State.put, State.set, Function.update_apply]
    rw [if_neg (by omega)]
    exact I.shared k hk
  · intro k hk
    have := I.addr k hk
    simp only [State.put, State.set]
    omega
  · intro a ha
    simp only [State.put, State.set] at ha
    simp only [State.put, State.set, Function.update_apply]
    rw [if_neg (by omega)]
    exact I.bound a (by omega)
  · intro a
    simp only [State.put, State.set, Function.update_apply]
    rw [I.freed a]
    constructor
    · rintro ⟨h1, h2⟩
      exact ⟨by omega, by rw [if_neg (by omega)]; exact h2⟩
    · rintro ⟨h1, h2⟩
      by_cases ha : a = s.next
      · rw [if_pos ha] at h2
        cases h2
      · rw [if_neg ha] at h2
        exact ⟨by omega, h2⟩

/-- The object of a variable is deleted and the variable set to null. -/
theorem Inv.lose {s : State n} {w A H} (I : Inv s w A H) {v : Fin n} (h : (w.role v).Owns) {a : Nat}
    (ha : s.var v = some a) (hq : ∀ v', w.role v' ≠ .request v) :
    Inv ((s.del a).set v none) (w.give v .null) A H := by
  obtain ⟨a', o, h1, ho, hns⟩ := I.owned h
  rw [ha] at h1
  cases h1
  have hvar : ∀ v', v' ≠ v → ((s.del a).set v none).var v' = s.var v' := by
    intro v' hvv
    simp [State.set, State.del, hvv]
  have hrole : ∀ v', v' ≠ v → (w.give v .null).role v' = w.role v' := by
    intro v' hvv
    simp [Roles.give, hvv]
  have hself : ((s.del a).set v none).var v = none := by simp [State.set]
  have hrself : (w.give v .null).role v = .null := by simp [Roles.give]
  have hcell : ∀ b, b ≠ a → ((s.del a).set v none).cells b = s.cells b := by
    intro b hb
    simp [State.set, State.del, hb]
  have hcelf : ((s.del a).set v none).cells a = none := by simp [State.set, State.del]
  have hne : ∀ v' b, v' ≠ v → (w.role v').Owns → s.var v' = some b → b ≠ a := by
    rintro v' b hvv h1 h2 rfl
    exact hvv (I.uniq v' v _ h1 h h2 ha)
  have hown : ∀ v', ((w.give v .null).role v').Owns → v' ≠ v := by
    rintro v' h1 rfl
    rw [hrself] at h1
    exact h1
  refine ⟨?_, ?_, ?_, ?_, ?_, I.inj, I.addr, ?_, ?_, ?_⟩
  · intro v'
    by_cases hvv : v' = v
    · subst hvv
      rw [hself, hrself]
      exact rfl
    · rw [hvar v' hvv, hrole v' hvv]
      refine (I.good v').mono (le_refl _) (fun _ _ => rfl) ?_ ?_
      · intro b o' h1 h2 h3
        rw [hcell b (hne v' b hvv h1 h2)]
        exact h3
      · intro e b k h1 h2 h3
        have : e ≠ v := by
          rintro rfl
          exact hq v' h1
        obtain ⟨k', hk'⟩ := I.exch v' e h1
        exact ⟨by rw [hvar e this]; exact h2, by rw [hcell b (hne e b this (by rw [hk']; trivial) h2)]; exact h3⟩
  · intro v' e h1
    have hv' : v' ≠ v := hown v' (by rw [h1]; trivial)
    rw [hrole v' hv'] at h1
    obtain ⟨k, hk⟩ := I.exch v' e h1
    refine ⟨k, ?_⟩
    rw [hrole e (by rintro rfl; exact hq v' h1)]
    exact hk
  · intro v1 v2 b h1 h2 h3 h4
    have e1 := hown v1 h1
    have e2 := hown v2 h2
    rw [hvar _ e1] at h3
    rw [hvar _ e2] at h4
    rw [hrole _ e1] at h1
    rw [hrole _ e2] at h2
    exact I.uniq v1 v2 b h1 h2 h3 h4
  · intro b o' h1
    have hb : b ≠ a := by
      rintro rfl
      rw [hcelf] at h1
      cases h1
    rw [hcell b hb] at h1
    rcases I.cell b o' h1 with ⟨v', h2, h3⟩ | h2
    · have hvv : v' ≠ v := by
        rintro rfl
        rw [ha] at h3
        cases h3
        exact hb rfl
      exact Or.inl ⟨v', by rw [hrole v' hvv]; exact h2, by rw [hvar v' hvv]; exact h3⟩
    · exact Or.inr h2
  · intro k hk
    rw [hcell _ (I.apart h ha hk)]
    exact I.shared k hk
  · intro b hb
    by_cases hba : b = a
    · rw [hba]; exact hcelf
    · rw [hcell b hba]
      exact I.bound b hb
  · show (a :: s.freed).Nodup
    rw [List.nodup_cons]
    refine ⟨fun hm => ?_, I.once⟩
    rw [I.freed a, ho] at hm
    cases hm.2
  · intro b
    show b ∈ a :: s.freed ↔ b < s.next ∧ _
    rw [List.mem_cons, I.freed b]
    by_cases hba : b = a
    · subst hba
      simp only [hcelf, true_or, and_true, true_iff]
      exact I.lt ho
    · rw [hcell b hba]
      simp [hba]

/-- A shared context gets another shared pointer. -/
theorem Inv.copy {s : State n} {w A H} (I : Inv s w A H) {k : Nat} (hk : k < w.count) (h : H k ≠ 0) :
    ∃ t, s.copyRef (A k) = some t ∧ t.next = s.next ∧ t.var = s.var ∧ t.cells (A k) = some (.shared (H k + 1)) ∧
      (∀ a, a ≠ A k → t.cells a = s.cells a) ∧ Inv t w A (Function.update H k (H k + 1)) := by
  have hs := I.shared k hk
  rw [if_neg h] at hs
  have hf : ∀ l < w.count, l ≠ k → A l ≠ A k := fun l hl h1 h2 => h1 (I.inj l hl k hk h2)
  refine ⟨{ s with cells := Function.update s.cells (A k) (some (.shared (H k + 1))) }, by
    unfold State.copyRef; rw [hs], rfl, rfl, by simp, fun a ha => by simp [ha], ?_⟩
  have hcell : ∀ a, a ≠ A k → Function.update s.cells (A k) (some (Obj.shared (H k + 1))) a = s.cells a := by
    intro a ha
    simp [ha]
  refine ⟨?_, I.exch, I.uniq, ?_, ?_, I.inj, I.addr, ?_, I.once, ?_⟩
  · intro v
    refine (I.good v).mono (le_refl _) (fun _ _ => rfl) ?_ ?_
    · intro a o h1 h2 h3
      dsimp only
      rw [hcell a (fun h4 => I.apart h1 h2 hk h4.symm)]
      exact h3
    · intro e b j h1 h2 h3
      obtain ⟨k', hk'⟩ := I.exch v e h1
      refine ⟨h2, ?_⟩
      dsimp only
      rw [hcell b (fun h4 => I.apart (by rw [hk']; trivial) h2 hk h4.symm)]
      exact h3
  · intro a o h1
    by_cases ha : a = A k
    · exact Or.inr ⟨k, hk, ha.symm⟩
    · exact I.cell a o (by rw [← hcell a ha]; exact h1)
  · intro l hl
    by_cases hlk : l = k
    · subst hlk
      simp
    · dsimp only
      rw [hcell _ (hf l hl hlk), Function.update_of_ne hlk]
      exact I.shared l hl
  · intro a ha
    have := I.addr k hk
    dsimp only at ha ⊢
    rw [hcell a (by omega)]
    exact I.bound a ha
  · intro a
    dsimp only
    rw [I.freed a]
    by_cases ha : a = A k
    · subst ha
      simp [hs]
    · rw [hcell a ha]

/-- A shared pointer to a shared context is destroyed. -/
theorem Inv.drop {s : State n} {w A H} (I : Inv s w A H) {k : Nat} (hk : k < w.count) (h : H k ≠ 0) :
    ∃ t, s.dropRef (A k) = some t ∧ t.next = s.next ∧ t.var = s.var ∧
      (∀ a, a ≠ A k → t.cells a = s.cells a) ∧ Inv t w A (Function.update H k (H k - 1)) := by
  have hs := I.shared k hk
  rw [if_neg h] at hs
  have hf : ∀ l < w.count, l ≠ k → A l ≠ A k := fun l hl h1 h2 => h1 (I.inj l hl k hk h2)
  obtain ⟨m, hm⟩ : ∃ m, H k = m + 1 := ⟨H k - 1, by omega⟩
  rw [hm] at hs
  -- both outcomes change the cell of the context only
  have key : ∀ (x : Option Obj) (l : List Nat), x = (if m = 0 then none else some (.shared m)) →
      l = (if m = 0 then A k :: s.freed else s.freed) →
      Inv { s with cells := Function.update s.cells (A k) x, freed := l } w A (Function.update H k (H k - 1)) := by
    intro x l hx hl
    have hcell : ∀ a, a ≠ A k → Function.update s.cells (A k) x a = s.cells a := by
      intro a ha
      simp [ha]
    refine ⟨?_, I.exch, I.uniq, ?_, ?_, I.inj, I.addr, ?_, ?_, ?_⟩
    · intro v
      refine (I.good v).mono (le_refl _) (fun _ _ => rfl) ?_ ?_
      · intro a o h1 h2 h3
        dsimp only
        rw [hcell a (fun h4 => I.apart h1 h2 hk h4.symm)]
        exact h3
      · intro e b j h1 h2 h3
        obtain ⟨k', hk'⟩ := I.exch v e h1
        refine ⟨h2, ?_⟩
        dsimp only
        rw [hcell b (fun h4 => I.apart (by rw [hk']; trivial) h2 hk h4.symm)]
        exact h3
    · intro a o h1
      by_cases ha : a = A k
      · exact Or.inr ⟨k, hk, ha.symm⟩
      · exact I.cell a o (by rw [← hcell a ha]; exact h1)
    · intro l hl
      by_cases hlk : l = k
      · subst hlk
        simp [hx, hm]
      · dsimp only
        rw [hcell _ (hf l hl hlk), Function.update_of_ne hlk]
        exact I.shared l hl
    · intro a ha
      have := I.addr k hk
      dsimp only at ha ⊢
      rw [hcell a (by omega)]
      exact I.bound a ha
    · dsimp only
      rw [hl]
      split
      · rw [List.nodup_cons]
        refine ⟨fun hm' => ?_, I.once⟩
        rw [I.freed, hs] at hm'
        cases hm'.2
      · exact I.once
    · intro a
      dsimp only
      rw [hl]
      by_cases ha : a = A k
      · subst ha
        simp only [Function.update_self, hx]
        split
        · simp [I.addr k hk]
        · rw [I.freed, hs]
          simp
      · rw [hcell a ha, ← I.freed a]
        split
        · simp [ha]
        · rfl
  by_cases h0 : m = 0
  · refine ⟨s.del (A k), by unfold State.dropRef; rw [hs]; simp only [h0, if_true], rfl, rfl, fun a ha => by
      simp [State.del, ha], ?_⟩
    exact key _ _ (by rw [if_pos h0]) (by rw [if_pos h0])
  · refine ⟨{ s with cells := Function.update s.cells (A k) (some (.shared m)) }, by
      unfold State.dropRef; rw [hs]; simp only [h0, if_false], rfl, rfl, fun a ha => by
      simp [ha], ?_⟩
    exact key _ _ (by rw [if_neg h0]) (by rw [if_neg h0])

/-- A context is shared. -/
theorem Inv.share {s : State n} {w A H} (I : Inv s w A H) {x h : Fin n} (hx : w.role x = .context)
    (hh : ¬(w.role h).Owns) :
    ∃ t, step s (.shareContext x h) = some t ∧
      Inv t { (w.give x (.view w.count)).give h (.shared w.count) with count := w.count + 1 }
        (Function.update A w.count s.next) (Function.update H w.count 1) := by
  obtain ⟨a, hva, hca⟩ : ∃ a, s.var x = some a ∧ s.cells a = some .context := by
    have := I.good x
    rw [hx] at this
    exact this
  have hxo : (w.role x).Owns := by rw [hx]; trivial
  have hxh : x ≠ h := by
    rintro rfl
    exact hh hxo
  have hlt := I.lt hca
  refine ⟨((((s.put (.shared 1)).put (.ref s.next)).del a).set x (some s.next)).set h (some (s.next + 1)), by
    simp only [step, hva, hca, if_true], ?_⟩
  generalize ht : ((((s.put (.shared 1)).put (.ref s.next)).del a).set x (some s.next)).set h (some (s.next + 1)) = t
  have hvar : ∀ v, v ≠ x → v ≠ h → t.var v = s.var v := by
    intro v h1 h2
    rw [← ht]
    simp [State.set, State.del, State.put, h1, h2]
  have hvx : t.var x = some s.next := by
    rw [← ht]
    simp [State.set, hxh]
  have hvh : t.var h = some (s.next + 1) := by
    rw [← ht]
    simp [State.set]
  have hc1 : t.cells s.next = some (.shared 1) := by
    rw [← ht]
    simp [State.set, State.del, State.put, Function.update_apply]
    omega
  have hc2 : t.cells (s.next + 1) = some (.ref s.next) := by
    rw [← ht]
    simp [State.set, State.del, State.put, Function.update_apply]
    omega
  have hca' : t.cells a = none := by
    rw [← ht]
    simp [State.set, State.del, State.put]
  have hc : ∀ b, b ≠ a → b ≠ s.next → b ≠ s.next + 1 → t.cells b = s.cells b := by
    intro b h1 h2 h3
    rw [← ht]
    simp [State.set, State.del, State.put, h1, h2, h3]
  have hn : t.next = s.next + 2 := by
    rw [← ht]
    simp [State.set, State.del, State.put]
  have hf : t.freed = a :: s.freed := by
    rw [← ht]
    simp [State.set, State.del, State.put]
  clear ht
  generalize hw : ({ (w.give x (.view w.count)).give h (.shared w.count) with count := w.count + 1 } : Roles n) = w'
  have hrole : ∀ v, v ≠ x → v ≠ h → w'.role v = w.role v := by
    intro v h1 h2
    rw [← hw]
    simp [Roles.give, h1, h2]
  have hrx : w'.role x = .view w.count := by
    rw [← hw]
    simp [Roles.give, hxh]
  have hrh : w'.role h = .shared w.count := by
    rw [← hw]
    simp [Roles.give]
  have hcount : w'.count = w.count + 1 := by
    rw [← hw]
  clear hw
  have hA : ∀ k < w.count, Function.update A w.count s.next k = A k := by
    intro k hk
    rw [Function.update_of_ne (by omega)]
  have hlow : ∀ b o, b ≠ a → s.cells b = some o → t.cells b = some o := by
    intro b o h1 h2
    have := I.lt h2
    rw [hc b h1 (by omega) (by omega)]
    exact h2
  have hne : ∀ v b, v ≠ x → (w.role v).Owns → s.var v = some b → b ≠ a := by
    rintro v b hvv h1 h2 rfl
    exact hvv (I.uniq v x _ h1 hxo h2 hva)
  have hvlt : ∀ v b, (w.role v).Owns → s.var v = some b → b < s.next := by
    intro v b h1 h2
    obtain ⟨b', o', h3, h4, _⟩ := I.owned h1
    rw [h2] at h3
    cases h3
    exact I.lt h4
  have hxnot : ¬(w'.role x).Owns := by rw [hrx]; exact id
  have huser : ∀ e k, w.role e = .user k → e ≠ x ∧ e ≠ h := by
    intro e k he
    constructor
    · rintro rfl
      rw [hx] at he
      cases he
    · rintro rfl
      exact hh (by rw [he]; trivial)
  refine ⟨?_, ?_, ?_, ?_, ?_, ?_, ?_, ?_, ?_, ?_⟩
  · intro v
    by_cases h1 : v = x
    · subst h1
      rw [hvx, hrx]
      exact ⟨by omega, by simp⟩
    by_cases h2 : v = h
    · subst h2
      rw [hvh, hrh]
      exact ⟨by omega, _, rfl, by simpa using hc2⟩
    rw [hvar v h1 h2, hrole v h1 h2]
    refine (I.good v).mono (by omega) hA ?_ ?_
    · intro b o h3 h4 h5
      exact hlow b o (hne v b h1 h3 h4) h5
    · intro e b k h3 h4 h5
      obtain ⟨k', hk'⟩ := I.exch v e h3
      have := huser e k' hk'
      rw [hvar e this.1 this.2]
      exact ⟨h4, hlow b _ (hne e b this.1 (by rw [hk']; trivial) h4) h5⟩
  · intro v e h3
    have h1 : v ≠ x := by
      rintro rfl
      rw [hrx] at h3
      cases h3
    have h2 : v ≠ h := by
      rintro rfl
      rw [hrh] at h3
      cases h3
    rw [hrole v h1 h2] at h3
    obtain ⟨k', hk'⟩ := I.exch v e h3
    have := huser e k' hk'
    exact ⟨k', by rw [hrole e this.1 this.2]; exact hk'⟩
  · intro v1 v2 b h1 h2 h3 h4
    have e1 : v1 ≠ x := by
      rintro rfl
      exact hxnot h1
    have e2 : v2 ≠ x := by
      rintro rfl
      exact hxnot h2
    by_cases f1 : v1 = h <;> by_cases f2 : v2 = h
    · rw [f1, f2]
    · subst f1
      rw [hvh] at h3
      cases h3
      rw [hvar v2 e2 f2] at h4
      rw [hrole v2 e2 f2] at h2
      exact absurd (hvlt _ _ h2 h4) (by omega)
    · subst f2
      rw [hvh] at h4
      cases h4
      rw [hvar v1 e1 f1] at h3
      rw [hrole v1 e1 f1] at h1
      exact absurd (hvlt _ _ h1 h3) (by omega)
    · rw [hvar v1 e1 f1] at h3
      rw [hrole v1 e1 f1] at h1
      rw [hvar v2 e2 f2] at h4
      rw [hrole v2 e2 f2] at h2
      exact I.uniq v1 v2 b h1 h2 h3 h4
  · intro b o h1
    by_cases hb1 : b = s.next
    · exact Or.inr ⟨w.count, by omega, by simp [hb1]⟩
    by_cases hb2 : b = s.next + 1
    · exact Or.inl ⟨h, by rw [hrh]; trivial, by rw [hvh, hb2]⟩
    have hba : b ≠ a := by
      rintro rfl
      rw [hca'] at h1
      cases h1
    rw [hc b hba hb1 hb2] at h1
    rcases I.cell b o h1 with ⟨v, h2, h3⟩ | ⟨k, hk, h2⟩
    · have e1 : v ≠ x := by
        rintro rfl
        rw [hva] at h3
        cases h3
        exact hba rfl
      have e2 : v ≠ h := by
        rintro rfl
        exact hh h2
      exact Or.inl ⟨v, by rw [hrole v e1 e2]; exact h2, by rw [hvar v e1 e2]; exact h3⟩
    · exact Or.inr ⟨k, by omega, by rw [hA k hk]; exact h2⟩
  · intro k hk
    by_cases hkc : k = w.count
    · subst hkc
      simpa using hc1
    · have hk' : k < w.count := by omega
      have := I.addr k hk'
      rw [hA k hk', hc _ (I.apart hxo hva hk') (by omega) (by omega), Function.update_of_ne hkc]
      exact I.shared k hk'
  · intro k hk l hl hkl
    by_cases hkc : k = w.count <;> by_cases hlc : l = w.count
    · omega
    · have := I.addr l (by omega)
      subst hkc
      rw [Function.update_self, hA l (by omega)] at hkl
      omega
    · have := I.addr k (by omega)
      subst hlc
      rw [Function.update_self, hA k (by omega)] at hkl
      omega
    · rw [hA l (by omega), hA k (by omega)] at hkl
      exact I.inj k (by omega) l (by omega) hkl
  · intro k hk
    by_cases hkc : k = w.count
    · subst hkc
      rw [Function.update_self]
      omega
    · have := I.addr k (by omega)
      rw [hA k (by omega)]
      omega
  · intro b hb
    rw [hc b (by omega) (by omega) (by omega)]
    exact I.bound b (by omega)
  · rw [hf, List.nodup_cons]
    refine ⟨fun hm => ?_, I.once⟩
    rw [I.freed a, hca] at hm
    cases hm.2
  · intro b
    rw [hf, List.mem_cons, I.freed b]
    by_cases hba : b = a
    · subst hba
      simp only [hca', true_or, and_true, true_iff]
      omega
    by_cases hb1 : b = s.next
    · subst hb1
      simp [hc1, hba]
    by_cases hb2 : b = s.next + 1
    · subst hb2
      simp [hc2, hba]
    rw [hc b hba hb1 hb2]
    constructor
    · rintro (h1 | h1)
      · exact (hba h1).elim
      · exact ⟨by omega, h1.2⟩
    · rintro ⟨h1, h2⟩
      exact Or.inr ⟨by omega, h2⟩

/-- The invariant with the right number of shared pointers. -/
def Safe (s : State n) (w : Roles n) : Prop := ∃ A, Inv s w A (holders w)

theorem Inv.safe {s : State n} {w A H} (I : Inv s w A H) (h : ∀ k < w.count, H k = holders w k) : Safe s w :=
  ⟨A, I.good, I.exch, I.uniq, I.cell, fun k hk => by rw [← h k hk]; exact I.shared k hk, I.inj, I.addr, I.bound,
    I.once, I.freed⟩

theorem Inv.holds {s : State n} {w A H} (I : Inv s w A H) {v : Fin n} {k : Nat} (h : (w.role v).Holds k) :
    k < w.count ∧ (w.role v).Owns := by
  have := I.good v
  rcases h with h | h <;> rw [h] at this ⊢ <;> exact ⟨this.1, trivial⟩

theorem Inv.unheld {s : State n} {w A H} (I : Inv s w A H) {k : Nat} (h : w.count ≤ k) : holders w k = 0 := by
  by_contra hc
  obtain ⟨v, hv⟩ := (holders_pos w k).1 hc
  have := (I.holds hv).1
  omega

theorem holds_null (k : Nat) : ¬(Role.null : Role n).Holds k := by rintro (h | h) <;> cases h
theorem holds_view (j k : Nat) : ¬(Role.view j : Role n).Holds k := by rintro (h | h) <;> cases h
theorem holds_params (k : Nat) : ¬(Role.params : Role n).Holds k := by rintro (h | h) <;> cases h
theorem holds_context (k : Nat) : ¬(Role.context : Role n).Holds k := by rintro (h | h) <;> cases h
theorem holds_request (e : Fin n) (k : Nat) : ¬(Role.request e : Role n).Holds k := by rintro (h | h) <;> cases h
theorem holds_shared (j k : Nat) : (Role.shared j : Role n).Holds k ↔ k = j := by
  unfold Role.Holds
  simp [eq_comm]
theorem holds_user (j k : Nat) : (Role.user j : Role n).Holds k ↔ k = j := by
  unfold Role.Holds
  simp [eq_comm]
theorem holds_idle {r : Role n} (h : ¬r.Owns) (k : Nat) : ¬r.Holds k := by
  rintro (h1 | h1) <;> exact h (by rw [h1]; trivial)

theorem holders_give_none (w : Roles n) (v : Fin n) (r : Role n) (k : Nat) (h1 : ¬(w.role v).Holds k)
    (h2 : ¬r.Holds k) : holders (w.give v r) k = holders w k :=
  holders_same w v r k (by simp [h1, h2])

theorem plain {s : State n} {w A H} (I : Inv s w A H) {v : Fin n} {o : Obj}
    (h : (w.role v = .params ∧ o = .params) ∨ (w.role v = .context ∧ o = .context)) :
    ∃ t, s.destroyPlain v o = some t ∧ Inv t (w.give v .null) A H := by
  have hg := I.good v
  have hq : ∀ v', w.role v' ≠ .request v := by
    intro v' h1
    obtain ⟨k, hk⟩ := I.exch v' v h1
    rcases h with ⟨h, _⟩ | ⟨h, _⟩ <;> rw [h] at hk <;> cases hk
  rcases h with ⟨h, rfl⟩ | ⟨h, rfl⟩
  all_goals
    rw [h] at hg
    obtain ⟨a, h1, h2⟩ := hg
    exact ⟨(s.del a).set v none, by simp only [State.destroyPlain, h1, h2, if_true],
      I.lose (by rw [h]; trivial) h1 hq⟩

/-- Waiting for a request or a null pointer. -/
theorem free {s : State n} {w A H} (I : Inv s w A H) {r : Fin n}
    (h : w.role r = .null ∨ ∃ e, w.role r = .request e) :
    ∃ t, s.freeRequest r (s.var r) = some t ∧ Inv t (w.give r .null) A H ∧ (∀ v, v ≠ r → t.var v = s.var v) ∧
      (s.var r = none ∨ s.pending r) := by
  have hg := I.good r
  rcases h with h | ⟨e, h⟩
  · rw [h] at hg
    have hg : s.var r = none := hg
    refine ⟨s.set r none, by rw [hg]; rfl, ?_, fun v hv => by simp [State.set, hv], Or.inl hg⟩
    exact I.look (by rw [h]; exact id) id rfl
  · rw [h] at hg
    obtain ⟨a, b, k, h1, h2, h3, h4⟩ := hg
    refine ⟨(s.del a).set r none, by rw [h1]; simp only [State.freeRequest, h2], ?_, fun v hv => by
      simp [State.set, State.del, hv], Or.inr ?_⟩
    · refine I.lose (by rw [h]; trivial) h1 ?_
      intro v' h5
      obtain ⟨k', hk'⟩ := I.exch v' r h5
      rw [h] at hk'
      cases hk'
    · simp only [State.pending, State.deref, h1, Option.bind_some, h2, h4]

theorem freeAll (rs : List (Fin n)) : ∀ {s : State n} {w A H}, Inv s w A H → rs.Nodup →
    (∀ r ∈ rs, w.role r = .null ∨ ∃ e, w.role r = .request e) →
    ∃ t, s.freeRequests (rs.map fun r => (r, s.var r)) = some t ∧
      Inv t { w with role := fun v => if v ∈ rs then .null else w.role v } A H := by
  induction rs with
  | nil =>
    intro s w A H I _ _
    exact ⟨s, rfl, by simpa using I⟩
  | cons r rs ih =>
    intro s w A H I hn h
    rw [List.nodup_cons] at hn
    obtain ⟨t, h1, h2, h3, _⟩ := free I (h r List.mem_cons_self)
    have hne : ∀ v ∈ rs, v ≠ r := by
      rintro v hv rfl
      exact hn.1 hv
    obtain ⟨t', h4, h5⟩ := ih h2 hn.2 (by
      intro v hv
      simp only [Roles.give, Function.update_apply, hne v hv, if_false]
      exact h v (List.mem_cons_of_mem _ hv))
    refine ⟨t', ?_, ?_⟩
    · have : (rs.map fun v => (v, s.var v)) = rs.map fun v => (v, t.var v) := by
        refine List.map_congr_left fun v hv => ?_
        rw [h3 v (hne v hv)]
      simp only [List.map_cons, State.freeRequests, h1, Option.bind_some]
      rw [this]
      exact h4
    · have : ({ w.give r .null with
          role := fun v => if v ∈ rs then .null else (w.give r .null).role v } : Roles n) =
          { w with role := fun v => if v ∈ r :: rs then .null else w.role v } := by
        simp only [Roles.give, Function.update_apply, List.mem_cons]
        congr 1
        funext v
        by_cases h6 : v = r <;> by_cases h7 : v ∈ rs <;> simp [h6, h7]
      rw [← this]
      exact h5

theorem Safe.step {s : State n} {w w' : Roles n} {c : Call n} (S : Safe s w) (h : Does w c w') :
    ∃ t, step s c = some t ∧ Safe t w' := by
  obtain ⟨A, I⟩ := S
  cases h with
  | @createParams p hp =>
    refine ⟨_, rfl, (I.gain hp (r := .params) trivial ⟨_, rfl, by simp [State.put, State.set]⟩
      (fun e h => by cases h)).safe fun k _ => ?_⟩
    exact (holders_give_none w p _ k (holds_idle hp k) (holds_params k)).symm
  | @destroyParams p hp =>
    obtain ⟨t, h1, h2⟩ := plain I (Or.inl ⟨hp, rfl⟩)
    refine ⟨t, h1, h2.safe fun k _ => ?_⟩
    exact (holders_give_none w p _ k (by rw [hp]; exact holds_params k) (holds_null k)).symm
  | @createContext x p hx hp =>
    obtain ⟨t, h1, h2⟩ := plain I (Or.inl ⟨hp, rfl⟩)
    have hxp : x ≠ p := by
      rintro rfl
      exact hx (by rw [hp]; trivial)
    have hx' : ¬((w.give p .null).role x).Owns := by
      simpa [Roles.give, hxp] using hx
    refine ⟨(t.put .context).set x (some t.next), by simp only [CApi.step, h1, Option.map_some, if_true], ?_⟩
    refine (h2.gain hx' (r := .context) trivial ⟨_, rfl, by simp [State.put, State.set]⟩
      (fun e h => by cases h)).safe fun k _ => ?_
    rw [holders_give_none _ x _ k (holds_idle hx' k) (holds_context k)]
    exact (holders_give_none w p _ k (by rw [hp]; exact holds_params k) (holds_null k)).symm
  | @failContext x p hx hp =>
    obtain ⟨t, h1, h2⟩ := plain I (Or.inl ⟨hp, rfl⟩)
    have hxp : x ≠ p := by
      rintro rfl
      exact hx (by rw [hp]; trivial)
    have hx' : ¬((w.give p .null).role x).Owns := by
      simpa [Roles.give, hxp] using hx
    refine ⟨t.set x none, by simp [CApi.step, h1], ?_⟩
    refine (h2.look hx' (r := .null) id rfl).safe fun k _ => ?_
    rw [holders_give_none _ x _ k (holds_idle hx' k) (holds_null k)]
    exact (holders_give_none w p _ k (by rw [hp]; exact holds_params k) (holds_null k)).symm
  | @destroyContext x hx =>
    obtain ⟨t, h1, h2⟩ := plain I (Or.inr ⟨hx, rfl⟩)
    refine ⟨t, h1, h2.safe fun k _ => ?_⟩
    exact (holders_give_none w x _ k (by rw [hx]; exact holds_context k) (holds_null k)).symm
  | @shareContext x h hx hh =>
    obtain ⟨t, h1, h2⟩ := I.share hx hh
    refine ⟨t, h1, h2.safe fun k hk => ?_⟩
    have hxh : h ≠ x := by
      rintro rfl
      exact hh (by rw [hx]; trivial)
    show _ = holders ((w.give x (.view w.count)).give h (.shared w.count)) k
    have e1 := holders_give (w.give x (.view w.count)) h (.shared w.count) k
    have e2 : ¬((w.give x (.view w.count)).role h).Holds k := by
      simpa [Roles.give, hxh] using holds_idle hh k
    rw [if_neg e2, holders_give_none w x _ k (by rw [hx]; exact holds_context k) (holds_view _ k)] at e1
    simp only [holds_shared] at e1
    by_cases hkc : k = w.count
    · subst hkc
      rw [I.unheld (le_refl _)] at e1
      simp only [if_true] at e1
      rw [Function.update_self]
      omega
    · rw [Function.update_of_ne hkc]
      rw [if_neg hkc] at e1
      omega
  | @resetShared h k hk =>
    have hg := I.good h
    rw [hk] at hg
    obtain ⟨h0, a, h1, h2⟩ := hg
    have hpos : holders w k ≠ 0 := (holders_pos w k).2 ⟨h, Or.inl hk⟩
    obtain ⟨t, h3, h4, h5, h6, h7⟩ := I.drop h0 hpos
    refine ⟨(t.del a).set h none, by simp only [CApi.step, h1, h2, h3, Option.map_some], ?_⟩
    refine (h7.lose (by rw [hk]; trivial) (by rw [h5]; exact h1) ?_).safe fun l _ => ?_
    · intro v' h8
      obtain ⟨k', hk'⟩ := I.exch v' h h8
      rw [hk] at hk'
      cases hk'
    · have := holders_give w h .null l
      rw [hk] at this
      simp only [holds_shared, if_neg (holds_null l)] at this
      by_cases hlk : l = k
      · subst hlk
        rw [Function.update_self]
        simp only [if_true] at this
        omega
      · rw [Function.update_of_ne hlk]
        rw [if_neg hlk] at this
        omega
  | @fromShared h x k hk hx =>
    have hg := I.good h
    rw [hk] at hg
    obtain ⟨h0, a, h1, h2⟩ := hg
    refine ⟨s.set x (some (A k)), by simp only [CApi.step, State.deref, h1, Option.bind_some, h2], ?_⟩
    refine (I.look hx (r := .view k) id ⟨h0, rfl⟩).safe fun l _ => ?_
    exact (holders_give_none w x _ l (holds_idle hx l) (holds_view k l)).symm
  | @useOwn x hx =>
    have hg := I.good x
    rw [hx] at hg
    obtain ⟨a, h1, h2⟩ := hg
    exact ⟨s, by simp only [CApi.step, State.deref, h1, Option.bind_some, h2], A, I⟩
  | @useView x k v hx hv =>
    have hg := I.good x
    rw [hx] at hg
    obtain ⟨h0, h1⟩ := hg
    have h2 := I.shared k h0
    rw [if_neg ((holders_pos w k).2 ⟨v, hv⟩)] at h2
    exact ⟨s, by simp only [CApi.step, State.deref, h1, Option.bind_some, h2], A, I⟩
  | @create opt u h p k hk hu hp =>
    have hg := I.good h
    rw [hk] at hg
    obtain ⟨h0, a, h1, h2⟩ := hg
    have hpos : holders w k ≠ 0 := (holders_pos w k).2 ⟨h, Or.inl hk⟩
    obtain ⟨t, h3, h4, h5, _, h6, h7⟩ := I.copy h0 hpos
    have hup : p ≠ u := by
      rintro rfl
      exact hu (by rw [hp]; trivial)
    have h8 := h7.gain hu (r := .user k) (o := .user (A k)) trivial
      ⟨h0, _, rfl, by simp [State.put, State.set]⟩ (fun e h => by cases h)
    obtain ⟨t', h9, h10⟩ := plain h8 (v := p) (o := .params)
      (Or.inl ⟨by simpa [Roles.give, hup] using hp, rfl⟩)
    have hvp : s.var p ≠ none := by
      have hg := I.good p
      rw [hp] at hg
      obtain ⟨b, h11, _⟩ := hg
      simp [h11]
    refine ⟨t', ?_, h10.safe fun l _ => ?_⟩
    · simp only [CApi.step, State.deref, h1, Option.bind_some, h2, h3, hvp, decide_false, Bool.and_false]
      exact h9
    · rw [holders_give_none _ p _ l (by simpa [Roles.give, hup, hp] using holds_params l) (holds_null l)]
      have := holders_give w u (.user k) l
      rw [if_neg (holds_idle hu l)] at this
      simp only [holds_user] at this
      by_cases hlk : l = k
      · subst hlk
        rw [Function.update_self]
        simp only [if_true] at this
        omega
      · rw [Function.update_of_ne hlk]
        rw [if_neg hlk] at this
        omega
  | @createDefault u h p k hk hu hp =>
    have hg := I.good h
    rw [hk] at hg
    obtain ⟨h0, a, h1, h2⟩ := hg
    have hpos : holders w k ≠ 0 := (holders_pos w k).2 ⟨h, Or.inl hk⟩
    obtain ⟨t, h3, h4, h5, _, h6, h7⟩ := I.copy h0 hpos
    have h8 := h7.gain hu (r := .user k) (o := .user (A k)) trivial
      ⟨h0, _, rfl, by simp [State.put, State.set]⟩ (fun e h => by cases h)
    have hvp : s.var p = none := by
      have hg := I.good p
      rw [hp] at hg
      exact hg
    refine ⟨_, ?_, h8.safe fun l _ => ?_⟩
    · simp only [CApi.step, State.deref, h1, Option.bind_some, h2, h3, hvp, decide_true, Bool.and_true, if_true]
    · have := holders_give w u (.user k) l
      rw [if_neg (holds_idle hu l)] at this
      simp only [holds_user] at this
      by_cases hlk : l = k
      · subst hlk
        rw [Function.update_self]
        simp only [if_true] at this
        omega
      · rw [Function.update_of_ne hlk]
        rw [if_neg hlk] at this
        omega
  | @destroy u k hk hq =>
    have hg := I.good u
    rw [hk] at hg
    obtain ⟨h0, a, h1, h2⟩ := hg
    have hpos : holders w k ≠ 0 := (holders_pos w k).2 ⟨u, Or.inr hk⟩
    obtain ⟨t, h3, h4, h5, h6, h7⟩ := I.drop h0 hpos
    refine ⟨(t.del a).set u none, by simp only [CApi.step, h1, h2, h3, Option.map_some], ?_⟩
    refine (h7.lose (by rw [hk]; trivial) (by rw [h5]; exact h1) hq).safe fun l _ => ?_
    have := holders_give w u .null l
    rw [hk] at this
    simp only [holds_user, if_neg (holds_null l)] at this
    by_cases hlk : l = k
    · subst hlk
      rw [Function.update_self]
      simp only [if_true] at this
      omega
    · rw [Function.update_of_ne hlk]
      rw [if_neg hlk] at this
      omega
  | @contextOf u x k hk hx =>
    have hg := I.good u
    rw [hk] at hg
    obtain ⟨h0, a, h1, h2⟩ := hg
    refine ⟨s.set x (some (A k)), by simp only [CApi.step, State.deref, h1, Option.bind_some, h2], ?_⟩
    refine (I.look hx (r := .view k) id ⟨h0, rfl⟩).safe fun l _ => ?_
    exact (holders_give_none w x _ l (holds_idle hx l) (holds_view k l)).symm
  | @sharedOf u h k hk hh =>
    have hg := I.good u
    rw [hk] at hg
    obtain ⟨h0, a, h1, h2⟩ := hg
    have hpos : holders w k ≠ 0 := (holders_pos w k).2 ⟨u, Or.inr hk⟩
    obtain ⟨t, h3, h4, h5, _, h6, h7⟩ := I.copy h0 hpos
    have h8 := h7.gain hh (r := .shared k) (o := .ref (A k)) trivial
      ⟨h0, _, rfl, by simp [State.put, State.set]⟩ (fun e h => by cases h)
    refine ⟨_, by simp only [CApi.step, State.deref, h1, Option.bind_some, h2, h3, Option.map_some],
      h8.safe fun l _ => ?_⟩
    have := holders_give w h (.shared k) l
    rw [if_neg (holds_idle hh l)] at this
    simp only [holds_shared] at this
    by_cases hlk : l = k
    · subst hlk
      rw [Function.update_self]
      simp only [if_true] at this
      omega
    · rw [Function.update_of_ne hlk]
      rw [if_neg hlk] at this
      omega
  | @begin e r k hk hr =>
    have hg := I.good e
    rw [hk] at hg
    obtain ⟨h0, a, h1, h2⟩ := hg
    have her : e ≠ r := by
      rintro rfl
      exact hr (by rw [hk]; trivial)
    have hlt := I.lt h2
    refine ⟨(s.put (.request a)).set r (some s.next), by simp only [CApi.step, h1, h2], ?_⟩
    refine (I.gain hr (r := .request e) (o := .request a) trivial ?_ ?_).safe fun l _ => ?_
    · refine ⟨_, a, A k, rfl, by simp [State.put, State.set], by simp [State.put, State.set, her, h1], ?_⟩
      simp only [State.put, State.set, Function.update_apply]
      rw [if_neg (by omega)]
      exact h2
    · intro e' h3
      cases h3
      exact ⟨k, hk⟩
    · exact (holders_give_none w r _ l (holds_idle hr l) (holds_request e l)).symm
  | @wait r hr =>
    obtain ⟨t, h1, h2, _, h3⟩ := free I hr
    have hS : Safe t (w.give r .null) := h2.safe fun l _ =>
      (holders_give_none w r _ l (by rcases hr with h | ⟨e, h⟩ <;> rw [h]; exacts [holds_null l, holds_request e l])
        (holds_null l)).symm
    by_cases hv : s.var r = none
    · refine ⟨s, by simp only [CApi.step, hv, if_true], ?_⟩
      rw [hv] at h1
      have : s = t := by
        have h1 : some (s.set r none) = some t := h1
        cases h1
        unfold State.set
        rw [← hv, Function.update_eq_self]
      rw [this]
      exact hS
    · refine ⟨t, ?_, hS⟩
      have h3 := h3.resolve_left hv
      simp only [CApi.step, hv, if_false, h3, if_true]
      exact h1
  | @waitAll rs hn hr =>
    obtain ⟨t, h1, h2⟩ := freeAll rs I hn hr
    refine ⟨t, ?_, h2.safe fun l _ => ?_⟩
    · simp only [CApi.step]
      rw [if_pos]
      · exact h1
      · rw [List.all_eq_true]
        intro r hm
        obtain ⟨_, _, _, _, h3⟩ := free I (hr r hm)
        simpa using h3
    · unfold holders
      congr 1
      ext v
      simp only [Finset.mem_filter, Finset.mem_univ, true_and]
      by_cases hm : v ∈ rs
      · simp only [hm, if_true, holds_null l, iff_false]
        rcases hr v hm with h | ⟨e, h⟩ <;> rw [h]
        exacts [holds_null l, holds_request e l]
      · simp only [hm, if_false]
  | @waitAnyNone rs hr =>
    refine ⟨s, ?_, A, I⟩
    simp only [CApi.step]
    rw [if_pos]
    rw [List.all_eq_true]
    intro r hm
    obtain ⟨_, _, _, _, h3⟩ := free I (Or.inl (hr r hm))
    simpa using h3
  | @waitAny rs i r e hr hi he =>
    obtain ⟨t, h1, h2, _, h3⟩ := free I (Or.inr ⟨e, he⟩)
    refine ⟨t, ?_, h2.safe fun l _ => ?_⟩
    · simp only [CApi.step]
      rw [if_pos]
      · rw [hi]
        exact h1
      · rw [List.all_eq_true]
        intro r hm
        obtain ⟨_, _, _, _, h3⟩ := free I (hr r hm)
        simpa using h3
    · exact (holders_give_none w r _ l (by rw [he]; exact holds_request e l) (holds_null l)).symm

theorem safe_start : Safe (start n) (nothing n) := by
  refine ⟨id, fun v => rfl, ?_, ?_, ?_, ?_, ?_, ?_, fun _ _ => rfl, List.nodup_nil, ?_⟩
  · intro v e h
    cases h
  · intro v v' a h
    exact h.elim
  · intro a o h
    cases h
  · intro k h
    exact absurd h (Nat.not_lt_zero k)
  · intro k h
    exact absurd h (Nat.not_lt_zero k)
  · intro k h
    exact absurd h (Nat.not_lt_zero k)
  · intro a
    simp [start]

theorem Safe.run {cs : List (Call n)} {w w' : Roles n} (h : Follows cs w w') :
    ∀ {s : State n}, Safe s w → ∃ t, run cs s = some t ∧ Safe t w' := by
  induction h with
  | nil => exact fun S => ⟨_, rfl, S⟩
  | cons hd _ ih =>
    intro s S
    obtain ⟨t, h1, h2⟩ := S.step hd
    obtain ⟨t', h3, h4⟩ := ih h2
    exact ⟨t', by simp only [CApi.run, h1, Option.bind_some, h3], h4⟩

/-! ### Theorems -/

/-- **C105**: calls that follow the rules never use or delete memory that is not allocated, or as something it is not,
and delete nothing twice.  Afterwards every variable that owns something points to an allocated object of the right
kind, no two of them to the same, and a variable that should be null is. -/
theorem C105_safe {cs : List (Call n)} {w : Roles n} (h : Follows cs (nothing n) w) :
    ∃ s, run cs (start n) = some s ∧ s.freed.Nodup ∧ (∀ a ∈ s.freed, s.cells a = none) ∧
      (∀ v, w.role v = .null → s.var v = none) ∧
      (∀ v, w.role v = .params → s.deref v = some .params) ∧
      (∀ v, w.role v = .context → s.deref v = some .context) ∧
      (∀ v k, w.role v = .shared k → ∃ c, s.deref v = some (.ref c)) ∧
      (∀ v k, w.role v = .user k → ∃ c, s.deref v = some (.user c)) ∧
      (∀ v e, w.role v = .request e → ∃ b, s.deref v = some (.request b) ∧ s.var e = some b) ∧
      (∀ v v', (w.role v).Owns → (w.role v').Owns → s.var v = s.var v' → v = v') := by
  obtain ⟨s, h1, A, I⟩ := Safe.run h safe_start
  refine ⟨s, h1, I.once, fun a ha => ((I.freed a).1 ha).2, ?_, ?_, ?_, ?_, ?_, ?_, ?_⟩
  · intro v hv
    have := I.good v
    rw [hv] at this
    exact this
  · intro v hv
    have := I.good v
    rw [hv] at this
    obtain ⟨a, h2, h3⟩ := this
    simp [State.deref, h2, h3]
  · intro v hv
    have := I.good v
    rw [hv] at this
    obtain ⟨a, h2, h3⟩ := this
    simp [State.deref, h2, h3]
  · intro v k hv
    have := I.good v
    rw [hv] at this
    obtain ⟨_, a, h2, h3⟩ := this
    exact ⟨A k, by simp [State.deref, h2, h3]⟩
  · intro v k hv
    have := I.good v
    rw [hv] at this
    obtain ⟨_, a, h2, h3⟩ := this
    exact ⟨A k, by simp [State.deref, h2, h3]⟩
  · intro v e hv
    have := I.good v
    rw [hv] at this
    obtain ⟨a, b, k, h2, h3, h4, _⟩ := this
    exact ⟨b, by simp [State.deref, h2, h3], h4⟩
  · intro v v' hv hv' hvv
    obtain ⟨a, _, h2, _⟩ := I.owned hv
    exact I.uniq v v' a hv hv' h2 (hvv ▸ h2)

/-- **C105**: everything the calls allocated is deleted when no variable owns anything any more. -/
theorem C105_no_leak {cs : List (Call n)} {w : Roles n} (h : Follows cs (nothing n) w)
    (he : ∀ v, ¬(w.role v).Owns) :
    ∃ s, run cs (start n) = some s ∧ (∀ a, s.cells a = none) ∧ ∀ a, s.freed.count a = if a < s.next then 1 else 0 := by
  obtain ⟨s, h1, A, I⟩ := Safe.run h safe_start
  have hz : ∀ a, s.cells a = none := by
    intro a
    by_contra hc
    obtain ⟨o, ho⟩ := Option.ne_none_iff_exists'.1 hc
    rcases I.cell a o ho with ⟨v, h2, _⟩ | ⟨k, hk, rfl⟩
    · exact he v h2
    · have := I.shared k hk
      rw [if_neg] at this
      · obtain ⟨v, hv⟩ := (holders_pos w k).1 (by
          intro h0
          rw [I.shared k hk, if_pos h0] at ho
          cases ho)
        exact he v (I.holds hv).2
      · intro h0
        rw [I.shared k hk, if_pos h0] at ho
        cases ho
  refine ⟨s, h1, hz, fun a => ?_⟩
  rw [List.Nodup.count I.once]
  simp only [I.freed a, hz a, and_true]

/-- **C105**: a shared context exists exactly as long as a shared pointer of the caller or a domain, assembler or
exchanger refers to it, and all of them and the variables set by `ovkShareContext` and `ovkGet…Context` refer to the
same one. -/
theorem C105_context {cs : List (Call n)} {w : Roles n} (h : Follows cs (nothing n) w) :
    ∃ s, run cs (start n) = some s ∧ ∃ A : Nat → Nat, (∀ k < w.count, ∀ l < w.count, A k = A l → k = l) ∧
      (∀ v k, w.role v = .view k → s.var v = some (A k)) ∧
      (∀ v k, w.role v = .shared k → s.deref v = some (.ref (A k))) ∧
      (∀ v k, w.role v = .user k → s.deref v = some (.user (A k))) ∧
      (∀ k < w.count, (∃ r, s.cells (A k) = some (.shared r)) ↔ ∃ v, (w.role v).Holds k) ∧
      (∀ k < w.count, A k ∈ s.freed ↔ ∀ v, ¬(w.role v).Holds k) := by
  obtain ⟨s, h1, A, I⟩ := Safe.run h safe_start
  refine ⟨s, h1, A, I.inj, ?_, ?_, ?_, ?_, ?_⟩
  · intro v k hv
    have := I.good v
    rw [hv] at this
    exact this.2
  · intro v k hv
    have := I.good v
    rw [hv] at this
    obtain ⟨_, a, h2, h3⟩ := this
    simp [State.deref, h2, h3]
  · intro v k hv
    have := I.good v
    rw [hv] at this
    obtain ⟨_, a, h2, h3⟩ := this
    simp [State.deref, h2, h3]
  · intro k hk
    rw [← holders_pos, I.shared k hk]
    split
    · simp [*]
    · simp [*]
  · intro k hk
    have := holders_pos w k
    rw [I.freed, I.shared k hk]
    have h2 := I.addr k hk
    by_cases h0 : holders w k = 0
    · simp only [h0, ne_eq, not_true_eq_false, false_iff, not_exists] at this
      simp [h0, h2, this]
    · have h3 := this.1 h0
      simp only [h0, if_false, reduceCtorEq, and_false, false_iff, not_forall, not_not]
      exact h3

/-- A session: a context is shared, a domain and an exchanger made, the shared pointer given back, two requests
waited for, the context used through the variable that `ovkShareContext` left, a shared pointer got from the domain
and everything destroyed. -/
def session : List (Call 7) :=
  [.createParams 0, .createContext 1 0 true, .useContext 1, .shareContext 1 2, .createParams 0, .create false 3 2 0,
   .create true 4 2 0, .resetShared 2, .begin 4 5, .begin 4 6, .waitAny [5, 6] (some 1), .waitAll [5, 6], .wait 5,
   .useContext 1, .sharedOf 3 2, .destroy 3, .destroy 4, .resetShared 2]

/-- The rules are followed by the session. -/
example : ∃ w, Follows session (nothing 7) w ∧ ∀ v, ¬(w.role v).Owns := by
  have owns : ∀ r : Role 7, (r.Owns ↔ (match r with | .null => false | .view _ => false | _ => true) = true) := by
    intro r
    cases r <;> simp [Role.Owns]
  refine ⟨_, .cons (.createParams ?_) <| .cons (.createContext ?_ ?_) <| .cons (.useOwn ?_) <|
    .cons (.shareContext ?_ ?_) <| .cons (.createParams ?_) <| .cons (.create (k := 0) ?_ ?_ ?_) <|
    .cons (.createDefault (k := 0) ?_ ?_ ?_) <| .cons (.resetShared (k := 0) ?_) <|
    .cons (.begin (k := 0) ?_ ?_) <| .cons (.begin (k := 0) ?_ ?_) <|
    .cons (.waitAny (r := 6) (e := 4) ?_ rfl ?_) <| .cons (.waitAll ?_ ?_) <| .cons (.wait ?_) <|
    .cons (.useView (k := 0) (v := 3) ?_ ?_) <| .cons (.sharedOf (k := 0) ?_ ?_) <|
    .cons (.destroy (k := 0) ?_ ?_) <| .cons (.destroy (k := 0) ?_ ?_) <|
    .cons (.resetShared (k := 0) ?_) .nil, ?_⟩
  all_goals first
    | rfl
    | (rw [owns]; decide)
    | (exact Or.inl rfl)
    | (exact Or.inr rfl)
    | decide
    | skip
  · intro v
    rw [owns]
    revert v
    decide

/-- **C105**: the variable that `ovkShareContext`, `ovkGetContextFromShared` or `ovkGet…Context` filled is not null,
so that the check of `ovkDestroyContext` accepts it, but destroying it is undefined: the context was not made with
`new`. -/
theorem C105_destroy_view {cs : List (Call n)} {w : Roles n} (h : Follows cs (nothing n) w) {x : Fin n} {k : Nat}
    (hx : w.role x = .view k) :
    ∃ s, run cs (start n) = some s ∧ s.var x ≠ none ∧ step s (.destroyContext x) = none := by
  obtain ⟨s, h1, A, I⟩ := Safe.run h safe_start
  have hg := I.good x
  rw [hx] at hg
  obtain ⟨h0, h2⟩ := hg
  refine ⟨s, h1, by simp [h2], ?_⟩
  simp only [step, State.destroyPlain, h2]
  rw [if_neg]
  rw [I.shared k h0]
  split <;> simp

/-- **C105**: nothing stops the caller from destroying an exchanger whose requests are pending; waiting for them then
is undefined. -/
theorem C105_destroy_early {cs : List (Call n)} {w : Roles n} (h : Follows cs (nothing n) w) {r e : Fin n}
    (hr : w.role r = .request e) :
    ∃ s t, run cs (start n) = some s ∧ step s (.destroy e) = some t ∧ t.var r ≠ none ∧ step t (.wait r) = none := by
  obtain ⟨s, h1, A, I⟩ := Safe.run h safe_start
  obtain ⟨k, hk⟩ := I.exch r e hr
  have hg := I.good e
  rw [hk] at hg
  obtain ⟨h0, a, h2, h3⟩ := hg
  have hg := I.good r
  rw [hr] at hg
  obtain ⟨a', b, _, h4, h5, h6, _⟩ := hg
  rw [h2] at h6
  cases h6
  have hpos : holders w k ≠ 0 := (holders_pos w k).2 ⟨e, Or.inr hk⟩
  obtain ⟨t, h7, _, h8, h9, I'⟩ := I.drop h0 hpos
  have hre : r ≠ e := by
    rintro rfl
    rw [hr] at hk
    cases hk
  have hne : a' ≠ a := by
    rintro rfl
    rw [h5] at h3
    cases h3
  have hA' : a' ≠ A k := fun h => I.apart (by rw [hr]; trivial) h4 h0 h.symm
  refine ⟨s, (t.del a).set e none, h1, by simp only [step, h2, h3, h7, Option.map_some], ?_, ?_⟩
  · simp [State.set, State.del, hre, h8, h4]
  · have hv : ((t.del a).set e none).var r = some a' := by simp [State.set, State.del, hre, h8, h4]
    have hc : ((t.del a).set e none).cells a' = some (.request a) := by
      simp [State.set, State.del, hne, h9 a' hA', h5]
    have hz : ((t.del a).set e none).cells a = none := by simp [State.set, State.del]
    simp [step, hv, State.pending, State.deref, hc, hz]

/-- **C105**: a call that overwrites a variable that owns something leaks it: the object stays allocated and no
variable points to it. -/
theorem C105_overwrite {cs : List (Call n)} {w : Roles n} (h : Follows cs (nothing n) w) {v : Fin n}
    (hv : (w.role v).Owns) :
    ∃ s t a, run cs (start n) = some s ∧ step s (.createParams v) = some t ∧ s.var v = some a ∧ t.cells a ≠ none ∧
      ∀ v', t.var v' ≠ some a := by
  obtain ⟨s, h1, A, I⟩ := Safe.run h safe_start
  obtain ⟨a, o, h2, h3, _⟩ := I.owned hv
  have hlt := I.lt h3
  refine ⟨s, _, a, h1, rfl, h2, ?_, ?_⟩
  · simp only [State.put, State.set, Function.update_apply]
    rw [if_neg (by omega), h3]
    simp
  · intro v' h4
    simp only [State.put, State.set, Function.update_apply] at h4
    split at h4
    · cases h4
      omega
    · rename_i hvv
      by_cases ho : (w.role v').Owns
      · exact hvv (I.uniq v' v a ho hv h4 h2)
      · have hg := I.good v'
        cases hr : w.role v' with
        | null =>
          rw [hr] at hg
          rw [show s.var v' = none from hg] at h4
          cases h4
        | view k =>
          rw [hr] at hg
          obtain ⟨h0, h5⟩ := hg
          rw [h4] at h5
          cases h5
          exact I.apart hv h2 h0 rfl
        | _ =>
          rw [hr] at ho
          exact ho trivial

/-- The three errors happen in the session: after `ovkShareContext` variable 1 is a view, and a request is pending
after `ovkExchangerSend`. -/
example : ((run (session.take 4) (start 7)).bind fun s => step s (.destroyContext 1)).isNone ∧
    (run (session.take 4) (start 7)).isSome ∧
    ((run (session.take 9 ++ [.destroy 4]) (start 7)).bind fun s => step s (.wait 5)).isNone ∧
    (run (session.take 9 ++ [.destroy 4]) (start 7)).isSome := by
  decide +kernel

end Ovk.CApi
