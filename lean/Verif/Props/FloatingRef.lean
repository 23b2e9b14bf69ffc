/-
Property C79: references that follow objects when these are moved.
-/
import Verif.Model.FloatingRef
import Mathlib.Order.Basic
import Mathlib.Order.Lattice
import Mathlib.Tactic.Common

namespace Ovk.Float

namespace Spec

/-- Where the object whose contents are at `a` has its contents after an event; `none` if they are gone. -/
def followStep (a : Int) : Event → Option Int
  | .moveConstruct x y => if y = a then some x else some a
  | .moveAssign x y => if y = a then some x else if x = a then none else some a
  | .destroy x => if x = a then none else some a
  | _ => some a

/-- Where they are after a sequence of events. -/
def follow : Int → List Event → Option Int
  | a, [] => some a
  | a, e :: es => (followStep a e).bind fun b => follow b es

/-- What there is at each address: nothing, an object, or one that was moved from. -/
inductive Status | nothing | whole | hollow
  deriving DecidableEq

def status : List Event → Int → Status
  | [], _ => .nothing
  | e :: es, a =>
    -- the history is given with the latest event first
    match e with
    | .construct x => if a = x then .whole else status es a
    | .copyConstruct x _ => if a = x then .whole else status es a
    | .moveConstruct x y => if a = x then .whole else if a = y then .hollow else status es a
    | .moveAssign x y => if a = x then .whole else if a = y then .hollow else status es a
    | .destroy x => if a = x then .nothing else status es a
    | _ => status es a

/-- The event concerns existing objects and makes new ones where there are none. -/
def Legal (st : Int → Status) : Event → Prop
  | .construct a => st a = .nothing
  | .copyConstruct a b => st a = .nothing ∧ st b ≠ .nothing
  | .moveConstruct a b => st a = .nothing ∧ st b ≠ .nothing
  | .copyAssign a b => st a ≠ .nothing ∧ st b ≠ .nothing
  | .moveAssign a b => st a ≠ .nothing ∧ st b ≠ .nothing
  | .destroy a => st a ≠ .nothing
  | .generate a _ => st a ≠ .nothing

/-- The event does not move from or refer to what was moved from. -/
def Whole (st : Int → Status) : Event → Prop
  | .moveConstruct _ b => st b ≠ .hollow
  | .moveAssign _ b => st b ≠ .hollow
  | .generate a _ => st a ≠ .hollow
  | _ => True

end Spec

open Spec

structure Inv (x : State) : Prop where
  fwd : ∀ a l, x.gen a = some (some l) → x.cell l = some a
  bwd : ∀ l a, x.cell l = some a → x.gen a = some (some l)
  fresh : ∀ l, x.next ≤ l → x.cell l = none
  refs : ∀ r ∈ x.refs, r.loc < x.next

theorem inv_initial : Inv initial := by constructor <;> simp [initial]

theorem store_some {z y : State} {a : Int} {k : Nat} (h : store z a (some k) = some y) :
    y = setCell z k (some a) := by
  simp only [store] at h
  by_cases hc : (z.cell k).isSome = true
  · rw [if_pos hc] at h; exact (Option.some.inj h).symm
  · rw [if_neg hc] at h; simp at h

theorem next_mono {x y : State} {e : Event} (he : step x e = some y) : x.next ≤ y.next := by
  have hstore : ∀ (z w : State) (a : Int) (l : Option Nat), store z a l = some w → w.next = z.next := by
    intro z w a l h
    cases l with
    | none => simp [store] at h
    | some l => rw [store_some h]; rfl
  have hfree : ∀ (z : State) (l : Option Nat), (free z l).next = z.next := by
    intro z l; cases l <;> rfl
  cases e with
  | construct a =>
    simp only [step] at he; split at he
    · rw [← Option.some.inj he]; simp [alloc]
    · simp at he
  | copyConstruct a b =>
    simp only [step] at he; split at he
    · rw [← Option.some.inj he]; simp [alloc]
    · simp at he
  | moveConstruct a b =>
    simp only [step] at he; split at he
    · obtain ⟨l, _, h⟩ := Option.bind_eq_some_iff.1 he
      rw [hstore _ _ _ _ h]; simp [setGen]
    · simp at he
  | copyAssign a b =>
    simp only [step] at he; split at he
    · rw [← Option.some.inj he]
    · simp at he
  | moveAssign a b =>
    simp only [step] at he
    obtain ⟨l, _, h⟩ := Option.bind_eq_some_iff.1 he
    obtain ⟨old, _, h⟩ := Option.bind_eq_some_iff.1 h
    rw [hstore _ _ _ _ h, hfree]; simp [setGen]
  | destroy a =>
    simp only [step] at he
    obtain ⟨l, _, h⟩ := Option.map_eq_some_iff.1 he
    rw [← h]; simp [setGen, hfree]
  | generate a off =>
    simp only [step] at he
    obtain ⟨l, _, h⟩ := Option.bind_eq_some_iff.1 he
    obtain ⟨l', _, h⟩ := Option.bind_eq_some_iff.1 h
    obtain ⟨v, _, h⟩ := Option.map_eq_some_iff.1 h
    rw [← h]

/-- What a move does to generators and cells. -/
theorem move_spec {x y : State} (h : Inv x) {a b : Int} (hab : a ≠ b ∨ x.gen a = none) {l : Option Nat} {old : Option Nat}
    (hb : x.gen b = some l) (ha : x.gen a = some old ∨ (x.gen a = none ∧ old = none))
    (he : store (free (setGen (setGen x b (some none)) a (some l)) old) a l = some y) :
    ∃ k, l = some k ∧ y.gen = (fun c => if c = a then some (some k) else if c = b then some none else x.gen c) ∧
      y.cell = (fun m => if m = k then some a else if old = some m then none else x.cell m) ∧
      y.next = x.next ∧ y.refs = x.refs ∧ x.cell k = some b ∧ (∀ m, old = some m → m ≠ k ∧ x.cell m = some a) := by
  cases l with
  | none => simp [store] at he
  | some k =>
    have hk := h.fwd b k hb
    have hne : a ≠ b := by
      rcases hab with h1 | h1
      · exact h1
      · intro e; rw [e, hb] at h1; simp at h1
    have hold : ∀ m, old = some m → m ≠ k ∧ x.cell m = some a := by
      intro m hm
      subst hm
      rcases ha with ha | ⟨_, ha⟩
      · have := h.fwd a m ha
        refine ⟨fun e => ?_, this⟩
        subst e; rw [hk] at this
        exact hne (Option.some.inj this).symm
      · simp at ha
    refine ⟨k, rfl, ?_⟩
    cases old with
    | none =>
      rw [store_some he]
      refine ⟨rfl, ?_, rfl, rfl, hk, hold⟩
      funext m; simp [setCell, setGen, free]
    | some m =>
      rw [store_some he]
      refine ⟨rfl, ?_, rfl, rfl, hk, hold⟩
      funext m'; simp only [setCell, setGen, free, Option.some.injEq, eq_comm (a := m)]

theorem alloc_inv {x : State} (h : Inv x) {a : Int} (ha : x.gen a = none) : Inv (alloc x a) := by
  constructor
  · intro c l hc
    simp only [alloc, setCell, setGen] at hc ⊢
    by_cases hca : c = a
    · subst hca
      rw [if_pos rfl] at hc
      simp only [Option.some.injEq] at hc
      rw [if_pos hc.symm]
    · rw [if_neg hca] at hc
      have := h.fwd c l hc
      have hl : l ≠ x.next := by
        intro e; rw [h.fresh l (by omega)] at this; simp at this
      rw [if_neg hl]; exact this
  · intro l c hc
    simp only [alloc, setCell, setGen] at hc ⊢
    by_cases hl : l = x.next
    · rw [if_pos hl] at hc
      simp only [Option.some.injEq] at hc
      rw [if_pos hc.symm, hl]
    · rw [if_neg hl] at hc
      have h1 := h.bwd l c hc
      have hca : c ≠ a := by intro e; rw [e, ha] at h1; simp at h1
      rw [if_neg hca]; exact h1
  · intro l hl
    simp only [alloc, setCell, setGen] at hl ⊢
    rw [if_neg (by omega)]; exact h.fresh l (by omega)
  · intro r hr
    have := h.refs r hr
    simp only [alloc]; omega

theorem move_inv {x y : State} (h : Inv x) {a b : Int} (hab : a ≠ b) {k : Nat} {old : Option Nat}
    (hg : y.gen = (fun c => if c = a then some (some k) else if c = b then some none else x.gen c))
    (hc : y.cell = (fun m => if m = k then some a else if old = some m then none else x.cell m))
    (hn : y.next = x.next) (hr : y.refs = x.refs) (hk : x.cell k = some b)
    (ha : x.gen a = some old ∨ (x.gen a = none ∧ old = none)) : Inv y := by
  have hbk := h.bwd k b hk
  constructor
  · intro c l h1
    rw [hg] at h1; rw [hc]
    dsimp only at h1 ⊢
    by_cases hca : c = a
    · subst hca
      rw [if_pos rfl] at h1
      simp only [Option.some.injEq] at h1
      rw [if_pos h1.symm]
    · rw [if_neg hca] at h1
      by_cases hcb : c = b
      · rw [if_pos hcb] at h1; simp at h1
      · rw [if_neg hcb] at h1
        have h2 := h.fwd c l h1
        have hlk : l ≠ k := by
          intro e; subst e; rw [hk] at h2; exact hcb (Option.some.inj h2).symm
        have hlo : old ≠ some l := by
          intro e
          rcases ha with ha | ⟨_, ha⟩
          · rw [e] at ha
            have h3 := h.fwd a l ha
            rw [h2] at h3; exact hca (Option.some.inj h3)
          · rw [ha] at e; simp at e
        rw [if_neg hlk, if_neg hlo]; exact h2
  · intro l c h1
    rw [hc] at h1; rw [hg]
    dsimp only at h1 ⊢
    by_cases hlk : l = k
    · rw [if_pos hlk] at h1
      simp only [Option.some.injEq] at h1
      rw [if_pos h1.symm, hlk]
    · rw [if_neg hlk] at h1
      by_cases hlo : old = some l
      · rw [if_pos hlo] at h1; simp at h1
      · rw [if_neg hlo] at h1
        have h2 := h.bwd l c h1
        have hca : c ≠ a := by
          intro e; subst e
          rcases ha with ha | ⟨ha, _⟩
          · rw [h2] at ha; exact hlo (Option.some.inj ha).symm
          · rw [h2] at ha; simp at ha
        have hcb : c ≠ b := by
          intro e; subst e; rw [h2] at hbk
          simp only [Option.some.injEq] at hbk; exact hlk hbk
        rw [if_neg hca, if_neg hcb]; exact h2
  · intro l hl
    rw [hn] at hl
    rw [hc]
    dsimp only
    have h1 := h.fresh l hl
    have : l ≠ k := by intro e; subst e; rw [hk] at h1; simp at h1
    rw [if_neg this]
    split_ifs
    · rfl
    · exact h1
  · intro r hr'
    rw [hr] at hr'; rw [hn]
    exact h.refs r hr'

/-- One event: the invariant is kept, a cell in use follows its object, references are only added, and the status is
as it should be. -/
theorem step_spec {x y : State} (h : Inv x) (e : Event) (he : step x e = some y) :
    Inv y ∧ (∀ l, l < x.next → y.cell l = (x.cell l).bind fun a => followStep a e) ∧ x.refs <+: y.refs := by
  cases e with
  | construct a =>
    simp only [step] at he; split at he
    · rename_i ha
      rw [← Option.some.inj he]
      refine ⟨alloc_inv h ha, fun l hl => ?_, List.prefix_refl _⟩
      simp only [alloc, setCell, setGen]
      rw [if_neg (by omega)]
      simp [followStep]
    · simp at he
  | copyConstruct a b =>
    simp only [step] at he; split at he
    · rename_i ha
      rw [← Option.some.inj he]
      refine ⟨alloc_inv h ha.1, fun l hl => ?_, List.prefix_refl _⟩
      simp only [alloc, setCell, setGen]
      rw [if_neg (by omega)]
      simp [followStep]
    · simp at he
  | moveConstruct a b =>
    simp only [step] at he; split at he
    · rename_i ha
      obtain ⟨l, hb, h1⟩ := Option.bind_eq_some_iff.1 he
      obtain ⟨k, rfl, hg, hc, hn, hr, hk, _⟩ := move_spec (old := none) h (.inr ha) hb (.inr ⟨ha, rfl⟩) h1
      have hab : a ≠ b := by intro e; rw [e, hb] at ha; simp at ha
      refine ⟨move_inv h hab hg hc hn hr hk (.inr ⟨ha, rfl⟩), fun m _ => ?_, hr ▸ List.prefix_refl _⟩
      rw [hc]
      dsimp only
      by_cases hm : m = k
      · subst hm; rw [if_pos rfl, hk]; simp [followStep]
      · rw [if_neg hm, if_neg (by simp)]
        cases hx : x.cell m with
        | none => rfl
        | some c =>
          have : c ≠ b := by
            intro e; subst e
            have := h.bwd m c hx
            rw [hb] at this; simp only [Option.some.injEq] at this; exact hm this.symm
          simp [followStep, Ne.symm this]
    · simp at he
  | copyAssign a b =>
    simp only [step] at he; split at he
    · rw [← Option.some.inj he]
      refine ⟨h, fun l _ => ?_, List.prefix_refl _⟩
      simp [followStep]
    · simp at he
  | moveAssign a b =>
    simp only [step] at he
    obtain ⟨l, hb, h1⟩ := Option.bind_eq_some_iff.1 he
    obtain ⟨old, ha, h1⟩ := Option.bind_eq_some_iff.1 h1
    by_cases hab : a = b
    · -- onto itself
      subst hab
      simp only [setGen, if_true, Option.some.injEq] at ha
      subst ha
      cases l with
      | none => simp [store] at h1
      | some k =>
        have hk := h.fwd a k hb
        have hy : y = x := by
          rw [store_some h1]
          obtain ⟨g, c, n, r⟩ := x
          simp only [setCell, setGen, free, State.mk.injEq, and_true]
          constructor
          · funext d
            by_cases hd : d = a
            · subst hd; simpa using hb.symm
            · simp [hd]
          · funext m
            by_cases hm : m = k
            · subst hm; simpa using hk.symm
            · simp [hm]
        rw [hy]
        refine ⟨h, fun m _ => ?_, List.prefix_refl _⟩
        cases hx : x.cell m with
        | none => rfl
        | some d =>
          by_cases hd : a = d
          · simp [followStep, hd]
          · simp [followStep, hd]
    · have ha' : x.gen a = some old := by
        simpa [setGen, hab] using ha
      obtain ⟨k, rfl, hg, hc, hn, hr, hk, hold⟩ := move_spec (old := old) h (.inl hab) hb (.inl ha') h1
      refine ⟨move_inv h hab hg hc hn hr hk (.inl ha'), fun m _ => ?_, hr ▸ List.prefix_refl _⟩
      rw [hc]
      dsimp only
      by_cases hm : m = k
      · subst hm; rw [if_pos rfl, hk]; simp [followStep]
      · rw [if_neg hm]
        by_cases ho : old = some m
        · rw [if_pos ho, (hold m ho).2]
          simp [followStep, Ne.symm hab]
        · rw [if_neg ho]
          cases hx : x.cell m with
          | none => rfl
          | some c =>
            have hcm := h.bwd m c hx
            have h2 : c ≠ b := by
              intro e; subst e
              rw [hb] at hcm; simp only [Option.some.injEq] at hcm; exact hm hcm.symm
            have h3 : c ≠ a := by
              intro e; subst e
              rw [ha'] at hcm; exact ho (Option.some.inj hcm)
            simp [followStep, Ne.symm h2, Ne.symm h3]
  | destroy a =>
    simp only [step] at he
    obtain ⟨l, ha, h1⟩ := Option.map_eq_some_iff.1 he
    rw [← h1]
    have hcell : ∀ m, (setGen (free x l) a none).cell m = if l = some m then none else x.cell m := by
      intro m
      cases l with
      | none => simp [setGen, free]
      | some k => simp only [setGen, free, setCell, Option.some.injEq, eq_comm (a := k)]
    have hgen : ∀ c, (setGen (free x l) a none).gen c = if c = a then none else x.gen c := by
      intro c; cases l <;> rfl
    have hnx : (setGen (free x l) a none).next = x.next := by cases l <;> rfl
    have hrf : (setGen (free x l) a none).refs = x.refs := by cases l <;> rfl
    refine ⟨⟨?_, ?_, ?_, ?_⟩, ?_, hrf ▸ List.prefix_refl _⟩
    · intro c k hc
      rw [hgen] at hc; rw [hcell]
      by_cases hca : c = a
      · rw [if_pos hca] at hc; simp at hc
      · rw [if_neg hca] at hc
        have h2 := h.fwd c k hc
        have : l ≠ some k := by
          intro e; rw [e] at ha
          have := h.fwd a k ha
          rw [h2] at this; exact hca (Option.some.inj this)
        rw [if_neg this]; exact h2
    · intro k c hc
      rw [hcell] at hc; rw [hgen]
      by_cases hl : l = some k
      · rw [if_pos hl] at hc; simp at hc
      · rw [if_neg hl] at hc
        have h2 := h.bwd k c hc
        have : c ≠ a := by
          intro e; subst e; rw [ha] at h2; exact hl (Option.some.inj h2)
        rw [if_neg this]; exact h2
    · intro k hk
      rw [hnx] at hk; rw [hcell]
      split_ifs
      · rfl
      · exact h.fresh k hk
    · intro r hr
      rw [hrf] at hr; rw [hnx]; exact h.refs r hr
    · intro m _
      rw [hcell]
      by_cases hl : l = some m
      · rw [if_pos hl]
        rw [hl] at ha
        rw [h.fwd a m ha]; simp [followStep]
      · rw [if_neg hl]
        cases hx : x.cell m with
        | none => rfl
        | some c =>
          have hcm := h.bwd m c hx
          have : c ≠ a := by
            intro e; subst e; rw [ha] at hcm; exact hl (Option.some.inj hcm)
          simp [followStep, Ne.symm this]
  | generate a off =>
    simp only [step] at he
    obtain ⟨l, ha, h1⟩ := Option.bind_eq_some_iff.1 he
    obtain ⟨k, rfl, h1⟩ := Option.bind_eq_some_iff.1 h1
    obtain ⟨v, hv, h1⟩ := Option.map_eq_some_iff.1 h1
    rw [← h1]
    refine ⟨⟨h.fwd, h.bwd, h.fresh, ?_⟩, fun m _ => ?_, List.prefix_append _ _⟩
    · intro r hr
      simp only [List.mem_append, List.mem_singleton] at hr
      rcases hr with hr | hr
      · exact h.refs r hr
      · subst hr
        dsimp only
        by_contra hc
        rw [h.fresh k (by omega)] at hv; simp at hv
    · simp [followStep]

theorem run_spec : ∀ (es : List Event) (x y : State), Inv x → run x es = some y →
    Inv y ∧ (∀ l, l < x.next → y.cell l = (x.cell l).bind fun a => follow a es) ∧ x.refs <+: y.refs ∧
      x.next ≤ y.next := by
  intro es
  induction es with
  | nil =>
    intro x y h hr
    simp only [run, Option.some.injEq] at hr
    subst hr
    refine ⟨h, fun l _ => ?_, List.prefix_refl _, le_refl _⟩
    simp [follow]
  | cons e es ih =>
    intro x y h hr
    simp only [run, Option.bind_eq_some_iff] at hr
    obtain ⟨z, hz, hr⟩ := hr
    obtain ⟨h1, h2, h3⟩ := step_spec h e hz
    obtain ⟨h4, h5, h6, h7⟩ := ih z y h1 hr
    have hm := next_mono hz
    refine ⟨h4, fun l hl => ?_, h3.trans h6, hm.trans h7⟩
    rw [h5 l (by omega), h2 l hl, Option.bind_assoc]
    rfl

theorem run_append : ∀ (es fs : List Event) (x : State), run x (es ++ fs) = (run x es).bind fun y => run y fs := by
  intro es
  induction es with
  | nil => intro fs x; rfl
  | cons e es ih =>
    intro fs x
    simp only [List.cons_append, run, Option.bind_assoc, ih]

/-- C79: in every history that is defined, a reference denotes its place in the object it was obtained from,
wherever the contents of the object have been moved to, as long as these are not destroyed or overwritten by a move;
after that it is dangling. -/
theorem C79_partial (pre post : List Event) (a off : Int) (x y : State) (hx : run initial pre = some x)
    (hy : run x (.generate a off :: post) = some y) :
    (y.refs[x.refs.length]?).map (deref y) = some ((follow a post).map fun b => b + off) := by
  obtain ⟨hi, -, -, -⟩ := run_spec pre _ _ inv_initial hx
  simp only [run, Option.bind_eq_some_iff] at hy
  obtain ⟨z, hz, hy⟩ := hy
  obtain ⟨hzi, -, -⟩ := step_spec hi _ hz
  obtain ⟨hyi, hcell, hpre, -⟩ := run_spec post _ _ hzi hy
  simp only [step] at hz
  obtain ⟨l, ha, h1⟩ := Option.bind_eq_some_iff.1 hz
  obtain ⟨k, rfl, h1⟩ := Option.bind_eq_some_iff.1 h1
  obtain ⟨v, hv, h1⟩ := Option.map_eq_some_iff.1 h1
  have hva : v = a := by
    have := hi.fwd a k ha
    rw [hv] at this; exact Option.some.inj this
  subst hva
  have hzr : z.refs = x.refs ++ [⟨k, v + off - v⟩] := by rw [← h1]
  have hzc : z.cell = x.cell := by rw [← h1]
  have hk : k < z.next := hzi.refs ⟨k, v + off - v⟩ (by rw [hzr]; simp)
  obtain ⟨t, ht⟩ := hpre
  rw [← ht, hzr]
  have hget : (x.refs ++ [(⟨k, v + off - v⟩ : Ref)] ++ t)[x.refs.length]? = some ⟨k, v + off - v⟩ := by simp
  rw [hget, Option.map_some]
  unfold deref
  have e : v + off - v = off := by omega
  rw [hcell k hk, hzc, hv, e]
  simp

/-! ### Which histories are defined -/

def StatusOk (x : State) (st : Int → Status) : Prop :=
  ∀ a, st a = match x.gen a with | none => .nothing | some none => .hollow | some (some _) => .whole

theorem status_step {x y : State} (h : Inv x) (es : List Event) (hs : StatusOk x (status es)) (e : Event)
    (he : step x e = some y) : StatusOk y (status (e :: es)) := by
  cases e with
  | construct a =>
    simp only [step] at he; split at he
    · rw [← Option.some.inj he]
      intro c
      simp only [status, alloc, setCell, setGen]
      by_cases hc : c = a
      · simp [hc]
      · rw [if_neg hc, hs c]; simp [hc]
    · simp at he
  | copyConstruct a b =>
    simp only [step] at he; split at he
    · rw [← Option.some.inj he]
      intro c
      simp only [status, alloc, setCell, setGen]
      by_cases hc : c = a
      · simp [hc]
      · rw [if_neg hc, hs c]; simp [hc]
    · simp at he
  | moveConstruct a b =>
    simp only [step] at he; split at he
    · rename_i ha
      obtain ⟨l, hb, h1⟩ := Option.bind_eq_some_iff.1 he
      obtain ⟨k, rfl, hg, -, -, -, -, -⟩ := move_spec (old := none) h (.inr ha) hb (.inr ⟨ha, rfl⟩) h1
      intro c
      rw [hg]
      simp only [status]
      by_cases hc : c = a
      · simp [hc]
      · by_cases hcb : c = b
        · subst hcb; simp [hc]
        · simp only [hc, hcb, if_false]; exact hs c
    · simp at he
  | copyAssign a b =>
    simp only [step] at he; split at he
    · rw [← Option.some.inj he]
      intro c; simp only [status]; exact hs c
    · simp at he
  | moveAssign a b =>
    simp only [step] at he
    obtain ⟨l, hb, h1⟩ := Option.bind_eq_some_iff.1 he
    obtain ⟨old, ha, h1⟩ := Option.bind_eq_some_iff.1 h1
    intro c
    by_cases hab : a = b
    · subst hab
      simp only [setGen, if_true, Option.some.injEq] at ha
      subst ha
      cases l with
      | none => simp [store] at h1
      | some k =>
        rw [store_some h1]
        simp only [status, setCell, setGen, free]
        by_cases hc : c = a
        · simp [hc]
        · simp only [hc, if_false]; exact hs c
    · have ha' : x.gen a = some old := by
        simpa [setGen, hab] using ha
      obtain ⟨k, rfl, hg, -, -, -, -, -⟩ := move_spec (old := old) h (.inl hab) hb (.inl ha') h1
      rw [hg]
      simp only [status]
      by_cases hc : c = a
      · simp [hc]
      · by_cases hcb : c = b
        · subst hcb; simp [hc]
        · simp only [hc, hcb, if_false]; exact hs c
  | destroy a =>
    simp only [step] at he
    obtain ⟨l, ha, h1⟩ := Option.map_eq_some_iff.1 he
    rw [← h1]
    intro c
    have hgen : (setGen (free x l) a none).gen c = if c = a then none else x.gen c := by
      cases l <;> rfl
    rw [hgen]
    simp only [status]
    by_cases hc : c = a
    · simp [hc]
    · simp only [hc, if_false]; exact hs c
  | generate a off =>
    simp only [step] at he
    obtain ⟨l, ha, h1⟩ := Option.bind_eq_some_iff.1 he
    obtain ⟨k, rfl, h1⟩ := Option.bind_eq_some_iff.1 h1
    obtain ⟨v, hv, h1⟩ := Option.map_eq_some_iff.1 h1
    rw [← h1]
    intro c; simp only [status]; exact hs c

theorem status_run : ∀ (es past : List Event) (x y : State), Inv x → StatusOk x (status past) → run x es = some y →
    StatusOk y (status (es.reverse ++ past)) := by
  intro es
  induction es with
  | nil => intro past x y _ hs hr; simp only [run, Option.some.injEq] at hr; subst hr; exact hs
  | cons e es ih =>
    intro past x y h hs hr
    simp only [run, Option.bind_eq_some_iff] at hr
    obtain ⟨z, hz, hr⟩ := hr
    have := ih (e :: past) z y (step_spec h e hz).1 (status_step h past hs e hz) hr
    simpa using this

/-- C79: exactly which next event is defined: one that concerns existing objects and neither moves from an object
that was moved from nor refers to it. -/
theorem C79_defined (es : List Event) (x : State) (hx : run initial es = some x) (e : Event) :
    (step x e).isSome ↔ Legal (status es.reverse) e ∧ Whole (status es.reverse) e := by
  have hi := (run_spec es _ _ inv_initial hx).1
  have hs := status_run es [] _ _ inv_initial (by intro a; rfl) hx
  rw [List.append_nil] at hs
  generalize status es.reverse = st at hs
  have hnone : ∀ a, st a = .nothing ↔ x.gen a = none := by
    intro a; rw [hs a]
    cases x.gen a with
    | none => simp
    | some l => cases l <;> simp
  have hhol : ∀ a, st a = .hollow ↔ x.gen a = some none := by
    intro a; rw [hs a]
    cases x.gen a with
    | none => simp
    | some l => cases l <;> simp
  cases e with
  | construct a =>
    simp only [step, Legal, Whole, hnone, and_true]
    by_cases h : x.gen a = none <;> simp [h]
  | copyConstruct a b =>
    simp only [step, Legal, Whole, Ne, hnone, and_true]
    by_cases h : x.gen a = none ∧ x.gen b ≠ none
    · rw [if_pos h]; simp only [Option.isSome_some, true_iff]; exact h
    · rw [if_neg h]; simp only [Option.isSome_none, Bool.false_eq_true, false_iff]; exact h
  | moveConstruct a b =>
    simp only [step, Legal, Whole, Ne, hnone, hhol]
    by_cases h : x.gen a = none
    · rw [if_pos h]
      cases hb : x.gen b with
      | none => simp
      | some l =>
        cases l with
        | none => simp [store]
        | some k =>
          have hk := hi.fwd b k hb
          simp [store, setGen, hk, h]
    · rw [if_neg h]; simp [h]
  | copyAssign a b =>
    simp only [step, Legal, Whole, Ne, hnone, and_true]
    by_cases h : x.gen a ≠ none ∧ x.gen b ≠ none
    · rw [if_pos h]; simp only [Option.isSome_some, true_iff]; exact h
    · rw [if_neg h]; simp only [Option.isSome_none, Bool.false_eq_true, false_iff]; exact h
  | moveAssign a b =>
    simp only [step, Legal, Whole, Ne, hnone, hhol]
    cases hb : x.gen b with
    | none => simp
    | some l =>
      cases l with
      | none =>
        simp [store]
      | some k =>
        have hk := hi.fwd b k hb
        by_cases hab : a = b
        · subst hab
          simp [setGen, free, store, hb, hk]
        · cases ha : x.gen a with
          | none => simp [setGen, hab, ha]
          | some old =>
            cases old with
            | none => simp [setGen, hab, ha, free, store, hk]
            | some m =>
              have hm := hi.fwd a m ha
              have hmk : k ≠ m := by
                intro e; subst e; rw [hk] at hm; exact hab (Option.some.inj hm).symm
              simp [setGen, hab, ha, free, store, setCell, hk, hmk]
  | destroy a =>
    simp only [step, Legal, Whole, Ne, hnone, and_true]
    cases x.gen a <;> simp
  | generate a off =>
    simp only [step, Legal, Whole, Ne, hnone, hhol]
    cases ha : x.gen a with
    | none => simp
    | some l =>
      cases l with
      | none => simp
      | some k => simp [hi.fwd a k ha]

/-- The full property: every history on existing objects is defined, and a reference denotes its place in the object
as long as it or the one it was moved to exists. -/
def C79_statement : Prop :=
  (∀ (es : List Event) (x : State) (e : Event), run initial es = some x → Legal (status es.reverse) e →
    (step x e).isSome) ∧
  ∀ (pre post : List Event) (a off : Int) (x y : State), run initial pre = some x →
    run x (.generate a off :: post) = some y → .destroy a ∉ post → (∀ b, .moveConstruct b a ∉ post) →
    (∀ b, .moveAssign b a ∉ post) → (y.refs[x.refs.length]?).map (deref y) = some (some (a + off))

/-- An object that was moved from cannot be moved. -/
theorem C79_hollow : ¬ ∀ (es : List Event) (x : State) (e : Event), run initial es = some x →
    Legal (status es.reverse) e → (step x e).isSome := by
  intro h
  have hx : (run initial [.construct 0, .moveConstruct 100 0]).isSome := by decide +kernel
  obtain ⟨x, hx⟩ := Option.isSome_iff_exists.1 hx
  have h1 := h _ x (.moveConstruct 200 0) hx (by simp only [Legal]; decide +kernel)
  rw [C79_defined _ x hx] at h1
  exact h1.2 (by decide +kernel)

/-- References to an object are dangling after another one is moved into it, although the object still exists. -/
theorem C79_overwritten :
    (run initial [.construct 0, .construct 100, .generate 0 8, .moveAssign 0 100]).map
      (fun y => ((y.refs[0]?).map (deref y), (y.gen 0).isSome)) = some (some none, true) := by decide +kernel

theorem C79_false : ¬ C79_statement := fun h => C79_hollow h.1

/-! Example: an object is moved twice, the second time into the place it came from; a copy has its own references. -/

example : (run initial [.construct 0, .generate 0 8, .moveConstruct 100 0, .copyConstruct 200 100, .generate 200 16,
    .moveAssign 0 100, .moveConstruct 300 200, .destroy 200, .moveAssign 0 0, .copyAssign 0 300]).map
      (fun y => y.refs.map (deref y)) = some [some 8, some 316] := by decide +kernel

example : follow 0 [.moveConstruct 100 0, .copyConstruct 200 100, .generate 200 16, .moveAssign 0 100,
    .moveConstruct 300 200, .destroy 200, .moveAssign 0 0, .copyAssign 0 300] = some 0 := by decide +kernel

end Ovk.Float
