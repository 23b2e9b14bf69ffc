/-
C110: status messages are written at the depth of the sections they are in.
-/
import Mathlib.Algebra.BigOperators.Group.List.Basic
import Mathlib.Tactic.Linarith
import Verif.Model.Logger
import Verif.Props.Text

namespace Ovk.Logging

/-! ### Specification -/

namespace Spec

/-- What a handle contributes to a counter of a logger. -/
def share (a : Nat) (f : Field) : Option Inc → Int
  | some ⟨some p, x⟩ => if p = (a, f) then x else 0
  | _ => 0

/-- The sum of the amounts of the handles that were obtained from the logger and still hold what they were given. -/
def held (m : Mem) (a : Nat) (f : Field) : Int := (m.handles.map (share a f)).sum

/-- No handle refers to the logger. -/
def Idle (m : Mem) (a : Nat) : Prop := ∀ h i f, m.handle h = some i → i.ptr ≠ some (a, f)

/-- Loggers are moved only while no handle refers to them. -/
def Calm (m : Mem) : Act → Prop
  | .moveLogger a => Idle m a
  | .assignLogger b a => Idle m a ∧ Idle m b
  | _ => True

inductive Reachable : Mem → Prop
  | start : Reachable Mem.start
  | step {m m' : Mem} (act : Act) : Reachable m → Calm m act → step m act = some m' → Reachable m'

/-- Whether an error or a warning was written by the logger, or by the ones it was moved from, or was reported by another
process; latest event first. -/
def flaggedBy : List Event → Nat → Bool
  | [], _ => false
  | .line b k _ :: es, a => (decide (b = a) && decide (k = .error ∨ k = .warning)) || flaggedBy es a
  | .sync b others :: es, a => (decide (b = a) && others) || flaggedBy es a
  | .moved src dst :: es, a => if a = dst then flaggedBy es src else flaggedBy es a

def flagged (es : List Event) (a : Nat) : Bool := flaggedBy es.reverse a

/-- How lines begin. -/
def header (k : Kind) (flag : Bool) (indent : Int) : List Char :=
  match k with
  | .error => "ovk :: [!] ERROR: ".toList
  | .warning => "ovk :: [!] WARNING: ".toList
  | .debug => "ovk :: [&] ".toList
  | .status => "ovk :: [".toList ++ (if flag then '!' else ' ') :: "] ".toList ++
      if 0 < indent then List.replicate (2 * (indent - 1).toNat) ' ' ++ "* ".toList else []

/-- Whether messages are written at a level. -/
def shown (L : Logger) (k : Kind) (level : Int) : Bool :=
  match k with
  | .error => L.errors
  | .warning => L.warnings
  | .debug => L.debug
  | .status => decide (level ≤ L.threshold)

/-- The lines code writes, with the level, the depth and the flag it starts with; whether the flag is set in the end, and
whether it ends by an exception.  `text` is the text of messages. -/
def lines (L : Logger) (text : List Char → List Char) :
    Code → Int → Int → Bool → List (Kind × List Char) × Bool × Bool
  | .log k cond msg, level, depth, flag =>
    if shown L k level && cond then
      ([(k, header k flag depth ++ text msg)], flag || decide (k = .error ∨ k = .warning), false)
    else ([], flag, false)
  | .sect x y body, level, depth, flag => lines L text body (level + x) (depth + y) flag
  | .seq c d, level, depth, flag =>
    let r := lines L text c level depth flag
    if r.2.2 then r
    else
      let r' := lines L text d level depth r.2.1
      (r.1 ++ r'.1, r'.2)
  | .skip, _, _, flag => ([], flag, false)
  | .throw, _, _, flag => ([], flag, true)

/-- The logger `a` is used. -/
def usesLogger (a : Nat) : Act → Prop
  | .destroyLogger b | .moveLogger b | .enableErrors b _ | .enableWarnings b _ | .enableDebug b _ | .setThreshold b _
  | .sync b _ | .log b _ _ _ | .increase b _ _ | .increaseBoth b _ _ => a = b
  | .assignLogger b c => a = b ∨ a = c
  | _ => False

/-- The handle `h` is used. -/
def usesHandle (h : Nat) : Act → Prop
  | .moveHandle g | .reset g | .destroyHandle g => h = g
  | .assignHandle g g' => h = g ∨ h = g'
  | _ => False

/-- The handle `h` gives up what it holds. -/
def givesUp (h : Nat) : Act → Prop
  | .reset g | .destroyHandle g => h = g
  | .assignHandle g g' => h = g ∧ g ≠ g'
  | _ => False

end Spec

/-! ### Memory -/

theorem logger_set {m : Mem} {a : Nat} {L : Option Logger} (h : a < m.loggers.length) (b : Nat) :
    (m.setLogger a L).logger b = if b = a then L else m.logger b := by
  unfold Mem.setLogger Mem.logger
  dsimp only
  rw [List.getElem?_set]
  by_cases hb : a = b
  · subst hb; simp [h]
  · rw [if_neg hb, if_neg (Ne.symm hb)]

theorem handle_set {m : Mem} {h : Nat} {i : Option Inc} (hl : h < m.handles.length) (g : Nat) :
    (m.setHandle h i).handle g = if g = h then i else m.handle g := by
  unfold Mem.setHandle Mem.handle
  dsimp only
  rw [List.getElem?_set]
  by_cases hb : h = g
  · subst hb; simp [hl]
  · rw [if_neg hb, if_neg (Ne.symm hb)]

theorem lt_of_logger {m : Mem} {a : Nat} {L : Logger} (h : m.logger a = some L) : a < m.loggers.length := by
  unfold Mem.logger at h
  by_contra hc
  rw [List.getElem?_eq_none (by omega)] at h
  cases h

theorem lt_of_handle {m : Mem} {a : Nat} {i : Inc} (h : m.handle a = some i) : a < m.handles.length := by
  unfold Mem.handle at h
  by_contra hc
  rw [List.getElem?_eq_none (by omega)] at h
  cases h

theorem handle_add (m : Mem) (i : Inc) (g : Nat) :
    (m.addHandle i).handle g = if g = m.handles.length then some i else m.handle g := by
  unfold Mem.addHandle Mem.handle
  dsimp only
  rw [List.getElem?_append]
  split
  · rw [if_neg (by omega)]
  · split
    · next h => subst h; simp
    · rw [List.getElem?_eq_none (by simp; omega), List.getElem?_eq_none (by omega)]

theorem sum_set (w : Option Inc → Int) (x : Option Inc) : ∀ (l : List (Option Inc)) (h : Nat) (y : Option Inc),
    l[h]? = some y → ((l.set h x).map w).sum = (l.map w).sum - w y + w x := by
  intro l
  induction l with
  | nil => intro h y hy; simp at hy
  | cons z l ih =>
    intro h y hy
    cases h with
    | zero =>
      simp only [List.getElem?_cons_zero, Option.some.injEq] at hy
      subst hy
      simp only [List.set_cons_zero, List.map_cons, List.sum_cons]
      ring
    | succ h =>
      simp only [List.getElem?_cons_succ] at hy
      simp only [List.set_cons_succ, List.map_cons, List.sum_cons, ih h y hy]
      ring

theorem getElem_of_handle {m : Mem} {h : Nat} {i : Inc} (hi : m.handle h = some i) : m.handles[h]? = some (some i) := by
  unfold Mem.handle at hi
  cases he : m.handles[h]? with
  | none => rw [he] at hi; cases hi
  | some o => rw [he] at hi; simp only [Option.join_some] at hi; rw [hi]

theorem held_set {m : Mem} {h : Nat} {i : Inc} (hi : m.handle h = some i) (x : Option Inc) (a : Nat) (f : Field) :
    Spec.held (m.setHandle h x) a f = Spec.held m a f - Spec.share a f (some i) + Spec.share a f x :=
  sum_set _ _ _ _ _ (getElem_of_handle hi)

theorem held_add (m : Mem) (i : Inc) (a : Nat) (f : Field) :
    Spec.held (m.addHandle i) a f = Spec.held m a f + Spec.share a f (some i) := by
  simp [Spec.held, Mem.addHandle]

theorem held_setLogger (m : Mem) (b : Nat) (L : Option Logger) (a : Nat) (f : Field) :
    Spec.held (m.setLogger b L) a f = Spec.held m a f := rfl

@[simp] theorem share_empty (a : Nat) (f : Field) : Spec.share a f (some {}) = 0 := rfl
@[simp] theorem share_none (a : Nat) (f : Field) : Spec.share a f none = 0 := rfl

theorem share_some (a : Nat) (f : Field) (p : Nat × Field) (x : Int) :
    Spec.share a f (some ⟨some p, x⟩) = if p = (a, f) then x else 0 := rfl

theorem held_idle {m : Mem} {a : Nat} (h : Spec.Idle m a) (f : Field) : Spec.held m a f = 0 := by
  unfold Spec.held
  apply List.sum_eq_zero
  intro x hx
  obtain ⟨o, ho, rfl⟩ := List.mem_map.mp hx
  obtain ⟨k, hk, rfl⟩ := List.getElem_of_mem ho
  cases hi : m.handles[k] with
  | none => rfl
  | some i =>
    have := h k i f (by unfold Mem.handle; rw [List.getElem?_eq_getElem hk, hi]; rfl)
    obtain ⟨_ | p, x⟩ := i
    · rfl
    · rw [share_some, if_neg]
      rintro rfl
      exact this rfl

/-! ### Invariant -/

/-- Counter of a logger. -/
def Logger.get (L : Logger) : Field → Int
  | .level => L.level - 1
  | .indent => L.indent

theorem get_add (L : Logger) (f g : Field) (x : Int) : (L.add f x).get g = L.get g + if f = g then x else 0 := by
  cases f <;> cases g <;> simp [Logger.add, Logger.get]
  ring

/-- The counters agree with the handles, except for `i`, which is not in memory (yet, or any more). -/
structure Inv (m : Mem) (i : Inc) : Prop where
  get : ∀ a L f, m.logger a = some L → L.get f = Spec.held m a f + Spec.share a f (some i)
  flag : ∀ a L, m.logger a = some L → L.indicator = Spec.flagged m.events a
  fresh : ∀ a, m.loggers.length ≤ a → Spec.flagged m.events a = false
  ptr : ∀ h j a f, m.handle h = some j → j.ptr = some (a, f) → a < m.loggers.length

/-- A change of a logger that leaves the counters and the indicator. -/
theorem Inv.same {m m' : Mem} {i : Inc} (h : Inv m i) {a : Nat} {f : Logger → Logger}
    (hf : ∀ L, (f L).level = L.level ∧ (f L).indent = L.indent ∧ (f L).indicator = L.indicator)
    (e : m.modify a f = some m') : Inv m' i := by
  unfold Mem.modify at e
  obtain ⟨L, hL, rfl⟩ := Option.map_eq_some_iff.mp e
  have hlt := lt_of_logger hL
  refine ⟨?_, ?_, ?_, ?_⟩
  · intro b M g hM
    rw [logger_set hlt] at hM
    rw [held_setLogger]
    split at hM
    · next hb =>
      subst hb
      obtain rfl := Option.some.inj hM
      rw [← h.get b L g hL]
      cases g <;> simp [Logger.get, hf L]
    · exact h.get b M g hM
  · intro b M hM
    rw [logger_set hlt] at hM
    split at hM
    · next hb =>
      subst hb
      obtain rfl := Option.some.inj hM
      rw [(hf L).2.2]
      exact h.flag b L hL
    · exact h.flag b M hM
  · simpa [Mem.setLogger] using h.fresh
  · intro k j b g hj hp
    have := h.ptr k j b g hj hp
    simpa [Mem.setLogger] using this

theorem Inv.release {m m' : Mem} {i : Inc} (h : Inv m i) (e : release m i = some m') :
    Inv m' {} := by
  obtain ⟨p, x⟩ := i
  cases p with
  | none =>
    simp only [Logging.release, Option.some.injEq] at e
    subst e
    exact ⟨fun a L f hL => by rw [h.get a L f hL]; rfl, h.flag, h.fresh, h.ptr⟩
  | some p =>
    obtain ⟨a, f⟩ := p
    simp only [Logging.release, Mem.modify] at e
    obtain ⟨L, hL, rfl⟩ := Option.map_eq_some_iff.mp e
    have hlt := lt_of_logger hL
    refine ⟨?_, ?_, ?_, ?_⟩
    · intro b M g hM
      rw [logger_set hlt] at hM
      rw [held_setLogger, share_empty]
      split at hM
      · next hb =>
        subst hb
        obtain rfl := Option.some.inj hM
        rw [get_add, h.get b L g hL, share_some]
        by_cases hfg : f = g
        · subst hfg; simp
        · simp [hfg]
      · next hb =>
        rw [h.get b M g hM, share_some, if_neg]
        intro hc
        exact hb (Prod.mk.inj hc).1.symm
    · intro b M hM
      rw [logger_set hlt] at hM
      split at hM
      · next hb =>
        subst hb
        obtain rfl := Option.some.inj hM
        rw [show (L.add f (-x)).indicator = L.indicator by cases f <;> rfl]
        exact h.flag b L hL
      · exact h.flag b M hM
    · simpa [Mem.setLogger] using h.fresh
    · intro k j b g hj hp
      have := h.ptr k j b g hj hp
      simpa [Mem.setLogger] using this

/-- A handle is taken out of its place, in which `x` is put. -/
theorem Inv.swap {m : Mem} {h : Nat} {i x : Inc} (hm : Inv m x) (hi : m.handle h = some i)
    (hx : ∀ a f, x.ptr = some (a, f) → a < m.loggers.length) : Inv (m.setHandle h (some x)) i := by
  have hlt := lt_of_handle hi
  refine ⟨?_, hm.flag, hm.fresh, ?_⟩
  · intro a L f hL
    rw [held_set hi]
    have := hm.get a L f hL
    linarith
  · intro g j a f hj hp
    rw [handle_set hlt] at hj
    split at hj
    · obtain rfl := Option.some.inj hj
      exact hx a f hp
    · exact hm.ptr g j a f hj hp

theorem Inv.assign {m m' : Mem} {h : Nat} {x : Inc} (hm : Inv m x)
    (hx : ∀ a f, x.ptr = some (a, f) → a < m.loggers.length) (e : assignValue m h x = some m') : Inv m' {} := by
  unfold assignValue at e
  obtain ⟨i, hi, e⟩ := Option.bind_eq_some_iff.mp e
  exact (hm.swap hi hx).release e

theorem Inv.add {m : Mem} {i : Inc} (hm : Inv m i) (hx : ∀ a f, i.ptr = some (a, f) → a < m.loggers.length) :
    Inv (m.addHandle i) {} := by
  refine ⟨?_, hm.flag, hm.fresh, ?_⟩
  · intro a L f hL
    rw [held_add, share_empty, add_zero]
    exact hm.get a L f hL
  · intro g j a f hj hp
    rw [handle_add] at hj
    split at hj
    · obtain rfl := Option.some.inj hj
      exact hx a f hp
    · exact hm.ptr g j a f hj hp

/-- A counter is increased; the handle is not yet in memory. -/
theorem Inv.bump {m : Mem} (hm : Inv m {}) {a : Nat} {L : Logger} (hL : m.logger a = some L) (f : Field) (x : Int) :
    Inv (m.setLogger a (some (L.add f x))) ⟨some (a, f), x⟩ := by
  have hlt := lt_of_logger hL
  refine ⟨?_, ?_, ?_, ?_⟩
  · intro b M g hM
    rw [logger_set hlt] at hM
    rw [held_setLogger, share_some]
    split at hM
    · next hb =>
      subst hb
      obtain rfl := Option.some.inj hM
      rw [get_add, hm.get b L g hL, share_empty]
      by_cases hfg : f = g
      · subst hfg; simp
      · simp [hfg]
    · next hb =>
      rw [hm.get b M g hM, if_neg]
      · simp
      · intro hc
        exact hb (Prod.mk.inj hc).1.symm
  · intro b M hM
    rw [logger_set hlt] at hM
    split at hM
    · next hb =>
      subst hb
      obtain rfl := Option.some.inj hM
      rw [show (L.add f x).indicator = L.indicator by cases f <;> rfl]
      exact hm.flag b L hL
    · exact hm.flag b M hM
  · simpa [Mem.setLogger] using hm.fresh
  · intro k j b g hj hp
    have := hm.ptr k j b g hj hp
    simpa [Mem.setLogger] using this

theorem flagged_note (es : List Event) (e : Event) (a : Nat) :
    Spec.flagged (es ++ [e]) a = Spec.flaggedBy (e :: es.reverse) a := by
  unfold Spec.flagged; simp

theorem logger_append (l : List (Option Logger)) (hs : List (Option Inc)) (es es' : List Event) (X : Logger) (b : Nat)
    (M : Logger) (hM : (Mem.mk (l ++ [some X]) hs es).logger b = some M) :
    (Mem.mk l hs es').logger b = some M ∧ b < l.length ∨ (b = l.length ∧ M = X) := by
  unfold Mem.logger at hM ⊢
  dsimp only at hM ⊢
  rw [List.getElem?_append] at hM
  split at hM
  · next h => exact Or.inl ⟨hM, h⟩
  · next hb =>
    by_cases hb' : b = l.length
    · subst hb'; simp at hM; exact Or.inr ⟨rfl, hM.symm⟩
    · rw [List.getElem?_eq_none (by simp; omega)] at hM; cases hM

theorem Inv.idle {m : Mem} {i : Inc} (hm : Inv m i) (a : Nat) (ha : m.loggers.length ≤ a) : Spec.Idle m a := by
  intro h i f hi hp
  exact absurd (hm.ptr h i _ f hi hp) (by omega)

theorem Inv.log {m m' : Mem} (hm : Inv m {}) {a : Nat} {k : Kind} {cond : Bool} {msg : List Char}
    (e : Logging.log m a k cond msg = some m') : Inv m' {} := by
  unfold Logging.log at e
  obtain ⟨L, hL, e⟩ := Option.bind_eq_some_iff.mp e
  have hlt := lt_of_logger hL
  split at e
  · obtain ⟨s, -, rfl⟩ := Option.map_eq_some_iff.mp e
    refine ⟨?_, ?_, ?_, ?_⟩
    · intro b M g hM
      change (m.setLogger a _).logger b = some M at hM
      rw [logger_set hlt] at hM
      change _ = Spec.held m b g + _
      split at hM
      · next hb =>
        subst hb
        obtain rfl := Option.some.inj hM
        rw [← hm.get b L g hL]
        cases k <;> cases g <;> rfl
      · exact hm.get b M g hM
    · intro b M hM
      change (m.setLogger a _).logger b = some M at hM
      change _ = Spec.flagged (m.events ++ [_]) b
      rw [logger_set hlt] at hM
      rw [flagged_note]
      change _ = (decide (a = b) && _ || Spec.flagged m.events b)
      split at hM
      · next hb =>
        subst hb
        obtain rfl := Option.some.inj hM
        rw [← hm.flag b L hL]
        cases k <;> simp
      · next hb =>
        rw [← hm.flag b M hM]
        simp [Ne.symm hb]
    · intro b hb
      change Spec.flagged (m.events ++ [_]) b = false
      have hb' : m.loggers.length ≤ b := by simpa [Mem.note, Mem.setLogger] using hb
      rw [flagged_note]
      change (decide (a = b) && _ || Spec.flagged m.events b) = false
      rw [hm.fresh b hb', decide_eq_false (by omega)]
      rfl
    · intro h j b g hj hp
      have := hm.ptr h j b g hj hp
      simpa [Mem.note, Mem.setLogger] using this
  · obtain rfl := Option.some.inj e
    exact hm

theorem Inv.sync {m m' : Mem} (hm : Inv m {}) {a : Nat} {others : Bool} (e : Logging.sync m a others = some m') :
    Inv m' {} := by
  unfold Logging.sync Mem.modify at e
  rw [Option.map_map] at e
  obtain ⟨L, hL, rfl⟩ := Option.map_eq_some_iff.mp e
  have hlt := lt_of_logger hL
  refine ⟨?_, ?_, ?_, ?_⟩
  · intro b M g hM
    change (m.setLogger a _).logger b = some M at hM
    rw [logger_set hlt] at hM
    change _ = Spec.held m b g + _
    split at hM
    · next hb =>
      subst hb
      obtain rfl := Option.some.inj hM
      rw [← hm.get b L g hL]
      cases g <;> rfl
    · exact hm.get b M g hM
  · intro b M hM
    change (m.setLogger a _).logger b = some M at hM
    change _ = Spec.flagged (m.events ++ [_]) b
    rw [logger_set hlt] at hM
    rw [flagged_note]
    change _ = (decide (a = b) && _ || Spec.flagged m.events b)
    split at hM
    · next hb =>
      subst hb
      obtain rfl := Option.some.inj hM
      rw [← hm.flag b L hL]
      simp [Bool.or_comm]
    · next hb =>
      rw [← hm.flag b M hM]
      simp [Ne.symm hb]
  · intro b hb
    change Spec.flagged (m.events ++ [_]) b = false
    have hb' : m.loggers.length ≤ b := by simpa [Mem.note, Mem.setLogger] using hb
    rw [flagged_note]
    change (decide (a = b) && _ || Spec.flagged m.events b) = false
    rw [hm.fresh b hb', decide_eq_false (by omega)]
    rfl
  · intro h j b g hj hp
    have := hm.ptr h j b g hj hp
    simpa [Mem.note, Mem.setLogger] using this

theorem Inv.bumpBoth {m : Mem} (hm : Inv m {}) {a : Nat} {L : Logger} (hL : m.logger a = some L) (x y : Int) :
    Inv (((m.setLogger a (some ((L.add .level x).add .indent y))).addHandle ⟨some (a, .level), x⟩).addHandle
      ⟨some (a, .indent), y⟩) {} := by
  have hlt := lt_of_logger hL
  have h1 := (hm.bump hL .level x).add (by
    intro b f h
    simp only [Option.some.injEq, Prod.mk.injEq] at h
    simp [Mem.setLogger]; omega)
  have hL1 : ((m.setLogger a (some (L.add .level x))).addHandle ⟨some (a, .level), x⟩).logger a =
      some (L.add .level x) := by
    change (m.setLogger a _).logger a = _
    rw [logger_set hlt, if_pos rfl]
  have h2 := (h1.bump hL1 .indent y).add (by
    intro b f h
    simp only [Option.some.injEq, Prod.mk.injEq] at h
    simp [Mem.setLogger, Mem.addHandle]; omega)
  have e : (((m.setLogger a (some (L.add .level x))).addHandle ⟨some (a, .level), x⟩).setLogger a
      (some ((L.add .level x).add .indent y))).addHandle ⟨some (a, .indent), y⟩ =
    ((m.setLogger a (some ((L.add .level x).add .indent y))).addHandle ⟨some (a, .level), x⟩).addHandle
      ⟨some (a, .indent), y⟩ := by
    unfold Mem.setLogger Mem.addHandle
    simp
  rw [e] at h2
  exact h2

theorem Inv.step {m m' : Mem} (hm : Inv m {}) (act : Act) (hc : Spec.Calm m act)
    (e : Logging.step m act = some m') : Inv m' {} := by
  cases act with
  | newLogger rank =>
    simp only [Logging.step, Option.some.injEq] at e
    subst e
    have hidle := hm.idle _ le_rfl
    refine ⟨?_, ?_, ?_, ?_⟩
    · intro b M g hM
      rcases logger_append _ _ _ m.events _ b M hM with ⟨h, -⟩ | ⟨rfl, rfl⟩
      · exact hm.get b M g h
      · change _ = Spec.held m m.loggers.length g + _
        rw [held_idle hidle g]
        cases g <;> rfl
    · intro b M hM
      rcases logger_append _ _ _ m.events _ b M hM with ⟨h, -⟩ | ⟨rfl, rfl⟩
      · exact hm.flag b M h
      · exact (hm.fresh _ le_rfl).symm
    · intro b hb
      exact hm.fresh b (by simp at hb; omega)
    · intro k j b g hj hp
      have := hm.ptr k j b g hj hp
      simp; omega
  | destroyLogger a =>
    obtain ⟨L, hL, rfl⟩ := Option.map_eq_some_iff.mp e
    have hlt := lt_of_logger hL
    refine ⟨?_, ?_, ?_, ?_⟩
    · intro b M g hM
      rw [logger_set hlt] at hM
      split at hM
      · cases hM
      · exact hm.get b M g hM
    · intro b M hM
      rw [logger_set hlt] at hM
      split at hM
      · cases hM
      · exact hm.flag b M hM
    · simpa [Mem.setLogger] using hm.fresh
    · intro k j b g hj hp
      have := hm.ptr k j b g hj hp
      simpa [Mem.setLogger] using this
  | moveLogger a =>
    obtain ⟨L, hL, rfl⟩ := Option.map_eq_some_iff.mp e
    have hlt := lt_of_logger hL
    have hidle := hm.idle _ le_rfl
    have hfl : ∀ b, Spec.flagged (m.events ++ [.moved a m.loggers.length]) b =
        if b = m.loggers.length then Spec.flagged m.events a else Spec.flagged m.events b := by
      intro b; rw [flagged_note]; rfl
    refine ⟨?_, ?_, ?_, ?_⟩
    · intro b M g hM
      rcases logger_append _ _ _ m.events _ b M hM with ⟨h, -⟩ | ⟨rfl, rfl⟩
      · exact hm.get b M g h
      · change _ = Spec.held m m.loggers.length g + _
        rw [hm.get a M g hL, held_idle hidle g, held_idle hc g]
        rfl
    · intro b M hM
      change _ = Spec.flagged (m.events ++ [.moved a m.loggers.length]) b
      rw [hfl]
      rcases logger_append _ _ _ m.events _ b M hM with ⟨h, hb⟩ | ⟨rfl, rfl⟩
      · rw [if_neg (by omega)]; exact hm.flag b M h
      · rw [if_pos rfl]; exact hm.flag a M hL
    · intro b hb
      change Spec.flagged (m.events ++ [.moved a m.loggers.length]) b = false
      have hb' : m.loggers.length + 1 ≤ b := by simpa [Mem.note] using hb
      rw [hfl, if_neg (by omega)]
      exact hm.fresh b (by omega)
    · intro k j b g hj hp
      have := hm.ptr k j b g hj hp
      simp [Mem.note]; omega
  | assignLogger c a =>
    obtain ⟨L, hL, e⟩ := Option.bind_eq_some_iff.mp e
    obtain ⟨M', hM', rfl⟩ := Option.map_eq_some_iff.mp e
    have hlt := lt_of_logger hM'
    have hfl : ∀ b, Spec.flagged (m.events ++ [.moved a c]) b =
        if b = c then Spec.flagged m.events a else Spec.flagged m.events b := by
      intro b; rw [flagged_note]; rfl
    refine ⟨?_, ?_, ?_, ?_⟩
    · intro b M g hM
      change (m.setLogger c _).logger b = some M at hM
      change _ = Spec.held m b g + _
      rw [logger_set hlt] at hM
      split at hM
      · next hb =>
        subst hb
        obtain rfl := Option.some.inj hM
        rw [hm.get a L g hL, held_idle hc.1 g, held_idle hc.2 g]
        rfl
      · exact hm.get b M g hM
    · intro b M hM
      change (m.setLogger c _).logger b = some M at hM
      change _ = Spec.flagged (m.events ++ [.moved a c]) b
      rw [hfl]
      rw [logger_set hlt] at hM
      split at hM
      · next hb =>
        obtain rfl := Option.some.inj hM
        rw [if_pos hb]; exact hm.flag a L hL
      · next hb => rw [if_neg hb]; exact hm.flag b M hM
    · intro b hb
      change Spec.flagged (m.events ++ [.moved a c]) b = false
      have hb' : m.loggers.length ≤ b := by simpa [Mem.note, Mem.setLogger] using hb
      rw [hfl, if_neg (by omega)]
      exact hm.fresh b hb'
    · intro k j b g hj hp
      have := hm.ptr k j b g hj hp
      simpa [Mem.note, Mem.setLogger] using this
  | enableErrors a on => exact hm.same (f := fun L => { L with errors := on }) (fun L => ⟨rfl, rfl, rfl⟩) e
  | enableWarnings a on => exact hm.same (f := fun L => { L with warnings := on }) (fun L => ⟨rfl, rfl, rfl⟩) e
  | enableDebug a on => exact hm.same (f := fun L => { L with debug := on }) (fun L => ⟨rfl, rfl, rfl⟩) e
  | setThreshold a t => exact hm.same (f := fun L => { L with threshold := t }) (fun L => ⟨rfl, rfl, rfl⟩) e
  | sync a others => exact hm.sync e
  | log a k cond msg => exact hm.log e
  | increase a f x =>
    simp only [Logging.step, Logging.increase, Mem.modify, Option.map_map] at e
    obtain ⟨L, hL, rfl⟩ := Option.map_eq_some_iff.mp e
    have hlt := lt_of_logger hL
    refine (hm.bump hL f x).add ?_
    intro b g h
    simp only [Option.some.injEq, Prod.mk.injEq] at h
    simp [Mem.setLogger]; omega
  | increaseBoth a x y =>
    simp only [Logging.step, Logging.increaseBoth, Mem.modify, Option.map_map] at e
    obtain ⟨L, hL, rfl⟩ := Option.map_eq_some_iff.mp e
    exact hm.bumpBoth hL x y
  | declare =>
    obtain rfl := Option.some.inj e
    exact hm.add (by intro a f h; cases h)
  | moveHandle g =>
    obtain ⟨i, hi, rfl⟩ := Option.map_eq_some_iff.mp e
    refine (hm.swap hi (by intro a f h; cases h)).add ?_
    intro a f h
    exact hm.ptr g i a f hi h
  | assignHandle h g =>
    obtain ⟨i, hi, e⟩ := Option.bind_eq_some_iff.mp e
    refine (hm.swap hi (by intro a f h; cases h)).assign ?_ e
    intro a f h
    exact hm.ptr g i a f hi h
  | reset h => exact hm.assign (by intro a f h; cases h) e
  | destroyHandle h =>
    obtain ⟨i, hi, e⟩ := Option.bind_eq_some_iff.mp e
    obtain ⟨m1, h1, rfl⟩ := Option.map_eq_some_iff.mp e
    have hlt := lt_of_handle hi
    -- taking the handle out first makes no difference
    have hs : Logging.release (m.setHandle h none) i = some (m1.setHandle h none) := by
      obtain ⟨p, x⟩ := i
      cases p with
      | none =>
        simp only [Logging.release, Option.some.injEq] at h1 ⊢
        rw [h1]
      | some p =>
        simp only [Logging.release, Mem.modify] at h1 ⊢
        obtain ⟨L, hL, rfl⟩ := Option.map_eq_some_iff.mp h1
        rw [show (m.setHandle h none).logger p.1 = some L from hL]
        rfl
    refine Inv.release (m := m.setHandle h none) ⟨?_, hm.flag, hm.fresh, ?_⟩ hs
    · intro a L f hL
      rw [held_set hi]
      have := hm.get a L f hL
      simp only [share_empty, share_none] at this ⊢
      linarith
    · intro g j a f hj hp
      rw [handle_set hlt] at hj
      split at hj
      · cases hj
      · exact hm.ptr g j a f hj hp

theorem Inv.reachable {m : Mem} (h : Spec.Reachable m) : Inv m {} := by
  induction h with
  | start =>
    refine ⟨?_, ?_, fun _ _ => rfl, ?_⟩
    · intro a L f h; simp [Mem.start, Mem.logger] at h
    · intro a L h; simp [Mem.start, Mem.logger] at h
    · intro h j a f hj; simp [Mem.start, Mem.handle] at hj
  | step act _ hc e ih => exact ih.step act hc e

/-! ### C110 -/

/-- C110: at any time the level of a logger is one more than what the handles obtained from it hold, its indentation is
what they hold, and the indicator tells whether an error or warning was written. -/
theorem C110_level {m : Mem} (h : Spec.Reachable m) {a : Nat} {L : Logger} (hL : m.logger a = some L) :
    L.level = 1 + Spec.held m a .level ∧ L.indent = Spec.held m a .indent ∧
      L.indicator = Spec.flagged m.events a := by
  have hi := Inv.reachable h
  have h1 := hi.get a L .level hL
  have h2 := hi.get a L .indent hL
  simp only [Logger.get, share_empty, add_zero] at h1 h2
  exact ⟨by linarith, h2, hi.flag a L hL⟩

/-- C110: without handles the level and the indentation are what they were in the beginning. -/
theorem C110_idle {m : Mem} (h : Spec.Reachable m) {a : Nat} {L : Logger} (hL : m.logger a = some L)
    (hi : Spec.Idle m a) : L.level = 1 ∧ L.indent = 0 := by
  obtain ⟨h1, h2, -⟩ := C110_level h hL
  rw [held_idle hi] at h1 h2
  exact ⟨h1, h2⟩

/-- Two sections, one of them ended: level 2, indentation 1. -/
example : ∃ m, run [.newLogger 3, .setThreshold 0 2, .increaseBoth 0 1 1, .increaseBoth 0 1 1, .destroyHandle 3,
      .destroyHandle 2] Mem.start = some m ∧
    m.logger 0 = some { rank := 3, threshold := 2, level := 2, indent := 1 } ∧
    Spec.held m 0 .level = 1 ∧ Spec.held m 0 .indent = 1 :=
  ⟨_, rfl, by decide +kernel, by decide +kernel, by decide +kernel⟩

theorem spaces_eq (n : Nat) : spaces n = List.replicate (2 * n) ' ' := by
  induction n with
  | zero => rfl
  | succ n ih => rw [spaces, ih, show 2 * (n + 1) = 2 * n + 1 + 1 by omega]; rfl

theorem prefix_eq (L : Logger) (k : Kind) : L.prefix k = Spec.header k L.indicator L.indent := by
  cases k with
  | error => rfl
  | warning => rfl
  | debug => rfl
  | status =>
    unfold Logger.prefix Spec.header
    rw [spaces_eq]
    by_cases h : 0 < L.indent
    · cases L.indicator <;> simp [h]
    · rw [show (L.indent - 1).toNat = 0 by omega]
      cases L.indicator <;> simp [h]

/-- C110: a message is written exactly if it is asked for and its kind is enabled: status messages at levels up to the
threshold.  The line starts with the flag and the indentation, and the rank is filled in. -/
theorem C110_written {m : Mem} (h : Spec.Reachable m) {a : Nat} {L : Logger} (hL : m.logger a = some L) (k : Kind)
    (cond : Bool) (msg : List Char) :
    ∃ s m', Text.Spec.Replaced "@rank@".toList (Text.formatNat L.rank) msg s ∧
      step m (.log a k cond msg) = some m' ∧ m'.handles = m.handles ∧
      m'.events = m.events ++ (if cond = true ∧ Spec.shown L k (1 + Spec.held m a .level) = true then
        [.line a k (Spec.header k (Spec.flagged m.events a) (Spec.held m a .indent) ++ s)] else []) := by
  obtain ⟨s, hs, hr⟩ := Text.C64_replace "@rank@".toList (Text.formatNat L.rank) (by decide) (msg.length + 1) msg
    (by omega)
  obtain ⟨h1, h2, h3⟩ := C110_level h hL
  have hw : L.writes k = Spec.shown L k (1 + Spec.held m a .level) := by
    rw [← h1]; cases k <;> rfl
  refine ⟨s, ?_⟩
  simp only [step, log, hL, Option.bind_some, hs, Option.map_some, hw]
  by_cases hc : Spec.shown L k (1 + Spec.held m a .level) = true ∧ cond = true
  · rw [if_pos (by rw [hc.1, hc.2]; rfl), if_pos ⟨hc.2, hc.1⟩]
    refine ⟨_, hr, rfl, rfl, ?_⟩
    rw [← h3, ← h2, ← prefix_eq]
    rfl
  · rw [if_neg (by simpa using hc), if_neg (fun hx => hc ⟨hx.2, hx.1⟩)]
    exact ⟨_, hr, rfl, rfl, by simp⟩

/-- C110: what is undefined: using an object that is gone, and a handle giving up what it holds of a logger that is
gone. -/
theorem C110_defined (m : Mem) (act : Act) :
    step m act = none ↔ (∃ a, Spec.usesLogger a act ∧ m.logger a = none) ∨
      (∃ h, Spec.usesHandle h act ∧ m.handle h = none) ∨
      (∃ h i a f, Spec.givesUp h act ∧ m.handle h = some i ∧ i.ptr = some (a, f) ∧ m.logger a = none) := by
  have hmod : ∀ a f, m.modify a f = none ↔ m.logger a = none := by
    intro a f; unfold Mem.modify; simp
  have hrel : ∀ (m' : Mem) (i : Inc), m'.loggers = m.loggers →
      (release m' i = none ↔ ∃ a f, i.ptr = some (a, f) ∧ m.logger a = none) := by
    intro m' i hl
    have hlg : ∀ a, m'.logger a = m.logger a := by intro a; unfold Mem.logger; rw [hl]
    obtain ⟨p, x⟩ := i
    cases p with
    | none => simp [release]
    | some p =>
      obtain ⟨a, f⟩ := p
      simp only [release, Mem.modify, Option.map_eq_none_iff, hlg, Option.some.injEq, Prod.mk.injEq]
      constructor
      · intro h; exact ⟨a, f, ⟨rfl, rfl⟩, h⟩
      · rintro ⟨b, g, ⟨rfl, rfl⟩, h⟩; exact h
  cases act with
  | newLogger rank => simp [step, Spec.usesLogger, Spec.usesHandle, Spec.givesUp]
  | declare => simp [step, Spec.usesLogger, Spec.usesHandle, Spec.givesUp]
  | destroyLogger a => simp [step, Spec.usesLogger, Spec.usesHandle, Spec.givesUp]
  | moveLogger a => simp [step, moveLogger, Spec.usesLogger, Spec.usesHandle, Spec.givesUp]
  | assignLogger b a =>
    simp only [step, assignLogger, Spec.usesLogger, Spec.usesHandle, Spec.givesUp]
    cases ha : m.logger a with
    | none => simp only [Option.bind_none, true_iff]; exact Or.inl ⟨a, Or.inr rfl, ha⟩
    | some L =>
      cases hb : m.logger b with
      | none => simp only [Option.bind_some, Option.map_none, true_iff]; exact Or.inl ⟨b, Or.inl rfl, hb⟩
      | some M =>
        simp only [Option.bind_some, Option.map_some]
        constructor
        · intro h; cases h
        · rintro (⟨c, rfl | rfl, h⟩ | ⟨_, h, _⟩ | ⟨_, _, _, _, h, _⟩)
          · rw [hb] at h; cases h
          · rw [ha] at h; cases h
          · exact h.elim
          · exact h.elim
  | enableErrors a on => simp [step, hmod, Spec.usesLogger, Spec.usesHandle, Spec.givesUp]
  | enableWarnings a on => simp [step, hmod, Spec.usesLogger, Spec.usesHandle, Spec.givesUp]
  | enableDebug a on => simp [step, hmod, Spec.usesLogger, Spec.usesHandle, Spec.givesUp]
  | setThreshold a t => simp [step, hmod, Spec.usesLogger, Spec.usesHandle, Spec.givesUp]
  | sync a others => simp [step, Logging.sync, hmod, Spec.usesLogger, Spec.usesHandle, Spec.givesUp]
  | log a k cond msg =>
    simp only [step, log, Spec.usesLogger, Spec.usesHandle, Spec.givesUp]
    cases ha : m.logger a with
    | none => simp [ha]
    | some L =>
      obtain ⟨s, hs, -⟩ := Text.C64_replace "@rank@".toList (Text.formatNat L.rank) (by decide) (msg.length + 1) msg
        (by omega)
      simp only [Option.bind_some, hs, Option.map_some]
      split <;> simp [ha]
  | increase a f x => simp [step, increase, hmod, Spec.usesLogger, Spec.usesHandle, Spec.givesUp]
  | increaseBoth a x y => simp [step, increaseBoth, hmod, Spec.usesLogger, Spec.usesHandle, Spec.givesUp]
  | moveHandle g => simp [step, moveHandle, Spec.usesLogger, Spec.usesHandle, Spec.givesUp]
  | reset h =>
    simp only [step, reset, assignValue, Spec.usesLogger, Spec.usesHandle, Spec.givesUp]
    cases hh : m.handle h with
    | none => simp [hh]
    | some i =>
      simp only [Option.bind_some]
      rw [hrel (m.setHandle h (some {})) i rfl]
      constructor
      · rintro ⟨a, f, hp, hn⟩; exact Or.inr (Or.inr ⟨h, i, a, f, rfl, hh, hp, hn⟩)
      · rintro (⟨_, hx, _⟩ | ⟨g, rfl, hx⟩ | ⟨g, j, a, f, rfl, hj, hp, hn⟩)
        · exact hx.elim
        · rw [hh] at hx; cases hx
        · rw [hh] at hj; obtain rfl := Option.some.inj hj; exact ⟨a, f, hp, hn⟩
  | destroyHandle h =>
    simp only [step, destroyHandle, Spec.usesLogger, Spec.usesHandle, Spec.givesUp]
    cases hh : m.handle h with
    | none => simp [hh]
    | some i =>
      simp only [Option.bind_some, Option.map_eq_none_iff]
      rw [hrel _ i rfl]
      constructor
      · rintro ⟨a, f, hp, hn⟩; exact Or.inr (Or.inr ⟨h, i, a, f, rfl, hh, hp, hn⟩)
      · rintro (⟨_, hx, _⟩ | ⟨g, rfl, hx⟩ | ⟨g, j, a, f, rfl, hj, hp, hn⟩)
        · exact hx.elim
        · rw [hh] at hx; cases hx
        · rw [hh] at hj; obtain rfl := Option.some.inj hj; exact ⟨a, f, hp, hn⟩
  | assignHandle h g =>
    simp only [step, assignHandle, assignValue, Spec.usesLogger, Spec.usesHandle, Spec.givesUp]
    cases hg : m.handle g with
    | none => simp only [Option.bind_none, true_iff]; exact Or.inr (Or.inl ⟨g, Or.inr rfl, hg⟩)
    | some j =>
      simp only [Option.bind_some]
      rw [handle_set (lt_of_handle hg)]
      by_cases e : h = g
      · subst e
        simp only [if_pos, Option.bind_some]
        rw [hrel ((m.setHandle h (some {})).setHandle h (some j)) {} rfl]
        constructor
        · rintro ⟨_, _, hp, _⟩; cases hp
        · rintro (⟨_, hx, _⟩ | ⟨k, rfl | rfl, hx⟩ | ⟨k, j', a, f, ⟨_, hne⟩, _⟩)
          · exact hx.elim
          · rw [hg] at hx; cases hx
          · rw [hg] at hx; cases hx
          · exact (hne rfl).elim
      · rw [if_neg e]
        cases hh : m.handle h with
        | none => simp only [Option.bind_none, true_iff]; exact Or.inr (Or.inl ⟨h, Or.inl rfl, hh⟩)
        | some i =>
          simp only [Option.bind_some]
          rw [hrel ((m.setHandle g (some {})).setHandle h (some j)) i rfl]
          constructor
          · rintro ⟨a, f, hp, hn⟩; exact Or.inr (Or.inr ⟨h, i, a, f, ⟨rfl, e⟩, hh, hp, hn⟩)
          · rintro (⟨_, hx, _⟩ | ⟨k, rfl | rfl, hx⟩ | ⟨k, j', a, f, ⟨rfl, _⟩, hj, hp, hn⟩)
            · exact hx.elim
            · rw [hh] at hx; cases hx
            · rw [hg] at hx; cases hx
            · rw [hh] at hj; obtain rfl := Option.some.inj hj; exact ⟨a, f, hp, hn⟩

/-- A handle that outlives its logger. -/
example : ∃ m, run [.newLogger 0, .increase 0 .level 1, .destroyLogger 0] Mem.start = some m ∧
    step m (.destroyHandle 0) = none ∧ step m (.moveHandle 0) ≠ none := ⟨_, rfl, by decide +kernel, by decide +kernel⟩

/-! ### Sections -/

theorem destroy_mine {m : Mem} {h a : Nat} {f : Field} {x : Int} {L : Logger} (hh : m.handle h = some ⟨some (a, f), x⟩)
    (hL : m.logger a = some L) :
    destroyHandle m h = some ((m.setLogger a (some (L.add f (-x)))).setHandle h none) := by
  simp [destroyHandle, hh, release, Mem.modify, hL]

theorem set_self {m : Mem} {a : Nat} {L : Logger} (hL : m.logger a = some L) : m.loggers.set a (some L) = m.loggers := by
  apply List.ext_getElem?
  intro b
  rw [List.getElem?_set]
  split
  · next hb =>
    subst hb
    rw [if_pos (lt_of_logger hL)]
    unfold Mem.logger at hL
    cases he : m.loggers[a]? with
    | none => rw [he] at hL; cases hL
    | some o => rw [he] at hL; simp only [Option.join_some] at hL; rw [hL]
  · rfl

/-- C110: code that uses sections writes the lines given by the nesting of its sections, and leaves the logger as it found
it, apart from the indicator, also if it ends by an exception. -/
theorem C110_sections (text : List Char → List Char) (a : Nat) (rank : Nat)
    (ht : ∀ msg, Text.Spec.Replaced "@rank@".toList (Text.formatNat rank) msg (text msg)) (c : Code) :
    ∀ (m : Mem) (L : Logger), m.logger a = some L → L.rank = rank →
      ∃ m' ext, exec a c m = some (m', (Spec.lines L text c L.level L.indent L.indicator).2.2) ∧
        m'.events = m.events ++ (Spec.lines L text c L.level L.indent L.indicator).1.map (fun l => .line a l.1 l.2) ∧
        m'.loggers = m.loggers.set a
          (some { L with indicator := (Spec.lines L text c L.level L.indent L.indicator).2.1 }) ∧
        m'.handles = m.handles ++ List.replicate ext none := by
  induction c with
  | log k cond msg =>
    intro m L hL hr
    obtain ⟨s, hs, hrep⟩ := Text.C64_replace "@rank@".toList (Text.formatNat L.rank) (by decide) (msg.length + 1) msg
      (by omega)
    rw [hr] at hrep
    obtain rfl : s = text msg := Text.C64_unique (by decide) hrep (ht msg)
    have hw : L.writes k = Spec.shown L k L.level := by cases k <;> rfl
    simp only [exec, log, hL, Option.bind_some, hs, Option.map_some, hw, Spec.lines]
    split
    · refine ⟨_, 0, rfl, ?_, ?_, ?_⟩
      · simp [Mem.note, Mem.setLogger, prefix_eq]
      · cases k <;> simp [Mem.note, Mem.setLogger]
      · simp [Mem.note, Mem.setLogger]
    · exact ⟨m, 0, rfl, by simp, (set_self hL).symm, by simp⟩
  | sect x y body ih =>
    intro m L hL hr
    have hlt := lt_of_logger hL
    let L1 := (L.add .level x).add .indent y
    let m1 := ((m.setLogger a (some L1)).addHandle ⟨some (a, .level), x⟩).addHandle ⟨some (a, .indent), y⟩
    have e1 : increaseBoth m a x y = some m1 := by simp [increaseBoth, Mem.modify, hL, m1, L1]
    have hL1 : m1.logger a = some L1 := by
      change (m.setLogger a (some L1)).logger a = _
      rw [logger_set hlt, if_pos rfl]
    obtain ⟨m2, ext, h2, hev, hlg, hhs⟩ := ih m1 L1 hL1 hr
    have ehs : m1.handles = m.handles ++ [some ⟨some (a, .level), x⟩, some ⟨some (a, .indent), y⟩] := by
      simp [m1, Mem.addHandle, Mem.setLogger]
    have elg : m1.loggers = m.loggers.set a (some L1) := rfl
    have elen : m.handles.length < m1.handles.length := by rw [ehs]; simp
    generalize hr2 : Spec.lines L1 text body L1.level L1.indent L1.indicator = r at h2 hev hlg
    have hL2 : m2.logger a = some { L1 with indicator := r.2.1 } := by
      unfold Mem.logger
      rw [hlg, elg, List.set_set, List.getElem?_set, if_pos rfl, if_pos hlt]
      rfl
    have hh1 : m2.handle (m.handles.length + 1) = some ⟨some (a, .indent), y⟩ := by
      unfold Mem.handle
      rw [hhs, ehs, List.append_assoc, List.getElem?_append_right (by omega)]
      simp
    have d1 := destroy_mine hh1 hL2
    generalize hm3 : (m2.setLogger a (some (Logger.add { L1 with indicator := r.2.1 } .indent (-y)))).setHandle
      (m.handles.length + 1) none = m3 at d1
    have hL3 : m3.logger a = some (Logger.add { L1 with indicator := r.2.1 } .indent (-y)) := by
      rw [← hm3]
      change (m2.setLogger a _).logger a = _
      rw [logger_set (lt_of_logger hL2), if_pos rfl]
    have hh0 : m3.handle m.handles.length = some ⟨some (a, .level), x⟩ := by
      rw [← hm3, handle_set (lt_of_handle (m := m2.setLogger a _) hh1), if_neg (by omega)]
      change m2.handle _ = _
      unfold Mem.handle
      rw [hhs, ehs, List.append_assoc, List.getElem?_append_right (by omega)]
      simp
    have d0 := destroy_mine hh0 hL3
    have elast : Logger.add (Logger.add { L1 with indicator := r.2.1 } .indent (-y)) .level (-x) =
        { L with indicator := r.2.1 } := by
      simp [L1, Logger.add]
    have elines : Spec.lines L text (.sect x y body) L.level L.indent L.indicator = r := by
      rw [← hr2]
      simp only [Spec.lines]
      have : ∀ (c : Code) l d fl, Spec.lines L1 text c l d fl = Spec.lines L text c l d fl := by
        intro c
        induction c with
        | log k cond msg => intro l d fl; cases k <;> rfl
        | sect x y b ih => intro l d fl; exact ih _ _ _
        | seq c d ihc ihd => intro l e fl; simp only [Spec.lines, ihc, ihd]
        | skip => intro l d fl; rfl
        | throw => intro l d fl; rfl
      rw [this]
      rfl
    rw [elines]
    refine ⟨(m3.setLogger a (some { L with indicator := r.2.1 })).setHandle m.handles.length none, ext + 2, ?_, ?_, ?_, ?_⟩
    · simp only [exec, e1, Option.bind_some, h2, d1, d0, Option.map_some, elast]
    · rw [← hm3]
      exact hev
    · rw [← hm3]
      simp [Mem.setLogger, Mem.setHandle, hlg, elg]
    · rw [← hm3]
      simp only [Mem.setLogger, Mem.setHandle, hhs, ehs, List.append_assoc]
      rw [List.set_append_right _ _ (by omega), List.set_append_right _ _ (by omega)]
      simp only [Nat.add_sub_cancel_left, Nat.sub_self, List.cons_append, List.nil_append, List.set_cons_succ,
        List.set_cons_zero]
      rfl
  | seq c d ihc ihd =>
    intro m L hL hr
    obtain ⟨m1, e1, h1, hev1, hlg1, hh1⟩ := ihc m L hL hr
    simp only [exec, h1, Option.bind_some, Spec.lines]
    generalize Spec.lines L text c L.level L.indent L.indicator = r at h1 hev1 hlg1
    split
    · exact ⟨m1, e1, rfl, hev1, hlg1, hh1⟩
    · have hlt := lt_of_logger hL
      have hL1 : m1.logger a = some { L with indicator := r.2.1 } := by
        unfold Mem.logger
        rw [hlg1, List.getElem?_set, if_pos rfl, if_pos hlt]
        rfl
      obtain ⟨m2, e2, h2, hev2, hlg2, hh2⟩ := ihd m1 _ hL1 hr
      have this : ∀ (c : Code) l d fl, Spec.lines { L with indicator := r.2.1 } text c l d fl =
          Spec.lines L text c l d fl := by
        intro c
        induction c with
        | log k cond msg => intro l d fl; cases k <;> rfl
        | sect x y b ih => intro l d fl; exact ih _ _ _
        | seq c d ihc ihd => intro l e fl; simp only [Spec.lines, ihc, ihd]
        | skip => intro l d fl; rfl
        | throw => intro l d fl; rfl
      rw [this] at h2 hev2 hlg2
      refine ⟨m2, e1 + e2, h2, ?_, ?_, ?_⟩
      · rw [hev2, hev1]; simp
      · rw [hlg2, hlg1, List.set_set]
      · rw [hh2, hh1, List.append_assoc, List.replicate_append_replicate]
  | skip => intro m L hL _; exact ⟨m, 0, rfl, by simp [Spec.lines], (set_self hL).symm, by simp⟩
  | throw => intro m L hL _; exact ⟨m, 0, rfl, by simp [Spec.lines], (set_self hL).symm, by simp⟩

/-- Two nested sections; the second level is above the threshold, and the section is left by an exception. -/
example : (exec 0 (.seq (.log .status true "Creating".toList) (.sect 1 1 (.seq (.log .status true "a@rank@".toList)
      (.sect 1 1 (.seq (.log .status true "hidden".toList) .throw))))) ⟨[some { rank := 7, threshold := 2 }], [], []⟩).map
      (fun r => (r.1.events, r.2, r.1.logger 0)) =
    some ([.line 0 .status "ovk :: [ ] Creating".toList, .line 0 .status "ovk :: [ ] * a7".toList], true,
      some { rank := 7, threshold := 2 }) := by decide +kernel

/-- Loggers may not be moved while there are handles: the amount stays in the new logger for good, and the handle refers
to the old one. -/
theorem C110_moved : ∃ m L, run [.newLogger 0, .increase 0 .level 1, .moveLogger 0, .destroyHandle 0] Mem.start = some m ∧
    m.logger 1 = some L ∧ L.level = 2 ∧ ∀ h, m.handle h = none := by
  refine ⟨_, _, rfl, rfl, rfl, ?_⟩
  intro h
  match h with
  | 0 => rfl
  | h + 1 => rfl

end Ovk.Logging
