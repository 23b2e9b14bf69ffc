/-
Model of `scope_guard` (src/core/ScopeGuard.hpp:14-41, ScopeGuard.inl:7-54).
-/
import Mathlib.Data.List.Basic

namespace Ovk.Guard

/-- `scope_guard`: the function, here its number, and `Dismissed_`. -/
structure ScopeGuard where
  fn : Nat
  dismissed : Bool
deriving DecidableEq

/-- The guards of a program, `none` for those that were destroyed; how many functions were given to guards; the functions
that were called, in order; and, for the specification only, those whose guard was dismissed. -/
structure State where
  guards : List (Option ScopeGuard)
  made : Nat
  calls : List Nat
  dropped : List Nat

def State.init : State := ⟨[], 0, [], []⟩

def State.get (s : State) (g : Nat) : Option ScopeGuard := (s.guards[g]?).bind id

def State.put (s : State) (g : Nat) (x : Option ScopeGuard) : State := { s with guards := s.guards.set g x }

inductive Op
  | create
  | moveNew (other : Nat)
  | assign (this other : Nat)
  | dismiss (this : Nat)
  | destroy (this : Nat)

/-- `if (!Dismissed_) ScopeExitFunc_();` -/
def State.fire (s : State) (x : ScopeGuard) : State :=
  if x.dismissed then s else { s with calls := s.calls ++ [x.fn] }

/-- One operation; `none` if a guard it names does not exist. -/
def step (s : State) : Op → Option State
  /- ScopeGuard.inl:7-10 -/
  | .create => some { s with guards := s.guards ++ [some ⟨s.made, false⟩], made := s.made + 1 }
  /- ScopeGuard.inl:12-17 -/
  | .moveNew o => (s.get o).map fun x =>
      let t := s.put o (some { x with dismissed := true })
      { t with guards := t.guards ++ [some x] }
  /- ScopeGuard.inl:27-39; both may be the same guard -/
  | .assign g o => (s.get g).bind fun x => (s.get o).bind fun y =>
      let t := (s.fire x).put g (some y)
      (t.get o).map fun z => t.put o (some { z with dismissed := true })
  /- ScopeGuard.inl:41-47 -/
  | .dismiss g => (s.get g).map fun x =>
      let t := s.put g (some { x with dismissed := true })
      if x.dismissed then t else { t with dropped := t.dropped ++ [x.fn] }
  /- ScopeGuard.inl:19-25 -/
  | .destroy g => (s.get g).map fun x => (s.fire x).put g none

def run : List Op → State → Option State
  | [], s => some s
  | o :: os, s => (step s o).bind (run os)

end Ovk.Guard
