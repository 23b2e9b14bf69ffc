/-
Model of how `exchanger` (src/core/Exchanger.cpp 101-190) and `assembler` (src/core/Assembler.cpp 83-199, 325-346)
stay bound to components of a `domain` (src/core/Domain.cpp 380-403, src/core/Domain.inl 8-25, 38-66): every bound
object registers a listener for component events, and the listener unbinds the object when one of the components
it uses is destroyed.  Unbinding releases the handle, hence removes the listener from the event while the event is
being triggered.

An exchanger or assembler is a natural number; an exchanger uses one component, an assembler four.

Simplified: one domain, which outlives everything bound to it; barriers, logging and the data of the bound objects
are left out; that the `std::function` being executed is destroyed by its own listener is not an error here (it is
not used afterwards).  `none` is a violated `OVK_DEBUG_ASSERT` or an access to an entry that no longer exists.
-/
import Verif.Model.Editor

namespace Ovk.Bind

structure State where
  /-- keys of `Components_` (src/core/Domain.hpp) -/
  comps : List Int
  /-- `ComponentEvent_` and, for each exchanger or assembler, `ComponentEventListener_` -/
  ev : Ovk.Event.State Nat
  /-- the component IDs stored by a bound exchanger or assembler; `none`: not bound -/
  bound : Nat → Option (List Int)

def start : State := ⟨[], Ovk.Event.start, fun _ => none⟩

inductive Op where
  /-- `Domain.CreateComponent(c)` -/
  | create (c : Int)
  /-- an edit of component `c` ends -/
  | edit (c : Int)
  /-- `Object.Bind(Domain, Bindings)` -/
  | bind (i : Nat) (cs : List Int)
  /-- `Object.Unbind()`, or end of life -/
  | unbind (i : Nat)
  /-- `Domain.DestroyComponent(c)` -/
  | destroy (c : Int)
deriving DecidableEq

/-- `Unbind` (Exchanger.cpp:145-168, Assembler.cpp:167-199). -/
def release (s : State) (i : Nat) : State :=
  { s with
    ev := Ovk.Event.step s.ev (.reset i)
    bound := fun k => if k = i then none else s.bound k }

/-- `OnComponentEvent_` (Exchanger.cpp:178-191, Assembler.cpp:325-346) for a `DESTROY` event; an object that is not
bound has IDs -1. -/
def onDestroy (c : Int) (s : State) (i : Nat) : State :=
  match s.bound i with
  | none => s
  | some cs => if c ∈ cs then release s i else s

/-- The body of the loop in `Trigger` (Event.inl:19-22) with the iterator at position `k` of `Listeners_`. -/
def visit (c : Int) (s : State) (k : Nat) : Option State :=
  match s.ev.listeners.entries[k]? with
  | none => none
  | some e => some (onDestroy c s e.2)

/-- The loop in `Trigger` (Event.inl:17-24) from position `k`: the end of the range-based `for` is fixed when the
loop starts, `m` positions are left. -/
def visits (c : Int) : Nat → Nat → State → Option State
  | _, 0, s => some s
  | k, m + 1, s => (visit c s k).bind (visits c (k + 1) m)

/-- `DestroyComponent` (Domain.cpp:388-403). -/
def destroy (s : State) (c : Int) : Option State :=
  if c ∈ s.comps then
    (visits c 0 s.ev.listeners.entries.length s).map fun s =>
      { s with comps := s.comps.filter fun x => x != c }
  else none

def step (s : State) : Op → Option State
  -- `CreateComponent` (Domain.inl:6-25); listeners ignore `CREATE`
  | .create c => if 0 ≤ c ∧ c ∉ s.comps then some { s with comps := c :: s.comps } else none
  -- `EditComponent` (Domain.inl:38-66); listeners ignore `EDIT`
  | .edit c => if c ∈ s.comps then some s else none
  -- `Bind` (Exchanger.cpp:101-143, Assembler.cpp:83-165)
  | .bind i cs =>
    if s.bound i = none ∧ ∀ c ∈ cs, c ∈ s.comps then
      some { s with
        ev := Ovk.Event.step s.ev (.add i i)
        bound := fun k => if k = i then some cs else s.bound k }
    else none
  | .unbind i => if s.bound i = none then none else some (release s i)
  | .destroy c => destroy s c

def run (s : State) (ops : List Op) : Option State := ops.foldlM step s

end Ovk.Bind
