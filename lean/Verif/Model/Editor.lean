/-
Model of src/core/Editor.hpp and src/core/Editor.inl: `editor`, `edit_handle`; of the way every editable
object uses them (for example src/core/ConnectivityM.cpp:172-196, src/core/State.cpp:95-115); and of
src/core/Event.hpp, src/core/Event.inl: `event`, `event_listener_handle`.

Handle variables are numbered.  `none` is undefined behaviour (calling an empty `DeactivateFunc_`).
Simplified: one editor with its handles; moving the editor itself (Editor.inl:6-23) is left out; the
deactivation function does not use the editor; listeners do not add or remove listeners while being
called; the event outlives its handles.
-/
import Verif.Model.Container

namespace Ovk.Edit

structure State where
  /-- `RefCount_` -/
  count : Int
  /-- `DeactivateFunc_` is set -/
  active : Bool
  /-- how often the deactivation function was called -/
  ended : Nat
  /-- the handle variable has an `Editor_` -/
  holds : Nat → Bool

def start : State := ⟨0, false, 0, fun _ => false⟩

/-- `Increment_` (Editor.inl:44-48). -/
def increment (s : State) : State := { s with count := s.count + 1 }

/-- `Decrement_` (Editor.inl:50-58). -/
def decrement (s : State) : Option State :=
  let c := s.count - 1
  if c = 0 then
    if s.active then some { s with count := c, active := false, ended := s.ended + 1 } else none
  else some { s with count := c }

/-- A temporary handle is destroyed (Editor.inl:94-100). -/
def dropIf (b : Bool) (s : State) : Option State := if b then decrement s else some s

def setHold (s : State) (h : Nat) (b : Bool) : State :=
  { s with holds := fun k => if k = h then b else s.holds k }

inductive Op where
  /-- `Handle = Object.Edit()` -/
  | edit (h : Nat)
  /-- `k = h` -/
  | copy (k h : Nat)
  /-- `k = std::move(h)` -/
  | move (k h : Nat)
  /-- end of life -/
  | destroy (h : Nat)
  /-- `h.Restore()` -/
  | restore (h : Nat)
  /-- `h.Release()` -/
  | release (h : Nat)
  /-- `Object.Restore()`, `editor::Restore` -/
  | editorRestore
deriving DecidableEq, Repr

/-- One operation.  Assignment takes its argument by value, swaps, and destroys the old contents
(Editor.inl:83-92). -/
def step (s : State) : Op → Option State
  | .edit h =>
    -- `if (!Editor.Active()) Editor.Activate(...)` (ConnectivityM.cpp:174-185; Editor.inl:25-30)
    let s := if s.active then s else { s with active := true }
    -- `Editor.Edit(Target)`: the constructor increments (Editor.inl:32-36, 60-65)
    dropIf (s.holds h) (setHold (increment s) h true)
  | .copy k h =>
    -- copy constructor (Editor.inl:67-74)
    let t := if s.holds h then increment s else s
    dropIf (s.holds k) (setHold t k (s.holds h))
  | .move k h =>
    -- move constructor (Editor.inl:76-81): `h` is left empty
    let x := s.holds h
    let t := setHold s h false
    dropIf (t.holds k) (setHold t k x)
  | .destroy h => dropIf (s.holds h) (setHold s h false)
  | .restore h => dropIf (s.holds h) s
  | .release h => some (setHold s h false)
  | .editorRestore => decrement s

def run (ops : List Op) (s : State) : Option State := ops.foldlM step s

end Ovk.Edit

namespace Ovk.Event
variable {L : Type}

structure State (L : Type) where
  /-- `Listeners_` -/
  listeners : OMap Int L
  /-- `ID_` of each handle variable -/
  ids : Nat → Int

def start : State L := ⟨⟨[], []⟩, fun _ => -1⟩

inductive Op (L : Type) where
  /-- `Handle = Event.AddListener(Listener)` -/
  | add (h : Nat) (l : L)
  /-- `k = std::move(h)` -/
  | move (k h : Nat)
  /-- `h.Reset()`, or end of life -/
  | reset (h : Nat)
deriving DecidableEq

/-- `event_listener_handle::Reset` for a handle with the given `ID_` (Event.inl:64-72); the handle itself
is emptied by the callers below. -/
def remove (m : OMap Int L) (id : Int) : OMap Int L := if id ≥ 0 then m.erase intLess id else m

def setId (s : State L) (h : Nat) (id : Int) : State L :=
  { s with ids := fun k => if k = h then id else s.ids k }

def step (s : State L) : Op L → State L
  | .add h l =>
    -- `AddListener` (Event.inl:6-15), then assignment: swap, old handle destroyed (Event.inl:46-62)
    let id := nextAvailableID s.listeners.keys
    let m := s.listeners.insert intLess id l
    setId { s with listeners := remove m (s.ids h) } h id
  | .move k h =>
    -- move constructor empties `h` (Event.inl:39-44), then swap and destroy the old contents
    let id := s.ids h
    let t := setId s h (-1)
    setId { t with listeners := remove t.listeners (t.ids k) } k id
  | .reset h => setId { s with listeners := remove s.listeners (s.ids h) } h (-1)

def run (ops : List (Op L)) : State L := ops.foldl step start

/-- `Trigger` (Event.inl:17-24): the listeners called, with their IDs, in order. -/
def trigger (s : State L) : List (Int × L) := s.listeners.entries

end Ovk.Event
