/-
Model of src/core/Handle.hpp, src/core/Handle.inl: `handle`, which owns a resource of MPI (a number here) and a function
that frees it.  The resource is kept in an `optional` (Model/Optional.lean), the function in a `unique_ptr`.

Variables are numbered.  `none` is undefined behaviour.  Simplified: freeing a resource is recorded in `freed`.
-/
import Verif.Model.Optional

namespace Ovk.Hdl

structure State where
  /-- `Handle_` of every variable -/
  opt : Optn.Mem Nat
  /-- `Delete_` of the variable is not null -/
  del : Nat → Bool
  /-- the resources freed, the last one first -/
  freed : List Nat

def start : State := ⟨Optn.start, fun _ => false, []⟩

inductive Op
  /-- `handle<T> h;` -/
  | empty (h : Nat)
  /-- `handle<T> h(Resource, Delete);` -/
  | make (h r : Nat)
  /-- `handle<T> h(std::move(k));` -/
  | move (h k : Nat)
  /-- `h = std::move(k);` -/
  | assign (h k : Nat)
  /-- `h.Reset()` -/
  | reset (h : Nat)
  /-- `h.Release()` -/
  | release (h : Nat)
  /-- end of life -/
  | destroy (h : Nat)

def setDel (d : Nat → Bool) (h : Nat) (b : Bool) : Nat → Bool := fun q => if q = h then b else d q

/-- `Reset` (Handle.inl:53-61). -/
def reset (s : State) (h : Nat) : Option State := do
  if ← Optn.present s.opt h then
    let r ← Optn.get s.opt h
    if s.del h then
      let o ← Optn.step id s.opt (.reset h)
      some ⟨o, setDel s.del h false, r :: s.freed⟩
    else none
  else some s

def step (s : State) : Op → Option State
  -- Handle.hpp:22
  | .empty h => (Optn.step id s.opt (.empty h)).map fun o => { s with opt := o, del := setDel s.del h false }
  -- Handle.inl:7-17
  | .make h r => (Optn.step id s.opt (.value h r false)).map fun o => { s with opt := o, del := setDel s.del h true }
  -- Handle.hpp:28, member by member
  | .move h k => (Optn.step id s.opt (.move h k)).map fun o =>
      { s with opt := o, del := setDel (setDel s.del h (s.del k)) k false }
  -- Handle.hpp:31, member by member; assigning a `unique_ptr` destroys the function without calling it
  | .assign h k => (Optn.step id s.opt (.assignMove h k)).map fun o =>
      { s with opt := o, del := if h = k then s.del else setDel (setDel s.del h (s.del k)) k false }
  | .reset h => reset s h
  -- Handle.inl:63-69
  | .release h => (Optn.step id s.opt (.release h)).map fun o => { s with opt := o, del := setDel s.del h false }
  -- Handle.inl:19-23, then the members
  | .destroy h => do
    let s ← reset s h
    let o ← Optn.step id s.opt (.destroy h)
    some { s with opt := o }

def run (ops : List Op) : Option State := ops.foldlM step start

end Ovk.Hdl
