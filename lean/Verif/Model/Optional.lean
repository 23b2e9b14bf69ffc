/-
Model of src/core/Optional.hpp, src/core/Optional.inl: `optional`.

Variables are numbered.  A variable has raw storage, in which a value object may live or not, and the flag
`Present_`.  `none` is undefined behaviour: reading or destroying a value object where there is none.  Value objects
that are never destroyed (overwritten by `Create`, or left in storage that goes away) are counted in `lost`.

Simplified: temporaries inside a call are created and destroyed properly and not counted; `moved v` is what is left of
`v` after moving from it; `fail` means that the copy constructor, or another constructor of the value, throws; move
constructors do not throw.
-/
import Mathlib.Logic.Basic

namespace Ovk.Optn
variable {V : Type}

structure Slot (V : Type) where
  /-- the value object living in `ValueStorage_` -/
  live : Option V
  /-- `Present_` -/
  present : Bool

structure Mem (V : Type) where
  slot : Nat → Option (Slot V)
  lost : Nat

def start : Mem V := ⟨fun _ => none, 0⟩

def put (m : Mem V) (h : Nat) (s : Option (Slot V)) : Mem V :=
  { m with slot := fun q => if q = h then s else m.slot q }

/-- `value_storage::Create` (Optional.inl:204-209): whatever lived there is never destroyed. -/
def create (m : Mem V) (h : Nat) (v : V) : Option (Mem V) :=
  (m.slot h).map fun s =>
    { put m h (some { s with live := some v }) with lost := m.lost + if s.live.isSome then 1 else 0 }

/-- `value_storage::Destroy` (Optional.inl:211-216). -/
def destroyValue (m : Mem V) (h : Nat) : Option (Mem V) :=
  (m.slot h).bind fun s => if s.live.isSome then some (put m h (some { s with live := none })) else none

/-- `value_storage::Get` (Optional.inl:218-228), read. -/
def get (m : Mem V) (h : Nat) : Option V := (m.slot h).bind fun s => s.live

/-- `std::move(ValueStorage_.Get())`, used to construct another object. -/
def take (moved : V → V) (m : Mem V) (h : Nat) : Option (V × Mem V) :=
  (m.slot h).bind fun s => s.live.map fun v => (v, put m h (some { s with live := some (moved v) }))

def present (m : Mem V) (h : Nat) : Option Bool := (m.slot h).map fun s => s.present

def setPresent (m : Mem V) (h : Nat) (b : Bool) : Option (Mem V) :=
  (m.slot h).map fun s => put m h (some { s with present := b })

/-- `if (Present_) ValueStorage_.Destroy();` -/
def clear (m : Mem V) (h : Nat) : Option (Mem V) := do
  if ← present m h then destroyValue m h else some m

/-- The storage of a variable goes away. -/
def drop (m : Mem V) (h : Nat) : Option (Mem V) :=
  (m.slot h).map fun s => { put m h none with lost := m.lost + if s.live.isSome then 1 else 0 }

/-- A variable begins to exist, with raw storage. -/
def declare (m : Mem V) (h : Nat) (b : Bool) : Mem V := put m h (some ⟨none, b⟩)

inductive Op (V : Type)
  /-- `optional<V> h;` -/
  | empty (h : Nat)
  /-- `optional<V> h(v);` -/
  | value (h : Nat) (v : V) (fail : Bool)
  /-- `optional<V> h(k);` -/
  | copy (h k : Nat) (fail : Bool)
  /-- `optional<V> h(std::move(k));` -/
  | move (h k : Nat)
  /-- end of life of `h` -/
  | destroy (h : Nat)
  /-- `h = k;` -/
  | assignCopy (h k : Nat) (fail : Bool)
  /-- `h = std::move(k);` -/
  | assignMove (h k : Nat)
  /-- `h.Assign(v)` with an lvalue, or with arguments of another constructor -/
  | assign (h : Nat) (v : V) (fail : Bool)
  /-- `h.Assign(*k)` -/
  | assignFrom (h k : Nat) (fail : Bool)
  /-- `h.Assign(V(..))` -/
  | assignTemp (h : Nat) (v : V)
  /-- `h.Assign(std::move(*k))` -/
  | assignTake (h k : Nat)
  /-- `h.Release()` -/
  | release (h : Nat)
  /-- `h.Reset()` -/
  | reset (h : Nat)

/-- `Assign(const value_type &)` (Optional.inl:96-111), and with other arguments (127-144): `v` is the value from
which the temporary is made. -/
def assignValue (m : Mem V) (h : Nat) (v : V) (fail : Bool) : Option (Mem V) :=
  if fail then some m
  else do
    let m ← clear m h
    let m ← create m h v
    setPresent m h true

def step (moved : V → V) (m : Mem V) : Op V → Option (Mem V)
  -- Optional.hpp:25, 73-74
  | .empty h => some (declare m h false)
  -- Optional.inl:6-16
  | .value h v fail => if fail then some m else create (declare m h true) h v
  -- Optional.inl:18-24
  | .copy h k fail => do
    let p ← present m k
    if p then
      let v ← get m k
      if fail then some m else create (declare m h p) h v
    else some (declare m h p)
  -- Optional.inl:26-34
  | .move h k => do
    let p ← present m k
    let m := declare m h p
    let m ← (if p then do
        let (v, m) ← take moved m k
        let m ← create m h v
        destroyValue m k
      else some m)
    setPresent m k false
  -- Optional.inl:36-42
  | .destroy h => do
    let m ← clear m h
    drop m h
  -- Optional.inl:44-65
  | .assignCopy h k fail =>
    if h = k then some m
    else do
      let p ← present m k
      if p then
        let v ← get m k
        if fail then some m
        else do
          let m ← clear m h
          let m ← create m h v
          setPresent m h p
      else do
        let m ← clear m h
        setPresent m h p
  -- Optional.inl:67-82
  | .assignMove h k => do
    let m ← clear m h
    let p ← present m k
    let m ← (if p then do
        let (v, m) ← take moved m k
        create m h v
      else some m)
    let m ← setPresent m h p
    setPresent m k false
  -- Optional.inl:96-111, 127-144
  | .assign h v fail => assignValue m h v fail
  | .assignFrom h k fail => do
    let v ← get m k
    assignValue m h v fail
  -- Optional.inl:113-125
  | .assignTemp h v => do
    let m ← clear m h
    let m ← create m h v
    setPresent m h true
  | .assignTake h k => do
    let m ← clear m h
    let (v, m) ← take moved m k
    let m ← create m h v
    setPresent m h true
  -- Optional.inl:182-192
  | .release h => do
    let (_, m) ← take moved m h
    let m ← destroyValue m h
    setPresent m h false
  -- Optional.inl:194-202
  | .reset h => do
    let m ← clear m h
    setPresent m h false

def run (moved : V → V) (ops : List (Op V)) : Option (Mem V) := ops.foldlM (step moved) start

end Ovk.Optn
