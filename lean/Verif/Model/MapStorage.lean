import Verif.Model.Container
/-!
# Storage of the values of maps that are not contiguous

Model of `map_noncontig`, i.e. `ovk::map<Key, Value, Compare, false>` (src/core/Map.hpp 26-31, 62-98,
108-148, 150-519, 566-567), at the level of the objects it creates and destroys.  Every value lives in
an object of its own, held by the `std::unique_ptr` of a `value_wrapper`; the entries, which hold the
pointers, live in an `array`, which moves them whenever an entry is inserted or erased or the storage
grows.

Objects are named by numbers which are never used twice, so that a name stands for an address together
with the lifetime of the object there.  Destroying an object that does not exist, and reading through a
null pointer or one to an object that does not exist, is the outcome `none`.

Simplified: the key set (an `array` of keys) and the keys in the entries are plain values; whether an
insertion or an assignment needs new storage is a parameter of the call (in the code it depends on the
capacity); keys are assumed to have move constructors that do not throw (`int` and `elem<int,N>`, the
only ones used), so that growing storage moves entries and does not copy them; exceptions and failing
allocation are left out; `Insert` of an `entry` and of a moved-from or constructed-in-place value differ
from `Insert(Key, Value)` only in how the new object gets its value.
-/
namespace Ovk
namespace MapMem

/-- The objects created by `new T` (src/core/Map.hpp 67, 71, 76, 80): the live ones with their values,
and the name of the next one. -/
structure Heap (ν : Type) where
  next : Nat
  cell : Nat → Option ν

/-- No objects. -/
def Heap.empty : Heap ν := ⟨0, fun _ => none⟩

/-- `new T(Value)` (src/core/Map.hpp 66-77). -/
def Heap.alloc (h : Heap ν) (v : ν) : Heap ν × Nat :=
  (⟨h.next + 1, fun a => if a = h.next then some v else h.cell a⟩, h.next)

/-- `delete`, by the destructor of `std::unique_ptr`; `none`: there is no such object. -/
def Heap.free (h : Heap ν) (a : Nat) : Option (Heap ν) :=
  match h.cell a with
  | none => none
  | some _ => some ⟨h.next, fun b => if b = a then none else h.cell b⟩

/-- Assigning to the object `a` through a reference; `none`: there is no such object. -/
def Heap.write (h : Heap ν) (a : Nat) (v : ν) : Option (Heap ν) :=
  match h.cell a with
  | none => none
  | some _ => some ⟨h.next, fun b => if b = a then some v else h.cell b⟩

/-- `value_wrapper<T,false>` (src/core/Map.hpp 62-98): a `std::unique_ptr<T>`, null when moved from. -/
abbrev Ptr := Option Nat

/-- `~value_wrapper` (implicit; src/core/Map.hpp 62-98): destroys the object, if any. -/
def destroyPtr (h : Heap ν) : Ptr → Option (Heap ν)
  | none => some h
  | some a => h.free a

/-- `value_wrapper::Get` (src/core/Map.hpp 91-92); `none`: null or dangling. -/
def getPtr (h : Heap ν) : Ptr → Option ν
  | none => none
  | some a => h.cell a

/-- Copy constructor (src/core/Map.hpp 79-81): a new object with the value of the other. -/
def copyPtr (h : Heap ν) (p : Ptr) : Option (Heap ν × Ptr) :=
  match getPtr h p with
  | none => none
  | some v => some ((h.alloc v).1, some (h.alloc v).2)

/-- Move constructor (src/core/Map.hpp 83-85): the new pointer and what is left in the source. -/
def movePtr (src : Ptr) : Ptr × Ptr := (src, none)

/-- `operator=(value_wrapper Other)` (src/core/Map.hpp 87-91) with the parameter `other` already
constructed: the pointers are swapped, then the parameter is destroyed. -/
def assignPtr (h : Heap ν) (dst other : Ptr) : Option (Heap ν × Ptr) :=
  match destroyPtr h dst with
  | none => none
  | some h' => some (h', other)

/-- `Dst = std::move(Src)`: the parameter is move constructed.  Heap, destination, source. -/
def moveAssignPtr (h : Heap ν) (dst src : Ptr) : Option (Heap ν × Ptr × Ptr) :=
  match assignPtr h dst (movePtr src).1 with
  | none => none
  | some (h', dst') => some (h', dst', (movePtr src).2)

/-- `Dst = Src` with an lvalue: the parameter is copy constructed. -/
def copyAssignPtr (h : Heap ν) (dst src : Ptr) : Option (Heap ν × Ptr) :=
  match copyPtr h src with
  | none => none
  | some (h', other) => assignPtr h' dst other

/-- `map_entry<Key,Value,false>` (src/core/Map.hpp 108-148): key and wrapper. -/
abbrev Slot (κ : Type) := κ × Ptr

/-- `std::vector::erase` (called at src/core/Vector.hpp 241-249) from the erased entry `cur` on, `rest`
being the entries behind it: each is move assigned to its predecessor, then the last is destroyed. -/
def shiftDown (h : Heap ν) : Slot κ → List (Slot κ) → Option (Heap ν × List (Slot κ))
  | cur, [] => (destroyPtr h cur.2).map fun h' => (h', [])
  | cur, x :: rest =>
    match moveAssignPtr h cur.2 x.2 with
    | none => none
    | some (h1, dst, src) =>
      (shiftDown h1 (x.1, src) rest).map fun r => (r.1, (x.1, dst) :: r.2)

/-- `std::vector::erase` at position `i` (called at src/core/Vector.hpp 241-249). -/
def vecErase (h : Heap ν) : List (Slot κ) → Nat → Option (Heap ν × List (Slot κ))
  | [], _ => none
  | x :: rest, 0 => shiftDown h x rest
  | x :: rest, i + 1 => (vecErase h rest i).map fun r => (r.1, x :: r.2)

/-- Making room in front of the entries `cur :: rest` when the storage is large enough (libstdc++,
`_M_insert_aux`): the last is moved into the space behind it, the others are move assigned backwards.
Heap, what is left in `cur`, and the entries behind it. -/
def shiftUp (h : Heap ν) : Slot κ → List (Slot κ) → Option (Heap ν × Slot κ × List (Slot κ))
  | cur, [] => some (h, (cur.1, (movePtr cur.2).2), [(cur.1, (movePtr cur.2).1)])
  | cur, x :: rest =>
    match shiftUp h x rest with
    | none => none
    | some (h1, x', rest') =>
      match moveAssignPtr h1 x'.2 cur.2 with
      | none => none
      | some (h2, dst, src) => some (h2, (cur.1, src), (cur.1, dst) :: rest')

/-- `std::vector::insert(Pos, T &&)` at position `i` (called at src/core/Vector.hpp 230-239) when the
storage is large enough; `tmp` is the entry constructed from the arguments, destroyed at the end. -/
def vecInsertInPlace (h : Heap ν) : List (Slot κ) → Nat → Slot κ → Option (Heap ν × List (Slot κ))
  | [], 0, tmp => (destroyPtr h (movePtr tmp.2).2).map fun h' => (h', [(tmp.1, (movePtr tmp.2).1)])
  | [], _ + 1, _ => none
  | x :: rest, 0, tmp =>
    match shiftUp h x rest with
    | none => none
    | some (h1, x', rest') =>
      match moveAssignPtr h1 x'.2 tmp.2 with
      | none => none
      | some (h2, dst, src) => (destroyPtr h2 src).map fun h3 => (h3, (tmp.1, dst) :: rest')
  | x :: rest, i + 1, tmp => (vecInsertInPlace h rest i tmp).map fun r => (r.1, x :: r.2)

/-- Moving all entries to new storage: the new entries and what is left in the old ones. -/
def relocate (l : List (Slot κ)) : List (Slot κ) × List (Slot κ) :=
  (l.map fun s => (s.1, (movePtr s.2).1), l.map fun s => (s.1, (movePtr s.2).2))

/-- Destroying the entries of a storage, first to last. -/
def destroyAll (h : Heap ν) : List (Slot κ) → Option (Heap ν)
  | [] => some h
  | s :: rest => (destroyPtr h s.2).bind fun h' => destroyAll h' rest

/-- `std::vector::insert(Pos, T &&)` when new storage is needed: the new entry is constructed in its
place, the others are moved around it, the old ones destroyed. -/
def vecInsertGrow (h : Heap ν) (l : List (Slot κ)) (i : Nat) (tmp : Slot κ) :
    Option (Heap ν × List (Slot κ)) :=
  if i ≤ l.length then
    match destroyAll h (relocate l).2 with
    | none => none
    | some h1 =>
      (destroyPtr h1 (movePtr tmp.2).2).map fun h2 =>
        (h2, (relocate (l.take i)).1 ++ (tmp.1, (movePtr tmp.2).1) :: (relocate (l.drop i)).1)
  else none

/-- `vector::Insert(Pos, Args...)` (src/core/Vector.hpp 230-239) through `array::Insert`
(src/core/Array.hpp 343-351): an entry is constructed from key and value, then inserted. -/
def entriesInsert (h : Heap ν) (l : List (Slot κ)) (i : Nat) (k : κ) (v : ν) (grow : Bool) :
    Option (Heap ν × List (Slot κ)) :=
  let (h1, a) := h.alloc v
  if grow then vecInsertGrow h1 l i (k, some a) else vecInsertInPlace h1 l i (k, some a)

/-- `*EntriesIter = {Key, Value}` (src/core/Map.hpp 284): a temporary entry is constructed, move
assigned and destroyed. -/
def entriesReplace (h : Heap ν) (l : List (Slot κ)) (i : Nat) (k : κ) (v : ν) :
    Option (Heap ν × List (Slot κ)) :=
  match l[i]? with
  | none => none
  | some s =>
    let (h1, a) := h.alloc v
    match moveAssignPtr h1 s.2 (some a) with
    | none => none
    | some (h2, dst, src) => (destroyPtr h2 src).map fun h3 => (h3, l.set i (k, dst))

/-- `map` (src/core/Map.hpp 514-515): `Keys_` and `Entries_`. -/
structure NMap (κ : Type) where
  keys : List κ
  slots : List (Slot κ)

/-- `map()` (src/core/Map.hpp 166). -/
def NMap.empty : NMap κ := ⟨[], []⟩

/-- `map::Insert(Key, Value)` (src/core/Map.hpp 276-287). -/
def insert (lt : κ → κ → Bool) (h : Heap ν) (m : NMap κ) (k : κ) (v : ν) (grow : Bool) :
    Option (Heap ν × NMap κ) :=
  let i := OSet.lowerBound lt m.keys k
  match m.keys[i]? with
  | none => (entriesInsert h m.slots i k v grow).map fun r =>
      (r.1, ⟨OSet.insertAt lt m.keys i k, r.2⟩)
  | some x =>
    if lt k x then (entriesInsert h m.slots i k v grow).map fun r =>
      (r.1, ⟨OSet.insertAt lt m.keys i k, r.2⟩)
    else (entriesReplace h m.slots i k v).map fun r => (r.1, ⟨m.keys, r.2⟩)

/-- `map::Fetch(Key, InsertValue)` (src/core/Map.hpp 460-468). -/
def fetch (lt : κ → κ → Bool) (h : Heap ν) (m : NMap κ) (k : κ) (v : ν) (grow : Bool) :
    Option (Heap ν × NMap κ) :=
  let i := OSet.lowerBound lt m.keys k
  match m.keys[i]? with
  | none => (entriesInsert h m.slots i k v grow).map fun r =>
      (r.1, ⟨OSet.insertAt lt m.keys i k, r.2⟩)
  | some x =>
    if lt k x then (entriesInsert h m.slots i k v grow).map fun r =>
      (r.1, ⟨OSet.insertAt lt m.keys i k, r.2⟩)
    else some (h, m)

/-- `map::Erase(Key)` (src/core/Map.hpp 355-362). -/
def erase (lt : κ → κ → Bool) (h : Heap ν) (m : NMap κ) (k : κ) : Option (Heap ν × NMap κ) :=
  let i := OSet.lowerBound lt m.keys k
  match m.keys[i]? with
  | none => some (h, m)
  | some x =>
    if lt k x then some (h, m)
    else (vecErase h m.slots i).map fun r => (r.1, ⟨m.keys.eraseIdx i, r.2⟩)

/-- The loop of `map::EraseIf` (src/core/Map.hpp 371-384) from position `i` on, with `fuel` turns at
most. -/
def eraseIfFrom (p : κ → ν → Bool) : Nat → Heap ν → NMap κ → Nat → Option (Heap ν × NMap κ)
  | 0, h, m, i => if i = m.slots.length then some (h, m) else none
  | fuel + 1, h, m, i =>
    match m.slots[i]? with
    | none => some (h, m)
    | some s =>
      match getPtr h s.2 with
      | none => none
      | some v =>
        if p s.1 v then
          match vecErase h m.slots i with
          | none => none
          | some (h1, l) => eraseIfFrom p fuel h1 ⟨m.keys.eraseIdx i, l⟩ i
        else eraseIfFrom p fuel h m (i + 1)

/-- `map::EraseIf` (src/core/Map.hpp 371-384); every turn erases an entry or passes one. -/
def eraseIf (p : κ → ν → Bool) (h : Heap ν) (m : NMap κ) : Option (Heap ν × NMap κ) :=
  eraseIfFrom p m.slots.length h m 0

/-- `map::Clear` (src/core/Map.hpp 401-404), and the destruction of a map. -/
def clear (h : Heap ν) (m : NMap κ) : Option (Heap ν × NMap κ) :=
  (destroyAll h m.slots).map fun h' => (h', NMap.empty)

/-- `map::Reserve` (src/core/Map.hpp 406-409); `grow`: new storage is needed. -/
def reserve (h : Heap ν) (m : NMap κ) (grow : Bool) : Option (Heap ν × NMap κ) :=
  if grow then (destroyAll h (relocate m.slots).2).map fun h' => (h', ⟨m.keys, (relocate m.slots).1⟩)
  else some (h, m)

/-- `map::Find` (src/core/Map.hpp 415-422), dereferenced: the object and its value. -/
def find (lt : κ → κ → Bool) (h : Heap ν) (m : NMap κ) (k : κ) : Option (Nat × ν) :=
  match m.slots[OSet.find lt m.keys k]? with
  | some (_, some a) => (h.cell a).map fun v => (a, v)
  | _ => none

/-- `Map(Key) = Value`, by `map::operator()` (src/core/Map.hpp 455-458). -/
def write (lt : κ → κ → Bool) (h : Heap ν) (m : NMap κ) (k : κ) (v : ν) : Option (Heap ν × NMap κ) :=
  match m.slots[OSet.lowerBound lt m.keys k]? with
  | some (_, some a) => (h.write a v).map fun h' => (h', m)
  | _ => none

/-- Copy construction of entries (implicit copy constructor of `map_entry`, src/core/Map.hpp
108-148). -/
def copyAll (h : Heap ν) : List (Slot κ) → Option (Heap ν × List (Slot κ))
  | [] => some (h, [])
  | s :: rest =>
    match copyPtr h s.2 with
    | none => none
    | some (h1, p) => (copyAll h1 rest).map fun r => (r.1, (s.1, p) :: r.2)

/-- `std::vector` copy assignment when the storage is large enough: entries present on both sides are
copy assigned, further ones copy constructed, surplus ones destroyed. -/
def assignAll (h : Heap ν) : List (Slot κ) → List (Slot κ) → Option (Heap ν × List (Slot κ))
  | dst, [] => (destroyAll h dst).map fun h' => (h', [])
  | [], src => copyAll h src
  | d :: dst, s :: src =>
    match copyAssignPtr h d.2 s.2 with
    | none => none
    | some (h1, p) => (assignAll h1 dst src).map fun r => (r.1, (s.1, p) :: r.2)

/-- Copy assignment of maps (implicit; src/core/Map.hpp 150-519, src/core/Array.hpp 155-159), not to
itself; `grow`: new storage is needed. -/
def copyAssign (h : Heap ν) (dst src : NMap κ) (grow : Bool) : Option (Heap ν × NMap κ) :=
  if grow then
    match copyAll h src.slots with
    | none => none
    | some (h1, l) => (destroyAll h1 dst.slots).map fun h2 => (h2, ⟨src.keys, l⟩)
  else (assignAll h dst.slots src.slots).map fun r => (r.1, ⟨src.keys, r.2⟩)

/-- A program's maps, and the objects they own. -/
structure State (κ ν : Type) where
  heap : Heap ν
  maps : Nat → Option (NMap κ)

/-- No maps yet. -/
def State.init : State κ ν := ⟨Heap.empty, fun _ => none⟩

/-- The calls; `x`, `y` name map variables. -/
inductive Op (κ ν : Type)
  | construct (x : Nat)
  | insert (x : Nat) (k : κ) (v : ν) (grow : Bool)
  | fetch (x : Nat) (k : κ) (v : ν) (grow : Bool)
  | erase (x : Nat) (k : κ)
  | eraseIf (x : Nat) (p : κ → ν → Bool)
  | clear (x : Nat)
  | reserve (x : Nat) (grow : Bool)
  | write (x : Nat) (k : κ) (v : ν)
  | copy (x y : Nat)
  | move (x y : Nat)
  | copyAssign (x y : Nat) (grow : Bool)
  | moveAssign (x y : Nat)
  | destroy (x : Nat)

/-- Replace variable `x`. -/
def State.put (s : State κ ν) (x : Nat) (h : Heap ν) (m : Option (NMap κ)) : State κ ν :=
  ⟨h, fun y => if y = x then m else s.maps y⟩

/-- A call of a member function on variable `x`; `none`: there is no such map. -/
def State.on (s : State κ ν) (x : Nat) (f : Heap ν → NMap κ → Option (Heap ν × NMap κ)) :
    Option (State κ ν) :=
  match s.maps x with
  | none => none
  | some m => (f s.heap m).map fun r => s.put x r.1 (some r.2)

/-- Effect of one call.  `copy x y`, `move x y` construct `y` from `x`; `copyAssign x y`,
`moveAssign x y` assign `x` to `y`.  A map that was moved from is left empty (src/core/Array.hpp
99-104, 167-172, of `Keys_` and `Entries_`). -/
def step (lt : κ → κ → Bool) (s : State κ ν) : Op κ ν → Option (State κ ν)
  | .construct x =>
    match s.maps x with
    | some _ => none
    | none => some (s.put x s.heap (some NMap.empty))
  | .insert x k v grow => s.on x fun h m => insert lt h m k v grow
  | .fetch x k v grow => s.on x fun h m => fetch lt h m k v grow
  | .erase x k => s.on x fun h m => erase lt h m k
  | .eraseIf x p => s.on x fun h m => eraseIf p h m
  | .clear x => s.on x clear
  | .reserve x grow => s.on x fun h m => reserve h m grow
  | .write x k v => s.on x fun h m => write lt h m k v
  | .copy x y =>
    match s.maps x, s.maps y with
    | some m, none => (copyAll s.heap m.slots).map fun r => s.put y r.1 (some ⟨m.keys, r.2⟩)
    | _, _ => none
  | .move x y =>
    match s.maps x, s.maps y with
    | some m, none => some ((s.put y s.heap (some m)).put x s.heap (some NMap.empty))
    | _, _ => none
  | .copyAssign x y grow =>
    if x = y then (s.maps x).map fun _ => s
    else
      match s.maps x with
      | none => none
      | some m => s.on y fun h d => copyAssign h d m grow
  | .moveAssign x y =>
    if x = y then none
    else
      match s.maps x, s.maps y with
      | some m, some d =>
        (destroyAll s.heap d.slots).map fun h =>
          (s.put y h (some m)).put x h (some NMap.empty)
      | _, _ => none
  | .destroy x =>
    match s.maps x with
    | none => none
    | some m => (clear s.heap m).map fun r => s.put x r.1 none

/-- A program's calls, from the start. -/
def run (lt : κ → κ → Bool) : State κ ν → List (Op κ ν) → Option (State κ ν)
  | s, [] => some s
  | s, op :: ops => (step lt s op).bind fun s' => run lt s' ops

end MapMem
end Ovk
