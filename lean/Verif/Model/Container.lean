/-!
# Sorted-array containers

Model of `ovk::set` (src/core/Set.hpp), `ovk::map` (src/core/Map.hpp) and `ovk::NextAvailableID`
(src/core/ID.hpp).  `lt` is the comparator (`CompareType`); the default is `std::less`.
Simplified: capacity/`Reserve` and copy/move construction have no observable effect and are left out.
-/
namespace Ovk

/-- The loop of `std::lower_bound` (called at src/core/Set.hpp 196-202): repeatedly halve the interval
of `len` positions starting at `first`.  `goRight x` is the tested predicate `Compare_(x, Value)`. -/
def bisect (l : List α) (goRight : α → Bool) (first len : Nat) : Nat :=
  if _h : len = 0 then first
  else
    let half := len / 2
    match l[first + half]? with
    | none => first
    | some x =>
      if goRight x then bisect l goRight (first + half + 1) (len - half - 1)
      else bisect l goRight first half
termination_by len
decreasing_by all_goals omega

namespace OSet

/-- `set::LowerBound_` (src/core/Set.hpp 196-202), as a position. -/
def lowerBound (lt : α → α → Bool) (l : List α) (v : α) : Nat :=
  bisect l (fun x => lt x v) 0 l.length

/-- `set::UpperBound_` (src/core/Set.hpp 204-210), as a position. -/
def upperBound (lt : α → α → Bool) (l : List α) (v : α) : Nat :=
  bisect l (fun x => !lt v x) 0 l.length

/-- `set::Insert(Iter, Value)` (src/core/Set.hpp 111-117) at position `i`. -/
def insertAt (lt : α → α → Bool) (l : List α) (i : Nat) (v : α) : List α :=
  match l[i]? with
  | none => l.insertIdx i v
  | some x => if lt v x then l.insertIdx i v else l

/-- `set::Insert(Value)` (src/core/Set.hpp 104-109). -/
def insert (lt : α → α → Bool) (l : List α) (v : α) : List α :=
  insertAt lt l (lowerBound lt l v) v

/-- `set::Contains` (src/core/Set.hpp 148-151). -/
def contains (lt : α → α → Bool) (l : List α) (v : α) : Bool :=
  match l[lowerBound lt l v]? with
  | none => false
  | some x => !lt v x

/-- `set::Find` (src/core/Set.hpp 153-159), as a position; the end position if absent. -/
def find (lt : α → α → Bool) (l : List α) (v : α) : Nat :=
  match l[lowerBound lt l v]? with
  | none => l.length
  | some x => if lt v x then l.length else lowerBound lt l v

/-- `set::Erase(Value)` (src/core/Set.hpp 119-124). -/
def erase (lt : α → α → Bool) (l : List α) (v : α) : List α :=
  match l[lowerBound lt l v]? with
  | none => l
  | some x => if lt v x then l else l.eraseIdx (lowerBound lt l v)

/-- `set::EraseIf` (src/core/Set.hpp 132-142): the loop from position `i`. -/
def eraseIfFrom (p : α → Bool) (l : List α) (i : Nat) : List α :=
  match h : l[i]? with
  | none => l
  | some x => if p x then eraseIfFrom p (l.eraseIdx i) i else eraseIfFrom p l (i + 1)
termination_by l.length - i
decreasing_by
  all_goals
    have := (List.getElem?_eq_some_iff.1 h).1
    try simp only [List.length_eraseIdx]
    try split
    all_goals omega

/-- `set::EraseIf` (src/core/Set.hpp 132-142). -/
def eraseIf (p : α → Bool) (l : List α) : List α := eraseIfFrom p l 0

/-- One mutating call on a set. -/
inductive Op (α : Type)
  | insert (v : α)
  | erase (v : α)
  | eraseIf (p : α → Bool)
  | clear

/-- Effect of one call. -/
def step (lt : α → α → Bool) (l : List α) : Op α → List α
  | .insert v => insert lt l v
  | .erase v => erase lt l v
  | .eraseIf p => eraseIf p l
  | .clear => []

/-- A set after a history of calls, starting empty.  The constructors and `Assign`
(src/core/Set.hpp 40-98) are `Clear` followed by repeated `Insert`. -/
def run (lt : α → α → Bool) (ops : List (Op α)) : List α := ops.foldl (step lt) []

end OSet

/-- `ovk::map` (src/core/Map.hpp 514-515): a key set and a parallel array of entries. -/
structure OMap (κ ν : Type) where
  keys : List κ
  entries : List (κ × ν)

namespace OMap

/-- `map::Insert` (src/core/Map.hpp 252-312): a new entry, or replacement of the entry at the key. -/
def insert (lt : κ → κ → Bool) (m : OMap κ ν) (k : κ) (v : ν) : OMap κ ν :=
  let i := OSet.lowerBound lt m.keys k
  match m.keys[i]? with
  | none => ⟨OSet.insertAt lt m.keys i k, m.entries.insertIdx i (k, v)⟩
  | some x =>
    if lt k x then ⟨OSet.insertAt lt m.keys i k, m.entries.insertIdx i (k, v)⟩
    else ⟨m.keys, m.entries.set i (k, v)⟩

/-- `map::Fetch` (src/core/Map.hpp 460-490): insert only if absent. -/
def fetch (lt : κ → κ → Bool) (m : OMap κ ν) (k : κ) (v : ν) : OMap κ ν :=
  let i := OSet.lowerBound lt m.keys k
  match m.keys[i]? with
  | none => ⟨OSet.insertAt lt m.keys i k, m.entries.insertIdx i (k, v)⟩
  | some x =>
    if lt k x then ⟨OSet.insertAt lt m.keys i k, m.entries.insertIdx i (k, v)⟩ else m

/-- `map::Erase(Key)` (src/core/Map.hpp 355-362). -/
def erase (lt : κ → κ → Bool) (m : OMap κ ν) (k : κ) : OMap κ ν :=
  let i := OSet.lowerBound lt m.keys k
  match m.keys[i]? with
  | none => m
  | some x => if lt k x then m else ⟨m.keys.eraseIdx i, m.entries.eraseIdx i⟩

/-- `map::EraseIf` (src/core/Map.hpp 371-384): both arrays walked in step, from position `i`. -/
def eraseIfFrom (p : κ × ν → Bool) (m : OMap κ ν) (i : Nat) : OMap κ ν :=
  match h : m.entries[i]? with
  | none => m
  | some x =>
    if p x then eraseIfFrom p ⟨m.keys.eraseIdx i, m.entries.eraseIdx i⟩ i
    else eraseIfFrom p m (i + 1)
termination_by m.entries.length - i
decreasing_by
  all_goals
    have := (List.getElem?_eq_some_iff.1 h).1
    try simp only [List.length_eraseIdx]
    try split
    all_goals omega

/-- `map::EraseIf` (src/core/Map.hpp 371-384). -/
def eraseIf (p : κ × ν → Bool) (m : OMap κ ν) : OMap κ ν := eraseIfFrom p m 0

/-- `map::Contains` (src/core/Map.hpp 411-413). -/
def contains (lt : κ → κ → Bool) (m : OMap κ ν) (k : κ) : Bool := OSet.contains lt m.keys k

/-- `map::operator()` (src/core/Map.hpp 450-458): no check that the key is present; `none` is an
out-of-bounds access. -/
def get? (lt : κ → κ → Bool) (m : OMap κ ν) (k : κ) : Option ν :=
  (m.entries[OSet.lowerBound lt m.keys k]?).map Prod.snd

/-- `map::Find` (src/core/Map.hpp 415-422), dereferenced; `none` is the end iterator. -/
def find? (lt : κ → κ → Bool) (m : OMap κ ν) (k : κ) : Option (κ × ν) :=
  m.entries[OSet.find lt m.keys k]?

/-- Writing through the reference returned by `operator()`/`Fetch`/`Find`. -/
def modify (lt : κ → κ → Bool) (m : OMap κ ν) (k : κ) (f : ν → ν) : OMap κ ν :=
  ⟨m.keys, m.entries.modify (OSet.lowerBound lt m.keys k) (fun e => (e.1, f e.2))⟩

/-- One mutating call on a map. -/
inductive Op (κ ν : Type)
  | insert (k : κ) (v : ν)
  | fetch (k : κ) (v : ν)
  | erase (k : κ)
  | eraseIf (p : κ × ν → Bool)
  | clear

/-- Effect of one call. -/
def step (lt : κ → κ → Bool) (m : OMap κ ν) : Op κ ν → OMap κ ν
  | .insert k v => insert lt m k v
  | .fetch k v => fetch lt m k v
  | .erase k => erase lt m k
  | .eraseIf p => eraseIf p m
  | .clear => ⟨[], []⟩

/-- A map after a history of calls, starting empty. -/
def run (lt : κ → κ → Bool) (ops : List (Op κ ν)) : OMap κ ν := ops.foldl (step lt) ⟨[], []⟩

end OMap

/-- `std::less<int>`, the default comparator. -/
def intLess (a b : Int) : Bool := decide (a < b)

/-- `elem<int,N>` (src/core/Elem.hpp): `n` integers. -/
abbrev Elem (n : Nat) := {l : List Int // l.length = n}

/-- `elem_less::Compare_`, row major (src/core/Elem.hpp 389-399), on the remaining components. -/
def elemLessFrom : List Int → List Int → Bool
  | [x], [y] => decide (x < y)
  | x :: xs, y :: ys => decide (x < y) || (x == y && elemLessFrom xs ys)
  | _, _ => false

/-- `elem_less<int,N,ROW_MAJOR>` (src/core/Elem.hpp 371-399). -/
def elemLess {n : Nat} (l r : Elem n) : Bool := elemLessFrom l.1 r.1

/-- `elem_less<int,N,COLUMN_MAJOR>` (src/core/Elem.hpp 401-429): the last component first. -/
def elemLessCol {n : Nat} (l r : Elem n) : Bool := elemLessFrom l.1.reverse r.1.reverse

/-- `NextAvailableID` (src/core/ID.hpp 12-27): the loop with its `PrevID`. -/
def nextIDFrom (prev : Int) : List Int → Int
  | [] => prev + 1
  | x :: rest => if x - prev > 1 then prev + 1 else nextIDFrom x rest

/-- `NextAvailableID` (src/core/ID.hpp 12-27). -/
def nextAvailableID (ids : List Int) : Int := nextIDFrom (-1) ids

end Ovk
