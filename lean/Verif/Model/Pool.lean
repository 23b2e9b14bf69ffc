import Verif.Model.Container
import Verif.Model.Cart
/-!
# Pool of partitions

Model of `partition_pool` (src/core/Partition.cpp 66-188) on all processes of the grid communicator together.
The comparisons of a stored partition with the request are combined over the processes by `MPI_Allreduce` with
`MPI_LAND`, so all processes find the same position.
-/
namespace Ovk.Pool
variable {d n : Nat}

/-- `cart` with its number of dimensions; `d` is `MAX_DIMS`. -/
structure Key (d : Nat) where
  dim : Nat
  cart : Cart d

/-- A shared partition: what it was created with on the processes, and the identity of the object. -/
structure Part (d n : Nat) where
  key : Key d
  loc : Fin n → Rng d
  ext : Fin n → Rng d
  subs : Fin n → Int
  id : Nat

/-- Number of the enumerator (Cart.h). -/
def storageNum : PStorage → Nat
  | .unique => 0
  | .duplicated => 1

/-- `CartLess_` (159-188). -/
def cartLess (l r : Key d) : Bool :=
  decide (l.dim < r.dim) ||
  decide (∃ i, l.cart.range.b i < r.cart.range.b i) ||
  decide (∃ i, l.cart.range.e i < r.cart.range.e i) ||
  decide (∃ i, (!l.cart.periodic i && r.cart.periodic i) = true) ||
  decide (storageNum l.cart.storage < storageNum r.cart.storage)

/-- `Matches` after the reduction (82-86, 113-117, 142-146). -/
def Part.matches (p : Part d n) (loc ext : Fin n → Rng d) (subs : Fin n → Int) : Bool :=
  decide (∀ k, (∀ i, (p.loc k).b i = (loc k).b i ∧ (p.loc k).e i = (loc k).e i) ∧
    (∀ i, (p.ext k).b i = (ext k).b i ∧ (p.ext k).e i = (ext k).e i) ∧ p.subs k = subs k)

/-- `Partitions_`, and the next fresh identity. -/
structure Pool (d n : Nat) where
  parts : OMap (Key d) (List (Part d n)) := ⟨[], []⟩
  next : Nat := 0

/-- Position of the key in `Partitions_` after `Partitions_.Fetch(Cart)`, and the map (`map::Fetch`, Map.hpp:480-490). -/
def Pool.row (q : Pool d n) (k : Key d) : Nat × OMap (Key d) (List (Part d n)) :=
  (OSet.lowerBound cartLess q.parts.keys k, q.parts.fetch cartLess k [])

/-- The value at a position of the map. -/
def valueAt (m : OMap (Key d) (List (Part d n))) (i : Nat) : List (Part d n) :=
  ((m.entries[i]?).map Prod.snd).getD []

/-- Writing the value at a position of the map. -/
def setAt (m : OMap (Key d) (List (Part d n))) (i : Nat) (v : List (Part d n)) : OMap (Key d) (List (Part d n)) :=
  ⟨m.keys, m.entries.modify i fun e => (e.1, v)⟩

/-- `Fetch` (103-127). -/
def Pool.fetch (q : Pool d n) (k : Key d) (loc ext : Fin n → Rng d) (subs : Fin n → Int) :
    Pool d n × Part d n :=
  let r := q.row k
  let l := valueAt r.2 r.1
  match l.find? fun p => p.matches loc ext subs with
  | some p => (⟨r.2, q.next⟩, p)
  | none =>
    let p : Part d n := ⟨k, loc, ext, subs, q.next⟩
    (⟨setAt r.2 r.1 (l ++ [p]), q.next + 1⟩, p)

/-- Replacing the first match. -/
def replaceFirst (f : Part d n → Bool) (p : Part d n) : List (Part d n) → List (Part d n)
  | [] => [p]
  | x :: l => if f x then p :: l else x :: replaceFirst f p l

/-- `Insert` (75-101) of an existing partition. -/
def Pool.insert (q : Pool d n) (p : Part d n) : Pool d n :=
  let r := q.row p.key
  ⟨setAt r.2 r.1 (replaceFirst (fun x => x.matches p.loc p.ext p.subs) p (valueAt r.2 r.1)), max q.next (p.id + 1)⟩

/-- `Erase` (129-157). -/
def Pool.erase (q : Pool d n) (k : Key d) (loc ext : Fin n → Rng d) (subs : Fin n → Int) : Pool d n :=
  let i := OSet.find cartLess q.parts.keys k
  match q.parts.entries[i]? with
  | none => q
  | some e =>
    let l := e.2.eraseP fun p => p.matches loc ext subs
    if l = [] then ⟨⟨q.parts.keys.eraseIdx i, q.parts.entries.eraseIdx i⟩, q.next⟩
    else ⟨setAt q.parts i l, q.next⟩

/-- A call on the pool. -/
inductive Op (d n : Nat)
  | fetch (k : Key d) (loc ext : Fin n → Rng d) (subs : Fin n → Int)
  | insert (p : Part d n)
  | erase (k : Key d) (loc ext : Fin n → Rng d) (subs : Fin n → Int)

/-- Effect of a call. -/
def step (q : Pool d n) : Op d n → Pool d n
  | .fetch k l e s => (q.fetch k l e s).1
  | .insert p => q.insert p
  | .erase k l e s => q.erase k l e s

/-- Pool after a history of calls. -/
def run (ops : List (Op d n)) : Pool d n := ops.foldl step {}

end Ovk.Pool
