import Verif.Model.Container
/-!
# `core::union_find` (src/core/UnionFind.hpp)

The three members `Elements_`, `ParentIndices_`, `Ranks_` (lines 125-127) are lists.  A result `none`
is an out-of-bounds access or a non-terminating parent chain.
-/
namespace Ovk

structure UF where
  elems : List Int
  par : List Nat
  rank : List Nat
deriving DecidableEq

namespace UF

/-- Order of `set<int>`. -/
abbrev less (a b : Int) : Bool := decide (a < b)

/-- Order of `map<int,int>` keyed by positions. -/
abbrev nless (a b : Nat) : Bool := decide (a < b)

/-- A default-constructed object (src/core/UnionFind.hpp 27). -/
def empty : UF := ⟨[], [], []⟩

/-- Renumbering of positions when a new element is stored at position `k`
(src/core/UnionFind.hpp 40-44). -/
def shiftAt (k p : Nat) : Nat := if p ≥ k then p + 1 else p

/-- `union_find::Insert` (src/core/UnionFind.hpp 35-48). -/
def insert (s : UF) (e : Int) : UF :=
  let i := OSet.lowerBound less s.elems e
  let fresh : UF := ⟨OSet.insertAt less s.elems i e, (s.par.map (shiftAt i)).insertIdx i i,
    s.rank.insertIdx i 0⟩
  match s.elems[i]? with
  | none => fresh
  | some x => if x > e then fresh else s

/-- `union_find::Find_` (src/core/UnionFind.hpp 129-134): recursion with path compression.  Returns
the new parent array and the root.  `fuel` bounds the recursion depth; a parent chain longer than the
array has a cycle, on which the C++ code does not terminate. -/
def findGo : Nat → List Nat → Nat → Option (List Nat × Nat)
  | 0, _, _ => none
  | fuel + 1, par, i =>
    match par[i]? with
    | none => none
    | some p =>
      if p ≠ i then
        match findGo fuel par p with
        | none => none
        | some (par', r) => some (par'.set i r, r)
      else some (par, p)

/-- `union_find::Find_` (src/core/UnionFind.hpp 129-134). -/
def findIdx (s : UF) (i : Nat) : Option (UF × Nat) :=
  (findGo (s.par.length + 1) s.par i).map fun (par, r) => (⟨s.elems, par, s.rank⟩, r)

/-- `Elements_.Find` as used at src/core/UnionFind.hpp 51, 62-67: position or absent. -/
def position (s : UF) (e : Int) : Option Nat :=
  let i := OSet.find less s.elems e
  if i < s.elems.length then some i else none

/-- `union_find::Find` (src/core/UnionFind.hpp 50-59). -/
def find (s : UF) (e : Int) : Option (UF × Int) :=
  match s.position e with
  | none => some (s, -1)
  | some i => do
    let (s, r) ← s.findIdx i
    let x ← s.elems[r]?
    some (s, x)

/-- `union_find::Union` (src/core/UnionFind.hpp 61-95). -/
def union (s : UF) (a b : Int) : Option (UF × Int) :=
  match s.position a, s.position b with
  | some i, some j => do
    let (s, rl) ← s.findIdx i
    let (s, rr) ← s.findIdx j
    let el ← s.elems[rl]?
    let er ← s.elems[rr]?
    if rl ≠ rr then do
      let kl ← s.rank[rl]?
      let kr ← s.rank[rr]?
      if kl < kr then some (⟨s.elems, s.par.set rl rr, s.rank⟩, er)
      else if kl > kr then some (⟨s.elems, s.par.set rr rl, s.rank⟩, el)
      else some (⟨s.elems, s.par.set rr rl, s.rank.set rl (kl + 1)⟩, el)
    else some (s, el)
  | some _, none => s.find a
  | none, some _ => s.find b
  | none, none => some (s, -1)

/-- First loop of `Relabel` (src/core/UnionFind.hpp 99-106), over the positions `is`.  Writing through
the reference returned by `Fetch` is an `Insert` under the same key. -/
def relabelScan : List Nat → UF × OMap Nat Nat → Option (UF × OMap Nat Nat)
  | [], st => some st
  | i :: is, (s, m) => do
    let (s, ro) ← s.findIdx i
    let m := m.fetch nless ro ro
    let ei ← s.elems[i]?
    let er ← s.elems[ro]?
    relabelScan is (s, if ei < er then m.insert nless ro i else m)

/-- `union_find::Relabel` (src/core/UnionFind.hpp 98-111). -/
def relabel (s : UF) : Option UF := do
  let (s, m) ← relabelScan (List.range s.elems.length) (s, ⟨[], []⟩)
  let par ← s.par.mapM (fun p => m.get? nless p)
  some ⟨s.elems, par, (par.mapIdx fun i p => if p = i then 1 else 0)⟩

/-- One mutating call. -/
inductive Op
  | insert (e : Int)
  | find (e : Int)
  | union (a b : Int)
  | relabel

/-- Effect of one call. -/
def step (s : UF) : Op → Option UF
  | .insert e => some (s.insert e)
  | .find e => (s.find e).map Prod.fst
  | .union a b => (s.union a b).map Prod.fst
  | .relabel => s.relabel

/-- State after a history of calls. -/
def run : List Op → UF → Option UF
  | [], s => some s
  | op :: ops, s => (s.step op).bind (run ops)

end UF

end Ovk
