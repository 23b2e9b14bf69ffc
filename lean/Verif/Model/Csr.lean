/-
Model of the bin-storage scheme shared by `region_hash` (src/core/RegionHash.inl:39-68) and
`distributed_region_hash` (src/core/DistributedRegionHash.inl:246-291): count the entries of every
bin, turn the counts into start offsets, then write the entries.

Arrays are lists.  Reading or writing out of bounds is undefined behaviour and gives `none`.  The
entry array is resized without a fill value, so its slots start as `none`.
-/
namespace Ovk.Csr

/-- `++Counts[iBin]` (RegionHash.inl:121, 132; DistributedRegionHash.inl:261, 289). -/
def bump (c : List Nat) (b : Nat) : Option (List Nat) := do
  let v ← c[b]?
  pure (c.set b (v + 1))

/-- The start-offset loop (RegionHash.inl:47-57; DistributedRegionHash.inl:267-276): visit the bins in
`order`, store the running total, add the bin's count.  Returns the starts and the total. -/
def prefixPass (counts : List Nat) (order : List Nat) (starts : List Nat) :
    Option (List Nat × Nat) :=
  order.foldlM (fun (s : List Nat × Nat) b => do
    let n ← counts[b]?
    if b < s.1.length then pure (s.1.set b s.2, s.2 + n) else none) (starts, 0)

/-- One write of the filling loop (RegionHash.inl:147-149; DistributedRegionHash.inl:287-289). -/
def put (starts : List Nat) (s : List Nat × List (Option Nat)) (op : Nat × Nat) :
    Option (List Nat × List (Option Nat)) := do
  let st ← starts[op.1]?
  let c ← s.1[op.1]?
  if st + c < s.2.length then
    let cs ← bump s.1 op.1
    pure (cs, s.2.set (st + c) (some op.2))
  else none

/-- All writes of the nested loop "for every region, for every bin of the region". -/
def opsOf (items : List (List Nat)) : List (Nat × Nat) :=
  items.zipIdx.flatMap fun x => x.1.map fun b => (b, x.2)

/-- The stored structure: number of entries and start per bin, and the entries. -/
structure Table where
  counts : List Nat
  starts : List Nat
  total : Nat
  entries : List (Option Nat)

/-- The three passes.  `order` lists the linear indices of the bins in loop order. -/
def build (n : Nat) (order : List Nat) (items : List (List Nat)) : Option Table := do
  let ops := opsOf items
  let counts ← (ops.map Prod.fst).foldlM bump (List.replicate n 0)
  let (starts, total) ← prefixPass counts order (List.replicate n 0)
  let (counts', entries) ← ops.foldlM (put starts) (List.replicate n 0, List.replicate total none)
  pure ⟨counts', starts, total, entries⟩

/-- The entries `[start, stop)`; `none` if any of them is out of bounds or was never written. -/
def slice (entries : List (Option Nat)) (start stop : Nat) : Option (List Nat) :=
  if start ≤ stop ∧ stop ≤ entries.length then ((entries.drop start).take (stop - start)).mapM id
  else none

/-- `RetrieveBin` of `region_hash` (RegionHash.inl:87-95): the starts array has one extra element
holding the total (RegionHash.inl:58). -/
def retrieve (t : Table) (b : Nat) : Option (List Nat) := do
  let s := t.starts ++ [t.total]
  let st ← s[b]?
  let en ← s[b + 1]?
  slice t.entries st en

/-- Reading a bin in `distributed_region_hash::RetrieveBins`
(DistributedRegionHash.inl:412-421, 542-550): start and number of entries of the bin. -/
def retrieveN (t : Table) (b : Nat) : Option (List Nat) := do
  let st ← t.starts[b]?
  let n ← t.counts[b]?
  slice t.entries st (st + n)

end Ovk.Csr
