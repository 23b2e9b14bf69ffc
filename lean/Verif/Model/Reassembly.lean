import Verif.Model.Assembly
/-!
# Assembling again (src/core/AssemblerAssembly.cpp 82-5240, src/core/Assembler.hpp 564-606)

`assembly_data` is created when the assembler is bound to a domain (Assembler.cpp 150) and kept from one call of
`Assemble` to the next.  The stages of `Verif/Model/Assembly.lean` keep their masks in total functions; here they
are the maps of `assembly_data`, which hold what earlier assemblies left behind.  A stage reads the entries it
uses (reading a key that is missing is undefined, `none`), computes as in `Verif/Model/Assembly.lean`, and inserts
or overwrites the entries it produces.  `map::Insert` replaces an entry that is present (Map.hpp 252-312).

Simplified: an entry is a mask on all points, so the mask of a grid that was replaced by another one of the same
id and a different shape is read as if it had the new shape; `ProjectedBoundaryMasks`, `FragmentHash` and the
auxiliary data of the overlapping side are assigned or inserted for all ids before they are read
(776, 2487, 3132) and are left out.
-/
namespace Ovk.Asm
variable {d n : Nat}

/-- The mask without points. -/
def blank : Mask d := fun _ => false

/-- `assembly_data` (Assembler.hpp 594-606). -/
structure AsmData (d n : Nat) where
  /-- `LocalGridAuxData`: active points, domain boundary, internal boundary -/
  aux : Fin n → Option (Mask d × Mask d × Mask d) := fun _ => none
  /-- `LocalOverlapNAuxData` -/
  overlap : Fin n → Fin n → Option (Mask d) := fun _ _ => none
  outer : Fin n → Option (Mask d) := fun _ => none
  pairOccl : Fin n → Fin n → Option (Mask d) := fun _ _ => none
  occl : Fin n → Option (Mask d) := fun _ => none
  minim : Fin n → Option (Mask d) := fun _ => none
  inner : Fin n → Option (Mask d) := fun _ => none

/-- The flags of the state component, the overlap component, and `assembly_data`. -/
structure Mem (d n : Nat) where
  flags : Fin n → Tup d → Flags
  ov : Fin n → Fin n → Tup d → Option (Tup d)
  kept : AsmData d n

/-- The components, without data of the assembler. -/
def Mem.bare (s : Mem d n) : St d n := { flags := s.flags, ov := s.ov }

/-- Reading the entries of the pairs selected by `sel`. -/
def readPairs (sel : Fin n → Fin n → Bool) (e : Fin n → Fin n → Option (Mask d)) : Option (Fin n → Fin n → Mask d) :=
  forAll fun m => forAll fun k => if sel m k then e m k else some blank

/-- Reading `LocalGridAuxData` for all grids. -/
def Mem.readGrids (s : Mem d n) (v : St d n) : Option (St d n) := do
  let a ← forAll s.kept.aux
  some { v with active := fun g => (a g).1, domBdry := fun g => (a g).2.1, intBdry := fun g => (a g).2.2 }

/-- Writing `LocalGridAuxData` for all grids. -/
def Mem.writeGrids (s : Mem d n) (v : St d n) : Mem d n :=
  { s with kept := { s.kept with aux := fun g => some (v.active g, v.domBdry g, v.intBdry g) } }

namespace Problem
variable (P : Problem d n)

/-- Reading `LocalOverlapNAuxData` for the pairs with an overlap. -/
def readOverlaps (s : Mem d n) (v : St d n) : Option (St d n) := do
  let o ← readPairs (P.ovExists s.bare) s.kept.overlap
  some { v with overlap := o }

/-- Writing `LocalOverlapNAuxData` for the pairs with an overlap. -/
def writeOverlaps (s : Mem d n) (v : St d n) : Mem d n :=
  { s with kept := { s.kept with
      overlap := fun m k => if P.ovExists s.bare m k then some (v.overlap m k) else s.kept.overlap m k } }

/-- `InitializeAssembly_` (121-203); the overlap component is cleared (113, 2053). -/
def reInit (kept : AsmData d n) (flags : Fin n → Tup d → Flags) : Mem d n :=
  let v := initAssembly flags
  Mem.writeGrids { flags := v.flags, ov := v.ov, kept := kept } v

/-- End of `DetectOverlap_` (2486-2587). -/
def reOverlap (s : Mem d n) : Option (Mem d n) := do
  let v ← s.readGrids s.bare
  let v := P.detectOverlap v
  some (P.writeOverlaps { s with flags := v.flags, ov := v.ov } v)

/-- `InferBoundaries_` (2694-2791). -/
def reInfer (s : Mem d n) : Option (Mem d n) := do
  let v ← s.readGrids s.bare
  let v ← P.inferBoundaries_ v
  some ({ s with flags := v.flags }.writeGrids v)

/-- `CutBoundaryHoles_` (2793-3401). -/
def reCut (s : Mem d n) : Option (Mem d n) := do
  let v ← s.readGrids s.bare
  let v ← P.readOverlaps s v
  let v ← P.cutBoundaryHoles_ v
  some (P.writeOverlaps ({ s with flags := v.flags }.writeGrids v) v)

/-- `LocateOuterFringe_` (3403-3520); the masks are inserted at 3425. -/
def reOuter (s : Mem d n) : Option (Mem d n) := do
  let v ← s.readGrids s.bare
  let v ← P.locateOuterFringe_ v
  some { s with flags := v.flags, kept := { s.kept with outer := fun k => some (v.outer k) } }

/-- One of the passes at 3648-3690 and 3692-3734 on the map `PairwiseOcclusionMasks`. -/
def reMutual (s : St d n) (sel : Fin n → Fin n → Bool) (po : Fin n → Fin n → Option (Mask d)) :
    Option (Fin n → Fin n → Option (Mask d)) :=
  forAll fun m => forAll fun k =>
    if P.ovExists s m k && P.mutually m k && sel m k then do
      let q ← po k m
      let o ← po m k
      some (some fun p => match s.ov m k p with
        | some cell => ((P.grid m).verts cell).all fun x => !q x
        | none => o p)
    else some (po m k)

/-- `DisallowMask` (3775-3799) on grid `m`; the map is read at 3790. -/
def reDisallow (s : St d n) (po : Fin n → Fin n → Option (Mask d)) (m k : Fin n) : Option (Mask d) := do
  let q ← if P.occludes k m ≠ .none then po k m else some blank
  dilateMask (P.grid m).cart (P.grid m).ranges
    (fun p => s.flags m p .outerFringe ||
      (decide (P.occludes k m ≠ .none) && (q p || !s.active m p)))
    (P.edgePadding m k) .mirror

/-- The occlusion masks of the pairs with padding and smoothing, and those of the grids (3801-3985), given the
masks of the pairs without them and the `DisallowMask`s. -/
def padded (s : St d n) (po dis : Fin n → Fin n → Mask d) : Option ((Fin n → Fin n → Mask d) × (Fin n → Mask d)) := do
  let padding : Fin n → Fin n → Mask d := fun m k p => po m k p && !(match s.ov m k p with
    | some cell => ((P.grid m).verts cell).all fun q => !dis m k q
    | none => false)
  let base : Fin n → Mask d := fun k p => decide (∃ m, P.occPair s m k = true ∧ po m k p = true)
  let occ : Fin n → Mask d := fun k p =>
    decide (∃ m, P.occPair s m k = true ∧ (po m k p && !padding m k p) = true)
  let occ ← forAll fun k => P.smooth k (base k) (occ k)
  let po' : Fin n → Fin n → Mask d := fun m k p =>
    if P.occPair s m k then po m k p && !(padding m k p && !occ k p) else po m k p
  let occ : Fin n → Mask d := fun k p => decide (∃ m, P.occPair s m k = true ∧ po' m k p = true)
  some (po', occ)

/-- `DetectOccluded_` (3522-4007).  `PairwiseOcclusionMasks` is inserted for the pairs with an overlap (3565) and
keeps its other entries. -/
def reOccluded (s : Mem d n) : Option (Mem d n) := do
  let v ← s.readGrids s.bare
  let v ← P.readOverlaps s v
  let po ← P.reMutual v (fun m k => decide (m ≤ k)) fun m k =>
    if P.ovExists v m k then some (P.pairwise v m k) else s.kept.pairOccl m k
  let po ← P.reMutual v (fun m k => decide (k ≤ m)) po
  let dis ← forAll fun m => forAll fun k => if P.occPair v m k then P.reDisallow v po m k else some blank
  let pt ← readPairs (P.occPair v) po
  let r ← P.padded v pt dis
  let v' := v.write (fun k => decide ((P.grid k).count (r.2 k) ≠ 0)) r.2 (·.or [.occluded])
  some { s with
    flags := v'.flags
    kept := { s.kept with
      pairOccl := fun m k => if P.occPair v m k then some (r.1 m k) else po m k
      occl := fun k => some (r.2 k) } }

/-- `MinimizeOverlap_` (4009-4252); the masks are inserted at 4039-4040. -/
def reMinimize (s : Mem d n) : Option (Mem d n) := do
  let v ← s.readGrids s.bare
  let v ← P.readOverlaps s v
  let outer ← forAll s.kept.outer
  let occl ← forAll s.kept.occl
  let po ← readPairs (P.occPair v) s.kept.pairOccl
  let v ← P.minimizeOverlap_ { v with outer := outer, occl := occl, pairOccl := po }
  let s := P.writeOverlaps ({ s with flags := v.flags }.writeGrids v) v
  some { s with kept := { s.kept with
    outer := fun k => some (v.outer k)
    minim := fun k => some (v.minim k)
    inner := fun k => some (v.inner k) } }

/-- `GenerateConnectivityData_` (4254-5240). -/
def reGenerate (s : Mem d n) : Option (Mem d n × Conn d n) := do
  let v ← s.readGrids s.bare
  let v ← P.readOverlaps s v
  let outer ← forAll s.kept.outer
  let occl ← forAll s.kept.occl
  let inner ← forAll s.kept.inner
  let r ← P.generate_ { v with outer := outer, occl := occl, inner := inner }
  some ({ s with flags := r.1.flags }, r.2)

/-- `Assemble` (82-115) with the data that earlier assemblies left in `assembly_data`. -/
def reassemble (kept : AsmData d n) (flags : Fin n → Tup d → Flags) : Option (Mem d n × Conn d n) := do
  let s ← P.reOverlap (reInit kept flags)
  let s ← P.reInfer s
  let s ← P.reCut s
  let s ← P.reOuter s
  let s ← P.reOccluded s
  let s ← P.reMinimize s
  P.reGenerate s

end Problem
end Ovk.Asm
