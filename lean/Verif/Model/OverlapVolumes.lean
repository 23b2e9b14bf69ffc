/-
Model of the end of overlap detection (src/core/AssemblerAssembly.cpp:2596-2672): the cell volumes of the M grid
are interpolated at the overlapping points and sent to the processes that hold these points.

Simplified: one pair of grids; the field is any field on the M grid.
-/
import Verif.Model.Overlap
import Verif.Model.Geometry
import Verif.Model.SendRecv

namespace Ovk.Ovl
variable {d n : Nat}

/-- `InterpCoefs` of an overlapping point (2614-2627). -/
def linCoefs (u : Pt (d + 2)) (i : Fin (d + 2)) (k : Int) : Rat := if k = 0 then Geo.lin (u i) 0 else Geo.lin (u i) 1

/-- `Collect.Collect(&VolumesData, &SendBufferData)` on process `r` (2629-2635, 2662; CollectInterp.hpp:67-103). -/
def interp (S : Coll.Setup (d + 2) n) (M : Fin n → List (MEntry (d + 2))) (vals : Fin n → Int → Rat)
    (junk : Nat → Int → Rat) (scratch : Int → Rat) (r : Fin n) : Option (List Rat) :=
  Coll.collect S vals (Coll.interpStep fun k =>
    match (M r)[k]? with
    | some e => Coll.vertexCoefs .col (vertices e.cell) (linCoefs e.coords) (junk k)
    | none => junk k) 0 scratch r

/-- `SendMap`, `RecvMap` (2513, 2519) and the count of `CreateSend`, `CreateRecv` (2632, 2642). -/
def volumeMaps (M : Fin n → List (MEntry (d + 2))) (N : Fin n → List (NEntry (d + 2))) : Option (SR.Setup n) := do
  let send ← DHash.allDims fun a => SR.build ((M a).map MEntry.rank) (SR.defaultOrder (M a).length)
  let recv ← DHash.allDims fun b => SR.build ((N b).map NEntry.rank) (SR.defaultOrder (N b).length)
  pure ⟨send, recv, 1⟩

/-- `SendBuffer` (2635, 2661). -/
def volumeBuffers (dv : Fin n → List Rat) (a : Fin n) (_ i : Nat) : Rat := (dv a).getD i 0

end Ovk.Ovl
