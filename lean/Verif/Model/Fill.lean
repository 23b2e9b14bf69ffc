/-
Model of how the assembler fills connectivities (src/core/AssemblerAssembly.cpp, `GenerateConnectivityData_`,
4626-5240): every overlapping cell learns whether its point has chosen its grid as donor, the cells that donate are
sent to the neighbours that hold vertices of them, and donors and receivers are stored in the connectivities.

All processes at once.  A process that does not hold a grid has an empty range of it and empty lists.  Messages
between neighbours arrive as sent; a receive from a process that does not send is `none`, and so is undefined
behaviour.  Edit handles, barriers, logging and the profiler are left out; destination and source ranks are not set
(5132, 5146, 5217 are commented out), so they are -1 (ConnectivityM.cpp:151, ConnectivityN.cpp).
-/
import Verif.Model.Exchange
import Verif.Model.OverlapVolumes

namespace Ovk.Ovl
variable {d n : Nat}

/-- `connection_type`. -/
inductive ConnType where
  | none | nearest | linear | cubic
deriving DecidableEq

/-- What is known when filling starts. -/
structure Choice (d : Nat) where
  /-- `Options_.ConnectionType({M,N})` -/
  type : Nat → Nat → ConnType
  /-- `ReceiverMasks(NGridID)` -/
  receiver : Nat → Tup (d + 2) → Bool
  /-- `DonorGridIDsForLocalGrid(NGridID)`; `none`: -1 -/
  donor : Nat → Tup (d + 2) → Option Nat

/-! ### Which cells donate (4626-4714) -/

/-- `ExchangeM.RecvMap` (4655), `ExchangeN.SendMap` (4666). -/
def donateMaps (M : Fin n → List (MEntry (d + 2))) (N : Fin n → List (NEntry (d + 2))) : Option (SR.Setup n) := do
  let send ← DHash.allDims fun b => SR.build ((N b).map NEntry.rank) (SR.defaultOrder (N b).length)
  let recv ← DHash.allDims fun a => SR.build ((M a).map MEntry.rank) (SR.defaultOrder (M a).length)
  pure ⟨send, recv, 1⟩

/-- `SendBuffer` (4687-4704). -/
def donateBuffers (D : Choice d) (m k : Nat) (N : Fin n → List (NEntry (d + 2))) (b : Fin n) (_ j : Nat) : Bool :=
  match (N b)[j]? with
  | some e => decide (D.donor k e.point = some m)
  | none => false

/-- `OverlappingCellDonates` before the exchange (4658-4659): `Resize` sets new elements to false. -/
def donatesInit : Fin n → Nat → Nat → Bool := fun _ _ _ => false

/-! ### Connectivities (4715-5240) -/

/-- One column of `connectivity_m_data` (4786-4793). -/
structure FDonor (d : Nat) where
  ext : Rng d
  coords : Pt d
  dest : Tup d

/-- `ConnectivityMDataForLocalDonors` (4797-4842); `don` is `OverlappingCellDonates` (4718-4731). -/
def localDonors (don : Nat → Bool) (M : List (MEntry (d + 2))) : List (FDonor (d + 2)) :=
  (M.zipIdx.filter fun x => don x.2).map fun x => ⟨vertices x.1.cell, x.1.coords, x.1.dest⟩

/-- The data for a neighbour with local range `r` (4876-4904, 4934-4987; counting and filling are the same loop). -/
def sendDonors (c : Cart (d + 2)) (r : Rng (d + 2)) (l : List (FDonor (d + 2))) : Option (List (FDonor (d + 2))) :=
  (l.mapM fun (e : FDonor (d + 2)) => match c.mapRangeToRange r e.ext with
    | .ok x => some (x.map fun x => { e with ext := x })
    | .undef => none).map List.reduceOption

/-- `ConnectivityMRecvs` of process `a` (4862-4875, 4913-4932, 4989). -/
def recvDonors (c : Cart (d + 2)) (loc : Fin n → Rng (d + 2)) (nbrs : Fin n → List (Fin n))
    (l : Fin n → List (FDonor (d + 2))) (a : Fin n) : Option (List (FDonor (d + 2))) :=
  ((nbrs a).mapM fun b => if (nbrs b).contains a then sendDonors c (loc a) (l b) else none).map List.flatten

/-- The donors of connectivity M on process `a` (5076-5152), in the order of their destinations. -/
def fillM (W : World d n) (m k : Nat) (nbrs : Fin n → List (Fin n)) (l : Fin n → List (FDonor (d + 2))) (a : Fin n) :
    Option (List (FDonor (d + 2))) := do
  let recv ← recvDonors (W.cart m) (W.loc m) nbrs l a
  let all := l a ++ recv
  let o := W.sort (all.map fun e => (W.cart k).range.colIndex e.dest)
  let out := all.zipIdx.foldl (fun (s : List (Option (FDonor (d + 2)))) x =>
    s.set ((leftOrder o).getD x.2 0) (some x.1)) (List.replicate all.length none)
  out.mapM id

/-- `InterpCoefs` of a donor (5153-5184); `CUBIC` is not implemented (4836). -/
def fillCoefs (t : ConnType) (u : Pt (d + 2)) (i : Fin (d + 2)) (p : Int) : Rat :=
  match t with
  | .nearest => if p = 0 then (if u i ≤ 1 / 2 then 1 else 0) else (if u i ≤ 1 / 2 then 0 else 1)
  | _ => linCoefs u i p

/-- The loop over the points of a process of grid N (5202-5222): `BaseOverlapMask` is set at the points of the
overlap data, `iOverlapping` counts them. -/
def fillLoop (mask take : Tup (d + 2) → Bool) (sources : List (Tup (d + 2))) :
    Nat → List (Tup (d + 2)) → Option (List (Tup (d + 2) × Tup (d + 2)))
  | _, [] => some []
  | i, p :: ps =>
    if mask p then
      if take p then
        match sources[i]? with
        | some c => (fillLoop mask take sources (i + 1) ps).map fun l => (p, c) :: l
        | none => none
      else fillLoop mask take sources (i + 1) ps
    else fillLoop mask take sources i ps

/-- The receivers of connectivity N on process `b` and their source cells (5042-5064, 5186-5223); `none` also if
their number is not the one counted before (5053-5060). -/
def fillN (W : World d n) (D : Choice d) (m k : Nat) (N : List (NEntry (d + 2))) (b : Fin n) :
    Option (List (Tup (d + 2) × Tup (d + 2))) := do
  let take := fun p => D.receiver k p && decide (D.donor k p = some m)
  let l ← fillLoop (fun p => N.any fun e => decide (e.point = p)) take (N.map NEntry.source) 0 (W.loc k b).points
  if l.length = ((W.loc k b).points.filter take).length then some l else none

/-- A connectivity on all processes. -/
structure Conn (d n : Nat) where
  m : Nat
  k : Nat
  donors : Fin n → List (FDonor d)
  receivers : Fin n → List (Tup d × Tup d)

/-- `ConnectedGridIDs` (4720-4768): pairs with a donor on some process. -/
def connectedPairs (W : World d n) (D : Choice d) (l : Nat → Nat → Fin n → List (FDonor (d + 2))) :
    List (Nat × Nat) :=
  (W.grids.flatMap fun m => W.grids.map fun k => (m, k)).filter fun x =>
    decide (D.type x.1 x.2 ≠ .none) && (List.finRange n).any fun r => !(l x.1 x.2 r).isEmpty

/-- `CreateConnectivities` and filling (4777-5240); `don` is `OverlappingCellDonates`, `nbrs` are the neighbours in
the partition of a grid. -/
def fill (W : World d n) (D : Choice d) (nbrs : Nat → Fin n → List (Fin n))
    (M : Nat → Nat → Fin n → List (MEntry (d + 2))) (N : Nat → Nat → Fin n → List (NEntry (d + 2)))
    (don : Nat → Nat → Fin n → Nat → Bool) : Option (List (Conn (d + 2) n)) :=
  (connectedPairs W D fun m k r => localDonors (don m k r) (M m k r)).mapM fun x =>
    if D.type x.1 x.2 = .cubic then none
    else do
      let donors ← DHash.allDims fun a =>
        fillM W x.1 x.2 (nbrs x.1) (fun r => localDonors (don x.1 x.2 r) (M x.1 x.2 r)) a
      let receivers ← DHash.allDims fun b => fillN W D x.1 x.2 (N x.1 x.2 b) b
      pure ⟨x.1, x.2, donors, receivers⟩

/-- What an exchanger sees of the connectivities. -/
def exchangerWorld (W : World d n) (cs : List (Conn (d + 2) n)) : Xch.World (d + 2) n where
  grids := W.grids.map fun (g : Nat) => ((g : Int), (W.cart g).range)
  ms p := cs.map fun c => ⟨c.m, c.k, W.loc c.m p, (c.donors p).map fun x => ⟨x.ext.b, x.dest, -1⟩⟩
  ns p := cs.map fun c => ⟨c.m, c.k, (c.receivers p).map fun x => ⟨x.1, -1⟩⟩

/-- The exchange over connectivity `c`, with fields on `field` and `field'`; a process without the grid has an empty
range of it. -/
def exchange (W : World d n) (D : Choice d) (nbrs : Nat → Fin n → List (Fin n)) (cs : List (Conn (d + 2) n))
    (dest src : Fin n → List (List Int)) (c : Conn (d + 2) n) (maps : SR.Setup n) (field field' : Fin n → Rng (d + 2))
    (layout : Indexer.Layout) : Xch.Exchange (d + 2) n n Rat where
  world := exchangerWorld W cs
  m := c.m
  g := c.k
  dest := dest
  src := src
  maps := maps
  coll := ⟨W.cart c.m, W.loc c.m, nbrs c.m, field, fun r => (c.donors r).map FDonor.ext, .col⟩
  dom := id
  coefs r i := match (c.donors r)[i]? with
    | some y => fillCoefs (D.type c.m c.k) y.coords
    | none => fun _ _ => 0
  layout := layout
  fieldRange := field'

end Ovk.Ovl
