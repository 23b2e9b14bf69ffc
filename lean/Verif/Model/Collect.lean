/-
Model of collect operations: src/core/CollectMap.cpp (`collect_map`), src/core/CollectBase.cpp
(`collect_base`, `collect_base_for_type`) and the reductions of src/core/CollectInterp.hpp,
CollectMin.hpp, CollectMax.hpp, CollectAll.hpp, CollectAny.hpp, CollectNone.hpp, CollectNotAll.hpp.

All processes are modelled at once.  `none` is undefined behaviour (an access outside an array, an entry
that was never written) or a receive without a matching message.  The exchange in `RetrieveRemoteValues_`
is blocking (`MPI_Waitall`, CollectBase.cpp:227): nothing is read before every message has arrived, and
there is at most one message per ordered pair of processes, so the receive buffer on `b` from `a` is the
buffer packed by `a` for `b`.

Simplified: one component (`Count_ = 1`; the loops over `iCount` do the same with every component); no
conversion to `mpi_value_type`; the guard `NumCells > 0` (CollectMap.cpp:49, 227) is left out because
without cells all lists below are empty; the threaded interpolation (CollectInterpThreaded.hpp) is in
Model/Threads.lean.
-/
import Verif.Model.Cart
import Verif.Model.FieldIndex
import Verif.Model.Halo

namespace Ovk.Coll
variable {d n : Nat} {V W : Type}

/-- The point at which a vertex of a cell is stored: cells inside the index space are taken as they are
(`AwayFromEdge`), vertices of the others are adjusted (CollectMap.cpp:69, 83; CollectBase.cpp:73, 94). -/
def vertex (c : Cart d) (cell : Rng d) (p : Tup d) : Tup d :=
  if c.range.includes cell then p else c.periodicAdjust p

/-- `Overlaps` (CollectMap.cpp:73, 79-91, 148, 161-173). -/
def overlaps (c : Cart d) (r cell : Rng d) : Bool :=
  if c.range.includes cell then rangesOverlap r cell
  else cell.points.any fun p => r.contains (c.periodicAdjust p)

/-- The vertices of a cell stored in a range, in loop order (CollectMap.cpp:150-158, 175-185, 308-328,
426-429; CollectBase.cpp:75-104). -/
def part (c : Cart d) (r cell : Rng d) : List (Tup d) :=
  if c.range.includes cell then (intersectRanges r cell).points
  else cell.points.filter fun p => r.contains (c.periodicAdjust p)

/-- Growth of a bounding range by the vertices of a cell stored in `r` (CollectMap.cpp:75-76, 93-104,
250-265). -/
def grow (c : Cart d) (r : Rng d) (bound cell : Rng d) : Rng d :=
  if c.range.includes cell then unionRanges bound (intersectRanges r cell)
  else (part c r cell).foldl (fun R p => extendRange R (c.periodicAdjust p)) bound

/-- `SendToNeighborRanges(iNeighbor)` (CollectMap.cpp:58-107). -/
def sendRange (c : Cart d) (loc nloc : Rng d) (cells : List (Rng d)) : Rng d :=
  cells.foldl (fun R cell => if overlaps c nloc cell then grow c loc R cell else R) (makeEmptyRange d)

/-- `RecvFromNeighborRanges(iNeighbor)` (CollectMap.cpp:236-267). -/
def recvRange (c : Cart d) (nloc : Rng d) (cells : List (Rng d)) : Rng d :=
  cells.foldl (grow c nloc) (makeEmptyRange d)

/-- Points marked in `SendMasks(iSend)` (CollectMap.cpp:136-189). -/
def sendMarks (c : Cart d) (loc nloc : Rng d) (cells : List (Rng d)) : List (Tup d) :=
  cells.flatMap fun cell =>
    if overlaps c nloc cell then (part c loc cell).map (vertex c cell) else []

/-- Points marked in `RecvMasks(iRecv)` (CollectMap.cpp:296-331). -/
def recvMarks (c : Cart d) (nloc : Rng d) (cells : List (Rng d)) : List (Tup d) :=
  cells.flatMap fun cell => (part c nloc cell).map (vertex c cell)

/-- `Masks(i)(Indexer.ToIndex(Point)) = true` for every point; the mask has `Count()` entries
(CollectMap.cpp:133, 154-155, 180-181, 293, 312-313, 323-324). -/
def setMask (r : Rng d) : List (Tup d) → (Nat → Bool) → Option (Nat → Bool)
  | [], m => some m
  | p :: ps, m =>
    let i := r.colIndex p
    if 0 ≤ i ∧ i < r.count then setMask r ps fun j => if j = i.toNat then true else m j else none

/-- Marked indices in increasing order (loops CollectMap.cpp:195-199, 208-216, 337-341). -/
def marked (r : Rng d) (m : Nat → Bool) : List Nat := (List.range r.count.toNat).filter fun (k : Nat) => m k

/-- Process data: cart, local ranges, neighbours (in map order), ranges of the field arrays, cells,
layout. -/
structure Setup (d n : Nat) where
  cart : Cart d
  loc : Fin n → Rng d
  nbrs : Fin n → List (Fin n)
  fieldRange : Fin n → Rng d
  cells : Fin n → List (Rng d)
  layout : Indexer.Layout

/-- `Sends_` with their points (CollectMap.cpp:45-221). -/
def sends (s : Setup d n) (a : Fin n) : Option (List (Fin n × List (Tup d))) :=
  ((s.nbrs a).filter fun b => !(sendRange s.cart (s.loc a) (s.loc b) (s.cells a)).empty).mapM fun b =>
    let r := sendRange s.cart (s.loc a) (s.loc b) (s.cells a)
    (setMask r (sendMarks s.cart (s.loc a) (s.loc b) (s.cells a)) fun _ => false).map fun m =>
      (b, (marked r m).map fun (k : Nat) => r.tuple .col (k : Int))

/-- `Recvs_` with the scratch data of `CreateRecvData_`. -/
structure Recv (d n : Nat) where
  rank : Fin n
  range : Rng d
  mask : Nat → Bool

/-- `NumPoints` (CollectMap.cpp:333-342). -/
def Recv.num (r : Recv d n) : Nat := (marked r.range r.mask).length

/-- `RecvBufferIndices(iRecv)(iPoint)` (CollectMap.cpp:391-403): the running counter at `iPoint`, or −1. -/
def Recv.bufIndex (r : Recv d n) (iPoint : Nat) : Int :=
  if r.mask iPoint then (((List.range iPoint).filter fun (k : Nat) => r.mask k).length : Int) else -1

/-- `Recvs_` (CollectMap.cpp:236-342). -/
def recvs (s : Setup d n) (b : Fin n) : Option (List (Recv d n)) :=
  ((s.nbrs b).filter fun a => !(recvRange s.cart (s.loc a) (s.cells b)).empty).mapM fun a =>
    let r := recvRange s.cart (s.loc a) (s.cells b)
    (setMask r (recvMarks s.cart (s.loc a) (s.cells b)) fun _ => false).map fun m => ⟨a, r, m⟩

/-- `NumRemoteVertices_(iCell)` (CollectMap.cpp:356-375). -/
def numRemote (c : Cart d) (loc cell : Rng d) : Nat :=
  if c.range.includes cell then (cell.count - (intersectRanges loc cell).count).toNat
  else (cell.points.filter fun p => !loc.contains (c.periodicAdjust p)).length

/-- The vertices of a cell stored in a neighbour's range with their vertex numbers: the column-major index
in the cell (CollectMap.cpp:418, 426-430) or the counter of the loop over all vertices (439-451). -/
def slotted (c : Cart d) (nloc cell : Rng d) : List (Int × Tup d) :=
  if c.range.includes cell then (intersectRanges nloc cell).points.map fun p => (cell.colIndex p, p)
  else (cell.points.zipIdx.filter fun x => nloc.contains (c.periodicAdjust x.1)).map fun x => ((x.2 : Int), x.1)

/-- `CellRecvs`, `CellRecvBufferIndices` after the loop over the receives (CollectMap.cpp:409-455). -/
def cellTable (s : Setup d n) (rs : List (Recv d n)) (cell : Rng d) : Int → Option (Nat × Int) :=
  rs.zipIdx.foldl (fun t x =>
    (slotted s.cart (s.loc x.1.rank) cell).foldl (fun t y =>
      Halo.write t y.1 (some (x.2, x.1.bufIndex (x.1.range.colIndex (vertex s.cart cell y.2)).toNat))) t)
    fun _ => none

/-- `RemoteVertices_(iCell)`, `RemoteVertexRecvs_(iCell)`, `RemoteVertexRecvBufferIndices_(iCell)`
(CollectMap.cpp:456-470): the entries actually written. -/
def remoteVertices (s : Setup d n) (rs : List (Recv d n)) (cell : Rng d) : List (Nat × Nat × Int) :=
  (List.range cell.count.toNat).filterMap fun (i : Nat) =>
    (cellTable s rs cell (i : Int)).map fun x => (i, x.1, x.2)

/-- Read of the field array (a view of `FieldValuesRange_.Count()` values, CollectBase.cpp:163). -/
def readField (s : Setup d n) (field : Fin n → Int → V) (a : Fin n) (p : Tup d) : Option V :=
  let i := (s.fieldRange a).index s.layout p
  if 0 ≤ i ∧ i < (s.fieldRange a).count then some (field a i) else none

/-- The message `a` sends to `b` (CollectBase.cpp:203-225), if it sends one. -/
def message (s : Setup d n) (field : Fin n → Int → V) (a b : Fin n) : Option (List V) :=
  match sends s a with
  | none => none
  | some ss =>
    match ss.find? fun x => decide (x.1 = b) with
    | none => none
    | some x => x.2.mapM (readField s field a)

/-- `RemoteValues` on `b` (CollectBase.cpp:184-238). -/
def remoteValues (s : Setup d n) (field : Fin n → Int → V) (b : Fin n) (rs : List (Recv d n)) :
    Option (List (List V)) :=
  rs.mapM fun r => (message s field r.rank b).bind fun xs => if xs.length = r.num then some xs else none

/-- One remote vertex (CollectBase.cpp:269-276). -/
def putRemote (vals : List (List V)) (vv : Int → V) (x : Nat × Nat × Int) : Option (Int → V) :=
  match vals[x.2.1]? with
  | none => none
  | some xs =>
    if x.2.2 < 0 then none
    else (xs[x.2.2.toNat]?).map fun v => Halo.write vv (x.1 : Int) v

/-- Local part of `AssembleVertexValues_` (CollectBase.cpp:250-260, 69-106). -/
def putLocal (s : Setup d n) (field : Fin n → Int → V) (a : Fin n) (cell : Rng d) (vv : Int → V) :
    Option (Int → V) :=
  (part s.cart (s.loc a) cell).foldlM (fun vv p =>
    (readField s field a (vertex s.cart cell p)).map fun v =>
      Halo.write vv (cell.index s.layout p) v) vv

/-- `AssembleVertexValues_` (CollectBase.cpp:242-278): `NumRemoteVertices(iCell)` remote entries are read,
of which only those of `remoteVertices` have been written. -/
def assemble (s : Setup d n) (field : Fin n → Int → V) (a : Fin n) (rs : List (Recv d n))
    (vals : List (List V)) (cell : Rng d) (vv : Int → V) : Option (Int → V) :=
  (putLocal s field a cell vv).bind fun vv =>
    let rem := remoteVertices s rs cell
    if rem.length = numRemote s.cart (s.loc a) cell then rem.foldlM (putRemote vals) vv else none

/-- The loop over the vertices of a cell (e.g. CollectInterp.hpp:97-102, CollectMin.hpp:81-87). -/
def reduce (f : W → Nat → V → W) (init : W) (cell : Rng d) (vv : Int → V) : W :=
  (List.range cell.count.toNat).foldl (fun acc (i : Nat) => f acc i (vv (i : Int))) init

/-- The loop over the cells; the scratch array `VertexValues_` is reused, so it starts with whatever the
previous cell left there.  `f iCell` is the reduction step for a cell. -/
def cellLoop (s : Setup d n) (field : Fin n → Int → V) (a : Fin n) (rs : List (Recv d n))
    (vals : List (List V)) (f : Nat → W → Nat → V → W) (init : W) :
    Nat → List (Rng d) → (Int → V) → Option (List W)
  | _, [], _ => some []
  | k, cell :: cells, vv =>
    (assemble s field a rs vals cell vv).bind fun vv =>
      (cellLoop s field a rs vals f init (k + 1) cells vv).map fun out => reduce (f k) init cell vv :: out

/-- `Collect` on one process: the packed values, one per cell. -/
def collect (s : Setup d n) (field : Fin n → Int → V) (f : Nat → W → Nat → V → W) (init : W)
    (scratch : Int → V) (a : Fin n) : Option (List W) :=
  (recvs s a).bind fun rs => (remoteValues s field a rs).bind fun vals =>
    cellLoop s field a rs vals f init 0 (s.cells a) scratch

/-! ### Reductions -/

/-- `VertexCoefs_` (CollectInterp.hpp:85-95). -/
def vertexCoefs [Mul V] [One V] (l : Indexer.Layout) (cell : Rng d) (coefs : Fin d → Int → V)
    (vc : Int → V) : Int → V :=
  cell.points.foldl (fun vc p => Halo.write vc (cell.index l p)
    ((List.finRange d).foldl (fun x i => x * coefs i (p i - cell.b i)) 1)) vc

/-- CollectInterp.hpp:97-102; `vc` are the coefficients of the cell. -/
def interpStep [Add V] [Mul V] (vc : Nat → Int → V) (k : Nat) (acc : V) (i : Nat) (v : V) : V :=
  acc + vc k (i : Int) * v

/-- CollectMin.hpp:81-87 and `Min` (ScalarOps.hpp:13-16). -/
def minStep [LT V] [DecidableLT V] (_ : Nat) (acc : V) (_ : Nat) (v : V) : V := if v < acc then v else acc

/-- CollectMax.hpp:81-87 and `Max` (ScalarOps.hpp:18-21). -/
def maxStep [LT V] [DecidableLT V] (_ : Nat) (acc : V) (_ : Nat) (v : V) : V := if acc < v then v else acc

/-- CollectAll.hpp:79-85. -/
def allStep (_ : Nat) (acc : Bool) (_ : Nat) (v : Bool) : Bool := acc && v
/-- CollectAny.hpp:79-85. -/
def anyStep (_ : Nat) (acc : Bool) (_ : Nat) (v : Bool) : Bool := acc || v
/-- CollectNone.hpp:79-85. -/
def noneStep (_ : Nat) (acc : Bool) (_ : Nat) (v : Bool) : Bool := acc && !v
/-- CollectNotAll.hpp:79-85. -/
def notAllStep (_ : Nat) (acc : Bool) (_ : Nat) (v : Bool) : Bool := acc || !v

end Ovk.Coll
