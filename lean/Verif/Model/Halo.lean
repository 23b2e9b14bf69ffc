/-
Model of the halo exchange: src/core/Halo.cpp (`halo_map`), src/core/Halo.inl
(`halo_exchanger_for_type::Exchange`, `exchange_request::OnMPIRequestComplete`).

All processes are modelled at once.  The field data of a process is a memory addressed by the linear
(column-major) index in its extended range.  A message from `a` to `b` is the buffer packed by `a`;
`MPI_Isend`/`MPI_Irecv` between two processes on one communicator with one tag match in order, so with one
message per direction the receive of `b` from `a` gets the buffer `a` packed for `b`.  Message completion
is an event that may happen at any time after both processes have entered `Exchange`.

Not modelled: the profiler, the reuse of exchanger objects (`Active_`), conversion to
`mpi_compatible_type` (identity on values).
-/
import Verif.Model.Cart
import Verif.Model.FieldIndex

namespace Ovk.Halo
variable {d n : Nat} {V : Type}

/-- The point whose value a point of an extended range takes (Halo.cpp:60-65, 84-89, 126-131). -/
def target (c : Cart d) (p : Tup d) : Tup d := if c.range.contains p then p else c.periodicAdjust p

/-- Points of the mask loops (Halo.cpp:53-72 and 119-138): points of an extended range, not local, whose
target is in a given local range, in loop order. -/
def maskPoints (c : Cart d) (ext extLoc srcLoc : Rng d) : List (Tup d) :=
  ext.points.filter fun p => !extLoc.contains p && srcLoc.contains (target c p)

/-- `NeighborSendIndices_` for one neighbour (Halo.cpp:41-96). -/
def sendIndices (c : Cart d) (loc ext nLoc nExt : Rng d) : List Int :=
  if c.range.includes nExt then (intersectRanges nExt loc).points.map fun p => ext.colIndex p
  else (maskPoints c nExt nLoc loc).map fun p =>
    ext.colIndex (if c.range.contains p then p else c.periodicAdjust p)

/-- `NeighborRecvIndices_` for one neighbour (Halo.cpp:99-153). -/
def recvIndices (c : Cart d) (loc ext nLoc : Rng d) : List Int :=
  if c.range.includes ext then (intersectRanges ext nLoc).points.map fun p => ext.colIndex p
  else (maskPoints c ext loc nLoc).map fun p => ext.colIndex p

/-- Points of the local-to-local loop (Halo.cpp:155-193).  Unlike above, points inside the index space
are also adjusted. -/
def l2lPoints (c : Cart d) (loc ext : Rng d) : List (Tup d) :=
  if c.range.includes ext then []
  else ext.points.filter fun p => !loc.contains p && loc.contains (c.periodicAdjust p)

/-- `LocalToLocalSourceIndices_`, `LocalToLocalDestIndices_`. -/
def l2lPairs (c : Cart d) (loc ext : Rng d) : List (Int × Int) :=
  (l2lPoints c loc ext).map fun p => (ext.colIndex (c.periodicAdjust p), ext.colIndex p)

/-- `Data[i] = v`. -/
def write (m : Int → V) (i : Int) (v : V) : Int → V := fun j => if j = i then v else m j

/-- `FieldData[iDest] = FieldData[iSource]` in order (Halo.inl:117-122). -/
def copyAll (m : Int → V) (pairs : List (Int × Int)) : Int → V :=
  pairs.foldl (fun m x => write m x.2 (m x.1)) m

/-- Unpacking of a receive buffer (Halo.inl:152-156). -/
def unpack (m : Int → V) (xs : List (Int × V)) : Int → V := xs.foldl (fun m x => write m x.1 x.2) m

/-- What the processes are given: cart, ranges, neighbour ranks. -/
structure Setup (d n : Nat) where
  cart : Cart d
  loc : Fin n → Rng d
  ext : Fin n → Rng d
  nbrs : Fin n → List (Fin n)

def Setup.send (s : Setup d n) (a b : Fin n) : List Int :=
  sendIndices s.cart (s.loc a) (s.ext a) (s.loc b) (s.ext b)

def Setup.recv (s : Setup d n) (b a : Fin n) : List Int :=
  recvIndices s.cart (s.loc b) (s.ext b) (s.loc a)

/-- State of an exchange. -/
structure State (n : Nat) (V : Type) where
  field : Fin n → Int → V
  /-- message from the first to the second -/
  buf : Fin n → Fin n → Option (List V)
  started : Fin n → Bool
  /-- receive on the first from the second has completed -/
  done : Fin n → Fin n → Bool

inductive Event (n : Nat)
  /-- `Exchange` is called on a process (Halo.inl:81-131) -/
  | start (a : Fin n)
  /-- the receive on `b` from `a` completes (Halo.inl:140-162) -/
  | complete (b a : Fin n)

def initial (field : Fin n → Int → V) : State n V :=
  ⟨field, fun _ _ => none, fun _ => false, fun _ _ => false⟩

/-- One event; `none` if it cannot happen (or a message does not have the expected length). -/
def step (s : Setup d n) (x : State n V) : Event n → Option (State n V)
  | .start a =>
    if x.started a then none
    else some { x with
      buf := fun a' b => if a' = a then
        (if b ∈ s.nbrs a then some ((s.send a b).map (x.field a)) else none) else x.buf a' b
      field := fun k => if k = a then copyAll (x.field a) (l2lPairs s.cart (s.loc a) (s.ext a))
        else x.field k
      started := fun k => if k = a then true else x.started k }
  | .complete b a =>
    if x.started b ∧ a ∈ s.nbrs b ∧ x.done b a = false then
      match x.buf a b with
      | none => none
      | some vals =>
        if vals.length = (s.recv b a).length then
          some { x with
            field := fun k => if k = b then unpack (x.field b) ((s.recv b a).zip vals) else x.field k
            done := fun k m => if k = b ∧ m = a then true else x.done k m }
        else none
    else none

def run (s : Setup d n) : State n V → List (Event n) → Option (State n V)
  | x, [] => some x
  | x, e :: es => (step s x e).bind fun y => run s y es

/-- Every process has called `Exchange` and every receive has completed. -/
def Finished (s : Setup d n) (x : State n V) : Prop :=
  (∀ a, x.started a = true) ∧ ∀ b, ∀ a ∈ s.nbrs b, x.done b a = true

end Ovk.Halo
