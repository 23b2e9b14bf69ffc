import Verif.Model.Decomp
/-!
# Mask operations (src/core/DistributedFieldOps.cpp 35-200)

A distributed mask is a function on the points of the index space; a process reads a point of its
extended range under the name of the owned point the halo exchange copies there.  `none` is a read
outside the array of the process (undefined behaviour).
-/
namespace Ovk
variable {d : Nat}

/-- `mask_bc` (DistributedFieldOps.hpp). -/
inductive MaskBC | true | false | mirror
  deriving DecidableEq

/-- `MirrorPoint` (DistributedFieldOps.cpp:109-112). -/
def mirrorPoint (c : Cart d) (x : Tup d) : Tup d := fun i =>
  x i + max (c.range.b i - x i) 0 + min (c.range.e i - 1 - x i) 0

/-- A read of the mask array of a process (bounds are those of the extended range). -/
def readMask (c : Cart d) (ext : Rng d) (mask : Tup d → Bool) (x : Tup d) : Option Bool :=
  if ext.contains x then some (mask (c.periodicAdjust x)) else none

/-- `GetMaskValue` (DistributedFieldOps.cpp:96-123). -/
def getMaskValue (c : Cart d) (ext : Rng d) (bc : MaskBC) (mask : Tup d → Bool) (x : Tup d) :
    Option Bool :=
  if ext.contains x then readMask c ext mask x
  else match bc with
    | .true => some Bool.true
    | .false => some Bool.false
    | .mirror => readMask c ext mask (mirrorPoint c x)

/-- `EdgeMask(Point)` as computed by the loop body (DistributedFieldOps.cpp:125-155); `inner` is
`EdgeValue` (line 120). -/
def edgeAt (c : Cart d) (ext : Rng d) (bc : MaskBC) (inner : Bool) (mask : Tup d → Bool) (p : Tup d) :
    Option Bool := do
  let v ← getMaskValue c ext bc mask p
  if v = inner then
    let vs ← (Rng.points ⟨fun i => p i - 1, fun i => p i + 2⟩).mapM (getMaskValue c ext bc mask)
    some (vs.any fun w => w != v)
  else some Bool.false

/-- The local range on which edges are computed (DistributedFieldOps.cpp:62-84). -/
def edgeLocalRange (c : Cart d) (exterior : Bool) (loc : Rng d) : Rng d :=
  if exterior then rangeIncludeExterior c loc else loc

/-- `DetectEdge` (DistributedFieldOps.cpp:53-159) for all processes; `(loc, ext)` are their ranges.
The result at a point is that of the first process containing it in its local range (the exchange
copies it to the others, line 149). -/
def detectEdge (c : Cart d) (bc : MaskBC) (inner exterior : Bool) (mask : Tup d → Bool) :
    List (Rng d × Rng d) → Option (Tup d → Bool)
  | [] => some fun _ => Bool.false
  | (loc, ext) :: rest => do
    let pts := (edgeLocalRange c exterior loc).points
    let _ ← pts.mapM (edgeAt c ext bc inner mask)
    let r ← detectEdge c bc inner exterior mask rest
    some fun p => if (edgeLocalRange c exterior loc).contains p then
        (edgeAt c ext bc inner mask p).getD Bool.false
      else r p

/-- One pass of the loop of `DilateErode` (DistributedFieldOps.cpp:191-198). -/
def fillStep (c : Cart d) (bc : MaskBC) (fill : Bool) (ranges : List (Rng d × Rng d))
    (mask : Tup d → Bool) : Option (Tup d → Bool) := do
  let edge ← detectEdge c bc (!fill) Bool.false mask ranges
  some fun p => if edge p then fill else mask p

/-- The loop of `DilateErode`. -/
def fillLoop (c : Cart d) (bc : MaskBC) (fill : Bool) (ranges : List (Rng d × Rng d)) :
    Nat → (Tup d → Bool) → Option (Tup d → Bool)
  | 0, mask => some mask
  | n + 1, mask => (fillStep c bc fill ranges mask).bind (fillLoop c bc fill ranges n)

/-- `DilateErode` (DistributedFieldOps.cpp:175-200). -/
def dilateErode (c : Cart d) (bc : MaskBC) (ranges : List (Rng d × Rng d)) (mask : Tup d → Bool)
    (amount : Int) : Option (Tup d → Bool) :=
  if amount = 0 then some mask
  else fillLoop c bc (decide (amount > 0)) ranges amount.natAbs mask

/-- `DilateMask` (DistributedFieldOps.cpp:161-165). -/
def dilateMask (c : Cart d) (ranges : List (Rng d × Rng d)) (mask : Tup d → Bool) (amount : Int)
    (bc : MaskBC) : Option (Tup d → Bool) := dilateErode c bc ranges mask amount

/-- `ErodeMask` (DistributedFieldOps.cpp:167-171). -/
def erodeMask (c : Cart d) (ranges : List (Rng d × Rng d)) (mask : Tup d → Bool) (amount : Int)
    (bc : MaskBC) : Option (Tup d → Bool) := dilateErode c bc ranges mask (-amount)

/-- `CountDistributedMask` (DistributedFieldOps.cpp:35-51). -/
def countDistributedMask (ranges : List (Rng d × Rng d)) (mask : Tup d → Bool) : Nat :=
  (ranges.map fun r => r.1.points.foldl (fun n p => n + (mask p).toNat) 0).sum

end Ovk
