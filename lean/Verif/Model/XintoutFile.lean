/-
Model of reading the bytes of XINTOUT files (`ReadXINTOUT`, src/extras/XINTOUT.cpp:399-1490, 2726-2791).

Simplified: file offsets and sizes are exact integers.  A `double` is its bit pattern.  Opening files succeeds.
`MPI_Get_count` counts the elements that were read completely; where the code compares it with the number that was
asked for, this makes no difference.
-/
import Verif.Model.XintoutImport
import Mathlib.Data.Fin.VecNotation

namespace Ovk.XFile

/-- Result of a function that throws errors. -/
inductive Res (α : Type) where
  | ok (a : α)
  /-- `file_read_error` -/
  | error
  /-- something that was never set is used, or a file is read before its beginning -/
  | undefined
deriving DecidableEq

namespace Res
variable {α β : Type}

protected def bind : Res α → (α → Res β) → Res β
  | ok a, f => f a
  | error, _ => error
  | undefined, _ => undefined

instance : Monad Res where
  pure := ok
  bind := Res.bind

/-- `if (c) throw` -/
def check (c : Bool) : Res Unit := if c then ok () else error

/-- The same on several processes, followed by `captured_error::Sync`, or for several elements. -/
def list : List (Res α) → Res (List α)
  | [] => ok []
  | x :: xs => do
    let a ← x
    let as ← list xs
    ok (a :: as)

/-- A loop over dimensions. -/
def dims (f : Fin 3 → Res α) : Res (Fin 3 → α) := do
  let a ← f 0
  let b ← f 1
  let c ← f 2
  ok ![a, b, c]

end Res

/-! ### Bytes -/

abbrev Byte := Fin 256

/-- `endian` -/
inductive Endian where
  | little
  | big
deriving DecidableEq

/-- `xintout_format` -/
inductive Format where
  | standard
  | extended
deriving DecidableEq

/-- Number with given bytes, lowest first. -/
def leNat : List Byte → Nat
  | [] => 0
  | b :: l => b.val + 256 * leNat l

/-- What a machine makes of bytes in its memory. -/
def native (mach : Endian) (l : List Byte) : Nat :=
  match mach with
  | .little => leNat l
  | .big => leNat l.reverse

/-- Signed number of `k` bytes in two's complement. -/
def signed (k v : Nat) : Int := if v < 2 ^ (8 * k - 1) then v else (v : Int) - 2 ^ (8 * k)

/-- `SwapEndian` of one element (2776-2791). -/
def swapEndian (l : List Byte) : List Byte := l.reverse

/-- An element in the buffer after `File_read_at_endian` or `File_read_all_endian` (2726-2762). -/
def value (mach e : Endian) (l : List Byte) : Nat := native mach (if e ≠ mach then swapEndian l else l)

/-- The complete elements of `sz` bytes. -/
def elems (sz : Nat) (l : List Byte) : List (List Byte) :=
  (List.range (l.length / sz)).map fun i => (l.drop (sz * i)).take sz

/-- `MPI_File_read_at`, or `MPI_File_set_view` and `MPI_File_read_all`. -/
def readAt (f : List Byte) (off : Int) (sz count : Nat) : Res (List (List Byte)) :=
  if off < 0 then .undefined else .ok (elems sz ((f.drop off.toNat).take (sz * count)))

/-- Reading `MPI_INT` (`sz` is 4) or `MPI_LONG_LONG` (8), with an error when there are not enough of them. -/
def readInts (mach e : Endian) (f : List Byte) (off : Int) (sz count : Nat) : Res (List Int) := do
  let l ← readAt f off sz count
  Res.check (decide (count ≤ l.length))
  .ok (l.map fun b => signed sz (value mach e b))

/-- Reading `MPI_DOUBLE`. -/
def readDoubles (mach e : Endian) (f : List Byte) (off : Int) (count : Nat) : Res (List Nat) := do
  let l ← readAt f off 8 count
  Res.check (decide (count ≤ l.length))
  .ok (l.map (value mach e))

/-! ### Headers -/

/-- `RecordWrapperSize` (502, 735). -/
def wrapper : Format → Int
  | .standard => 4
  | .extended => 0

/-- `HeaderSize` (740-745). -/
def headerSize : Format → Int
  | .standard => 20
  | .extended => 36

/-- `ConnectionIDSize` (580, 818, 1433-1441). -/
def idSize : Format → Nat
  | .standard => 4
  | .extended => 8

/-- `DetectFormat` (643-676).  Reading from a file that is too short is a success; the bytes remain unset. -/
def detectFormat (mach : Endian) (f : List Byte) : Res (Endian × Format) :=
  if f.length < 4 then .undefined
  else
    let b := f.take 4
    let e : Endian := if b.head? ≠ some 0 then .little else .big
    let h := signed 4 (value mach e b)
    if h = 20 then .ok (e, .standard) else if h = 36 then .ok (e, .extended) else .error

/-- What is used of the header of a grid. -/
structure Header where
  donors : Int
  receivers : Int
  start : Int
  size : Fin 3 → Int
  /-- extended format only -/
  coefs : Int

/-- Reading the header of a grid (760-810, 863-918). -/
def readHeader (mach e : Endian) (fmt : Format) (ho : List Byte) (off : Int) : Res Header :=
  match fmt with
  | .standard => do
    let a ← readInts mach e ho off 4 7
    .ok ⟨a.getD 1 0, a.getD 0 0, a.getD 3 0 - 1, fun i => a.getD (4 + i.val) 0, 0⟩
  | .extended => do
    let a ← readInts mach e ho off 8 4
    let b ← readInts mach e ho (off + 32) 4 3
    let c ← readInts mach e ho (off + 44) 8 1
    .ok ⟨a.getD 1 0, a.getD 0 0, a.getD 3 0 - 1, fun i => b.getD i.val 0, c.getD 0 0⟩

/-- Size of the header of a grid. -/
def gridHeaderSize : Format → Int
  | .standard => 28
  | .extended => 52

/-- Number of points. -/
def points (size : Fin 3 → Int) : Int := size 0 * size 1 * size 2

/-- Whether there is IBlank data in a file of the standard format (532-609): the length of the record after those of the
first grid, or the next grid, is compared with the number of points. -/
def detectIBlank (mach e : Endian) (numGrids : Nat) (ho : List Byte) (off : Int) : Res Bool := do
  let d ← readInts mach e ho off 4 7
  let nd := d.getD 1 0
  let nr := d.getD 0 0
  let off := off + 28 + 4
  let off := off + 4 + 3 * nd * 4 + 3 * nd * 8 + 4
  let off := off + 4 + 3 * nr * 4 + nr * 4 + 4
  let w ← readAt ho off 4 1
  match w with
  | [b] => .ok (decide (signed 4 (value mach e b) = points (fun i => d.getD (4 + i.val) 0) * 4))
  | _ => if numGrids = 1 then .ok false else .error

/-- `ReadGlobalInfo` on rank 0 (460-641): byte order, format, and whether there is IBlank data. -/
def readGlobalInfo (mach : Endian) (numGrids : Nat) (ho : List Byte) : Res (Endian × Format × Bool) := do
  let (e, fmt) ← detectFormat mach ho
  let a ← readInts mach e ho 4 4 1
  Res.check (decide (a.getD 0 0 = numGrids))
  -- 520-530; in the extended format this leaves out the wrapper at the beginning
  let off := wrapper fmt + headerSize fmt + wrapper fmt + wrapper fmt
  match fmt with
  | .standard => do
    let b ← detectIBlank mach e numGrids ho off
    .ok (e, fmt, b)
  | .extended => do
    let _ ← readInts mach e ho off 8 4
    let _ ← readInts mach e ho (off + 32) 4 3
    .ok (e, fmt, false)

/-! ### Offsets -/

/-- `HOGridOffset` and `XGridOffset` after another grid (759-859). -/
def skipGrid (mach e : Endian) (fmt : Format) (iblank : Bool) (ho x : List Byte) (o : Int × Int) : Res (Int × Int) := do
  let w := wrapper fmt
  let h ← readHeader mach e fmt ho (o.1 + w)
  let ho' := o.1 + w + gridHeaderSize fmt + w
  let ho' := ho' + w + 3 * h.donors * 4 + 3 * h.donors * 8 + w
  let ho' := ho' + w + 3 * h.receivers * 4 + h.receivers * idSize fmt + w
  let ho' := if iblank then ho' + w + points h.size * 4 + w else ho'
  let x' := o.2 + w + 3 * h.donors * 4 + w
  let coefs ← match fmt with
    | .standard => do
      let r ← readInts mach e x x' 4 1
      -- `RecordWrapper/sizeof(double)` (849) is an unsigned division
      Res.ok ((r.getD 0 0 % 2 ^ 64) / 8)
    | .extended => Res.ok h.coefs
  let x' := x' + w + coefs * 8 + w
  let x' := x' + w + 12 + w
  .ok (ho', x')

/-- The loop over the grids before (755-861). -/
def skipGrids (mach e : Endian) (fmt : Format) (iblank : Bool) (ho x : List Byte) : Nat → Int × Int → Res (Int × Int)
  | 0, o => .ok o
  | k + 1, o => do
    let o' ← skipGrid mach e fmt iblank ho x o
    skipGrids mach e fmt iblank ho x k o'

/-- Results of `ReadGridInfo`. -/
structure Info where
  donors : Int
  receivers : Int
  start : Int
  hoCells : Int
  hoCoords : Int
  hoPoints : Int
  hoIDs : Int
  xSizes : Int
  xCoefs : Int

/-- `ReadGridInfo` on rank 0 of a grid (678-967). -/
def readGridInfo (mach e : Endian) (fmt : Format) (iblank : Bool) (ho x : List Byte) (size : Fin 3 → Int)
    (iGrid : Nat) : Res Info := do
  let w := wrapper fmt
  -- both formats have a wrapper at the beginning (746-753)
  let o ← skipGrids mach e fmt iblank ho x iGrid (4 + headerSize fmt + w, 4 + headerSize fmt + w)
  let h ← readHeader mach e fmt ho (o.1 + w)
  Res.check (decide (∀ i, h.size i = size i))
  let cells := o.1 + w + gridHeaderSize fmt + w + w
  let coords := cells + 3 * h.donors * 4
  let pts := coords + 3 * h.donors * 8 + w + w
  let ids := pts + 3 * h.receivers * 4
  let sizes := o.2 + w
  let coefs := sizes + 3 * h.donors * 4 + w + w
  .ok ⟨h.donors, h.receivers, h.start, cells, coords, pts, ids, sizes, coefs⟩

/-! ### Donors and receivers -/

/-- Coordinates and interpolation coefficients of a donor. -/
abbrev Data := (Fin 3 → Nat) × (Fin 3 → List Nat)

/-- `LocalBegin` (1019, 1343) of the `k`-th process that reads. -/
def chunkLo (size : Nat) (k : Nat) : Int := size * k

/-- `LocalEnd` (1020, 1344). -/
def chunkHi (size : Nat) (count : Int) (k : Nat) : Int := min (size * (k + 1)) count

/-- Number of records on a process. -/
def chunkLen (size : Nat) (count : Int) (k : Nat) : Nat := (chunkHi size count k - chunkLo size k).toNat

/-- A dataset with values for all records in each dimension (1095-1113, 1144-1162, 1191-1209, 1406-1424): the part for
the `k`-th process that reads. -/
def dataset {α : Type} (read : Int → Nat → Res α) (off : Int) (sz : Nat) (size : Nat) (count : Int) (k : Nat) :
    Res (Fin 3 → α) :=
  Res.dims fun i => read (off + i.val * (count * sz) + chunkLo size k * sz) (chunkLen size count k)

/-- Giving out the coefficients to donors (1266-1279). -/
def deal : List Int → List Nat → List (List Nat)
  | [], _ => []
  | s :: ss, l => l.take s.toNat :: deal ss (l.drop s.toNat)

/-- Donors from what was read (1164-1170, 1266-1279); the cells in the file are one-based. -/
def assemble (sizes cells : Fin 3 → List Int) (coords : Fin 3 → List Nat) (coefs : Fin 3 → List (List Nat)) (len : Nat) :
    List (Xintout.DonorRec 3 Data) :=
  (List.range len).map fun j =>
    { ext := ⟨fun i => (cells i).getD j 0 - 1, fun i => (cells i).getD j 0 - 1 + (sizes i).getD j 0⟩
      data := (fun i => (coords i).getD j 0, fun i => (coefs i).getD j []) }

/-- `ReadDonors` (969-1292) on the processes that read: division in `num` chunks of `size` records. -/
def readDonors (mach e : Endian) (ho x : List Byte) (I : Info) (num size : Nat) :
    Res (List (List (Xintout.DonorRec 3 Data))) := do
  let ks := List.range num
  Res.check (ks.all fun k => !Xintout.tooBig (chunkHi size I.donors k - chunkLo size k))
  let sizes ← Res.list (ks.map fun k => dataset (fun o n => readInts mach e x o 4 n) I.xSizes 4 size I.donors k)
  let cells ← Res.list (ks.map fun k => dataset (fun o n => readInts mach e ho o 4 n) I.hoCells 4 size I.donors k)
  let coords ← Res.list (ks.map fun k => dataset (readDoubles mach e ho) I.hoCoords 8 size I.donors k)
  -- `NumLocalInterpCoefs` (1211-1217)
  let sum : Nat → Fin 3 → Int := fun k i => (sizes.getD k (fun _ => []) i).sum
  Res.check (ks.all fun k => decide (∀ i, Xintout.tooBig (sum k i) = false))
  -- `MPI_Allreduce` and `MPI_Scan` (1232-1240)
  let total : Fin 3 → Int := fun i => (ks.map fun k => sum k i).sum
  let before : Nat → Fin 3 → Int := fun k i => ((List.range k).map fun k' => sum k' i).sum
  let start : Fin 3 → Int := ![I.xCoefs, I.xCoefs + total 0 * 8, I.xCoefs + total 0 * 8 + total 1 * 8]
  let coefs ← Res.list (ks.map fun k => Res.dims fun i =>
    readDoubles mach e x (start i + before k i * 8) (sum k i).toNat)
  .ok (ks.map fun k => assemble (sizes.getD k fun _ => []) (cells.getD k fun _ => []) (coords.getD k fun _ => [])
    (fun i => deal (sizes.getD k (fun _ => []) i) (coefs.getD k (fun _ => []) i)) (chunkLen size I.donors k))

/-- `ReadReceivers` (1294-1490): points and connection IDs, both one-based in the file. -/
def readReceivers (mach e : Endian) (fmt : Format) (ho : List Byte) (I : Info) (num size : Nat) :
    Res (List (List (Tup 3 × Int))) := do
  let ks := List.range num
  Res.check (ks.all fun k => !Xintout.tooBig (chunkHi size I.receivers k - chunkLo size k))
  let pts ← Res.list (ks.map fun k => dataset (fun o n => readInts mach e ho o 4 n) I.hoPoints 4 size I.receivers k)
  let ids ← Res.list (ks.map fun k =>
    readInts mach e ho (I.hoIDs + chunkLo size k * idSize fmt) (idSize fmt) (chunkLen size I.receivers k))
  .ok (ks.map fun k => (List.range (chunkLen size I.receivers k)).map fun j =>
    (fun i => (pts.getD k (fun _ => []) i).getD j 0 - 1, (ids.getD k []).getD j 0 - 1))

/-- The results of `ReadXINTOUT` (399-458) on one grid, on the processes that read: connection ID of the first donor,
donors, and receivers.  `div` is `Chunkify` (988-996, 1313-1320): the number and size of chunks for a number of records. -/
def readGrid (mach : Endian) (numGrids : Nat) (div : Int → Nat × Nat) (ho x : List Byte) (size : Fin 3 → Int)
    (iGrid : Nat) : Res (Int × List (List (Xintout.DonorRec 3 Data)) × List (List (Tup 3 × Int))) := do
  let (e, fmt, iblank) ← readGlobalInfo mach numGrids ho
  let I ← readGridInfo mach e fmt iblank ho x size iGrid
  let ds ← readDonors mach e ho x I (div I.donors).1 (div I.donors).2
  let rs ← readReceivers mach e fmt ho I (div I.receivers).1 (div I.receivers).2
  .ok (I.start, ds, rs)

end Ovk.XFile
