/-
Model of `indexer` (src/core/Indexer.hpp): linear indices of multi-dimensional arrays.

Extents are a list of `(begin, end)` pairs, one per dimension, in dimension order; tuples are lists
of the same length.  `Rank` is arbitrary (the code has helpers for ranks 1..10).
-/
namespace Ovk.Indexer

/-- `End[Dim]-Begin[Dim]` (Indexer.hpp:321, 333). -/
def extent (x : Int × Int) : Int := x.2 - x.1

/-- Product of extents. -/
def prodExt : List (Int × Int) → Int
  | [] => 1
  | x :: xs => extent x * prodExt xs

/-- `MakeStride_` for `ROW_MAJOR` (Indexer.hpp:318-328, 342-346): stride of a dimension is the
product of the extents of all later dimensions; the last one is 1. -/
def stridesR : List (Int × Int) → List Int
  | [] => []
  | _ :: xs => prodExt xs :: stridesR xs

/-- `MakeStride_` for `COLUMN_MAJOR` (Indexer.hpp:330-346): stride of dimension 0 is 1, stride of
`Dim` is `extent(Dim-1)` times the previous stride. -/
def stridesC (acc : Int) : List (Int × Int) → List Int
  | [] => []
  | x :: xs => acc :: stridesC (extent x * acc) xs

/-- `TupleToIndexHelper` (Indexer.hpp:28-131): `Σ Stride(i)*(Tuple[i]-Begin(i))`. -/
def dot : List Int → List (Int × Int) → List Int → Int
  | s :: ss, x :: xs, t :: ts => s * (t - x.1) + dot ss xs ts
  | _, _, _ => 0

/-- `IndexToTuple_` for `ROW_MAJOR` (Indexer.hpp:348-361). -/
def peelR : List Int → List (Int × Int) → Int → List Int
  | s :: ss, x :: xs, idx =>
    let off := idx.tdiv s
    (x.1 + off) :: peelR ss xs (idx - off * s)
  | _, _, _ => []

/-- `IndexToTuple_` for `COLUMN_MAJOR` (Indexer.hpp:363-376): descending over dimensions; returns the
tuple and the reduced index left over. -/
def peelC : List Int → List (Int × Int) → Int → List Int × Int
  | s :: ss, x :: xs, idx =>
    let r := peelC ss xs idx
    let off := r.2.tdiv s
    ((x.1 + off) :: r.1, r.2 - off * s)
  | _, _, idx => ([], idx)

/-- `array_layout`. -/
inductive Layout | row | col
  deriving DecidableEq

def strides : Layout → List (Int × Int) → List Int
  | .row, ext => stridesR ext
  | .col, ext => stridesC 1 ext

/-- `indexer::ToIndex` (Indexer.hpp:290-310). -/
def toIndex (l : Layout) (ext : List (Int × Int)) (t : List Int) : Int :=
  dot (strides l ext) ext t

/-- `indexer::ToTuple` (Indexer.hpp:312-314). -/
def toTuple (l : Layout) (ext : List (Int × Int)) (idx : Int) : List Int :=
  match l with
  | .row => peelR (strides .row ext) ext idx
  | .col => (peelC (strides .col ext) ext idx).1

end Ovk.Indexer
