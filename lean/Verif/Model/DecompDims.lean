/-
Model of `core::CreateCartesianDecompDims` (src/core/Comm.cpp:43-137).

`none` is undefined behaviour (an `int` that overflows) or a loop that never ends.  `MPI_Dims_create` may return
anything its specification allows (`Dims.Created`).

Simplified: the components of the tuples at and beyond `NumDims` are left out; they are 0 or fixed, so nothing is
ever exchanged with them.  `std::round(double(Sum)/double(NumDims))` is the exact rounding (`Sum` fits in an `int`
and `NumDims` is at most 3, so the quotient is a half-integer exactly when the double is).  The assertion about
large primes (64-77, debug builds only) is left out.
-/
import Mathlib.Algebra.BigOperators.Group.Finset.Basic
import Mathlib.Algebra.BigOperators.Fin

namespace Ovk.Dims
variable {d : Nat}

/-- `SmallPrimes` (Comm.cpp:53-62). -/
def smallPrimes : List Nat :=
  [2, 3, 5, 7, 11, 13, 17, 19, 23, 29, 31, 37, 41, 43, 47, 53, 59, 61, 67, 71, 73, 79, 83, 89, 97, 101, 103,
   107, 109, 113, 127, 131, 137, 139, 149, 151, 157, 163, 167, 173, 179, 181, 191, 193, 197, 199, 211, 223,
   227, 229, 233, 239, 241, 251, 257, 263, 269, 271, 277, 281, 283, 293, 307, 311, 313, 317, 331, 337, 347,
   349, 353, 359, 367, 373, 379, 383, 389, 397, 401, 409, 419, 421, 431, 433, 439, 443, 449, 457, 461, 463,
   467, 479, 487, 491, 499, 503, 509, 521, 523, 541, 547, 557, 563, 569, 571, 577, 587, 593, 599, 601, 607,
   613, 617, 619, 631, 641, 643, 647, 653, 659, 661, 673, 677, 683, 691, 701, 709, 719, 727, 733, 739, 743,
   751, 757, 761, 769, 773, 787, 797, 809, 811, 821, 823, 827, 829, 839, 853, 857, 859, 863, 877, 881, 883,
   887, 907, 911, 919, 929, 937, 941, 947, 953, 967, 971, 977, 983, 991, 997]

/-- The value of an `int` expression; signed overflow is undefined. -/
def int (x : Int) : Option Int := if -2147483648 ≤ x ∧ x ≤ 2147483647 then some x else none

/-- `DimsVariance` (Comm.cpp:79-92). -/
def variance (dims : Fin d → Nat) : Option Int :=
  ((List.finRange d).foldlM (fun s i => int (s + dims i)) 0).bind fun sum =>
  let mean := (2 * sum + d).tdiv (2 * d)
  (List.finRange d).foldlM (fun v i =>
    (int ((dims i : Int) - mean)).bind fun dev => (int (dev * dev)).bind fun sq => int (v + sq)) 0

/-- The loop `while (ReducedDim % Prime == 0)` (Comm.cpp:101-104), at most `fuel` times; the result are the factors
found and `ReducedDim`. -/
def strip : Nat → Nat → Nat → Option (List Nat × Nat)
  | 0, _, _ => none
  | fuel + 1, p, r => if r % p = 0 then (strip fuel p (r / p)).map fun x => (p :: x.1, x.2) else some ([], r)

/-- The loop over `SmallPrimes` (Comm.cpp:99-105). -/
def factors : List Nat → Nat → Option (List Nat)
  | [], _ => some []
  | p :: ps, r =>
    if p > r then some []
    else (strip (r + 1) p r).bind fun x => (factors ps x.2).map (x.1 ++ ·)

/-- `NewDims` (Comm.cpp:112-114). -/
def move (dims : Fin d → Nat) (i j : Fin d) (f : Nat) : Fin d → Nat := fun k =>
  if k = j then dims j * f else if k = i then dims i / f else dims k

/-- The loop over the other dimensions (Comm.cpp:109-120); `k` counts from `iDim+1`. -/
def improve (input dims : Fin d → Nat) (i : Fin d) (f : Nat) : Option (Fin d → Nat) :=
  ((variance dims).bind fun v0 =>
    (List.range (d - 1)).foldlM (fun (best : (Fin d → Nat) × Int) k =>
      let j : Fin d := ⟨((i : Nat) + 1 + k) % d, Nat.mod_lt _ (Nat.lt_of_le_of_lt (Nat.zero_le _) i.2)⟩
      if input j ≠ 0 then some best
      else (int ((dims j * f : Nat) : Int)).bind fun _ =>
        let new := move dims i j f
        (variance new).map fun v => if v < best.2 then (new, v) else best) (dims, v0)).map Prod.fst

/-- One dimension (Comm.cpp:94-123). -/
def improveDim (input dims : Fin d → Nat) (i : Fin d) : Option (Fin d → Nat) :=
  if input i ≠ 0 then some dims
  else (factors smallPrimes (dims i)).bind fun fs => fs.foldlM (fun dims f => improve input dims i f) dims

/-- Comm.cpp:125-133 for one pair of dimensions. -/
def order (input dims : Fin d → Nat) (i j : Nat) : Fin d → Nat :=
  if h : i < d ∧ j < d then
    if input ⟨i, h.1⟩ = 0 ∧ input ⟨j, h.2⟩ = 0 ∧ dims ⟨i, h.1⟩ < dims ⟨j, h.2⟩ then fun k =>
      if (k : Nat) = i then dims ⟨j, h.2⟩ else if (k : Nat) = j then dims ⟨i, h.1⟩ else dims k
    else dims
  else dims

/-- `CreateCartesianDecompDims` after `MPI_Dims_create` returned `dims`. -/
def create (input dims : Fin d → Nat) : Option (Fin d → Nat) :=
  ((List.finRange d).foldlM (fun dims i => improveDim input dims i) dims).map fun dims =>
    order input (order input (order input dims 0 1) 0 2) 1 2

/-- What `MPI_Dims_create` may return: the given dimensions are kept, the others are positive and in
non-increasing order, and there are as many cells as processes. -/
structure Created (size : Nat) (input dims : Fin d → Nat) : Prop where
  kept : ∀ i, input i ≠ 0 → dims i = input i
  product : ∏ i, dims i = size
  positive : 0 < size
  sorted : ∀ i j, i < j → input i = 0 → input j = 0 → dims j ≤ dims i

end Ovk.Dims
