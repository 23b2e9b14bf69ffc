/-
Model of `captured_exception<error>::Sync` (src/core/Exception.hpp:126-155) with the errors of src/core/Error.hpp.

All processes of the communicator are modelled at once.  `none`: the processes call collective operations that do
not match (they wait forever).  `MPI_Allreduce` with `MPI_MIN` and `MPI_Bcast` are taken to work.

Simplified: error texts, which depend only on the code, are left out; exception objects of other classes are not
considered.
-/
import Mathlib.Data.List.FinRange

namespace Ovk.Err
variable {n : Nat}

/-- `error_code` without `NONE` (Error.hpp:23-29). -/
inductive Code | mpiNotInitialized | fileOpen | fileRead | fileWrite
  deriving DecidableEq

/-- The underlying value (Error.h:15-21). -/
def Code.value : Code → Int
  | .mpiNotInitialized => 1 | .fileOpen => 2 | .fileRead => 3 | .fileWrite => 4

/-- An error object: its class and the stored path (Error.hpp:71-131); `mpi_not_initialized_error` stores none. -/
structure Error where
  code : Code
  path : Option String
  deriving DecidableEq

/-- `CaptureFromCode` (Error.hpp:134-148): a default constructed error. -/
def fromCode (v : Int) : Option Error :=
  if v = 1 then some ⟨.mpiNotInitialized, none⟩
  else if v = 2 then some ⟨.fileOpen, some ""⟩
  else if v = 3 then some ⟨.fileRead, some ""⟩
  else if v = 4 then some ⟨.fileWrite, some ""⟩
  else none

/-- `std::numeric_limits<code_underlying_type>::max()`; the enumeration fits in an `unsigned int`. -/
def maxCode : Int := 4294967295

/-- `CodeValue` (Exception.hpp:133-134). -/
def codeValue : Option Error → Int
  | some e => e.code.value
  | none => maxCode

/-- `MPI_Allreduce` with `MPI_MIN` over all processes; `top` is not less than any contribution. -/
def allMin (top : Int) (x : Fin n → Int) : Int := (List.finRange n).foldl (fun m p => min m (x p)) top

/-- Whether `SyncAuxData` of an error broadcasts (Error.hpp:56, 93-95, 111-113, 129-131). -/
def broadcasts (e : Error) : Bool := e.code != .mpiNotInitialized

/-- The second half of `Sync` (Exception.hpp:140-150): errors are created where there are none, and `root` sends the
path of its error to all. -/
def spread (es : Fin n → Option Error) (lowest root : Int) : Option (Fin n → Option Error) :=
  let es' p := match es p with
    | some e => some e
    | none => fromCode lowest
  if h : 0 ≤ root ∧ root.toNat < n then
    match es' ⟨root.toNat, h.2⟩ with
    | none => none
    | some r =>
      -- everybody broadcasts from `root`, or nobody does
      if ∀ p, (es' p).map broadcasts = some (broadcasts r) then
        some fun p => (es' p).map fun e => if broadcasts r then { e with path := r.path } else e
      else none
  else none

/-- `Sync` (Exception.hpp:126-155). -/
def sync (es : Fin n → Option Error) : Option (Fin n → Option Error) :=
  let lowest := allMin maxCode fun p => codeValue (es p)
  if lowest ≠ maxCode then
    spread es lowest (allMin n fun p => if codeValue (es p) = lowest then (p : Nat) else (n : Int))
  else some es

end Ovk.Err
