/-
Model of src/core/Request.cpp: `request::Wait`, `WaitAll`, `WaitAny`.

A request is `none` when its pointer is null or its `Request_` is empty (every loop of the code skips both),
and otherwise holds its array of MPI requests: `true` is an active handle, `false` is `MPI_REQUEST_NULL`.

`MPI_Waitany` (MPI standard) returns the index of some active handle, which it sets to
`MPI_REQUEST_NULL`, or `MPI_UNDEFINED` when no handle is active.  The indices it returns over one wait are a list
`order`; `Serves` says which lists MPI may produce.  `none` is undefined behaviour: access outside an
array, or use of an empty request.

The pointer versions (Request.cpp:104-315) are modelled; the others (Request.cpp:72-102) call them with
the addresses of the requests.  Simplified: the requests of the list are distinct objects with separate arrays.
-/
import Mathlib.Data.List.Basic

namespace Ovk.Req

/-- What a wait does to the request with a given position in the list. -/
inductive Ev where
  /-- `OnMPIRequestComplete_(iMPIRequest)` -/
  | msg (r j : Nat)
  /-- `OnComplete_()` -/
  | fin (r : Nat)
  /-- `StartWaitTime_()` -/
  | startWait (r : Nat)
  /-- `StopWaitTime_()` -/
  | stopWait (r : Nat)
  /-- `StartMPITime_()` -/
  | startMPI (r : Nat)
  /-- `StopMPITime_()` -/
  | stopMPI (r : Nat)
deriving DecidableEq, Repr

/-- Array of MPI requests of a non-empty request. -/
abbrev Handles := List Bool

structure St where
  reqs : List (Option Handles)
  log : List Ev
deriving DecidableEq, Repr

/-- Lists of indices that successive calls of `MPI_Waitany` on the array `h` may return before
`MPI_UNDEFINED`. -/
def Serves (h : Handles) : List Nat → Prop
  | [] => ∀ b ∈ h, b = false
  | i :: is => h[i]? = some true ∧ Serves (h.set i false) is

/-- `Request && *Request` (Request.cpp:109, 137-139). -/
def live (reqs : List (Option Handles)) (r : Nat) : Bool := (reqs[r]?.join).isSome

/-- A loop over all requests calling a timer function of the non-empty ones (Request.cpp:108-128,
212-232). -/
def tick (k : Nat → Ev) (s : St) : St :=
  { s with log := s.log ++ ((List.range s.reqs.length).filter (live s.reqs)).map k }

/-- Number of handles that are not `MPI_REQUEST_NULL` (Request.cpp:140-145, 244-249). -/
def numActive : Option Handles → Nat
  | none => 0
  | some h => h.count true

/-- `NumRemainingMPIRequests` (Request.cpp:132-150, 236-254). -/
def remaining (reqs : List (Option Handles)) : List Nat := reqs.map numActive

/-- `OnComplete_(); StopWaitTime_(); Reset_();` (Request.cpp:156-158, 200-202, 260-262, 307-309). -/
def complete (s : St) (r : Nat) : Option St :=
  if live s.reqs r then some ⟨s.reqs.set r none, s.log ++ [.fin r, .stopWait r]⟩ else none

/-- Body of the loop completing requests without active handles (Request.cpp:153-160). -/
def finishOne (rem : List Nat) (s : St) (r : Nat) : Option St :=
  if live s.reqs r ∧ rem[r]? = some 0 then complete s r else some s

/-- The loop (Request.cpp:152-161). -/
def finishEmpty (rem : List Nat) (s : St) : Option St :=
  (List.range s.reqs.length).foldlM (finishOne rem) s

/-- Handles of one request appended to `AllMPIRequestToRequest` (Request.cpp:170-182). -/
def gatherOne (r : Nat) : Option Handles → List (Nat × Nat)
  | none => []
  | some h => ((List.range h.length).filter fun j => h[j]? == some true).map fun j => (r, j)

/-- `AllMPIRequestToRequest` (Request.cpp:163-183, 269-289). -/
def gather (reqs : List (Option Handles)) : List (Nat × Nat) :=
  (List.range reqs.length).flatMap fun r => gatherOne r reqs[r]?.join

/-- State of the main loops: `NumRemainingMPIRequests` and the requests. -/
structure Loop where
  rem : List Nat
  st : St
deriving DecidableEq, Repr

/-- One message: null the handle, process the message, count down (Request.cpp:193-198, 300-305). -/
def message (map : List (Nat × Nat)) (s : Loop) (i : Nat) : Option (Nat × Loop) :=
  match map[i]? with
  | none => none
  | some (r, j) =>
    match s.st.reqs[r]?.join, s.rem[r]? with
    | some h, some k =>
      if j < h.length then
        some (r, ⟨s.rem.set r (k - 1),
          ⟨s.st.reqs.set r (some (h.set j false)), s.st.log ++ [.msg r j]⟩⟩)
      else none
    | _, _ => none

/-- Timing around `MPI_Waitany` (Request.cpp:187-189, 293-295). -/
def timed (s : Loop) : Loop := { s with st := tick .stopMPI (tick .startMPI s.st) }

/-- Main loop of `WaitAll` (Request.cpp:185-204). -/
def allLoop (map : List (Nat × Nat)) : List Nat → Loop → Option Loop
  | [], s => some (timed s)
  | i :: is, s =>
    match message map (timed s) i with
    | none => none
    | some (r, t) =>
      if t.rem[r]? = some 0 then
        match complete t.st r with
        | none => none
        | some u => allLoop map is ⟨t.rem, u⟩
      else allLoop map is t

/-- `WaitAll` (Request.cpp:104-206).  `order`: the indices returned by `MPI_Waitany`. -/
def waitAll (reqs : List (Option Handles)) (order : List Nat) : Option St :=
  let s := tick .startWait ⟨reqs, []⟩
  let rem := remaining s.reqs
  match finishEmpty rem s with
  | none => none
  | some t => (allLoop (gather t.reqs) order ⟨rem, t⟩).map Loop.st

/-- The array on which `WaitAll` calls `MPI_Waitany`: its first `TotalMPIRequests` entries
(Request.cpp:147, 188). -/
def waitAllHandles (reqs : List (Option Handles)) : Handles :=
  List.replicate (remaining reqs).sum true

/-- First request without active handles (Request.cpp:256-267). -/
def firstEmpty (reqs : List (Option Handles)) : Option Nat :=
  (List.range reqs.length).find? fun r => live reqs r && (remaining reqs)[r]? == some 0

/-- Main loop of `WaitAny` (Request.cpp:291-313); `-1` when no handle is active. -/
def anyLoop (map : List (Nat × Nat)) : List Nat → Loop → Option (Int × Loop)
  | [], s => some (-1, timed s)
  | i :: is, s =>
    match message map (timed s) i with
    | none => none
    | some (r, t) =>
      if t.rem[r]? = some 0 then
        match complete t.st r with
        | none => none
        | some u => some (r, ⟨t.rem, u⟩)
      else anyLoop map is t

/-- `WaitAny` (Request.cpp:208-315): `Index` and the final state. -/
def waitAny (reqs : List (Option Handles)) (order : List Nat) : Option (Int × St) :=
  let s := tick .startWait ⟨reqs, []⟩
  let rem := remaining s.reqs
  match firstEmpty s.reqs with
  | some r => (complete s r).map fun t => ((r : Int), t)
  | none => (anyLoop (gather s.reqs) order ⟨rem, s⟩).map fun x => (x.1, x.2.st)

/-- Loop of `request::Wait` (Request.cpp:27-36): here `MPI_Waitany` nulls the handles itself. -/
def oneLoop (r : Nat) : List Nat → St → Option St
  | [], s => some { s with log := s.log ++ [.startMPI r, .stopMPI r] }
  | i :: is, s =>
    match s.reqs[r]?.join with
    | none => none
    | some h =>
      if i < h.length then
        oneLoop r is ⟨s.reqs.set r (some (h.set i false)), s.log ++ [.startMPI r, .stopMPI r, .msg r i]⟩
      else none

/-- `request::Wait` (Request.cpp:19-46) on entry `r` of a list of requests. -/
def wait (reqs : List (Option Handles)) (r : Nat) (order : List Nat) : Option St :=
  if live reqs r then
    match oneLoop r order ⟨reqs, [.startWait r]⟩ with
    | none => none
    | some s => complete s r
  else some ⟨reqs, []⟩

/-- The array on which `Wait` calls `MPI_Waitany` (Request.cpp:25). -/
def waitHandles (reqs : List (Option Handles)) (r : Nat) : Handles := (reqs[r]?.join).getD []

/-- `ActiveCount` of a profiler timer after a history of starts and stops (Profiler.cpp:127-165); `none`:
stopped while not active. -/
def activeCount (isStart isStop : Ev → Bool) (l : List Ev) : Option Nat :=
  l.foldlM (fun (c : Nat) e =>
    if isStart e then some (c + 1)
    else if isStop e then (if 0 < c then some (c - 1) else none)
    else some c) 0

end Ovk.Req
