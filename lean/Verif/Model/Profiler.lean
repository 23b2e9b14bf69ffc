/-
Model of the profiler: src/core/Profiler.hpp, Profiler.inl (`timer`, `profiler::Start/StartSync/Stop`), Profiler.cpp
(`Start_`, `StartSync_`, `Stop_`, `WriteProfile`).

Times (`MPI_Wtime()`) are rational numbers given from outside, arithmetic is exact.  The barrier of `StartSync_` only delays
the start.  Debug assertions are not modelled: they are off in a release build.  A profile is the list of its numbers, not
formatted as text (Profiler.cpp:213-218).
-/
import Mathlib.Algebra.Order.Field.Rat
import Mathlib.Data.Fintype.Basic
import Mathlib.Data.List.FinRange
import Mathlib.Logic.Function.Basic

namespace Ovk.Prof

/-- `timer` (Profiler.hpp:21-43); `none` is an uninitialised member. -/
structure Timer where
  active : Bool := false
  accumulatedTime : Rat := 0
  lastStart : Option Rat := none
  lastEnd : Option Rat := none

/-- `timer::Start` at time `t` (Profiler.inl:7-15). -/
def Timer.start (x : Timer) (t : Rat) : Timer :=
  { x with lastStart := if x.active then x.lastStart else some t, active := true }

/-- `timer::Stop` at time `t` (Profiler.inl:17-26). -/
def Timer.stop (x : Timer) (t : Rat) : Timer :=
  { x with
    lastEnd := if x.active then some t else x.lastEnd
    accumulatedTime := if x.active then x.accumulatedTime + (t - x.lastStart.getD 0) else x.accumulatedTime
    active := false }

/-- `timer::Reset` (Profiler.inl:28-32). -/
def Timer.reset (_ : Timer) : Timer := {}

/-- `timer::Elapsed` at time `t` (Profiler.inl:34-42); `none`: uninitialised members are read. -/
def Timer.elapsed (x : Timer) (t : Rat) : Option Rat :=
  if x.active then x.lastStart.map fun s => t - s
  else x.lastEnd.bind fun e => x.lastStart.map fun s => e - s

/-- `timer::Accumulated` at time `t` (Profiler.inl:44-52). -/
def Timer.accumulated (x : Timer) (t : Rat) : Rat :=
  if x.active then x.accumulatedTime + (t - x.lastStart.getD 0) else x.accumulatedTime

/-- `timer_entry` (Profiler.hpp:152-158). -/
structure Entry where
  timer : Timer := {}
  activeCount : Int := 0

/-- `profiler` with `N` timers (Profiler.hpp:160-162). -/
structure Profiler (N : Nat) where
  enabled : Bool := false
  timers : Fin N → Option Entry := fun _ => none

/-- Calls of the profiler. -/
inductive Op (N : Nat)
  | enable
  | disable
  | start (id : Fin N)
  | stop (id : Fin N)
deriving DecidableEq

variable {N : Nat}

/-- One call at time `t`; `none` is undefined behaviour (a missing map entry). -/
def Profiler.step (x : Profiler N) (t : Rat) : Op N → Option (Profiler N)
  -- Profiler.cpp:115-125
  | .enable => some { x with enabled := true }
  | .disable => some { x with enabled := false }
  -- Profiler.inl:54-70, Profiler.cpp:127-147
  | .start id =>
    if x.enabled then
      let e := (x.timers id).getD {}
      let e' : Entry := { timer := e.timer.start t, activeCount := e.activeCount + 1 }
      some { x with timers := Function.update x.timers id (some e') }
    else some x
  -- Profiler.inl:72-79, Profiler.cpp:149-165
  | .stop id =>
    if x.enabled then
      match x.timers id with
      | none => none
      | some e =>
        let c := e.activeCount - 1
        let e' : Entry := { timer := if c = 0 then e.timer.stop t else e.timer, activeCount := c }
        some { x with timers := Function.update x.timers id (some e') }
    else some x

/-- State after a history of calls, latest first. -/
def after : List (Rat × Op N) → Option (Profiler N)
  | [] => some {}
  | e :: h => (after h).bind fun x => x.step e.1 e.2

/-- The time of a timer in `WriteProfile` (Profiler.cpp:192-198). -/
def Profiler.time (x : Profiler N) (id : Fin N) (t : Rat) : Rat :=
  match x.timers id with
  | some e => e.timer.accumulated t
  | none => 0

/-- `MPI_Allreduce` over the values of the processes, in some order. -/
def reduce (op : Rat → Rat → Rat) : List Rat → Rat
  | [] => 0
  | x :: xs => xs.foldl op x

/-- One line of a profile (Profiler.cpp:213-218). -/
structure Line (N : Nat) where
  id : Fin N
  min : Rat
  max : Rat
  avg : Rat

variable {P : Nat}

/-- `GlobalTimerIDs` (Profiler.cpp:173-184). -/
def globalIDs (xs : Fin P → Profiler N) : List (Fin N) :=
  (List.finRange N).filter fun id => (List.finRange P).any fun p => ((xs p).timers id).isSome

/-- `WriteProfile` on process `p`, if `Accumulated` of timer `id` is called at time `t q id` on process `q`
(Profiler.cpp:167-224); `none`: the process waits forever for processes that do not take part. -/
def writeProfile (xs : Fin P → Profiler N) (t : Fin P → Fin N → Rat) (p : Fin P) : Option (List (Line N)) :=
  if (xs p).enabled then
    if ∀ q, (xs q).enabled = true then
      some ((globalIDs xs).map fun id =>
        let times := (List.finRange P).map fun q => (xs q).time id (t q id)
        { id, min := reduce min times, max := reduce max times, avg := reduce (· + ·) times / (P : Rat) })
    else none
  else some []

end Ovk.Prof
