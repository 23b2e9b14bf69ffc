/-
Model of `BroadcastAnySource` (src/core/CommunicationOps.cpp:37-49): a sequence of calls on one communicator,
as an asynchronous system of `n + 1` processes.  Round `k` is the `k`-th call of a process.

`MPI_Send` may return at once or only after the message was received, as an oracle `buffered` decides; a receive
with `MPI_ANY_SOURCE` may take any message that is on the way; a process leaves `MPI_Bcast` once the root has
entered it, the root at any time.  Messages other than those of these calls are not modelled (the communicator has
no other traffic with tag 0).
-/
import Mathlib.Data.Fin.Basic
import Mathlib.Data.List.Basic

namespace Ovk.Bcast
variable {n : Nat} {V : Type}

/-- Where a process is in its current call. -/
inductive Phase
  /-- before line 41 -/
  | start
  /-- in `MPI_Send` (44) -/
  | sending
  /-- before `MPI_Bcast` (47) -/
  | ready
  deriving DecidableEq

structure Calls (n : Nat) (V : Type) where
  /-- number of calls -/
  rounds : Nat
  /-- `IsSource` -/
  isSource : Nat → Fin (n + 1) → Bool
  /-- what `Data` holds before the call -/
  value : Nat → Fin (n + 1) → V
  /-- whether `MPI_Send` returns without waiting for the receive -/
  buffered : Nat → Fin (n + 1) → Bool

structure State (n : Nat) (V : Type) where
  round : Fin (n + 1) → Nat
  phase : Fin (n + 1) → Phase
  /-- messages on the way to rank 0 -/
  chan : List (Fin (n + 1) × V)
  /-- `Data` on rank 0 -/
  data : V
  /-- what rank 0 broadcast in a round -/
  sent : Nat → Option V
  /-- `Data` after the call -/
  result : Fin (n + 1) → Nat → Option V

def initial (v : V) : State n V := ⟨fun _ => 0, fun _ => .start, [], v, fun _ => none, fun _ _ => none⟩

inductive Event (n : Nat)
  /-- nothing to do in lines 41-45 -/
  | pass (p : Fin (n + 1))
  /-- line 44 is entered -/
  | send (p : Fin (n + 1))
  /-- line 44 is left -/
  | sendDone (p : Fin (n + 1))
  /-- line 42 receives message number `i` -/
  | recv (i : Nat)
  /-- line 47 -/
  | bcast (p : Fin (n + 1))

def State.setPhase (x : State n V) (p : Fin (n + 1)) (f : Phase) : State n V :=
  { x with phase := fun q => if q = p then f else x.phase q }

/-- The end of the call, with result `v`. -/
def State.leave (x : State n V) (p : Fin (n + 1)) (v : V) : State n V :=
  { x with
    round := fun q => if q = p then x.round q + 1 else x.round q
    phase := fun q => if q = p then .start else x.phase q
    result := fun q k => if q = p ∧ k = x.round p then some v else x.result q k }

/-- One event; `none` if it cannot happen. -/
def step (c : Calls n V) (x : State n V) : Event n → Option (State n V)
  | .pass p =>
    if x.round p < c.rounds ∧ x.phase p = .start ∧ (p = 0 ↔ c.isSource (x.round p) p = true) then
      some ({ x with data := if p = 0 then c.value (x.round p) p else x.data }.setPhase p .ready)
    else none
  | .send p =>
    if x.round p < c.rounds ∧ x.phase p = .start ∧ p ≠ 0 ∧ c.isSource (x.round p) p = true then
      some ({ x with chan := x.chan ++ [(p, c.value (x.round p) p)] }.setPhase p .sending)
    else none
  | .sendDone p =>
    if x.phase p = .sending ∧ (c.buffered (x.round p) p = true ∨ ∀ m ∈ x.chan, m.1 ≠ p) then
      some (x.setPhase p .ready)
    else none
  | .recv i =>
    if x.round 0 < c.rounds ∧ x.phase 0 = .start ∧ c.isSource (x.round 0) 0 = false then
      (x.chan[i]?).map fun m => { x with chan := x.chan.eraseIdx i, data := m.2 }.setPhase 0 .ready
    else none
  | .bcast p =>
    if x.phase p = .ready then
      if p = 0 then
        some ({ x with sent := fun k => if k = x.round 0 then some x.data else x.sent k }.leave 0 x.data)
      else (x.sent (x.round p)).map fun v => x.leave p v
    else none

def run (c : Calls n V) : State n V → List (Event n) → Option (State n V)
  | x, [] => some x
  | x, e :: es => (step c x e).bind fun y => run c y es

end Ovk.Bcast
