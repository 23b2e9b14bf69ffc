/-
Model of src/core/CommunicationOps.cpp: `signal` (83-140) and `DynamicHandshake` (142-198).

All processes are modelled at once as a transition system; a step is one action of one process, and steps of
different processes interleave arbitrarily.

MPI, as used here: a synchronous send (`MPI_Issend`) completes only once a matching receive has started;
`MPI_Iprobe` and `MPI_Test*` may answer "no" at any time, and may answer "yes" only if the message is there or
the operation is complete; a receive posted for the source of a probed message takes that message; messages
on the duplicated communicator are not seen elsewhere; `MPI_Ibarrier` completes on a process only after
every process has started it.
-/
import Verif.Model.Container
import Mathlib.Data.List.Basic
import Mathlib.Logic.Function.Basic

namespace Ovk.Shake

/-- Where a process is in `DynamicHandshake`. -/
inductive Pc where
  /-- posting sends (CommunicationOps.cpp:162-166) -/
  | send
  /-- probing for messages (CommunicationOps.cpp:175-183) -/
  | poll
  /-- testing the sends or checking the signal (CommunicationOps.cpp:184-191) -/
  | test
  /-- returned -/
  | done
deriving DecidableEq, Repr

structure Proc (n : Nat) where
  pc : Pc
  /-- destinations not sent to yet -/
  todo : List (Fin n)
  /-- `MatchedRanksSet` -/
  matched : List Nat
  /-- `SendsDone`; also whether `AllSendsDoneSignal` was started -/
  sendsDone : Bool
deriving DecidableEq

structure State (n : Nat) where
  procs : Fin n → Proc n
  /-- messages (source, destination) sent but not received yet -/
  net : List (Fin n × Fin n)

abbrev natLt : Nat → Nat → Bool := fun a b => decide (a < b)

/-- The rank itself, if named (CommunicationOps.cpp:152-158). -/
def selfMatch {n : Nat} (p : Fin n) (ranks : List (Fin n)) : List Nat :=
  ranks.foldl (fun s q => if q = p then OSet.insert natLt s p.val else s) []

/-- Process `p` before its first send (CommunicationOps.cpp:142-161). -/
def startProc {n : Nat} (ranks : Fin n → List (Fin n)) (p : Fin n) : Proc n :=
  ⟨.send, (ranks p).filter fun q => q ≠ p, selfMatch p (ranks p), false⟩

def start {n : Nat} (ranks : Fin n → List (Fin n)) : State n := ⟨startProc ranks, []⟩

/-- One action of process `p`. -/
inductive Step {n : Nat} (p : Fin n) (s : State n) : State n → Prop
  /-- `MPI_Issend` (CommunicationOps.cpp:164) -/
  | issend (q : Fin n) (rest : List (Fin n)) : (s.procs p).pc = .send → (s.procs p).todo = q :: rest →
      Step p s ⟨Function.update s.procs p { s.procs p with todo := rest }, s.net ++ [(p, q)]⟩
  /-- all sends posted; construct the signal (CommunicationOps.cpp:168-174) -/
  | enter : (s.procs p).pc = .send → (s.procs p).todo = [] →
      Step p s ⟨Function.update s.procs p { s.procs p with pc := .poll }, s.net⟩
  /-- `MPI_Iprobe` finds a message, which is received (CommunicationOps.cpp:178-182) -/
  | recv (q : Fin n) : (s.procs p).pc = .poll → (q, p) ∈ s.net →
      Step p s ⟨Function.update s.procs p
        { s.procs p with matched := OSet.insert natLt (s.procs p).matched q.val }, s.net.erase (q, p)⟩
  /-- `MPI_Iprobe` finds nothing (CommunicationOps.cpp:179) -/
  | noMsg : (s.procs p).pc = .poll →
      Step p s ⟨Function.update s.procs p { s.procs p with pc := .test }, s.net⟩
  /-- `MPI_Testall` says not done (CommunicationOps.cpp:187) -/
  | notSent : (s.procs p).pc = .test → (s.procs p).sendsDone = false →
      Step p s ⟨Function.update s.procs p { s.procs p with pc := .poll }, s.net⟩
  /-- `MPI_Testall` says done; start the signal (CommunicationOps.cpp:187-190) -/
  | allSent : (s.procs p).pc = .test → (s.procs p).sendsDone = false → (∀ q, (p, q) ∉ s.net) →
      Step p s ⟨Function.update s.procs p { s.procs p with pc := .poll, sendsDone := true }, s.net⟩
  /-- `Check` is false (CommunicationOps.cpp:185) -/
  | notDone : (s.procs p).pc = .test → (s.procs p).sendsDone = true →
      Step p s ⟨Function.update s.procs p { s.procs p with pc := .poll }, s.net⟩
  /-- `Check` is true: every process has started the signal (CommunicationOps.cpp:185, 106-107) -/
  | finish : (s.procs p).pc = .test → (s.procs p).sendsDone = true →
      (∀ q, (s.procs q).sendsDone = true) →
      Step p s ⟨Function.update s.procs p { s.procs p with pc := .done }, s.net⟩

/-- States after any interleaving of any number of steps. -/
inductive Reach {n : Nat} (s : State n) : State n → Prop
  | refl : Reach s s
  | step {t u : State n} (p : Fin n) : Reach s t → Step p t u → Reach s u

/-- The returned list (CommunicationOps.cpp:196). -/
def result {n : Nat} (s : State n) (p : Fin n) : Option (List Nat) :=
  if (s.procs p).pc = .done then some (s.procs p).matched else none

/-! ### `signal` without `MPI_Ibarrier` -/

namespace Sig

/-- A process other than the root. -/
structure Other where
  /-- `Start` was called (CommunicationOps.cpp:93-94) -/
  started : Bool
  /-- its message with tag 0 has been received -/
  first : Bool
  /-- its message with tag 1 has been received -/
  second : Bool
  /-- `Check` returned true -/
  seen : Bool
deriving DecidableEq

/-- Root: `Start` called, `NumCompleted_`, inside the loop of receives with tag 1 (with the next rank),
`Check` returned true. -/
structure Root where
  started : Bool
  count : Nat
  next : Option Nat
  seen : Bool
deriving DecidableEq

/-- `m` processes besides the root; process `i` has rank `i+1`. -/
structure State (m : Nat) where
  root : Root
  others : Fin m → Other

def start (m : Nat) : State m := ⟨⟨false, 0, none, false⟩, fun _ => ⟨false, false, false, false⟩⟩

inductive Step {m : Nat} (s : State m) : State m → Prop
  /-- `Start` on the root does nothing (CommunicationOps.cpp:92) -/
  | rootStart : s.root.started = false → Step s { s with root := { s.root with started := true } }
  /-- `Start` elsewhere (CommunicationOps.cpp:93-94); both sends are posted before anything else -/
  | otherStart (i : Fin m) : (s.others i).started = false →
      Step s { s with others := Function.update s.others i { s.others i with started := true } }
  /-- the root receives a message with tag 0 (CommunicationOps.cpp:115-122) -/
  | rootRecv (i : Fin m) : s.root.started = true → s.root.next = none → s.root.seen = false →
      s.root.count < m → (s.others i).started = true → (s.others i).first = false →
      Step s ⟨{ s.root with count := s.root.count + 1 },
        Function.update s.others i { s.others i with first := true }⟩
  /-- the root has them all (CommunicationOps.cpp:123-125) -/
  | rootAll : s.root.started = true → s.root.next = none → s.root.seen = false → s.root.count = m →
      Step s { s with root := { s.root with next := some 0 } }
  /-- the root receives a message with tag 1 from the next rank (CommunicationOps.cpp:126) -/
  | rootSecond (i : Fin m) : s.root.next = some i.val → (s.others i).started = true →
      (s.others i).second = false →
      Step s ⟨{ s.root with next := some (i.val + 1) },
        Function.update s.others i { s.others i with second := true }⟩
  /-- `Check` returns true on the root (CommunicationOps.cpp:128-135) -/
  | rootSeen : s.root.next = some m →
      Step s { s with root := { s.root with next := none, count := 0, seen := true } }
  /-- `Check` returns true elsewhere: the synchronous send is matched (CommunicationOps.cpp:109-112) -/
  | otherSeen (i : Fin m) : (s.others i).started = true → (s.others i).second = true →
      Step s { s with others := Function.update s.others i { s.others i with seen := true } }

inductive Reach {m : Nat} (s : State m) : State m → Prop
  | refl : Reach s s
  | step {t u : State m} : Reach s t → Step t u → Reach s u

end Sig

end Ovk.Shake
