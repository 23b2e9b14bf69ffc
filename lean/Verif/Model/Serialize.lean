/-
Model of `Serialize` (src/core/CommunicationOps.inl:7-22), which lets the processes of a communicator execute a function
one after the other, by means of barriers.
-/
import Mathlib.Data.List.FinRange

namespace Ovk.Serial

variable {E R : Type}

/-- What a process has yet to do: actions others may notice (output, for example), barriers of the communicator, and in the
end the result, which may be an exception. -/
inductive Prog (E R : Type)
  | ret (r : R)
  | act (e : E) (next : Prog E R)
  | barrier (next : Prog E R)

def Prog.bind {S : Type} : Prog E R → (R → Prog E S) → Prog E S
  | .ret r, f => f r
  | .act e k, f => .act e (k.bind f)
  | .barrier k, f => .barrier (k.bind f)

/-- `while (First < Last) MPI_Barrier(Comm);` with the number of passes. -/
def barriers : Nat → Prog E R → Prog E R
  | 0, k => k
  | m + 1, k => .barrier (barriers m k)

/-- `OnScopeExit` (ScopeGuard.inl:19-25): `last` is executed when `body` is left, with a value or with an exception; the guard
is neither moved from nor dismissed. -/
def closing (last : Prog E Unit) (body : Prog E R) : Prog E R := body.bind fun r => last.bind fun _ => .ret r

/-- `Serialize` on the process with this rank. -/
def serialize (size rank : Nat) (func : Prog E R) : Prog E R :=
  barriers rank (closing (barriers (size - rank) (.ret ())) func)

/-- All processes, and what they did, in order. -/
structure State (n : Nat) (E R : Type) where
  prog : Fin n → Prog E R
  trace : List (Fin n × E)

/-- Processes go on independently; a barrier is left when all processes have entered it. -/
inductive Step {n : Nat} : State n E R → State n E R → Prop
  | act (s : State n E R) (p : Fin n) (e : E) (k : Prog E R) : s.prog p = .act e k →
      Step s ⟨fun q => if q = p then k else s.prog q, s.trace ++ [(p, e)]⟩
  | barrier (s : State n E R) (k : Fin n → Prog E R) : 0 < n → (∀ p, s.prog p = .barrier (k p)) →
      Step s ⟨k, s.trace⟩

/-- Executions with a number of steps. -/
inductive Execution {n : Nat} (s : State n E R) : Nat → State n E R → Prop
  | none : Execution s 0 s
  | step {m : Nat} {t u : State n E R} : Execution s m t → Step t u → Execution s (m + 1) u

def start {n : Nat} (func : Fin n → Prog E R) : State n E R := ⟨fun p => serialize n p (func p), []⟩

end Ovk.Serial
