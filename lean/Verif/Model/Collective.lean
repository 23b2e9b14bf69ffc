/-
Processes that call collective operations of MPI, with the communicators and kinds of operations made explicit.  Used
for the control flow of functions that synchronize errors: `captured_exception::Sync` and `Check`
(src/core/Exception.hpp:126-160), `logger::SyncIndicator` (src/core/Logger.inl:73-79), barriers, and operations on
files that are open on several processes.

A collective operation completes when all members of its communicator have called it.  If a member calls another kind
of operation on the communicator instead, nothing completes.

Simplified: every operation is a logical or over the members; for `Sync` this is whether any process has an error
(C77), other operations contribute nothing.  Operations that need not wait for all members, such as broadcasts, are
taken to wait; this is the worst case.
-/
import Mathlib.Data.List.FinRange

namespace Ovk.Coll
variable {κ : Type} [DecidableEq κ] {n : Nat}

/-- Kinds of operations; `open` and its like are on one of two files. -/
inductive Kind
  | barrier | subset | sync | indicator | bcast | reduce | scan
  | openFile (x : Bool) | closeFile (x : Bool) | setView (x : Bool) | readAll (x : Bool)
  deriving DecidableEq

/-- What a process has yet to do; it ends with whether it has thrown. -/
inductive Prog (κ : Type)
  | ret (thrown : Bool)
  | coll (c : κ) (kind : Kind) (flag : Bool) (next : Bool → Prog κ)

/-- Go on with `f` after `p`. -/
def Prog.bind : Prog κ → (Bool → Prog κ) → Prog κ
  | .ret t, f => f t
  | .coll c l b k, f => .coll c l b fun r => (k r).bind f

/-- `b` after `a`, unless `a` throws. -/
def Prog.seq (a b : Prog κ) : Prog κ := a.bind fun t => if t then .ret true else b

def Prog.seqs : List (Prog κ) → Prog κ
  | [] => .ret false
  | a :: l => a.seq (Prog.seqs l)

/-- An operation that contributes nothing. -/
def Prog.plain (c : κ) (kind : Kind) : Prog κ := .coll c kind false fun _ => .ret false

/-- `Sync` of an error that is set if `e`, and throwing it; `Check(Comm)` (Exception.hpp:126-160). -/
def Prog.check (c : κ) (e : Bool) : Prog κ := .coll c .sync e .ret

/-- `OnScopeExit` (src/core/ScopeGuard.inl): `a` at the end of `body`, also if it throws. -/
def Prog.closing (a body : Prog κ) : Prog κ := body.bind fun t => a.bind fun _ => .ret t

/-- The operation on communicator `c` that a process is about to take part in. -/
def Prog.at (c : κ) : Prog κ → Option (Kind × Bool)
  | .ret _ => none
  | .coll c' l b _ => if c' = c then some (l, b) else none

/-- What is left when the operation has given `r`. -/
def Prog.after (r : Bool) : Prog κ → Prog κ
  | .ret t => .ret t
  | .coll _ _ _ k => k r

def members (mem : κ → Fin n → Bool) (c : κ) : List (Fin n) := (List.finRange n).filter (mem c)

/-- The operation on communicator `c` completes. -/
def step (mem : κ → Fin n → Bool) (x : Fin n → Prog κ) (c : κ) : Option (Fin n → Prog κ) :=
  match members mem c with
  | [] => none
  | q :: _ =>
    match (x q).at c with
    | none => none
    | some (l, _) =>
      if (members mem c).all fun p => ((x p).at c).any fun y => decide (y.1 = l) then
        let r := (members mem c).any fun p => ((x p).at c).any fun y => y.2
        some fun p => if mem c p then (x p).after r else x p
      else none

/-- Operations on the communicators `cs` complete in this order. -/
def run (mem : κ → Fin n → Bool) : (Fin n → Prog κ) → List κ → Option (Fin n → Prog κ)
  | x, [] => some x
  | x, c :: cs => (step mem x c).bind fun y => run mem y cs

end Ovk.Coll
