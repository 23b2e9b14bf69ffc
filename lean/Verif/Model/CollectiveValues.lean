/-
Processes that call collective operations of MPI which deliver values.  As in `Verif.Model.Collective`, a collective
operation completes when all members of its communicator have called it, and never if a member calls another kind of
operation on the communicator instead.  What an operation delivers is given by `comb`, from the kind and from what the
members contribute; with `none` the operation does not complete.

Simplified: operations that need not wait for all members, such as broadcasts, are taken to wait; this is the worst
case.
-/
import Mathlib.Data.List.FinRange

namespace Ovk.VColl
variable {κ K V α β : Type} [DecidableEq κ] [DecidableEq K] {n : Nat}

/-- What a process has yet to do; it ends with a value. -/
inductive Prog (κ K V α : Type)
  | ret (a : α)
  | coll (c : κ) (kind : K) (v : V) (next : V → Prog κ K V α)

/-- Go on with `f` after `p`. -/
def Prog.bind : Prog κ K V α → (α → Prog κ K V β) → Prog κ K V β
  | .ret a, f => f a
  | .coll c l v k, f => .coll c l v fun r => (k r).bind f

/-- The operation on communicator `c` that a process is about to take part in. -/
def Prog.at (c : κ) : Prog κ K V α → Option (K × V)
  | .ret _ => none
  | .coll c' l v _ => if c' = c then some (l, v) else none

/-- What is left when the operation has delivered `r`. -/
def Prog.after (r : V) : Prog κ K V α → Prog κ K V α
  | .ret a => .ret a
  | .coll _ _ _ k => k r

def members (mem : κ → Fin n → Bool) (c : κ) : List (Fin n) := (List.finRange n).filter (mem c)

/-- The operation on communicator `c` completes. -/
def step (mem : κ → Fin n → Bool) (comb : K → List (Fin n × V) → Option V) (x : Fin n → Prog κ K V α) (c : κ) :
    Option (Fin n → Prog κ K V α) :=
  match members mem c with
  | [] => none
  | q :: _ =>
    match (x q).at c with
    | none => none
    | some (l, _) =>
      if (members mem c).all fun p => ((x p).at c).any fun y => decide (y.1 = l) then
        (comb l ((members mem c).filterMap fun p => ((x p).at c).map fun y => (p, y.2))).map fun r =>
          fun p => if mem c p then (x p).after r else x p
      else none

/-- Operations on the communicators `cs` complete in this order. -/
def run (mem : κ → Fin n → Bool) (comb : K → List (Fin n × V) → Option V) :
    (Fin n → Prog κ K V α) → List κ → Option (Fin n → Prog κ K V α)
  | x, [] => some x
  | x, c :: cs => (step mem comb x c).bind fun y => run mem comb y cs

end Ovk.VColl
