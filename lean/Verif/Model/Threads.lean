/-
Model of src/core/CollectInterpThreaded.hpp: interpolation with OpenMP threads.

Threads execute instructions; each writes one location in memory that is shared by all threads, with a value computed
from locations it reads.  Instructions of different threads are executed in any order.

Simplified: one component, as in Model/Collect.lean, whose functions are used for what is read and written; the scratch
arrays with indices of local vertices (CollectBase.cpp:246-247), one pair for each thread, are left out; an
instruction is atomic, which is harmless as long as there are no races.
-/
import Verif.Model.Collect

namespace Ovk.Thr
variable {d n : Nat} {V : Type}

/-- Locations: `VertexValues_(iThread)(iVertex)`, `VertexCoefs_(iThread)(iVertex)` (CollectInterpThreaded.hpp:142-143),
`PackedValues_(iCell)`, and `NumThreads` in `GetThreadCount_` (146). -/
inductive Loc
  | values (t : Nat) (i : Int)
  | coefs (t : Nat) (i : Int)
  | packed (k : Nat)
  | count
  deriving DecidableEq

/-- Write a value computed from others; `none` is undefined behaviour. -/
structure Instr (V : Type) where
  target : Loc
  reads : List Loc
  val : List V → Option V

abbrev Mem (V : Type) := Loc → V

def Mem.set (m : Mem V) (l : Loc) (v : V) : Mem V := fun l' => if l' = l then v else m l'

/-- The threads in a parallel region. -/
structure State (T : Nat) (V : Type) where
  rest : Fin T → List (Instr V)
  mem : Mem V
  bad : Bool

/-- Thread `t` executes its next instruction. -/
def step {T : Nat} (x : State T V) (t : Fin T) : Option (State T V) :=
  match x.rest t with
  | [] => none
  | i :: l =>
    let rest := fun t' => if t' = t then l else x.rest t'
    match i.val (i.reads.map x.mem) with
    | none => some { rest := rest, mem := x.mem, bad := true }
    | some v => some { rest := rest, mem := x.mem.set i.target v, bad := x.bad }

/-- An interleaving of the threads. -/
def run {T : Nat} : State T V → List (Fin T) → Option (State T V)
  | x, [] => some x
  | x, t :: ts => (step x t).bind fun y => run y ts

def start {T : Nat} (prog : Fin T → List (Instr V)) (m : Mem V) : State T V := ⟨prog, m, false⟩

/-- The value of a remote vertex (CollectBase.cpp:269-276). -/
def remoteValue (vals : List (List V)) (x : Nat × Nat × Int) : Option V :=
  match vals[x.2.1]? with
  | none => none
  | some xs => if x.2.2 < 0 then none else xs[x.2.2.toNat]?

/-- `AssembleVertexValues_` (CollectBase.cpp:242-278) with the scratch array of thread `t`. -/
def assemble (s : Coll.Setup d n) (field : Fin n → Int → V) (a : Fin n) (rs : List (Coll.Recv d n))
    (vals : List (List V)) (t k : Nat) (cell : Rng d) : List (Instr V) :=
  (Coll.part s.cart (s.loc a) cell).map (fun p => ⟨.values t (cell.index s.layout p), [], fun _ =>
    Coll.readField s field a (Coll.vertex s.cart cell p)⟩) ++
  if (Coll.remoteVertices s rs cell).length = Coll.numRemote s.cart (s.loc a) cell then
    (Coll.remoteVertices s rs cell).map fun x => ⟨.values t (x.1 : Int), [], fun _ => remoteValue vals x⟩
  else [⟨.packed k, [], fun _ => none⟩]

/-- `VertexCoefs` (CollectInterpThreaded.hpp:111-121). -/
def coefficients [Mul V] [One V] (l : Indexer.Layout) (coefs : Fin d → Int → V) (t : Nat) (cell : Rng d) :
    List (Instr V) :=
  cell.points.map fun p => ⟨.coefs t (cell.index l p), [], fun _ =>
    some ((List.finRange d).foldl (fun x i => x * coefs i (p i - cell.b i)) 1)⟩

/-- The sum over the vertices (CollectInterpThreaded.hpp:124-127). -/
def total [Add V] [Mul V] [Zero V] (t k : Nat) (cell : Rng d) : List (Instr V) :=
  ⟨.packed k, [], fun _ => some 0⟩ :: (List.range cell.count.toNat).map fun (i : Nat) =>
    ⟨.packed k, [.packed k, .coefs t (i : Int), .values t (i : Int)], fun
      | [x, c, v] => some (x + c * v)
      | _ => none⟩

/-- What is done for one cell (CollectInterpThreaded.hpp:104-128). -/
def cellProg [Add V] [Mul V] [Zero V] [One V] (s : Coll.Setup d n) (field : Fin n → Int → V) (a : Fin n)
    (rs : List (Coll.Recv d n)) (vals : List (List V)) (coefs : Nat → Fin d → Int → V) (t k : Nat) (cell : Rng d) :
    List (Instr V) :=
  assemble s field a rs vals t k cell ++ coefficients s.layout (coefs k) t cell ++ total t k cell

/-- What thread `t` does (CollectInterpThreaded.hpp:93-132): it takes the scratch arrays with its number, of which
there are as many as there were threads when the object was created (51-52, 65-70), and does its share of the iterations. -/
def threadProg [Add V] [Mul V] [Zero V] [One V] (s : Coll.Setup d n) (field : Fin n → Int → V) (a : Fin n)
    (rs : List (Coll.Recv d n)) (vals : List (List V)) (coefs : Nat → Fin d → Int → V) (created t : Nat)
    (share : List Nat) : List (Instr V) :=
  if t < created then
    share.flatMap fun k =>
      match (s.cells a)[k]? with
      | none => []
      | some cell => cellProg s field a rs vals coefs t k cell
  else [⟨.packed 0, [], fun _ => none⟩]

/-- `Collect` (CollectInterpThreaded.hpp:80-136) on one process up to the parallel region: the programs of the threads.
`share t` are the iterations which `omp for` gives to thread `t`. -/
def program [Add V] [Mul V] [Zero V] [One V] (s : Coll.Setup d n) (field : Fin n → Int → V)
    (coefs : Nat → Fin d → Int → V) (created T : Nat) (share : Fin T → List Nat) (a : Fin n) :
    Option (Fin T → List (Instr V)) :=
  (Coll.recvs s a).bind fun rs => (Coll.remoteValues s field a rs).map fun vals => fun t =>
    threadProg s field a rs vals coefs created t.1 (share t)

/-- `GetThreadCount_` (CollectInterpThreaded.hpp:145-152): all threads write the number of threads. -/
def countProg (T : Nat) (_ : Fin T) : List (Instr Nat) := [⟨.count, [], fun _ => some T⟩]

end Ovk.Thr
