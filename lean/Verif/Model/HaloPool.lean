/-
Model of halo exchanges that are in progress at the same time: src/core/Halo.hpp, Halo.inl.

`halo` keeps exchangers by data type (`HaloExchangers_`); an exchange takes the first one that is not active or makes
a new one.  An exchanger has the buffers and MPI requests of one exchange.  What is sent for one exchange is C20; here
are the buffers, who uses them when, and which message meets which receive.

MPI: between two processes messages (all with tag 0) and receives meet in the order in which they were posted.  The
content of a send buffer is read at some time between posting and completion of the send: either when it meets its
receive, or earlier into a buffer of MPI (`buffer`).

Simplified: processes and neighbours are numbers, fields are functions from storage indices to values, the profiler
is left out.  Waiting is split in its parts: `unpack` (`OnMPIRequestComplete` for one receive) and `finish`
(`OnComplete`), which waiting functions call in an order that depends on the network (Request.cpp:104-260).
-/
import Mathlib.Logic.Function.Basic

namespace Ovk.HaloPool

/-- The supported types (DataType.hpp:98-157). -/
inductive Ty where
  | bool | byte | int | long | longLong | unsignedInt | unsignedLong | unsignedLongLong | float | double
deriving DecidableEq

/-- A value of a field: a `bool`, or the bits of a number. -/
inductive Value where
  | bool (b : Bool)
  | num (n : Nat)
deriving DecidableEq

/-- `mpi_value_type(Value)` (Halo.inl:106, DataType.hpp:96-102): a `bool` becomes a byte. -/
def toMpi : Value → Nat
  | .bool b => if b then 1 else 0
  | .num n => n

/-- `value_type(MPIValue)` (Halo.inl:157). -/
def ofMpi (t : Ty) (n : Nat) : Value := if t = .bool then .bool (n != 0) else .num n

/-- `halo_map` of one process (Halo.hpp:37-76). -/
structure HaloMap where
  nbrs : List Nat
  send : Nat → List Nat
  recv : Nat → List Nat
  localPairs : List (Nat × Nat)

/-- Which exchanger: its type and place. -/
structure Ref where
  ty : Ty
  idx : Nat
deriving DecidableEq

/-- `halo_exchanger_for_type` (Halo.hpp:162-234).  `sendDone`, `recvDone` and `unpacked` are what is known of
`MPIRequests_`, by neighbour: the send, the receive are complete, the receive was seen by a waiting function. -/
structure Exch where
  active : Bool
  sendBuf : Nat → List Nat
  recvBuf : Nat → List Nat
  sendDone : Nat → Bool
  recvDone : Nat → Bool
  unpacked : Nat → Bool

/-- A message that was sent and not yet received; `data` is set if MPI has copied the buffer. -/
structure Msg where
  ref : Ref
  data : Option (List Nat)

/-- A `request` from `Exchange`: the exchanger and `FieldData_` (Halo.hpp:188-215). -/
structure Req where
  ref : Ref
  field : Nat
deriving DecidableEq

/-- One process: exchangers by type, requests in the order in which they were made (`none`: complete), fields, and by
neighbour the receives that wait for a message. -/
structure Proc where
  pool : Ty → List Exch
  reqs : List (Option Req)
  fields : Nat → Nat → Value
  posted : Nat → List Ref

structure State where
  proc : Nat → Proc
  chan : Nat → Nat → List Msg

def Proc.exch (x : Proc) (r : Ref) : Option Exch := (x.pool r.ty)[r.idx]?

def Proc.setExch (x : Proc) (r : Ref) (e : Exch) : Proc :=
  { x with pool := Function.update x.pool r.ty ((x.pool r.ty).set r.idx e) }

def State.setProc (s : State) (p : Nat) (x : Proc) : State := { s with proc := Function.update s.proc p x }

/-- Before the first exchange. -/
def State.init (fields : Nat → Nat → Nat → Value) : State :=
  { proc := fun p => { pool := fun _ => [], reqs := [], fields := fields p, posted := fun _ => [] }
    chan := fun _ _ => [] }

/-- A new exchanger (Halo.inl:58-76, Halo.hpp:228). -/
def Exch.new : Exch :=
  { active := false, sendBuf := fun _ => [], recvBuf := fun _ => [], sendDone := fun _ => true
    recvDone := fun _ => true, unpacked := fun _ => true }

/-- The first exchanger that is not active; a new one at the end if there is none (Halo.inl:30-45). -/
def acquire (l : List Exch) : Nat × List Exch :=
  let i := l.findIdx fun e => !e.active
  if i = l.length then (i, l ++ [Exch.new]) else (i, l)

/-- The points a process has twice (Halo.inl:119-124). -/
def copyLocal (ps : List (Nat × Nat)) (f : Nat → Value) : Nat → Value :=
  ps.foldl (fun f p => Function.update f p.2 (f p.1)) f

/-- The send buffers (Halo.inl:103-107). -/
def pack (idx : List Nat) (f : Nat → Value) : List Nat := idx.map fun i => toMpi (f i)

/-- `halo::Exchange` and `halo_exchanger_for_type::Exchange` (Halo.inl:18-54, 78-133) for field `f` of type `t`. -/
def start (maps : Nat → HaloMap) (p f : Nat) (t : Ty) (s : State) : State :=
  let x := s.proc p
  let m := maps p
  let a := acquire (x.pool t)
  let r : Ref := ⟨t, a.1⟩
  let e : Exch :=
    { active := true, sendBuf := fun q => pack (m.send q) (x.fields f)
      recvBuf := ((a.2)[a.1]?.getD Exch.new).recvBuf
      sendDone := fun _ => false, recvDone := fun _ => false, unpacked := fun _ => false }
  { proc := Function.update s.proc p
      { pool := Function.update x.pool t (a.2.set a.1 e)
        reqs := x.reqs ++ [some ⟨r, f⟩]
        fields := Function.update x.fields f (copyLocal m.localPairs (x.fields f))
        posted := fun q => if q ∈ m.nbrs then x.posted q ++ [r] else x.posted q }
    chan := Function.update s.chan p fun q => if q ∈ m.nbrs then s.chan p q ++ [⟨r, none⟩] else s.chan p q }

/-- The program changes a field between calls. -/
def write (p f : Nat) (v : Nat → Value) (s : State) : State :=
  s.setProc p { s.proc p with fields := Function.update (s.proc p).fields f v }

/-- Changes the messages on their way from `q` to `p`. -/
def State.setChan (s : State) (q p : Nat) (l : List Msg) : State :=
  { s with chan := Function.update s.chan q (Function.update (s.chan q) p l) }

/-- MPI copies the send buffer of the `i`th message from `q` to `p` and completes the send. -/
def buffer (q p i : Nat) (s : State) : Option State :=
  match (s.chan q p)[i]? with
  | some ⟨r, none⟩ =>
    match (s.proc q).exch r with
    | none => none
    | some e =>
      let s := s.setProc q ((s.proc q).setExch r { e with sendDone := Function.update e.sendDone p true })
      some (s.setChan q p ((s.chan q p).set i ⟨r, some (e.sendBuf p)⟩))
  | _ => none

/-- Puts what arrived in the receive buffer; it must fit (Halo.inl:93-99). -/
def arrive (maps : Nat → HaloMap) (p q : Nat) (r : Ref) (data : List Nat) (s : State) : Option State :=
  match (s.proc p).exch r with
  | none => none
  | some e =>
    if data.length = ((maps p).recv q).length then
      some (s.setProc p ((s.proc p).setExch r
        { e with recvBuf := Function.update e.recvBuf q data, recvDone := Function.update e.recvDone q true }))
    else none

/-- The first message from `q` to `p` that MPI has copied meets the first receive. -/
def deliver (maps : Nat → HaloMap) (q p : Nat) (s : State) : Option State :=
  match s.chan q p, (s.proc p).posted q with
  | ⟨_, some data⟩ :: ms, r :: rs =>
    let s := s.setChan q p ms
    let s := s.setProc p { s.proc p with posted := Function.update (s.proc p).posted q rs }
    arrive maps p q r data s
  | _, _ => none

/-- `OnMPIRequestComplete` for the receive from `q` (Halo.inl:141-164) in request `k`. -/
def unpack (maps : Nat → HaloMap) (p k q : Nat) (s : State) : Option State :=
  match (s.proc p).reqs[k]? with
  | some (some req) =>
    match (s.proc p).exch req.ref with
    | none => none
    | some e =>
      if q ∈ (maps p).nbrs ∧ e.recvDone q = true ∧ e.unpacked q = false then
        let x := (s.proc p).setExch req.ref { e with unpacked := Function.update e.unpacked q true }
        let f := (((maps p).recv q).zip (e.recvBuf q)).foldl
          (fun f y => Function.update f y.1 (ofMpi req.ref.ty y.2)) (x.fields req.field)
        some (s.setProc p { x with fields := Function.update x.fields req.field f })
      else none
  | _ => none

/-- `OnComplete` (Halo.inl:166-170), when all MPI requests are complete and were seen. -/
def finish (maps : Nat → HaloMap) (p k : Nat) (s : State) : Option State :=
  match (s.proc p).reqs[k]? with
  | some (some req) =>
    match (s.proc p).exch req.ref with
    | none => none
    | some e =>
      if ∀ q ∈ (maps p).nbrs, e.sendDone q = true ∧ e.unpacked q = true then
        let x := (s.proc p).setExch req.ref { e with active := false }
        some (s.setProc p { x with reqs := x.reqs.set k none })
      else none
  | _ => none

inductive Op where
  | start (p f : Nat)
  | write (p f : Nat) (v : Nat → Value)
  | buffer (q p i : Nat)
  | deliver (q p : Nat)
  | unpack (p k q : Nat)
  | finish (p k : Nat)

/-- `ty` is the type of the elements of a field. -/
def step (maps : Nat → HaloMap) (ty : Nat → Ty) (s : State) : Op → Option State
  | .start p f => some (start maps p f (ty f) s)
  | .write p f v => some (write p f v s)
  | .buffer q p i => buffer q p i s
  | .deliver q p => deliver maps q p s
  | .unpack p k q => unpack maps p k q s
  | .finish p k => finish maps p k s

end Ovk.HaloPool
