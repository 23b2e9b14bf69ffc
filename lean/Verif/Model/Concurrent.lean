import Verif.Model.SendRecv
/-!
# Exchanges in progress at the same time

Model of several exchange operations used at the same time: `exchanger::Send`, `exchanger::Receive`
(src/core/Exchanger.cpp 1158-1192, 1320-1354) on `send_impl` and `recv_impl` (src/core/Send.cpp, src/core/Recv.cpp),
and waiting for the requests they return.  Packing, unpacking and the maps are those of `Verif/Model/SendRecv.lean`.

Every process runs a program of calls.  MPI matches the `k`-th message with the `k`-th receive of the same sender,
receiver and tag.  A send buffer is read at any time between the call and the completion of the message; the message
completes when its receive is posted, or before (`eager` tells for which messages).  A receive buffer is
written at any time after both calls.

Simplified: a call posts all its messages at once; each process has both sides of every operation (with empty maps
if it has no points); `WaitAll` is waiting for each request in turn (C27).  `bad` records undefined behaviour: access outside
of a buffer, or a message that does not fit.
-/
namespace Ovk.Conc
variable {n m : Nat} {V : Type}

/-- Operations, with the maps and the number of components, and their tags (`GlobalTag`, Exchanger.cpp 1118-1121). -/
structure World (n m : Nat) where
  setup : Fin m → SR.Setup n
  tag : Fin m → Int
  /-- the message with this number on a channel is buffered by MPI -/
  eager : Fin n → Fin n → Int → Nat → Bool

/-- Calls of the user. -/
inductive Act (m : Nat) (V : Type)
  | send (o : Fin m) (vals : Nat → Nat → V)
  | recv (o : Fin m) (arr : Nat → Nat → V)
  | waitSend (o : Fin m)
  | waitRecv (o : Fin m)

structure State (n m : Nat) (V : Type) where
  /-- what remains of the programs -/
  prog : Fin n → List (Act m V)
  /-- operations of the messages posted from the first to the second process with this tag -/
  sends : Fin n → Fin n → Int → List (Fin m)
  /-- the same for receives -/
  recvs : Fin n → Fin n → Int → List (Fin m)
  /-- contents of a message that has left its buffer: the send request is complete -/
  copied : Fin n → Fin n → Int → Nat → Option (Nat × (Nat → Option V))
  /-- the receive request is complete -/
  arrived : Fin n → Fin n → Int → Nat → Bool
  /-- `Buffers_` of `send_impl` -/
  sbuf : Fin m → Fin n → SR.Pack V
  /-- `MPIRequests_` of `send_impl`: for each destination, the number of the message -/
  sreq : Fin m → Fin n → Fin n → Option Nat
  /-- `Buffers_` of `recv_impl` -/
  rbuf : Fin m → Fin n → Nat → Nat → Option V
  /-- `MPIRequests_` of `recv_impl`, for each source -/
  rreq : Fin m → Fin n → Fin n → Option Nat
  /-- the arrays `Values_` of `recv_impl` refer to -/
  target : Fin m → Fin n → Option (Nat → Nat → V)
  /-- contents of these arrays after each `waitRecv` -/
  results : Fin m → Fin n → List (Nat → Nat → V)
  bad : Bool

def start (prog : Fin n → List (Act m V)) : State n m V where
  prog := prog
  sends := fun _ _ _ => []
  recvs := fun _ _ _ => []
  copied := fun _ _ _ _ => none
  arrived := fun _ _ _ _ => false
  sbuf := fun _ _ => ⟨fun _ => 0, fun _ _ => none⟩
  sreq := fun _ _ _ => none
  rbuf := fun _ _ _ _ => none
  rreq := fun _ _ _ => none
  target := fun _ _ => none
  results := fun _ _ => []
  bad := false

/-- The map has a message for, or from, process `b`. -/
def partner (p : SR.Map) (b : Fin n) : Bool := p.msgs.any fun x => x.1 == (b : Int)

def at2 {α β γ : Type} [DecidableEq α] [DecidableEq β] (f : α → β → γ) (a : α) (b : β) (v : γ) : α → β → γ :=
  fun a' b' => if a' = a ∧ b' = b then v else f a' b'

/-- `Send` (Send.cpp 98-151). -/
def doSend (w : World n m) (x : State n m V) (a : Fin n) (o : Fin m) (vals : Nat → Nat → V) : State n m V :=
  let s := w.setup o
  match SR.pack (s.send a) s.count vals with
  | none => { x with bad := true }
  | some p => { x with
      sbuf := at2 x.sbuf o a p
      sends := fun a' b t => if a' = a ∧ t = w.tag o ∧ partner (s.send a) b = true then x.sends a' b t ++ [o]
        else x.sends a' b t
      sreq := at2 x.sreq o a fun b => if partner (s.send a) b then some (x.sends a b (w.tag o)).length else none }

/-- `Recv` (Recv.cpp 126-159). -/
def doRecv (w : World n m) (x : State n m V) (b : Fin n) (o : Fin m) (arr : Nat → Nat → V) : State n m V :=
  let s := w.setup o
  { x with
    target := at2 x.target o b (some arr)
    recvs := fun a b' t => if b' = b ∧ t = w.tag o ∧ partner (s.recv b) a = true then x.recvs a b' t ++ [o]
      else x.recvs a b' t
    rreq := at2 x.rreq o b fun a => if partner (s.recv b) a then some (x.recvs a b (w.tag o)).length else none }

/-- `recv_request::OnComplete` (Recv.cpp 44-74). -/
def doUnpack (w : World n m) (x : State n m V) (b : Fin n) (o : Fin m) : State n m V :=
  let s := w.setup o
  match x.target o b with
  | none => { x with bad := true }
  | some arr =>
    match SR.unpack (s.recv b) s.count (x.rbuf o b) arr with
    | none => { x with bad := true }
    | some u => { x with results := at2 x.results o b (x.results o b ++ [u.out]) }

/-- Process `a` makes its next call, or returns from waiting. -/
def act (w : World n m) (x : State n m V) (a : Fin n) : Option (State n m V) :=
  match x.prog a with
  | [] => none
  | c :: l =>
    let x := { x with prog := fun a' => if a' = a then l else x.prog a' }
    match c with
    | .send o vals => some (doSend w x a o vals)
    | .recv o arr => some (doRecv w x a o arr)
    | .waitSend o =>
      if ∀ b, (x.sreq o a b).all (fun k => (x.copied a b (w.tag o) k).isSome) = true
      then some { x with sreq := at2 x.sreq o a fun _ => none } else none
    | .waitRecv o =>
      if ∀ b, (x.rreq o a b).all (fun k => x.arrived b a (w.tag o) k) = true
      then some (doUnpack w { x with rreq := at2 x.rreq o a fun _ => none } a o) else none

/-- Message `k` on a channel leaves its buffer. -/
def copy (w : World n m) (x : State n m V) (a b : Fin n) (t : Int) (k : Nat) : Option (State n m V) :=
  match (x.sends a b t)[k]? with
  | none => none
  | some o =>
    if x.copied a b t k = none ∧ (w.eager a b t k = true ∨ k < (x.recvs a b t).length) then
      match SR.messageTo ((w.setup o).send a) (w.setup o).count (x.sbuf o a) b with
      | none => some { x with bad := true }
      | some c => some { x with copied := fun a' b' t' k' =>
          if a' = a ∧ b' = b ∧ t' = t ∧ k' = k then some c else x.copied a' b' t' k' }
    else none

/-- Message `k` on a channel is written to the buffer of the matching receive. -/
def deliver (w : World n m) (x : State n m V) (a b : Fin n) (t : Int) (k : Nat) : Option (State n m V) :=
  match (x.recvs a b t)[k]?, x.copied a b t k with
  | some o, some c =>
    if x.arrived a b t k then none
    else
      let r := (w.setup o).recv b
      match r.msgs.findIdx? fun y => y.1 = (a : Int) with
      | none => some { x with bad := true }
      | some i =>
        if ((r.msgs[i]?).map fun y => (w.setup o).count * y.2) = some c.1 then some { x with
          arrived := fun a' b' t' k' => if a' = a ∧ b' = b ∧ t' = t ∧ k' = k then true else x.arrived a' b' t' k'
          rbuf := at2 x.rbuf o b fun j => if j = i then c.2 else x.rbuf o b j }
        else some { x with bad := true }
  | _, _ => none

inductive Event (n : Nat)
  | act (a : Fin n)
  | copy (a b : Fin n) (t : Int) (k : Nat)
  | deliver (a b : Fin n) (t : Int) (k : Nat)

def step (w : World n m) (x : State n m V) : Event n → Option (State n m V)
  | .act a => act w x a
  | .copy a b t k => copy w x a b t k
  | .deliver a b t k => deliver w x a b t k

def run (w : World n m) : State n m V → List (Event n) → Option (State n m V)
  | x, [] => some x
  | x, e :: es => (step w x e).bind fun y => run w y es

end Ovk.Conc
