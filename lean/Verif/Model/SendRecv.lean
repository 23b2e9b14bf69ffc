/-
Model of send and receive maps and of the operations using them: src/core/SendMap.cpp,
src/core/RecvMap.cpp (the two constructors are identical up to names), src/core/Send.cpp
(`send_impl::Send`), src/core/Recv.cpp (`recv_impl::Recv`, `recv_request::OnComplete`).

All processes are modelled at once.  One `Send` and one `Recv` call per process, on one communicator with
one tag, is an execution; messages travel one per ordered pair of processes.  `none` is undefined
behaviour (access outside an array, reading an entry that was never written, a message that does not fit
the posted buffer).

Simplified: values are not converted to `mpi_compatible_type`; the profiler is left out; `int` and
`long long` are unbounded (Send.cpp:121 and Recv.cpp:55 convert the order to `int`).
-/
import Verif.Model.Container

namespace Ovk.SR
variable {n : Nat} {V : Type}

/-- `send_map` / `recv_map`. -/
structure Map where
  /-- constructor argument `DestinationRanks` / `SourceRanks`; negative: no rank -/
  ranks : List Int
  /-- `SendOrder_` / `RecvOrder_` -/
  order : List Nat
  /-- `Sends_` / `Recvs_`: rank and number of values -/
  msgs : List (Int × Nat)
  /-- `SendIndices_` / `RecvIndices_` -/
  idx : List Int

/-- `++SendCounts.Fetch(Rank, 0)` over all values (SendMap.cpp:34-41, RecvMap.cpp:34-41). -/
def countRanks : OMap Int Nat → List Int → OMap Int Nat
  | m, [] => m
  | m, r :: rs =>
    if r ≥ 0 then countRanks ((m.fetch intLess r 0).modify intLess r (· + 1)) rs else countRanks m rs

/-- `RankToSendIndex` (SendMap.cpp:53-58, RecvMap.cpp:53-58). -/
def rankToIndex (msgs : List (Int × Nat)) : OMap Int Nat :=
  msgs.zipIdx.foldl (fun m x => m.insert intLess x.1.1 x.2) ⟨[], []⟩

/-- `SendIndices_` (SendMap.cpp:60-67, RecvMap.cpp:60-67). -/
def slotIndices (m : OMap Int Nat) (ranks : List Int) : Option (List Int) :=
  ranks.mapM fun r => if r ≥ 0 then (m.get? intLess r).map Int.ofNat else some (-1)

/-- Constructor (SendMap.cpp:24-69, RecvMap.cpp:24-69). -/
def build (ranks : List Int) (order : List Nat) : Option Map :=
  let msgs := (countRanks ⟨[], []⟩ ranks).entries
  (slotIndices (rankToIndex msgs) ranks).map fun idx => ⟨ranks, order, msgs, idx⟩

/-- `MakeDefaultSendOrder_` (SendMap.cpp:71-81, RecvMap.cpp:71-81). -/
def defaultOrder (numValues : Nat) : List Nat := List.range numValues

/-- Writes one column of the buffer `Buffers_(iSend)`, a row-major array of extents
`{Count, NumValues}` (Send.cpp:131-133). -/
def putColumn (count nv k : Nat) (v : Nat → V) (b : Nat → Option V) : Nat → Option V :=
  (List.range count).foldl (fun b c => fun j => if j = c * nv + k then some (v c) else b j) b

/-- State of the packing loop: `NextBufferEntry_`, `Buffers_`. -/
structure Pack (V : Type) where
  next : Nat → Nat
  buf : Nat → Nat → Option V

/-- Body of the packing loop (Send.cpp:127-135). -/
def packOne (m : Map) (count : Nat) (vals : Nat → Nat → V) (s : Pack V) (iValue : Nat) : Option (Pack V) :=
  match m.idx[iValue]? with
  | none => none
  | some i =>
    if i ≥ 0 then
      match m.msgs[i.toNat]? with
      | none => none
      | some (_, nv) =>
        if s.next i.toNat < nv then
          some ⟨fun j => if j = i.toNat then s.next j + 1 else s.next j,
            fun j => if j = i.toNat then putColumn count nv (s.next j) (fun c => vals c iValue) (s.buf j)
              else s.buf j⟩
        else none
    else some s

/-- Packing (Send.cpp:124-136). -/
def pack (m : Map) (count : Nat) (vals : Nat → Nat → V) : Option (Pack V) :=
  m.order.foldlM (packOne m count vals) ⟨fun _ => 0, fun _ _ => none⟩

/-- State of the unpacking loop: `NextBufferEntry_` and the user's arrays. -/
structure Unpack (V : Type) where
  next : Nat → Nat
  out : Nat → Nat → V

/-- Reads one column and stores it (Recv.cpp:65-67). -/
def getColumn (nv k iValue : Nat) (b : Nat → Option V) : List Nat → (Nat → Nat → V) → Option (Nat → Nat → V)
  | [], o => some o
  | c :: cs, o =>
    match b (c * nv + k) with
    | none => none
    | some v => getColumn nv k iValue b cs fun c' j => if c' = c ∧ j = iValue then v else o c' j

/-- Body of the unpacking loop (Recv.cpp:61-69). -/
def unpackOne (m : Map) (count : Nat) (buf : Nat → Nat → Option V) (s : Unpack V) (iValue : Nat) :
    Option (Unpack V) :=
  match m.idx[iValue]? with
  | none => none
  | some i =>
    if i ≥ 0 then
      match m.msgs[i.toNat]? with
      | none => none
      | some (_, nv) =>
        if s.next i.toNat < nv then
          (getColumn nv (s.next i.toNat) iValue (buf i.toNat) (List.range count) s.out).map fun o =>
            ⟨fun j => if j = i.toNat then s.next j + 1 else s.next j, o⟩
        else none
    else some s

/-- Unpacking (Recv.cpp:58-70). -/
def unpack (m : Map) (count : Nat) (buf : Nat → Nat → Option V) (out : Nat → Nat → V) : Option (Unpack V) :=
  m.order.foldlM (unpackOne m count buf) ⟨fun _ => 0, out⟩

/-- One exchange: a send map, a receive map and `Count` on every process. -/
structure Setup (n : Nat) where
  send : Fin n → Map
  recv : Fin n → Map
  count : Nat

/-- State of an exchange. -/
structure State (n : Nat) (V : Type) where
  sent : Fin n → Bool
  /-- message from the first to the second: number of values, contents -/
  chan : Fin n → Fin n → Option (Nat × (Nat → Option V))
  posted : Fin n → Bool
  /-- receive number `i` of a process has completed -/
  arrived : Fin n → Nat → Bool
  rbuf : Fin n → Nat → Nat → Option V
  finished : Fin n → Bool
  out : Fin n → Nat → Nat → V

inductive Event (n : Nat)
  /-- `Send` is called (Send.cpp:98-151) -/
  | send (a : Fin n)
  /-- `Recv` is called (Recv.cpp:126-159) -/
  | post (b : Fin n)
  /-- receive number `i` completes -/
  | deliver (b : Fin n) (i : Nat)
  /-- `OnComplete` runs (Recv.cpp:44-74); the request calls it after all receives completed -/
  | finish (b : Fin n)

def initial (out : Fin n → Nat → Nat → V) : State n V :=
  ⟨fun _ => false, fun _ _ => none, fun _ => false, fun _ _ => false, fun _ _ _ => none, fun _ => false, out⟩

/-- The message of a process for another one (Send.cpp:141-145). -/
def messageTo (m : Map) (count : Nat) (p : Pack V) (b : Nat) : Option (Nat × (Nat → Option V)) :=
  match m.msgs.findIdx? fun x => x.1 = (b : Int) with
  | none => none
  | some i => (m.msgs[i]?).map fun x => (count * x.2, p.buf i)

/-- One event; `none` if it cannot happen, or is undefined. -/
def step (s : Setup n) (vals : Fin n → Nat → Nat → V) (x : State n V) : Event n → Option (State n V)
  | .send a =>
    if x.sent a then none
    else (pack (s.send a) s.count (vals a)).map fun p => { x with
      sent := fun k => if k = a then true else x.sent k
      chan := fun k b => if k = a then messageTo (s.send a) s.count p b else x.chan k b }
  | .post b =>
    if x.posted b then none else some { x with posted := fun k => if k = b then true else x.posted k }
  | .deliver b i =>
    if x.posted b ∧ x.arrived b i = false then
      match (s.recv b).msgs[i]? with
      | none => none
      | some (r, nv) =>
        if h : 0 ≤ r ∧ r.toNat < n then
          match x.chan ⟨r.toNat, h.2⟩ b with
          | none => none
          | some (len, data) =>
            if len = s.count * nv then
              some { x with
                arrived := fun k j => if k = b ∧ j = i then true else x.arrived k j
                rbuf := fun k j => if k = b ∧ j = i then data else x.rbuf k j }
            else none
        else none
    else none
  | .finish b =>
    if x.posted b ∧ x.finished b = false ∧ ∀ i, i < (s.recv b).msgs.length → x.arrived b i = true then
      (unpack (s.recv b) s.count (x.rbuf b) (x.out b)).map fun u => { x with
        finished := fun k => if k = b then true else x.finished k
        out := fun k => if k = b then u.out else x.out k }
    else none

def run (s : Setup n) (vals : Fin n → Nat → Nat → V) : State n V → List (Event n) → Option (State n V)
  | x, [] => some x
  | x, e :: es => (step s vals x e).bind fun y => run s vals y es

end Ovk.SR
