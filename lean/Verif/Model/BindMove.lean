/-
Model of what ties an `exchanger` (src/core/Exchanger.cpp 52-176) or `assembler` (src/core/Assembler.cpp 32-216) to
the `domain` it is bound to, when domains, exchangers and assemblers are created, moved, assigned and destroyed.  The
bound object keeps a `floating_ref` to the domain and the handle of a listener; the handle keeps a `floating_ref` to
the event in the domain and the listener a `floating_ref` to the bound object (src/core/Event.inl 8-15, 26-34).  Every
object has a `floating_ref_generator` (src/core/FloatingRef.inl 6-36) that owns a heap cell with the place of the
object.

Exchangers and assemblers are called clients.  Domains and clients are identified by their addresses, natural
numbers.  The cells of domains, of events and of clients are numbered separately, in the order of allocation; a freed
cell is not used again, so that its use is seen.  Following a null pointer or a freed cell has no result (`none`),
neither has an operation on an object that does not exist, a construction where one exists, or a violated
`OVK_DEBUG_ASSERT`.

Simplified: a domain has one event, for components (the grid event of the domain, used by assemblers, is treated in
the same way by all the functions; the events of components do not move with the domain); an event leaves its
listeners bound (unbinding by an event is C83).  Offsets of references, barriers, logging and all other data are left
out (so that assigning to a domain that has components is undefined in itself, C130, is not seen here).  Moving an
object to itself is not modelled (`none`).
-/
import Mathlib.Data.List.Basic
import Mathlib.Logic.Function.Basic

namespace Ovk.BindMove

/-- The `void *` cells that the generators of one kind of object own. -/
structure Heap where
  cell : Nat → Option Nat
  next : Nat

/-- `new void *(this)` (FloatingRef.inl:6-8). -/
def Heap.alloc (h : Heap) (a : Nat) : Heap := ⟨Function.update h.cell h.next (some a), h.next + 1⟩

/-- `delete` of a cell, or of null (`~unique_ptr`). -/
def Heap.free (h : Heap) : Option Nat → Heap
  | none => h
  | some c => { h with cell := Function.update h.cell c none }

/-- `*ReferenceLoc_ = this` (FloatingRef.inl:17, 32). -/
def Heap.store (h : Heap) (a : Nat) : Option Nat → Option Heap
  | none => none
  | some c => if (h.cell c).isSome then some { h with cell := Function.update h.cell c (some a) } else none

/-- `domain` (Domain.hpp:120-136, DomainBase.hpp:162-169). -/
structure Domain where
  /-- `FloatingRefGenerator_.ReferenceLoc_` (DomainBase.hpp:162) -/
  gen : Option Nat
  /-- `ComponentEvent_.FloatingRefGenerator_.ReferenceLoc_` (Domain.hpp:133, Event.hpp:38) -/
  evGen : Option Nat
  /-- `ComponentEvent_.Listeners_` (Event.hpp:41): the ID and the cell of the client that the listener refers to -/
  listeners : List (Nat × Nat)

/-- `event_listener_handle` with an ID that is not -1 (Event.hpp:63-65): the ID and the cell of the event. -/
structure Handle where
  id : Nat
  event : Nat
  deriving DecidableEq

/-- `exchanger` (Exchanger.hpp:173-184) or `assembler` (Assembler.hpp:533-553). -/
structure Client where
  /-- `FloatingRefGenerator_.ReferenceLoc_` -/
  gen : Option Nat
  /-- `Domain_.ReferenceLoc_` -/
  dom : Option Nat
  /-- `ComponentEventListener_` -/
  handle : Option Handle

structure State where
  doms : Nat → Option Domain
  clis : Nat → Option Client
  dcell : Heap
  ecell : Heap
  ccell : Heap

def initial : State := ⟨fun _ => none, fun _ => none, ⟨fun _ => none, 0⟩, ⟨fun _ => none, 0⟩, ⟨fun _ => none, 0⟩⟩

/-- `NextAvailableID` of the keys and `Insert` (Event.inl:10-12), for keys in increasing order from `k` on. -/
def insertNew (g : Nat) : Nat → List (Nat × Nat) → Nat × List (Nat × Nat)
  | k, [] => (k, [(k, g)])
  | k, (j, l) :: es =>
    if j = k then ((insertNew g (k + 1) es).1, (j, l) :: (insertNew g (k + 1) es).2) else (k, (k, g) :: (j, l) :: es)

/-- `event_listener_handle::Reset` (Event.inl:58-66) with the function of 31-33: the event is found by its cell. -/
def reset (s : State) : Option Handle → Option State
  | none => some s
  | some h =>
    (s.ecell.cell h.event).bind fun a => (s.doms a).map fun D =>
      { s with doms := Function.update s.doms a (some { D with listeners := D.listeners.filter fun e => e.1 != h.id }) }

/-- A new domain at `a` (Domain.cpp:337-353). -/
def createDomain (s : State) (a : Nat) : Option State :=
  match s.doms a with
  | none =>
    some { s with doms := Function.update s.doms a (some ⟨some s.dcell.next, some s.ecell.next, []⟩), dcell := s.dcell.alloc a, ecell := s.ecell.alloc a }
  | some _ => none

/-- `domain(domain &&)` (Domain.hpp:88): the contents of the domain at `b` go to `a`. -/
def moveDomain (s : State) (a b : Nat) : Option State :=
  match s.doms a, s.doms b with
  | none, some D =>
    (s.dcell.store a D.gen).bind fun dc => (s.ecell.store a D.evGen).map fun ec =>
      { s with doms := Function.update (Function.update s.doms b (some ⟨none, none, []⟩)) a (some D), dcell := dc, ecell := ec }
  | _, _ => none

/-- `operator=(domain &&)` (Domain.hpp:91): the listeners and the cells of the domain at `a` are deleted. -/
def assignDomain (s : State) (a b : Nat) : Option State :=
  match s.doms a, s.doms b with
  | some A, some D =>
    if a = b then none else
    ((s.dcell.free A.gen).store a D.gen).bind fun dc => ((s.ecell.free A.evGen).store a D.evGen).map fun ec =>
      { s with doms := Function.update (Function.update s.doms b (some ⟨none, none, []⟩)) a (some D), dcell := dc, ecell := ec }
  | _, _ => none

/-- `~domain` (Domain.cpp:355-364): nothing that is bound to the domain is told. -/
def destroyDomain (s : State) (a : Nat) : Option State :=
  (s.doms a).map fun D =>
    { s with doms := Function.update s.doms a none, dcell := s.dcell.free D.gen, ecell := s.ecell.free D.evGen }

/-- A new client at `x` (Exchanger.cpp:52-55, Assembler.cpp:32-35). -/
def createClient (s : State) (x : Nat) : Option State :=
  match s.clis x with
  | none => some { s with clis := Function.update s.clis x (some ⟨some s.ccell.next, none, none⟩), ccell := s.ccell.alloc x }
  | some _ => none

/-- `exchanger(exchanger &&)` (Exchanger.hpp:89), `assembler(assembler &&)` (Assembler.hpp:485): reference and handle
are taken from the client at `y` (FloatingRef.inl:65-70, Event.inl:36-42). -/
def moveClient (s : State) (x y : Nat) : Option State :=
  match s.clis x, s.clis y with
  | none, some C =>
    (s.ccell.store x C.gen).map fun cc =>
      { s with clis := Function.update (Function.update s.clis y (some ⟨none, none, none⟩)) x (some C), ccell := cc }
  | _, _ => none

/-- `operator=(exchanger &&)` (Exchanger.hpp:92), `operator=(assembler &&)` (Assembler.hpp:488): the handle that the
client at `x` had is destroyed (Event.inl:44-56); `Unbind` is not called. -/
def assignClient (s : State) (x y : Nat) : Option State :=
  match s.clis x, s.clis y with
  | some X, some C =>
    if x = y then none else
    ((s.ccell.free X.gen).store x C.gen).bind fun cc =>
      reset { s with clis := Function.update (Function.update s.clis y (some ⟨none, none, none⟩)) x (some C), ccell := cc } X.handle
  | _, _ => none

/-- `*Domain_` (FloatingRef.inl:79-83): the address of the domain. -/
def domainOf (s : State) (x : Nat) : Option Nat :=
  (s.clis x).bind fun C => C.dom.bind fun r => s.dcell.cell r

/-- `Bound` (Exchanger.cpp:95-99, Assembler.cpp:77-81). -/
def bound (s : State) (x : Nat) : Bool :=
  match s.clis x with
  | some C => C.dom.isSome
  | none => false

/-- `Bind` (Exchanger.cpp:101-113, Assembler.cpp:83-102): making a reference follows the pointer to the cell
(FloatingRef.inl:45-49). -/
def bind (s : State) (x a : Nat) : Option State :=
  match s.clis x, s.doms a with
  | some C, some D =>
    match C.dom, C.gen, D.gen, D.evGen with
    | none, some g, some r, some e =>
      some { s with doms := Function.update s.doms a (some { D with listeners := (insertNew g 0 D.listeners).2 }), clis := Function.update s.clis x (some ⟨some g, some r, some ⟨(insertNew g 0 D.listeners).1, e⟩⟩) }
    | _, _, _, _ => none
  | _, _ => none

/-- `Unbind` (Exchanger.cpp:145-168, Assembler.cpp:167-199): the domain is used before and after. -/
def unbind (s : State) (x : Nat) : Option State :=
  (s.clis x).bind fun C => (domainOf s x).bind fun a => (s.doms a).bind fun _ =>
    reset { s with clis := Function.update s.clis x (some ⟨C.gen, none, none⟩) } C.handle

/-- `~exchanger` (Exchanger.cpp:57-63), `~assembler` (Assembler.cpp:37-43). -/
def destroyClient (s : State) (x : Nat) : Option State :=
  (s.clis x).bind fun C =>
    (if C.dom.isSome then unbind s x else some s).map fun s =>
      { s with clis := Function.update s.clis x none, ccell := s.ccell.free C.gen }

/-- `ComponentEvent_.Trigger` (Event.inl:17-24) of the domain at `a`: the addresses of the clients whose
`OnComponentEvent_` is called (Exchanger.cpp:109-113, Assembler.cpp:97-101), in order. -/
def trigger (s : State) (a : Nat) : Option (List Nat) :=
  (s.doms a).bind fun D => D.listeners.mapM fun e => s.ccell.cell e.2

inductive Op
  | createDomain (a : Nat)
  | moveDomain (a b : Nat)
  | assignDomain (a b : Nat)
  | destroyDomain (a : Nat)
  | createClient (x : Nat)
  | moveClient (x y : Nat)
  | assignClient (x y : Nat)
  | destroyClient (x : Nat)
  | bind (x a : Nat)
  | unbind (x : Nat)
  /-- any use that a client makes of its domain -/
  | use (x : Nat)
  /-- something happens to a component of the domain -/
  | trigger (a : Nat)
  deriving DecidableEq

def step (s : State) : Op → Option State
  | .createDomain a => BindMove.createDomain s a
  | .moveDomain a b => BindMove.moveDomain s a b
  | .assignDomain a b => BindMove.assignDomain s a b
  | .destroyDomain a => BindMove.destroyDomain s a
  | .createClient x => BindMove.createClient s x
  | .moveClient x y => BindMove.moveClient s x y
  | .assignClient x y => BindMove.assignClient s x y
  | .destroyClient x => BindMove.destroyClient s x
  | .bind x a => BindMove.bind s x a
  | .unbind x => BindMove.unbind s x
  | .use x => (domainOf s x).bind fun a => (s.doms a).map fun _ => s
  | .trigger a => (BindMove.trigger s a).map fun _ => s

def run (s : State) (ops : List Op) : Option State := ops.foldlM step s

end Ovk.BindMove
