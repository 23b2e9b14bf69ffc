/-
Ownership in the C interface: `/repo/src/core-c`.

Modelled: which objects the functions that create, share, consume and destroy things allocate and delete, and what
they store in the pointer variables of the caller.  Simplifications: what the objects contain is left out, except
what keeps them alive; domains, assemblers and exchangers are one kind of object (`user`), as are the parameter
objects of all kinds; addresses are never reused; reading a parameter object happens when it is deleted.
Using memory that is not allocated, deleting something that was not made by `new`, and using an object as one of
another kind is undefined (`none`).  The assertions of the code only check pointers against null and are not modelled.
-/
import Mathlib.Logic.Function.Basic

namespace Ovk.CApi

/-- What an allocation contains. -/
inductive Obj
  /-- `ovk::context::params`, `ovk::domain::params`, ... -/
  | params
  /-- an `ovk::context` made with `new` (`core-c/Context.cpp` 39) -/
  | context
  /-- an `ovk::context` made with `std::make_shared` (`core-c/Context.cpp` 71-72) with the number of shared pointers
  to it -/
  | shared (refs : Nat)
  /-- a `std::shared_ptr<ovk::context>` made with `new`, to the context at `c` -/
  | ref (c : Nat)
  /-- a domain, assembler or exchanger, which has a shared pointer to the context at `c`
  (`core/DomainBase.hpp` 82, `core/Assembler.hpp` 535, `core/Exchanger.hpp` 175) -/
  | user (c : Nat)
  /-- an `ovk::request` that refers to a send or receive inside the exchanger at `e` -/
  | request (e : Nat)
  deriving DecidableEq, Repr

/-- The heap, the addresses deleted so far (last one first), and the pointer variables of the caller. -/
structure State (n : Nat) where
  cells : Nat → Option Obj
  next : Nat
  freed : List Nat
  var : Fin n → Option Nat

def start (n : Nat) : State n := ⟨fun _ => none, 0, [], fun _ => none⟩

variable {n : Nat}

namespace State

/-- `new`; the address is `s.next`. -/
def put (s : State n) (o : Obj) : State n :=
  { s with cells := Function.update s.cells s.next (some o), next := s.next + 1 }

/-- `delete` of the object at `a`. -/
def del (s : State n) (a : Nat) : State n :=
  { s with cells := Function.update s.cells a none, freed := a :: s.freed }

/-- Assignment to a pointer variable. -/
def set (s : State n) (v : Fin n) (p : Option Nat) : State n :=
  { s with var := Function.update s.var v p }

/-- What the pointer variable `v` points to; `none` if it is null or dangling. -/
def deref (s : State n) (v : Fin n) : Option Obj := (s.var v).bind s.cells

/-- Copying a shared pointer to the context at `c`. -/
def copyRef (s : State n) (c : Nat) : Option (State n) :=
  match s.cells c with
  | some (.shared r) => some { s with cells := Function.update s.cells c (some (.shared (r + 1))) }
  | _ => none

/-- The destructor of a shared pointer to the context at `c`: the last one deletes the context. -/
def dropRef (s : State n) (c : Nat) : Option (State n) :=
  match s.cells c with
  | some (.shared (r + 1)) =>
    if r = 0 then some (s.del c)
    else some { s with cells := Function.update s.cells c (some (.shared r)) }
  | _ => none

/-- `delete *v; *v = nullptr` for an object without members that need destruction: the statements at the end of
`ovkDestroy…Params` and `ovkDestroyContext` (`core-c/Context.cpp` 55-59, 259-270, `core-c/Domain.cpp` 571-582). -/
def destroyPlain (s : State n) (v : Fin n) (o : Obj) : Option (State n) :=
  match s.var v with
  | some a => if s.cells a = some o then some ((s.del a).set v none) else none
  | none => none

end State
open State

/-- Calls of the C interface; the arguments are the pointer variables. -/
inductive Call (n : Nat)
  /-- `ovkCreate…Params` -/
  | createParams (p : Fin n)
  /-- `ovkDestroy…Params` -/
  | destroyParams (p : Fin n)
  /-- `ovkCreateContext`; `ok` says that `CreateContext` had no error -/
  | createContext (x p : Fin n) (ok : Bool)
  | destroyContext (x : Fin n)
  | shareContext (x s : Fin n)
  | resetShared (s : Fin n)
  /-- `ovkGetContextFromShared` -/
  | fromShared (s x : Fin n)
  /-- a function that uses a context, like `ovkGetContextComm` -/
  | useContext (x : Fin n)
  /-- `ovkCreateDomain` (`opt = false`), `ovkCreateAssembler`, `ovkCreateExchanger` (`opt = true`: the parameters may
  be null) -/
  | create (opt : Bool) (u s p : Fin n)
  /-- `ovkDestroyDomain`, `ovkDestroyAssembler`, `ovkDestroyExchanger` -/
  | destroy (u : Fin n)
  /-- `ovkGetDomainContext`, ... -/
  | contextOf (u x : Fin n)
  /-- `ovkGetDomainSharedContext`, ... -/
  | sharedOf (u s : Fin n)
  /-- `ovkExchangerSend`, `ovkExchangerReceive` -/
  | begin (e r : Fin n)
  | wait (r : Fin n)
  | waitAll (rs : List (Fin n))
  /-- `ovkWaitAny`; `i` is the index of the request found to be complete, `none` for -1 -/
  | waitAny (rs : List (Fin n)) (i : Option Nat)

/-- The request in `*r` can be waited for: it is a request, and its exchanger exists
(`core/Send.cpp` 122-151, `core/Recv.cpp` 123-159: `Wait` uses the members of the send or receive). -/
def State.pending (s : State n) (r : Fin n) : Bool :=
  match s.deref r with
  | some (.request e) =>
    match s.cells e with
    | some (.user _) => true
    | _ => false
  | _ => false

/-- `delete p; *r = nullptr` for a pointer `p` to a request that was read from `*r` before
(`core-c/Request.cpp` 40-41, 60-61, 21-22); deleting a null pointer does nothing. -/
def State.freeRequest (s : State n) (r : Fin n) : Option Nat → Option (State n)
  | none => some (s.set r none)
  | some a =>
    match s.cells a with
    | some (.request _) => some ((s.del a).set r none)
    | _ => none

/-- The loop of `core-c/Request.cpp` 39-42; the pointers were copied in lines 33-36. -/
def State.freeRequests : List (Fin n × Option Nat) → State n → Option (State n)
  | [], s => some s
  | (r, p) :: rs, s => (s.freeRequest r p).bind (State.freeRequests rs)

/-- What a call does. -/
def step (s : State n) : Call n → Option (State n)
  -- `core-c/Domain.cpp` 561-569, `core-c/Context.cpp` 249-257
  | .createParams p => some ((s.put .params).set p (some s.next))
  -- `core-c/Domain.cpp` 571-582
  | .destroyParams p => s.destroyPlain p .params
  -- `core-c/Context.cpp` 31-45
  | .createContext x p ok =>
    (s.destroyPlain p .params).map fun s =>
      if ok then (s.put .context).set x (some s.next) else s.set x none
  -- `core-c/Context.cpp` 50-61
  | .destroyContext x => s.destroyPlain x .context
  -- `core-c/Context.cpp` 63-79
  | .shareContext x h =>
    match s.var x with
    | some a =>
      if s.cells a = some .context then
        some (((((s.put (.shared 1)).put (.ref s.next)).del a).set x (some s.next)).set h (some (s.next + 1)))
      else none
    | none => none
  -- `core-c/Context.cpp` 81-92
  | .resetShared h =>
    match s.var h with
    | some a =>
      match s.cells a with
      | some (.ref c) => (s.dropRef c).map fun s => (s.del a).set h none
      | _ => none
    | none => none
  -- `core-c/Context.cpp` 106-114
  | .fromShared h x =>
    match s.deref h with
    | some (.ref c) => some (s.set x (some c))
    | _ => none
  -- `core-c/Context.cpp` 116-124
  | .useContext x =>
    match s.deref x with
    | some .context => some s
    | some (.shared _) => some s
    | _ => none
  -- `core-c/Exchanger.cpp` 22-50, `core-c/Assembler.cpp` 19-49, `core-c/Domain.cpp` 36-53
  | .create opt u h p =>
    match s.deref h with
    | some (.ref c) =>
      (s.copyRef c).bind fun t =>
        let t' := (t.put (.user c)).set u (some t.next)
        if opt && s.var p = none then some t' else t'.destroyPlain p .params
    | _ => none
  -- `core-c/Exchanger.cpp` 52-63, `core-c/Domain.cpp` 55-66
  | .destroy u =>
    match s.var u with
    | some a =>
      match s.cells a with
      | some (.user c) => (s.dropRef c).map fun s => (s.del a).set u none
      | _ => none
    | none => none
  -- `core-c/Domain.cpp` 78-86, `core-c/Exchanger.cpp` 75-83
  | .contextOf u x =>
    match s.deref u with
    | some (.user c) => some (s.set x (some c))
    | _ => none
  -- `core-c/Domain.cpp` 88-100, `core-c/Exchanger.cpp` 85-97
  | .sharedOf u h =>
    match s.deref u with
    | some (.user c) => (s.copyRef c).map fun t => (t.put (.ref c)).set h (some t.next)
    | _ => none
  -- `core-c/Exchanger.cpp` 247-260, 301-314
  | .begin e r =>
    match s.var e with
    | some a =>
      match s.cells a with
      | some (.user _) => some ((s.put (.request a)).set r (some s.next))
      | _ => none
    | none => none
  -- `core-c/Request.cpp` 14-25
  | .wait r =>
    if s.var r = none then some s
    else if s.pending r then s.freeRequest r (s.var r) else none
  -- `core-c/Request.cpp` 27-44; `core/Request.cpp`: `WaitAll` skips null pointers
  | .waitAll rs =>
    if rs.all fun r => s.var r = none || s.pending r then s.freeRequests (rs.map fun r => (r, s.var r)) else none
  -- `core-c/Request.cpp` 46-64; `core/Request.cpp`: `WaitAny` skips null pointers and returns -1 if there are no others
  | .waitAny rs i =>
    if rs.all fun r => s.var r = none || s.pending r then
      match i with
      | none => some s
      | some i => rs[i]?.bind fun r => s.freeRequest r (s.var r)
    else none

/-- A sequence of calls. -/
def run : List (Call n) → State n → Option (State n)
  | [], s => some s
  | c :: cs, s => (step s c).bind (run cs)

end Ovk.CApi
