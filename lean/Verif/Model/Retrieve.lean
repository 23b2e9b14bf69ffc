/-
Model of src/core/Decomp.cpp: `RetrieveDecompInfo` (213-271).

All processes at once, as in `Model/Handshake.lean`, whose transition system is a part of this one: a process goes on
when its own handshake has returned, whatever the others do.

Simplifications: posting the receives and sends (231-251) is one step; it calls nothing that waits.  MPI, as used
here: messages between two processes are matched in order; a receive completes at any time after its message was sent,
a send at any time after its receive was posted, or earlier if MPI buffers it (`eager`); `MPI_Waitany` returns
completed requests in any order.
-/
import Verif.Model.Handshake
import Verif.Model.Range

namespace Ovk.Retr
open Shake (natLt)

/-- `decomp_info` (Decomp.hpp 40-43) -/
structure Info where
  loc : Rng 3
  ext : Rng 3
deriving DecidableEq

/-- `SelfRangeValues(a,b,iDim)` as filled in Decomp.cpp:238-243. -/
def selfValue (x : Info) (a b : Nat) (i : Fin 3) : Int :=
  match a, b with
  | 0, 0 => x.loc.b i
  | 0, _ => x.loc.e i
  | _, 0 => x.ext.b i
  | _, _ => x.ext.e i

/-- The elements of the array `SelfRangeValues` of extents 2, 2, 3 in memory (Decomp.cpp:236, 248). -/
def pack (x : Info) : List Int :=
  (List.range 12).map fun k => selfValue x (k / 6) (k / 3 % 2) ⟨k % 3, Nat.mod_lt k (by decide)⟩

/-- `tuple<int>(RetrievedRangeValues.Data(iRecv,a,b,0))`, where `buf` is the part of the array for `iRecv`. -/
def tupleAt (buf : List Int) (a b : Nat) : Tup 3 := fun i => buf.getD ((a * 2 + b) * 3 + i) 0

/-- Decomp.cpp:260-265 -/
def unpack (buf : List Int) : Info :=
  ⟨⟨tupleAt buf 0 0, tupleAt buf 0 1⟩, ⟨tupleAt buf 1 0, tupleAt buf 1 1⟩⟩

/-- A process after its handshake. -/
structure Proc where
  /-- `SendToRanks` -/
  sends : List Nat
  /-- indices of completed receives and sends -/
  gotten : List Nat
  sent : List Nat
  /-- `RetrievedDecompInfo` -/
  map : OMap Nat Info
  /-- has returned -/
  ended : Bool

structure World (n : Nat) where
  /-- `RecvFromRanks` -/
  ranks : Fin n → List (Fin n)
  info : Fin n → Info
  /-- whether MPI completes the `j`-th send of a process before its receive is posted -/
  eager : Fin n → Nat → Bool

structure State (n : Nat) where
  shake : Shake.State n
  /-- `none`: in the handshake -/
  proc : Fin n → Option Proc

variable {n : Nat}

def start (w : World n) : State n := ⟨Shake.start w.ranks, fun _ => none⟩

/-- After posting receives and sends (Decomp.cpp:217-253); `l` is the result of the handshake. -/
def posted (l : List Nat) : Proc := ⟨l, [], [], ⟨[], []⟩, false⟩

/-- How many messages `q` has sent to `p`. -/
def State.sentTo (s : State n) (q p : Fin n) : Nat :=
  match s.proc q with
  | none => 0
  | some x => x.sends.count p.val

/-- How many receives `p` has posted for messages of `q`. -/
def State.awaited (w : World n) (s : State n) (q p : Fin n) : Nat :=
  match s.proc p with
  | none => 0
  | some _ => (w.ranks p).count q

/-- A receive is complete: store what was received (Decomp.cpp:257-266). -/
def Proc.store (x : Proc) (i : Nat) (q : Fin n) (buf : List Int) : Proc :=
  { x with
    gotten := i :: x.gotten
    map := (x.map.fetch natLt q.val ⟨⟨fun _ => 0, fun _ => 0⟩, ⟨fun _ => 0, fun _ => 0⟩⟩).modify natLt q.val
      fun _ => unpack buf }

def State.setProc (s : State n) (p : Fin n) (x : Proc) : State n :=
  { s with proc := Function.update s.proc p (some x) }

/-- One action of process `p`. -/
inductive Step (w : World n) (p : Fin n) (s : State n) : State n → Prop
  /-- the handshake (Decomp.cpp:217) -/
  | shake {t} : s.proc p = none → Shake.Step p s.shake t → Step w p s ⟨t, s.proc⟩
  /-- it returns; receives and sends are posted (Decomp.cpp:219-253) -/
  | post {l} : s.proc p = none → Shake.result s.shake p = some l → Step w p s (s.setProc p (posted l))
  /-- `MPI_Waitany` reports the `i`-th receive: the message of that source that belongs to it was sent -/
  | recv {x i q} : s.proc p = some x → x.ended = false → i ∉ x.gotten → (w.ranks p)[i]? = some q →
      ((w.ranks p).take i).count q < s.sentTo q p →
      Step w p s (s.setProc p (x.store i q (pack (w.info q))))
  /-- `MPI_Waitany` reports the `j`-th send -/
  | send {x j} {q : Fin n} : s.proc p = some x → x.ended = false → j ∉ x.sent → x.sends[j]? = some q.val →
      (w.eager p j = true ∨ (x.sends.take j).count q.val < s.awaited w p q) →
      Step w p s (s.setProc p { x with sent := j :: x.sent })
  /-- `MPI_Waitany` reports that there is nothing left (Decomp.cpp:256, 269) -/
  | stop {x} : s.proc p = some x → x.ended = false → (∀ i < (w.ranks p).length, i ∈ x.gotten) →
      (∀ j < x.sends.length, j ∈ x.sent) → Step w p s (s.setProc p { x with ended := true })

/-- States after any interleaving of any number of steps. -/
inductive Reach (w : World n) (s : State n) : State n → Prop
  | refl : Reach w s s
  | step {t u : State n} (p : Fin n) : Reach w s t → Step w p t u → Reach w s u

end Ovk.Retr
