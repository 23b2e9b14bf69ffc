/-
Model of the exchange of fragment data during overlap search (src/core/AssemblerAssembly.cpp,
`assembler::DetectOverlap_`).

`n` processes, `M` simultaneous transfers (10 in the code).  Point-to-point messages with the same source,
destination and tag are matched in the order in which they were sent and the receives were posted (MPI
non-overtaking rule); the order in which matched operations complete, and are reported by `MPI_Testsome`, is
arbitrary.  A message is represented by the index of the send it belongs to and the part (coordinates 0-2,
mask 3).  The polling loop is modelled by its elementary steps in any order, one operation reported at a time.
-/
import Mathlib.Data.List.Basic
import Mathlib.Logic.Function.Basic
import Mathlib.Data.Fin.Basic

namespace Ovk
namespace Transfer
variable {n M : Nat}

/-- Elements `{MGridID,Rank,FragmentID}` of `FragmentSends` and `FragmentRecvs`
(AssemblerAssembly.cpp:1155-1176). -/
structure Item (n : Nat) where
  grid : Int
  rank : Fin n
  frag : Int
  deriving DecidableEq

/-- Sorted sets of every process; of `FragmentLocals` only the number matters. -/
structure Cfg (n : Nat) where
  sends : Fin n → List (Item n)
  recvs : Fin n → List (Item n)
  locals : Fin n → Nat

/-- Loop state of one process (AssemblerAssembly.cpp:1422-1439).  `reported`: signals reported so far, in order
(their data was sent in that order); `sent`: `TransferSendFinished`; `slot`: `TransferredFragmentRecvIndices`
(`none` is -1); `buf`: message in a buffer of `TransferredFragmentData` (`none`: not `TransferRecvFinished`);
`done`: fragments searched so far with what their buffers contained. -/
structure Proc (M : Nat) where
  reported : List Nat
  sent : List (Nat × Fin 4)
  nextRecv : Nat
  slot : Fin M → Option Nat
  buf : Fin M → Fin 4 → Option (Nat × Fin 4)
  done : List (Nat × (Fin 4 → Option (Nat × Fin 4)))
  nextLocal : Nat

/-- Receives are posted for the first `M` fragments, and a signal is sent for each
(AssemblerAssembly.cpp:1447-1474). -/
def initProc (c : Cfg n) (p : Fin n) : Proc M where
  reported := []
  sent := []
  nextRecv := min M (c.recvs p).length
  slot := fun t => if t.val < (c.recvs p).length then some t.val else none
  buf := fun _ _ => none
  done := []
  nextLocal := 0

/-- The four messages of one fragment (AssemblerAssembly.cpp:1495-1500, 1622-1629). -/
def parts (i : Nat) : List (Nat × Fin 4) := [(i, 0), (i, 1), (i, 2), (i, 3)]

/-- Indices of a set whose rank is `q`, out of the given indices. -/
def toward (l : List (Item n)) (q : Fin n) (idx : List Nat) : List Nat :=
  idx.filter fun i => (l[i]?).any fun it => it.rank = q

/-- Tag-0 messages sent from `p` to `q` so far, in order. -/
def channel (c : Cfg n) (s : Fin n → Proc M) (p q : Fin n) : List (Nat × Fin 4) :=
  (toward (c.sends p) q (s p).reported).flatMap parts

/-- Tag-0 receives posted by `q` for messages from `p` so far, in order. -/
def posted (c : Cfg n) (s : Fin n → Proc M) (p q : Fin n) : List (Nat × Fin 4) :=
  (toward (c.recvs q) p (List.range (s q).nextRecv)).flatMap parts

/-- The message matched with the receive `(i, part)` of `q`, posted for messages from `p`. -/
def matched (c : Cfg n) (s : Fin n → Proc M) (p q : Fin n) (i : Nat) (part : Fin 4) :
    Option (Nat × Fin 4) := (channel c s p q)[(posted c s p q).idxOf (i, part)]?

/-- The signal receive of send `i` of `p` to `q` is matched: `q` has sent more signals to `p` than there are
earlier sends of `p` to `q` (AssemblerAssembly.cpp:1441-1445, 1471, 1630). -/
def signalled (c : Cfg n) (s : Fin n → Proc M) (p q : Fin n) (i : Nat) : Prop :=
  (toward (c.sends p) q (List.range i)).length < (toward (c.recvs q) p (List.range (s q).nextRecv)).length

/-- One step.  `ord`: signals of one receiver are reported in the order of their receives; `eager`: a send may
complete before it is matched. -/
inductive Step (c : Cfg n) (ord eager : Bool) : (Fin n → Proc M) → (Fin n → Proc M) → Prop
  /-- A signal is reported and the data of the fragment is sent (AssemblerAssembly.cpp:1485-1502). -/
  | report (s) (p : Fin n) (i : Nat) (it : Item n) (hi : (c.sends p)[i]? = some it)
      (hn : i ∉ (s p).reported) (hs : signalled c s p it.rank i)
      (ho : ord = true → ∀ j ∈ toward (c.sends p) it.rank (List.range i), j ∈ (s p).reported) :
      Step c ord eager s (Function.update s p { s p with reported := (s p).reported ++ [i] })
  /-- A send is reported complete (AssemblerAssembly.cpp:1503-1511). -/
  | sendDone (s) (p : Fin n) (i : Nat) (part : Fin 4) (it : Item n) (hi : (c.sends p)[i]? = some it)
      (hr : i ∈ (s p).reported) (hn : (i, part) ∉ (s p).sent)
      (hm : eager = true ∨ (channel c s p it.rank).idxOf (i, part) < (posted c s p it.rank).length) :
      Step c ord eager s (Function.update s p { s p with sent := (s p).sent ++ [(i, part)] })
  /-- A receive is reported complete (AssemblerAssembly.cpp:1513-1522). -/
  | recvDone (s) (q : Fin n) (t : Fin M) (i : Nat) (part : Fin 4) (it : Item n) (m : Nat × Fin 4)
      (ht : (s q).slot t = some i) (hi : (c.recvs q)[i]? = some it) (hb : (s q).buf t part = none)
      (hm : matched c s it.rank q i part = some m) :
      Step c ord eager s (Function.update s q { s q with
        buf := Function.update (s q).buf t (Function.update ((s q).buf t) part (some m)) })
  /-- A received fragment is searched and its transfer slot used for the next one
  (AssemblerAssembly.cpp:1523-1640). -/
  | search (s) (q : Fin n) (t : Fin M) (i : Nat) (ht : (s q).slot t = some i)
      (hb : ∀ part, ((s q).buf t part).isSome = true) :
      Step c ord eager s (Function.update s q
        (if (s q).nextRecv < (c.recvs q).length then { s q with
          done := (s q).done ++ [(i, (s q).buf t)]
          slot := Function.update (s q).slot t (some (s q).nextRecv)
          buf := Function.update (s q).buf t fun _ => none
          nextRecv := (s q).nextRecv + 1 }
        else { s q with
          done := (s q).done ++ [(i, (s q).buf t)]
          slot := Function.update (s q).slot t none }))
  /-- A local fragment is searched (AssemblerAssembly.cpp:1549-1554, 1641-1644). -/
  | local (s) (p : Fin n) (h : (s p).nextLocal < c.locals p) :
      Step c ord eager s (Function.update s p { s p with nextLocal := (s p).nextLocal + 1 })

inductive Reach (c : Cfg n) (ord eager : Bool) : (Fin n → Proc M) → Prop
  | init : Reach c ord eager (initProc c)
  | step {s s'} : Reach c ord eager s → Step c ord eager s s' → Reach c ord eager s'

/-- All processes have left the loop (AssemblerAssembly.cpp:1483): `SendsDone && RecvsDone && LocalsDone`. -/
def Final (c : Cfg n) (s : Fin n → Proc M) : Prop :=
  ∀ p, (∀ i, i < (c.sends p).length → ∀ part, (i, part) ∈ (s p).sent) ∧ (∀ t, (s p).slot t = none) ∧
    (s p).nextLocal = c.locals p

/-- Cell ranges of the fragments are exchanged first (AssemblerAssembly.cpp:1265-1291): `q` posts two receives
per entry of `FragmentRecvs`, `p` sends two messages per entry of `FragmentSends`, all in order, then both wait
for all of them.  The message matched with the receive of part `b` for fragment `i`. -/
def rangeMatched (c : Cfg n) (p q : Fin n) (i : Nat) (b : Bool) : Option (Nat × Bool) :=
  ((toward (c.sends p) q (List.range (c.sends p).length)).flatMap fun j => [(j, false), (j, true)])[
    ((toward (c.recvs q) p (List.range (c.recvs q).length)).flatMap fun j =>
      [(j, false), (j, true)]).idxOf (i, b)]?

end Transfer
end Ovk
