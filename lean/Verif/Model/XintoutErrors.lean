import Verif.Model.Collective

/-!
# Errors while reading XINTOUT files

The control flow of `ReadXINTOUT` (src/extras/XINTOUT.cpp 399-458) and of the functions it calls, with the collective
operations and the places where errors are found.  What is read is the subject of C93.

Simplified: `Sync` is one operation (C77 is about what it does; all errors here are errors of files, for which it
completes); barriers of the profiler (`StartSync`) are left out.
-/
namespace Ovk.XErr
open Coll
variable {n : Nat}

inductive Part | donors | receivers
  deriving DecidableEq

/-- Communicators: of the domain, of grid `g`, and of the processes of `g` that read (`ChunkComm`, 1009 and 1333). -/
inductive Comm | world | grid (g : Nat) | chunk (g : Nat) (part : Part)
  deriving DecidableEq

/-- Which processes have which grids, and who finds which error. -/
structure Input (n : Nat) where
  /-- Grids in order of their IDs; `XINTOUT.Grids` are the local ones (245-257, 352-357). -/
  grids : List Nat
  holds : Nat → Fin n → Bool
  /-- `HasChunk` (997 and 1321). -/
  hasChunk : Nat → Part → Fin n → Bool
  /-- Errors in `ReadGlobalInfo` (472-620) on process 0 of the domain. -/
  globalErr : Fin n → Bool
  /-- Errors in `ReadGridInfo` (692-945) on process 0 of the grid. -/
  infoErr : Nat → Fin n → Bool
  /-- Errors at the places of `ReadDonors` and `ReadReceivers`, numbered in order. -/
  err : Nat → Part → Nat → Fin n → Bool

def member (I : Input n) : Comm → Fin n → Bool
  | .world, _ => true
  | .grid g, p => I.holds g p
  | .chunk g part, p => I.hasChunk g part p

/-- `MPI_File_open` (1044-1052, 1059-1067, 1372-1380): afterwards each process throws if it has got an error. -/
def openFile (c : Comm) (x : Bool) (e : Bool) : Prog Comm := .coll c (.openFile x) false fun _ => .ret e

/-- Reading a dataset: `MPI_File_set_view`, `File_read_all_endian`, and an error if too little was read
(1097-1112 and its like). -/
def dataset (c : Comm) (x : Bool) (e : Bool) : Prog Comm :=
  .seqs [.plain c (.setView x), .plain c (.readAll x), .check c e]

/-- The part of `ReadDonors` for processes with a chunk (1015-1280). -/
def donorChunk (I : Input n) (g : Nat) (p : Fin n) : Prog Comm :=
  let c := Comm.chunk g .donors
  let e := fun s => I.err g .donors s p
  .seqs [.check c (e 0), openFile c false (e 1), .closing (.plain c (.closeFile false)) <|
    .seqs [openFile c true (e 2), .closing (.plain c (.closeFile true)) <|
      .seqs [dataset c true (e 3), dataset c true (e 4), dataset c true (e 5),
        dataset c false (e 6), dataset c false (e 7), dataset c false (e 8),
        dataset c false (e 9), dataset c false (e 10), dataset c false (e 11),
        .check c (e 12), .plain c .reduce, .plain c .scan,
        dataset c true (e 13), dataset c true (e 14), dataset c true (e 15)]]]

/-- The part of `ReadReceivers` for processes with a chunk (1339-1478). -/
def receiverChunk (I : Input n) (g : Nat) (p : Fin n) : Prog Comm :=
  let c := Comm.chunk g .receivers
  let e := fun s => I.err g .receivers s p
  .seqs [.check c (e 0), openFile c false (e 1), .closing (.plain c (.closeFile false)) <|
    .seqs [dataset c false (e 2), dataset c false (e 3), dataset c false (e 4), dataset c false (e 5)]]

def chunk (I : Input n) (g : Nat) : Part → Fin n → Prog Comm
  | .donors, p => donorChunk I g p
  | .receivers, p => receiverChunk I g p

/-- `ReadDonors` (969-1292), `ReadReceivers` (1294-1490): an error in the chunk is caught and checked on all processes
of the grid. -/
def readPart (I : Input n) (g : Nat) (part : Part) (p : Fin n) : Prog Comm :=
  (Prog.plain (.grid g) .subset).bind fun _ =>
    (if I.hasChunk g part p then chunk I g part p else .ret false).bind fun t =>
      .seqs [.plain (.grid g) .indicator, .check (.grid g) t]

/-- `ReadGridInfo` (678-967). -/
def readInfo (I : Input n) (g : Nat) (p : Fin n) : Prog Comm :=
  .seqs ([.plain (.grid g) .indicator, .check (.grid g) (I.infoErr g p)] ++
    List.replicate 9 (.plain (.grid g) .bcast))

/-- The body of the loop of `ReadXINTOUT` (424-443). -/
def readGrid (I : Input n) (g : Nat) (p : Fin n) : Prog Comm :=
  .seqs [readInfo I g p, readPart I g .donors p, readPart I g .receivers p]

/-- `ReadGlobalInfo` (460-641). -/
def readGlobal (I : Input n) (p : Fin n) : Prog Comm :=
  .seqs ([.plain .world .indicator, .check .world (I.globalErr p)] ++ List.replicate 3 (.plain .world .bcast))

/-- The loop of `ReadXINTOUT` over the local grids; an error ends it (420-447). -/
def readGrids (I : Input n) (p : Fin n) : Prog Comm :=
  .seqs ((I.grids.filter fun g => I.holds g p).map fun g => readGrid I g p)

/-- `ReadXINTOUT` (399-458). -/
def read (I : Input n) (p : Fin n) : Prog Comm :=
  (Prog.plain .world .barrier).seq <| (readGlobal I p).seq <|
    (readGrids I p).bind fun t => .seqs [.check .world t, .plain .world .barrier]

end Ovk.XErr
