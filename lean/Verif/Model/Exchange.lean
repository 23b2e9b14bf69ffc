/-
Model of a whole exchange over one connectivity: src/core/Exchanger.cpp:779-813 (`ResetExchanges_`: the maps
of a connectivity), 868-1020 (`CreateCollect`, `Collect`), 1088-1410 (`CreateSend`, `Send`, `CreateReceive`,
`Receive`, `Wait`), 1412-1553 (`CreateDisperse`, `Disperse`), as a user calls them (examples/Interface.cpp):
the donor processes collect interpolated values from their field into one buffer per component, the buffers
are sent and received, and the receiving processes disperse what they got into their field.

The parts are those of Model/Collect.lean, Model/SendRecv.lean and Model/Disperse.lean; here they are joined.
Simplified: values are elements of a ring.
-/
import Verif.Model.Collect
import Verif.Model.Exchanger
import Verif.Model.Disperse

namespace Ovk.Xch
variable {d n nm : Nat} {V : Type}

/-- What the exchanger holds for connectivity `(m, g)` after an update. -/
structure Exchange (d n nm : Nat) (V : Type) where
  world : World d n
  m : Int
  g : Int
  /-- ranks found by `UpdateDestRanks_`, `UpdateSourceRanks_` -/
  dest : Fin n → List (List Int)
  src : Fin n → List (List Int)
  /-- `SendMap`, `RecvMap` (Exchanger.cpp:797-799, 807-808) and the number of components -/
  maps : SR.Setup n
  /-- `CollectMap` (Exchanger.cpp:796), for the `nm` processes of grid `m` -/
  coll : Coll.Setup d nm
  /-- rank in the domain of a process of grid `m` -/
  dom : Fin nm → Fin n
  /-- `InterpCoefs_(iDim, iPoint, iDonor)` of connectivity M (Exchanger.cpp:929-938) -/
  coefs : Fin nm → Nat → Fin d → Int → V
  /-- layout and range of the fields on grid `g` -/
  layout : Indexer.Layout
  fieldRange : Fin n → Rng d

namespace Exchange

/-- `Collect` with the operation `INTERPOLATE` on process `r` of grid `m` for component `c`
(CollectInterp.hpp:60-115).  `junk` and `scratch` are what the scratch arrays `VertexCoefs_` and
`VertexValues_` hold before. -/
def collect [CommRing V] (X : Exchange d n nm V) (field : Nat → Fin nm → Int → V) (junk : Fin nm → Nat → Int → V)
    (scratch : Nat → Fin nm → Int → V) (r : Fin nm) (c : Nat) : Option (List V) :=
  Coll.collect X.coll (field c) (Coll.interpStep fun k =>
    match (X.coll.cells r)[k]? with
    | some cell => Coll.vertexCoefs X.coll.layout cell (X.coefs r k) (junk r k)
    | none => junk r k) 0 (scratch c r) r

/-- The buffers given to `Send`: process `a` of the domain passes what it collected; a process without
grid `m` passes nothing. -/
def sendBuffers [Zero V] (X : Exchange d n nm V) (dv : Fin nm → Nat → List V) (a : Fin n) (c i : Nat) : V :=
  match (List.finRange nm).find? fun r => decide (X.dom r = a) with
  | some r => (dv r c).getD i 0
  | none => 0

/-- `Points` of connectivity N on process `b` (Exchanger.cpp:809, DisperseMap.cpp). -/
def points (X : Exchange d n nm V) (b : Fin n) : List (Tup d) :=
  (nReceivers (nEntry X.world X.src X.m X.g b)).map Receiver.pt

/-- `Disperse` with `OVERWRITE` on process `b` of what was received. -/
def overwrite (X : Exchange d n nm V) (b : Fin n) (received : Nat → Nat → V) (field : Nat → Int → V) : Option (Nat → Int → V) :=
  Disp.overwrite X.layout (X.fieldRange b) X.maps.count (X.points b) received field

/-- `Disperse` with `APPEND` on process `b` of what was received. -/
def append [Add V] (X : Exchange d n nm V) (b : Fin n) (received : Nat → Nat → V) (field : Nat → Int → V) :
    Option (Nat → Int → V) :=
  Disp.append (· + ·) X.layout (X.fieldRange b) X.maps.count (X.points b) received field

end Exchange
end Ovk.Xch
