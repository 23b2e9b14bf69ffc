import Verif.Model.Indexer

/-!
# Data types, and what is made for them

A program names the type of its values by an enumerator of `data_type` and gives
the values as untyped memory.  Which class template with which element type does
the work is chosen by switch statements.  This file has these choices, the
properties of data types, and the way of a value through MPI: it is read from
memory as a value of the element type, converted to a type MPI knows, converted
back and written.

Simplified: memory is a list of bytes; a floating point value is represented by
the number its bytes make, conversions between different types one of which is
floating point are not modelled (`none`; the code never makes any); integers are
in two's complement; all processes run on the same platform.  A `none` also is a
value that is not one of its type, an access outside of the memory, messages
whose types differ, and an operation that was not made (an assertion in debug
builds, an empty object in others).
-/

namespace Ovk.DataTypes

open Ovk.Indexer (Layout)

/-- `ovk_data_type` (src/core/DataType.h:17-47), `data_type` (src/core/DataType.hpp:18-42). -/
inductive DataType
  | bool | byte | int | long | longLong | uint | ulong | ulongLong | float | double
  deriving DecidableEq, Repr

/-- Types of C++ that can be elements (src/core/DataType.hpp:97-155). -/
inductive CType
  | bool | byte | int | long | longLong | uint | ulong | ulongLong | float | double
  deriving DecidableEq, Repr

/-- Types of MPI named in src/core/DataType.h:148-162 and src/core/DataType.hpp:97-155. -/
inductive MPIType
  | null | byte | unsignedChar | int | long | longLong | unsigned | unsignedLong
  | unsignedLongLong | float | double
  deriving DecidableEq, Repr

/-- What the compiler decides: `sizeof`, and the order of bytes. -/
structure Platform where
  size : CType → Nat
  big : Bool

/-- Numbers of the enumerators (src/core/DataType.h:17-27). -/
def code : DataType → Nat
  | .bool => 1
  | .byte => 2
  | .int => 3
  | .long => 4
  | .longLong => 5
  | .uint => 6
  | .ulong => 7
  | .ulongLong => 8
  | .float => 9
  | .double => 10

/-- `ovkValidDataType` (src/core/DataType.h:49-67), on numbers. -/
def validCode (c : Nat) : Bool :=
  c == code .bool || c == code .byte || c == code .int || c == code .long ||
  c == code .longLong || c == code .uint || c == code .ulong || c == code .ulongLong ||
  c == code .float || c == code .double

/-- `OVK_INT32` (src/core/DataType.h:28-30). -/
def int32 (P : Platform) : DataType := if P.size .int = 4 then .int else .long

/-- `OVK_INT64` (src/core/DataType.h:31-36). -/
def int64 (P : Platform) : DataType :=
  if P.size .int = 8 then .int else if P.size .long = 8 then .long else .longLong

/-- `OVK_UNSIGNED_INT32` (src/core/DataType.h:37-39). -/
def uint32 (P : Platform) : DataType := if P.size .uint = 4 then .uint else .ulong

/-- `OVK_UNSIGNED_INT64` (src/core/DataType.h:40-45). -/
def uint64 (P : Platform) : DataType :=
  if P.size .uint = 8 then .uint else if P.size .ulong = 8 then .ulong else .ulongLong

/-- `ovkDataTypeSize` (src/core/DataType.h:69-85). -/
def dataTypeSize (P : Platform) : DataType → Nat
  | .bool => P.size .byte
  | .byte => P.size .byte
  | .int => P.size .int
  | .long => P.size .long
  | .longLong => P.size .longLong
  | .uint => P.size .uint
  | .ulong => P.size .ulong
  | .ulongLong => P.size .ulongLong
  | .float => P.size .float
  | .double => P.size .double

/-- `ovkDataTypeIsIntegral` (src/core/DataType.h:87-103). -/
def isIntegral : DataType → Bool
  | .int | .long | .longLong | .bool | .byte | .uint | .ulong | .ulongLong => true
  | _ => false

/-- `ovkDataTypeIsFloatingPoint` (src/core/DataType.h:105-115). -/
def isFloatingPoint : DataType → Bool
  | .float | .double => true
  | _ => false

/-- `ovkDataTypeIsSigned` (src/core/DataType.h:117-130). -/
def isSigned : DataType → Bool
  | .int | .long | .longLong | .float | .double => true
  | _ => false

/-- `ovkDataTypeIsUnsigned` (src/core/DataType.h:132-145). -/
def isUnsigned : DataType → Bool
  | .bool | .byte | .uint | .ulong | .ulongLong => true
  | _ => false

/-- `ovkDataTypeToMPI` (src/core/DataType.h:147-162).  There is no case for `OVK_BOOL`. -/
def toMPI : DataType → MPIType
  | .byte => .byte
  | .int => .int
  | .long => .long
  | .longLong => .longLong
  | .uint => .unsigned
  | .ulong => .unsignedLong
  | .ulongLong => .unsignedLongLong
  | .float => .float
  | .double => .double
  | _ => .null

/-- `data_type_traits<T>::Type` (src/core/DataType.hpp:97-155). -/
def typeOf : CType → DataType
  | .bool => .bool
  | .byte => .byte
  | .int => .int
  | .long => .long
  | .longLong => .longLong
  | .uint => .uint
  | .ulong => .ulong
  | .ulongLong => .ulongLong
  | .float => .float
  | .double => .double

/-- `data_type_traits<T>::mpi_convert_type` (src/core/DataType.hpp:97-155). -/
def mpiConvert : CType → CType
  | .bool => .byte
  | .byte => .byte
  | .int => .int
  | .long => .long
  | .longLong => .longLong
  | .uint => .uint
  | .ulong => .ulong
  | .ulongLong => .ulongLong
  | .float => .float
  | .double => .double

/-- `data_type_traits<T>::MPIType()` (src/core/DataType.hpp:97-155). -/
def mpiType : CType → MPIType
  | .bool => .unsignedChar
  | .byte => .unsignedChar
  | .int => .int
  | .long => .long
  | .longLong => .longLong
  | .uint => .unsigned
  | .ulong => .unsignedLong
  | .ulongLong => .unsignedLongLong
  | .float => .float
  | .double => .double

/-- Class templates that do the work (src/core/CollectRow.cpp, src/core/CollectCol.cpp,
src/core/Disperse.cpp, src/core/Send.cpp:28-176, src/core/Recv.cpp:26-182). -/
inductive Template
  | collectNone | collectAny | collectNotAll | collectAll | collectMin | collectMax
  | collectInterp | collectInterpThreaded | disperseOverwrite | disperseAppend | send | recv
  deriving DecidableEq, Repr

/-- An instance of a class template: its element type, and its array layout if it has one. -/
structure Inst where
  what : Template
  elem : CType
  layout : Option Layout
  deriving DecidableEq

/-- `CreateCollectNoneRow` (src/core/CollectRow.cpp:35-89). -/
def collectNoneRow : DataType → Option Inst
  | .bool => some ⟨.collectNone, .bool, (some .row)⟩
  | .byte => some ⟨.collectNone, .byte, (some .row)⟩
  | .int => some ⟨.collectNone, .int, (some .row)⟩
  | .long => some ⟨.collectNone, .long, (some .row)⟩
  | .longLong => some ⟨.collectNone, .longLong, (some .row)⟩
  | .uint => some ⟨.collectNone, .uint, (some .row)⟩
  | .ulong => some ⟨.collectNone, .ulong, (some .row)⟩
  | .ulongLong => some ⟨.collectNone, .ulongLong, (some .row)⟩
  | .float => some ⟨.collectNone, .float, (some .row)⟩
  | .double => some ⟨.collectNone, .double, (some .row)⟩

/-- `CreateCollectAnyRow` (src/core/CollectRow.cpp:93-147). -/
def collectAnyRow : DataType → Option Inst
  | .bool => some ⟨.collectAny, .bool, (some .row)⟩
  | .byte => some ⟨.collectAny, .byte, (some .row)⟩
  | .int => some ⟨.collectAny, .int, (some .row)⟩
  | .long => some ⟨.collectAny, .long, (some .row)⟩
  | .longLong => some ⟨.collectAny, .longLong, (some .row)⟩
  | .uint => some ⟨.collectAny, .uint, (some .row)⟩
  | .ulong => some ⟨.collectAny, .ulong, (some .row)⟩
  | .ulongLong => some ⟨.collectAny, .ulongLong, (some .row)⟩
  | .float => some ⟨.collectAny, .float, (some .row)⟩
  | .double => some ⟨.collectAny, .double, (some .row)⟩

/-- `CreateCollectNotAllRow` (src/core/CollectRow.cpp:151-205). -/
def collectNotAllRow : DataType → Option Inst
  | .bool => some ⟨.collectNotAll, .bool, (some .row)⟩
  | .byte => some ⟨.collectNotAll, .byte, (some .row)⟩
  | .int => some ⟨.collectNotAll, .int, (some .row)⟩
  | .long => some ⟨.collectNotAll, .long, (some .row)⟩
  | .longLong => some ⟨.collectNotAll, .longLong, (some .row)⟩
  | .uint => some ⟨.collectNotAll, .uint, (some .row)⟩
  | .ulong => some ⟨.collectNotAll, .ulong, (some .row)⟩
  | .ulongLong => some ⟨.collectNotAll, .ulongLong, (some .row)⟩
  | .float => some ⟨.collectNotAll, .float, (some .row)⟩
  | .double => some ⟨.collectNotAll, .double, (some .row)⟩

/-- `CreateCollectAllRow` (src/core/CollectRow.cpp:209-263). -/
def collectAllRow : DataType → Option Inst
  | .bool => some ⟨.collectAll, .bool, (some .row)⟩
  | .byte => some ⟨.collectAll, .byte, (some .row)⟩
  | .int => some ⟨.collectAll, .int, (some .row)⟩
  | .long => some ⟨.collectAll, .long, (some .row)⟩
  | .longLong => some ⟨.collectAll, .longLong, (some .row)⟩
  | .uint => some ⟨.collectAll, .uint, (some .row)⟩
  | .ulong => some ⟨.collectAll, .ulong, (some .row)⟩
  | .ulongLong => some ⟨.collectAll, .ulongLong, (some .row)⟩
  | .float => some ⟨.collectAll, .float, (some .row)⟩
  | .double => some ⟨.collectAll, .double, (some .row)⟩

/-- `CreateCollectMinRow` (src/core/CollectRow.cpp:267-321). -/
def collectMinRow : DataType → Option Inst
  | .bool => some ⟨.collectMin, .bool, (some .row)⟩
  | .byte => some ⟨.collectMin, .byte, (some .row)⟩
  | .int => some ⟨.collectMin, .int, (some .row)⟩
  | .long => some ⟨.collectMin, .long, (some .row)⟩
  | .longLong => some ⟨.collectMin, .longLong, (some .row)⟩
  | .uint => some ⟨.collectMin, .uint, (some .row)⟩
  | .ulong => some ⟨.collectMin, .ulong, (some .row)⟩
  | .ulongLong => some ⟨.collectMin, .ulongLong, (some .row)⟩
  | .float => some ⟨.collectMin, .float, (some .row)⟩
  | .double => some ⟨.collectMin, .double, (some .row)⟩

/-- `CreateCollectMaxRow` (src/core/CollectRow.cpp:325-379). -/
def collectMaxRow : DataType → Option Inst
  | .bool => some ⟨.collectMax, .bool, (some .row)⟩
  | .byte => some ⟨.collectMax, .byte, (some .row)⟩
  | .int => some ⟨.collectMax, .int, (some .row)⟩
  | .long => some ⟨.collectMax, .long, (some .row)⟩
  | .longLong => some ⟨.collectMax, .longLong, (some .row)⟩
  | .uint => some ⟨.collectMax, .uint, (some .row)⟩
  | .ulong => some ⟨.collectMax, .ulong, (some .row)⟩
  | .ulongLong => some ⟨.collectMax, .ulongLong, (some .row)⟩
  | .float => some ⟨.collectMax, .float, (some .row)⟩
  | .double => some ⟨.collectMax, .double, (some .row)⟩

/-- `CreateCollectInterpRow` (src/core/CollectRow.cpp:383-405). -/
def collectInterpRow : DataType → Option Inst
  | .float => some ⟨.collectInterp, .float, (some .row)⟩
  | .double => some ⟨.collectInterp, .double, (some .row)⟩
  | _ => none

/-- `CreateCollectInterpThreadedRow` (src/core/CollectRow.cpp:411-433). -/
def collectInterpThreadedRow : DataType → Option Inst
  | .float => some ⟨.collectInterpThreaded, .float, (some .row)⟩
  | .double => some ⟨.collectInterpThreaded, .double, (some .row)⟩
  | _ => none

/-- `CreateCollectNoneCol` (src/core/CollectCol.cpp:35-89). -/
def collectNoneCol : DataType → Option Inst
  | .bool => some ⟨.collectNone, .bool, (some .col)⟩
  | .byte => some ⟨.collectNone, .byte, (some .col)⟩
  | .int => some ⟨.collectNone, .int, (some .col)⟩
  | .long => some ⟨.collectNone, .long, (some .col)⟩
  | .longLong => some ⟨.collectNone, .longLong, (some .col)⟩
  | .uint => some ⟨.collectNone, .uint, (some .col)⟩
  | .ulong => some ⟨.collectNone, .ulong, (some .col)⟩
  | .ulongLong => some ⟨.collectNone, .ulongLong, (some .col)⟩
  | .float => some ⟨.collectNone, .float, (some .col)⟩
  | .double => some ⟨.collectNone, .double, (some .col)⟩

/-- `CreateCollectAnyCol` (src/core/CollectCol.cpp:93-147). -/
def collectAnyCol : DataType → Option Inst
  | .bool => some ⟨.collectAny, .bool, (some .col)⟩
  | .byte => some ⟨.collectAny, .byte, (some .col)⟩
  | .int => some ⟨.collectAny, .int, (some .col)⟩
  | .long => some ⟨.collectAny, .long, (some .col)⟩
  | .longLong => some ⟨.collectAny, .longLong, (some .col)⟩
  | .uint => some ⟨.collectAny, .uint, (some .col)⟩
  | .ulong => some ⟨.collectAny, .ulong, (some .col)⟩
  | .ulongLong => some ⟨.collectAny, .ulongLong, (some .col)⟩
  | .float => some ⟨.collectAny, .float, (some .col)⟩
  | .double => some ⟨.collectAny, .double, (some .col)⟩

/-- `CreateCollectNotAllCol` (src/core/CollectCol.cpp:151-205). -/
def collectNotAllCol : DataType → Option Inst
  | .bool => some ⟨.collectNotAll, .bool, (some .col)⟩
  | .byte => some ⟨.collectNotAll, .byte, (some .col)⟩
  | .int => some ⟨.collectNotAll, .int, (some .col)⟩
  | .long => some ⟨.collectNotAll, .long, (some .col)⟩
  | .longLong => some ⟨.collectNotAll, .longLong, (some .col)⟩
  | .uint => some ⟨.collectNotAll, .uint, (some .col)⟩
  | .ulong => some ⟨.collectNotAll, .ulong, (some .col)⟩
  | .ulongLong => some ⟨.collectNotAll, .ulongLong, (some .col)⟩
  | .float => some ⟨.collectNotAll, .float, (some .col)⟩
  | .double => some ⟨.collectNotAll, .double, (some .col)⟩

/-- `CreateCollectAllCol` (src/core/CollectCol.cpp:209-263). -/
def collectAllCol : DataType → Option Inst
  | .bool => some ⟨.collectAll, .bool, (some .col)⟩
  | .byte => some ⟨.collectAll, .byte, (some .col)⟩
  | .int => some ⟨.collectAll, .int, (some .col)⟩
  | .long => some ⟨.collectAll, .long, (some .col)⟩
  | .longLong => some ⟨.collectAll, .longLong, (some .col)⟩
  | .uint => some ⟨.collectAll, .uint, (some .col)⟩
  | .ulong => some ⟨.collectAll, .ulong, (some .col)⟩
  | .ulongLong => some ⟨.collectAll, .ulongLong, (some .col)⟩
  | .float => some ⟨.collectAll, .float, (some .col)⟩
  | .double => some ⟨.collectAll, .double, (some .col)⟩

/-- `CreateCollectMinCol` (src/core/CollectCol.cpp:267-321). -/
def collectMinCol : DataType → Option Inst
  | .bool => some ⟨.collectMin, .bool, (some .col)⟩
  | .byte => some ⟨.collectMin, .byte, (some .col)⟩
  | .int => some ⟨.collectMin, .int, (some .col)⟩
  | .long => some ⟨.collectMin, .long, (some .col)⟩
  | .longLong => some ⟨.collectMin, .longLong, (some .col)⟩
  | .uint => some ⟨.collectMin, .uint, (some .col)⟩
  | .ulong => some ⟨.collectMin, .ulong, (some .col)⟩
  | .ulongLong => some ⟨.collectMin, .ulongLong, (some .col)⟩
  | .float => some ⟨.collectMin, .float, (some .col)⟩
  | .double => some ⟨.collectMin, .double, (some .col)⟩

/-- `CreateCollectMaxCol` (src/core/CollectCol.cpp:325-379). -/
def collectMaxCol : DataType → Option Inst
  | .bool => some ⟨.collectMax, .bool, (some .col)⟩
  | .byte => some ⟨.collectMax, .byte, (some .col)⟩
  | .int => some ⟨.collectMax, .int, (some .col)⟩
  | .long => some ⟨.collectMax, .long, (some .col)⟩
  | .longLong => some ⟨.collectMax, .longLong, (some .col)⟩
  | .uint => some ⟨.collectMax, .uint, (some .col)⟩
  | .ulong => some ⟨.collectMax, .ulong, (some .col)⟩
  | .ulongLong => some ⟨.collectMax, .ulongLong, (some .col)⟩
  | .float => some ⟨.collectMax, .float, (some .col)⟩
  | .double => some ⟨.collectMax, .double, (some .col)⟩

/-- `CreateCollectInterpCol` (src/core/CollectCol.cpp:383-405). -/
def collectInterpCol : DataType → Option Inst
  | .float => some ⟨.collectInterp, .float, (some .col)⟩
  | .double => some ⟨.collectInterp, .double, (some .col)⟩
  | _ => none

/-- `CreateCollectInterpThreadedCol` (src/core/CollectCol.cpp:411-433). -/
def collectInterpThreadedCol : DataType → Option Inst
  | .float => some ⟨.collectInterpThreaded, .float, (some .col)⟩
  | .double => some ⟨.collectInterpThreaded, .double, (some .col)⟩
  | _ => none

/-- `CreateDisperseOverwriteRow` (src/core/Disperse.cpp:29-136, first layout). -/
def disperseOverwriteRow : DataType → Option Inst
  | .bool => some ⟨.disperseOverwrite, .bool, (some .row)⟩
  | .byte => some ⟨.disperseOverwrite, .byte, (some .row)⟩
  | .int => some ⟨.disperseOverwrite, .int, (some .row)⟩
  | .long => some ⟨.disperseOverwrite, .long, (some .row)⟩
  | .longLong => some ⟨.disperseOverwrite, .longLong, (some .row)⟩
  | .uint => some ⟨.disperseOverwrite, .uint, (some .row)⟩
  | .ulong => some ⟨.disperseOverwrite, .ulong, (some .row)⟩
  | .ulongLong => some ⟨.disperseOverwrite, .ulongLong, (some .row)⟩
  | .float => some ⟨.disperseOverwrite, .float, (some .row)⟩
  | .double => some ⟨.disperseOverwrite, .double, (some .row)⟩

/-- `CreateDisperseOverwriteCol` (src/core/Disperse.cpp:29-136, second layout). -/
def disperseOverwriteCol : DataType → Option Inst
  | .bool => some ⟨.disperseOverwrite, .bool, (some .col)⟩
  | .byte => some ⟨.disperseOverwrite, .byte, (some .col)⟩
  | .int => some ⟨.disperseOverwrite, .int, (some .col)⟩
  | .long => some ⟨.disperseOverwrite, .long, (some .col)⟩
  | .longLong => some ⟨.disperseOverwrite, .longLong, (some .col)⟩
  | .uint => some ⟨.disperseOverwrite, .uint, (some .col)⟩
  | .ulong => some ⟨.disperseOverwrite, .ulong, (some .col)⟩
  | .ulongLong => some ⟨.disperseOverwrite, .ulongLong, (some .col)⟩
  | .float => some ⟨.disperseOverwrite, .float, (some .col)⟩
  | .double => some ⟨.disperseOverwrite, .double, (some .col)⟩

/-- `CreateDisperseAppendRow` (src/core/Disperse.cpp:145-250, first layout). -/
def disperseAppendRow : DataType → Option Inst
  | .bool => some ⟨.disperseAppend, .bool, (some .row)⟩
  | .byte => some ⟨.disperseAppend, .byte, (some .row)⟩
  | .int => some ⟨.disperseAppend, .int, (some .row)⟩
  | .long => some ⟨.disperseAppend, .long, (some .row)⟩
  | .longLong => some ⟨.disperseAppend, .longLong, (some .row)⟩
  | .uint => some ⟨.disperseAppend, .uint, (some .row)⟩
  | .ulong => some ⟨.disperseAppend, .ulong, (some .row)⟩
  | .ulongLong => some ⟨.disperseAppend, .ulongLong, (some .row)⟩
  | .float => some ⟨.disperseAppend, .float, (some .row)⟩
  | .double => some ⟨.disperseAppend, .double, (some .row)⟩

/-- `CreateDisperseAppendCol` (src/core/Disperse.cpp:145-250, second layout). -/
def disperseAppendCol : DataType → Option Inst
  | .bool => some ⟨.disperseAppend, .bool, (some .col)⟩
  | .byte => some ⟨.disperseAppend, .byte, (some .col)⟩
  | .int => some ⟨.disperseAppend, .int, (some .col)⟩
  | .long => some ⟨.disperseAppend, .long, (some .col)⟩
  | .longLong => some ⟨.disperseAppend, .longLong, (some .col)⟩
  | .uint => some ⟨.disperseAppend, .uint, (some .col)⟩
  | .ulong => some ⟨.disperseAppend, .ulong, (some .col)⟩
  | .ulongLong => some ⟨.disperseAppend, .ulongLong, (some .col)⟩
  | .float => some ⟨.disperseAppend, .float, (some .col)⟩
  | .double => some ⟨.disperseAppend, .double, (some .col)⟩

/-- `CreateSend` (src/core/Send.cpp:178-221). -/
def send : DataType → Option Inst
  | .bool => some ⟨.send, .bool, none⟩
  | .byte => some ⟨.send, .byte, none⟩
  | .int => some ⟨.send, .int, none⟩
  | .long => some ⟨.send, .long, none⟩
  | .longLong => some ⟨.send, .longLong, none⟩
  | .uint => some ⟨.send, .uint, none⟩
  | .ulong => some ⟨.send, .ulong, none⟩
  | .ulongLong => some ⟨.send, .ulongLong, none⟩
  | .float => some ⟨.send, .float, none⟩
  | .double => some ⟨.send, .double, none⟩

/-- `CreateRecv` (src/core/Recv.cpp:184-227). -/
def recv : DataType → Option Inst
  | .bool => some ⟨.recv, .bool, none⟩
  | .byte => some ⟨.recv, .byte, none⟩
  | .int => some ⟨.recv, .int, none⟩
  | .long => some ⟨.recv, .long, none⟩
  | .longLong => some ⟨.recv, .longLong, none⟩
  | .uint => some ⟨.recv, .uint, none⟩
  | .ulong => some ⟨.recv, .ulong, none⟩
  | .ulongLong => some ⟨.recv, .ulongLong, none⟩
  | .float => some ⟨.recv, .float, none⟩
  | .double => some ⟨.recv, .double, none⟩

/-- `CreateCollectNone` (src/core/Collect.hpp:88-106). -/
def collectNone (t : DataType) : Layout → Option Inst
  | .row => collectNoneRow t
  | .col => collectNoneCol t

/-- `CreateCollectAny` (src/core/Collect.hpp:116-134). -/
def collectAny (t : DataType) : Layout → Option Inst
  | .row => collectAnyRow t
  | .col => collectAnyCol t

/-- `CreateCollectNotAll` (src/core/Collect.hpp:144-162). -/
def collectNotAll (t : DataType) : Layout → Option Inst
  | .row => collectNotAllRow t
  | .col => collectNotAllCol t

/-- `CreateCollectAll` (src/core/Collect.hpp:172-190). -/
def collectAll (t : DataType) : Layout → Option Inst
  | .row => collectAllRow t
  | .col => collectAllCol t

/-- `CreateCollectMin` (src/core/Collect.hpp:200-218). -/
def collectMin (t : DataType) : Layout → Option Inst
  | .row => collectMinRow t
  | .col => collectMinCol t

/-- `CreateCollectMax` (src/core/Collect.hpp:228-246). -/
def collectMax (t : DataType) : Layout → Option Inst
  | .row => collectMaxRow t
  | .col => collectMaxCol t

/-- `CreateCollectInterp` (src/core/Collect.hpp:256-274). -/
def collectInterp (t : DataType) : Layout → Option Inst
  | .row => collectInterpRow t
  | .col => collectInterpCol t

/-- `CreateCollectInterpThreaded` (src/core/Collect.hpp:285-303). -/
def collectInterpThreaded (t : DataType) : Layout → Option Inst
  | .row => collectInterpThreadedRow t
  | .col => collectInterpThreadedCol t

/-- `collect_op` (src/core/Exchanger.h:15-21, src/core/Exchanger.hpp:43-49). -/
inductive CollectOp | none | any | notAll | all | interpolate
  deriving DecidableEq

/-- `disperse_op` (src/core/Exchanger.h:38-41). -/
inductive DisperseOp | overwrite | append
  deriving DecidableEq

/-- The choice in `exchanger::CreateCollect` (src/core/Exchanger.cpp:912-945);
`threaded` is `OVK_HAVE_OPENMP`. -/
def exchangerCollect (threaded : Bool) (op : CollectOp) (t : DataType) (l : Layout) :
    Option Inst :=
  match op with
  | .none => collectNone t l
  | .any => collectAny t l
  | .notAll => collectNotAll t l
  | .all => collectAll t l
  | .interpolate => if threaded then collectInterpThreaded t l else collectInterp t l

/-- `CreateDisperseOverwrite` (src/core/Disperse.cpp:29-136). -/
def disperseOverwrite (t : DataType) : Layout → Option Inst
  | .row => disperseOverwriteRow t
  | .col => disperseOverwriteCol t

/-- `CreateDisperseAppend` (src/core/Disperse.cpp:145-250). -/
def disperseAppend (t : DataType) : Layout → Option Inst
  | .row => disperseAppendRow t
  | .col => disperseAppendCol t

/-- The choice in `exchanger::CreateDisperse` (src/core/Exchanger.cpp:1450-1462). -/
def exchangerDisperse (op : DisperseOp) (t : DataType) (l : Layout) : Option Inst :=
  match op with
  | .overwrite => disperseOverwrite t l
  | .append => disperseAppend t l

abbrev Byte := Fin 256

/-- The number some bytes make, least significant first. -/
def leNat : List Byte → Nat
  | [] => 0
  | b :: r => b.val + 256 * leNat r

/-- The bytes of a number, least significant first. -/
def leBytes : Nat → Nat → List Byte
  | 0, _ => []
  | n + 1, v => ⟨v % 256, Nat.mod_lt _ (by decide)⟩ :: leBytes n (v / 256)

/-- Bytes in the order of the platform. -/
def order (P : Platform) (l : List Byte) : List Byte := if P.big then l.reverse else l

/-- The number represented by `v` in `n` bytes with two's complement. -/
def signedOf (n v : Nat) : Int := if 2 * v < 256 ^ n then v else (v : Int) - 256 ^ n

/-- Reading a value of type `t` from its bytes. -/
def readValue (P : Platform) (t : CType) (bs : List Byte) : Option Int :=
  let v := leNat (order P bs)
  match t with
  | .bool => if v ≤ 1 then some v else none
  | .int | .long | .longLong => some (signedOf (P.size t) v)
  | _ => some v

/-- The bytes of a value of type `t`. -/
def writeValue (P : Platform) (t : CType) (v : Int) : List Byte :=
  order P (leBytes (P.size t) (v % (256 ^ P.size t : Nat)).toNat)

/-- `d(v)` for a value `v` of type `s`: `mpi_value_type(...)`, `value_type(...)`
(src/core/Send.cpp:132, src/core/Recv.cpp:66, src/core/CollectBase.cpp:213 and 235,
src/core/Halo.inl:106 and 157). -/
def convert (P : Platform) (s d : CType) (v : Int) : Option Int :=
  if s = d then some v
  else if s = .float ∨ s = .double then none
  else match d with
    | .float | .double => none
    | .bool => some (if v = 0 then 0 else 1)
    | .int | .long | .longLong =>
      some (signedOf (P.size d) (v % (256 ^ P.size d : Nat)).toNat)
    | _ => some (v % (256 ^ P.size d : Nat))

/-- Filling a buffer with `n` values from memory (src/core/Send.cpp:124-136,
src/core/CollectBase.cpp:203-216, src/core/Halo.inl:101-108).  Which values is the
subject of other files; here they are the first ones. -/
def pack (P : Platform) (t : CType) : Nat → List Byte → Option (List Int)
  | 0, _ => some []
  | n + 1, mem =>
    if P.size t ≤ mem.length then do
      let v ← readValue P t (mem.take (P.size t))
      let w ← convert P t (mpiConvert t) v
      let r ← pack P t n (mem.drop (P.size t))
      some (w :: r)
    else none

/-- Emptying a buffer into memory (src/core/Recv.cpp:59-70,
src/core/CollectBase.cpp:232-238, src/core/Halo.inl:149-158).  A collect of values
that need no conversion receives in place (src/core/CollectBase.cpp:186-190). -/
def unpack (P : Platform) (t : CType) : List Int → List Byte → Option (List Byte)
  | [], mem => some mem
  | w :: r, mem =>
    if P.size t ≤ mem.length then do
      let v ← convert P (mpiConvert t) t w
      let m ← unpack P t r (mem.drop (P.size t))
      some (writeValue P t v ++ m)
    else none

/-- `n` values of element type `s` go through MPI into memory for element type `d`.
The types of the messages are those of the converted values
(`GetMPIDataType<mpi_value_type>()`, src/core/Send.cpp:115, src/core/Recv.cpp:143,
src/core/CollectBase.cpp:179, src/core/Halo.inl:89). -/
def through (P : Platform) (s d : CType) (n : Nat) (src dst : List Byte) :
    Option (List Byte) := do
  let b ← pack P s n src
  if mpiType (mpiConvert s) = mpiType (mpiConvert d) then unpack P d b dst else none

/-- A send created for data type `s` with a receive created for data type `d`
(src/core/Send.cpp:178-221, src/core/Recv.cpp:184-227). -/
def transmit (P : Platform) (s d : DataType) (n : Nat) (src dst : List Byte) :
    Option (List Byte) := do
  let i ← send s
  let j ← recv d
  through P i.elem j.elem n src dst

end Ovk.DataTypes
