/-
Model of `logger` and of its handles (src/core/Logger.hpp, Logger.inl): handles hold pointers to counters of a logger
and subtract what was added when they are reset, overwritten or destroyed.  Objects live at addresses that are not used
again; using an object that is gone is undefined (`none`).  Counters are unbounded.  The text of a message is what
`StringPrint` returns (C111).
-/
import Verif.Model.Text

namespace Ovk.Logging

/-- `logger` (Logger.hpp:133-147). -/
structure Logger where
  rank : Nat
  indicator : Bool := false
  errors : Bool := false
  warnings : Bool := false
  threshold : Int := 0
  level : Int := 1
  indent : Int := 0
  debug : Bool := false
  deriving DecidableEq

/-- The counter a handle points to: `StatusLevel_` or `StatusIndent_`. -/
inductive Field
  | level | indent
  deriving DecidableEq

/-- `increase_handle` (Logger.hpp:23-56): `ValuePtr_` as logger and counter, `Amount_`. -/
structure Inc where
  ptr : Option (Nat × Field) := none
  amount : Int := 0
  deriving DecidableEq

inductive Kind
  | error | warning | status | debug
  deriving DecidableEq

/-- What happens: a line written by a logger, an indicator synchronized (`others`: of some other process), a logger moved
to a new one or assigned to another. -/
inductive Event
  | line (logger : Nat) (kind : Kind) (text : List Char)
  | sync (logger : Nat) (others : Bool)
  | moved (src dst : Nat)
  deriving DecidableEq

/-- Loggers and handles by address, `none` when they are gone. -/
structure Mem where
  loggers : List (Option Logger)
  handles : List (Option Inc)
  events : List Event
  deriving DecidableEq

def Mem.start : Mem := ⟨[], [], []⟩

def Mem.logger (m : Mem) (a : Nat) : Option Logger := m.loggers[a]?.join
def Mem.handle (m : Mem) (h : Nat) : Option Inc := m.handles[h]?.join

def Mem.setLogger (m : Mem) (a : Nat) (L : Option Logger) : Mem := { m with loggers := m.loggers.set a L }
def Mem.setHandle (m : Mem) (h : Nat) (i : Option Inc) : Mem := { m with handles := m.handles.set h i }
def Mem.addHandle (m : Mem) (i : Inc) : Mem := { m with handles := m.handles ++ [some i] }
def Mem.note (m : Mem) (e : Event) : Mem := { m with events := m.events ++ [e] }

/-- A member function that changes the logger at `a`. -/
def Mem.modify (m : Mem) (a : Nat) (f : Logger → Logger) : Option Mem :=
  (m.logger a).map fun L => m.setLogger a (some (f L))

/-- Adds to a counter. -/
def Logger.add (L : Logger) (f : Field) (x : Int) : Logger :=
  match f with
  | .level => { L with level := L.level + x }
  | .indent => { L with indent := L.indent + x }

/-! ### Handles -/

/-- `~increase_handle` (Logger.hpp:35-39). -/
def release (m : Mem) (i : Inc) : Option Mem :=
  match i.ptr with
  | none => some m
  | some (a, f) => m.modify a fun L => L.add f (-i.amount)

/-- The default constructor. -/
def declare (m : Mem) : Mem := m.addHandle {}

/-- The move constructor (Logger.hpp:28-34). -/
def moveHandle (m : Mem) (g : Nat) : Option Mem :=
  (m.handle g).map fun i => (m.setHandle g (some {})).addHandle i

/-- `operator=(increase_handle Other)` (Logger.hpp:40-44), with `Other` holding `other` already: swapped, then `Other` is
destroyed. -/
def assignValue (m : Mem) (h : Nat) (other : Inc) : Option Mem :=
  (m.handle h).bind fun i => release (m.setHandle h (some other)) i

/-- `H = std::move(G)`: `Other` is constructed by moving. -/
def assignHandle (m : Mem) (h g : Nat) : Option Mem :=
  (m.handle g).bind fun i => assignValue (m.setHandle g (some {})) h i

/-- `Reset` (Logger.hpp:45-48). -/
def reset (m : Mem) (h : Nat) : Option Mem := assignValue m h {}

/-- A handle goes away. -/
def destroyHandle (m : Mem) (h : Nat) : Option Mem :=
  (m.handle h).bind fun i => (release m i).map fun m' => m'.setHandle h none

/-- `IncreaseStatusLevel`, `IndentStatus` (Logger.inl:109-123): the handle returned is a new object. -/
def increase (m : Mem) (a : Nat) (f : Field) (x : Int) : Option Mem :=
  (m.modify a fun L => L.add f x).map fun m' => m'.addHandle ⟨some (a, f), x⟩

/-- `IncreaseStatusLevelAndIndent` (Logger.inl:125-144): `LevelHandle_` and `IndentHandle_` are new objects. -/
def increaseBoth (m : Mem) (a : Nat) (x y : Int) : Option Mem :=
  (m.modify a fun L => (L.add .level x).add .indent y).map fun m' =>
    (m'.addHandle ⟨some (a, .level), x⟩).addHandle ⟨some (a, .indent), y⟩

/-! ### Loggers -/

/-- The move constructor and move assignment are defaulted (Logger.hpp:103-106): all members are copied. -/
def moveLogger (m : Mem) (a : Nat) : Option Mem :=
  (m.logger a).map fun L => { m with loggers := m.loggers ++ [some L] }.note (.moved a m.loggers.length)

def assignLogger (m : Mem) (b a : Nat) : Option Mem :=
  (m.logger a).bind fun L => (m.logger b).map fun _ => (m.setLogger b (some L)).note (.moved a b)

/-- `LoggingStatus` (Logger.hpp:122). -/
def Logger.loggingStatus (L : Logger) : Bool := decide (L.level ≤ L.threshold)

/-- Whether a message is written (Logger.inl:32, 62, 92, 165). -/
def Logger.writes (L : Logger) : Kind → Bool
  | .error => L.errors
  | .warning => L.warnings
  | .status => L.loggingStatus
  | .debug => L.debug

/-- The loop at Logger.inl:99. -/
def spaces : Nat → List Char
  | 0 => []
  | n + 1 => ' ' :: ' ' :: spaces n

/-- `Prefix` (Logger.inl:33, 63, 93-100, 166); `iIndent+1 < StatusIndent_` holds for the first `StatusIndent_-1`. -/
def Logger.prefix (L : Logger) : Kind → List Char
  | .error => "ovk :: [!] ERROR: ".toList
  | .warning => "ovk :: [!] WARNING: ".toList
  | .status => (if L.indicator then "ovk :: [!] " else "ovk :: [ ] ").toList ++ spaces (L.indent - 1).toNat ++
      if L.indent > 0 then "* ".toList else []
  | .debug => "ovk :: [&] ".toList

/-- `LogError`, `LogWarning`, `LogStatus`, `LogDebug` (Logger.inl:29-41, 59-71, 89-107, 162-175). -/
def log (m : Mem) (a : Nat) (k : Kind) (cond : Bool) (msg : List Char) : Option Mem :=
  (m.logger a).bind fun L =>
    if L.writes k && cond then
      (Text.replaceLoop "@rank@".toList (Text.formatNat L.rank) (msg.length + 1) msg).map fun s =>
        (m.setLogger a (some (match k with
          | .error | .warning => { L with indicator := true }
          | .status | .debug => L))).note (.line a k (L.prefix k ++ s))
    else some m

/-- `SyncIndicator` (Logger.inl:73-79); `others`: whether the indicator of another process is set. -/
def sync (m : Mem) (a : Nat) (others : Bool) : Option Mem :=
  (m.modify a fun L => { L with indicator := L.indicator || others }).map fun m' => m'.note (.sync a others)

inductive Act
  | newLogger (rank : Nat)
  | destroyLogger (a : Nat)
  | moveLogger (a : Nat)
  | assignLogger (b a : Nat)
  | enableErrors (a : Nat) (on : Bool)
  | enableWarnings (a : Nat) (on : Bool)
  | enableDebug (a : Nat) (on : Bool)
  | setThreshold (a : Nat) (t : Int)
  | sync (a : Nat) (others : Bool)
  | log (a : Nat) (k : Kind) (cond : Bool) (msg : List Char)
  | increase (a : Nat) (f : Field) (x : Int)
  | increaseBoth (a : Nat) (x y : Int)
  | declare
  | moveHandle (g : Nat)
  | assignHandle (h g : Nat)
  | reset (h : Nat)
  | destroyHandle (h : Nat)
  deriving DecidableEq

def step (m : Mem) : Act → Option Mem
  | .newLogger rank => some { m with loggers := m.loggers ++ [some { rank := rank }] }
  | .destroyLogger a => (m.logger a).map fun _ => m.setLogger a none
  | .moveLogger a => moveLogger m a
  | .assignLogger b a => assignLogger m b a
  | .enableErrors a on => m.modify a fun L => { L with errors := on }
  | .enableWarnings a on => m.modify a fun L => { L with warnings := on }
  | .enableDebug a on => m.modify a fun L => { L with debug := on }
  | .setThreshold a t => m.modify a fun L => { L with threshold := t }
  | .sync a others => sync m a others
  | .log a k cond msg => log m a k cond msg
  | .increase a f x => increase m a f x
  | .increaseBoth a x y => increaseBoth m a x y
  | .declare => some (declare m)
  | .moveHandle g => moveHandle m g
  | .assignHandle h g => assignHandle m h g
  | .reset h => reset m h
  | .destroyHandle h => destroyHandle m h

def run : List Act → Mem → Option Mem
  | [], m => some m
  | a :: as, m => (step m a).bind (run as)

/-! ### Sections -/

/-- How the library uses a logger: messages, and sections with a local handle (for example Domain.cpp:106-119), which may
end by an exception. -/
inductive Code
  | log (k : Kind) (cond : Bool) (msg : List Char)
  | sect (x y : Int) (body : Code)
  | seq (c d : Code)
  | skip
  | throw

/-- Executes code with the logger at `a`; the result tells whether an exception was thrown.  The local handle is destroyed
when the section is left: `IndentHandle_`, then `LevelHandle_`. -/
def exec (a : Nat) : Code → Mem → Option (Mem × Bool)
  | .log k cond msg, m => (log m a k cond msg).map fun m' => (m', false)
  | .sect x y body, m =>
    (increaseBoth m a x y).bind fun m1 =>
      (exec a body m1).bind fun r =>
        (destroyHandle r.1 (m.handles.length + 1)).bind fun m2 =>
          (destroyHandle m2 m.handles.length).map fun m3 => (m3, r.2)
  | .seq c d, m => (exec a c m).bind fun r => if r.2 then some r else exec a d r.1
  | .skip, m => some (m, false)
  | .throw, m => some (m, true)

end Ovk.Logging
