import Verif.Model.Outcome

/-!
# Logging (src/Logger.cpp, OpenANN/io/Logger.h)

The content of a message (time stamp, name space, text) is an abstract text.  Streams are numbered, 0 is `std::cout`.
-/

namespace Verif.Logging

open Outcome

/-- OpenANN/io/Logger.h lines 90-96, `Log::LogLevel` -/
inductive Level where
  | disabled | error | info | debug
  deriving DecidableEq, Repr

/-- The numbers of the enumeration. -/
def Level.num : Level → Nat
  | .disabled => 0
  | .error => 1
  | .info => 2
  | .debug => 3

/-- A line written to a stream. -/
structure Line where
  stream : Nat
  level : Level
  text : String
  deriving DecidableEq, Repr

/-- The static variables of `Log` (src/Logger.cpp lines 72, 116-120) and what the streams have received. -/
structure Global where
  level : Level := .debug
  stream : Nat := 0
  out : List Line := []

/-- What a program can do with the global log. -/
inductive Event where
  | setLevel (l : Level)
  | setStream (s : Nat)
  | log (l : Level) (text : String)
  deriving DecidableEq, Repr

/-- src/Logger.cpp lines 74-103 with the end of the temporary object: `Log().get(level, ...) << text`.  The level is checked, the
destructor writes the message to the stream of the class. -/
def emit (g : Global) (l : Level) (text : String) : Outcome Global := do
  check (l ≠ .disabled)
  ok { g with out := g.out ++ [⟨g.stream, l, text⟩] }

/-- One event; `compiled` is the value of `OPENANN_LOGLEVEL`.  OpenANN/io/Logger.h lines 40-43 (`OPENANN_LOG`), src/Logger.cpp lines
106-109 (`setStream`), 122-140 (`setDisabled`, `setError`, `setInfo`, `setDebug`). -/
def step (compiled : Level) (g : Global) : Event → Outcome Global
  | .setLevel l => ok { g with level := l }
  | .setStream s => ok { g with stream := s }
  | .log l text =>
    if l.num > compiled.num then ok g
    else if l.num > g.level.num then ok g
    else emit g l text

/-- A history of events. -/
def run (compiled : Level) : Global → List Event → Outcome Global
  | g, [] => ok g
  | g, e :: es => step compiled g e >>= fun g' => run compiled g' es

/-- OpenANN/io/Logger.h lines 133-139, `Logger::Target` -/
inductive Target where
  | none | console | file | appendFile
  deriving DecidableEq, Repr

/-- The static flag `Logger::deactivate` (src/Logger.cpp line 17), the targets of the existing loggers and what was written by which
logger. -/
structure Loggers where
  deactivate : Bool := false
  targets : List Target := []
  out : List (Nat × String) := []

/-- What a program can do with loggers; `opens` tells whether the file of a new logger can be opened. -/
inductive Action where
  | setDeactivate (b : Bool)
  | construct (t : Target) (opens : Bool)
  | write (logger : Nat) (text : String)
  deriving DecidableEq, Repr

/-- src/Logger.cpp lines 19-41, the constructor. -/
def construct (s : Loggers) (t : Target) (opens : Bool) : Outcome Loggers :=
  if s.deactivate then ok { s with targets := s.targets ++ [.none] }
  else if t = .file ∨ t = .appendFile then do
    check (opens = true)
    ok { s with targets := s.targets ++ [t] }
  else ok { s with targets := s.targets ++ [t] }

/-- src/Logger.cpp lines 49-52, `isActive`. -/
def isActive (s : Loggers) (i : Nat) : Outcome Bool := do
  let t ← Outcome.read s.targets i
  ok (decide (t ≠ .none) && !s.deactivate)

/-- OpenANN/io/Logger.h lines 156-172 and src/Logger.cpp lines 54-70, `operator<<`. -/
def write (s : Loggers) (i : Nat) (text : String) : Outcome Loggers := do
  let t ← Outcome.read s.targets i
  match t with
  | .console => ok { s with out := s.out ++ [(i, text)] }
  | .appendFile => ok { s with out := s.out ++ [(i, text)] }
  | .file => ok { s with out := s.out ++ [(i, text)] }
  | .none => ok s

/-- One action; `deactivate` is a public variable. -/
def act (s : Loggers) : Action → Outcome Loggers
  | .setDeactivate b => ok { s with deactivate := b }
  | .construct t opens => construct s t opens
  | .write i text => write s i text

/-- A history of actions. -/
def runLoggers : Loggers → List Action → Outcome Loggers
  | s, [] => ok s
  | s, a :: as => act s a >>= fun s' => runLoggers s' as

end Verif.Logging
