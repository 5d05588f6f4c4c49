import Mathlib.Data.Int.Notation
import Mathlib.Data.List.Basic

/-!
# Interrupt observers (src/StoppingInterrupt.cpp)

The static members and the handler of SIGINT form the state of the process.  A signal may arrive between any two statements of
the constructor and the destructor.  As on POSIX systems with BSD semantics the handler stays installed after a signal.
-/

namespace Verif.Interrupt

/-- lines 9-10 and the handler of SIGINT (`handler`: the one of `StoppingInterrupt`, otherwise `SIG_DFL`) -/
structure State where
  flag : Bool
  observers : ℤ
  handler : Bool
  deriving DecidableEq

/-- Start of the process. -/
def State.initial : State := ⟨false, 0, false⟩

/-- What can happen to the process. -/
inductive Res where
  | running (s : State)
  /-- a failed `OPENANN_CHECK` -/
  | aborted
  /-- the default action of SIGINT -/
  | killed
  deriving DecidableEq

def Res.bind (r : Res) (f : State → Res) : Res :=
  match r with
  | .running s => f s
  | .aborted => .aborted
  | .killed => .killed

/-- Statements of the program and signals.  The arguments of `construct` and `destroy` tell whether a signal arrives inside of
the function (at the two places where it makes a difference). -/
inductive Ev where
  | construct (a b : Bool)
  | destroy (a b : Bool)
  /-- the implicit copy constructor -/
  | copy
  | query
  | signal
  deriving DecidableEq

/-- lines 35-38, or the default action -/
def raise (s : State) : Res := if s.handler then .running { s with flag := true } else .killed

def raiseIf (b : Bool) (s : State) : Res := if b then raise s else .running s

/-- lines 17-18 -/
def install (s : State) : State := if s.observers = 0 then { s with handler := true } else s

/-- line 29 -/
def restore (s : State) : State := if s.observers = 0 then { s with handler := false } else s

/-- line 30 -/
def clear (s : State) : State := if s.observers = 0 then { s with flag := false } else s

/-- lines 13-21; `a`: a signal between lines 15 and 17, `b`: between lines 18 and 20.  `debug`: not compiled with NDEBUG. -/
def construct (debug a b : Bool) (s : State) : Res :=
  if debug && s.flag then .aborted
  else (raiseIf a s).bind fun s1 => (raiseIf b (install s1)).bind fun s2 =>
    .running { s2 with observers := s2.observers + 1 }

/-- lines 23-32; `a`: a signal between lines 25 and 29, `b`: between lines 29 and 30 -/
def destroy (a b : Bool) (s : State) : Res :=
  (raiseIf a { s with observers := s.observers - 1 }).bind fun s1 =>
    (raiseIf b (restore s1)).bind fun s2 => .running (clear s2)

/-- lines 41-45 -/
def isSignaled (debug : Bool) (s : State) : Option Bool :=
  if debug && !decide (0 < s.observers) then none else some s.flag

def step (debug : Bool) (s : State) : Ev → Res
  | .construct a b => construct debug a b s
  | .destroy a b => destroy a b s
  | .copy => .running s
  | .query => if (isSignaled debug s).isSome then .running s else .aborted
  | .signal => raise s

/-- A history of the process. -/
def run (debug : Bool) : List Ev → State → Res
  | [], s => .running s
  | e :: t, s => (step debug s e).bind (run debug t)

end Verif.Interrupt
