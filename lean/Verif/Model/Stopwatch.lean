import Verif.Model.BenchStats

/-!
# The stopwatch (OpenANN/util/Stopwatch.h) and the programs that measure with it

`unsigned long` has `w` bits (64 on 64-bit Linux, 32 on 32-bit systems); every operation on it is done modulo `2 ^ w`.  The system
clock is not modelled: every call comes with the answer of `gettimeofday`, which may be anything.
-/

namespace Verif.Stopwatch

open Verif.BenchStats (Precision)

/-- `timeval`: seconds and microseconds, as `gettimeofday` writes them (OpenANN/util/Stopwatch.h lines 13-14) -/
structure Timeval where
  sec : ℤ
  usec : ℤ

/-- conversion to an unsigned type of `w` bits -/
def wrap (w : ℕ) (x : ℤ) : ℤ := x % 2 ^ w

/-- OpenANN/util/Stopwatch.h lines 11-16, `getSystime`: conversion, product and sum of unsigned numbers -/
def systime (w : ℕ) (t : Timeval) : ℤ := wrap w (wrap w (wrap w t.sec * 1000000) + wrap w t.usec)

/-- OpenANN/util/Stopwatch.h line 8: the attributes `begin` and `duration` -/
structure Watch where
  started : ℤ
  duration : ℤ
deriving DecidableEq

/-- line 21: the constructor -/
def Watch.new (w : ℕ) (t : Timeval) : Watch := ⟨systime w t, 0⟩

/-- lines 23-27 -/
def Watch.start (w : ℕ) (s : Watch) (t : Timeval) : Watch := { s with started := systime w t }

/-- lines 34-38: `stop()`; the result is the new `duration` -/
def Watch.stop (w : ℕ) (s : Watch) (t : Timeval) : Watch := { s with duration := wrap w (systime w t - s.started) }

/-- lines 48-61: the divisions of `stop(Precision)`; the operands are not negative -/
def convert (d : ℤ) : Precision → ℤ
  | .seconds => d / 1000000
  | .tenths => d / 100000
  | .hundredths => d / 10000
  | .millisecond => d / 1000
  | .microsecond => d

/-- The calls of a program. -/
inductive Call where
  | start (t : Timeval)
  | stop (t : Timeval)
  | stopIn (p : Precision) (t : Timeval)
  | getDuration

/-- One call: the stopwatch afterwards and the answer.  `stop(Precision)` (line 47) has a local variable `duration`, the attribute is
set by `stop()`; `getDuration` is lines 68-71. -/
def Watch.call (w : ℕ) (s : Watch) : Call → Watch × Option ℤ
  | .start t => (s.start w t, none)
  | .stop t => (s.stop w t, some (s.stop w t).duration)
  | .stopIn p t => (s.stop w t, some (convert (s.stop w t).duration p))
  | .getDuration => (s, some s.duration)

/-- A history of calls. -/
def Watch.exec (w : ℕ) (s : Watch) (h : List Call) : Watch := h.foldl (fun s c => (s.call w c).1) s

/-! ## Programs -/

/-- benchmarks/twospirals/twospirals.cpp lines 256-266: `time` after the runs of an architecture; a run begins at the first and ends
at the second instant.  `time` is a `long unsigned`. -/
def spiralsTime (w : ℕ) : Watch → List (Timeval × Timeval) → ℤ → ℤ
  | _, [], time => time
  | s, r :: l, time =>
    let s' := (s.start w r.1).stop w r.2
    spiralsTime w s' l (wrap w (time + convert s'.duration .millisecond))

/-- benchmarks/p300speller/p300.cpp lines 123-125: every run has its own stopwatch; `duration` is a `double`, here an integer -/
def spellerTime (w : ℕ) (runs : List (Timeval × Timeval)) : ℤ :=
  (runs.map fun r => convert ((Watch.new w r.1).stop w r.2).duration .seconds).sum

/-- `MulticlassEvaluator` (src/Evaluator.cpp lines 10-17): the parts that determine when it reports and the time it reports.  The
interval is positive here (C49 and C131 say what other intervals do). -/
structure Evaluator where
  interval : ℕ
  iteration : ℕ
  watch : Watch

/-- src/Evaluator.cpp lines 10-17: the attribute is constructed at the first instant, `start()` is called at the second -/
def Evaluator.new (w interval : ℕ) (t t' : Timeval) : Evaluator := ⟨interval, 0, (Watch.new w t).start w t'⟩

/-- src/Evaluator.cpp lines 25-51: iteration and time (ms) of the report, if there is one -/
def Evaluator.evaluate (w : ℕ) (e : Evaluator) (t : Timeval) : Evaluator × Option (ℕ × ℤ) :=
  if (e.iteration + 1) % e.interval = 0 then
    ({ e with iteration := e.iteration + 1, watch := e.watch.stop w t },
      some (e.iteration + 1, convert (e.watch.stop w t).duration .millisecond))
  else ({ e with iteration := e.iteration + 1 }, none)

/-- The reports of a history of calls of `evaluate`. -/
def Evaluator.reports (w : ℕ) : Evaluator → List Timeval → List (ℕ × ℤ)
  | _, [] => []
  | e, t :: l =>
    match (e.evaluate w t).2 with
    | some r => r :: Evaluator.reports w (e.evaluate w t).1 l
    | none => Evaluator.reports w (e.evaluate w t).1 l

end Verif.Stopwatch
