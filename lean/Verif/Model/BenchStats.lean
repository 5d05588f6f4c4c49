import Verif.Model.Outcome
import Mathlib.Analysis.SpecialFunctions.Pow.Real

/-!
# What the benchmark programs report about their runs

benchmarks/twospirals/twospirals.cpp, benchmarks/polebalancing/polebalancing.cpp, benchmarks/p300speller/p300.cpp and the stopwatch
they use (OpenANN/util/Stopwatch.h).  Training is left out: a run is given by what the programs look at afterwards - the outputs
for the test set, the lengths of the episodes, the numbers of correct symbols and the time that passed.  Numbers are real;
`int` does not overflow.
-/

namespace Verif.BenchStats

noncomputable section

/-- OpenANN/util/Stopwatch.h line 18: the units of `stop` -/
inductive Precision where
  | microsecond | millisecond | hundredths | tenths | seconds

/-- OpenANN/util/Stopwatch.h lines 45-62: `stop(Precision)` after `micros` microseconds; divisions of unsigned integers -/
def stopwatch (micros : ℕ) : Precision → ℕ
  | .seconds => micros / 1000000
  | .tenths => micros / 100000
  | .hundredths => micros / 10000
  | .millisecond => micros / 1000
  | .microsecond => micros

/-! ## Two spirals -/

/-- benchmarks/twospirals/twospirals.cpp lines 76-86 -/
structure Result where
  fp : ℕ := 0
  tp : ℕ := 0
  fn : ℕ := 0
  tn : ℕ := 0
  correct : ℕ := 0
  wrong : ℕ := 0
  iterations : ℕ := 0
  accuracy : ℝ := 0

open Classical in
/-- benchmarks/twospirals/twospirals.cpp lines 172-179: one instance with output `p.1` and target `p.2` -/
def Result.count (r : Result) (p : ℝ × ℝ) : Result :=
  if 0 < p.1 ∧ 0 < p.2 then { r with tp := r.tp + 1 }
  else if 0 < p.1 ∧ p.2 < 0 then { r with fp := r.fp + 1 }
  else if p.1 < 0 ∧ 0 < p.2 then { r with fn := r.fn + 1 }
  else { r with tn := r.tn + 1 }

/-- lines 162-186: the outputs for the test set with the targets, and the iterations that the data set has counted -/
def evaluate (pairs : List (ℝ × ℝ)) (iterations : ℕ) : Result :=
  let r := pairs.foldl Result.count {}
  { r with
    correct := r.tn + r.tp
    wrong := r.fn + r.fp
    accuracy := ((r.tn + r.tp : ℕ) : ℝ) / (pairs.length : ℝ)
    iterations := iterations }

/-- Eigen `mean()` -/
def mean (v : List ℝ) : ℝ := v.sum / (v.length : ℝ)

/-- Eigen `minCoeff()`; the vector must not be empty -/
def minCoeff : List ℝ → ℝ
  | [] => 0
  | a :: l => l.foldl min a

/-- Eigen `maxCoeff()`; the vector must not be empty -/
def maxCoeff : List ℝ → ℝ
  | [] => 0
  | a :: l => l.foldl max a

/-- A column of the table. -/
structure Column where
  mean : ℝ
  stdDev : ℝ
  min : ℝ
  max : ℝ

/-- lines 197-225 for one of the three vectors -/
def column (v : List ℝ) : Column where
  mean := mean v
  stdDev := Real.sqrt (mean ((v.map fun x => x - mean v).map fun x => |x|))
  min := minCoeff v
  max := maxCoeff v

/-- The numbers that lines 226-234 print, before rounding. -/
structure Report where
  correct : Column
  accuracy : Column
  iterations : Column
  time : ℕ

/-- lines 191-235; line 229 converts the mean time to `int` -/
def logResults (results : List Result) (time : ℕ) : Report where
  correct := column (results.map fun r => (r.correct : ℝ))
  accuracy := column (results.map fun r => r.accuracy)
  iterations := column (results.map fun r => (r.iterations : ℝ))
  time := ⌊(time : ℝ) / (results.length : ℝ)⌋₊

/-- One run: outputs and targets of the test set, iterations, microseconds between `sw.start()` and `sw.stop`. -/
structure SpiralRun where
  pairs : List (ℝ × ℝ)
  iterations : ℕ
  micros : ℕ

/-- lines 254-272: the runs of one architecture -/
def spirals (runs : List SpiralRun) : Report :=
  logResults (runs.map fun r => evaluate r.pairs r.iterations) (runs.map fun r => stopwatch r.micros .millisecond).sum

/-! ## Pole balancing -/

/-- benchmarks/polebalancing/polebalancing.cpp lines 124-129; `none`: `episodes` has an indeterminate value -/
structure PoleRun where
  success : Bool
  episodes : Option ℕ
  time : ℕ

/-- lines 152-163: the loop from episode `i` on, with `n` episodes left; `steps i` is the length of the `i`-th episode -/
def search (required : ℕ) (steps : ℕ → ℕ) : ℕ → ℕ → Option ℕ
  | 0, _ => none
  | n + 1, i => if required ≤ steps i then some i else search required steps n (i + 1)

/-- lines 143-167 -/
def singleRun (maximalEpisodes required : ℕ) (steps : ℕ → ℕ) (micros : ℕ) : PoleRun where
  success := (search required steps maximalEpisodes 1).isSome
  episodes := search required steps maximalEpisodes 1
  time := stopwatch micros .millisecond

/-- lines 131-141 -/
structure PoleResults where
  runs : ℕ
  failures : ℕ
  median : ℕ
  min : ℕ
  max : ℕ
  mean : ℝ
  stdDev : ℝ
  time : ℝ

/-- What lines 184-197 collect: failures, episodes, sum of the times. -/
structure Collected where
  failures : ℕ := 0
  episodes : List ℕ := []
  time : ℕ := 0

/-- lines 186-196: one run -/
def Collected.add (c : Collected) (r : PoleRun) : Outcome Collected :=
  match r.episodes with
  | none => .ub
  | some e => .ok
    { failures := if r.success then c.failures else c.failures + 1
      episodes := c.episodes ++ [e]
      time := c.time + r.time }

/-- `std::min_element` and `std::max_element` of a vector that is not empty -/
def minElement (a : ℕ) (l : List ℕ) : ℕ := l.foldl min a
def maxElement (a : ℕ) (l : List ℕ) : ℕ := l.foldl max a

/-- lines 199-210.  `results.mean` is the sum of the numbers of episodes until line 199. -/
def Collected.finish (c : Collected) (runs : ℕ) : Outcome PoleResults :=
  match c.episodes with
  | [] => .ub
  | a :: l =>
    let m : ℝ := ((a :: l).map fun (e : ℕ) => (e : ℝ)).sum / (runs : ℝ)
    let sorted := (a :: l).mergeSort (fun a b => decide (a ≤ b))
    .ok
      { runs := runs
        failures := c.failures
        median := sorted.getD ((a :: l).length / 2) 0
        min := minElement a l
        max := maxElement a l
        mean := m
        stdDev := Real.sqrt ((sorted.map fun (e : ℕ) => ((e : ℝ) - m) * ((e : ℝ) - m)).sum / (runs : ℝ))
        time := (c.time : ℝ) / (runs : ℝ) }

/-- lines 169-214 -/
def configuration (runs : List PoleRun) : Outcome PoleResults := do
  let c ← runs.foldlM Collected.add {}
  c.finish runs.length

/-! ## P300 speller -/

/-- benchmarks/p300speller/p300.cpp lines 80-93 -/
structure Sums where
  duration : ℝ := 0
  iterations : ℝ := 0
  correct5 : ℝ := 0
  correct15 : ℝ := 0

/-- One run: microseconds of the training, iterations, correct symbols with 5 and 15 trials. -/
structure SpellerRun where
  micros : ℕ
  iterations : ℕ
  correct5 : ℕ
  correct15 : ℕ

/-- lines 123-128 -/
def Sums.add (s : Sums) (r : SpellerRun) : Sums where
  duration := s.duration + (stopwatch r.micros .seconds : ℝ)
  iterations := s.iterations + r.iterations
  correct5 := s.correct5 + r.correct5
  correct15 := s.correct15 + r.correct15

/-- lines 95-132 -/
def runTest (s : Sums) (runs : List SpellerRun) : Sums := runs.foldl Sums.add s

/-- lines 134-143: what is printed, before rounding, and `result` afterwards -/
def printResult (s : Sums) (runs : ℕ) : Sums × Sums :=
  (⟨s.duration / (runs : ℝ), s.iterations / (runs : ℝ), s.correct5 / (runs : ℝ), s.correct15 / (runs : ℝ)⟩, {})

/-- lines 175-192: the configurations one after the other, each with the runs for the data sets A and B -/
def speller (runs : ℕ) : Sums → List (List SpellerRun × List SpellerRun) → List Sums
  | _, [] => []
  | s, c :: l =>
    let r := printResult (runTest (runTest s c.1) c.2) (2 * runs)
    r.1 :: speller runs r.2 l

end

end Verif.BenchStats
