import Verif.Model.Loop
import Verif.Model.MBSGD

/-!
# Evolution strategy with restarts (src/IPOPCMAES.cpp)

The sampling core (the external library CMA-ESpp) is arbitrary: `sample` gives the population of the current distribution,
`update` the distribution after the fitness values of a generation, `testForTermination` the internal criteria.  What is assumed
of it: a population has as many individuals as the configured population size, and `XBestEver`/`FBestEver` are the best of the
individuals that were reported to this instance (a huge number as long as none was reported).
-/

namespace Verif.ES

open Verif.Opt

noncomputable section

/-- The external library. -/
structure Core where
  State : Type
  /-- `cmaes->init` for the `r`-th start with the population size and the start point -/
  start : ℕ → ℕ → Vec → State
  sample : State → ℕ → Vec
  update : State → List ℝ → State
  testForTermination : State → Bool

/-- `std::numeric_limits<double>::max()` -/
def big : ℝ := 2 ^ 1024 - 2 ^ 971

/-- The criteria that are used by `IPOPCMAES` itself (the others are passed to the core). -/
structure Stop where
  maximalFunctionEvaluations : ℤ := -1
  maximalRestarts : ℤ := 0
  minimalValue : ℝ := -big

/-- Members of `CMAES<double>` that are used. -/
structure Cma (C : Core) where
  state : C.State
  popSize : ℕ
  countevals : ℕ
  /-- individuals that were reported to this instance, with their fitness -/
  reported : List (Vec × ℝ)

/-- OpenANN/optimization/IPOPCMAES.h lines 45-64.  The last five members are records: `evaluated` are the individuals that were
evaluated by `optimize`, `errorCalls` counts all calls of `opt->error()`, `generations` are the calls of `updateDistribution` of
all instances (population and fitness values), `starts` the population sizes of the instances, `finished` the calls of
`opt->finishedIteration()`. -/
structure Es (C : Core) where
  stop : Stop
  cmaes : Option (Cma C)
  /-- `parameters->lambda` after `parameters->init` -/
  lambda : ℕ
  currentIndividual : ℕ
  /-- `none`: not sampled by the current instance (null or freed together with the old instance) -/
  population : Option (ℕ → Vec)
  fitnessValues : List ℝ
  restarts : ℤ
  evaluations : ℕ
  evaluationsAfterRestart : ℕ
  optimum : Option Vec
  optimumValue : ℝ
  evaluated : List (Vec × ℝ)
  errorCalls : ℕ
  generations : List (List (Vec × ℝ))
  starts : List ℕ
  finished : ℕ

/-- lines 9-27; `lambda` is the population size that the core chooses at the first `init` -/
def Es.new (C : Core) (stop : Stop) (lambda : ℕ) : Es C where
  stop := stop
  cmaes := none
  lambda := lambda
  currentIndividual := 0
  population := none
  fitnessValues := []
  restarts := -1
  evaluations := 0
  evaluationsAfterRestart := 0
  optimum := none
  optimumValue := big
  evaluated := []
  errorCalls := 0
  generations := []
  starts := []
  finished := 0

variable {C : Core}

/-- lines 95-99 -/
def Es.countOld (s : Es C) : ℕ := (s.cmaes.map Cma.countevals).getD s.evaluations

/-- lines 111-112 -/
def Es.nextLambda (s : Es C) : ℕ := if 0 < s.restarts + 1 then 2 * s.lambda else s.lambda

/-- lines 94-131: the state after a restart; `x0` is the start point (lines 114-124) -/
def Es.restarted (s : Es C) (x0 : Vec) : Es C :=
  { s with
    restarts := s.restarts + 1
    evaluations := s.countOld
    lambda := s.nextLambda
    cmaes := some ⟨C.start (s.restarts + 1).toNat s.nextLambda x0, s.nextLambda, s.countOld, []⟩
    population := none
    fitnessValues := List.replicate s.nextLambda 0
    evaluationsAfterRestart := 0
    starts := s.starts ++ [s.nextLambda] }

/-- lines 86-134 -/
def Es.restart (s : Es C) (x0 : Vec) : Bool × Es C :=
  if s.stop.maximalRestarts < s.restarts + 1 then (false, { s with restarts := s.restarts + 1 })
  else (true, s.restarted x0)

/-- lines 171-188 -/
def Es.getNext (s : Es C) : Outcome (Vec × Es C) :=
  match s.cmaes with
  | none => .checkFailed
  | some c =>
    if s.currentIndividual < c.popSize then
      if s.currentIndividual = 0 then .ok (C.sample c.state 0, { s with population := some (C.sample c.state) })
      else match s.population with
        | none => .ub
        | some p => .ok (p s.currentIndividual, s)
    else .checkFailed

/-- lines 208-213: the end of a generation -/
def Es.endGeneration (s : Es C) (c : Cma C) (gen : List (Vec × ℝ)) : Es C :=
  { s with
    cmaes := some { c with
      state := C.update c.state s.fitnessValues
      countevals := c.countevals + c.popSize
      reported := c.reported ++ gen }
    currentIndividual := 0
    generations := s.generations ++ [gen]
    finished := s.finished + 1 }

/-- The individuals of the population with their fitness values. -/
def Es.generation (s : Es C) (c : Cma C) : List (Vec × ℝ) :=
  (List.range c.popSize).map fun i => ((s.population.getD (C.sample c.state)) i, s.fitnessValues.getD i 0)

/-- lines 205-206 -/
def Es.store (s : Es C) (fitness : ℝ) : Es C :=
  { s with
    fitnessValues := s.fitnessValues.set s.currentIndividual fitness
    currentIndividual := s.currentIndividual + 1
    evaluationsAfterRestart := s.evaluationsAfterRestart + 1 }

/-- lines 190-214 -/
def Es.setError (s : Es C) (fitness : ℝ) : Outcome (Es C) :=
  match s.cmaes with
  | none => .checkFailed
  | some c =>
    if s.currentIndividual < c.popSize then
      if s.currentIndividual + 1 = c.popSize then
        .ok ((s.store fitness).endGeneration c ((s.store fitness).generation c))
      else .ok (s.store fitness)
    else .checkFailed

/-- lines 221-225 -/
def Es.terminated (s : Es C) (c : Cma C) : Bool :=
  decide (s.currentIndividual = 0) && (C.testForTermination c.state ||
    (decide (s.stop.maximalFunctionEvaluations ≠ -1) &&
      decide (s.stop.maximalFunctionEvaluations ≤ s.evaluationsAfterRestart)))

/-- lines 146-149: one individual; `err` is the objective -/
def Es.individual (err : Vec → ℝ) (s : Es C) : Outcome (Es C) := do
  let r ← s.getNext
  let s' ← r.2.setError (err r.1)
  pure { s' with evaluated := s'.evaluated ++ [(r.1, err r.1)], errorCalls := s'.errorCalls + 1 }

/-- lines 142-151: the inner loop, limited to `fuel` generations -/
def Es.runCore (err : Vec → ℝ) : ℕ → Es C → Outcome (Option (Es C))
  | 0, _ => .ok none
  | fuel + 1, s =>
    match s.cmaes with
    | none => .ub
    | some c =>
      if s.terminated c then .ok (some s)
      else do
        let s' ← forLoop c.popSize (fun _ => Es.individual err) s
        Es.runCore err fuel s'

/-- Best of a list of individuals (the first one with the smallest fitness). -/
def best : List (Vec × ℝ) → Option (Vec × ℝ)
  | [] => none
  | a :: l => match best l with
    | none => some a
    | some b => if b.2 < a.2 then some b else some a

/-- `FBestEver` -/
def fBest (c : Cma C) : ℝ := match best c.reported with
  | none => big
  | some b => b.2

/-- lines 153-164 -/
def Es.takeBest (err : Vec → ℝ) (s : Es C) (c : Cma C) : Es C :=
  match best c.reported with
  | none => s
  | some b =>
    if b.2 < s.optimumValue then
      { s with optimum := some b.1, optimumValue := err b.1, errorCalls := s.errorCalls + 1 }
    else s

/-- lines 153-167 for the state after the inner loop: state and whether the loop is left -/
def Es.endRun (err : Vec → ℝ) (s : Es C) : Bool × Es C :=
  match s.cmaes with
  | none => (true, s)
  | some c => (decide (fBest c < s.stop.minimalValue), s.takeBest err c)

/-- lines 136-169; `x0 r` is the start point of the `r`-th start -/
def Es.optimize (err : Vec → ℝ) (x0 : ℕ → Vec) (fuel : ℕ) : ℕ → Es C → Outcome (Option (Es C))
  | 0, _ => .ok none
  | starts + 1, s =>
    if (s.restart (x0 (s.restarts + 1).toNat)).1 then do
      let r ← Es.runCore err fuel (s.restart (x0 (s.restarts + 1).toNat)).2
      match r with
      | none => .ok none
      | some s' =>
        if (s'.endRun err).1 then .ok (some (s'.endRun err).2)
        else Es.optimize err x0 fuel starts (s'.endRun err).2
    else .ok (some (s.restart (x0 (s.restarts + 1).toNat)).2)

/-- lines 227-234: what `result` returns (`none`: an empty vector) -/
def Es.result (s : Es C) : Outcome (Option Vec) :=
  match s.cmaes with
  | none => .checkFailed
  | some _ => .ok s.optimum

end

end Verif.ES
