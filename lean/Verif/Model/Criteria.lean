import Verif.Model.CMAES
import Verif.Model.Alglib

/-!
# Setting stopping criteria more than once (src/IPOPCMAES.cpp lines 58-84 and 221-225)

The other optimisers assign the criteria to a member (src/MBSGD.cpp lines 53-56, src/LBFGS.cpp lines 18-21, src/CG.cpp lines
30-33, src/LMA.cpp lines 29-32).  `IPOPCMAES` also translates them to parameters of the external library at once.  The library
is arbitrary: a function of the parameters that were set; `none` stands for a parameter that was never set.
-/

namespace Verif.Criteria

open Verif.Alglib (Stop)

noncomputable section

/-- The members of `Parameters<double>` that `setStopCriteria` writes; `stopFitness` is `stStopFitness.val` when
`stStopFitness.flg` is set. -/
@[ext] structure Params where
  stopMaxIter : Option ℤ := none
  stopFitness : Option ℝ := none
  stopTolFun : Option ℝ := none
  stopTolX : Option ℝ := none

/-- The members of `IPOPCMAES` that hold criteria (OpenANN/optimization/IPOPCMAES.h lines 45-64). -/
@[ext] structure Config where
  stop : Stop
  maxFunEvalsActive : Bool
  parameters : Params

/-- src/IPOPCMAES.cpp lines 9-14: the constructor; `stop` has the default values (src/StoppingCriteria.cpp lines 9-17) -/
def Config.new (default : Stop) : Config := ⟨default, false, {}⟩

open Classical in
/-- src/IPOPCMAES.cpp lines 62-83 -/
def Config.assign (default : Stop) (c : Config) (s : Stop) : Config where
  stop := s
  maxFunEvalsActive :=
    if s.maximalFunctionEvaluations ≠ default.maximalFunctionEvaluations then true else c.maxFunEvalsActive
  parameters :=
    { stopMaxIter :=
        if s.maximalIterations ≠ default.maximalIterations then some s.maximalIterations else c.parameters.stopMaxIter
      stopFitness := if s.minimalValue ≠ default.minimalValue then some s.minimalValue else c.parameters.stopFitness
      stopTolFun :=
        if s.minimalValueDifferences ≠ default.minimalValueDifferences then some s.minimalValueDifferences
        else c.parameters.stopTolFun
      stopTolX :=
        if s.minimalSearchSpaceStep ≠ default.minimalSearchSpaceStep then some s.minimalSearchSpaceStep
        else c.parameters.stopTolX }

/-- src/IPOPCMAES.cpp lines 58-84; `checks`: the library was compiled with its checks (OpenANN/util/AssertionMacros.h),
`started`: `cmaes` is not null. -/
def Config.set (checks started : Bool) (default : Stop) (c : Config) (s : Stop) : Outcome Config :=
  if checks && started then .checkFailed else .ok (c.assign default s)

/-- src/IPOPCMAES.cpp lines 221-225; `test` is the answer of `cmaes->testForTermination()` -/
def Config.terminated (c : Config) (test : Bool) (currentIndividual evaluationsAfterRestart : ℕ) : Bool :=
  decide (currentIndividual = 0) &&
    (test || (c.maxFunEvalsActive && decide (c.stop.maximalFunctionEvaluations ≤ evaluationsAfterRestart)))

/-- The criteria in the form of Model/CMAES.lean, where -1 stands for a limit that is not active; a negative limit that is
active is reached at once, like 0 (`terminated_effective` in Props/Criteria.lean). -/
def Config.effective (c : Config) : ES.Stop where
  maximalFunctionEvaluations := if c.maxFunEvalsActive then max c.stop.maximalFunctionEvaluations 0 else -1
  maximalRestarts := c.stop.maximalRestarts
  minimalValue := c.stop.minimalValue

/-- An optimiser that has not been used, after these criteria were set one after the other. -/
def configured (default : Stop) (history : List Stop) : Config := history.foldl (Config.assign default) (Config.new default)

/-- The optimiser with a library `L` that was configured in this way; `lambda` as in `ES.Es.new`. -/
def strategy (L : Params → ES.Core) (c : Config) (lambda : ℕ) : ES.Es (L c.parameters) :=
  ES.Es.new (L c.parameters) c.effective lambda

end

end Verif.Criteria
