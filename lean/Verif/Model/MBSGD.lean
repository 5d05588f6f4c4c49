import Verif.Model.Outcome
import Mathlib.Analysis.SpecialFunctions.Pow.Real
import Mathlib.Algebra.BigOperators.Group.Finset.Basic

/-!
# Mini-batch stochastic gradient descent (src/MBSGD.cpp)

Numbers are real.  The checks for NaN and infinity (`OPENANN_CHECK_MATRIX_BROKEN`, `OPENANN_CHECK_INF_AND_NAN`) therefore never
fail and are left out.  Vectors are functions; entries at and above the dimension have no meaning.

The optimised object is arbitrary: error and gradient are given by a function of the number of earlier evaluations (so that
objectives with random parts like dropout are covered), the current parameters and the indices of the mini-batch.

The random generator is the sequence of the shuffles that it will make.  Iterators are offsets; `endN` is only used after it was
limited to the end of the vector (lines 93-94, 136-137).
-/

namespace Verif.Opt

open Finset

noncomputable section

abbrev Vec := ℕ → ℝ

/-- What the optimised object sees. -/
inductive Event where
  /-- `errorGradient` for a mini-batch, with the parameters that the object holds at that time -/
  | evaluate (at_ : Vec) (batch : List ℕ)
  /-- `finishedIteration`, with the parameters that the object holds at that time -/
  | finished (at_ : Vec)

/-- An optimisation problem (OpenANN/optimization/Optimizable.h). -/
structure Problem where
  dimension : ℕ
  examples : ℕ
  /-- value and gradient at the `k`-th evaluation -/
  errorGradient : ℕ → Vec → List ℕ → ℝ × Vec

/-- The optimised object with the parameters it holds. -/
structure Obj where
  problem : Problem
  w : Vec
  calls : ℕ
  log : List Event

/-- OpenANN/optimization/StoppingCriteria.h, the two criteria that `MBSGD` uses; defaults in src/StoppingCriteria.cpp
lines 9-17. -/
structure Stop where
  maximalIterations : ℤ := -1
  minimalSearchSpaceStep : ℝ := 0

/-- OpenANN/optimization/MBSGD.h lines 117-150 -/
structure MBSGD where
  nesterov : Bool
  alpha : ℝ
  alphaDecay : ℝ
  minAlpha : ℝ
  eta : ℝ
  etaGain : ℝ
  maxEta : ℝ
  batchSize : ℕ
  minGain : ℝ
  maxGain : ℝ
  stop : Stop
  iteration : ℤ
  P : ℕ
  N : ℕ
  batches : ℕ
  gains : Vec
  parameters : Vec
  momentum : Vec
  accumulatedError : ℝ
  randomIndices : List ℕ
  /-- `rng`: the shuffles it will make -/
  rng : ℕ → List ℕ → List ℕ

/-- src/MBSGD.cpp lines 16-42: the constructor -/
def MBSGD.new (learningRate momentum : ℝ) (batchSize : ℤ) (nesterov : Bool) (learningRateDecay minimalLearningRate
    momentumGain maximalMomentum minGain maxGain : ℝ) (rng : ℕ → List ℕ → List ℕ) : Outcome MBSGD :=
  if learningRate ≤ 0 ∨ 1 < learningRate then .throws
  else if momentum < 0 ∨ 1 ≤ momentum then .throws
  else if batchSize < 1 then .throws
  else if learningRateDecay ≤ 0 ∨ 1 < learningRateDecay then .throws
  else if minimalLearningRate < 0 ∨ 1 < minimalLearningRate then .throws
  else if momentumGain < 0 ∨ 1 ≤ momentumGain then .throws
  else if maximalMomentum < 0 ∨ 1 < maximalMomentum then .throws
  else .ok
    { nesterov := nesterov, alpha := learningRate, alphaDecay := learningRateDecay, minAlpha := minimalLearningRate,
      eta := momentum, etaGain := momentumGain, maxEta := maximalMomentum, batchSize := batchSize.toNat,
      minGain := minGain, maxGain := maxGain, stop := {}, iteration := -1, P := 0, N := 0, batches := 0,
      gains := fun _ => 0, parameters := fun _ => 0, momentum := fun _ => 0, accumulatedError := 0,
      randomIndices := [], rng := rng }

/-- src/MBSGD.cpp line 24 -/
def MBSGD.useGain (o : MBSGD) : Prop := o.minGain ≠ 1 ∨ o.maxGain ≠ 1

/-- src/MBSGD.cpp lines 174-191 -/
def MBSGD.init (o : MBSGD) (obj : Obj) : MBSGD :=
  { o with
    P := obj.problem.dimension
    N := obj.problem.examples
    batches := max (obj.problem.examples / o.batchSize) 1
    gains := fun _ => 1
    parameters := obj.w
    momentum := fun _ => 0
    randomIndices := o.rng 0 (List.range obj.problem.examples)
    rng := fun k => o.rng (k + 1)
    iteration := 0 }

/-- The mini-batch `[startN, endN)` of iteration `b`: lines 91-94 and 134-137 -/
def batchOf (indices : List ℕ) (batchSize b : ℕ) : List ℕ := (indices.drop (b * batchSize)).take batchSize

/-- lines 110-114: the new gain of one parameter -/
def MBSGD.newGain (o : MBSGD) (momentum gradient gain : ℝ) : ℝ :=
  min o.maxGain (max o.minGain (if 0 ≤ momentum * gradient then gain + 0.05 else gain * 0.95))

open Classical in
/-- lines 106-117: gains after the evaluation of the gradient `g` -/
def MBSGD.newGains (o : MBSGD) (g : Vec) : Vec :=
  if o.useGain then fun p => o.newGain (o.momentum p) (g p) (o.gains p) else o.gains

open Classical in
/-- lines 106-117: the gradient after scaling -/
def MBSGD.scaled (o : MBSGD) (g : Vec) : Vec := if o.useGain then fun p => g p * o.newGains g p else g

/-- lines 98-99 -/
def MBSGD.lookAhead (o : MBSGD) (obj : Obj) : Obj :=
  if o.nesterov then { obj with w := fun p => o.parameters p + o.eta * o.momentum p } else obj

/-- lines 119-121: momentum and parameters, for the scaled gradient `g` -/
def MBSGD.move (o : MBSGD) (g : Vec) : MBSGD :=
  { o with
    momentum := fun p => o.eta * o.momentum p - o.alpha * g p
    parameters := fun p => o.parameters p + (o.eta * o.momentum p - o.alpha * g p) }

/-- lines 127-131 -/
def MBSGD.schedule (o : MBSGD) : MBSGD :=
  { o with alpha := max (o.alpha * o.alphaDecay) o.minAlpha, eta := min (o.eta + o.etaGain) o.maxEta }

/-- line 102 on the side of the optimised object -/
def Obj.evaluate (obj : Obj) (batch : List ℕ) : Obj :=
  { obj with calls := obj.calls + 1, log := obj.log ++ [.evaluate obj.w batch] }

/-- value and gradient of line 102 -/
def Obj.result (obj : Obj) (batch : List ℕ) : ℝ × Vec := obj.problem.errorGradient obj.calls obj.w batch

/-- lines 98-132: one mini-batch -/
def MBSGD.update (o : MBSGD) (obj : Obj) (batch : List ℕ) : MBSGD × Obj :=
  let obj1 := o.lookAhead obj
  let g := (obj1.result batch).2
  let o1 := MBSGD.schedule { o.move (o.scaled g) with
    gains := o.newGains g, accumulatedError := o.accumulatedError + (obj1.result batch).1 }
  (o1, if o.nesterov then obj1.evaluate batch else { obj1.evaluate batch with w := o1.parameters })

/-- lines 96-138: the first `b` mini-batches -/
def MBSGD.updates (o : MBSGD) (obj : Obj) : ℕ → MBSGD × Obj
  | 0 => (o, obj)
  | b + 1 => (o.updates obj b).1.update (o.updates obj b).2 (batchOf o.randomIndices o.batchSize b)

/-- lines 83-84 -/
def MBSGD.ready (o : MBSGD) (obj : Obj) : MBSGD := if o.iteration < 0 then o.init obj else o

/-- lines 89-90 -/
def MBSGD.reshuffle (o : MBSGD) : MBSGD :=
  { o with accumulatedError := 0, randomIndices := o.rng 0 o.randomIndices, rng := fun k => o.rng (k + 1) }

/-- `momentum.norm()` -/
def MBSGD.momentumNorm (o : MBSGD) : ℝ := Real.sqrt (∑ p ∈ range o.P, o.momentum p ^ 2)

/-- lines 144-149 -/
def MBSGD.run (o : MBSGD) : Prop :=
  (o.stop.maximalIterations = -1 ∨ o.iteration < o.stop.maximalIterations) ∧
  (o.stop.minimalSearchSpaceStep = 0 ∨ o.stop.minimalSearchSpaceStep ≤ o.momentumNorm)

/-- line 142 on the side of the optimised object -/
def Obj.finishedIteration (obj : Obj) : Obj := { obj with log := obj.log ++ [.finished obj.w] }

open Classical in
/-- lines 140-152 -/
def MBSGD.finish (o : MBSGD) : Bool × MBSGD :=
  if ({ o with iteration := o.iteration + 1 } : MBSGD).run then (true, { o with iteration := o.iteration + 1 })
  else (false, { o with iteration := -1 })

/-- lines 80-153.  A gradient of another size than the vectors of the optimiser is an assertion failure in Eigen. -/
def MBSGD.step (o : MBSGD) (obj : Obj) : Outcome (Bool × MBSGD × Obj) := do
  let o1 := o.ready obj
  Outcome.check (0 < o1.P)
  Outcome.check (0 < o1.N)
  Outcome.check (0 < o1.batches)
  Outcome.check (o1.randomIndices.length = o1.N)
  if obj.problem.dimension ≠ o1.P then .ub
  else
    let r := o1.reshuffle.updates obj o1.batches
    .ok (r.1.finish.1, r.1.finish.2, r.2.finishedIteration)

/-- lines 58-78: the loop of `optimize`, limited to `fuel` iterations (`none`: still running after `fuel` iterations).
`signaled k` is the answer of the `k`-th call of `interrupt.isSignaled()`. -/
def MBSGD.loop (signaled : ℕ → Bool) : ℕ → ℕ → MBSGD → Obj → Outcome (Option (MBSGD × Obj))
  | 0, _, _, _ => .ok none
  | fuel + 1, k, o, obj => do
    let r ← o.step obj
    if r.1 && !signaled k then MBSGD.loop signaled fuel (k + 1) r.2.1 r.2.2 else .ok (some (r.2.1, r.2.2))

def MBSGD.optimize (o : MBSGD) (signaled : ℕ → Bool) (fuel : ℕ) (obj : Obj) : Outcome (Option (MBSGD × Obj)) :=
  MBSGD.loop signaled fuel 0 o obj

/-- lines 155-159: `result` -/
def MBSGD.result (o : MBSGD) (obj : Obj) : Vec × Obj := (o.parameters, { obj with w := o.parameters })

/-- lines 53-56 -/
def MBSGD.setStopCriteria (o : MBSGD) (stop : Stop) : MBSGD := { o with stop := stop }

end

end Verif.Opt
