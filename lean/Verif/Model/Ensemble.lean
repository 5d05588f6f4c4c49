import Verif.Model.Evaluation
import Verif.Model.Sampling
import Verif.Model.Matrix
import Mathlib.Analysis.SpecialFunctions.Log.Basic

/-!
# Ensembles: AdaBoost and bagging

src/AdaBoost.cpp, src/Bagging.cpp.  Arithmetic on real numbers.  A learner that is added to an ensemble is represented by the result
of its training: a function from the indices of the resampled training set to its behaviour after the training.

The functions `addLearner`, `setOptimizer` and `train` of both classes are declared with a result but end without `return`, which is
undefined behaviour.  The model separates what their bodies do (`adaRounds`, `adaFinish`) from the functions themselves
(`adaTrain`).
-/

namespace Verif.Ens

open Outcome Verif.Eval

noncomputable section

/-- result of training a learner with the instances of the given indices -/
abbrev Trainable := List ℤ → Learner

/-- local variables of `AdaBoost::train`; `none` is a model weight that is not finite -/
structure Boost where
  weights : List ℝ
  indices : List ℤ
  modelWeights : List (Option ℝ)
  learners : List Learner

/-- src/AdaBoost.cpp:47 for a finite argument of the logarithm -/
def alpha (error : ℝ) : ℝ := 1 / 2 * Real.log ((1 - error) / (error + 1e-10))

/-- src/AdaBoost.cpp:47; the logarithm of zero is `-inf` -/
def modelWeight (error : ℝ) : Option ℝ := if error < 1 then some (alpha error) else none

/-- src/AdaBoost.cpp:34-36 -/
def adaStart (d : Data) : Outcome Boost := do
  let w := List.replicate d.samples (1 / (d.samples : ℝ))
  let idx ← Data.resample w d.samples (Data.deterministicP d.samples)
  ok ⟨w, idx, [], []⟩

/-- src/AdaBoost.cpp:52-54 -/
def reweight (d : Data) (learner : Learner) (a : ℝ) (n : ℕ) (w : List ℝ) : Outcome (List ℝ) := do
  let c ← correct learner d n
  let x ← Outcome.read w n
  Outcome.write w n (x * Real.exp ((if c then -1 else 1) * a))

/-- src/AdaBoost.cpp:38-58, one learner -/
def adaRound (d : Data) (s : Boost) (m : Trainable) : Outcome Boost := do
  let learner := m s.indices
  let acc ← weightedAccuracy learner d s.weights
  let error := 1 - acc
  check (0 ≤ error ∧ error ≤ 1)
  if error = 0 ∨ error ≥ 1 / 2 then
    ok ⟨s.weights, s.indices, s.modelWeights ++ [modelWeight error], s.learners ++ [learner]⟩
  else do
    let w ← forLoop d.samples (fun n w => reweight d learner (alpha error) n w) s.weights
    let w' := w.map fun x => x / w.sum
    let idx ← Data.resample w' d.samples (Data.deterministicP d.samples)
    ok ⟨w', idx, s.modelWeights ++ [modelWeight error], s.learners ++ [learner]⟩

/-- src/AdaBoost.cpp:31-58, the loop over the learners -/
def adaRounds (d : Data) (models : List Trainable) : Outcome Boost := do
  let s ← adaStart d
  models.foldlM (adaRound d) s

/-- the model weights if all of them are finite -/
def allFinite : List (Option ℝ) → Option (List ℝ)
  | [] => some []
  | none :: _ => none
  | some x :: l => (allFinite l).map fun r => x :: r

/-- src/AdaBoost.cpp:59: the result is not finite if a weight is infinite or the sum is zero -/
def adaFinish (w : List (Option ℝ)) : Option (List ℝ) :=
  match allFinite w with
  | none => none
  | some [] => some []
  | some l => if l.sum = 0 then none else some (l.map fun x => x / l.sum)

/-- `AdaBoost::train`, src/AdaBoost.cpp:29-60: it ends without `return` (as `WeightedDataSet::updateWeights`, that is called
before, does) -/
def adaTrain (d : Data) (models : List Trainable) : Outcome (Option (List ℝ)) := do
  let s ← adaRounds d models
  let _ := adaFinish s.modelWeights
  ub

/-- `Y += factor * Z` -/
def addScaled (Y : Mat) (factor : ℝ) (Z : Mat) : Outcome Mat :=
  if Y.rows = Z.rows ∧ Y.cols = Z.cols then ok ⟨Y.rows, Y.cols, fun i j => Y.val i j + factor * Z.val i j⟩ else ub

/-- the loops of `operator()`, src/AdaBoost.cpp:68-71; `t` is the number of the model -/
def weightedSum (weights : List ℝ) (X : Mat) : List (Mat → Mat) → ℕ → Mat → Outcome Mat
  | [], _, Y => ok Y
  | m :: l, t, Y => do
    let w ← Outcome.read weights t
    let Y ← addScaled Y w (m X)
    weightedSum weights X l (t + 1) Y

/-- `AdaBoost::operator()(MatrixXd&)`, src/AdaBoost.cpp:62-74; `F` is the number of outputs of the training set -/
def adaPredict (F : ℕ) (weights : List ℝ) (models : List (Mat → Mat)) (X : Mat) : Outcome Mat :=
  weightedSum weights X models 0 ⟨X.rows, F, fun _ _ => 0⟩

/-- `AdaBoost::operator()(VectorXd&)` and `Bagging::operator()(VectorXd&)`, src/AdaBoost.cpp:76-80, src/Bagging.cpp:53-57: the
matrix `X` is initialised with itself -/
def predictVector (_x : List ℝ) : Outcome (List ℝ) := ub

/-- `Bagging::operator()(MatrixXd&)`, src/Bagging.cpp:41-51 -/
def bagPredict (F : ℕ) (models : List (Mat → Mat)) (X : Mat) : Outcome Mat := do
  let Y ← models.foldlM (fun Y m => addScaled Y 1 (m X)) (⟨X.rows, F, fun _ _ => 0⟩ : Mat)
  ok ⟨Y.rows, Y.cols, fun i j => Y.val i j / models.length⟩

/-- `Bagging::train`, src/Bagging.cpp:25-39, ends without `return`; the bags are views, see `Data.sample` -/
def bagTrain (_models : List Trainable) : Outcome Unit := ub

end

end Verif.Ens
