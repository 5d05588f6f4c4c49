import Mathlib.Analysis.SpecialFunctions.Trigonometric.Deriv
import Mathlib.Analysis.SpecialFunctions.Log.Basic
import Mathlib.Algebra.BigOperators.Group.Finset.Basic

/-!
# Activation and error functions (src/ActivationFunctions.cpp, OpenANN/ErrorFunctions.h)

`double` is modelled by `ℝ`.  A matrix is a function of row and column; its numbers of rows and columns are passed
separately where they matter (Eigen's dimension checks are about those numbers, which the constructors of the layers fix).
-/

namespace Verif.NN

/-- The elements of an `Eigen::MatrixXd`: row, column. -/
abbrev Batch := ℕ → ℕ → ℝ

/-- OpenANN/ActivationFunctions.h lines 8-69; `SOFTMAX` has the same value as `LINEAR`. -/
inductive Act where
  | logistic | tanh | tanhScaled | rectifier | linear
  deriving DecidableEq, Repr

noncomputable section

/-- src/ActivationFunctions.cpp lines 8-31, 68-82, 92-98, 108-114, 124-130, 140-143: `activationFunction` applied to one
coefficient. -/
def Act.apply : Act → ℝ → ℝ
  | .logistic, a => if a < -45 then 0 else if 45 < a then 1 else 1 / (1 + Real.exp (-a))
  | .tanh, a => Real.tanh a
  | .tanhScaled, a => 1.7159 * Real.tanh (0.66666667 * a)
  | .rectifier, a => max 0 a
  | .linear, a => a

/-- src/ActivationFunctions.cpp lines 33-55, 84-90, 100-106, 116-122, 132-138, 145-148: `activationFunctionDerivative`,
computed from the output `z` of the activation function. -/
def Act.deriv : Act → ℝ → ℝ
  | .logistic, z => z * (1 - z)
  | .tanh, z => 1 - z * z
  | .tanhScaled, z => 0.66666667 / 1.7159 * (1.7159 + z) * (1.7159 - z)
  | .rectifier, z => (if 0 < z then 1 else 0) * 1
  | .linear, _ => 1

/-- `y.maxCoeff()` of a matrix with `N` rows and `F` columns (only used for non-empty matrices): the visitor starts with
the first coefficient. -/
def maxCoeff (N F : ℕ) (y : Batch) : ℝ :=
  ((List.range N).flatMap (fun n => (List.range F).map (fun j => y n j))).foldl max (y 0 0)

/-- src/ActivationFunctions.cpp lines 57-66, `softmax`: line 63 replaces a row by exponentials, line 64 divides the row by
its sum. -/
def softmax (N F : ℕ) (y : Batch) : Batch := fun n j =>
  Real.exp (y n j - maxCoeff N F y) / ∑ k ∈ Finset.range F, Real.exp (y n k - maxCoeff N F y)

/-- OpenANN/ErrorFunctions.h lines 17-22, `crossEntropy` of `N x F` matrices. -/
def crossEntropy (N F : ℕ) (Y T : Batch) : ℝ :=
  -(∑ n ∈ Finset.range N, ∑ j ∈ Finset.range F, T n j * Real.log (Y n j + 1e-10)) / N

/-- OpenANN/ErrorFunctions.h lines 30-34, `meanSquaredError` of an `N x F` matrix of differences. -/
def meanSquaredError (N F : ℕ) (YmT : Batch) : ℝ :=
  (∑ n ∈ Finset.range N, ∑ j ∈ Finset.range F, YmT n j ^ 2) / (2 * N)

end

end Verif.NN
