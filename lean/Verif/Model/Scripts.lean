import Verif.Model.Preprocessing

/-!
# The scripts benchmarks/sarcos/benchmark.py and benchmarks/iris/benchmark.py

Network and training are any function `learn X Y Z` of the training inputs, the targets and the inputs that are predicted.  Arrays
are matrices of real numbers; results that are not finite numbers are `none`.  Files, downloads, plots and the formatting of the
printed numbers are left out.
-/

namespace Verif.Scripts

open Outcome Verif.Pre

noncomputable section

/-! ## SARCOS -/

/-- benchmarks/sarcos/benchmark.py lines 83-88: the arrays of the two files -/
structure Arrays where
  X : Mat
  Y : Mat
  Xtest : Mat
  Ytest : Mat

/-- lines 92-96: one `Normalization` for inputs and outputs, fitted twice (python/preprocessing.pxi lines 11-19) -/
def normalise (a : Arrays) : Outcome Arrays := do
  let n ← Normalization.new.fit a.X
  let X ← n.transform a.X
  let Xtest ← n.transform a.Xtest
  let n ← n.fit a.Y
  let Y ← n.transform a.Y
  let Ytest ← n.transform a.Ytest
  ok ⟨X, Y, Xtest, Ytest⟩

/-- `Y.var(axis=0)[f]` (line 118): numpy divides by the number of rows -/
def variance (Y : Mat) (f : ℕ) : ℝ :=
  (∑ n ∈ Finset.range Y.rows, (Y.val n f - (∑ k ∈ Finset.range Y.rows, Y.val k f) / Y.rows) ^ 2) / Y.rows

/-- lines 120-121: `sum((Y[:, f] - pred[:, f])**2) / len(Y) / var[f]`; without rows and with variance 0 the quotients are not finite -/
def nMSE (Y pred : Mat) (var : ℝ) (f : ℕ) : Option ℝ :=
  if Y.rows = 0 ∨ var = 0 then none
  else some ((∑ n ∈ Finset.range Y.rows, (Y.val n f - pred.val n f) ^ 2) / Y.rows / var)

/-- lines 98-123: the numbers of the line of each dimension, training and validation -/
def sarcos (learn : Mat → Mat → Mat → Mat) (a : Arrays) : Outcome (List (Option ℝ × Option ℝ)) := do
  let a ← normalise a
  let pred := learn a.X a.Y a.X
  let predTest := learn a.X a.Y a.Xtest
  let var := variance a.Y
  ok ((List.range a.Y.cols).map fun f => (nMSE a.Y pred (var f) f, nMSE a.Ytest predTest (var f) f))

/-! ## Iris -/

/-- benchmarks/iris/benchmark.py line 57: `(X - X.mean(axis=0)) / X.std(axis=0)`; a column without deviation becomes NaN -/
def irisInputs (X : Mat) (n d : ℕ) : Option ℝ :=
  let mean := (∑ k ∈ Finset.range X.rows, X.val k d) / X.rows
  let std := Real.sqrt (variance X d)
  if std = 0 then none else some ((X.val n d - mean) / std)

/-- line 53: `len(numpy.unique(Y))` -/
def classes (N : ℕ) (Y : ℕ → ℕ) : ℕ := ((Finset.range N).image Y).card

/-- lines 58-59: `T[(range(N), Y)] = 1.0`; an index that is too large raises an exception -/
def irisTargets (N : ℕ) (Y : ℕ → ℕ) : Outcome Mat :=
  if ∀ n < N, Y n < classes N Y then ok ⟨N, classes N Y, fun n f => if f = Y n then 1 else 0⟩ else throws

/-- the rows of `X[a:b]`; numpy cuts slices off at the end of the array -/
def slice (N a b : ℕ) : List ℕ := List.range' (min a N) (min b N - min a N)

/-- lines 72-73: the rows of the training set, for inputs and targets -/
def trainingRows (N : ℕ) : List ℕ := slice N 0 40 ++ slice N 50 90 ++ slice N 100 140

/-- lines 75-76: the rows of the validation set -/
def validationRows (N : ℕ) : List ℕ := slice N 40 50 ++ slice N 90 100 ++ slice N 140 150

/-- lines 72-77: a data set from rows of inputs and targets -/
def rowsOf (rows : List ℕ) (X : ℕ → ℕ → Option ℝ) (T : Mat) : List ((ℕ → Option ℝ) × (ℕ → ℝ)) := rows.map fun n => (X n, T.val n)

/-- lines 50-77: training and validation set -/
def iris (X : Mat) (Y : ℕ → ℕ) :
    Outcome (List ((ℕ → Option ℝ) × (ℕ → ℝ)) × List ((ℕ → Option ℝ) × (ℕ → ℝ))) := do
  let T ← irisTargets X.rows Y
  ok (rowsOf (trainingRows X.rows) (irisInputs X) T, rowsOf (validationRows X.rows) (irisInputs X) T)

end

end Verif.Scripts
