import Verif.Model.OptimizableNet
import Verif.Model.Loop

/-!
# Gradient checks with finite differences (test/FiniteDifferences.cpp, test/LayerAdapter.cpp)

The gradient of an objective is compared with differences of its errors.  `Optimizable` is what the check of a gradient with
respect to parameters uses of an objective, `Learner` is what the check of a gradient with respect to inputs uses.
Arithmetic is exact; a step width of 0 (not a number in C++) is excluded in the theorems.
-/

namespace Verif.GradCheck

open NN Finset

noncomputable section

/-- OpenANN/optimization/Optimizable.h lines 31-128: the functions that `parameterGradient` calls, on a state. -/
structure Optimizable (σ : Type) where
  /-- `dimension()` -/
  dimension : ℕ
  /-- `currentParameters()` -/
  current : σ → List ℝ
  /-- `setParameters(parameters)` -/
  set : σ → List ℝ → Outcome σ
  /-- `error(startN, endN)` for the examples in the range -/
  errors : σ → List ℕ → Outcome (List ℝ)

/-- `v(i) += d`; an index outside of the vector violates an assertion of Eigen. -/
def addAt (v : List ℝ) (i : ℕ) (d : ℝ) : Outcome (List ℝ) :=
  match v[i]? with
  | some a => .ok (v.set i (a + d))
  | none => .ub

/-- The variables `gradient` and `modifiedParams` of `parameterGradient` and the state of `opt`. -/
structure Vars (σ : Type) where
  gradient : List ℝ
  modified : List ℝ
  opt : σ

/-- test/FiniteDifferences.cpp lines 56-67: the body of the loop. -/
def parameterStep {σ : Type} (O : Optimizable σ) (idx : List ℕ) (eps : ℝ) (params : List ℝ) (i : ℕ) (v : Vars σ) :
    Outcome (Vars σ) := do
  let modified ← addAt v.modified i eps
  let opt ← O.set v.opt modified
  let errorPlusEps ← O.errors opt idx
  let modified ← addAt params i (-eps)
  let opt ← O.set opt modified
  let errorMinusEps ← O.errors opt idx
  let gradient ← addAt v.gradient i ((errorPlusEps.sum - errorMinusEps.sum) / (2 * eps))
  let opt ← O.set opt params
  pure ⟨gradient, params, opt⟩

/-- test/FiniteDifferences.cpp lines 46-70: the estimated gradient and the state of `opt` afterwards. -/
def parameterGradient {σ : Type} (O : Optimizable σ) (idx : List ℕ) (eps : ℝ) (s : σ) : Outcome (List ℝ × σ) := do
  let v ← forLoop O.dimension (parameterStep O idx eps (O.current s)) ⟨List.replicate O.dimension 0, O.current s, s⟩
  pure (v.gradient, v.opt)

/-- test/FiniteDifferences.cpp lines 39-44: one example. -/
def parameterGradientOf {σ : Type} (O : Optimizable σ) (n : ℕ) (eps : ℝ) (s : σ) : Outcome (List ℝ × σ) :=
  parameterGradient O [n] eps s

/-- A network with the training set `ds` (src/Net.cpp lines 477-500 and, for the errors, src/Optimizable.cpp lines 27-35). -/
def netOptimizable (net : Net) (sc : ℕ → Scratch) (ds : TrainSet) : Optimizable NetState where
  dimension := net.P
  current := Net.currentParameters
  set := net.set
  errors s idx := (Opt.netObjective net s.mem sc ds).errors (idx.map fun n : ℕ => (n : ℤ))

/-! ## Inputs -/

/-- Which data a learner uses: a copy (test/LayerAdapter.cpp lines 149-155) or the matrices `in` and `out` of the function
`inputGradient`, to which it keeps pointers (src/Learner.cpp lines 21-30). -/
inductive Data where
  | copy (X Y : Batch)
  | pointers

/-- OpenANN/Learner.h: the functions that `inputGradient` calls.  `errors X Y` is `error(0, ..., N - 1)` with the training set
`X`, `Y` of `N` examples at the current parameters. -/
structure Learner where
  copies : Bool
  errors : Batch → Batch → Outcome (List ℝ)

/-- `learner.trainingSet(in, out)`. -/
def Learner.trainingSet (L : Learner) (X Y : Batch) : Data := if L.copies then .copy X Y else .pointers

/-- `learner.error(...)`; `locals` are the matrices `in` and `out` as long as they exist. -/
def Learner.error (L : Learner) (locals : Option (Batch × Batch)) : Data → Outcome (List ℝ)
  | .copy X Y => L.errors X Y
  | .pointers =>
    match locals with
    | some m => L.errors m.1 m.2
    | none => .ub

/-- `m.col(i).array() += d` -/
def addCol (m : Batch) (i : ℕ) (d : ℝ) : Batch := fun n j => if j = i then m n j + d else m n j

/-- `m.col(i) = v` -/
def setCol (m : Batch) (i : ℕ) (v : ℕ → ℝ) : Batch := fun n j => if j = i then v n else m n j

/-- The variables `gradient` and `in` of `inputGradient` and the data of the learner. -/
structure InVars where
  gradient : Batch
  input : Batch
  data : Data

/-- test/FiniteDifferences.cpp lines 25-34: the body of the loop; a column of another size than `N` violates an assertion. -/
def inputStep (L : Learner) (N : ℕ) (X Y : Batch) (eps : ℝ) (i : ℕ) (v : InVars) : Outcome InVars := do
  let input := addCol v.input i eps
  let data := L.trainingSet input Y
  let errorPlusEps ← L.error (some (input, Y)) data
  let input := addCol input i (-(2 * eps))
  let data := L.trainingSet input Y
  let errorMinusEps ← L.error (some (input, Y)) data
  let input := setCol input i fun n => X n i
  if errorPlusEps.length = N ∧ errorMinusEps.length = N then
    pure ⟨setCol v.gradient i fun n => (errorPlusEps.getD n 0 - errorMinusEps.getD n 0) / (2 * eps), input, data⟩
  else .ub

/-- test/FiniteDifferences.cpp lines 9-37: the estimated gradient (`N x D`) and the data of the learner afterwards, when the
local matrices do not exist any more.  `before` is the data of the learner before. -/
def inputGradient (L : Learner) (N D : ℕ) (X Y : Batch) (eps : ℝ) (before : Data) : Outcome (Batch × Data) := do
  let v ← forLoop D (inputStep L N X Y eps) ⟨fun _ _ => 0, X, before⟩
  pure (v.gradient, v.data)

/-! ## One layer (test/LayerAdapter.cpp) -/

/-- test/LayerAdapter.cpp lines 35-37: the loop of `setParameters`. -/
def writeSlots (w : Weights) (ps : List Slot) (θ : List ℝ) : Weights :=
  (ps.zip θ).foldl (fun w pv s => if s = pv.1 then pv.2 else w s) w

/-- `(diff * diff.transpose())(n, n) / 2.0` for `diff = *output - desired`. -/
def rowError (l : Layer) (w : Weights) (N : ℕ) (X T : Batch) (n : ℕ) : ℝ :=
  (∑ j ∈ range l.outputs, (l.forward w N X n j - T n j) ^ 2) / 2

/-- test/LayerAdapter.cpp lines 41-48, `error()`. -/
def adapterError (l : Layer) (N : ℕ) (X T : Batch) (w : Weights) : ℝ :=
  l.regError w + ∑ n ∈ range N, rowError l w N X T n

/-- test/LayerAdapter.cpp lines 50-57, `error(n)`. -/
def adapterErrorOf (l : Layer) (N : ℕ) (X T : Batch) (w : Weights) (n : ℕ) : ℝ :=
  l.regError w + rowError l w N X T n

/-- test/LayerAdapter.cpp lines 59-72, `error(startN, endN)`: reading the first index of an empty range is undefined. -/
def adapterErrors (l : Layer) (N : ℕ) (X T : Batch) (w : Weights) (idx : List ℕ) : Outcome (List ℝ) :=
  match idx with
  | [] => .ub
  | a :: _ => do
    Outcome.check (a = 0)
    Outcome.check (idx.length = N)
    pure ((List.range N).map fun n => rowError l w N X T n + l.regError w)

/-- test/LayerAdapter.cpp lines 74-86, `gradient()`. -/
def adapterGradient (l : Layer) (N : ℕ) (X T : Batch) (w : Weights) : List ℝ :=
  l.derivPointers.map (l.derivs w N X fun n j => l.forward w N X n j - T n j)

/-- test/LayerAdapter.cpp lines 88-103, `gradient(n)`: the layer only sees row `n`. -/
def adapterGradientOf (l : Layer) (X T : Batch) (w : Weights) (n : ℕ) : List ℝ :=
  adapterGradient l 1 (fun _ => X n) (fun _ => T n) w

/-- test/LayerAdapter.cpp lines 105-121, `gradient(startN, endN)`. -/
def adapterGradientRange (l : Layer) (N : ℕ) (X T : Batch) (w : Weights) (idx : List ℕ) : Outcome (List ℝ) :=
  match idx with
  | [] => .ub
  | a :: _ => do
    Outcome.check (a = 0)
    Outcome.check (idx.length = N)
    pure (adapterGradient l N X T w)

/-- test/LayerAdapter.cpp lines 123-131, `inputGradient()`; `stale` is the content of the error buffer of the layer. -/
def adapterInputGradient (l : Layer) (N : ℕ) (X T : Batch) (w : Weights) (stale : Batch) : Batch :=
  l.back w N X (fun n j => l.forward w N X n j - T n j) true stale

/-- test/LayerAdapter.cpp lines 14-39: the adapter of the layer `l` with `N` examples; the state are the weights of the
layer.  A vector with too few entries is read out of bounds. -/
def adapterOptimizable (l : Layer) (N : ℕ) (X T : Batch) : Optimizable Weights where
  dimension := l.pointers.length
  current w := l.pointers.map w
  set w θ := if θ.length < l.pointers.length then .ub else .ok (l.updated (writeSlots w l.pointers θ))
  errors w idx := adapterErrors l N X T w idx

/-- The adapter as a learner: it copies the data (lines 149-155). -/
def adapterLearner (l : Layer) (N : ℕ) (w : Weights) : Learner where
  copies := true
  errors X Y := adapterErrors l N X Y w (List.range N)

/-- A network as a learner (src/Learner.cpp lines 21-30): pointers to the data. -/
def netLearner (net : Net) (mem : Mem) (sc : ℕ → Scratch) (N : ℕ) : Learner where
  copies := false
  errors X Y := (Opt.netObjective net mem sc ⟨N, X, Y⟩).errors
    ((List.range N).map fun n : ℕ => (n : ℤ))

end

end Verif.GradCheck
