import Verif.Model.Activation

/-!
# Layers (OpenANN/layers/Layer.h and the dense layers)

A layer owns buffers (weights, biases, activations) and gives the network pointers to its parameters and to their
derivatives.  A `Slot` names one number of such a buffer, `Weights` is the content of the buffers of one layer.

Each definition below states what one call of `forwardPropagate` / `backpropagate` leaves in the buffers, as a function of
the weights, the batch `x` that the layer received and the error signal `ein`.  Three simplifications are made throughout:

* the layers keep a pointer to their input and their own output between the two calls; in the model `backpropagate` gets
  the input of the preceding forward pass as an argument and recomputes the output from it;
* `Compressed` caches `W = alpha * phi` and refreshes the cache in `updatedParameters`, which `Net::setParameters` and
  `initializeParameters` call after every change of `alpha`; the model computes it from `alpha` where it is used;
* entries outside of the dimensions of a matrix are not meaningful.
-/

namespace Verif.NN

open Finset

/-- One number in a weight (`w`) or bias (`b`) buffer of a layer, with its indices. -/
inductive Slot where
  | w (idx : List ℕ)
  | b (idx : List ℕ)
  deriving DecidableEq, Repr

/-- Contents of the buffers of one layer (values or derivatives). -/
abbrev Weights := Slot → ℝ

/-- OpenANN/Regularization.h lines 14-30. -/
structure Reg where
  l1 : ℝ
  l2 : ℝ
  maxNorm : ℝ

/-- OpenANN/layers/Layer.h lines 34-84, the interface of a layer. -/
structure Layer where
  /-- number of inputs -/
  inputs : ℕ
  /-- number of outputs -/
  outputs : ℕ
  /-- what `initialize` appends to `parameterPointers` -/
  pointers : List Slot
  /-- what `initialize` appends to `parameterDerivativePointers` (names of numbers in the derivative buffers) -/
  derivPointers : List Slot
  /-- `*y` after `forwardPropagate(x, y, ...)`, for weights, number of rows and `*x` -/
  forward : Weights → ℕ → Batch → Batch
  /-- what `forwardPropagate` adds to `*error` -/
  regError : Weights → ℝ
  /-- derivative buffers after `backpropagate`, for weights, number of rows, `*x` and `*ein` -/
  derivs : Weights → ℕ → Batch → Batch → Weights
  /-- `*eout` after `backpropagate`, for weights, number of rows, `*x`, `*ein`, `backpropToPrevious` and the content that
  the error buffer had before -/
  back : Weights → ℕ → Batch → Batch → Bool → Batch → Batch
  /-- weights after `updatedParameters` -/
  updated : Weights → Weights

noncomputable section

/-- `a = x * W.transpose(); a.rowwise() += b.transpose()` for `I` columns of `x`. -/
def dense (I : ℕ) (W : Batch) (b : ℕ → ℝ) (x : Batch) : Batch := fun n j =>
  ∑ i ∈ range I, x n i * W j i + b j

/-- `a(n, o) = v` for one element of a matrix. -/
def setEntry (a : Batch) (n o : ℕ) (v : ℝ) : Batch := fun n' o' => if n' = n ∧ o' = o then v else a n' o'

/-- `activationFunction(act, a, y)`, coefficient-wise. -/
def Act.map (act : Act) (a : Batch) : Batch := fun n j => act.apply (a n j)

/-- `activationFunctionDerivative(act, y, yd); deltas = yd.cwiseProduct(*ein)`. -/
def deltas (act : Act) (y ein : Batch) : Batch := fun n j => act.deriv (y n j) * ein n j

/-- The regularisation error, e.g. src/FullyConnected.cpp lines 76-79, for the sum of absolute values and the sum of
squares of the weights. -/
def Reg.error (r : Reg) (sumAbs sumSq : ℝ) : ℝ :=
  (if 0 < r.l1 then r.l1 * sumAbs else 0) + (if 0 < r.l2 then r.l2 * sumSq / 2 else 0)

/-- What regularisation adds to the derivative of a weight, e.g. src/FullyConnected.cpp lines 96-99. -/
def Reg.deriv (r : Reg) (w : ℝ) : ℝ :=
  (if 0 < r.l1 then r.l1 * w / |w| else 0) + (if 0 < r.l2 then r.l2 * w else 0)

/-- src/Input.cpp lines 7-39: no parameters, passes its input on; `backpropagate` leaves the error pointer as it is. -/
def inputLayer (J : ℕ) : Layer where
  inputs := J
  outputs := J
  pointers := []
  derivPointers := []
  forward _ _ x := x
  regError _ := 0
  derivs _ _ _ _ := fun _ => 0
  back _ _ _ ein _ _ := ein
  updated w := w

/-- Names of the parameters of a dense layer in the order of src/FullyConnected.cpp lines 21-33. -/
def denseSlots (I J : ℕ) (bias : Bool) : List Slot :=
  (List.range J).flatMap fun j =>
    (List.range I).map (fun i => Slot.w [j, i]) ++ if bias then [Slot.b [j]] else []

/-- The matrix `W` in a buffer. -/
def Weights.mat (w : Weights) : Batch := fun j i => w (.w [j, i])

/-- The vector `b` in a buffer, zero if the layer has no bias. -/
def Weights.vec (w : Weights) (bias : Bool) : ℕ → ℝ := fun j => if bias then w (.b [j]) else 0

/-- src/FullyConnected.cpp lines 50-61: `updatedParameters`, the max-norm constraint. -/
def maxNormUpdate (I : ℕ) (m : ℝ) (w : Weights) : Weights
  | .w [j, i] =>
    if 0 < m ∧ m < ∑ i' ∈ range I, w (.w [j, i']) ^ 2 then
      w (.w [j, i]) * Real.sqrt (m / ∑ i' ∈ range I, w (.w [j, i']) ^ 2)
    else w (.w [j, i])
  | s => w s

/-- src/FullyConnected.cpp lines 7-104. -/
def fullyConnected (I J : ℕ) (bias : Bool) (act : Act) (reg : Reg) : Layer where
  inputs := I
  outputs := J
  pointers := denseSlots I J bias
  derivPointers := denseSlots I J bias
  forward w _ x := act.map (dense I w.mat (w.vec bias) x)
  regError w := reg.error (∑ j ∈ range J, ∑ i ∈ range I, |w.mat j i|)
    (∑ j ∈ range J, ∑ i ∈ range I, w.mat j i ^ 2)
  derivs w N x ein
    | .w [j, i] =>
      ∑ n ∈ range N, deltas act (act.map (dense I w.mat (w.vec bias) x)) ein n j * x n i + reg.deriv (w.mat j i)
    | .b [j] => ∑ n ∈ range N, deltas act (act.map (dense I w.mat (w.vec bias) x)) ein n j
    | _ => 0
  back w _ x ein flag stale :=
    if flag then fun n i =>
      ∑ j ∈ range J, deltas act (act.map (dense I w.mat (w.vec bias) x)) ein n j * w.mat j i
    else stale
  updated := maxNormUpdate I reg.maxNorm

/-- src/Compressed.cpp lines 60-63: `W = alpha * phi.block(0, 0, M, I + bias)`; column `I` of `W` is the bias. -/
def compressedW (M : ℕ) (phi : Batch) (w : Weights) : Batch := fun j i =>
  ∑ m ∈ range M, w.mat j m * phi m i

/-- src/Compressed.cpp line 74: the bias is column `I` of `W`. -/
def compressedBias (I M : ℕ) (bias : Bool) (phi : Batch) (w : Weights) : ℕ → ℝ := fun j =>
  if bias then compressedW M phi w j I else 0

/-- src/Compressed.cpp lines 32-109 for a compression matrix `phi` (`M x (I+1)`). -/
def compressed (I J M : ℕ) (bias : Bool) (act : Act) (reg : Reg) (phi : Batch) : Layer where
  inputs := I
  outputs := J
  pointers := denseSlots M J false
  derivPointers := denseSlots M J false
  forward w _ x := act.map (dense I (compressedW M phi w) (compressedBias I M bias phi w) x)
  regError w := reg.error (∑ j ∈ range J, ∑ m ∈ range M, |w.mat j m|)
    (∑ j ∈ range J, ∑ m ∈ range M, w.mat j m ^ 2)
  derivs w N x ein
    | .w [j, m] =>
      ∑ i ∈ range I, (∑ n ∈ range N,
        deltas act (act.map (dense I (compressedW M phi w) (compressedBias I M bias phi w) x)) ein n j * x n i) * phi m i
      + (if bias then (∑ n ∈ range N,
          deltas act (act.map (dense I (compressedW M phi w) (compressedBias I M bias phi w) x)) ein n j) * phi m I else 0)
      + reg.deriv (w.mat j m)
    | _ => 0
  back w _ x ein flag stale :=
    if flag then fun n i =>
      ∑ j ∈ range J, deltas act (act.map (dense I (compressedW M phi w) (compressedBias I M bias phi w) x)) ein n j *
        compressedW M phi w j i
    else stale
  updated w := w

/-- src/Extreme.cpp lines 7-55: fixed random weights `W` (`J x (I + bias)`, column `I` is the bias), no parameters. -/
def extreme (I J : ℕ) (bias : Bool) (act : Act) (W : Batch) : Layer where
  inputs := I
  outputs := J
  pointers := []
  derivPointers := []
  forward _ _ x := act.map (dense I W (fun j => if bias then W j I else 0) x)
  regError _ := 0
  derivs _ _ _ _ := fun _ => 0
  back _ _ x ein flag stale :=
    if flag then fun n i =>
      ∑ j ∈ range J, deltas act (act.map (dense I W (fun j => if bias then W j I else 0) x)) ein n j * W j i
    else stale
  updated w := w

/-- src/IntrinsicPlasticity.cpp lines 116-156: fixed slopes `s` and biases `b`, no parameters of the network. -/
def intrinsicPlasticity (J : ℕ) (s b : ℕ → ℝ) : Layer where
  inputs := J
  outputs := J
  pointers := []
  derivPointers := []
  forward _ _ x := fun n j => Act.logistic.apply (x n j * s j + b j)
  regError _ := 0
  derivs _ _ _ _ := fun _ => 0
  back _ _ x ein flag stale :=
    if flag then fun n j => Act.logistic.deriv (Act.logistic.apply (x n j * s j + b j)) * s j * ein n j
    else stale
  updated w := w

/-- Names of the parameters in the order of src/RBM.cpp lines 140-152 and src/SparseAutoEncoder.cpp lines 174-184: all
weights, then all biases. -/
def weightsThenBiases (I J : ℕ) : List Slot :=
  ((List.range J).flatMap fun j => (List.range I).map fun i => Slot.w [j, i]) ++
    (List.range J).map fun j => Slot.b [j]

/-- src/RBM.cpp lines 135-185: an RBM as a layer of a network (`ph` is the output; the samples `h` are not used). -/
def rbm (D H : ℕ) (backprop : Bool) : Layer where
  inputs := D
  outputs := H
  pointers := if backprop then weightsThenBiases D H else []
  derivPointers := if backprop then weightsThenBiases D H else []
  forward w _ x := Act.logistic.map (dense D w.mat (w.vec true) x)
  regError _ := 0
  derivs w N x ein
    | .w [j, i] => ∑ n ∈ range N, deltas .logistic (Act.logistic.map (dense D w.mat (w.vec true) x)) ein n j * x n i
    | .b [j] => ∑ n ∈ range N, deltas .logistic (Act.logistic.map (dense D w.mat (w.vec true) x)) ein n j
    | _ => 0
  back w _ x ein flag stale :=
    if flag then fun n i =>
      ∑ j ∈ range H, deltas .logistic (Act.logistic.map (dense D w.mat (w.vec true) x)) ein n j * w.mat j i
    else stale
  updated w := w

/-- src/SparseAutoEncoder.cpp lines 130-153, 171-189: a sparse autoencoder as a layer of a network. -/
def sparseAutoEncoder (D H : ℕ) (act : Act) (lambda : ℝ) : Layer where
  inputs := D
  outputs := H
  pointers := weightsThenBiases D H
  derivPointers := weightsThenBiases D H
  forward w _ x := act.map (dense D w.mat (w.vec true) x)
  regError w := if 0 < lambda then lambda * (∑ j ∈ range H, ∑ i ∈ range D, w.mat j i ^ 2) / 2 else 0
  derivs w N x ein
    | .w [j, i] =>
      ∑ n ∈ range N, deltas act (act.map (dense D w.mat (w.vec true) x)) ein n j * x n i + lambda * w.mat j i
    | .b [j] => ∑ n ∈ range N, deltas act (act.map (dense D w.mat (w.vec true) x)) ein n j
    | _ => 0
  back w _ x ein flag stale :=
    if flag then fun n i =>
      ∑ j ∈ range H, deltas act (act.map (dense D w.mat (w.vec true) x)) ein n j * w.mat j i
    else stale
  updated w := w

/-- src/Dropout.cpp lines 23-40: the mask for `dropout` on or off; `draw n i` is the number that `rng.generate(0.0, 1.0)`
returns for row `n` and column `i`. -/
def dropoutMask (on : Bool) (p : ℝ) (draw : Batch) : Batch := fun n i =>
  if on then (if draw n i < p then 0 else 1) else if 0 < p then 1 * (1 - p) else 1

/-- src/Dropout.cpp lines 19-50 for the mask of one forward pass. -/
def dropout (I : ℕ) (mask : Batch) : Layer where
  inputs := I
  outputs := I
  pointers := []
  derivPointers := []
  forward _ _ x := fun n i => mask n i * x n i
  regError _ := 0
  derivs _ _ _ _ := fun _ => 0
  back _ _ _ ein _ _ := fun n i => mask n i * ein n i
  updated w := w

end

end Verif.NN
