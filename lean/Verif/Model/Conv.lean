import Verif.Model.Layer
import Verif.Model.Loop

/-!
# Convolutional layer (src/Convolutional.cpp)

The loops are modelled statement by statement with their running indices; every access to a row of the input, of the
activations or of the error buffer is checked.  `Conv.layer` is the layer that results; `Verif.Props.Conv` proves that the
loops compute it.

`#pragma omp parallel for` in the forward pass distributes the rows of the batch over threads; the model runs them in sequence, which
makes no difference (C94).
-/

namespace Verif.NN

open Finset

/-- The sizes that the constructor stores, src/Convolutional.cpp lines 12-14. -/
structure Conv where
  fmin : ℕ
  inRows : ℕ
  inCols : ℕ
  fmout : ℕ
  kernelRows : ℕ
  kernelCols : ℕ
  bias : Bool
  act : Act
  reg : Reg

/-- src/Convolutional.cpp lines 20-84, `initialize`: the dimensions it returns.  `Eigen::MatrixXd(kernelRows, kernelCols)`
in line 34 and `a.resize(1, info.outputs())` in line 67 must not be negative (an Eigen assertion), negative numbers of
feature maps make `std::vector` throw. -/
def convInit (fmin inRows inCols fmout kernelRows kernelCols : ℤ) : Outcome (ℤ × ℤ × ℤ) :=
  if kernelRows < 0 ∨ kernelCols < 0 then .ub
  else if fmin < 0 ∨ fmout < 0 then .throws
  else if fmout * (inRows - kernelRows.tdiv 2 * 2) * (inCols - kernelCols.tdiv 2 * 2) < 0 then .ub
  else if fmout * (inRows - kernelRows.tdiv 2 * 2) * (inCols - kernelCols.tdiv 2 * 2) < 1 then .throws
  else do
    Outcome.check (inRows * inCols > 0)
    Outcome.check (inRows - kernelRows.tdiv 2 * 2 > 0)
    Outcome.check (inCols - kernelCols.tdiv 2 * 2 > 0)
    Outcome.check ((inRows - kernelRows.tdiv 2 * 2) * (inCols - kernelCols.tdiv 2 * 2) > 0)
    Outcome.check (inRows - kernelRows + kernelRows.tmod 2 > 0)
    Outcome.check (inCols - kernelCols + kernelCols.tmod 2 > 0)
    pure (fmout, inRows - kernelRows.tdiv 2 * 2, inCols - kernelCols.tdiv 2 * 2)

namespace Conv

variable (g : Conv)

/-- line 25 -/
def outRows : ℕ := g.inRows - g.kernelRows / 2 * 2

/-- line 26 -/
def outCols : ℕ := g.inCols - g.kernelCols / 2 * 2

/-- line 31 -/
def maxRow : ℕ := g.inRows + g.kernelRows % 2 - g.kernelRows

/-- line 32 -/
def maxCol : ℕ := g.inCols + g.kernelCols % 2 - g.kernelCols

/-- line 27 -/
def fmOutSize : ℕ := g.outRows * g.outCols

/-- line 30 -/
def fmInSize : ℕ := g.inRows * g.inCols

/-- `info.outputs()` of lines 24-29, the number of columns of `a`, `y`, `yd` and `deltas`. -/
def outputs : ℕ := g.fmout * g.outRows * g.outCols

/-- `I`, the number of columns of `x` (checked in line 105) and `e`. -/
def inputs : ℕ := g.fmin * g.inRows * g.inCols

/-- lines 45-63 -/
def slots : List Slot :=
  (List.range g.fmout).flatMap fun fmo => (List.range g.fmin).flatMap fun fmi =>
    ((List.range g.kernelRows).flatMap fun kr => (List.range g.kernelCols).map fun kc => Slot.w [fmo, fmi, kr, kc]) ++
      if g.bias then [Slot.b [fmo, fmi]] else []

noncomputable section

/-- lines 126-131: the loop over the rows of the kernel; state is `out` and `colBase`. -/
def krLoop (w : Weights) (x : Batch) (n fmo fmi : ℕ) : ℝ × ℕ → Outcome (ℝ × ℕ) :=
  forLoop g.kernelRows fun kr s =>
    if s.2 + g.kernelCols ≤ g.inputs then
      .ok (s.1 + ∑ kc ∈ range g.kernelCols, w (.w [fmo, fmi, kr, kc]) * x n (s.2 + kc), s.2 + g.inCols)
    else .ub

/-- lines 122-132: the loop over the columns; state is `a` and `outputIdx`. -/
def colLoop (w : Weights) (x : Batch) (n fmo fmi fmInBase row : ℕ) : Batch × ℕ → Outcome (Batch × ℕ) :=
  forLoop g.maxCol fun col s => do
    Outcome.check (s.2 < g.outputs)
    let out ← g.krLoop w x n fmo fmi (s.1 n s.2, fmInBase + row * g.inCols + col)
    pure (setEntry s.1 n s.2 out.1, s.2 + 1)

/-- lines 136-139: adding the bias. -/
def biasLoop (w : Weights) (n fmo fmi : ℕ) : Batch × ℕ → Outcome (Batch × ℕ) :=
  forLoop g.maxRow fun _ => forLoop g.maxCol fun _ s =>
    if s.2 < g.outputs then .ok (setEntry s.1 n s.2 (s.1 n s.2 + w (.b [fmo, fmi])), s.2 + 1) else .ub

/-- lines 117-141: one iteration of the loop over the input feature maps; state is `a` and `fmInBase`. -/
def fmiStep (w : Weights) (x : Batch) (n fmo fmi : ℕ) (s : Batch × ℕ) : Outcome (Batch × ℕ) := do
  let r ← forLoop g.maxRow (fun row => g.colLoop w x n fmo fmi s.2 row) (s.1, fmo * g.fmOutSize)
  if g.bias then
    let r' ← g.biasLoop w n fmo fmi (r.1, fmo * g.fmOutSize)
    pure (r'.1, s.2 + g.fmInSize)
  else pure (r.1, s.2 + g.fmInSize)

/-- lines 108-143: the activations `a`. -/
def forwardLoops (w : Weights) (N : ℕ) (x : Batch) : Outcome Batch :=
  forLoop N (fun n => forLoop g.fmout fun fmo a => do
    let r ← forLoop g.fmin (g.fmiStep w x n fmo) (a, 0)
    pure r.1) (fun _ _ => 0)

/-- lines 193-198: the loop over the rows of the kernel in `backpropagate`; state are `e`, the derivative buffers and
`colBase`. -/
def backKr (w : Weights) (x : Batch) (n fmo fmi : ℕ) (d : ℝ) :
    (Batch × Weights) × ℕ → Outcome ((Batch × Weights) × ℕ) :=
  forLoop g.kernelRows fun kr s =>
    if s.2 + g.kernelCols ≤ g.inputs then
      .ok ((fun n' p => s.1.1 n' p + if n' = n then
              ∑ kc ∈ range g.kernelCols, (if s.2 + kc = p then w (.w [fmo, fmi, kr, kc]) * d else 0) else 0,
            fun sl => s.1.2 sl +
              ∑ kc ∈ range g.kernelCols, if sl = .w [fmo, fmi, kr, kc] then d * x n (s.2 + kc) else 0),
          s.2 + g.inCols)
    else .ub

/-- lines 189-199 -/
def backCol (w : Weights) (x δ : Batch) (n fmo fmi fmInBase row : ℕ) :
    (Batch × Weights) × ℕ → Outcome ((Batch × Weights) × ℕ) :=
  forLoop g.maxCol fun col s => do
    Outcome.check (s.2 < g.outputs)
    let r ← g.backKr w x n fmo fmi (δ n s.2) (s.1, fmInBase + row * g.inCols + col)
    pure (r.1, s.2 + 1)

/-- lines 203-205 -/
def backBias (δ : Batch) (n fmo fmi : ℕ) : (Batch × Weights) × ℕ → Outcome ((Batch × Weights) × ℕ) :=
  forLoop g.maxRow fun _ => forLoop g.maxCol fun _ s =>
    if s.2 < g.outputs then
      .ok ((s.1.1, fun sl => s.1.2 sl + if sl = .b [fmo, fmi] then δ n s.2 else 0), s.2 + 1)
    else .ub

/-- lines 183-207: one iteration of the loop over the input feature maps. -/
def backFmi (w : Weights) (x δ : Batch) (n fmo fmi : ℕ) (s : (Batch × Weights) × ℕ) :
    Outcome ((Batch × Weights) × ℕ) := do
  let r ← forLoop g.maxRow (fun row => g.backCol w x δ n fmo fmi s.2 row) (s.1, fmo * g.fmOutSize)
  if g.bias then
    let r' ← g.backBias δ n fmo fmi (r.1, fmo * g.fmOutSize)
    pure (r'.1, s.2 + g.fmInSize)
  else pure (r.1, s.2 + g.fmInSize)

/-- lines 170-209: `e` and the derivative buffers before regularisation, for given `deltas`. -/
def backwardLoops (w : Weights) (N : ℕ) (x δ : Batch) : Outcome (Batch × Weights) :=
  forLoop N (fun n => forLoop g.fmout fun fmo s => do
    let r ← forLoop g.fmin (g.backFmi w x δ n fmo) (s, 0)
    pure r.1) (fun _ _ => 0, fun _ => 0)

/-- Column of the value at `(row, col)` of an output feature map. -/
def outIdx (fmo row col : ℕ) : ℕ := fmo * g.fmOutSize + row * g.maxCol + col

/-- Column of the value at `(row, col)` of an input feature map. -/
def inIdx (fmi row col : ℕ) : ℕ := fmi * g.fmInSize + row * g.inCols + col

/-- The contribution of input map `fmi` to the value of output map `fmo` at `(row, col)`. -/
def window (w : Weights) (x : Batch) (n fmo fmi row col : ℕ) : ℝ :=
  ∑ kr ∈ range g.kernelRows, ∑ kc ∈ range g.kernelCols,
    w (.w [fmo, fmi, kr, kc]) * x n (g.inIdx fmi (row + kr) (col + kc))

/-- What the loops leave in `a`: every position of every pair of maps adds to one entry. -/
def activation (w : Weights) (x : Batch) : Batch := fun n o =>
  ∑ fmo ∈ range g.fmout, ∑ fmi ∈ range g.fmin, ∑ row ∈ range g.maxRow, ∑ col ∈ range g.maxCol,
    if g.outIdx fmo row col = o then
      g.window w x n fmo fmi row col + (if g.bias then w (.b [fmo, fmi]) else 0)
    else 0

/-- What the loops leave in `e`. -/
def errorSignal (w : Weights) (δ : Batch) : Batch := fun n p =>
  ∑ fmo ∈ range g.fmout, ∑ fmi ∈ range g.fmin, ∑ row ∈ range g.maxRow, ∑ col ∈ range g.maxCol,
    ∑ kr ∈ range g.kernelRows, ∑ kc ∈ range g.kernelCols,
      if g.inIdx fmi (row + kr) (col + kc) = p then w (.w [fmo, fmi, kr, kc]) * δ n (g.outIdx fmo row col) else 0

/-- What the loops leave in the derivative buffers. -/
def weightDerivs (N : ℕ) (x δ : Batch) : Weights
  | .w [fmo, fmi, kr, kc] => ∑ n ∈ range N, ∑ row ∈ range g.maxRow, ∑ col ∈ range g.maxCol,
      δ n (g.outIdx fmo row col) * x n (g.inIdx fmi (row + kr) (col + kc))
  | .b [fmo, _] => ∑ n ∈ range N, ∑ row ∈ range g.maxRow, ∑ col ∈ range g.maxCol, δ n (g.outIdx fmo row col)
  | _ => 0

/-- src/Convolutional.cpp as a layer; lines 145-158 and 164-168, 211-225 around the loops.  `backpropToPrevious` is
ignored. -/
def layer : Layer where
  inputs := g.inputs
  outputs := g.outputs
  pointers := g.slots
  derivPointers := g.slots
  forward w _ x := g.act.map (g.activation w x)
  regError w := g.reg.error
    (∑ fmo ∈ range g.fmout, ∑ fmi ∈ range g.fmin, ∑ kr ∈ range g.kernelRows, ∑ kc ∈ range g.kernelCols,
      |w (.w [fmo, fmi, kr, kc])|)
    (∑ fmo ∈ range g.fmout, ∑ fmi ∈ range g.fmin, ∑ kr ∈ range g.kernelRows, ∑ kc ∈ range g.kernelCols,
      w (.w [fmo, fmi, kr, kc]) ^ 2)
  derivs w N x ein
    | .w idx => g.weightDerivs N x (deltas g.act (g.act.map (g.activation w x)) ein) (.w idx) + g.reg.deriv (w (.w idx))
    | .b idx => g.weightDerivs N x (deltas g.act (g.act.map (g.activation w x)) ein) (.b idx)
  back w _ x ein _ _ := g.errorSignal w (deltas g.act (g.act.map (g.activation w x)) ein)
  updated w := w

end

end Conv

end Verif.NN
