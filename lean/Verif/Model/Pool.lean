import Verif.Model.Layer
import Verif.Model.Loop

/-!
# Max-pooling and subsampling (src/MaxPooling.cpp, src/Subsampling.cpp)

Both layers visit the windows of all feature maps with the same three loops (`Pool.windowLoop`); the bodies of the loops
follow the code statement by statement with their running index into the row of the input, and every access is checked.

`#pragma omp parallel for` distributes the rows of the batch over threads; see `Verif.Props.ParallelLayers` (C94).
-/

namespace Verif.NN

open Finset

/-- The sizes that the constructors store, src/MaxPooling.cpp lines 11-14, src/Subsampling.cpp lines 12-16. -/
structure Pool where
  fm : ℕ
  inRows : ℕ
  inCols : ℕ
  kernelRows : ℕ
  kernelCols : ℕ

/-- The checks at the end of both `initialize` functions: src/MaxPooling.cpp lines 34-44, src/Subsampling.cpp lines
69-80. -/
def poolChecks (fm inRows inCols kernelRows kernelCols : ℤ) : Outcome (ℤ × ℤ × ℤ) :=
  if fm * inRows.tdiv kernelRows * inCols.tdiv kernelCols < 1 then .throws
  else do
    Outcome.check (inRows * inCols > 0)
    Outcome.check (inRows.tdiv kernelRows > 0)
    Outcome.check (inCols.tdiv kernelCols > 0)
    Outcome.check (inRows.tdiv kernelRows * inCols.tdiv kernelCols > 0)
    Outcome.check (inRows - kernelRows + 1 > 0)
    Outcome.check (inCols - kernelCols + 1 > 0)
    pure (fm, inRows.tdiv kernelRows, inCols.tdiv kernelCols)

/-- src/MaxPooling.cpp lines 18-45, `initialize`: the dimensions it returns.  Division by zero in lines 23-24 is undefined,
resizing to a negative number of columns in line 32 is an Eigen assertion. -/
def maxPoolInit (fm inRows inCols kernelRows kernelCols : ℤ) : Outcome (ℤ × ℤ × ℤ) :=
  if kernelRows = 0 ∨ kernelCols = 0 then .ub
  else if fm * inRows.tdiv kernelRows * inCols.tdiv kernelCols < 0 then .ub
  else poolChecks fm inRows inCols kernelRows kernelCols

/-- src/Subsampling.cpp lines 20-81, `initialize`; lines 34-35 create matrices with `outRows` rows and `outCols` columns,
negative sizes are Eigen assertions. -/
def subsamplingInit (fm inRows inCols kernelRows kernelCols : ℤ) : Outcome (ℤ × ℤ × ℤ) :=
  if kernelRows = 0 ∨ kernelCols = 0 then .ub
  else if inRows.tdiv kernelRows < 0 ∨ inCols.tdiv kernelCols < 0 then .ub
  else if fm < 0 then .throws
  else poolChecks fm inRows inCols kernelRows kernelCols

/-- The variables of the loops over the windows: what the body changes, `ro`, `co` and `outputIdx`. -/
structure Cursor (σ : Type) where
  st : σ
  ro : ℕ
  co : ℕ
  outputIdx : ℕ

namespace Pool

variable (g : Pool)

/-- `outRows = inRows / kernelRows` -/
def outRows : ℕ := g.inRows / g.kernelRows

/-- `outCols = inCols / kernelCols` -/
def outCols : ℕ := g.inCols / g.kernelCols

/-- `maxRow = inRows - kernelRows + 1` -/
def maxRow : ℕ := g.inRows - g.kernelRows + 1

/-- `maxCol = inCols - kernelCols + 1` -/
def maxCol : ℕ := g.inCols - g.kernelCols + 1

/-- `fmInSize = inRows * inCols` -/
def fmInSize : ℕ := g.inRows * g.inCols

/-- `fmOutSize = outRows * outCols` -/
def fmOutSize : ℕ := g.outRows * g.outCols

/-- `info.outputs()`, the number of columns of `y` (and `a`, `yd`, `deltas`). -/
def outputs : ℕ := g.fm * g.outRows * g.outCols

/-- `I`, the number of columns of `x` (checked) and `e`. -/
def inputs : ℕ := g.fm * g.inRows * g.inCols

/-- src/MaxPooling.cpp lines 64-81 and 98-121, src/Subsampling.cpp lines 109-126 and 161-184: the loops over feature maps,
rows and columns.  The body gets `fmo`, `ro`, `co`, `rowBase + ci` and `outputIdx`. -/
def windowLoop {σ : Type} (body : ℕ → ℕ → ℕ → ℕ → ℕ → σ → Outcome σ) (s : σ) : Outcome σ := do
  let r ← forLoop g.fm (fun fmo c =>
    stepLoop g.maxRow g.kernelRows (fun ri c => do
      let c' ← stepLoop g.maxCol g.kernelCols (fun ci c => do
        let t ← body fmo c.ro c.co (fmo * g.fmInSize + ri * g.inCols + ci) c.outputIdx c.st
        pure { c with st := t, co := c.co + 1, outputIdx := c.outputIdx + 1 }) 0 { c with co := 0 }
      pure { c' with ro := c'.ro + 1 }) 0 { c with ro := 0 }) (⟨s, 0, 0, 0⟩ : Cursor σ)
  pure r.st

/-- Column of the value at `(row, col)` of an input feature map. -/
def inIdx (fmi row col : ℕ) : ℕ := fmi * g.fmInSize + row * g.inCols + col

/-- Column of the value at `(row, col)` of an output feature map. -/
def outIdx (fmo row col : ℕ) : ℕ := fmo * g.fmOutSize + row * g.outCols + col

/-- Feature map of an output. -/
def mapOf (o : ℕ) : ℕ := o / g.fmOutSize

/-- Row of an output in its feature map. -/
def rowOf (o : ℕ) : ℕ := o % g.fmOutSize / g.outCols

/-- Column of an output in its feature map. -/
def colOf (o : ℕ) : ℕ := o % g.fmOutSize % g.outCols

/-- `rowBase + ci`: the input that the window of output `o` starts with. -/
def base (o : ℕ) : ℕ := g.inIdx (g.mapOf o) (g.rowOf o * g.kernelRows) (g.colOf o * g.kernelCols)

noncomputable section

/-- `-std::numeric_limits<double>::max()` -/
def lowest : ℝ := -(2 ^ 1024 - 2 ^ 971)

/-! ## Max-pooling -/

/-- src/MaxPooling.cpp lines 72-77: `m` after the loops over one window; the index starts again at `rowBase + ci` for each
row of the kernel. -/
def maxLoop (x : Batch) (n base : ℕ) : Outcome ℝ :=
  forLoop g.kernelRows (fun _ m => do
    let r ← forLoop g.kernelCols (fun _ s =>
      if s.2 < g.inputs then .ok (max s.1 (x n s.2), s.2 + 1) else .ub) (m, base)
    pure r.1) lowest

/-- src/MaxPooling.cpp lines 62-82, for the old content `y0` of `y`. -/
def maxForward (N : ℕ) (x y0 : Batch) : Outcome Batch :=
  forLoop N (fun n => g.windowLoop fun _ _ _ base outputIdx y => do
    let m ← g.maxLoop x n base
    if outputIdx < g.outputs then pure (setEntry y n outputIdx m) else .ub) y0

/-- src/MaxPooling.cpp lines 106-117: `m` and `idx`; `none` is -1. -/
def argLoop (x : Batch) (n base : ℕ) : Outcome (ℝ × Option ℕ) :=
  forLoop g.kernelRows (fun _ m => do
    let r ← forLoop g.kernelCols (fun _ (s : (ℝ × Option ℕ) × ℕ) =>
      if s.2 < g.inputs then .ok (if s.1.1 < x n s.2 then (x n s.2, some s.2) else s.1, s.2 + 1) else .ub) (m, base)
    pure r.1) (lowest, none)

/-- Lines 118: `e(n, idx) = deltas(n, outputIdx)`, an Eigen assertion if `idx` is -1. -/
def writeError (e : Batch) (n : ℕ) (v : ℝ) : Option ℕ → Outcome Batch
  | some i => if i < g.inputs then .ok (setEntry e n i v) else .ub
  | none => .ub

/-- src/MaxPooling.cpp lines 90-122. -/
def maxBackward (N : ℕ) (x ein : Batch) : Outcome Batch :=
  forLoop N (fun n => g.windowLoop fun _ _ _ base outputIdx e => do
    let r ← g.argLoop x n base
    if outputIdx < g.outputs then g.writeError e n (ein n outputIdx) r.2 else .ub) (fun _ _ => 0)

/-- The largest of `lowest` and the first `k` values from column `base`. -/
def rowMax (x : Batch) (n base : ℕ) : ℕ → ℝ
  | 0 => lowest
  | k + 1 => max (rowMax x n base k) (x n (base + k))

/-- Column of the first maximum of the first `k` values from column `base`. -/
def rowArg (x : Batch) (n base : ℕ) : ℕ → Option ℕ
  | 0 => none
  | k + 1 => if rowMax x n base k < x n (base + k) then some (base + k) else rowArg x n base k

/-- src/MaxPooling.cpp as a layer; `Verif.Props.Pool` shows that the loops compute it.  The error signal is only
meaningful if every window contains a number above `lowest`. -/
def maxLayer : Layer where
  inputs := g.inputs
  outputs := g.outputs
  pointers := []
  derivPointers := []
  forward _ _ x := fun n o => rowMax x n (g.base o) g.kernelCols
  regError _ := 0
  derivs _ _ _ _ := fun _ => 0
  back _ _ x ein _ _ := fun n p =>
    ∑ o ∈ range g.outputs, if rowArg x n (g.base o) g.kernelCols = some p then ein n o else 0
  updated w := w

/-! ## Subsampling -/

/-- src/Subsampling.cpp lines 45-60 -/
def slots (bias : Bool) : List Slot :=
  (List.range g.fm).flatMap fun fmo => (List.range g.outRows).flatMap fun r => (List.range g.outCols).flatMap fun c =>
    Slot.w [fmo, r, c] :: if bias then [Slot.b [fmo, r, c]] else []

/-- src/Subsampling.cpp lines 117-121: `a(n, outputIdx)` after the loops over one window, from the value `v`. -/
def sumLoop (wt : ℝ) (x : Batch) (n base : ℕ) (v : ℝ) : Outcome ℝ :=
  forLoop g.kernelRows (fun _ v => do
    let r ← forLoop g.kernelCols (fun _ s =>
      if s.2 < g.inputs then .ok (s.1 + x n s.2 * wt, s.2 + 1) else .ub) (v, base)
    pure r.1) v

/-- src/Subsampling.cpp lines 105-127; `W[fmo](ro, co)` must exist. -/
def subForward (bias : Bool) (w : Weights) (N : ℕ) (x : Batch) : Outcome Batch :=
  forLoop N (fun n => g.windowLoop fun fmo ro co base outputIdx a =>
    if outputIdx < g.outputs ∧ fmo < g.fm ∧ ro < g.outRows ∧ co < g.outCols then do
      let v ← g.sumLoop (w (.w [fmo, ro, co])) x n base (a n outputIdx)
      pure (setEntry a n outputIdx (if bias then v + w (.b [fmo, ro, co]) else v))
    else .ub) (fun _ _ => 0)

/-- src/Subsampling.cpp lines 171-179: state are `e`, the derivative buffers and `inputIdx`. -/
def backLoop (wt d : ℝ) (sl : Slot) (x : Batch) (n base : ℕ) (s : Batch × Weights) : Outcome (Batch × Weights) :=
  forLoop g.kernelRows (fun _ s => do
    let r ← forLoop g.kernelCols (fun _ (s : (Batch × Weights) × ℕ) =>
      if s.2 < g.inputs then
        .ok ((setEntry s.1.1 n s.2 (s.1.1 n s.2 + wt * d), Function.update s.1.2 sl (s.1.2 sl + d * x n s.2)), s.2 + 1)
      else .ub) (s, base)
    pure r.1) s

/-- src/Subsampling.cpp lines 151-185: `e` and the derivative buffers before regularisation, for given `deltas`. -/
def subBackward (bias : Bool) (w : Weights) (N : ℕ) (x δ : Batch) : Outcome (Batch × Weights) :=
  forLoop N (fun n => g.windowLoop fun fmo ro co base outputIdx s =>
    if outputIdx < g.outputs ∧ fmo < g.fm ∧ ro < g.outRows ∧ co < g.outCols then do
      let r ← g.backLoop (w (.w [fmo, ro, co])) (δ n outputIdx) (.w [fmo, ro, co]) x n base s
      pure (r.1, if bias then
        Function.update r.2 (.b [fmo, ro, co]) (r.2 (.b [fmo, ro, co]) + δ n outputIdx) else r.2)
    else .ub) (fun _ _ => 0, fun _ => 0)

/-- What the loops add up for the window that starts at column `base`. -/
def rowSum (x : Batch) (n base : ℕ) : ℝ :=
  ∑ _kr ∈ range g.kernelRows, ∑ kc ∈ range g.kernelCols, x n (base + kc)

/-- What the forward loops leave in `a`. -/
def subActivation (bias : Bool) (w : Weights) (x : Batch) : Batch := fun n o =>
  g.rowSum x n (g.base o) * w (.w [g.mapOf o, g.rowOf o, g.colOf o]) +
    if bias then w (.b [g.mapOf o, g.rowOf o, g.colOf o]) else 0

/-- What the backward loops leave in `e`. -/
def subError (w : Weights) (δ : Batch) : Batch := fun n p =>
  ∑ o ∈ range g.outputs, ∑ _kr ∈ range g.kernelRows, ∑ kc ∈ range g.kernelCols,
    if g.base o + kc = p then w (.w [g.mapOf o, g.rowOf o, g.colOf o]) * δ n o else 0

/-- What the backward loops leave in the derivative buffers. -/
def subDerivs (N : ℕ) (x δ : Batch) : Weights
  | .w [fmo, r, c] => ∑ n ∈ range N, δ n (g.outIdx fmo r c) *
      g.rowSum x n (g.inIdx fmo (r * g.kernelRows) (c * g.kernelCols))
  | .b [fmo, r, c] => ∑ n ∈ range N, δ n (g.outIdx fmo r c)
  | _ => 0

/-- src/Subsampling.cpp as a layer; lines 129-138 and 144-149, 187-198 around the loops. -/
def subLayer (bias : Bool) (act : Act) (reg : Reg) : Layer where
  inputs := g.inputs
  outputs := g.outputs
  pointers := g.slots bias
  derivPointers := g.slots bias
  forward w _ x := act.map (g.subActivation bias w x)
  regError w := reg.error
    (∑ fmo ∈ range g.fm, ∑ r ∈ range g.outRows, ∑ c ∈ range g.outCols, |w (.w [fmo, r, c])|)
    (∑ fmo ∈ range g.fm, ∑ r ∈ range g.outRows, ∑ c ∈ range g.outCols, w (.w [fmo, r, c]) ^ 2)
  derivs w N x ein
    | .w idx => g.subDerivs N x (deltas act (act.map (g.subActivation bias w x)) ein) (.w idx) + reg.deriv (w (.w idx))
    | .b idx => g.subDerivs N x (deltas act (act.map (g.subActivation bias w x)) ein) (.b idx)
  back w _ x ein _ _ := g.subError w (deltas act (act.map (g.subActivation bias w x)) ein)
  updated w := w

end

end Pool

end Verif.NN
