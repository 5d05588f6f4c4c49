import Verif.Model.Loop
import Mathlib.Analysis.SpecialFunctions.Trigonometric.Basic
import Mathlib.Analysis.SpecialFunctions.Sqrt
import Mathlib.Algebra.Order.Archimedean.Real.Basic

/-!
# The image distorter of the MNIST benchmark

benchmarks/mnist/Distorter.h. Pixels and displacements are real numbers instead of `double`, so that the
`OPENANN_CHECK_MATRIX_BROKEN` checks (which look for NaN and infinity) never fail. The numbers of rows and columns are
natural numbers. The random numbers are arguments.
-/

namespace Verif.Distorter

open Finset

noncomputable section

/-- The parameters of a distorter (benchmarks/mnist/Distorter.h:36-44); the size of the kernel is always 21 (line 54). -/
structure Config where
  sigma : ℝ
  alpha : ℝ
  beta : ℝ
  gammaX : ℝ
  gammaY : ℝ

/-- The default arguments of the constructor (benchmarks/mnist/Distorter.h:51-52). -/
def default : Config := ⟨5, 36 / 255, 15, 15, 15⟩

/-- The Gaussian kernel, filled in by the constructor (benchmarks/mnist/Distorter.h:57-64); `kernelCenter` is 21 / 2. -/
def kernel (d : Config) (row col : ℕ) : ℝ :=
  Real.sqrt (2 * Real.pi) / (d.sigma + 1 / 10 ^ 10) *
    Real.exp (-(2 / (d.sigma * d.sigma)) * (((row : ℝ) - 10) ^ 2 + ((col : ℝ) - 10) ^ 2))

/-- What one call of `createDistortionMap` draws: two matrices from `MatrixXd::Random` (lines 71-72) and three numbers
from `rng.generate<double>(-1.0, 2.0)` (lines 106, 107, 122). -/
structure Draws where
  uniformH : ℕ → ℕ → ℝ
  uniformV : ℕ → ℕ → ℝ
  horizontal : ℝ
  vertical : ℝ
  angle : ℝ

/-- `distortionH` and `distortionV` (benchmarks/mnist/Distorter.h:49). -/
structure Field where
  H : ℕ → ℕ → ℝ
  V : ℕ → ℕ → ℝ

/-- `convolvedH` or `convolvedV` (benchmarks/mnist/Distorter.h:83-96). `inputRow = r - 10 + kr` is compared with 0 and
`rows` as an integer. -/
def convolved (k : ℕ → ℕ → ℝ) (rows cols : ℕ) (u : ℕ → ℕ → ℝ) (r c : ℕ) : ℝ :=
  ∑ kr ∈ range 21, ∑ kc ∈ range 21,
    if 0 ≤ (r : ℤ) - 10 + kr ∧ (r : ℤ) - 10 + kr < rows ∧ 0 ≤ (c : ℤ) - 10 + kc ∧ (c : ℤ) - 10 + kc < cols then
      u ((r : ℤ) - 10 + kr).toNat ((c : ℤ) - 10 + kc).toNat * k kr kc
    else 0

/-- The elastic distortion (benchmarks/mnist/Distorter.h:75-100). The loops write every entry once. -/
def elastic (d : Config) (rows cols : ℕ) (x : Draws) : Field where
  H r c := d.alpha * convolved (kernel d) rows cols x.uniformH r c
  V r c := d.alpha * convolved (kernel d) rows cols x.uniformV r c

/-- Adding the scaling (benchmarks/mnist/Distorter.h:109-117). -/
def addScaling (ic hs vs : ℝ) (f : Field) : Field where
  H r c := f.H r c + hs * (c - ic)
  V r c := f.V r c - vs * (ic - r)

/-- Adding the rotation (benchmarks/mnist/Distorter.h:123-133). -/
def addRotation (ic angle : ℝ) (f : Field) : Field where
  H r c := f.H r c + ((c - ic) * (Real.cos angle - 1) - (ic - r) * Real.sin angle)
  V r c := f.V r c - ((ic - r) * (Real.cos angle - 1) - (c - ic) * Real.sin angle)

/-- `createDistortionMap` (benchmarks/mnist/Distorter.h:68-136). -/
def createDistortionMap (d : Config) (rows cols : ℕ) (x : Draws) : Outcome Field := do
  Outcome.check (cols = rows)
  let ic : ℝ := (rows / 2 : ℕ)
  pure (addRotation ic (d.beta * x.angle * Real.pi / 180)
    (addScaling ic (x.horizontal * d.gammaX / 100) (x.vertical * d.gammaY / 100) (elastic d rows cols x)))

/-- `while(n >= size) n -= size;` (benchmarks/mnist/Distorter.h:171, 173). The loops for negative numbers (lines 172 and
174) do nothing, because the numbers are at least 1 before. -/
def wrap (size n : ℕ) : ℕ :=
  if _h : size ≤ n ∧ 0 < size then wrap size (n - size) else n
termination_by n

/-- One round of the inner loop of `applyDistortion` (benchmarks/mnist/Distorter.h:158-179). In the branch the
coordinates are not negative, so that the conversion to `int` is the floor. -/
def pixel (f : Field) (rows cols : ℕ) (input : List ℝ) (r c : ℕ) (inst : List ℝ) : Outcome (List ℝ) :=
  let sourceRow : ℝ := r - f.V r c
  let sourceCol : ℝ := c - f.H r c
  let rowFraction : ℝ := sourceRow - ⌈sourceRow⌉
  let colFraction : ℝ := sourceCol - ⌈sourceCol⌉
  let w1 := (1 - rowFraction) * (1 - colFraction)
  let w2 := (1 - rowFraction) * colFraction
  let w3 := rowFraction * (1 - colFraction)
  let w4 := rowFraction * colFraction
  if ¬ (sourceRow + 1 ≥ rows ∨ sourceRow < 0 ∨ sourceCol + 1 > cols ∨ sourceCol < 0) then do
    let sr := ⌊sourceRow⌋.toNat
    let sc := ⌊sourceCol⌋.toNat
    let srn := wrap rows (sr + 1)
    let scn := wrap cols (sc + 1)
    let p1 ← Outcome.read input (sr * cols + sc)
    let p2 ← Outcome.read input (sr * cols + scn)
    let p3 ← Outcome.read input (srn * cols + sc)
    let p4 ← Outcome.read input (srn * cols + scn)
    Outcome.write inst (r * cols + c) (w1 * p1 + w2 * p2 + w3 * p3 + w4 * p4)
  else .ok inst

/-- The loops of `applyDistortion` (benchmarks/mnist/Distorter.h:153-181). -/
def applyField (f : Field) (rows cols : ℕ) (image : List ℝ) : Outcome (List ℝ) :=
  forLoop rows (fun r => forLoop cols (pixel f rows cols image r)) image

/-- `applyDistortion` (benchmarks/mnist/Distorter.h:150-182). -/
def applyDistortion (d : Config) (rows cols : ℕ) (x : Draws) (image : List ℝ) : Outcome (List ℝ) := do
  let f ← createDistortionMap d rows cols x
  applyField f rows cols image

/-- `applyDistortions` (benchmarks/mnist/Distorter.h:139-148); `images` are the columns of the matrix, `x n` is drawn for
column `n`. -/
def applyDistortions (d : Config) (rows cols : ℕ) (x : ℕ → Draws) (images : List (List ℝ)) :
    Outcome (List (List ℝ)) :=
  forLoop images.length (fun n imgs => do
    let i ← Outcome.read imgs n
    let o ← applyDistortion d rows cols (x n) i
    Outcome.write imgs n o) images

end

end Verif.Distorter
