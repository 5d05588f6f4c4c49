import Verif.Model.Loop
import Mathlib.Analysis.SpecialFunctions.Trigonometric.Basic

/-!
# Compression matrices (src/CompressionMatrixFactory.cpp, src/Compressor.cpp)

The random numbers of the Gaussian and sparse random transformations are an argument: `draw m i` is the number drawn for
entry `(m, i)`.
-/

namespace Verif.Compression

open Finset

noncomputable section

/-- A matrix with its size. -/
structure Mat where
  rows : ℕ
  cols : ℕ
  at_ : ℕ → ℕ → ℝ

/-- OpenANN/CompressionMatrixFactory.h lines 20-26 -/
inductive Transformation where
  | dct
  | gaussian
  | sparseRandom
  | average
  | edge

/-- OpenANN/CompressionMatrixFactory.h lines 20-27 -/
structure Factory where
  compress : Bool
  transformation : Transformation
  inputDim : ℤ
  paramDim : ℤ

/-- src/CompressionMatrixFactory.cpp lines 14-23 -/
def Factory.new (inputDim paramDim : ℤ) (t : Transformation) : Outcome Factory :=
  if inputDim < 1 then .throws
  else if paramDim < 1 then .throws
  else .ok ⟨true, t, inputDim, paramDim⟩

/-- src/CompressionMatrixFactory.cpp lines 47-85: the new content of entry `(m, i)` whose content was `old`; `ratio` is
`compressionRatio`.  `i / 0` is undefined. -/
def entry (t : Transformation) (inputDim paramDim ratio : ℕ) (draw : ℕ → ℕ → ℝ) (m i : ℕ) (old : ℝ) : Outcome ℝ :=
  match t with
  | .dct => .ok (Real.cos (m * Real.pi * (if inputDim < 2 then 0 else (i : ℝ) / ((inputDim : ℝ) - 1))))
  | .gaussian => .ok (draw m i / paramDim)
  | .sparseRandom =>
    .ok (if draw m i < 1 / 6 then 1 / Real.sqrt paramDim else if draw m i < 5 / 6 then 0 else -1 / Real.sqrt paramDim)
  | .average => if ratio = 0 then .ub else .ok (if i / ratio = m then 1 / (ratio : ℝ) else old)
  | .edge =>
    if ratio = 0 then .ub
    else .ok (if i / ratio = m then (if i % ratio < ratio / 2 then -2 / (ratio : ℝ) else 2 / (ratio : ℝ)) else old)

/-- assignment to entry `(m, i)` -/
def Mat.set (cm : Mat) (m i : ℕ) (v : ℝ) : Mat :=
  { cm with at_ := fun m' i' => if m' = m ∧ i' = i then v else cm.at_ m' i' }

/-- src/CompressionMatrixFactory.cpp lines 45-87: the body of the inner loop; the bounds are asserted by Eigen -/
def fillStep (t : Transformation) (inputDim paramDim ratio : ℕ) (draw : ℕ → ℕ → ℝ) (i m : ℕ) (cm : Mat) : Outcome Mat :=
  if m < cm.rows ∧ i < cm.cols then do
    let v ← entry t inputDim paramDim ratio draw m i (cm.at_ m i)
    pure (cm.set m i v)
  else .ub

/-- src/CompressionMatrixFactory.cpp lines 38-89 -/
def fill (t : Transformation) (inputDim paramDim : ℕ) (draw : ℕ → ℕ → ℝ) (cm : Mat) : Outcome Mat :=
  if cm.rows = 0 then .ub
  else
    forLoop inputDim (fun i => forLoop paramDim fun m =>
      fillStep t inputDim paramDim (cm.cols / cm.rows) draw i m) cm

/-- src/CompressionMatrixFactory.cpp lines 27-28 -/
def Factory.resize (f : Factory) (cm : Mat) : Mat :=
  if (cm.rows : ℤ) < f.paramDim ∨ (cm.cols : ℤ) < f.inputDim then ⟨f.paramDim.toNat, f.inputDim.toNat, fun _ _ => 0⟩ else cm

/-- src/CompressionMatrixFactory.cpp lines 25-36 -/
def Factory.create (f : Factory) (draw : ℕ → ℕ → ℝ) (cm : Mat) : Outcome Mat :=
  if f.compress then
    fill f.transformation f.inputDim.toNat f.paramDim.toNat draw { f.resize cm with at_ := fun _ _ => 0 }
  else .ok { f.resize cm with at_ := fun m i => if m = i then 1 else 0 }

/-- src/Compressor.cpp lines 6-12; a matrix of negative size violates an assertion of Eigen. -/
def compressor (inputDim outputDim : ℤ) (t : Transformation) (draw : ℕ → ℕ → ℝ) : Outcome Mat :=
  if outputDim < 0 ∨ inputDim < 0 then .ub
  else do
    let f ← Factory.new inputDim outputDim t
    f.create draw ⟨outputDim.toNat, inputDim.toNat, fun _ _ => 0⟩

/-- src/Compressor.cpp lines 24-27: row `n` of `X * cm.transpose()`, entry `m` -/
def Mat.transform (cm : Mat) (x : ℕ → ℝ) (m : ℕ) : ℝ := ∑ i ∈ range cm.cols, x i * cm.at_ m i

end

end Verif.Compression
