import Verif.Model.Matrix
import Verif.Model.RandomState
import Mathlib.Analysis.Real.Sqrt

/-!
# Preprocessing (src/Preprocessing.cpp, src/Normalization.cpp)
-/

namespace Verif.Pre

open Outcome

noncomputable section

/-! ## Normalization.cpp -/

/-- Members of `Normalization` (OpenANN/Normalization.h 16-17): row vectors with `cols` entries, 0 before `fit`. -/
structure Normalization where
  cols : ℕ
  mean : ℕ → ℝ
  std : ℕ → ℝ

/-- line 7 -/
def Normalization.new : Normalization := ⟨0, fun _ => 0, fun _ => 0⟩

/-- `X.colwise().mean()` (line 13); not a number for a matrix without rows -/
def colMean (X : Mat) (d : ℕ) : ℝ := (∑ n ∈ Finset.range X.rows, X.val n d) / X.rows

/-- lines 17-18: the standard deviations of an earlier `fit` are replaced by zeros -/
def setZero (_ : ℕ → ℝ) : ℕ → ℝ := fun _ => 0

/-- lines 19-26: the sums of squared deviations are added to `std` -/
def squares (X : Mat) (mean std : ℕ → ℝ) : Outcome (ℕ → ℝ) :=
  forLoop X.rows (fun n s => forLoop X.cols (fun d s => do
    let x ← X.get n d
    ok (fun e => if e = d then s e + (x - mean d) * (x - mean d) else s e)) s) std

/-- line 31-33 -/
def avoidZero (x : ℝ) : ℝ := if x = 0 then 1 else x

/-- lines 11-35 -/
def Normalization.fit (N : Normalization) (X : Mat) : Outcome Normalization := do
  let s ← squares X (colMean X) (setZero N.std)
  ok ⟨X.cols, colMean X, fun d => avoidZero (Real.sqrt (s d / X.rows))⟩

/-- lines 37-46 -/
def Normalization.transform (N : Normalization) (X : Mat) : Outcome Mat := do
  check (0 < N.cols)
  check (X.cols = N.cols)
  ok ⟨X.rows, X.cols, fun n d => (X.val n d - N.mean d) * (N.std d)⁻¹⟩

/-! ## Preprocessing.cpp -/

/-- The coefficients of a matrix. -/
def entries (X : Mat) : Finset (ℕ × ℕ) := Finset.range X.rows ×ˢ Finset.range X.cols

/-- lines 9-19.  Eigen's `minCoeff` and `maxCoeff` are the extreme coefficients (undefined for an empty matrix).  `ok none`: all
coefficients are not a number, because the range of the data is zero (then `scaling` is infinite, and
`x * inf + (min - x * inf)` is not a number for all x). -/
def scaleData (X : Mat) (min max : ℝ) : Outcome (Option Mat) :=
  if max ≤ min then throws
  else if h : (entries X).Nonempty then
    let minData := (entries X).inf' h fun p => X.val p.1 p.2
    let maxData := (entries X).sup' h fun p => X.val p.1 p.2
    let scaling := (max - min) / (maxData - minData)
    if maxData - minData = 0 then ok none
    else ok (some ⟨X.rows, X.cols, fun i j => X.val i j * scaling + (min - minData * scaling)⟩)
  else ub

/-- The value of the signal `x` at the time `t - pq`, before the beginning reflected (lines 35-38, 42-45) -/
def source (x : Mat) (c t pq : ℕ) : Outcome ℝ := x.get c (if 0 ≤ (t : ℤ) - pq then (t : ℤ) - pq else -((t : ℤ) - pq))

/-- lines 33-39 -/
def feedForward (x : Mat) (b : List ℝ) (c t pq : ℕ) (y : Mat) : Outcome Mat :=
  if pq < b.length then do
    let s ← source x c t pq
    let v ← y.get c t
    let w ← Outcome.read b pq
    y.set c t (v + w * s)
  else ok y

/-- lines 40-46 -/
def feedBack (x : Mat) (a : List ℝ) (c t pq : ℕ) (y : Mat) : Outcome Mat :=
  if 0 < pq ∧ pq < a.length then do
    let s ← source x c t pq
    let v ← y.get c t
    let w ← Outcome.read a pq
    y.set c t (v + w * s)
  else ok y

/-- line 48 -/
def divide (a : List ℝ) (c t : ℕ) (y : Mat) : Outcome Mat := do
  let v ← y.get c t
  let w ← Outcome.read a 0
  y.set c t (v / w)

/-- lines 27-49 for the time `t` -/
def filterStep (x : Mat) (b a : List ℝ) (c t : ℕ) (y : Mat) : Outcome Mat := do
  let y' ← forLoop (max b.length a.length) (fun pq y => feedForward x b c t pq y >>= feedBack x a c t pq) y
  divide a c t y'

/-- lines 21-51; the coefficients are column vectors, `y` has the size the caller gave it -/
def filter (x y : Mat) (b a : List ℝ) : Outcome Mat :=
  forLoop x.rows (fun c y => forLoop x.cols (fun t y => filterStep x b a c t y) y) ⟨y.rows, y.cols, fun _ _ => 0⟩

/-- lines 53-59 -/
def downsample (y d : Mat) (factor : ℤ) : Outcome Mat :=
  forLoop y.rows (fun c d => do
    let r ← forLoop d.cols (fun target (s : Mat × ℤ) => do
      let v ← y.get c s.2
      let d' ← s.1.set c target v
      ok (d', s.2 + factor)) (d, (0 : ℤ))
    ok r.1) d

/-- Arguments of `sampleRandomPatches` besides the images. -/
structure Patch where
  channels : ℕ
  rows : ℕ
  cols : ℕ
  samples : ℕ
  patchRows : ℕ
  patchCols : ℕ

/-- lines 71-76: the upper left corners; `r` and `s` are the values of `rand()` that are used for them -/
def patchIndices (p : Patch) (r s : ℕ → ℕ) (total : ℕ) : Outcome (List (ℤ × ℤ)) :=
  forLoop total (fun n l => do
    let a ← Rng.generateInt (r n) 0 ((p.rows : ℤ) - p.patchRows + 1)
    let b ← Rng.generateInt (s n) 0 ((p.cols : ℤ) - p.patchCols + 1)
    ok (l ++ [(a, b)])) []

/-- lines 86-93: one patch; the state is the matrix of patches and `pxIdx` -/
def copyPatch (p : Patch) (images : Mat) (m patchIdx : ℕ) (corner : ℤ × ℤ) (patches : Mat) : Outcome Mat := do
  let r ← forLoop p.channels (fun chan s => forLoop p.patchRows (fun row s => forLoop p.patchCols (fun col (s : Mat × ℕ) => do
    let v ← images.get m (((chan * (p.rows * p.cols) : ℕ) : ℤ) + (corner.1 + row) * p.cols + corner.2 + col)
    let q ← s.1.set patchIdx s.2 v
    ok (q, s.2 + 1)) s) s) (patches, 0)
  ok r.1

/-- lines 81-94: the patches of the image `m` -/
def imagePatches (p : Patch) (images : Mat) (corners : List (ℤ × ℤ)) (m : ℕ) (patches : Mat) : Outcome Mat :=
  forLoop p.samples (fun n q => do
    let corner ← Outcome.read corners (m * p.samples + n)
    copyPatch p images m (m * p.samples + n) corner q) patches

/-- lines 61-97.  The images are processed in parallel; `order` is the order in which this happens.  `junk` is the content of
the uninitialised matrix. -/
def sampleRandomPatches (images : Mat) (p : Patch) (r s : ℕ → ℕ) (order : List ℕ) (junk : ℕ → ℕ → ℝ) : Outcome Mat := do
  let corners ← patchIndices p r s (images.rows * p.samples)
  order.foldlM (fun q m => imagePatches p images corners m q)
    ⟨images.rows * p.samples, p.channels * p.patchRows * p.patchCols, junk⟩

end

end Verif.Pre
