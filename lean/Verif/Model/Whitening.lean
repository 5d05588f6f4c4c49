import Verif.Model.Outcome
import Mathlib.Analysis.Real.Sqrt
import Mathlib.Data.Matrix.Mul
import Mathlib.Data.Matrix.Diagonal
import Mathlib.Algebra.BigOperators.Fin

/-!
# Principal component analysis and whitening

src/PCA.cpp, src/ZCAWhitening.cpp.  Arithmetic on real numbers.  The singular value decomposition `Eigen::JacobiSVD` is an input of
the model: `S` are the singular values, `V` is the full matrix of right singular vectors.
-/

namespace Verif.White

open Outcome Matrix

noncomputable section

/-- `X.colwise().mean()` -/
def colMean {N D : ℕ} (X : Matrix (Fin N) (Fin D) ℝ) (d : Fin D) : ℝ := (∑ n, X n d) / N

/-- `X.rowwise() -= mean.transpose()` -/
def align {N D : ℕ} (X : Matrix (Fin N) (Fin D) ℝ) (mean : Fin D → ℝ) : Matrix (Fin N) (Fin D) ℝ := fun n d => X n d - mean d

/-- class `PCA` after a call of `fit` with `D` features (OpenANN/PCA.h:15-21); `evr` has `components` entries -/
structure Fitted (D : ℕ) where
  mean : Fin D → ℝ
  W : Matrix (Fin D) (Fin D) ℝ
  evr : ℕ → ℝ

/-- result of `Eigen::JacobiSVD` with `ComputeFullV` for a `N` x `D` matrix; `S` has `min N D` entries -/
structure SVD (D : ℕ) where
  S : ℕ → ℝ
  V : Matrix (Fin D) (Fin D) ℝ

/-- src/PCA.cpp:25-27: the columns of `V` are divided by `S` element by element, so that row `i` is divided by `S(i)`; vectors of
different length violate an assertion of Eigen -/
def whitenRows {D : ℕ} (N : ℕ) (S : ℕ → ℝ) (V : Matrix (Fin D) (Fin D) ℝ) : Outcome (Matrix (Fin D) (Fin D) ℝ) :=
  if D = 0 ∨ min N D = D then ok (Matrix.of fun i d => V i d / S i) else ub

/-- `PCA::fit`, src/PCA.cpp:13-35; `svd` is the decomposition, `junk` the content of new elements after `conservativeResize` -/
def pcaFit {N D : ℕ} (whiten : Bool) (svd : Matrix (Fin N) (Fin D) ℝ → SVD D) (junk : ℕ → ℝ)
    (X : Matrix (Fin N) (Fin D) ℝ) : Outcome (Fitted D) := do
  let mean := colMean X
  let r := svd (align X mean)
  let S : ℕ → ℝ := fun i => r.S i / Real.sqrt N
  let W ← (if whiten then whitenRows N S r.V else ok r.V)
  ok ⟨mean, W, fun i => if i < min N D then S i ^ 2 / ∑ j ∈ Finset.range (min N D), S j ^ 2 else junk i⟩

/-- `PCA::transform`, src/PCA.cpp:37-44 (`none`: `fit` has not been called); the first `components` rows of `W` are used -/
def pcaTransform {D M D' : ℕ} (components : ℕ) (p : Option (Fitted D)) (X : Matrix (Fin M) (Fin D') ℝ) :
    Outcome (Matrix (Fin M) (Fin components) ℝ) :=
  match p with
  | none => checkFailed
  | some p =>
    if 0 < D then
      if h : D' = D then
        if hc : components ≤ D then
          ok ((align (X.submatrix id (Fin.cast h.symm)) p.mean) * (p.W.submatrix (Fin.castLE hc) id)ᵀ)
        else ub
      else checkFailed
    else checkFailed

/-- class `ZCAWhitening` after a call of `fit` -/
structure Zca (D : ℕ) where
  mean : Fin D → ℝ
  W : Matrix (Fin D) (Fin D) ℝ

/-- src/ZCAWhitening.cpp:16 -/
def zcaCov {N D : ℕ} (X : Matrix (Fin N) (Fin D) ℝ) : Matrix (Fin D) (Fin D) ℝ :=
  (1 / ((N : ℝ) - 1)) • ((align X (colMean X))ᵀ * align X (colMean X))

/-- `ZCAWhitening::fit`, src/ZCAWhitening.cpp:9-26; `N = 1` divides by zero -/
def zcaFit {N D : ℕ} (svd : Matrix (Fin D) (Fin D) ℝ → SVD D) (X : Matrix (Fin N) (Fin D) ℝ) : Zca D :=
  let r := svd (zcaCov X)
  ⟨colMean X, (Matrix.of fun i d => r.V i d / Real.sqrt (r.S d + 1e-5)) * r.Vᵀ⟩

/-- `ZCAWhitening::transform`, src/ZCAWhitening.cpp:28-35 -/
def zcaTransform {D M D' : ℕ} (p : Option (Zca D)) (X : Matrix (Fin M) (Fin D') ℝ) : Outcome (Matrix (Fin M) (Fin D) ℝ) :=
  match p with
  | none => checkFailed
  | some p =>
    if 0 < D then
      if h : D' = D then ok ((align (X.submatrix id (Fin.cast h.symm)) p.mean) * p.Wᵀ) else checkFailed
    else checkFailed

end

end Verif.White
