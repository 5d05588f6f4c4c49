import Verif.Model.Layer
import Verif.Model.Loop
import Mathlib.Analysis.SpecialFunctions.Pow.Real

/-!
# Local response normalisation (src/LocalResponseNormalization.cpp)

In both passes the loop variable `n` (the index of the instance in the batch) hides the member `n` (the size of the
neighbourhood), so that the member is not used at all.
-/

namespace Verif.NN

open Finset

/-- The members that the constructor sets, src/LocalResponseNormalization.cpp lines 7-13. -/
structure LRN where
  fm : ℕ
  rows : ℕ
  cols : ℕ
  k : ℝ
  /-- the member `n` -/
  size : ℕ
  alpha : ℝ
  beta : ℝ

namespace LRN

variable (g : LRN)

/-- line 19 -/
def fmSize : ℕ := g.rows * g.cols

/-- `I` -/
def inputs : ℕ := g.fm * g.rows * g.cols

/-- Lines 49-51 and 85-87: the maps that the loops visit for map `fmOut` and loop variable `n`. -/
def maps (n fmOut : ℕ) : Finset ℕ := Finset.Ico (fmOut - n / 2) (min (g.fm - 1) (fmOut + n / 2))

noncomputable section

/-- Lines 48-57: `denoms(n, outputIdx)` for `outputIdx = fmOut * fmSize + p`, where `p = r * cols + c`. -/
def denom (x : Batch) (n fmOut p : ℕ) : ℝ :=
  g.k + g.alpha * ∑ fmIn ∈ g.maps n fmOut, x n (fmIn * g.fmSize + p) * x n (fmIn * g.fmSize + p)

/-- Lines 42-61: the loops visit the outputs in order, `outputIdx` counts them; map and place in the map of an output. -/
def denomAt (x : Batch) (n o : ℕ) : ℝ := g.denom x n (o / g.fmSize) (o % g.fmSize)

/-- Lines 29-64. -/
def forward (x : Batch) : Batch := fun n o => x n o * g.denomAt x n o ^ (-g.beta)

/-- Lines 72-73. -/
def etmp (x ein : Batch) : Batch := fun n o =>
  ein n o * g.forward x n o * (g.denomAt x n o)⁻¹ * (-2 * g.alpha * g.beta)

/-- Lines 84-90; `etmp(i)` with one index counts through the columns of the `N x I` matrix. -/
def backward (N : ℕ) (x ein : Batch) : Batch := fun n o =>
  x n o * (∑ fmIn ∈ g.maps n (o / g.fmSize),
      g.etmp x ein ((fmIn * g.fmSize + o % g.fmSize) % N) ((fmIn * g.fmSize + o % g.fmSize) / N)) +
    ein n o * g.denomAt x n o ^ (-g.beta)

/-- src/LocalResponseNormalization.cpp as a layer. -/
def layer : Layer where
  inputs := g.inputs
  outputs := g.inputs
  pointers := []
  derivPointers := []
  forward _ _ x := g.forward x
  regError _ := 0
  derivs _ _ _ _ := fun _ => 0
  back _ N x ein _ _ := g.backward N x ein
  updated w := w

end

end LRN

end Verif.NN
