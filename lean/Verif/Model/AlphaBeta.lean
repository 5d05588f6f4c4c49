import Mathlib.Analysis.SpecialFunctions.Pow.Real
import Mathlib.Algebra.BigOperators.Group.Finset.Basic

/-!
# The alpha-beta filter layer (src/AlphaBetaFilter.cpp)

Only row 0 of the input is used.  Input `i` has two outputs: `y(0, 2i)` is the estimated value, `y(0, 2i + 1)` its
estimated velocity.
-/

namespace Verif.AlphaBeta

noncomputable section

/-- Members of the filter (OpenANN/layers/AlphaBetaFilter.h lines 23-45) as functions of the index of the input. -/
structure Filter where
  deltaT : ℝ
  gamma : ℕ → ℝ
  alpha : ℕ → ℝ
  beta : ℕ → ℝ
  first : Bool
  value : ℕ → ℝ
  velocity : ℕ → ℝ

/-- line 43 -/
def root (g : ℝ) : ℝ := (4 + g - Real.sqrt (8 * g + g * g)) / 4

/-- lines 51-55 -/
def Filter.reset (f : Filter) : Filter := { f with first := true, value := fun _ => 0, velocity := fun _ => 0 }

/-- lines 38-49, after the network has written new numbers into `gamma` -/
def Filter.updatedParameters (f : Filter) : Filter :=
  Filter.reset { f with
    gamma := fun i => |f.gamma i|
    alpha := fun i => 1 - root |f.gamma i| * root |f.gamma i|
    beta := fun i => 2 * (1 - root |f.gamma i|) * (1 - root |f.gamma i|) }

/-- `Net::setParameters` writes `gamma` and calls `updatedParameters`. -/
def Filter.setParameters (f : Filter) (g : ℕ → ℝ) : Filter := Filter.updatedParameters { f with gamma := g }

/-- lines 63-68 -/
def Filter.start (f : Filter) (x : ℕ → ℝ) : Filter := if f.first then { f with value := x, first := false } else f

/-- lines 70-75: the new velocity -/
def Filter.newVelocity (f : Filter) (x : ℕ → ℝ) (i : ℕ) : ℝ := f.velocity i + f.beta i / f.deltaT * (x i - f.value i)

/-- lines 70-75: the new value, for the new velocity `v` -/
def Filter.newValue (f : Filter) (x : ℕ → ℝ) (i : ℕ) (v : ℝ) : ℝ :=
  f.value i + (f.alpha i * (x i - f.value i) + f.deltaT * v)

/-- lines 57-78 -/
def Filter.forward (f : Filter) (x : ℕ → ℝ) : Filter :=
  { f.start x with
    velocity := fun i => (f.start x).newVelocity x i
    value := fun i => (f.start x).newValue x i ((f.start x).newVelocity x i) }

/-- The output of one input: estimated value and velocity. -/
def Filter.output (f : Filter) (i : ℕ) : ℝ × ℝ := (f.value i, f.velocity i)

/-- What can happen to a filter. -/
inductive Op where
  | setParameters (g : ℕ → ℝ)
  | reset
  | forward (x : ℕ → ℝ)

def Filter.step (f : Filter) : Op → Filter
  | .setParameters g => f.setParameters g
  | .reset => f.reset
  | .forward x => f.forward x

def Filter.run (f : Filter) (ops : List Op) : Filter := ops.foldl Filter.step f

end

end Verif.AlphaBeta
