import Verif.Model.Outcome
import Verif.Model.Loop
import Mathlib.Data.Real.Basic

/-!
# The functions that every objective inherits (OpenANN/optimization/Optimizable.h, src/Optimizable.cpp)

An objective must implement `error()` and `gradient()`.  It may override the functions for single examples; the functions
for ranges of examples are then defined by them.  The model describes an objective at its current parameters.
-/

namespace Verif.Opt

/-- OpenANN/optimization/Optimizable.h lines 25-146: the virtual functions that the inherited ones call.  `none` means that a
function is not overridden. -/
structure Objective where
  /-- `dimension()` -/
  dimension : ℕ
  /-- `error()` -/
  errorAll : Outcome ℝ
  /-- `gradient()` -/
  gradientAll : Outcome (List ℝ)
  /-- `examples()` -/
  examplesOverride : Option ℕ
  /-- `error(unsigned n)` -/
  errorOverride : Option (ℕ → Outcome ℝ)
  /-- `gradient(unsigned n)` -/
  gradientOverride : Option (ℕ → Outcome (List ℝ))

/-- Conversion of an `int` to `unsigned` (32 bits). -/
def toUnsigned (z : ℤ) : ℕ := (z % 2 ^ 32).toNat

noncomputable section

/-- `a += b` for vectors; different sizes violate an assertion of Eigen. -/
def addTo (a b : List ℝ) : Outcome (List ℝ) := if a.length = b.length then .ok (List.zipWith (· + ·) a b) else .ub

/-- `a.setZero()` keeps the size. -/
def setZero (a : List ℝ) : List ℝ := List.replicate a.length 0

namespace Objective

variable (O : Objective)

/-- OpenANN/optimization/Optimizable.h line 87. -/
def examples : ℕ := O.examplesOverride.getD 1

/-- OpenANN/optimization/Optimizable.h line 93. -/
def error (n : ℕ) : Outcome ℝ :=
  match O.errorOverride with
  | some f => f n
  | none => O.errorAll

/-- OpenANN/optimization/Optimizable.h line 99. -/
def gradient (n : ℕ) : Outcome (List ℝ) :=
  match O.gradientOverride with
  | some f => f n
  | none => O.gradientAll

/-- src/Optimizable.cpp lines 7-11, `errorGradient(n, value, grad)`: both arguments are overwritten. -/
def errorGradientOf (n : ℤ) : Outcome (ℝ × List ℝ) := do
  let value ← O.error (toUnsigned n)
  let grad ← O.gradient (toUnsigned n)
  pure (value, grad)

/-- src/Optimizable.cpp lines 13-26, `errorGradient(value, grad)` for the vector `grad` that the caller passes. -/
def errorGradientAll (grad : List ℝ) : Outcome (ℝ × List ℝ) :=
  forLoop O.examples (fun n s => do
    let t ← O.errorGradientOf n
    let g ← addTo s.2 t.2
    pure (s.1 + t.1, g)) (0, setZero grad)

/-- src/Optimizable.cpp lines 27-35, `error(startN, endN)`. -/
def errors : List ℤ → Outcome (List ℝ)
  | [] => .ok []
  | n :: idx => do
    let e ← O.error (toUnsigned n)
    let es ← errors idx
    pure (e :: es)

/-- src/Optimizable.cpp lines 36-44: the loop of `gradient(startN, endN)` from the vector `g`. -/
def gradientFrom (g : List ℝ) : List ℤ → Outcome (List ℝ)
  | [] => .ok g
  | n :: idx => do
    let d ← O.gradient (toUnsigned n)
    let g' ← addTo g d
    gradientFrom g' idx

/-- src/Optimizable.cpp lines 36-44, `gradient(startN, endN)`. -/
def gradientRange (idx : List ℤ) : Outcome (List ℝ) := O.gradientFrom (List.replicate O.dimension 0) idx

/-- src/Optimizable.cpp lines 52-57: the loop of `errorGradient(startN, endN, value, grad)`; `checks` tells whether the macros
of OpenANN/util/AssertionMacros.h are compiled in (lines 53-54 there: `OPENANN_CHECK_WITHIN` includes the upper bound). -/
def errorGradientFrom (checks : Bool) (s : ℝ × List ℝ) : List ℤ → Outcome (ℝ × List ℝ)
  | [] => .ok s
  | n :: idx => do
    Outcome.check (checks = true → 0 ≤ n ∧ n ≤ (O.examples : ℤ))
    let e ← O.error (toUnsigned n)
    let d ← O.gradient (toUnsigned n)
    let g ← addTo s.2 d
    errorGradientFrom checks (s.1 + e, g) idx

/-- src/Optimizable.cpp lines 46-58, `errorGradient(startN, endN, value, grad)` for the vector `grad` that the caller passes. -/
def errorGradientRange (checks : Bool) (idx : List ℤ) (grad : List ℝ) : Outcome (ℝ × List ℝ) :=
  O.errorGradientFrom checks (0, setZero grad) idx

end Objective

end

end Verif.Opt
