import Verif.Model.Preprocessing
import Mathlib.Analysis.SpecialFunctions.Trigonometric.Basic

/-!
# The two spirals data set (examples/twospirals/CreateTwoSpiralsDataSet.h)

Numbers are real and `104 * density` does not overflow.  The contents of the matrices after `resize` are arbitrary (`junk`).
-/

namespace Verif.Spirals

open Outcome

noncomputable section

/-- lines 39-40 -/
def angle (density i : ℕ) : ℝ := i * Real.pi / (16 * density)

/-- lines 41-42 -/
def radius (density : ℕ) (maxDiameter : ℝ) (i : ℕ) : ℝ := maxDiameter * (104 * density - i) / (104 * density)

/-- line 44 -/
def x (density : ℕ) (maxDiameter : ℝ) (i : ℕ) : ℝ := radius density maxDiameter i * Real.cos (angle density i)

/-- line 45 -/
def y (density : ℕ) (maxDiameter : ℝ) (i : ℕ) : ℝ := radius density maxDiameter i * Real.sin (angle density i)

/-- `m.row(r) << a, b`; Eigen asserts that the row exists and has two entries. -/
def setRow2 (m : Mat) (r : ℕ) (a b : ℝ) : Outcome Mat :=
  if r < m.rows ∧ m.cols = 2 then ok ⟨m.rows, m.cols, fun i j => if i = r then (if j = 0 then a else b) else m.val i j⟩ else ub

/-- `m.row(r) << a` -/
def setRow1 (m : Mat) (r : ℕ) (a : ℝ) : Outcome Mat :=
  if r < m.rows ∧ m.cols = 1 then ok ⟨m.rows, m.cols, fun i j => if i = r then a else m.val i j⟩ else ub

/-- The variables of the function. -/
structure Vars where
  Xtr : Mat
  Ytr : Mat
  Xte : Mat
  Yte : Mat
  trIdx : ℕ
  teIdx : ℕ

/-- lines 29-34 -/
def start (points : ℕ) (junk : ℕ → ℕ → ℝ) : Vars :=
  ⟨⟨points + 1, 2, junk⟩, ⟨points + 1, 1, junk⟩, ⟨points + 1, 2, junk⟩, ⟨points + 1, 1, junk⟩, 0, 0⟩

/-- lines 49-52 -/
def lastPoint (a b : ℝ) (v : Vars) : Outcome Vars := do
  let Xtr ← setRow2 v.Xtr v.trIdx a b
  let Ytr ← setRow1 v.Ytr v.trIdx 1
  let Xte ← setRow2 v.Xte v.trIdx (-a) (-b)
  let Yte ← setRow1 v.Yte v.teIdx (-1)
  ok { v with Xtr := Xtr, Ytr := Ytr, Xte := Xte, Yte := Yte }

/-- lines 56-61 -/
def trainingPair (points : ℕ) (a b : ℝ) (v : Vars) : Outcome Vars := do
  check (v.trIdx ≤ points)
  let X ← setRow2 v.Xtr v.trIdx a b
  let Y ← setRow1 v.Ytr v.trIdx 1
  let X' ← setRow2 X (v.trIdx + 1) (-a) (-b)
  let Y' ← setRow1 Y (v.trIdx + 1) (-1)
  ok { v with Xtr := X', Ytr := Y', trIdx := v.trIdx + 2 }

/-- lines 65-70 -/
def testPair (points : ℕ) (a b : ℝ) (v : Vars) : Outcome Vars := do
  check (v.teIdx ≤ points)
  let X ← setRow2 v.Xte v.teIdx a b
  let Y ← setRow1 v.Yte v.teIdx 1
  let X' ← setRow2 X (v.teIdx + 1) (-a) (-b)
  let Y' ← setRow1 Y (v.teIdx + 1) (-1)
  ok { v with Xte := X', Yte := Y', teIdx := v.teIdx + 2 }

/-- lines 37-72: the body of the loop -/
def body (density points : ℕ) (maxDiameter : ℝ) (i : ℕ) (v : Vars) : Outcome Vars :=
  if i = points then lastPoint (x density maxDiameter i) (y density maxDiameter i) v
  else if i % 2 = 0 then trainingPair points (x density maxDiameter i) (y density maxDiameter i) v
  else testPair points (x density maxDiameter i) (y density maxDiameter i) v

/-- lines 26-72: the points before scaling -/
def rawPoints (density : ℕ) (maxDiameter : ℝ) (junk : ℕ → ℕ → ℝ) : Outcome Vars :=
  forLoop (96 * density + 1) (body density (96 * density) maxDiameter) (start (96 * density) junk)

/-- What the caller gets; `none`: the coefficients are not numbers. -/
structure DataSets where
  Xtr : Option Mat
  Ytr : Mat
  Xte : Option Mat
  Yte : Mat

/-- lines 21-76.  A negative density makes `resize` fail; with density 0 the only point is `0 / 0`, not a number. -/
def createTwoSpiralsDataSet (density : ℤ) (maxDiameter : ℝ) (junk : ℕ → ℕ → ℝ) : Outcome DataSets :=
  if density < 0 then ub
  else if density = 0 then ok ⟨none, ⟨1, 1, fun _ _ => 1⟩, none, ⟨1, 1, fun _ _ => -1⟩⟩
  else do
    let v ← rawPoints density.toNat maxDiameter junk
    let Xte ← Pre.scaleData v.Xte 0 1
    let Xtr ← Pre.scaleData v.Xtr 0 1
    ok ⟨Xtr, v.Ytr, Xte, v.Yte⟩

end

end Verif.Spirals
