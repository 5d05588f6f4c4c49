import Mathlib.Data.Real.Basic

/-!
# Double exponential smoothing (examples/polebalancing/DoubleExponentialSmoothing.h)

Numbers are real; the counter of steps does not overflow.
-/

namespace Verif.Smoothing

noncomputable section

/-- lines 9-27: the members -/
structure Smoother where
  alpha : ℝ
  beta : ℝ
  xc : ℝ
  xn : ℝ
  sc : ℝ
  sn : ℝ
  bc : ℝ
  bn : ℝ
  t : ℕ

/-- lines 36-41: `restart` -/
def Smoother.restart (d : Smoother) : Smoother := { d with xc := 0, xn := 0, t := 0 }

/-- lines 30-34: the constructor; `xc`, `xn` and `t` are set by `restart`. -/
def Smoother.new : Smoother := Smoother.restart ⟨0.9, 0.9, 0, 0, 0, 0, 0, 0, 0⟩

/-- line 59: the new estimate of the position for `t > 1` -/
def Smoother.position (d : Smoother) (x : ℝ) : ℝ := d.alpha * x + (1 - d.alpha) * (d.sn + d.bn)

/-- lines 43-64 without the output: the object after `operator()` -/
def Smoother.next (d : Smoother) (x : ℝ) : Smoother :=
  if d.t = 0 then { d with xc := d.xn, xn := x, sc := d.sn, bc := d.bn, sn := x, bn := 0, t := d.t + 1 }
  else if d.t = 1 then { d with xc := d.xn, xn := x, sc := d.sn, bc := d.bn, sn := d.xn, bn := x - d.xn, t := d.t + 1 }
  else
    { d with
      xc := d.xn, xn := x, sc := d.sn, bc := d.bn, sn := d.position x
      bn := d.beta * (d.position x - d.sn) + (1 - d.beta) * d.bn, t := d.t + 1 }

/-- lines 63-65: the output, forecast of the next position and velocity -/
def Smoother.output (d : Smoother) : ℝ × ℝ := (d.sn + d.bn, d.bn)

/-- The object after the signal `x 0, ..., x (n - 1)`. -/
def Smoother.after (d : Smoother) (x : ℕ → ℝ) : ℕ → Smoother
  | 0 => d
  | n + 1 => (d.after x n).next (x n)

end

end Verif.Smoothing
