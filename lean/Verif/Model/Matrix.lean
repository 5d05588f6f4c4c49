import Verif.Model.Loop
import Mathlib.Data.Real.Basic

/-!
# Matrices

`Eigen::MatrixXd` with checked coefficients: access outside of the matrix is undefined (an assertion of Eigen in debug builds).
-/

namespace Verif

open Outcome

/-- `Eigen::MatrixXd`; only the coefficients inside of the matrix have a meaning. -/
structure Mat where
  rows : ℕ
  cols : ℕ
  val : ℕ → ℕ → ℝ

namespace Mat

/-- `m(i, j)` -/
def get (m : Mat) (i j : ℤ) : Outcome ℝ :=
  if 0 ≤ i ∧ i < m.rows ∧ 0 ≤ j ∧ j < m.cols then ok (m.val i.toNat j.toNat) else ub

/-- `m(i, j) = v` -/
def set (m : Mat) (i j : ℕ) (v : ℝ) : Outcome Mat :=
  if i < m.rows ∧ j < m.cols then ok ⟨m.rows, m.cols, fun a b => if a = i ∧ b = j then v else m.val a b⟩ else ub

/-- Equality of matrices: size and coefficients. -/
def Same (a b : Mat) : Prop := a.rows = b.rows ∧ a.cols = b.cols ∧ ∀ i < a.rows, ∀ j < a.cols, a.val i j = b.val i j

theorem get_nat {m : Mat} {i j : ℕ} (hi : i < m.rows) (hj : j < m.cols) : m.get i j = ok (m.val i j) := by
  unfold get
  rw [if_pos ⟨by omega, by omega, by omega, by omega⟩]
  rfl

theorem get_ok {m : Mat} {i j : ℤ} (h0 : 0 ≤ i) (hi : i < m.rows) (h1 : 0 ≤ j) (hj : j < m.cols) :
    m.get i j = ok (m.val i.toNat j.toNat) := if_pos ⟨h0, hi, h1, hj⟩

theorem get_ub {m : Mat} {i j : ℤ} (h : ¬ (0 ≤ i ∧ i < m.rows ∧ 0 ≤ j ∧ j < m.cols)) : m.get i j = ub := if_neg h

theorem set_ok {m : Mat} {i j : ℕ} (hi : i < m.rows) (hj : j < m.cols) (v : ℝ) :
    m.set i j v = ok ⟨m.rows, m.cols, fun a b => if a = i ∧ b = j then v else m.val a b⟩ := if_pos ⟨hi, hj⟩

end Mat

end Verif
