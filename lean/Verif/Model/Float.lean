import Mathlib.Analysis.SpecialFunctions.Log.Basic
import Mathlib.Analysis.SpecialFunctions.Trigonometric.Basic
import Mathlib.Data.List.Perm.Basic

/-!
# Floating point arithmetic

The other models compute with real numbers.  This one computes with the values of the type `double`: numbers,
infinities and NaN.  It is used for the functions whose source code is written the way it is because of
overflow and underflow: `softmax`, `logistic`, `crossEntropy` and `sampleNormalDistribution`.

The processor and the C library are the parameter `Fpu`; its fields are the few facts of IEEE 754 and of the
library functions that the theorems need.  They hold for every rounding mode that rounds monotonically.  `y.row(n)` of a matrix that is stored by columns is
not contiguous, so Eigen computes its exponentials one by one with `std::exp` and not with vector instructions.

Simplification: there is only one zero.  The sign of a zero decides only the sign of an infinity that is the
quotient of a number by zero.
-/

namespace Verif.Fp

/-- A value of the type `double`. -/
inductive Dbl
  | num (x : ℝ)
  | pinf
  | ninf
  | nan

/-- `a <= b` of two values. -/
def Le : Dbl → Dbl → Prop
  | .num x, .num y => x ≤ y
  | .num _, .pinf => True
  | .ninf, .num _ => True
  | .ninf, .ninf => True
  | .ninf, .pinf => True
  | .pinf, .pinf => True
  | _, _ => False

/-- `a < b` of two values. -/
def Lt (a b : Dbl) : Prop := Le a b ∧ ¬ Le b a

/-- Rounding and the library functions on numbers. -/
structure Fpu where
  /-- The value nearest to a real number in the current rounding mode. -/
  rnd : ℝ → Dbl
  /-- `std::exp` of a number. -/
  exp : ℝ → Dbl
  /-- `std::log` of a positive number. -/
  log : ℝ → Dbl
  /-- `std::sqrt` of a number that is not negative. -/
  sqrt : ℝ → Dbl
  /-- `std::cos` of a number. -/
  cos : ℝ → Dbl
  /-- Rounding is monotone (and never gives NaN). -/
  rnd_mono : ∀ x y, x ≤ y → Le (rnd x) (rnd y)
  /-- A number that is the result of rounding needs no more rounding. -/
  rnd_rnd : ∀ x y, rnd x = .num y → rnd y = .num y
  /-- The integers of up to 53 bits are values. -/
  rnd_int : ∀ z : ℤ, |z| ≤ 2 ^ 53 → rnd z = .num z
  /-- The powers of two down to the smallest subnormal number are values. -/
  rnd_pow : ∀ k ≤ 1074, rnd ((2 : ℝ)⁻¹ ^ k) = .num ((2 : ℝ)⁻¹ ^ k)
  /-- `std::exp` returns a value. -/
  exp_rnd : ∀ x y, exp x = .num y → rnd y = .num y
  /-- `std::exp` is exact at zero. -/
  exp_zero : exp 0 = .num 1
  /-- `std::exp` of a number that is not positive is between zero and one. -/
  exp_unit : ∀ x ≤ 0, ∃ e, exp x = .num e ∧ 0 ≤ e ∧ e ≤ 1
  /-- `std::exp` underflows below the logarithm of half of the smallest subnormal number (about -745.13). -/
  exp_underflow : ∀ x ≤ -746, exp x = .num 0
  /-- `std::exp` does not underflow above the logarithm of the smallest subnormal number (about -744.44). -/
  exp_pos : ∀ x e, -744 ≤ x → exp x = .num e → 0 < e
  /-- `std::exp` does not overflow below the logarithm of the greatest number (about 709.78). -/
  exp_big : ∀ x, 0 ≤ x → x ≤ 709 → ∃ e, exp x = .num e
  /-- `std::log` returns a value. -/
  log_rnd : ∀ x y, log x = .num y → rnd y = .num y
  /-- The logarithm of `2 ^ -k` is about `-0.69 * k`. -/
  log_num : ∀ (k : ℕ) (x : ℝ), k ≤ 1000 → (2 : ℝ)⁻¹ ^ k ≤ x → x ≤ 2 →
    ∃ y, log x = .num y ∧ -(k : ℝ) ≤ y ∧ y ≤ 1 ∧ (x ≤ 1 → y ≤ 0)
  /-- `std::sqrt` returns a value. -/
  sqrt_rnd : ∀ x y, sqrt x = .num y → rnd y = .num y
  /-- The square root of a number up to 1024 is at most 32. -/
  sqrt_num : ∀ x, 0 ≤ x → x ≤ 1024 → ∃ y, sqrt x = .num y ∧ 0 ≤ y ∧ y ≤ 32
  /-- The cosine is a value between -1 and 1. -/
  cos_num : ∀ x, ∃ y, cos x = .num y ∧ -1 ≤ y ∧ y ≤ 1 ∧ rnd y = .num y
  /-- The cosine of a value is not zero: the zeros of the cosine are irrational. -/
  cos_ne : ∀ x, rnd x = .num x → cos x ≠ .num 0

namespace Fpu

variable (A : Fpu)

open Classical in
/-- An infinity with the sign of a product. -/
noncomputable def infTimes (neg : Bool) : Dbl → Dbl
  | .num x => if x = 0 then .nan else if (0 < x) ↔ neg = false then .pinf else .ninf
  | .pinf => if neg = false then .pinf else .ninf
  | .ninf => if neg = false then .ninf else .pinf
  | .nan => .nan

/-- `a + b`. -/
def add : Dbl → Dbl → Dbl
  | .num x, .num y => A.rnd (x + y)
  | .num _, .pinf => .pinf
  | .num _, .ninf => .ninf
  | .num _, .nan => .nan
  | .pinf, .num _ => .pinf
  | .pinf, .pinf => .pinf
  | .pinf, .ninf => .nan
  | .pinf, .nan => .nan
  | .ninf, .num _ => .ninf
  | .ninf, .pinf => .nan
  | .ninf, .ninf => .ninf
  | .ninf, .nan => .nan
  | .nan, _ => .nan

end Fpu

/-- `-a`. -/
def neg : Dbl → Dbl
  | .num x => .num (-x)
  | .pinf => .ninf
  | .ninf => .pinf
  | .nan => .nan

namespace Fpu

variable (A : Fpu)

/-- `a - b`. -/
def sub (a b : Dbl) : Dbl := A.add a (neg b)

/-- `a * b`. -/
noncomputable def mul : Dbl → Dbl → Dbl
  | .num x, .num y => A.rnd (x * y)
  | .num x, .pinf => infTimes false (.num x)
  | .num x, .ninf => infTimes true (.num x)
  | .num _, .nan => .nan
  | .pinf, b => infTimes false b
  | .ninf, b => infTimes true b
  | .nan, _ => .nan

open Classical in
/-- `a / b`. -/
noncomputable def div : Dbl → Dbl → Dbl
  | .num x, .num y =>
    if y = 0 then (if x = 0 then .nan else if 0 < x then .pinf else .ninf) else A.rnd (x / y)
  | .num _, .pinf => .num 0
  | .num _, .ninf => .num 0
  | .num _, .nan => .nan
  | .pinf, .num y => if 0 ≤ y then .pinf else .ninf
  | .ninf, .num y => if 0 ≤ y then .ninf else .pinf
  | .pinf, _ => .nan
  | .ninf, _ => .nan
  | .nan, _ => .nan

/-- `std::exp`. -/
def fexp : Dbl → Dbl
  | .num x => A.exp x
  | .pinf => .pinf
  | .ninf => .num 0
  | .nan => .nan

open Classical in
/-- `std::log`. -/
noncomputable def flog : Dbl → Dbl
  | .num x => if 0 < x then A.log x else if x = 0 then .ninf else .nan
  | .pinf => .pinf
  | .ninf => .nan
  | .nan => .nan

open Classical in
/-- `std::sqrt`. -/
noncomputable def fsqrt : Dbl → Dbl
  | .num x => if 0 ≤ x then A.sqrt x else .nan
  | .pinf => .pinf
  | .ninf => .nan
  | .nan => .nan

/-- `std::cos`. -/
def fcos : Dbl → Dbl
  | .num x => A.cos x
  | _ => .nan

/-- Eigen's `sum()`: the result of adding the values of a list in *some* order and with *some* bracketing.
Which one it is depends on the instruction set for which Eigen is compiled. -/
inductive Sums : List Dbl → Dbl → Prop
  | nil : Sums [] (.num 0)
  | one (a : Dbl) : Sums [a] a
  | two {l r m : List Dbl} {a b : Dbl} :
      Sums l a → Sums r b → l ≠ [] → r ≠ [] → List.Perm (l ++ r) m → Sums m (A.add a b)

end Fpu

/-- The entries of a matrix of `double`s. -/
abbrev Mtx := ℕ → ℕ → Dbl

/-- `row(n)` of a matrix with `F` columns. -/
def rowOf (F : ℕ) (y : Mtx) (n : ℕ) : List Dbl := (List.range F).map (y n)

/-- All coefficients of an `N x F` matrix. -/
def coeffs (N F : ℕ) (y : Mtx) : List Dbl := (List.range N).flatMap (rowOf F y)

/-- Eigen's `maxCoeff()` of an `N x F` matrix without NaN: a coefficient that is not less than any other. -/
def IsMax (N F : ℕ) (y : Mtx) (m : Dbl) : Prop :=
  (∃ n < N, ∃ j < F, y n j = m) ∧ ∀ n < N, ∀ j < F, Le (y n j) m

/-- src/ActivationFunctions.cpp lines 57-66, `softmax`: `z` is the matrix after the call with the `N x F` matrix
`y`.  `maxCoeff` is the maximum of the whole matrix (line 60). -/
def Softmax (A : Fpu) (N F : ℕ) (y z : Mtx) : Prop :=
  ∃ m, IsMax N F y m ∧ ∀ n < N,
    ∃ s, A.Sums (rowOf F (fun n j => A.fexp (A.sub (y n j) m)) n) s ∧
      ∀ j < F, z n j = A.div (A.fexp (A.sub (y n j) m)) s

open Classical in
/-- src/ActivationFunctions.cpp lines 68-81, `logistic`, for one entry. -/
noncomputable def logistic (A : Fpu) (a : Dbl) : Dbl :=
  if Lt a (.num (-45)) then .num 0
  else if Lt (.num 45) a then .num 1
  else A.div (.num 1) (A.add (.num 1) (A.fexp (neg a)))

/-- src/ActivationFunctions.cpp lines 83-89, `logisticDerivative`, for one entry. -/
noncomputable def logisticDerivative (A : Fpu) (z : Dbl) : Dbl := A.mul z (A.sub (.num 1) z)

/-- OpenANN/ErrorFunctions.h lines 17-22, `crossEntropy` of `N x F` matrices. -/
def CrossEntropy (A : Fpu) (N F : ℕ) (Y T : Mtx) (value : Dbl) : Prop :=
  ∃ s, A.Sums (coeffs N F (fun n j => A.mul (T n j) (A.flog (A.add (Y n j) (A.rnd 1e-10))))) s ∧
    value = A.div (neg s) (A.rnd N)

/-- OpenANN/ErrorFunctions.h lines 30-34, `meanSquaredError` of an `N x F` matrix. -/
def MeanSquaredError (A : Fpu) (N F : ℕ) (YmT : Mtx) (value : Dbl) : Prop :=
  ∃ s, A.Sums (coeffs N F (fun n j => A.mul (YmT n j) (YmT n j))) s ∧
    value = A.div s (A.mul (.num 2) (A.rnd N))

/-- src/FullyConnected.cpp line 91 as called for the output layer with `tempError` of src/Net.cpp line 592: the
coefficient `(n, j)` of `deltas`.  `yd` is the derivative of the activation function. -/
noncomputable def delta (A : Fpu) (yd Y T : Mtx) (n j : ℕ) : Dbl := A.mul (yd n j) (A.sub (Y n j) (T n j))

/-- src/FullyConnected.cpp line 93: the derivative `d` of the weight from input `i` to output `j` is the
coefficient `(j, i)` of `deltas.transpose() * *x`. -/
def WeightDerivative (A : Fpu) (N : ℕ) (yd Y T x : Mtx) (j i : ℕ) (d : Dbl) : Prop :=
  A.Sums ((List.range N).map (fun n => A.mul (delta A yd Y T n j) (x n i))) d

/-- src/FullyConnected.cpp line 95: the derivative of the bias is the sum of the column `j` of `deltas`. -/
def BiasDerivative (A : Fpu) (N : ℕ) (yd Y T : Mtx) (j : ℕ) (d : Dbl) : Prop :=
  A.Sums ((List.range N).map (fun n => delta A yd Y T n j)) d

/-- `std::abs`. -/
def fabs : Dbl → Dbl
  | .num x => .num |x|
  | .pinf => .pinf
  | .ninf => .pinf
  | .nan => .nan

/-- src/FullyConnected.cpp lines 96-97 (the same in src/Compressed.cpp 101-102, src/Convolutional.cpp 211-215,
src/Subsampling.cpp 187-190): the derivative `d` of a weight `w` after the L1 penalty is added. -/
noncomputable def withL1 (A : Fpu) (l1 w d : Dbl) : Dbl := A.add d (A.div (A.mul l1 w) (fabs w))

/-- OpenANN/util/Random.h lines 62-70, `generate(0.0, 1.0)`; `r` is the value of `rand()`. -/
noncomputable def generate (A : Fpu) (randMax r : ℕ) : Dbl :=
  A.add (A.mul (A.div (A.rnd r) (A.rnd randMax)) (.num 1)) (.num 0)

/-- OpenANN/util/Random.h lines 87-92, `sampleNormalDistribution<double>()`; `r₁` and `r₂` are the two values of
`rand()` (the factors of line 91 are not evaluated in a fixed order, so the two calls are not ordered). -/
noncomputable def sampleNormal (A : Fpu) (randMax r₁ r₂ : ℕ) : Dbl :=
  A.mul (A.fsqrt (A.mul (.num (-2)) (A.flog (generate A randMax r₁))))
    (A.fcos (A.mul (A.mul (.num 2) (A.rnd Real.pi)) (generate A randMax r₂)))

/-- OpenANN/util/Random.h lines 117-123, `fillNormalDistribution`, one coefficient. -/
noncomputable def normalWeight (A : Fpu) (randMax r₁ r₂ : ℕ) (stdDev : Dbl) : Dbl :=
  A.mul (sampleNormal A randMax r₁ r₂) stdDev

end Verif.Fp
