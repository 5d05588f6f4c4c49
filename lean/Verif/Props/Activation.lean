import Verif.Model.Activation
import Mathlib.Analysis.SpecialFunctions.ExpDeriv
import Mathlib.Analysis.SpecialFunctions.Trigonometric.DerivHyp
import Mathlib.Analysis.Calculus.Deriv.MeanValue
import Mathlib.Algebra.Order.BigOperators.Group.Finset
import Mathlib.Algebra.BigOperators.Field
import Mathlib.Algebra.BigOperators.Ring.Finset
import Mathlib.Tactic.NormNum
import Mathlib.Tactic.Linarith
import Mathlib.Tactic.FieldSimp
import Mathlib.Tactic.Positivity
import Mathlib.Tactic.Ring

/-!
# C28, C29, C30: activation functions, softmax, error functions
-/

namespace Verif.NN

noncomputable section

/-! ## C28 -/

/-- Points at which an activation function has a kink or a jump: 0 for the rectifier and the cut-offs of the logistic
function. -/
def Act.Kink : Act → ℝ → Prop
  | .logistic, a => a = -45 ∨ a = 45
  | .rectifier, a => a = 0
  | _, _ => False

theorem hasDerivAt_tanh (a : ℝ) : HasDerivAt Real.tanh (1 - Real.tanh a ^ 2) a := by
  have h : HasDerivAt (fun x => Real.sinh x / Real.cosh x)
      ((Real.cosh a * Real.cosh a - Real.sinh a * Real.sinh a) / Real.cosh a ^ 2) a :=
    (Real.hasDerivAt_sinh a).div (Real.hasDerivAt_cosh a) (Real.cosh_pos a).ne'
  have e : (fun x => Real.sinh x / Real.cosh x) = Real.tanh := by
    funext x
    rw [Real.tanh_eq_sinh_div_cosh]
  rw [e] at h
  convert h using 1
  rw [Real.tanh_eq_sinh_div_cosh]
  have := (Real.cosh_pos a).ne'
  field_simp

theorem sigmoid_mem (a : ℝ) : 0 < 1 / (1 + Real.exp (-a)) ∧ 1 / (1 + Real.exp (-a)) < 1 := by
  have h := Real.exp_pos (-a)
  refine ⟨by positivity, ?_⟩
  rw [div_lt_one (by positivity)]
  linarith

theorem hasDerivAt_sigmoid (a : ℝ) :
    HasDerivAt (fun x => 1 / (1 + Real.exp (-x)))
      (1 / (1 + Real.exp (-a)) * (1 - 1 / (1 + Real.exp (-a)))) a := by
  have hp : (1 + Real.exp (-a)) ≠ 0 := by positivity
  have h1 : HasDerivAt (fun x => Real.exp (-x)) (Real.exp (-a) * (-1)) a :=
    (hasDerivAt_neg a).exp
  have h2 : HasDerivAt (fun x => 1 + Real.exp (-x)) (Real.exp (-a) * (-1)) a := h1.const_add 1
  have h3 := (hasDerivAt_const a (1 : ℝ)).div h2 hp
  refine h3.congr_deriv ?_
  field_simp
  ring

/-- **C28, derivatives.** The derivative computed from the output is the derivative of the activation function at every
input that is not a kink. -/
theorem act_hasDerivAt (f : Act) (a : ℝ) (h : ¬ f.Kink a) : HasDerivAt f.apply (f.deriv (f.apply a)) a := by
  cases f with
  | logistic =>
    simp only [Act.Kink, not_or] at h
    rcases lt_trichotomy a (-45) with h1 | h1 | h1
    · have e : Act.logistic.apply =ᶠ[nhds a] fun _ => 0 := by
        filter_upwards [Iio_mem_nhds h1] with x hx
        have hx : x < -45 := hx
        simp [Act.apply, hx]
      have h0 : Act.logistic.apply a = 0 := by simp [Act.apply, h1]
      rw [h0]
      simp only [Act.deriv]
      exact ((hasDerivAt_const a (0 : ℝ)).congr_of_eventuallyEq e).congr_deriv (by norm_num)
    · exact absurd h1 h.1
    · rcases lt_trichotomy a 45 with h2 | h2 | h2
      · have e : Act.logistic.apply =ᶠ[nhds a] fun x => 1 / (1 + Real.exp (-x)) := by
          filter_upwards [Ioo_mem_nhds h1 h2] with x hx
          have h3 : ¬ x < -45 := not_lt.mpr hx.1.le
          have h4 : ¬ 45 < x := not_lt.mpr hx.2.le
          simp [Act.apply, h3, h4]
        have h0 : Act.logistic.apply a = 1 / (1 + Real.exp (-a)) := by
          simp [Act.apply, not_lt.mpr h1.le, not_lt.mpr h2.le]
        rw [h0]
        simp only [Act.deriv]
        exact (hasDerivAt_sigmoid a).congr_of_eventuallyEq e
      · exact absurd h2 h.2
      · have e : Act.logistic.apply =ᶠ[nhds a] fun _ => 1 := by
          filter_upwards [Ioi_mem_nhds h2] with x hx
          have hx : 45 < x := hx
          have h3 : ¬ x < -45 := by linarith
          simp [Act.apply, hx, h3]
        have h3 : ¬ a < -45 := by linarith
        have h0 : Act.logistic.apply a = 1 := by simp [Act.apply, h2, h3]
        rw [h0]
        simp only [Act.deriv]
        exact ((hasDerivAt_const a (1 : ℝ)).congr_of_eventuallyEq e).congr_deriv (by norm_num)
  | tanh =>
    simp only [Act.apply, Act.deriv]
    exact (hasDerivAt_tanh a).congr_deriv (by ring)
  | tanhScaled =>
    simp only [Act.apply, Act.deriv]
    have h1 : HasDerivAt (fun x : ℝ => 0.66666667 * x) 0.66666667 a := by
      simpa using (hasDerivAt_id a).const_mul (0.66666667 : ℝ)
    have h2 := ((hasDerivAt_tanh (0.66666667 * a)).comp a h1).const_mul (1.7159 : ℝ)
    refine h2.congr_deriv ?_
    ring
  | rectifier =>
    simp only [Act.Kink] at h
    rcases lt_or_gt_of_ne h with h1 | h1
    · have e : Act.rectifier.apply =ᶠ[nhds a] fun _ => 0 := by
        filter_upwards [Iio_mem_nhds h1] with x hx
        have hx : x < 0 := hx
        simp [Act.apply, hx.le]
      have h0 : Act.rectifier.apply a = 0 := by simp [Act.apply, h1.le]
      rw [h0]
      simp only [Act.deriv]
      exact ((hasDerivAt_const a (0 : ℝ)).congr_of_eventuallyEq e).congr_deriv (by norm_num)
    · have e : Act.rectifier.apply =ᶠ[nhds a] fun x => x := by
        filter_upwards [Ioi_mem_nhds h1] with x hx
        have hx : 0 < x := hx
        simp [Act.apply, hx.le]
      have h0 : Act.rectifier.apply a = a := by simp [Act.apply, h1.le]
      rw [h0]
      simp only [Act.deriv, h1, if_true]
      exact ((hasDerivAt_id a).congr_of_eventuallyEq e).congr_deriv (by norm_num)
  | linear =>
    simp only [Act.deriv]
    exact hasDerivAt_id a

/-- The range that OpenANN/ActivationFunctions.h documents. -/
def Act.Range : Act → ℝ → Prop
  | .logistic, z => 0 ≤ z ∧ z ≤ 1
  | .tanh, z => -1 < z ∧ z < 1
  | .tanhScaled, z => -1.7159 < z ∧ z < 1.7159
  | .rectifier, z => 0 ≤ z
  | .linear, _ => True

/-- **C28, ranges.** -/
theorem act_range (f : Act) (a : ℝ) : f.Range (f.apply a) := by
  cases f with
  | logistic =>
    simp only [Act.Range, Act.apply]
    have := sigmoid_mem a
    split
    · norm_num
    · split
      · norm_num
      · exact ⟨this.1.le, this.2.le⟩
  | tanh => exact ⟨Real.neg_one_lt_tanh a, Real.tanh_lt_one a⟩
  | tanhScaled =>
    have h1 := Real.neg_one_lt_tanh (0.66666667 * a)
    have h2 := Real.tanh_lt_one (0.66666667 * a)
    simp only [Act.Range, Act.apply]
    constructor <;> linarith
  | rectifier => exact le_max_left 0 a
  | linear => trivial

theorem tanh_strictMono : StrictMono Real.tanh := by
  refine strictMono_of_deriv_pos (fun a => ?_)
  rw [(hasDerivAt_tanh a).deriv]
  have h1 := Real.neg_one_lt_tanh a
  have h2 := Real.tanh_lt_one a
  nlinarith

/-- **C28, monotonicity.** -/
theorem act_monotone (f : Act) : Monotone f.apply := by
  intro a b hab
  cases f with
  | logistic =>
    have ha := sigmoid_mem a
    have hb := sigmoid_mem b
    have hm : 1 / (1 + Real.exp (-a)) ≤ 1 / (1 + Real.exp (-b)) := by
      apply one_div_le_one_div_of_le (by positivity)
      have : Real.exp (-b) ≤ Real.exp (-a) := Real.exp_le_exp.mpr (by linarith)
      linarith
    simp only [Act.apply]
    by_cases h1 : a < -45
    · rw [if_pos h1]
      split
      · exact le_refl _
      · split
        · norm_num
        · exact hb.1.le
    · rw [if_neg h1, if_neg (show ¬ b < -45 by linarith)]
      by_cases h2 : 45 < a
      · rw [if_pos h2, if_pos (by linarith)]
      · rw [if_neg h2]
        by_cases h3 : 45 < b
        · rw [if_pos h3]; exact ha.2.le
        · rw [if_neg h3]; exact hm
  | tanh => exact tanh_strictMono.monotone hab
  | tanhScaled =>
    simp only [Act.apply]
    have := tanh_strictMono.monotone (show 0.66666667 * a ≤ 0.66666667 * b by linarith)
    linarith
  | rectifier => exact max_le_max_left 0 hab
  | linear => exact hab

/-- The derivative at 1/2 of the logistic function, for instance, is not at a kink. -/
example : HasDerivAt Act.logistic.apply (Act.logistic.deriv (Act.logistic.apply (1 / 2))) (1 / 2) :=
  act_hasDerivAt .logistic _ (by simp only [Act.Kink]; norm_num)

/-- The cut-off is a real jump: the logistic function is not differentiable (not even continuous) at 45. -/
theorem logistic_not_continuous : ¬ ContinuousAt Act.logistic.apply 45 := by
  intro h
  have h1 : Act.logistic.apply 45 = 1 / (1 + Real.exp (-45)) := by
    simp only [Act.apply]
    rw [if_neg (by norm_num), if_neg (by norm_num)]
  have hlt := (sigmoid_mem 45).2
  rw [← h1] at hlt
  have h2 : ∀ᶠ x in nhds (45 : ℝ), Act.logistic.apply x < 1 := h.eventually (gt_mem_nhds hlt)
  obtain ⟨ε, hε, hb⟩ := Metric.eventually_nhds_iff.mp h2
  have h3 := hb (y := 45 + ε / 2) (by
    rw [Real.dist_eq]
    have : (45 + ε / 2 - 45 : ℝ) = ε / 2 := by ring
    rw [this, abs_of_pos (by linarith)]
    linarith)
  have h4 : Act.logistic.apply (45 + ε / 2) = 1 := by
    simp only [Act.apply]
    rw [if_neg (by linarith), if_pos (by linarith)]
  linarith

/-! ## C29 -/

theorem softmax_sum_pos (F : ℕ) (hF : 0 < F) (f : ℕ → ℝ) : 0 < ∑ k ∈ Finset.range F, Real.exp (f k) :=
  Finset.sum_pos (fun _ _ => Real.exp_pos _) ⟨0, Finset.mem_range.mpr hF⟩

/-- Softmax does not depend on the number that is subtracted. -/
theorem softmax_shift (F : ℕ) (f : ℕ → ℝ) (c : ℝ) (j : ℕ) :
    Real.exp (f j - c) / ∑ k ∈ Finset.range F, Real.exp (f k - c) =
      Real.exp (f j) / ∑ k ∈ Finset.range F, Real.exp (f k) := by
  have e : ∀ k, Real.exp (f k - c) = Real.exp (-c) * Real.exp (f k) := by
    intro k
    rw [← Real.exp_add]
    ring_nf
  rw [Finset.sum_congr rfl (fun k _ => e k), ← Finset.mul_sum, e j]
  exact mul_div_mul_left _ _ (Real.exp_pos _).ne'

/-- **C29, value.** Softmax as documented. -/
theorem softmax_eq (N F : ℕ) (y : Batch) (n j : ℕ) :
    softmax N F y n j = Real.exp (y n j) / ∑ k ∈ Finset.range F, Real.exp (y n k) :=
  softmax_shift F (y n) (maxCoeff N F y) j

/-- **C29.** Positive entries. -/
theorem softmax_pos (N F : ℕ) (y : Batch) (n j : ℕ) (hj : j < F) : 0 < softmax N F y n j := by
  rw [softmax_eq]
  exact div_pos (Real.exp_pos _) (softmax_sum_pos F (by omega) _)

/-- **C29.** The entries of a row sum to one. -/
theorem softmax_sum (N F : ℕ) (hF : 0 < F) (y : Batch) (n : ℕ) : ∑ j ∈ Finset.range F, softmax N F y n j = 1 := by
  simp only [softmax_eq]
  rw [← Finset.sum_div, div_self (softmax_sum_pos F hF _).ne']

/-- **C29.** The order of the activations is preserved. -/
theorem softmax_lt_iff (N F : ℕ) (y : Batch) (n i j : ℕ) (hF : 0 < F) :
    softmax N F y n i < softmax N F y n j ↔ y n i < y n j := by
  rw [softmax_eq, softmax_eq, div_lt_div_iff_of_pos_right (softmax_sum_pos F hF _), Real.exp_lt_exp]

/-- **C29.** A row is mapped independently of all other rows, of its position and of the size of the batch, and adding a
constant to it changes nothing. -/
theorem softmax_row (N N' F : ℕ) (y y' : Batch) (n n' : ℕ) (c : ℝ) (h : ∀ j < F, y' n' j = y n j + c) (j : ℕ)
    (hj : j < F) : softmax N' F y' n' j = softmax N F y n j := by
  rw [softmax_eq, softmax_eq, ← softmax_shift F (y' n') c j, h j hj]
  have : ∑ k ∈ Finset.range F, Real.exp (y' n' k - c) = ∑ k ∈ Finset.range F, Real.exp (y n k) := by
    refine Finset.sum_congr rfl (fun k hk => ?_)
    rw [h k (Finset.mem_range.mp hk), add_sub_cancel_right]
  rw [this, add_sub_cancel_right]

/-- The second row of a 3 x 2 matrix gives the same as the first row of another matrix that is larger by one. -/
example : softmax 3 2 (fun n j => if n = 1 then (j : ℝ) else 7) 1 0 = softmax 1 2 (fun _ j => (j : ℝ) + 1) 0 0 :=
  softmax_row 1 3 2 _ _ 0 1 (-1) (by intro j _; simp) 0 (by norm_num)

/-! ## C30 -/

/-- **C30.** The mean squared error is not negative. -/
theorem meanSquaredError_nonneg (N F : ℕ) (D : Batch) : 0 ≤ meanSquaredError N F D := by
  unfold meanSquaredError
  exact div_nonneg (Finset.sum_nonneg fun n _ => Finset.sum_nonneg fun j _ => sq_nonneg _) (by positivity)

/-- **C30.** The mean squared error is zero exactly if all differences are. -/
theorem meanSquaredError_eq_zero (N F : ℕ) (hN : 0 < N) (D : Batch) :
    meanSquaredError N F D = 0 ↔ ∀ n < N, ∀ j < F, D n j = 0 := by
  unfold meanSquaredError
  have hN' : (2 * (N : ℝ)) ≠ 0 := by positivity
  rw [div_eq_zero_iff, or_iff_left hN',
    Finset.sum_eq_zero_iff_of_nonneg (fun n _ => Finset.sum_nonneg fun j _ => sq_nonneg _)]
  refine forall_congr' fun n => ?_
  rw [Finset.mem_range]
  refine imp_congr_right fun _ => ?_
  rw [Finset.sum_eq_zero_iff_of_nonneg (fun j _ => sq_nonneg _)]
  simp only [Finset.mem_range, sq_eq_zero_iff]

/-- Rows that are probability distributions. -/
def Distribution (N F : ℕ) (Y : Batch) : Prop :=
  ∀ n < N, (∀ j < F, 0 ≤ Y n j) ∧ ∑ j ∈ Finset.range F, Y n j = 1

theorem distribution_le_one {N F : ℕ} {Y : Batch} (h : Distribution N F Y) {n j : ℕ} (hn : n < N) (hj : j < F) :
    Y n j ≤ 1 := by
  rw [← (h n hn).2]
  exact Finset.single_le_sum (f := fun j => Y n j) (fun k hk => (h n hn).1 k (Finset.mem_range.mp hk))
    (Finset.mem_range.mpr hj)

/-- **C30.** The cross entropy of distributions is not below `-1e-10`. -/
theorem crossEntropy_lower_bound (N F : ℕ) (hN : 0 < N) (Y T : Batch) (hY : Distribution N F Y)
    (hT : Distribution N F T) : -1e-10 ≤ crossEntropy N F Y T := by
  have hNr : (0 : ℝ) < N := by exact_mod_cast hN
  have key : ∑ n ∈ Finset.range N, ∑ j ∈ Finset.range F, T n j * Real.log (Y n j + 1e-10) ≤ N * 1e-10 := by
    calc ∑ n ∈ Finset.range N, ∑ j ∈ Finset.range F, T n j * Real.log (Y n j + 1e-10)
        ≤ ∑ n ∈ Finset.range N, ∑ j ∈ Finset.range F, T n j * 1e-10 := by
          refine Finset.sum_le_sum fun n hn => Finset.sum_le_sum fun j hj => ?_
          rw [Finset.mem_range] at hn hj
          refine mul_le_mul_of_nonneg_left ?_ ((hT n hn).1 j hj)
          have h0 := (hY n hn).1 j hj
          have h1 := distribution_le_one hY hn hj
          have := Real.log_le_sub_one_of_pos (show 0 < Y n j + 1e-10 by positivity)
          linarith
      _ = N * 1e-10 := by
          simp only [← Finset.sum_mul]
          rw [Finset.sum_congr rfl (fun n hn => (hT n (Finset.mem_range.mp hn)).2)]
          simp
  unfold crossEntropy
  rw [le_div_iff₀ hNr]
  linarith

/-- **C30.** No predicted distribution is (noticeably) better than the target distribution itself: the cross entropy is at
least the entropy of the targets up to `F * 1e-10`. -/
theorem crossEntropy_ge_entropy (N F : ℕ) (hN : 0 < N) (Y T : Batch) (hY : Distribution N F Y)
    (hT : Distribution N F T) :
    -(∑ n ∈ Finset.range N, ∑ j ∈ Finset.range F, T n j * Real.log (T n j)) / N - F * 1e-10 ≤ crossEntropy N F Y T := by
  have hNr : (0 : ℝ) < N := by exact_mod_cast hN
  have point : ∀ n < N, ∀ j < F, T n j * Real.log (Y n j + 1e-10) - T n j * Real.log (T n j) ≤ Y n j + 1e-10 - T n j := by
    intro n hn j hj
    have h0 := (hY n hn).1 j hj
    rcases (hT n hn).1 j hj |>.eq_or_lt with h | h
    · rw [← h]
      have : (0 : ℝ) ≤ Y n j + 1e-10 := by positivity
      linarith
    · have hp : (0 : ℝ) < Y n j + 1e-10 := by positivity
      have h2 := Real.log_le_sub_one_of_pos (div_pos hp h)
      rw [Real.log_div hp.ne' h.ne'] at h2
      have h3 := mul_le_mul_of_nonneg_left h2 h.le
      have h4 : T n j * ((Y n j + 1e-10) / T n j - 1) = Y n j + 1e-10 - T n j := by
        field_simp
      linarith
  have key : ∑ n ∈ Finset.range N, ∑ j ∈ Finset.range F,
      (T n j * Real.log (Y n j + 1e-10) - T n j * Real.log (T n j)) ≤ N * (F * 1e-10) := by
    calc _ ≤ ∑ n ∈ Finset.range N, ∑ j ∈ Finset.range F, (Y n j + 1e-10 - T n j) :=
          Finset.sum_le_sum fun n hn => Finset.sum_le_sum fun j hj =>
            point n (Finset.mem_range.mp hn) j (Finset.mem_range.mp hj)
      _ = ∑ n ∈ Finset.range N, (F * 1e-10 : ℝ) := by
          refine Finset.sum_congr rfl fun n hn => ?_
          rw [Finset.mem_range] at hn
          rw [Finset.sum_sub_distrib, Finset.sum_add_distrib, (hY n hn).2, (hT n hn).2]
          simp
      _ = N * (F * 1e-10) := by simp
  simp only [Finset.sum_sub_distrib] at key
  unfold crossEntropy
  rw [div_sub' hNr.ne', div_le_div_iff_of_pos_right hNr]
  linarith

/-- Two classes, two instances. -/
example : -1e-10 ≤ crossEntropy 2 2 (fun _ _ => 1 / 2) (fun n j => if n = j then 1 else 0) :=
  crossEntropy_lower_bound 2 2 (by norm_num) _ _
    (by intro n _; refine ⟨fun _ _ => by norm_num, by norm_num⟩)
    (by
      intro n hn
      refine ⟨fun j _ => by dsimp only; split <;> norm_num, ?_⟩
      have : n = 0 ∨ n = 1 := by omega
      rcases this with rfl | rfl <;> simp)

end

end Verif.NN
