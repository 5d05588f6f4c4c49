import Verif.Props.Convergence
import Verif.Props.Descent
import Verif.Props.MLNN
import Mathlib.Probability.Moments.SubGaussian
import Mathlib.Analysis.Convex.SpecificFunctions.Basic

/-!
# Networks without hidden layers reach the minimum of the error: C82 (the networks)
-/

namespace Verif.NN

open Finset Verif.Opt

noncomputable section

/-! ## Spec -/

/-- The call `outputLayer(F, LINEAR)` after `inputLayer(D)`. -/
def linearKinds (F : ℕ) : List Kind := [.fullyConnected F true .linear ⟨0, 0, 0⟩]

/-- Spec: output `j` of a linear model with the parameters `u`. -/
def score (D : ℕ) (x : ℕ → ℝ) (u : Vec) (j : ℕ) : ℝ := ∑ i ∈ range D, u (j * (D + 1) + i) * x i + u (j * (D + 1) + D)

/-- Spec: the mean squared error of a linear model. -/
def leastSquares (D F : ℕ) (ds : TrainSet) (u : Vec) : ℝ :=
  (∑ n ∈ range ds.samples, ∑ j ∈ range F, (score D (ds.inst n) u j - ds.tgt n j) ^ 2) / (2 * ds.samples)

/-- Spec: the cross entropy of multinomial logistic regression. -/
def logisticRegression (D F : ℕ) (ds : TrainSet) (u : Vec) : ℝ :=
  -(∑ n ∈ range ds.samples, ∑ j ∈ range F, ds.tgt n j *
    Real.log (Real.exp (score D (ds.inst n) u j) / ∑ k ∈ range F, Real.exp (score D (ds.inst n) u k))) / ds.samples

/-- Spec: the mean over the training set of the squared length of the input, with 1 for the bias. -/
def meanSquare (D : ℕ) (ds : TrainSet) : ℝ := (∑ n ∈ range ds.samples, (∑ i ∈ range D, ds.inst n i ^ 2 + 1)) / ds.samples

/-! ## The network is the linear model -/

theorem linear_P (D F : ℕ) (ce : Bool) : (buildNet D (linearKinds F) ce).P = F * (D + 1) := by
  have h := mlnn_size ⟨0, 0, 0⟩ ce .linear .linear D F []
  refine h.trans ?_
  simp [mlpSize]

theorem linear_outputs (D F : ℕ) (ce : Bool) : (buildNet D (linearKinds F) ce).outputs = F :=
  mlnn_outputs ⟨0, 0, 0⟩ ce .linear .linear D F []

theorem block_lt {D F j i : ℕ} (hj : j < F) (hi : i < D + 1) : j * (D + 1) + i < F * (D + 1) := by
  have : (j + 1) * (D + 1) ≤ F * (D + 1) := Nat.mul_le_mul_right _ hj
  rw [Nat.succ_mul] at this
  omega

theorem linear_activations (D F : ℕ) (ce : Bool) (mem : Mem) (u : Vec) (N : ℕ) (X : Batch) (n : ℕ) {j : ℕ} (hj : j < F) :
    (buildNet D (linearKinds F) ce).activations
      ((buildNet D (linearKinds F) ce).setParameters mem (vectorOf (buildNet D (linearKinds F) ce) u)) N X n j =
      score D (X n) u j := by
  have hlen : (vectorOf (buildNet D (linearKinds F) ce) u).length = F * (D + 1) := by
    rw [vectorOf, List.length_map, List.length_range, linear_P]
  have h := mlnn_activations ce (reg := ⟨0, 0, 0⟩) le_rfl .linear .linear D F [] mem
    (θ := vectorOf (buildNet D (linearKinds F) ce) u) (by rw [hlen]; simp [mlpSize]) N X n hj
  refine h.trans ?_
  have hget : ∀ p < F * (D + 1), (vectorOf (buildNet D (linearKinds F) ce) u).getD p 0 = u p := by
    intro p hp
    rw [vectorOf, List.getD, List.getElem?_map, List.getElem?_range (by rw [linear_P]; exact hp)]
    rfl
  show ∑ i ∈ range D, (vectorOf (buildNet D (linearKinds F) ce) u).getD (j * (D + 1) + i) 0 * X n i +
    (vectorOf (buildNet D (linearKinds F) ce) u).getD (j * (D + 1) + D) 0 = _
  rw [score, hget _ (block_lt hj (Nat.lt_succ_self D))]
  congr 1
  refine sum_congr rfl fun i hi => ?_
  rw [hget _ (block_lt hj (Nat.lt_succ_of_lt (mem_range.1 hi)))]

theorem linear_dataError (D F : ℕ) (mem : Mem) (ds : TrainSet) (u : Vec) :
    dataError (buildNet D (linearKinds F) false) ((buildNet D (linearKinds F) false).setParameters mem
      (vectorOf (buildNet D (linearKinds F) false) u)) ds (List.range ds.samples) = leastSquares D F ds u := by
  show exactLoss false _ _ _ _ = _
  rw [exactLoss, if_neg (by decide), leastSquares, List.length_range, linear_outputs]
  refine congrArg (· / (2 * (ds.samples : ℝ))) (sum_congr rfl fun n hn => sum_congr rfl fun j hj => ?_)
  rw [linear_activations D F false mem u _ _ _ (mem_range.1 hj), selectRows_range (mem_range.1 hn),
    selectRows_range (mem_range.1 hn)]

theorem softmax_dataError (D F : ℕ) (mem : Mem) (ds : TrainSet) (u : Vec) :
    dataError (buildNet D (linearKinds F) true) ((buildNet D (linearKinds F) true).setParameters mem
      (vectorOf (buildNet D (linearKinds F) true) u)) ds (List.range ds.samples) = logisticRegression D F ds u := by
  show exactLoss true _ _ _ _ = _
  rw [exactLoss, if_pos rfl, logisticRegression, List.length_range, linear_outputs]
  refine congrArg (fun z => -z / (ds.samples : ℝ)) (sum_congr rfl fun n hn => sum_congr rfl fun j hj => ?_)
  have e : ∀ k ∈ range F, (buildNet D (linearKinds F) true).activations ((buildNet D (linearKinds F) true).setParameters mem
      (vectorOf (buildNet D (linearKinds F) true) u)) ds.samples (selectRows ds.inst (List.range ds.samples)) n k =
      score D (ds.inst n) u k := by
    intro k hk
    rw [linear_activations D F true mem u _ _ _ (mem_range.1 hk), selectRows_range (mem_range.1 hn)]
  rw [e j hj, selectRows_range (mem_range.1 hn)]
  congr 3
  exact sum_congr rfl fun k hk => by rw [e k hk]

/-! ## Curvature and convexity -/

theorem score_add (D : ℕ) (x : ℕ → ℝ) (u v : Vec) (c : ℝ) (j : ℕ) :
    score D x (fun p => u p + c * v p) j = score D x u j + c * score D x v j := by
  have e : ∑ i ∈ range D, (u (j * (D + 1) + i) + c * v (j * (D + 1) + i)) * x i =
      ∑ i ∈ range D, u (j * (D + 1) + i) * x i + c * ∑ i ∈ range D, v (j * (D + 1) + i) * x i := by
    rw [mul_sum, ← sum_add_distrib]
    exact sum_congr rfl fun i _ => by ring
  rw [score, score, score, e]
  ring

theorem score_sq_le (D : ℕ) (x : ℕ → ℝ) (v : Vec) (j : ℕ) :
    score D x v j ^ 2 ≤ (∑ i ∈ range D, x i ^ 2 + 1) * ∑ i ∈ range (D + 1), v (j * (D + 1) + i) ^ 2 := by
  have h := sum_mul_sq_le_sq_mul_sq (range (D + 1)) (fun i => v (j * (D + 1) + i)) fun i => if i < D then x i else 1
  have e1 : ∑ i ∈ range (D + 1), v (j * (D + 1) + i) * (if i < D then x i else 1) = score D x v j := by
    rw [sum_range_succ, score, if_neg (lt_irrefl D), mul_one]
    congr 1
    exact sum_congr rfl fun i hi => by rw [if_pos (mem_range.1 hi)]
  have e2 : ∑ i ∈ range (D + 1), (if i < D then x i else 1) ^ 2 = ∑ i ∈ range D, x i ^ 2 + 1 := by
    rw [sum_range_succ, if_neg (lt_irrefl D), one_pow]
    congr 1
    exact sum_congr rfl fun i hi => by rw [if_pos (mem_range.1 hi)]
  rw [e1, e2] at h
  rw [mul_comm]
  exact h

theorem sum_blocks (D F : ℕ) (f : ℕ → ℝ) :
    ∑ j ∈ range F, ∑ i ∈ range (D + 1), f (j * (D + 1) + i) = ∑ p ∈ range (F * (D + 1)), f p := by
  induction F with
  | zero => simp
  | succ F ih => rw [sum_range_succ, ih, Nat.succ_mul, sum_range_add f (F * (D + 1)) (D + 1)]

/-- The scores of a change of the parameters are at most as large as the change times the length of the inputs. -/
theorem scores_le (D F : ℕ) (ds : TrainSet) (v : Vec) :
    (∑ n ∈ range ds.samples, ∑ j ∈ range F, score D (ds.inst n) v j ^ 2) / ds.samples ≤
      meanSquare D ds * ∑ p ∈ range (F * (D + 1)), v p ^ 2 := by
  rw [meanSquare, div_mul_eq_mul_div]
  refine div_le_div_of_nonneg_right ?_ (Nat.cast_nonneg _)
  rw [sum_mul]
  refine sum_le_sum fun n _ => ?_
  rw [← sum_blocks D F fun p => v p ^ 2, mul_sum]
  exact sum_le_sum fun j _ => score_sq_le D (ds.inst n) v j

/-- The difference of two parameter vectors. -/
def change (u w : Vec) : Vec := fun p => u p - w p

theorem add_change (u w : Vec) : (fun p => w p + 1 * change u w p) = u := by
  funext p
  rw [change]
  ring

/-- The slope of the mean squared error at `w` in the direction `v`. -/
def leastSquaresSlope (D F : ℕ) (ds : TrainSet) (w v : Vec) : ℝ :=
  (∑ n ∈ range ds.samples, ∑ j ∈ range F, (score D (ds.inst n) w j - ds.tgt n j) * score D (ds.inst n) v j) / ds.samples

theorem leastSquares_expand (D F : ℕ) (ds : TrainSet) (w v : Vec) (t : ℝ) :
    leastSquares D F ds (fun p => w p + t * v p) = leastSquares D F ds w + t * leastSquaresSlope D F ds w v +
      t ^ 2 / 2 * ((∑ n ∈ range ds.samples, ∑ j ∈ range F, score D (ds.inst n) v j ^ 2) / ds.samples) := by
  have e : ∀ a b c : ℝ, (a : ℝ) / (2 * ds.samples) + t * (b / ds.samples) + t ^ 2 / 2 * (c / ds.samples) =
      (a + 2 * t * b + t ^ 2 * c) / (2 * ds.samples) := by
    intro a b c
    rcases Nat.eq_zero_or_pos ds.samples with h | h
    · simp [h]
    · have : (ds.samples : ℝ) ≠ 0 := by exact_mod_cast h.ne'
      field_simp
  rw [leastSquares, leastSquares, leastSquaresSlope, e]
  refine congrArg (· / (2 * (ds.samples : ℝ))) ?_
  rw [mul_sum, mul_sum, ← sum_add_distrib, ← sum_add_distrib]
  refine sum_congr rfl fun n _ => ?_
  rw [mul_sum, mul_sum, ← sum_add_distrib, ← sum_add_distrib]
  refine sum_congr rfl fun j _ => ?_
  rw [score_add]
  ring

/-! ### Logarithm of a sum of exponentials -/

/-- `log (sum exp)` -/
def logSumExp (F : ℕ) (z : ℕ → ℝ) : ℝ := Real.log (∑ j ∈ range F, Real.exp (z j))

/-- The probabilities of softmax. -/
def prob (F : ℕ) (z : ℕ → ℝ) (j : ℕ) : ℝ := Real.exp (z j) / ∑ k ∈ range F, Real.exp (z k)

theorem sumExp_pos {F : ℕ} (hF : 0 < F) (z : ℕ → ℝ) : 0 < ∑ j ∈ range F, Real.exp (z j) :=
  sum_pos (fun _ _ => Real.exp_pos _) ⟨0, mem_range.2 hF⟩

theorem prob_nonneg {F : ℕ} (z : ℕ → ℝ) (j : ℕ) : 0 ≤ prob F z j :=
  div_nonneg (Real.exp_pos _).le (sum_nonneg fun _ _ => (Real.exp_pos _).le)

theorem prob_sum {F : ℕ} (hF : 0 < F) (z : ℕ → ℝ) : ∑ j ∈ range F, prob F z j = 1 := by
  simp only [prob]
  rw [← sum_div, div_self (sumExp_pos hF z).ne']

theorem logSumExp_add {F : ℕ} (hF : 0 < F) (z d : ℕ → ℝ) :
    logSumExp F (fun j => z j + d j) = logSumExp F z + Real.log (∑ j ∈ range F, prob F z j * Real.exp (d j)) := by
  have hz := sumExp_pos hF z
  have e : ∑ j ∈ range F, Real.exp (z j + d j) = (∑ j ∈ range F, Real.exp (z j)) * ∑ j ∈ range F, prob F z j * Real.exp (d j) := by
    rw [mul_sum]
    refine sum_congr rfl fun j _ => ?_
    rw [prob, Real.exp_add, ← mul_assoc, mul_div_cancel₀ _ hz.ne']
  have hp : ∑ j ∈ range F, prob F z j * Real.exp (d j) ≠ 0 := by
    intro h
    rw [h, mul_zero] at e
    exact (sumExp_pos hF fun j => z j + d j).ne' e
  rw [logSumExp, e, Real.log_mul hz.ne' hp]
  rfl

/-- Jensen: the logarithm of a sum of exponentials is convex. -/
theorem logSumExp_ge {F : ℕ} (hF : 0 < F) (z d : ℕ → ℝ) :
    logSumExp F z + ∑ j ∈ range F, prob F z j * d j ≤ logSumExp F fun j => z j + d j := by
  rw [logSumExp_add hF]
  have h := convexOn_exp.map_sum_le (t := range F) (w := prob F z) (p := d) (fun j _ => prob_nonneg z j) (prob_sum hF z)
    fun j _ => Set.mem_univ _
  simp only [smul_eq_mul] at h
  have hpos := lt_of_lt_of_le (Real.exp_pos _) h
  have := (Real.le_log_iff_exp_le hpos).2 h
  linarith

open MeasureTheory ProbabilityTheory in
/-- Hoeffding's lemma for finitely many values. -/
theorem hoeffding {F : ℕ} (hF : 0 < F) {p : ℕ → ℝ} (hp : ∀ j, 0 ≤ p j) (hs : ∑ j ∈ range F, p j = 1) (d : ℕ → ℝ) {a b : ℝ}
    (hd : ∀ j < F, d j ∈ Set.Icc a b) :
    ∑ j ∈ range F, p j * Real.exp (d j) ≤ Real.exp (∑ j ∈ range F, p j * d j + (b - a) ^ 2 / 8) := by
  set μ : Measure ℕ := ∑ j ∈ range F, ENNReal.ofReal (p j) • Measure.dirac j with hμ
  have hint : ∀ f : ℕ → ℝ, ∫ x, f x ∂μ = ∑ j ∈ range F, p j * f j := by
    intro f
    rw [hμ, integral_finsetSum_measure fun j _ => (integrable_dirac (by simp)).smul_measure ENNReal.ofReal_ne_top]
    refine sum_congr rfl fun j _ => ?_
    rw [integral_smul_measure, integral_dirac, ENNReal.toReal_ofReal (hp j), smul_eq_mul]
  have : IsProbabilityMeasure μ := by
    refine ⟨?_⟩
    rw [hμ, Measure.finsetSum_apply]
    simp only [Measure.smul_apply, measure_univ, smul_eq_mul, mul_one]
    rw [← ENNReal.ofReal_sum_of_nonneg fun j _ => hp j, hs, ENNReal.ofReal_one]
  set X : ℕ → ℝ := fun j => if j < F then d j else d 0 with hX
  have hXd : ∀ j ∈ range F, X j = d j := fun j hj => if_pos (mem_range.1 hj)
  have hXm : ∀ j, X j ∈ Set.Icc a b := by
    intro j
    rw [hX]
    simp only
    split
    · next h => exact hd j h
    · exact hd 0 hF
  have hsub := (hasSubgaussianMGF_of_mem_Icc (μ := μ) (X := X) (measurable_of_countable X).aemeasurable
    (Filter.Eventually.of_forall hXm)).mgf_le 1
  rw [mgf, hint, hint] at hsub
  have em : ∑ j ∈ range F, p j * X j = ∑ j ∈ range F, p j * d j := sum_congr rfl fun j hj => by rw [hXd j hj]
  rw [em] at hsub
  set m := ∑ j ∈ range F, p j * d j with hm
  have el : ∑ j ∈ range F, p j * Real.exp (1 * (X j - m)) = (∑ j ∈ range F, p j * Real.exp (d j)) * Real.exp (-m) := by
    rw [sum_mul]
    refine sum_congr rfl fun j hj => ?_
    rw [hXd j hj, one_mul, sub_eq_add_neg, Real.exp_add, mul_assoc]
  have hab : a ≤ b := (hd 0 hF).1.trans (hd 0 hF).2
  have er : ((((‖b - a‖₊ / 2) ^ 2 : NNReal) : ℝ) * 1 ^ 2 / 2) = (b - a) ^ 2 / 8 := by
    push_cast
    rw [Real.norm_of_nonneg (by linarith)]
    ring
  rw [el, er] at hsub
  rw [Real.exp_add]
  calc ∑ j ∈ range F, p j * Real.exp (d j) = (∑ j ∈ range F, p j * Real.exp (d j)) * Real.exp (-m) * Real.exp m := by
        rw [mul_assoc, ← Real.exp_add, neg_add_cancel, Real.exp_zero, mul_one]
    _ ≤ Real.exp ((b - a) ^ 2 / 8) * Real.exp m := mul_le_mul_of_nonneg_right hsub (Real.exp_pos _).le
    _ = _ := mul_comm _ _

/-- The logarithm of a sum of exponentials has curvature at most 1/2. -/
theorem logSumExp_le {F : ℕ} (hF : 0 < F) (z d : ℕ → ℝ) :
    logSumExp F (fun j => z j + d j) ≤ logSumExp F z + ∑ j ∈ range F, prob F z j * d j + (∑ j ∈ range F, d j ^ 2) / 4 := by
  obtain ⟨b, hb, hmax⟩ := exists_max_image (range F) d ⟨0, mem_range.2 hF⟩
  obtain ⟨a, ha, hmin⟩ := exists_min_image (range F) d ⟨0, mem_range.2 hF⟩
  have h := hoeffding hF (prob_nonneg z) (prob_sum hF z) d (a := d a) (b := d b) fun j hj =>
    ⟨hmin j (mem_range.2 hj), hmax j (mem_range.2 hj)⟩
  have hab : (d b - d a) ^ 2 / 8 ≤ (∑ j ∈ range F, d j ^ 2) / 4 := by
    have : (d b - d a) ^ 2 ≤ 2 * ∑ j ∈ range F, d j ^ 2 := by
      by_cases e : a = b
      · rw [e, sub_self]
        have : 0 ≤ ∑ j ∈ range F, d j ^ 2 := sum_nonneg fun _ _ => sq_nonneg _
        nlinarith
      · have h2 : ∑ j ∈ ({a, b} : Finset ℕ), d j ^ 2 ≤ ∑ j ∈ range F, d j ^ 2 :=
          sum_le_sum_of_subset_of_nonneg (by
            intro j hj
            rcases mem_insert.1 hj with rfl | hj
            · exact ha
            · rw [mem_singleton.1 hj]; exact hb) fun _ _ _ => sq_nonneg _
        rw [sum_pair e] at h2
        nlinarith [sq_nonneg (d a + d b)]
    linarith
  rw [logSumExp_add hF]
  have hpos : 0 < ∑ j ∈ range F, prob F z j * Real.exp (d j) :=
    sum_pos (fun j _ => mul_pos (div_pos (Real.exp_pos _) (sumExp_pos hF z)) (Real.exp_pos _)) ⟨0, mem_range.2 hF⟩
  have := (Real.log_le_iff_le_exp hpos).2 h
  linarith

/-- The slope of the cross entropy at `w` in the direction `v`. -/
def logisticSlope (D F : ℕ) (ds : TrainSet) (w v : Vec) : ℝ :=
  (∑ n ∈ range ds.samples, ∑ j ∈ range F, (prob F (score D (ds.inst n) w) j - ds.tgt n j) * score D (ds.inst n) v j) / ds.samples

theorem logistic_eq {D F : ℕ} (hF : 0 < F) (ds : TrainSet) (hT : ∀ n < ds.samples, ∑ j ∈ range F, ds.tgt n j = 1) (u : Vec) :
    logisticRegression D F ds u = (∑ n ∈ range ds.samples, (logSumExp F (score D (ds.inst n) u) -
      ∑ j ∈ range F, ds.tgt n j * score D (ds.inst n) u j)) / ds.samples := by
  rw [logisticRegression, ← sum_neg_distrib]
  refine congrArg (· / (ds.samples : ℝ)) (sum_congr rfl fun n hn => ?_)
  have hpos := sumExp_pos hF (score D (ds.inst n) u)
  have e : ∀ j ∈ range F, ds.tgt n j * Real.log (Real.exp (score D (ds.inst n) u j) /
      ∑ k ∈ range F, Real.exp (score D (ds.inst n) u k)) =
      ds.tgt n j * score D (ds.inst n) u j - ds.tgt n j * logSumExp F (score D (ds.inst n) u) := by
    intro j _
    rw [Real.log_div (Real.exp_pos _).ne' hpos.ne', Real.log_exp, logSumExp]
    ring
  rw [sum_congr rfl e, sum_sub_distrib, ← sum_mul, hT n (mem_range.1 hn), one_mul]
  ring

theorem logistic_ge {D F : ℕ} (hF : 0 < F) (ds : TrainSet) (hT : ∀ n < ds.samples, ∑ j ∈ range F, ds.tgt n j = 1) (w v : Vec)
    (t : ℝ) :
    logisticRegression D F ds w + t * logisticSlope D F ds w v ≤ logisticRegression D F ds fun p => w p + t * v p := by
  rw [logistic_eq hF ds hT, logistic_eq hF ds hT, logisticSlope, ← mul_div_assoc, ← add_div]
  refine div_le_div_of_nonneg_right ?_ (Nat.cast_nonneg _)
  rw [mul_sum, ← sum_add_distrib]
  refine sum_le_sum fun n _ => ?_
  have h := logSumExp_ge hF (score D (ds.inst n) w) fun j => t * score D (ds.inst n) v j
  have e1 : score D (ds.inst n) (fun p => w p + t * v p) = fun j => score D (ds.inst n) w j + t * score D (ds.inst n) v j :=
    funext fun j => score_add D _ w v t j
  have e2 : t * ∑ j ∈ range F, (prob F (score D (ds.inst n) w) j - ds.tgt n j) * score D (ds.inst n) v j =
      ∑ j ∈ range F, prob F (score D (ds.inst n) w) j * (t * score D (ds.inst n) v j) -
        ∑ j ∈ range F, ds.tgt n j * (t * score D (ds.inst n) v j) := by
    rw [mul_sum, ← sum_sub_distrib]
    exact sum_congr rfl fun j _ => by ring
  have e3 : ∑ j ∈ range F, ds.tgt n j * (score D (ds.inst n) w j + t * score D (ds.inst n) v j) =
      ∑ j ∈ range F, ds.tgt n j * score D (ds.inst n) w j + ∑ j ∈ range F, ds.tgt n j * (t * score D (ds.inst n) v j) := by
    rw [← sum_add_distrib]
    exact sum_congr rfl fun j _ => by ring
  rw [e1, e2, e3]
  linarith

theorem logistic_le {D F : ℕ} (hF : 0 < F) (ds : TrainSet) (hT : ∀ n < ds.samples, ∑ j ∈ range F, ds.tgt n j = 1) (w v : Vec)
    (t : ℝ) :
    logisticRegression D F ds (fun p => w p + t * v p) ≤ logisticRegression D F ds w + t * logisticSlope D F ds w v +
      t ^ 2 / 4 * ((∑ n ∈ range ds.samples, ∑ j ∈ range F, score D (ds.inst n) v j ^ 2) / ds.samples) := by
  rw [logistic_eq hF ds hT, logistic_eq hF ds hT, logisticSlope, ← mul_div_assoc, ← mul_div_assoc, ← add_div, ← add_div]
  refine div_le_div_of_nonneg_right ?_ (Nat.cast_nonneg _)
  rw [mul_sum, mul_sum, ← sum_add_distrib, ← sum_add_distrib]
  refine sum_le_sum fun n _ => ?_
  have h := logSumExp_le hF (score D (ds.inst n) w) fun j => t * score D (ds.inst n) v j
  have e1 : score D (ds.inst n) (fun p => w p + t * v p) = fun j => score D (ds.inst n) w j + t * score D (ds.inst n) v j :=
    funext fun j => score_add D _ w v t j
  have e2 : t * ∑ j ∈ range F, (prob F (score D (ds.inst n) w) j - ds.tgt n j) * score D (ds.inst n) v j =
      ∑ j ∈ range F, prob F (score D (ds.inst n) w) j * (t * score D (ds.inst n) v j) -
        ∑ j ∈ range F, ds.tgt n j * (t * score D (ds.inst n) v j) := by
    rw [mul_sum, ← sum_sub_distrib]
    exact sum_congr rfl fun j _ => by ring
  have e3 : ∑ j ∈ range F, ds.tgt n j * (score D (ds.inst n) w j + t * score D (ds.inst n) v j) =
      ∑ j ∈ range F, ds.tgt n j * score D (ds.inst n) w j + ∑ j ∈ range F, ds.tgt n j * (t * score D (ds.inst n) v j) := by
    rw [← sum_add_distrib]
    exact sum_congr rfl fun j _ => by ring
  have e4 : (∑ j ∈ range F, (t * score D (ds.inst n) v j) ^ 2) / 4 = t ^ 2 / 4 * ∑ j ∈ range F, score D (ds.inst n) v j ^ 2 := by
    rw [mul_sum, sum_div]
    exact sum_congr rfl fun j _ => by ring
  rw [e1, e2, e3]
  rw [e4] at h
  linarith

/-! ## From slopes to gradients -/

/-- An objective between lines and parabolas is convex and has bounded curvature, for its gradient. -/
theorem curvature_of_slope {P : ℕ} {J : Vec → ℝ} {G : Vec → Vec} {slope : Vec → Vec → ℝ} {S : Vec → ℝ} {c M : ℝ}
    (hG : ∀ w, GradientAt P J w (G w)) (h1 : ∀ w v t, J w + t * slope w v ≤ J fun p => w p + t * v p)
    (h2 : ∀ w v t, J (fun p => w p + t * v p) ≤ J w + t * slope w v + t ^ 2 * (c * S v)) (hc : 0 ≤ c)
    (hS : ∀ v, S v ≤ M * ∑ p ∈ range P, v p ^ 2) :
    ConvexWith P J G ∧ CurvatureAtMost P (2 * c * M) J G := by
  have hslope : ∀ w v, ∑ p ∈ range P, G w p * v p = slope w v := by
    intro w v
    have e : (fun p => w p + 0 * v p) = w := by
      funext p
      ring
    refine slope_unique (f := fun t => J fun p => w p + t * v p) (c := c * S v) (fun t => ?_) (fun t => ?_) (hG w v)
    · simp only [e]
      exact h1 w v t
    · simp only [e]
      have := h2 w v t
      linarith
  refine ⟨fun w u => ?_, fun w u => ?_⟩
  · have h := h1 w (change u w) 1
    rw [add_change, ← hslope, one_mul] at h
    exact h
  · have h := h2 w (change u w) 1
    rw [add_change, ← hslope, one_mul, one_pow, one_mul] at h
    have hs := mul_le_mul_of_nonneg_left (hS (change u w)) hc
    have e : distSq P u w = ∑ p ∈ range P, change u w p ^ 2 := rfl
    rw [e]
    have h' : ∑ p ∈ range P, G w p * change u w p = ∑ p ∈ range P, G w p * (u p - w p) := rfl
    rw [h'] at h
    linarith

/-! ## The theorems -/

theorem linear_fitsFrom (D F : ℕ) : FitsFrom D (linearKinds F) := ⟨trivial, trivial⟩

theorem linear_unconstrained (F : ℕ) : Unconstrained (linearKinds F) := by
  intro k hk J bias act reg e
  cases List.mem_singleton.1 hk
  cases e
  exact le_refl _

theorem linear_unregularised (F : ℕ) : ∀ k ∈ linearKinds F, k.Unregularised := by
  intro k hk
  cases List.mem_singleton.1 hk
  exact ⟨le_refl _, le_refl _⟩

theorem linear_rowWise (F : ℕ) : ∀ k ∈ linearKinds F, k.RowWise := by
  intro k hk
  cases List.mem_singleton.1 hk
  trivial

theorem linear_smooth (mem : Mem) (N n D F : ℕ) (x : Batch) : SmoothFrom mem N n D (linearKinds F) x := by
  refine smoothFrom_fullyConnected ?_ _ _ _ _ _
  intro k hk
  cases List.mem_singleton.1 hk
  exact ⟨_, _, _, rfl, by decide, by decide⟩

/-- The gradient of the network for the whole training set. -/
def fullGradient (D F : ℕ) (ce : Bool) (mem : Mem) (ds : TrainSet) (w : Vec) : Vec := fun p =>
  ((buildNet D (linearKinds F) ce).errorGradientAll ((buildNet D (linearKinds F) ce).setParameters mem
    (vectorOf (buildNet D (linearKinds F) ce) w)) ⟨fun _ _ => 0, fun _ _ _ => 0⟩ ds).2.getD p 0

theorem linear_fullGradient (D F : ℕ) (ce : Bool) (mem : Mem) (sc : ℕ → Scratch) (ds : TrainSet) (hN : 0 < ds.samples) :
    (netProblem (buildNet D (linearKinds F) ce) mem sc ds).FullGradient (fullGradient D F ce mem ds) := by
  intro k w b hb
  funext p
  show (Net.errorGradient _ _ _ _ _).2.getD p 0 = (Net.errorGradient _ _ _ _ _).2.getD p 0
  rw [batch_order (D := D) (ce := ce) (linear_rowWise F) _ ds (sc k) ⟨fun _ _ => 0, fun _ _ _ => 0⟩ hb (ne_nil_of_perm hN hb)]
  rfl

/-- `error()` of the network is the mean squared error of the linear model. -/
theorem linear_error (D F : ℕ) (mem : Mem) (ds : TrainSet) (hN : 0 < ds.samples) (u : Vec) :
    (buildNet D (linearKinds F) false).error ((buildNet D (linearKinds F) false).setParameters mem
      (vectorOf (buildNet D (linearKinds F) false) u)) ds = leastSquares D F ds u := by
  rw [error_eq_dataError (linear_unregularised F) (linear_rowWise F) _ ds hN (.refl _), linear_dataError]

/-- `error()` of the network with softmax is at most the cross entropy of logistic regression. -/
theorem softmax_error (D F : ℕ) (mem : Mem) (ds : TrainSet) (hN : 0 < ds.samples) (hT : ∀ n < ds.samples, ∀ j < F, 0 ≤ ds.tgt n j)
    (u : Vec) :
    (buildNet D (linearKinds F) true).error ((buildNet D (linearKinds F) true).setParameters mem
      (vectorOf (buildNet D (linearKinds F) true) u)) ds ≤ logisticRegression D F ds u := by
  rw [error_eq_value_partial (linear_rowWise F) _ ⟨fun _ _ => 0, fun _ _ _ => 0⟩ ds hN, Net.errorGradientAll]
  have h := (value_ce (D := D) (ks := linearKinds F) ((buildNet D (linearKinds F) true).setParameters mem
    (vectorOf (buildNet D (linearKinds F) true) u)) ⟨fun _ _ => 0, fun _ _ _ => 0⟩ ds (idx := List.range ds.samples)
    (ne_nil_of_perm hN (.refl _)) (by
      intro n hn j hj
      rw [linear_outputs] at hj
      exact hT n (List.mem_range.1 hn) j hj)).1
  rw [penalty_zero (linear_unregularised F), add_zero, softmax_dataError] at h
  exact h

theorem linear_gradientAt (D F : ℕ) (mem : Mem) (ds : TrainSet) (hN : 0 < ds.samples) (w : Vec) :
    GradientAt (F * (D + 1)) (leastSquares D F ds) w (fullGradient D F false mem ds w) := by
  intro v
  have hd := directional (ce := false) (linear_fitsFrom D F) (linear_unconstrained F) mem ⟨fun _ _ => 0, fun _ _ _ => 0⟩ ds
    (idx := List.range ds.samples) (ne_nil_of_perm hN (.refl _)) (by intro h; cases h) w v (linear_smooth _ _ _ _ _ _)
  simp only [trainObjective, penalty_zero (linear_unregularised F), zero_div, add_zero, linear_dataError, linear_P] at hd
  exact hd

theorem softmax_gradientAt (D F : ℕ) (mem : Mem) (ds : TrainSet) (hN : 0 < ds.samples)
    (hT : ∀ n < ds.samples, ∑ j ∈ range F, ds.tgt n j = 1) (w : Vec) :
    GradientAt (F * (D + 1)) (logisticRegression D F ds) w (fullGradient D F true mem ds w) := by
  intro v
  have hd := directional (ce := true) (linear_fitsFrom D F) (linear_unconstrained F) mem ⟨fun _ _ => 0, fun _ _ _ => 0⟩ ds
    (idx := List.range ds.samples) (ne_nil_of_perm hN (.refl _)) (by
      intro _ n hn
      rw [linear_outputs]
      exact hT n (List.mem_range.1 hn)) w v (linear_smooth _ _ _ _ _ _)
  simp only [trainObjective, penalty_zero (linear_unregularised F), zero_div, add_zero, softmax_dataError, linear_P] at hd
  exact hd

theorem linear_curvature (D F : ℕ) (mem : Mem) (ds : TrainSet) (hN : 0 < ds.samples) :
    ConvexWith (F * (D + 1)) (leastSquares D F ds) (fullGradient D F false mem ds) ∧
    CurvatureAtMost (F * (D + 1)) (meanSquare D ds) (leastSquares D F ds) (fullGradient D F false mem ds) := by
  have h := curvature_of_slope (P := F * (D + 1)) (J := leastSquares D F ds) (slope := leastSquaresSlope D F ds)
    (S := fun v => (∑ n ∈ range ds.samples, ∑ j ∈ range F, score D (ds.inst n) v j ^ 2) / ds.samples) (c := 1 / 2)
    (linear_gradientAt D F mem ds hN) (fun w v t => ?_) (fun w v t => ?_) (by norm_num) (scores_le D F ds)
  · have e : 2 * (1 / 2) * meanSquare D ds = meanSquare D ds := by ring
    rwa [e] at h
  · rw [leastSquares_expand]
    have : 0 ≤ t ^ 2 / 2 * ((∑ n ∈ range ds.samples, ∑ j ∈ range F, score D (ds.inst n) v j ^ 2) / ds.samples) :=
      mul_nonneg (by positivity) (div_nonneg (sum_nonneg fun _ _ => sum_nonneg fun _ _ => sq_nonneg _) (Nat.cast_nonneg _))
    linarith
  · rw [leastSquares_expand]
    exact le_of_eq (by ring)

theorem softmax_curvature {D F : ℕ} (mem : Mem) (ds : TrainSet) (hN : 0 < ds.samples)
    (hT : ∀ n < ds.samples, ∑ j ∈ range F, ds.tgt n j = 1) :
    ConvexWith (F * (D + 1)) (logisticRegression D F ds) (fullGradient D F true mem ds) ∧
    CurvatureAtMost (F * (D + 1)) (meanSquare D ds / 2) (logisticRegression D F ds) (fullGradient D F true mem ds) := by
  have hF : 0 < F := by
    rcases Nat.eq_zero_or_pos F with h | h
    · have := hT 0 hN
      rw [h] at this
      simp at this
    · exact h
  have h := curvature_of_slope (P := F * (D + 1)) (J := logisticRegression D F ds) (slope := logisticSlope D F ds)
    (S := fun v => (∑ n ∈ range ds.samples, ∑ j ∈ range F, score D (ds.inst n) v j ^ 2) / ds.samples) (c := 1 / 4)
    (softmax_gradientAt D F mem ds hN hT) (logistic_ge hF ds hT) (fun w v t => ?_) (by norm_num) (scores_le D F ds)
  · have e : 2 * (1 / 4) * meanSquare D ds = meanSquare D ds / 2 := by ring
    rwa [e] at h
  · refine (logistic_le hF ds hT w v t).trans (le_of_eq ?_)
    ring

/-- Spec: the settings of the optimiser under which C82 holds: full batches, no momentum, no gains, a learning rate of at most
`1 / L` that does not grow. -/
structure Suitable (o : MBSGD) (ds : TrainSet) (L : ℝ) : Prop where
  valid : o.Valid
  fair : o.Fair
  fresh : o.iteration < 0
  plain : o.Plain
  batch : ds.samples ≤ o.batchSize
  alpha : 0 < o.alpha
  floor : o.minAlpha ≤ o.alpha
  small : o.alpha * L ≤ 1

/-- **C82 (linear regression)**: for every training set and every start `w`, training a network without hidden layers and with
linear outputs for `m` epochs ends with an error that exceeds the error for any other weights `u` by at most
`|w - u|^2 / (2 * sum of the learning rates)`. -/
theorem least_squares_training {D F : ℕ} (hF : 0 < F) (mem : Mem) (sc : ℕ → Scratch) (ds : TrainSet) (hN : 0 < ds.samples)
    {o0 : MBSGD} (ho : Suitable o0 ds (meanSquare D ds)) {m : ℕ} (hm : 1 ≤ m) (hmax : o0.stop.maximalIterations = m)
    (hstep : o0.stop.minimalSearchSpaceStep = 0) (w : Vec) (calls : ℕ) (log : List Event) :
    ∃ o obj, o0.optimize (fun _ => false) m ⟨netProblem (buildNet D (linearKinds F) false) mem sc ds, w, calls, log⟩ =
        .ok (some (o, obj)) ∧ ∀ u,
      (buildNet D (linearKinds F) false).error ((buildNet D (linearKinds F) false).setParameters mem
        (vectorOf (buildNet D (linearKinds F) false) (o.result obj).1)) ds ≤
      leastSquares D F ds u + distSq (F * (D + 1)) w u / (2 * ∑ t ∈ range m, rate o0.alpha o0.alphaDecay o0.minAlpha t) := by
  obtain ⟨hc, hL⟩ := linear_curvature D F mem ds hN
  rw [← linear_P D F false] at hc hL
  obtain ⟨o, obj, h, hb⟩ := optimize_converges ho.valid ho.fair ho.fresh ho.plain
    (obj0 := ⟨netProblem (buildNet D (linearKinds F) false) mem sc ds, w, calls, log⟩)
    ⟨by show 0 < (buildNet D (linearKinds F) false).P; rw [linear_P]; positivity, hN⟩ ho.batch ho.alpha ho.floor
    (linear_fullGradient D F false mem sc ds hN) hL hc ho.small hm hmax hstep
  refine ⟨o, obj, h, fun u => ?_⟩
  rw [linear_error D F mem ds hN, ← linear_P D F false]
  exact hb u

/-- **C82 (logistic regression)**: likewise for softmax outputs and cross entropy, where the learning rate may be twice as
large. -/
theorem logistic_training {D F : ℕ} (mem : Mem) (sc : ℕ → Scratch) (ds : TrainSet) (hN : 0 < ds.samples)
    (hT : ∀ n < ds.samples, ∑ j ∈ range F, ds.tgt n j = 1) (hT0 : ∀ n < ds.samples, ∀ j < F, 0 ≤ ds.tgt n j)
    {o0 : MBSGD} (ho : Suitable o0 ds (meanSquare D ds / 2)) {m : ℕ} (hm : 1 ≤ m) (hmax : o0.stop.maximalIterations = m)
    (hstep : o0.stop.minimalSearchSpaceStep = 0) (w : Vec) (calls : ℕ) (log : List Event) :
    ∃ o obj, o0.optimize (fun _ => false) m ⟨netProblem (buildNet D (linearKinds F) true) mem sc ds, w, calls, log⟩ =
        .ok (some (o, obj)) ∧ ∀ u,
      (buildNet D (linearKinds F) true).error ((buildNet D (linearKinds F) true).setParameters mem
        (vectorOf (buildNet D (linearKinds F) true) (o.result obj).1)) ds ≤ logisticRegression D F ds (o.result obj).1 ∧
      logisticRegression D F ds (o.result obj).1 ≤
        logisticRegression D F ds u + distSq (F * (D + 1)) w u / (2 * ∑ t ∈ range m, rate o0.alpha o0.alphaDecay o0.minAlpha t) := by
  have hF : 0 < F := by
    rcases Nat.eq_zero_or_pos F with h | h
    · have := hT 0 hN
      rw [h] at this
      simp at this
    · exact h
  obtain ⟨hc, hL⟩ := softmax_curvature (D := D) mem ds hN hT
  rw [← linear_P D F true] at hc hL
  obtain ⟨o, obj, h, hb⟩ := optimize_converges ho.valid ho.fair ho.fresh ho.plain
    (obj0 := ⟨netProblem (buildNet D (linearKinds F) true) mem sc ds, w, calls, log⟩)
    ⟨by show 0 < (buildNet D (linearKinds F) true).P; rw [linear_P]; positivity, hN⟩ ho.batch ho.alpha ho.floor
    (linear_fullGradient D F true mem sc ds hN) hL hc ho.small hm hmax hstep
  refine ⟨o, obj, h, fun u => ⟨softmax_error D F mem ds hN hT0 _, ?_⟩⟩
  rw [← linear_P D F true]
  exact hb u

/-- The bound of the theorems vanishes with growing number of epochs if the learning rate has a positive lower limit. -/
theorem bound_vanishes {o : MBSGD} (hv : o.Valid) (ha : 0 < o.alpha) (hm : o.minAlpha ≤ o.alpha)
    (hr : 0 < o.minAlpha ∨ o.alphaDecay = 1) {d : ℝ} {e : ℝ} (he : 0 < e) :
    ∃ m0, 1 ≤ m0 ∧ ∀ m, m0 ≤ m → d / (2 * ∑ t ∈ range m, rate o.alpha o.alphaDecay o.minAlpha t) ≤ e := by
  have hex : ∃ c > 0, ∀ m : ℕ, m * c ≤ ∑ t ∈ range m, rate o.alpha o.alphaDecay o.minAlpha t := by
    rcases hr with h | h
    · exact ⟨o.minAlpha, h, sum_rate_ge hv ha hm⟩
    · exact ⟨o.alpha, ha, fun m => (sum_rate_const h hm m).ge⟩
  obtain ⟨c, hc, hsum⟩ := hex
  obtain ⟨m0, h0⟩ := exists_nat_gt (d / (2 * c * e))
  refine ⟨max m0 1, le_max_right _ _, fun m hm0 => ?_⟩
  have hm1 : (1 : ℝ) ≤ m := by exact_mod_cast (le_max_right m0 1).trans hm0
  have hpos : 0 < m * c := by positivity
  have hmm : (m0 : ℝ) ≤ m := by exact_mod_cast (le_max_left m0 1).trans hm0
  have hs := hsum m
  rw [div_le_iff₀ (by linarith)]
  rw [div_lt_iff₀ (by positivity)] at h0
  have h2 : (m0 : ℝ) * (2 * c * e) ≤ m * (2 * c * e) := mul_le_mul_of_nonneg_right hmm (by positivity)
  have h3 : e * (2 * (m * c)) ≤ e * (2 * ∑ t ∈ range m, rate o.alpha o.alphaDecay o.minAlpha t) := by gcongr
  nlinarith

/-- **C82 (limit)**: with a learning rate that does not decay to zero, the error after sufficiently many epochs is at most `e`
above the error for any given weights `u`: training reaches the infimum of the error. -/
theorem least_squares_limit {D F : ℕ} (hF : 0 < F) (mem : Mem) (sc : ℕ → Scratch) (ds : TrainSet) (hN : 0 < ds.samples)
    {o0 : MBSGD} (ho : Suitable o0 ds (meanSquare D ds)) (hr : 0 < o0.minAlpha ∨ o0.alphaDecay = 1) (w : Vec) (calls : ℕ)
    (log : List Event) (u : Vec) {e : ℝ} (he : 0 < e) :
    ∃ m0, 1 ≤ m0 ∧ ∀ m : ℕ, m0 ≤ m → ∃ o obj, (o0.setStopCriteria ⟨m, 0⟩).optimize (fun _ => false) m
        ⟨netProblem (buildNet D (linearKinds F) false) mem sc ds, w, calls, log⟩ = .ok (some (o, obj)) ∧
      (buildNet D (linearKinds F) false).error ((buildNet D (linearKinds F) false).setParameters mem
        (vectorOf (buildNet D (linearKinds F) false) (o.result obj).1)) ds ≤
      (buildNet D (linearKinds F) false).error ((buildNet D (linearKinds F) false).setParameters mem
        (vectorOf (buildNet D (linearKinds F) false) u)) ds + e := by
  obtain ⟨m0, h1, hb⟩ := bound_vanishes ho.valid ho.alpha ho.floor hr
    (d := distSq (F * (D + 1)) w u) he
  refine ⟨m0, h1, fun m hm => ?_⟩
  have ho' : Suitable (o0.setStopCriteria ⟨m, 0⟩) ds (meanSquare D ds) :=
    ⟨⟨ho.valid.1, ho.valid.2, ho.valid.3, ho.valid.4, ho.valid.5⟩, ho.fair, ho.fresh,
      ⟨ho.plain.1, ho.plain.2, ho.plain.3, ho.plain.4, ho.plain.5⟩, ho.batch, ho.alpha, ho.floor, ho.small⟩
  obtain ⟨o, obj, h, hbound⟩ := least_squares_training hF mem sc ds hN ho' (h1.trans hm) rfl rfl w calls log
  refine ⟨o, obj, h, ?_⟩
  rw [linear_error D F mem ds hN u]
  have h2 := hbound u
  have h3 := hb m hm
  exact h2.trans (by simpa [MBSGD.setStopCriteria] using h3)

/-- Likewise for logistic regression. -/
theorem logistic_limit {D F : ℕ} (mem : Mem) (sc : ℕ → Scratch) (ds : TrainSet) (hN : 0 < ds.samples)
    (hT : ∀ n < ds.samples, ∑ j ∈ range F, ds.tgt n j = 1) (hT0 : ∀ n < ds.samples, ∀ j < F, 0 ≤ ds.tgt n j)
    {o0 : MBSGD} (ho : Suitable o0 ds (meanSquare D ds / 2)) (hr : 0 < o0.minAlpha ∨ o0.alphaDecay = 1) (w : Vec) (calls : ℕ)
    (log : List Event) (u : Vec) {e : ℝ} (he : 0 < e) :
    ∃ m0, 1 ≤ m0 ∧ ∀ m : ℕ, m0 ≤ m → ∃ o obj, (o0.setStopCriteria ⟨m, 0⟩).optimize (fun _ => false) m
        ⟨netProblem (buildNet D (linearKinds F) true) mem sc ds, w, calls, log⟩ = .ok (some (o, obj)) ∧
      (buildNet D (linearKinds F) true).error ((buildNet D (linearKinds F) true).setParameters mem
        (vectorOf (buildNet D (linearKinds F) true) (o.result obj).1)) ds ≤ logisticRegression D F ds u + e := by
  obtain ⟨m0, h1, hb⟩ := bound_vanishes ho.valid ho.alpha ho.floor hr
    (d := distSq (F * (D + 1)) w u) he
  refine ⟨m0, h1, fun m hm => ?_⟩
  have ho' : Suitable (o0.setStopCriteria ⟨m, 0⟩) ds (meanSquare D ds / 2) :=
    ⟨⟨ho.valid.1, ho.valid.2, ho.valid.3, ho.valid.4, ho.valid.5⟩, ho.fair, ho.fresh,
      ⟨ho.plain.1, ho.plain.2, ho.plain.3, ho.plain.4, ho.plain.5⟩, ho.batch, ho.alpha, ho.floor, ho.small⟩
  obtain ⟨o, obj, h, hbound⟩ := logistic_training mem sc ds hN hT hT0 ho' (h1.trans hm) rfl rfl w calls log
  refine ⟨o, obj, h, (hbound u).1.trans ((hbound u).2.trans ?_)⟩
  have h3 := hb m hm
  have : distSq (F * (D + 1)) w u / (2 * ∑ t ∈ range m, rate (o0.setStopCriteria ⟨m, 0⟩).alpha
      (o0.setStopCriteria ⟨m, 0⟩).alphaDecay (o0.setStopCriteria ⟨m, 0⟩).minAlpha t) ≤ e := h3
  linarith

/-! ## Witnesses -/

/-- Two examples on a line: `0 ↦ 1`, `1 ↦ 3`. -/
def line : TrainSet := ⟨2, fun n _ => n, fun n _ => 2 * n + 1⟩

theorem line_meanSquare : meanSquare 1 line = 3 / 2 := by
  simp [meanSquare, line, sum_range_succ]
  norm_num

/-- An optimiser with the learning rate 1/2 and full batches of up to 10 examples. -/
def plainOptimiser (m : ℤ) : MBSGD := { example1 false 1 m with batchSize := 10 }

/-- The hypotheses of the theorems hold for it; the weights `2, 1` have no error, so training reaches the error `e` for every
positive `e`. -/
example : Suitable (plainOptimiser 5) line (meanSquare 1 line) ∧ leastSquares 1 1 line (fun p => if p = 0 then 2 else 1) = 0 ∧
    ((plainOptimiser 5).alphaDecay = 1) := by
  refine ⟨⟨⟨?_, ?_, ?_, ?_, ?_⟩, fun _ _ => List.Perm.refl _, ?_, ⟨rfl, rfl, rfl, rfl, ?_⟩, ?_, ?_, ?_, ?_⟩, ?_, rfl⟩
  · show 1 ≤ 10; norm_num
  · exact one_pos
  · exact le_rfl
  · exact le_rfl
  · exact le_rfl
  · show (-1 : ℤ) < 0; norm_num
  · exact zero_le_one
  · show 2 ≤ 10; norm_num
  · show (0 : ℝ) < 1 / 2; norm_num
  · show (0 : ℝ) ≤ 1 / 2; norm_num
  · rw [line_meanSquare]; show (1 / 2 : ℝ) * (3 / 2) ≤ 1; norm_num
  · simp [leastSquares, score, line]

/-- Two classes, targets are probabilities. -/
example : let ds : TrainSet := ⟨2, fun n _ => n, fun n j => if n = j then 1 else 0⟩
    (∀ n < ds.samples, ∑ j ∈ range 2, ds.tgt n j = 1) ∧ (∀ n < ds.samples, ∀ j < 2, 0 ≤ ds.tgt n j) ∧
    (plainOptimiser 5).alpha * (meanSquare 1 ds / 2) ≤ 1 := by
  refine ⟨fun n hn => ?_, fun n _ j _ => ?_, ?_⟩
  · have : n = 0 ∨ n = 1 := by
      have : n < 2 := hn
      omega
    rcases this with rfl | rfl <;> simp
  · show (0 : ℝ) ≤ if n = j then 1 else 0
    split <;> norm_num
  · show (1 / 2 : ℝ) * (meanSquare 1 _ / 2) ≤ 1
    simp [meanSquare, sum_range_succ]
    norm_num

/-- The gradient of the network in terms of the residuals. -/
theorem linear_slope (D F : ℕ) (mem : Mem) (ds : TrainSet) (hN : 0 < ds.samples) (w v : Vec) :
    ∑ p ∈ range (F * (D + 1)), fullGradient D F false mem ds w p * v p = leastSquaresSlope D F ds w v := by
  have e : (fun p => w p + 0 * v p) = w := by
    funext p
    ring
  refine slope_unique (f := fun t => leastSquares D F ds fun p => w p + t * v p) (c := 1 / 2 *
    ((∑ n ∈ range ds.samples, ∑ j ∈ range F, score D (ds.inst n) v j ^ 2) / ds.samples)) (fun t => ?_) (fun t => ?_)
    (linear_gradientAt D F mem ds hN w v)
  · simp only [e]
    rw [leastSquares_expand]
    have : 0 ≤ t ^ 2 / 2 * ((∑ n ∈ range ds.samples, ∑ j ∈ range F, score D (ds.inst n) v j ^ 2) / ds.samples) :=
      mul_nonneg (by positivity) (div_nonneg (sum_nonneg fun _ _ => sum_nonneg fun _ _ => sq_nonneg _) (Nat.cast_nonneg _))
    linarith
  · simp only [e]
    rw [leastSquares_expand]
    exact le_of_eq (by ring)

/-- One example with one input. -/
def point (x : ℝ) : TrainSet := ⟨1, fun _ _ => x, fun _ _ => 0⟩

theorem point_error (x : ℝ) (u : Vec) : leastSquares 1 1 (point x) u = (u 0 * x + u 1) ^ 2 / 2 := by
  simp [leastSquares, score, point]

theorem point_gradient (x : ℝ) (mem : Mem) (w : Vec) :
    fullGradient 1 1 false mem (point x) w 0 = (w 0 * x + w 1) * x ∧
    fullGradient 1 1 false mem (point x) w 1 = w 0 * x + w 1 := by
  have h := linear_slope 1 1 mem (point x) one_pos w
  constructor
  · have := h fun p => if p = 0 then 1 else 0
    simpa [leastSquaresSlope, score, point, sum_range_succ] using this
  · have := h fun p => if p = 1 then 1 else 0
    simpa [leastSquaresSlope, score, point, sum_range_succ] using this

/-- Runs of a suitable optimiser on one example. -/
theorem point_run (x : ℝ) (mem : Mem) (sc : ℕ → Scratch) {o0 : MBSGD} (hv : o0.Valid) (hf : o0.Fair) (hn : o0.iteration < 0)
    (hp : o0.Plain) {m : ℕ} (hm : 1 ≤ m) (hmax : o0.stop.maximalIterations = m) (hstep : o0.stop.minimalSearchSpaceStep = 0) :
    ∃ o obj, o0.optimize (fun _ => false) m ⟨netProblem (buildNet 1 (linearKinds 1) false) mem sc (point x), fun _ => 1, 0, []⟩ =
        .ok (some (o, obj)) ∧ ∃ w : ℕ → Vec, w 0 = (fun _ => 1) ∧ w m = (o.result obj).1 ∧
      ∀ t, w (t + 1) 0 = w t 0 - rate o0.alpha o0.alphaDecay o0.minAlpha t * ((w t 0 * x + w t 1) * x) ∧
        w (t + 1) 1 = w t 1 - rate o0.alpha o0.alphaDecay o0.minAlpha t * (w t 0 * x + w t 1) := by
  obtain ⟨o, obj, h, hcount, _⟩ := optimize_exact hv hf hn
    (obj := ⟨netProblem (buildNet 1 (linearKinds 1) false) mem sc (point x), fun _ => 1, 0, []⟩)
    ⟨by show 0 < (buildNet 1 (linearKinds 1) false).P; rw [linear_P]; norm_num, one_pos⟩ hm hmax hstep
  refine ⟨o, obj, h, ?_⟩
  obtain ⟨n, c, hsteps, _⟩ := optimize_steps h
  have hnm : n + 1 = m := by
    rcases steps_runInv hv hn hsteps with ⟨h0, _⟩ | ⟨_, hinv, _⟩
    · omega
    · have := hinv.finished
      omega
  obtain ⟨w, e0, e1, hw⟩ := plain_steps hv hf hn hp (by exact hv.batch) (linear_fullGradient 1 1 false mem sc (point x) one_pos) hsteps
  refine ⟨w, e0, by rw [← hnm]; exact e1, fun t => ⟨?_, ?_⟩⟩
  · rw [hw, (point_gradient x mem (w t)).1]
  · rw [hw, (point_gradient x mem (w t)).2]

/-- **The learning rate has to stay away from zero**: if it is halved in every epoch (`learningRateDecay = 0.5`, the documented
minimum 0), then the error stays above 1/32 forever although it is 0 for other weights. -/
theorem decay_fails (mem : Mem) (sc : ℕ → Scratch) (m : ℕ) (hm : 1 ≤ m) :
    Suitable (example1 false (1 / 2) m) (point 0) (meanSquare 1 (point 0)) ∧ leastSquares 1 1 (point 0) (fun _ => 0) = 0 ∧
    ∃ o obj, (example1 false (1 / 2) m).optimize (fun _ => false) m
        ⟨netProblem (buildNet 1 (linearKinds 1) false) mem sc (point 0), fun _ => 1, 0, []⟩ = .ok (some (o, obj)) ∧
      1 / 32 < (buildNet 1 (linearKinds 1) false).error ((buildNet 1 (linearKinds 1) false).setParameters mem
        (vectorOf (buildNet 1 (linearKinds 1) false) (o.result obj).1)) (point 0) := by
  have hS : Suitable (example1 false (1 / 2) m) (point 0) (meanSquare 1 (point 0)) := by
    refine ⟨⟨le_rfl, ?_, ?_, le_rfl, le_rfl⟩, fun _ _ => List.Perm.refl _, ?_, ⟨rfl, rfl, rfl, rfl, ?_⟩, le_rfl, ?_, ?_, ?_⟩
    · show (0 : ℝ) < 1 / 2; norm_num
    · show (1 / 2 : ℝ) ≤ 1; norm_num
    · show (-1 : ℤ) < 0; norm_num
    · exact zero_le_one
    · show (0 : ℝ) < 1 / 2; norm_num
    · show (0 : ℝ) ≤ 1 / 2; norm_num
    · show (1 / 2 : ℝ) * meanSquare 1 (point 0) ≤ 1
      simp [meanSquare, point]
      norm_num
  refine ⟨hS, by simp [point_error], ?_⟩
  obtain ⟨o, obj, h, w, e0, e1, hw⟩ := point_run 0 mem sc hS.valid hS.fair hS.fresh hS.plain hm rfl rfl
  refine ⟨o, obj, h, ?_⟩
  have hr : ∀ t, rate (1 / 2) (1 / 2) 0 t = (1 / 2 : ℝ) ^ (t + 1) := by
    intro t
    cases t with
    | zero => simp [rate]
    | succ t =>
      rw [rate, max_eq_left (by positivity)]
      ring
  have hstep : ∀ t, w (t + 1) 1 = w t 1 * (1 - (1 / 2 : ℝ) ^ (t + 1)) := by
    intro t
    rw [(hw t).2]
    show w t 1 - rate (1 / 2) (1 / 2) 0 t * _ = _
    rw [hr]
    ring
  have hge : ∀ t, 1 / 4 + (1 / 2 : ℝ) ^ (t + 2) ≤ w (t + 1) 1 := by
    intro t
    induction t with
    | zero =>
      rw [hstep, e0]
      norm_num
    | succ t ih =>
      rw [hstep]
      have hp : (1 / 2 : ℝ) ^ (t + 2) ≤ 1 / 4 := by
        calc (1 / 2 : ℝ) ^ (t + 2) = (1 / 2) ^ t * (1 / 4) := by ring
          _ ≤ 1 * (1 / 4) := by
            gcongr
            exact pow_le_one₀ (by norm_num) (by norm_num)
          _ = 1 / 4 := one_mul _
      have hp0 : (0 : ℝ) < (1 / 2) ^ (t + 2) := by positivity
      have e : (1 / 2 : ℝ) ^ (t + 1 + 2) = (1 / 2) ^ (t + 2) / 2 := by ring
      have e' : (1 / 2 : ℝ) ^ (t + 1 + 1) = (1 / 2) ^ (t + 2) := rfl
      rw [e, e']
      set q := (1 / 2 : ℝ) ^ (t + 2)
      have : (1 / 4 + q) * (1 - q) ≤ w (t + 1) 1 * (1 - q) := mul_le_mul_of_nonneg_right ih (by linarith)
      nlinarith
  obtain ⟨k, rfl⟩ : ∃ k, m = k + 1 := ⟨m - 1, by omega⟩
  rw [linear_error 1 1 mem (point 0) one_pos, point_error, ← e1, mul_zero, zero_add]
  have hk := hge k
  have hp0 : (0 : ℝ) < (1 / 2) ^ (k + 2) := by positivity
  nlinarith

/-- **The learning rate has to be at most about `1 / L`**: with the learning rate 1 and the example `2 ↦ 0` every epoch multiplies
the error by 16. -/
theorem large_rate_fails (mem : Mem) (sc : ℕ → Scratch) (m : ℕ) (hm : 1 ≤ m) :
    ∃ o obj, ({ example1 false 1 m with alpha := 1 } : MBSGD).optimize (fun _ => false) m
        ⟨netProblem (buildNet 1 (linearKinds 1) false) mem sc (point 2), fun _ => 1, 0, []⟩ = .ok (some (o, obj)) ∧
      (buildNet 1 (linearKinds 1) false).error ((buildNet 1 (linearKinds 1) false).setParameters mem
        (vectorOf (buildNet 1 (linearKinds 1) false) (o.result obj).1)) (point 2) = 16 ^ m * (9 / 2) := by
  obtain ⟨o, obj, h, w, e0, e1, hw⟩ := point_run 2 mem sc (o0 := { example1 false 1 m with alpha := 1 })
    ⟨le_rfl, one_pos, le_rfl, le_rfl, le_rfl⟩ (fun _ _ => List.Perm.refl _) (by show (-1 : ℤ) < 0; norm_num)
    ⟨rfl, rfl, rfl, rfl, zero_le_one⟩ hm rfl rfl
  refine ⟨o, obj, h, ?_⟩
  have hr : ∀ t, rate 1 1 0 t = (1 : ℝ) := by
    intro t
    cases t with
    | zero => rfl
    | succ t => simp [rate]
  have hs : ∀ t, w t 0 * 2 + w t 1 = (-4) ^ t * 3 := by
    intro t
    induction t with
    | zero => rw [e0]; norm_num
    | succ t ih =>
      rw [(hw t).1, (hw t).2]
      show (w t 0 - rate 1 1 0 t * _) * 2 + (w t 1 - rate 1 1 0 t * _) = _
      rw [hr, ih, pow_succ]
      linarith
  rw [linear_error 1 1 mem (point 2) one_pos, point_error, ← e1, hs, mul_pow, ← pow_mul, mul_comm m 2, pow_mul]
  norm_num
  ring

end

end Verif.NN
