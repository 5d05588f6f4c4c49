import Verif.Model.SparseCost
import Verif.Model.Unsupervised
import Verif.Props.Float
import Verif.Props.Activation

/-!
# C104: the cost of the sparse auto-encoder measures reconstruction, weights and sparseness
-/

open Finset Verif.NN

namespace Verif.Unsup

/-! ## Specification -/

/-- The relative entropy of two coins with the probabilities `p` and `q`. -/
noncomputable def kl (p q : ℝ) : ℝ := p * Real.log (p / q) + (1 - p) * Real.log ((1 - p) / (1 - q))

/-! ## The relative entropy is a measure of distance -/

/-- Gibbs' inequality. -/
theorem kl_nonneg {p q : ℝ} (hp : 0 < p) (hp1 : p < 1) (hq : 0 < q) (hq1 : q < 1) : 0 ≤ kl p q := by
  have h1 : p - q ≤ p * Real.log (p / q) := by
    have := Real.one_sub_inv_le_log_of_pos (div_pos hp hq)
    rw [inv_div] at this
    have h2 := mul_le_mul_of_nonneg_left this hp.le
    have h3 : p * (1 - q / p) = p - q := by field_simp
    linarith
  have h2 : (1 - p) - (1 - q) ≤ (1 - p) * Real.log ((1 - p) / (1 - q)) := by
    have hp' : 0 < 1 - p := by linarith
    have hq' : 0 < 1 - q := by linarith
    have := Real.one_sub_inv_le_log_of_pos (div_pos hp' hq')
    rw [inv_div] at this
    have h2 := mul_le_mul_of_nonneg_left this hp'.le
    have h3 : (1 - p) * (1 - (1 - q) / (1 - p)) = (1 - p) - (1 - q) := by field_simp
    linarith
  unfold kl
  linarith

/-- The closer the mean activation is to the desired one, the smaller is the penalty: from below ... -/
theorem kl_lt_below {p q r : ℝ} (hp1 : p < 1) (hq : 0 < q) (hqr : q < r) (hr : r ≤ p) : kl p r < kl p q := by
  have hr0 : 0 < r := by linarith
  have hp : 0 < p := by linarith
  have hp' : 0 < 1 - p := by linarith
  have hq' : 0 < 1 - q := by linarith
  have hr' : 0 < 1 - r := by linarith
  have e1 : Real.log (p / q) = Real.log (p / r) + Real.log (r / q) := by
    rw [← Real.log_mul (by positivity) (by positivity)]; congr 1; field_simp
  have e2 : Real.log ((1 - p) / (1 - q)) = Real.log ((1 - p) / (1 - r)) + Real.log ((1 - r) / (1 - q)) := by
    rw [← Real.log_mul (by positivity) (by positivity)]; congr 1; field_simp
  have h1 : r - q < p * Real.log (r / q) := by
    have h := Real.log_lt_sub_one_of_pos (div_pos hq hr0) (by rw [Ne, div_eq_one_iff_eq hr0.ne']; exact hqr.ne)
    have e : Real.log (r / q) = -Real.log (q / r) := by rw [← Real.log_inv, inv_div]
    have h2 : 1 - q / r < Real.log (r / q) := by rw [e]; linarith
    have h3 := mul_lt_mul_of_pos_left h2 hp
    have h4 : r * (1 - q / r) = r - q := by field_simp
    have h5 : 0 ≤ 1 - q / r := by rw [sub_nonneg, div_le_one hr0]; exact hqr.le
    have h6 : r * (1 - q / r) ≤ p * (1 - q / r) := mul_le_mul_of_nonneg_right hr h5
    linarith
  have h2 : (1 - r) - (1 - q) ≤ (1 - p) * Real.log ((1 - r) / (1 - q)) := by
    have h := Real.one_sub_inv_le_log_of_pos (div_pos hr' hq')
    rw [inv_div] at h
    have h3 := mul_le_mul_of_nonneg_left h hp'.le
    have h4 : (1 - r) * (1 - (1 - q) / (1 - r)) = (1 - r) - (1 - q) := by field_simp
    have h5 : 1 - (1 - q) / (1 - r) ≤ 0 := by rw [sub_nonpos, one_le_div hr']; linarith
    have h6 : (1 - r) * (1 - (1 - q) / (1 - r)) ≤ (1 - p) * (1 - (1 - q) / (1 - r)) :=
      mul_le_mul_of_nonpos_right (by linarith) h5
    linarith
  unfold kl
  rw [e1, e2]
  linarith

theorem kl_symm (p q : ℝ) : kl (1 - p) (1 - q) = kl p q := by
  unfold kl
  rw [show 1 - (1 - p) = p by ring, show 1 - (1 - q) = q by ring]
  ring

/-- ... and from above. -/
theorem kl_lt_above {p q r : ℝ} (hp : 0 < p) (hpr : p ≤ r) (hrq : r < q) (hq1 : q < 1) : kl p r < kl p q := by
  rw [← kl_symm p r, ← kl_symm p q]
  exact kl_lt_below (by linarith) (by linarith) (by linarith) (by linarith)

theorem kl_self {p : ℝ} (hp : 0 < p) (hp1 : p < 1) : kl p p = 0 := by
  have h : 1 - p ≠ 0 := by linarith
  unfold kl
  rw [div_self hp.ne', div_self h, Real.log_one]
  ring

theorem kl_eq_zero_iff {p q : ℝ} (hp : 0 < p) (hp1 : p < 1) (hq : 0 < q) (hq1 : q < 1) : kl p q = 0 ↔ q = p := by
  constructor
  · intro h
    rcases lt_trichotomy q p with h1 | h1 | h1
    · have := kl_lt_below hp1 hq h1 le_rfl
      rw [kl_self hp hp1] at this
      linarith
    · exact h1
    · have := kl_lt_above hp le_rfl h1 hq1
      rw [kl_self hp hp1] at this
      linarith
  · rintro rfl
    exact kl_self hp hp1

/-! ## The cost -/

/-- The three parts of the cost. -/
theorem error_eq (m : SAE) (N : ℕ) (X : Batch) :
    m.error N X = (∑ n ∈ range N, ∑ i ∈ range m.D, (m.z2 X n i - X n i) ^ 2) / (2 * N) +
      m.lambda / 2 * (∑ j ∈ range m.H, ∑ i ∈ range m.D, m.w1 j i ^ 2 + ∑ i ∈ range m.D, ∑ j ∈ range m.H, m.w2 i j ^ 2) +
      m.beta * ∑ j ∈ range m.H, kl m.rho (m.mean N X j) := by
  simp only [SAE.error, kl, div_eq_mul_inv]

theorem sq_sum_nonneg (a b : ℕ) (f : ℕ → ℕ → ℝ) : 0 ≤ ∑ i ∈ range a, ∑ j ∈ range b, f i j ^ 2 :=
  sum_nonneg fun _ _ => sum_nonneg fun _ _ => sq_nonneg _

theorem sq_sum_eq_zero (a b : ℕ) (f : ℕ → ℕ → ℝ) :
    ∑ i ∈ range a, ∑ j ∈ range b, f i j ^ 2 = 0 ↔ ∀ i < a, ∀ j < b, f i j = 0 := by
  rw [sum_eq_zero_iff_of_nonneg (fun _ _ => sum_nonneg fun _ _ => sq_nonneg _)]
  constructor
  · intro h i hi j hj
    have := (sum_eq_zero_iff_of_nonneg (fun _ _ => sq_nonneg _)).mp (h i (mem_range.mpr hi)) j (mem_range.mpr hj)
    exact pow_eq_zero_iff (two_ne_zero) |>.mp this
  · intro h i hi
    exact sum_eq_zero fun j hj => by rw [h i (mem_range.mp hi) j (mem_range.mp hj)]; ring

/-- The parameters of the cost function are sensible and no unit is saturated on average. -/
structure Sensible (m : SAE) (N : ℕ) (X : Batch) : Prop where
  instances : 0 < N
  beta : 0 ≤ m.beta
  lambda : 0 ≤ m.lambda
  rho : 0 < m.rho ∧ m.rho < 1
  mean : ∀ j < m.H, 0 < m.mean N X j ∧ m.mean N X j < 1

/-- The mean activations of logistic units that do not exceed the limits of `logistic` are between zero and one. -/
theorem logistic_mean (m : SAE) (hact : m.act = .logistic) (N : ℕ) (hN : 0 < N) (X : Batch) (j : ℕ)
    (h : ∀ n < N, |dense m.D m.w1 (fun j => m.b1.getD j 0) X n j| ≤ 45) : 0 < m.mean N X j ∧ m.mean N X j < 1 := by
  have hN' : (0 : ℝ) < N := by exact_mod_cast hN
  have key : ∀ n ∈ range N, 0 < m.z1 X n j ∧ m.z1 X n j < 1 := by
    intro n hn
    have hb := abs_le.mp (h n (mem_range.mp hn))
    have hs := sigmoid_mem (dense m.D m.w1 (fun j => m.b1.getD j 0) X n j)
    unfold SAE.z1 Act.map
    rw [hact]
    unfold Act.apply
    simp only
    rw [if_neg (by linarith [hb.1]), if_neg (by linarith [hb.2])]
    exact hs
  have hne : (range N).Nonempty := ⟨0, mem_range.mpr hN⟩
  unfold SAE.mean
  refine ⟨div_pos (sum_pos (fun n hn => (key n hn).1) hne) hN', ?_⟩
  rw [div_lt_one hN']
  calc ∑ n ∈ range N, m.z1 X n j < ∑ n ∈ range N, (1 : ℝ) := sum_lt_sum_of_nonempty hne (fun n hn => (key n hn).2)
    _ = N := by simp

/-- **C104.** The cost is never negative. -/
theorem cost_nonneg_partial (m : SAE) (N : ℕ) (X : Batch) (h : Sensible m N X) : 0 ≤ m.error N X := by
  obtain ⟨hN, hb, hl, hr, hm⟩ := h
  have h1 := sq_sum_nonneg N m.D (fun n i => m.z2 X n i - X n i)
  have h2 := sq_sum_nonneg m.H m.D m.w1
  have h3 := sq_sum_nonneg m.D m.H m.w2
  have h4 : 0 ≤ ∑ j ∈ range m.H, kl m.rho (m.mean N X j) :=
    sum_nonneg fun j hj => kl_nonneg hr.1 hr.2 (hm j (mem_range.mp hj)).1 (hm j (mem_range.mp hj)).2
  rw [error_eq]
  positivity

/-- **C104.** The cost is zero exactly if everything is reconstructed, all weights that are penalised are zero and all
penalised mean activations have the desired value. -/
theorem cost_zero_iff_partial (m : SAE) (N : ℕ) (X : Batch) (h : Sensible m N X) :
    m.error N X = 0 ↔ (∀ n < N, ∀ i < m.D, m.z2 X n i = X n i) ∧
      (m.lambda = 0 ∨ ∀ j < m.H, ∀ i < m.D, m.w1 j i = 0 ∧ m.w2 i j = 0) ∧
      (m.beta = 0 ∨ ∀ j < m.H, m.mean N X j = m.rho) := by
  obtain ⟨hN, hb, hl, hr, hm⟩ := h
  have hN' : (0 : ℝ) < N := by exact_mod_cast hN
  have h1 := sq_sum_nonneg N m.D (fun n i => m.z2 X n i - X n i)
  have h2 := sq_sum_nonneg m.H m.D m.w1
  have h3 := sq_sum_nonneg m.D m.H m.w2
  have hkl : ∀ j ∈ range m.H, 0 ≤ kl m.rho (m.mean N X j) := fun j hj =>
    kl_nonneg hr.1 hr.2 (hm j (mem_range.mp hj)).1 (hm j (mem_range.mp hj)).2
  have h4 := sum_nonneg hkl
  have e1 := sq_sum_eq_zero N m.D (fun n i => m.z2 X n i - X n i)
  have e2 := sq_sum_eq_zero m.H m.D m.w1
  have e3 := sq_sum_eq_zero m.D m.H m.w2
  have e4 : ∑ j ∈ range m.H, kl m.rho (m.mean N X j) = 0 ↔ ∀ j < m.H, m.mean N X j = m.rho := by
    rw [sum_eq_zero_iff_of_nonneg hkl]
    exact ⟨fun h j hj => (kl_eq_zero_iff hr.1 hr.2 (hm j hj).1 (hm j hj).2).mp (h j (mem_range.mpr hj)),
      fun h j hj => (kl_eq_zero_iff hr.1 hr.2 (hm j (mem_range.mp hj)).1 (hm j (mem_range.mp hj)).2).mpr
        (h j (mem_range.mp hj))⟩
  rw [error_eq]
  rw [add_eq_zero_iff_of_nonneg (by positivity) (by positivity), add_eq_zero_iff_of_nonneg (by positivity) (by positivity),
    and_assoc]
  refine and_congr ?_ (and_congr ?_ ?_)
  · rw [div_eq_zero_iff, or_iff_left (by positivity), e1]
    exact ⟨fun h n hn i hi => sub_eq_zero.mp (h n hn i hi), fun h n hn i hi => sub_eq_zero.mpr (h n hn i hi)⟩
  · rw [mul_eq_zero, div_eq_zero_iff, or_iff_left (two_ne_zero), add_eq_zero_iff_of_nonneg h2 h3, e2, e3]
    exact or_congr Iff.rfl ⟨fun h j hj i hi => ⟨h.1 j hj i hi, h.2 i hi j hj⟩,
      fun h => ⟨fun j hj i hi => (h j hj i hi).1, fun i hi j hj => (h j hj i hi).2⟩⟩
  · rw [mul_eq_zero, e4]

/-- An auto-encoder with one input and one hidden unit and without weights meets the hypotheses: its activation is 1/2
whatever the input is. -/
noncomputable def silent (rho : ℝ) : SAE :=
  { D := 1, H := 1, beta := 3, rho := rho, lambda := 1, act := .logistic, W1 := [0], W2 := [0], b1 := [0], b2 := [0],
    parameters := [0, 0, 0, 0] }

theorem silent_dense (rho : ℝ) (X : Batch) (n : ℕ) :
    dense (silent rho).D (silent rho).w1 (fun j => (silent rho).b1.getD j 0) X n 0 = 0 := by
  simp [dense, silent, SAE.w1, Pack.ofData]

theorem silent_sensible (rho : ℝ) (h0 : 0 < rho) (h1 : rho < 1) (N : ℕ) (hN : 0 < N) (X : Batch) :
    Sensible (silent rho) N X :=
  ⟨hN, by simp [silent], by simp [silent], ⟨h0, h1⟩, fun j hj => by
    obtain rfl : j = 0 := by simp [silent] at hj; exact hj
    exact logistic_mean _ rfl N hN X 0 (fun n _ => by rw [silent_dense]; norm_num)⟩

theorem half : Act.logistic.apply 0 = 1 / 2 := by
  unfold Act.apply
  norm_num

/-- Without weights the cost is zero for the instance 1/2 and the desired activation 1/2. -/
example : (silent (1 / 2)).error 1 (fun _ _ => 1 / 2) = 0 := by
  rw [cost_zero_iff_partial _ _ _ (silent_sensible _ (by norm_num) (by norm_num) 1 one_pos _)]
  have hz : ∀ n, (silent (1 / 2)).z1 (fun _ _ => 1 / 2) n 0 = 1 / 2 := fun n => by
    unfold SAE.z1 Act.map
    rw [silent_dense]
    exact half
  refine ⟨?_, Or.inr ?_, Or.inr ?_⟩
  · intro n _ i hi
    obtain rfl : i = 0 := by simp [silent] at hi; exact hi
    unfold SAE.z2 Act.map
    have : dense (silent (1 / 2)).H (silent (1 / 2)).w2 (fun i => (silent (1 / 2)).b2.getD i 0)
        ((silent (1 / 2)).z1 (fun _ _ => 1 / 2)) n 0 = 0 := by simp [dense, silent, SAE.w2, Pack.ofData]
    rw [this]
    exact half
  · intro j hj i hi
    obtain rfl : j = 0 := by simp [silent] at hj; exact hj
    obtain rfl : i = 0 := by simp [silent] at hi; exact hi
    simp [silent, SAE.w1, SAE.w2, Pack.ofData]
  · intro j hj
    obtain rfl : j = 0 := by simp [silent] at hj; exact hj
    unfold SAE.mean
    rw [sum_range_one, hz]
    simp [silent]

end Verif.Unsup

/-! ## Units that are saturated or have negative activations -/

namespace Verif.Fp

/-- Infinite or not a number. -/
def Bad (a : Dbl) : Prop := a = .pinf ∨ a = .nan

variable {A : Fpu}

theorem bad_add_left {a : Dbl} (h : Bad a) (b : Dbl) : Bad (A.add a b) := by
  rcases h with rfl | rfl <;> cases b <;> simp [Fpu.add, Bad]

theorem bad_add_right {b : Dbl} (h : Bad b) (a : Dbl) : Bad (A.add a b) := by
  rcases h with rfl | rfl <;> cases a <;> simp [Fpu.add, Bad]

theorem bad_mul {b : Dbl} (h : Bad b) {x : ℝ} (hx : 0 < x) : Bad (A.mul (.num x) b) := by
  rcases h with rfl | rfl <;> simp [Fpu.mul, Fpu.infTimes, Bad, hx, hx.ne']

theorem sums_bad {l : List Dbl} {s : Dbl} (h : A.Sums l s) : (∃ a ∈ l, Bad a) → Bad s := by
  induction h with
  | nil => rintro ⟨a, ha, -⟩; cases ha
  | one a => rintro ⟨b, hb, hbad⟩; rw [List.mem_singleton] at hb; exact hb ▸ hbad
  | two _ _ _ _ hp ih1 ih2 =>
    rintro ⟨a, ha, hbad⟩
    rcases List.mem_append.mp (hp.mem_iff.mpr ha) with h | h
    · exact bad_add_left (ih1 ⟨a, h, hbad⟩) _
    · exact bad_add_right (ih2 ⟨a, h, hbad⟩) _

theorem mean_zero {N : ℕ} (hN : 0 < N) (hN53 : N ≤ 2 ^ 53) {z : ℕ → Dbl} (hz : ∀ n < N, z n = .num 0) {mean : Dbl}
    (h : MeanActivation A N z mean) : mean = .num 0 := by
  obtain ⟨s, hs, rfl⟩ := h
  have : s = .num 0 := Sums.zeros hs (fun a ha => by
    obtain ⟨n, hn, rfl⟩ := List.mem_map.mp ha
    exact hz n (List.mem_range.mp hn))
  have hN' : (N : ℝ) ≠ 0 := by exact_mod_cast hN.ne'
  rw [this, rnd_nat N hN53]
  simp only [Fpu.div]
  rw [if_neg hN', zero_div, rnd_zero]

theorem klTerm_zero {rho : ℝ} (hr : 0 < rho) : Bad (klTerm A (.num rho) (.num 0)) := by
  have : A.div (.num 1) (.num 0) = .pinf := by simp [Fpu.div]
  unfold klTerm
  rw [this]
  refine bad_add_left (bad_mul ?_ hr) _
  simp [Fpu.mul, Fpu.infTimes, hr, hr.ne', Fpu.flog, Bad]

/-- **C104 is false for a unit that is never active**: its mean activation is zero, and the error is not a number or
infinite. -/
theorem dead_unit_cost_fails {N H j : ℕ} (hN : 0 < N) (hN53 : N ≤ 2 ^ 53) (hj : j < H) {z : ℕ → ℕ → Dbl}
    (hz : ∀ n < N, z n j = .num 0) {mean : ℕ → Dbl} (hm : MeanActivation A N (fun n => z n j) (mean j)) {beta rho : ℝ}
    (hb : 0 < beta) (hr : 0 < rho) {err value : Dbl} (h : WithPenalty A H (.num beta) (.num rho) mean err value) :
    Bad value := by
  obtain ⟨s, hs, rfl⟩ := h
  refine bad_add_right (bad_mul (sums_bad hs ⟨klTerm A (.num rho) (mean j), ?_, ?_⟩) hb) _
  · exact List.mem_map.mpr ⟨j, List.mem_range.mpr hj, rfl⟩
  · rw [mean_zero hN hN53 hz hm]
    exact klTerm_zero hr

theorem delta1_dead {beta rho e : ℝ} (hb : 0 < beta) (hr : 0 < rho) (hr1 : rho ≤ 1) :
    delta1 A (.num beta) (.num rho) (.num 0) (.num e) (.num 0) = .nan := by
  have h1 : A.div (.num 1) (.num 0) = .pinf := by simp [Fpu.div]
  have h2 : A.sub (.num 1) (.num 0) = .num 1 := by
    simp only [Fpu.sub, neg, Fpu.add, neg_zero, add_zero]
    exact rnd_one
  have h3 : A.div (.num 1) (.num 1) = .num 1 := by
    simp only [Fpu.div, one_ne_zero, if_false, div_one]
    exact rnd_one
  obtain ⟨r, hr', -, -⟩ := rnd_between (A := A) rnd_zero rnd_one (x := 1 - rho) (by linarith) (by linarith)
  have h4 : A.sub (.num 1) (.num rho) = .num r := by
    simp only [Fpu.sub, neg, Fpu.add]
    rw [← sub_eq_add_neg, hr']
  have h5 : A.mul (.num r) (.num 1) = .num r := by
    simp only [Fpu.mul, mul_one]
    exact A.rnd_rnd _ _ hr'
  have h6 : A.mul (neg (.num rho)) .pinf = .ninf := by
    have hx : ¬ (0 < -rho) := by linarith
    have hy : rho ≠ 0 := hr.ne'
    simp [neg, Fpu.mul, Fpu.infTimes, hy, hx]
  have h7 : A.mul (.num beta) .ninf = .ninf := by simp [Fpu.mul, Fpu.infTimes, hb, hb.ne']
  have h8 : logisticDerivative A (.num 0) = .num 0 := by
    unfold logisticDerivative
    rw [h2]
    simp only [Fpu.mul, zero_mul]
    exact rnd_zero
  unfold delta1 sparseSignal
  rw [h1, h2, h3, h4, h5, h6, h8]
  simp only [Fpu.add]
  rw [h7]
  simp [Fpu.mul, Fpu.infTimes]

/-- **C104 is false for the training of a unit that is never active**: whatever the instances are, the derivatives of
its weights and of its bias are not numbers. -/
theorem dead_unit_gradient_fails {N : ℕ} (hN : 0 < N) (hN53 : N ≤ 2 ^ 53) {z : ℕ → Dbl} (hz : ∀ n < N, z n = .num 0)
    {mean : Dbl} (hm : MeanActivation A N z mean) {beta rho : ℝ} (hb : 0 < beta) (hr : 0 < rho) (hr1 : rho ≤ 1)
    (e : ℕ → ℝ) (x : ℕ → Dbl) (lambda w : Dbl) {dw db : Dbl}
    (hw : W1d A N (.num beta) (.num rho) mean lambda w (fun n => .num (e n)) z x dw)
    (hbias : B1d A N (.num beta) (.num rho) mean (fun n => .num (e n)) z db) : dw = .nan ∧ db = .nan := by
  have hmean := mean_zero hN hN53 hz hm
  have hd : delta1 A (.num beta) (.num rho) mean (.num (e 0)) (z 0) = .nan := by
    rw [hmean, hz 0 hN]
    exact delta1_dead hb hr hr1
  obtain ⟨s, hs, rfl⟩ := hw
  obtain ⟨t, ht, rfl⟩ := hbias
  constructor
  · have : s = .nan := Sums.nan hs (List.mem_map.mpr ⟨0, List.mem_range.mpr hN, by
      simp only
      rw [hd, mul_nan_left]⟩)
    rw [this, div_nan_left, add_nan_left]
  · have : t = .nan := Sums.nan ht (List.mem_map.mpr ⟨0, List.mem_range.mpr hN, hd⟩)
    rw [this, div_nan_left]

/-- **C104 is false for a unit with a negative mean activation** (`TANH`): the error is not a number. -/
theorem negative_mean_fails {H j : ℕ} (hj : j < H) {mean : ℕ → Dbl} {q : ℝ} (hq : mean j = .num q) (hq0 : q < 0)
    (hq1 : -1 ≤ q) {rho : ℝ} (hr : 0 < rho) (hv : A.rnd (-rho) = .num (-rho)) {beta err value : Dbl}
    (h : WithPenalty A H beta (.num rho) mean err value) : value = .nan := by
  obtain ⟨s, hs, rfl⟩ := h
  have hk : klTerm A (.num rho) (mean j) = .nan := by
    have hinv : 1 / q ≤ -1 := by
      rw [div_le_iff_of_neg hq0]; linarith
    have hdiv : A.div (.num 1) (.num q) = A.rnd (1 / q) := by simp [Fpu.div, hq0.ne]
    have hm1 : A.rnd (-1) = .num (-1) := by simpa using rnd_neg_nat (A := A) 1 (by norm_num)
    have key : A.flog (A.mul (.num rho) (A.rnd (1 / q))) = .nan := by
      rcases rnd_below hm1 hinv with h1 | ⟨y, h1, hy⟩
      · rw [h1]
        simp [Fpu.mul, Fpu.infTimes, hr, hr.ne', Fpu.flog]
      · rw [h1]
        simp only [Fpu.mul]
        rcases rnd_below hv (x := rho * y) (by nlinarith) with h2 | ⟨w, h2, hw⟩
        · rw [h2]; rfl
        · rw [h2]
          have h3 : ¬ 0 < w := by linarith
          have h4 : w ≠ 0 := by linarith
          simp [Fpu.flog, h3, h4]
    unfold klTerm
    rw [hq, hdiv, key, mul_nan_right, add_nan_left]
  have : s = .nan := Sums.nan hs (List.mem_map.mpr ⟨j, List.mem_range.mpr hj, hk⟩)
  rw [this, mul_nan_right, add_nan_right]

/-! ## A unit that is always active -/

theorem sums_ones {l : List Dbl} {s : Dbl} (h : A.Sums l s) :
    (∀ a ∈ l, a = .num 1) → l.length ≤ 2 ^ 53 → s = .num l.length := by
  induction h with
  | nil => intro _ _; simp
  | one a => intro h _; rw [h a List.mem_cons_self]; simp
  | @two l r m a b _ _ _ _ hp ih1 ih2 =>
    intro h hlen
    have hl : m.length = l.length + r.length := by rw [← hp.length_eq, List.length_append]
    rw [ih1 (fun a ha => h a (hp.mem_iff.1 (List.mem_append_left _ ha))) (by omega),
      ih2 (fun a ha => h a (hp.mem_iff.1 (List.mem_append_right _ ha))) (by omega)]
    simp only [Fpu.add]
    rw [← Nat.cast_add, ← hl, rnd_nat _ hlen]

theorem mean_one {N : ℕ} (hN : 0 < N) (hN53 : N ≤ 2 ^ 53) {z : ℕ → Dbl} (hz : ∀ n < N, z n = .num 1) {mean : Dbl}
    (h : MeanActivation A N z mean) : mean = .num 1 := by
  obtain ⟨s, hs, rfl⟩ := h
  have : s = .num N := by
    have := sums_ones hs (fun a ha => by
      obtain ⟨n, hn, rfl⟩ := List.mem_map.mp ha
      exact hz n (List.mem_range.mp hn)) (by simpa using hN53)
    simpa using this
  have hN' : (N : ℝ) ≠ 0 := by exact_mod_cast hN.ne'
  rw [this, rnd_nat N hN53]
  simp only [Fpu.div]
  rw [if_neg hN', div_self hN', rnd_one]

/-- `1 - rho` for a value `rho` less than one (the greatest one is `1 - 2 ^ -53`) is positive. -/
theorem sub_rho {rho : ℝ} (hr : 0 ≤ rho) (hr1 : rho ≤ 1 - (2 : ℝ)⁻¹ ^ 53) :
    ∃ r, A.sub (.num 1) (.num rho) = .num r ∧ 0 < r := by
  obtain ⟨r, h, h1, -⟩ := rnd_between (A := A) (A.rnd_pow 53 (by norm_num)) rnd_one (x := 1 - rho) (by linarith)
    (by linarith)
  refine ⟨r, ?_, lt_of_lt_of_le (by positivity) h1⟩
  simp only [Fpu.sub, neg, Fpu.add]
  rw [← sub_eq_add_neg, h]

theorem sub_one_one : A.sub (.num 1) (.num 1) = .num 0 := by
  simp only [Fpu.sub, neg, Fpu.add]
  rw [add_neg_cancel, rnd_zero]

theorem klTerm_one {rho : ℝ} (hr : 0 ≤ rho) (hr1 : rho ≤ 1 - (2 : ℝ)⁻¹ ^ 53) : Bad (klTerm A (.num rho) (.num 1)) := by
  obtain ⟨r, h, hr0⟩ := sub_rho (A := A) hr hr1
  have : A.div (.num 1) (.num 0) = .pinf := by simp [Fpu.div]
  unfold klTerm
  rw [sub_one_one, h, this]
  refine bad_add_right (bad_mul ?_ hr0) _
  simp [Fpu.mul, Fpu.infTimes, hr0, hr0.ne', Fpu.flog, Bad]

/-- **C104 is false for a unit that is always fully active** (activations above 45): the error is not a number or
infinite. -/
theorem saturated_unit_cost_fails {N H j : ℕ} (hN : 0 < N) (hN53 : N ≤ 2 ^ 53) (hj : j < H) {z : ℕ → ℕ → Dbl}
    (hz : ∀ n < N, z n j = .num 1) {mean : ℕ → Dbl} (hm : MeanActivation A N (fun n => z n j) (mean j)) {beta rho : ℝ}
    (hb : 0 < beta) (hr : 0 ≤ rho) (hr1 : rho ≤ 1 - (2 : ℝ)⁻¹ ^ 53) {err value : Dbl}
    (h : WithPenalty A H (.num beta) (.num rho) mean err value) : Bad value := by
  obtain ⟨s, hs, rfl⟩ := h
  refine bad_add_right (bad_mul (sums_bad hs ⟨klTerm A (.num rho) (mean j), ?_, ?_⟩) hb) _
  · exact List.mem_map.mpr ⟨j, List.mem_range.mpr hj, rfl⟩
  · rw [mean_one hN hN53 hz hm]
    exact klTerm_one hr hr1

theorem delta1_saturated {beta rho e : ℝ} (hb : 0 < beta) (hr : 0 ≤ rho) (hr1 : rho ≤ 1 - (2 : ℝ)⁻¹ ^ 53) :
    delta1 A (.num beta) (.num rho) (.num 1) (.num e) (.num 1) = .nan := by
  obtain ⟨r, h4, hr0⟩ := sub_rho (A := A) hr hr1
  have h1 : A.div (.num 1) (.num 0) = .pinf := by simp [Fpu.div]
  have h3 : A.div (.num 1) (.num 1) = .num 1 := by
    simp only [Fpu.div, one_ne_zero, if_false, div_one]
    exact rnd_one
  have hm1 : A.rnd (-1) = .num (-1) := by simpa using rnd_neg_nat (A := A) 1 (by norm_num)
  have hp : (0 : ℝ) < (2 : ℝ)⁻¹ ^ 53 := by positivity
  obtain ⟨q, hq, -, -⟩ := rnd_between (A := A) hm1 rnd_zero (x := -rho * 1) (by linarith) (by linarith)
  have h5 : A.mul (neg (.num rho)) (.num 1) = .num q := by simp only [neg, Fpu.mul]; exact hq
  have h6 : A.mul (.num r) .pinf = .pinf := by simp [Fpu.mul, Fpu.infTimes, hr0, hr0.ne']
  have h7 : A.mul (.num beta) .pinf = .pinf := by simp [Fpu.mul, Fpu.infTimes, hb, hb.ne']
  have h8 : logisticDerivative A (.num 1) = .num 0 := by
    unfold logisticDerivative
    rw [sub_one_one]
    simp only [Fpu.mul, mul_zero]
    exact rnd_zero
  unfold delta1 sparseSignal
  rw [sub_one_one, h1, h3, h4, h5, h6, h8]
  simp only [Fpu.add]
  rw [h7]
  simp [Fpu.mul, Fpu.infTimes]

/-- **C104 is false for the training of a unit that is always fully active**: the derivatives of its weights and of its bias
are not numbers. -/
theorem saturated_unit_gradient_fails {N : ℕ} (hN : 0 < N) (hN53 : N ≤ 2 ^ 53) {z : ℕ → Dbl} (hz : ∀ n < N, z n = .num 1)
    {mean : Dbl} (hm : MeanActivation A N z mean) {beta rho : ℝ} (hb : 0 < beta) (hr : 0 ≤ rho)
    (hr1 : rho ≤ 1 - (2 : ℝ)⁻¹ ^ 53) (e : ℕ → ℝ) (x : ℕ → Dbl) (lambda w : Dbl) {dw db : Dbl}
    (hw : W1d A N (.num beta) (.num rho) mean lambda w (fun n => .num (e n)) z x dw)
    (hbias : B1d A N (.num beta) (.num rho) mean (fun n => .num (e n)) z db) : dw = .nan ∧ db = .nan := by
  have hmean := mean_one hN hN53 hz hm
  have hd : delta1 A (.num beta) (.num rho) mean (.num (e 0)) (z 0) = .nan := by
    rw [hmean, hz 0 hN]
    exact delta1_saturated hb hr hr1
  obtain ⟨s, hs, rfl⟩ := hw
  obtain ⟨t, ht, rfl⟩ := hbias
  constructor
  · have : s = .nan := Sums.nan hs (List.mem_map.mpr ⟨0, List.mem_range.mpr hN, by
      simp only
      rw [hd, mul_nan_left]⟩)
    rw [this, div_nan_left, add_nan_left]
  · have : t = .nan := Sums.nan ht (List.mem_map.mpr ⟨0, List.mem_range.mpr hN, hd⟩)
    rw [this, div_nan_left]

/-! ## The hypotheses are met -/

/-- Two instances that do not activate the only unit. -/
example : ∃ mean dw db, MeanActivation gridFpu 2 (fun _ => logistic gridFpu (.num (-46))) mean ∧
    W1d gridFpu 2 (.num 3) (.num 1) mean (.num 0) (.num 0) (fun _ => .num 1) (fun _ => logistic gridFpu (.num (-46)))
      (fun _ => .num 1) dw ∧
    B1d gridFpu 2 (.num 3) (.num 1) mean (fun _ => .num 1) (fun _ => logistic gridFpu (.num (-46))) db ∧
    dw = .nan ∧ db = .nan := by
  have hl : logistic gridFpu (.num (-46)) = .num 0 := by
    unfold logistic
    rw [if_pos]
    constructor <;> simp [Le] <;> norm_num
  obtain ⟨s, hs⟩ := Sums.exists (A := gridFpu) ((List.range 2).map fun _ => logistic gridFpu (.num (-46)))
  have hm : MeanActivation gridFpu 2 (fun _ => logistic gridFpu (.num (-46))) _ := ⟨s, hs, rfl⟩
  obtain ⟨t, ht⟩ := Sums.exists (A := gridFpu) ((List.range 2).map (fun _ =>
    gridFpu.mul (delta1 gridFpu (.num 3) (.num 1) (gridFpu.div s (gridFpu.rnd (2 : ℕ))) (.num 1)
      (logistic gridFpu (.num (-46)))) (.num 1)))
  obtain ⟨u, hu⟩ := Sums.exists (A := gridFpu) ((List.range 2).map (fun _ =>
    delta1 gridFpu (.num 3) (.num 1) (gridFpu.div s (gridFpu.rnd (2 : ℕ))) (.num 1) (logistic gridFpu (.num (-46)))))
  have := dead_unit_gradient_fails (A := gridFpu) (N := 2) (by norm_num) (by norm_num) (fun n _ => hl) hm
    (beta := 3) (rho := 1) (by norm_num) (by norm_num) le_rfl (fun _ => 1) (fun _ => .num 1) (.num 0) (.num 0)
    ⟨t, ht, rfl⟩ ⟨u, hu, rfl⟩
  exact ⟨_, _, _, hm, ⟨t, ht, rfl⟩, ⟨u, hu, rfl⟩, this⟩

/-- A unit with the mean activation -1/2. -/
example : ∃ value, WithPenalty gridFpu 1 (.num 3) (.num 1) (fun _ => .num (-1 / 2)) (.num 0) value ∧ value = .nan := by
  obtain ⟨s, hs⟩ := Sums.exists (A := gridFpu) ((List.range 1).map fun _ => klTerm gridFpu (.num 1) (.num (-1 / 2)))
  exact ⟨_, ⟨s, hs, rfl⟩, negative_mean_fails (A := gridFpu) (H := 1) (j := 0) one_pos (mean := fun _ => .num (-1 / 2))
    rfl (by norm_num) (by norm_num) (rho := 1) one_pos (by simpa using rnd_neg_nat (A := gridFpu) 1 (by norm_num))
    ⟨s, hs, rfl⟩⟩

/-- Two instances that activate the only unit fully. -/
example : ∃ value, WithPenalty gridFpu 1 (.num 3) (.num (1 / 2)) (fun _ => .num 1) (.num 0) value ∧ Bad value := by
  obtain ⟨s, hs⟩ := Sums.exists (A := gridFpu) ((List.range 1).map fun _ => klTerm gridFpu (.num (1 / 2)) (.num 1))
  have hl : logistic gridFpu (.num 46) = .num 1 := by
    unfold logistic
    rw [if_neg, if_pos]
    · constructor <;> simp [Le] <;> norm_num
    · intro h
      have := h.1
      simp [Le] at this
      norm_num at this
  refine ⟨_, ⟨s, hs, rfl⟩, saturated_unit_cost_fails (A := gridFpu) (N := 2) (H := 1) (j := 0) (by norm_num) (by norm_num) one_pos
    (z := fun _ _ => logistic gridFpu (.num 46)) (fun _ _ => hl) (mean := fun _ => .num 1) ?_ (beta := 3) (by norm_num)
    (rho := 1 / 2) (by norm_num) (by norm_num) ⟨s, hs, rfl⟩⟩
  obtain ⟨t, ht⟩ := Sums.exists (A := gridFpu) ((List.range 2).map fun _ => logistic gridFpu (.num 46))
  have hm : MeanActivation gridFpu 2 (fun _ => logistic gridFpu (.num 46)) _ := ⟨t, ht, rfl⟩
  rwa [mean_one (by norm_num) (by norm_num) (fun _ _ => hl) hm] at hm

end Verif.Fp
