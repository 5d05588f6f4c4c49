import Verif.Props.Unsupervised
import Verif.Props.Backprop
import Mathlib.Analysis.SpecialFunctions.Log.Deriv
import Mathlib.Analysis.Calculus.Deriv.Inv

/-!
# C66, C67: gradients of the sparse auto-encoder and of intrinsic plasticity
-/

namespace Verif.Unsup

open Outcome Verif.Pack Verif.NN Finset

noncomputable section

/-! ## Packed sums -/

theorem sum_packed (q : ℕ → ℝ) (m : Mat) (ms : List Mat) :
    ∑ e ∈ range (total (m :: ms)), ((m :: ms).map data).flatten.getD e 0 * q e =
      ∑ j ∈ range m.cols, ∑ i ∈ range m.rows, m.val i j * q (j * m.rows + i) +
        ∑ e ∈ range (total ms), (ms.map data).flatten.getD e 0 * q (count m + e) := by
  have htot : total (m :: ms) = m.cols * m.rows + total ms := by simp [total, count, Nat.mul_comm]
  have hc : count m = m.cols * m.rows := Nat.mul_comm _ _
  rw [htot, Finset.sum_range_add]
  congr 1
  · rcases Nat.eq_zero_or_pos m.rows with h0 | h0
    · simp [h0]
    · rw [← sum_flatten h0 m.cols fun j i => m.val i j * q (j * m.rows + i)]
      refine Finset.sum_congr rfl fun e he => ?_
      rw [mem_range] at he
      have hi : e % m.rows < m.rows := Nat.mod_lt _ h0
      have hj : e / m.rows < m.cols := Nat.div_lt_of_lt_mul (by rw [Nat.mul_comm]; exact he)
      have hd := data_place m hi hj
      have ee : e / m.rows * m.rows + e % m.rows = e := by
        rw [Nat.mul_comm]
        exact Nat.div_add_mod e m.rows
      rw [ee] at hd
      rw [ee, List.map_cons, List.flatten_cons, List.getD_eq_getElem?_getD,
        List.getElem?_append_left (by rw [length_data, hc]; exact he), hd]
      rfl
  · refine Finset.sum_congr rfl fun e _ => ?_
    rw [List.map_cons, List.flatten_cons, hc, List.getD_eq_getElem?_getD,
      List.getElem?_append_right (by rw [length_data, hc]; omega), length_data, hc, Nat.add_sub_cancel_left,
      ← List.getD_eq_getElem?_getD]

theorem sum_packed_nil (q : ℕ → ℝ) : ∑ e ∈ range (total []), (([] : List Mat).map data).flatten.getD e 0 * q e = 0 := by
  simp [total]

/-! ## Derivative of the error -/

/-- The sparsity penalty of one hidden unit with mean activation `z`. -/
theorem divergence_hasDerivAt {rho : ℝ} (h0 : 0 < rho) (h1 : rho < 1) {z : ℝ → ℝ} {z' t0 : ℝ} (hz : HasDerivAt z z' t0)
    (p0 : 0 < z t0) (p1 : z t0 < 1) :
    HasDerivAt (fun t => rho * Real.log (rho * (z t)⁻¹) + (1 - rho) * Real.log ((1 - rho) * (1 - z t)⁻¹))
      ((-rho * (z t0)⁻¹ + (1 - rho) * (1 - z t0)⁻¹) * z') t0 := by
  have hr : 1 - rho ≠ 0 := by linarith
  have n0 : z t0 ≠ 0 := p0.ne'
  have n1 : 1 - z t0 ≠ 0 := by linarith
  have d1 := ((hz.fun_inv n0).const_mul rho).log (mul_ne_zero h0.ne' (inv_ne_zero n0))
  have d2 := (((hz.const_sub 1).fun_inv n1).const_mul (1 - rho)).log (mul_ne_zero hr (inv_ne_zero n1))
  refine ((d1.const_mul rho).add (d2.const_mul (1 - rho))).congr_deriv ?_
  have h0' := h0.ne'
  field_simp

/-- The conditions under which the error is differentiable: the activations are not at a kink, the mean activations and the desired
mean are inside of the unit interval. -/
structure Regular (m : SAE) (N : ℕ) (X : Batch) : Prop where
  hidden : Smooth m.act N m.H (dense m.D m.w1 (fun j => m.b1.getD j 0) X)
  output : Smooth m.act N m.D (dense m.H m.w2 (fun i => m.b2.getD i 0) (m.z1 X))
  rho : 0 < m.rho ∧ m.rho < 1
  mean : ∀ j < m.H, 0 < m.mean N X j ∧ m.mean N X j < 1

theorem sae_hasDerivAt (m : SAE) (N : ℕ) (hN : 0 < N) (X : Batch) (M : ℝ → SAE) (t0 : ℝ)
    (hM : ∀ t, M t = { m with W1 := (M t).W1, W2 := (M t).W2, b1 := (M t).b1, b2 := (M t).b2, parameters := (M t).parameters })
    (h0 : M t0 = m) (W1' W2' : Batch) (b1' b2' : ℕ → ℝ)
    (hW1 : ∀ j < m.H, ∀ i < m.D, HasDerivAt (fun t => (M t).w1 j i) (W1' j i) t0)
    (hW2 : ∀ i < m.D, ∀ j < m.H, HasDerivAt (fun t => (M t).w2 i j) (W2' i j) t0)
    (hb1 : ∀ j < m.H, HasDerivAt (fun t => (M t).b1.getD j 0) (b1' j) t0)
    (hb2 : ∀ i < m.D, HasDerivAt (fun t => (M t).b2.getD i 0) (b2' i) t0)
    (hr : Regular m N X) :
    HasDerivAt (fun t => (M t).error N X)
      (∑ j ∈ range m.H, ∑ i ∈ range m.D, (m.w1d N X).val j i * W1' j i +
        ∑ i ∈ range m.D, ∑ j ∈ range m.H, (m.w2d N X).val i j * W2' i j +
        ∑ j ∈ range m.H, (m.b1d N X).val j 0 * b1' j + ∑ i ∈ range m.D, (m.b2d N X).val i 0 * b2' i) t0 := by
  have hN' : (N : ℝ) ≠ 0 := by exact_mod_cast hN.ne'
  have cD : ∀ t, (M t).D = m.D := fun t => by rw [hM t]
  have cH : ∀ t, (M t).H = m.H := fun t => by rw [hM t]
  have cb : ∀ t, (M t).beta = m.beta := fun t => by rw [hM t]
  have cr : ∀ t, (M t).rho = m.rho := fun t => by rw [hM t]
  have cl : ∀ t, (M t).lambda = m.lambda := fun t => by rw [hM t]
  have ca : ∀ t, (M t).act = m.act := fun t => by rw [hM t]
  -- first layer
  set a1' : Batch := denseDot m.D m.w1 W1' b1' X (fun _ _ => 0) with ha1'
  set z1' : Batch := fun n j => m.act.deriv (m.z1 X n j) * a1' n j with hz1'
  have dA1 : ∀ n < N, ∀ j < m.H, HasDerivAt (fun t => dense m.D (M t).w1 (fun j => (M t).b1.getD j 0) X n j) (a1' n j) t0 := by
    intro n hn j hj
    have := dense_hasDerivAt (I := m.D) (J := m.H) (N := N) (W := fun t => (M t).w1) (b := fun t j => (M t).b1.getD j 0)
      (x := fun _ => X) (x' := fun _ _ => 0) (t0 := t0) hW1 hb1 (fun n _ i _ => hasDerivAt_const _ _) hn hj
    rw [h0] at this
    exact this
  have dZ1 : ∀ n < N, ∀ j < m.H, HasDerivAt (fun t => (M t).z1 X n j) (z1' n j) t0 := by
    intro n hn j hj
    have := map_hasDerivAt (act := m.act) (N := N) (J := m.H)
      (a := fun t => dense m.D (M t).w1 (fun j => (M t).b1.getD j 0) X) (a' := a1') (t0 := t0)
      (by rw [h0]; exact hr.hidden) dA1 hn hj
    simp only [h0] at this
    refine this.congr_of_eventuallyEq (Filter.Eventually.of_forall fun t => ?_)
    simp only [SAE.z1, ca, cD]
  -- second layer
  set a2' : Batch := denseDot m.H m.w2 W2' b2' (m.z1 X) z1' with ha2'
  set z2' : Batch := fun n i => m.act.deriv (m.z2 X n i) * a2' n i with hz2'
  have dA2 : ∀ n < N, ∀ i < m.D, HasDerivAt
      (fun t => dense m.H (M t).w2 (fun i => (M t).b2.getD i 0) ((M t).z1 X) n i) (a2' n i) t0 := by
    intro n hn i hi
    have := dense_hasDerivAt (I := m.H) (J := m.D) (N := N) (W := fun t => (M t).w2) (b := fun t i => (M t).b2.getD i 0)
      (x := fun t => (M t).z1 X) (x' := z1') (t0 := t0) hW2 hb2 dZ1 hn hi
    rw [h0] at this
    exact this
  have dZ2 : ∀ n < N, ∀ i < m.D, HasDerivAt (fun t => (M t).z2 X n i) (z2' n i) t0 := by
    intro n hn i hi
    have := map_hasDerivAt (act := m.act) (N := N) (J := m.D)
      (a := fun t => dense m.H (M t).w2 (fun i => (M t).b2.getD i 0) ((M t).z1 X)) (a' := a2') (t0 := t0)
      (by rw [h0]; exact hr.output) dA2 hn hi
    simp only [h0] at this
    refine this.congr_of_eventuallyEq (Filter.Eventually.of_forall fun t => ?_)
    simp only [SAE.z2, ca, cH]
  -- the three parts of the error
  have dE1 : HasDerivAt (fun t => (∑ n ∈ range N, ∑ i ∈ range m.D, ((M t).z2 X n i - X n i) ^ 2) / (2 * N))
      ((∑ n ∈ range N, ∑ i ∈ range m.D, 2 * (m.z2 X n i - X n i) * z2' n i) / (2 * N)) t0 := by
    refine HasDerivAt.div_const ?_ _
    refine HasDerivAt.fun_sum fun n hn => HasDerivAt.fun_sum fun i hi => ?_
    have := ((dZ2 n (mem_range.1 hn) i (mem_range.1 hi)).sub_const (X n i)).fun_pow 2
    rw [h0] at this
    refine this.congr_deriv ?_
    simp
  have dE2 : HasDerivAt (fun t => m.lambda / 2 * (∑ j ∈ range m.H, ∑ i ∈ range m.D, (M t).w1 j i ^ 2 +
        ∑ i ∈ range m.D, ∑ j ∈ range m.H, (M t).w2 i j ^ 2))
      (m.lambda / 2 * (∑ j ∈ range m.H, ∑ i ∈ range m.D, 2 * m.w1 j i * W1' j i +
        ∑ i ∈ range m.D, ∑ j ∈ range m.H, 2 * m.w2 i j * W2' i j)) t0 := by
    refine HasDerivAt.const_mul _ (HasDerivAt.add ?_ ?_)
    · refine HasDerivAt.fun_sum fun j hj => HasDerivAt.fun_sum fun i hi => ?_
      have := (hW1 j (mem_range.1 hj) i (mem_range.1 hi)).fun_pow 2
      rw [h0] at this
      exact this.congr_deriv (by simp)
    · refine HasDerivAt.fun_sum fun i hi => HasDerivAt.fun_sum fun j hj => ?_
      have := (hW2 i (mem_range.1 hi) j (mem_range.1 hj)).fun_pow 2
      rw [h0] at this
      exact this.congr_deriv (by simp)
  have dmean : ∀ j < m.H, HasDerivAt (fun t => (M t).mean N X j) ((∑ n ∈ range N, z1' n j) / N) t0 := by
    intro j hj
    exact HasDerivAt.div_const (HasDerivAt.fun_sum fun n hn => dZ1 n (mem_range.1 hn) j hj) _
  set s : ℕ → ℝ := fun j => -m.rho * (m.mean N X j)⁻¹ + (1 - m.rho) * (1 - m.mean N X j)⁻¹ with hs
  have dE3 : HasDerivAt (fun t => m.beta * ∑ j ∈ range m.H, (m.rho * Real.log (m.rho * ((M t).mean N X j)⁻¹) +
        (1 - m.rho) * Real.log ((1 - m.rho) * (1 - (M t).mean N X j)⁻¹)))
      (m.beta * ∑ j ∈ range m.H, s j * ((∑ n ∈ range N, z1' n j) / N)) t0 := by
    refine HasDerivAt.const_mul _ (HasDerivAt.fun_sum fun j hj => ?_)
    obtain ⟨p0, p1⟩ := hr.mean j (mem_range.1 hj)
    have := divergence_hasDerivAt hr.rho.1 hr.rho.2 (dmean j (mem_range.1 hj)) (by rw [h0]; exact p0) (by rw [h0]; exact p1)
    rw [h0] at this
    exact this
  have dE := (dE1.add dE2).add dE3
  have efun : (fun t => (M t).error N X) = fun t =>
      (∑ n ∈ range N, ∑ i ∈ range m.D, ((M t).z2 X n i - X n i) ^ 2) / (2 * N)
      + m.lambda / 2 * (∑ j ∈ range m.H, ∑ i ∈ range m.D, (M t).w1 j i ^ 2 + ∑ i ∈ range m.D, ∑ j ∈ range m.H, (M t).w2 i j ^ 2)
      + m.beta * ∑ j ∈ range m.H, (m.rho * Real.log (m.rho * ((M t).mean N X j)⁻¹) +
        (1 - m.rho) * Real.log ((1 - m.rho) * (1 - (M t).mean N X j)⁻¹)) := by
    funext t
    simp only [SAE.error, cD, cH, cb, cr, cl]
  rw [efun]
  refine dE.congr_deriv ?_
  -- bookkeeping
  have k1 : (∑ n ∈ range N, ∑ i ∈ range m.D, 2 * (m.z2 X n i - X n i) * z2' n i) / (2 * N) =
      NN.inner N m.D (m.deltas2 X) a2' / N := by
    have : ∑ n ∈ range N, ∑ i ∈ range m.D, 2 * (m.z2 X n i - X n i) * z2' n i = 2 * NN.inner N m.D (m.deltas2 X) a2' := by
      rw [NN.inner, Finset.mul_sum]
      refine Finset.sum_congr rfl fun n _ => ?_
      rw [Finset.mul_sum]
      refine Finset.sum_congr rfl fun i _ => ?_
      simp only [SAE.deltas2, deltas, hz2']
      ring
    rw [this, mul_div_mul_left _ _ (by norm_num)]
  have k2 : NN.inner N m.D (m.deltas2 X) a2' = NN.inner N m.H (fun n j => ∑ i ∈ range m.D, m.deltas2 X n i * m.w2 i j) z1' +
      (∑ i ∈ range m.D, ∑ j ∈ range m.H, (∑ n ∈ range N, m.deltas2 X n i * m.z1 X n j) * W2' i j +
        ∑ i ∈ range m.D, (∑ n ∈ range N, m.deltas2 X n i) * b2' i) := dense_adjoint _ _ _ _ _ _ _ _ _
  have k3 : m.beta * ∑ j ∈ range m.H, s j * ((∑ n ∈ range N, z1' n j) / N) = NN.inner N m.H (fun _ j => m.beta * s j) z1' / N := by
    rw [NN.inner, Finset.sum_comm, Finset.mul_sum, Finset.sum_div]
    refine Finset.sum_congr rfl fun j _ => ?_
    rw [← Finset.mul_sum]
    ring
  have k4 : NN.inner N m.H (fun n j => ∑ i ∈ range m.D, m.deltas2 X n i * m.w2 i j) z1' + NN.inner N m.H (fun _ j => m.beta * s j) z1' =
      NN.inner N m.H (m.deltas1 N X) a1' := by
    rw [NN.inner, NN.inner, NN.inner, ← Finset.sum_add_distrib]
    refine Finset.sum_congr rfl fun n _ => ?_
    rw [← Finset.sum_add_distrib]
    refine Finset.sum_congr rfl fun j _ => ?_
    simp only [SAE.deltas1, deltas, SAE.dEdZ1, hz1', hs]
    ring
  have k5 : NN.inner N m.H (m.deltas1 N X) a1' = NN.inner N m.D (fun n i => ∑ j ∈ range m.H, m.deltas1 N X n j * m.w1 j i) (fun _ _ => 0) +
      (∑ j ∈ range m.H, ∑ i ∈ range m.D, (∑ n ∈ range N, m.deltas1 N X n j * X n i) * W1' j i +
        ∑ j ∈ range m.H, (∑ n ∈ range N, m.deltas1 N X n j) * b1' j) := dense_adjoint _ _ _ _ _ _ _ _ _
  have k6 : NN.inner N m.D (fun n i => ∑ j ∈ range m.H, m.deltas1 N X n j * m.w1 j i) (fun _ _ => 0) = 0 := by
    simp [NN.inner]
  have f1 : ∑ j ∈ range m.H, ∑ i ∈ range m.D, (m.w1d N X).val j i * W1' j i =
      (∑ j ∈ range m.H, ∑ i ∈ range m.D, (∑ n ∈ range N, m.deltas1 N X n j * X n i) * W1' j i) / N +
        m.lambda / 2 * ∑ j ∈ range m.H, ∑ i ∈ range m.D, 2 * m.w1 j i * W1' j i := by
    rw [Finset.sum_div, Finset.mul_sum, ← Finset.sum_add_distrib]
    refine Finset.sum_congr rfl fun j _ => ?_
    rw [Finset.sum_div, Finset.mul_sum, ← Finset.sum_add_distrib]
    refine Finset.sum_congr rfl fun i _ => ?_
    simp only [SAE.w1d]
    ring
  have f2 : ∑ i ∈ range m.D, ∑ j ∈ range m.H, (m.w2d N X).val i j * W2' i j =
      (∑ i ∈ range m.D, ∑ j ∈ range m.H, (∑ n ∈ range N, m.deltas2 X n i * m.z1 X n j) * W2' i j) / N +
        m.lambda / 2 * ∑ i ∈ range m.D, ∑ j ∈ range m.H, 2 * m.w2 i j * W2' i j := by
    rw [Finset.sum_div, Finset.mul_sum, ← Finset.sum_add_distrib]
    refine Finset.sum_congr rfl fun i _ => ?_
    rw [Finset.sum_div, Finset.mul_sum, ← Finset.sum_add_distrib]
    refine Finset.sum_congr rfl fun j _ => ?_
    simp only [SAE.w2d]
    ring
  have f3 : ∑ j ∈ range m.H, (m.b1d N X).val j 0 * b1' j = (∑ j ∈ range m.H, (∑ n ∈ range N, m.deltas1 N X n j) * b1' j) / N := by
    rw [Finset.sum_div]
    refine Finset.sum_congr rfl fun j _ => ?_
    simp only [SAE.b1d]
    ring
  have f4 : ∑ i ∈ range m.D, (m.b2d N X).val i 0 * b2' i = (∑ i ∈ range m.D, (∑ n ∈ range N, m.deltas2 X n i) * b2' i) / N := by
    rw [Finset.sum_div]
    refine Finset.sum_congr rfl fun i _ => ?_
    simp only [SAE.b2d]
    ring
  rw [k1, k3, f1, f2, f3, f4, k2]
  have k7 := k4.trans k5
  rw [k6] at k7
  field_simp
  linear_combination 2 * k7

/-! ## C66 -/

/-- **C66**: the gradient vector of a sparse auto-encoder is the derivative of its error along every differentiable path of
parameter vectors; the entries are in the order of the parameters. -/
theorem sae_gradient (m : SAE) (N : ℕ) (hN : 0 < N) (X : Batch) (p : ℝ → List ℝ) (p' : ℕ → ℝ) (t0 : ℝ) (h31 : m.dimension < 2 ^ 31)
    (hp : ∀ t, (p t).length = m.dimension)
    (hd : ∀ e < m.dimension, HasDerivAt (fun t => (p t).getD e 0) (p' e) t0) (grad : List ℝ) (hg : grad.length = m.dimension) :
    ∃ (M : ℝ → SAE) (g : List ℝ), (∀ t, m.setParameters (p t) = ok (M t)) ∧
      (M t0).errorGradient N X grad = ok ((M t0).error N X, g) ∧ g.length = m.dimension ∧
      (Regular (M t0) N X →
        HasDerivAt (fun t => (M t).error N X) (∑ e ∈ range m.dimension, g.getD e 0 * p' e) t0) := by
  have hdim : m.dimension = m.H * m.D + (m.D * m.H + (m.H + m.D)) := by
    rw [SAE.dimension]
    ring
  choose M h1 h2 h3 h4 h5 h6 h7 h8 using fun t => sae_round_trip m (p t) (hp t) h31
  have mD : ∀ t, (M t).D = m.D := fun t => by rw [h4 t]
  have mH : ∀ t, (M t).H = m.H := fun t => by rw [h4 t]
  set ms : List Mat := [(M t0).w1d N X, (M t0).w2d N X, (M t0).b1d N X, (M t0).b2d N X] with hms
  have htot : total ms = m.dimension := by
    simp only [hms, total, count, SAE.w1d, SAE.w2d, SAE.b1d, SAE.b2d, mD, mH, List.map_cons, List.map_nil, List.sum_cons,
      List.sum_nil, hdim]
    ring
  have hl := length_flatten_data ms
  have hpack : pack grad (ms.map data) = ok (ms.map data).flatten := by
    rw [pack, packFrom_eq _ _ _ (by omega) (by omega), List.take_zero, List.nil_append, Nat.zero_add,
      List.drop_of_length_le (by omega), List.append_nil]
  refine ⟨M, (ms.map data).flatten, h1, ?_, by rw [hl, htot], fun hr => ?_⟩
  · rw [SAE.errorGradient, hpack, ok_bind]
  · have key := sae_hasDerivAt (M t0) N hN X M t0 (fun t => by rw [h4 t, h4 t0]) rfl
      (fun j i => p' (i * m.H + j)) (fun i j => p' (m.H * m.D + (j * m.D + i)))
      (fun j => p' (m.H * m.D + (m.D * m.H + j))) (fun i => p' (m.H * m.D + (m.D * m.H + (m.H + i)))) ?_ ?_ ?_ ?_ hr
    · refine key.congr_deriv ?_
      rw [← htot, hms, sum_packed, sum_packed, sum_packed, sum_packed, sum_packed_nil]
      simp only [SAE.w1d, SAE.w2d, SAE.b1d, SAE.b2d, mD, mH, count, Finset.sum_range_one, Nat.zero_mul, Nat.zero_add,
        Nat.mul_one, add_zero]
      rw [Finset.sum_comm (s := range m.H) (t := range m.D), Finset.sum_comm (s := range m.D) (t := range m.H) (f := fun i j =>
        ((∑ n ∈ range N, (M t0).deltas2 X n i * (M t0).z1 X n j) / ↑N + (M t0).lambda * (M t0).w2 i j) *
          p' (m.H * m.D + (j * m.D + i)))]
      ring
    · intro j hj i hi
      rw [mH] at hj
      rw [mD] at hi
      have hlt := local_lt hj hi
      refine (hd (i * m.H + j) (by omega)).congr_of_eventuallyEq (Filter.Eventually.of_forall fun t => ?_)
      exact h5 t j hj i hi
    · intro i hi j hj
      rw [mH] at hj
      rw [mD] at hi
      have hlt := local_lt hi hj
      refine (hd (m.H * m.D + (j * m.D + i)) (by omega)).congr_of_eventuallyEq (Filter.Eventually.of_forall fun t => ?_)
      exact h6 t j hj i hi
    · intro j hj
      rw [mH] at hj
      refine (hd (m.H * m.D + (m.D * m.H + j)) (by omega)).congr_of_eventuallyEq (Filter.Eventually.of_forall fun t => ?_)
      exact h7 t j hj
    · intro i hi
      rw [mD] at hi
      refine (hd (m.H * m.D + (m.D * m.H + (m.H + i))) (by omega)).congr_of_eventuallyEq (Filter.Eventually.of_forall fun t => ?_)
      exact h8 t i hi

/-- The conditions are satisfiable: one input, one hidden unit, one instance. -/
example : Regular ⟨1, 1, 1, 1 / 2, 0, .logistic, [0], [0], [0], [0], [0, 0, 0, 0]⟩ 1 (fun _ _ => 1) := by
  refine ⟨?_, ?_, by norm_num, ?_⟩
  · intro n _ j hj
    have : j = 0 := by simpa using hj
    subst this
    simp [Act.Kink, dense, SAE.w1, ofData]
  · intro n _ j hj
    have : j = 0 := by simpa using hj
    subst this
    simp [Act.Kink, dense, SAE.w2, ofData]
  · intro j hj
    have : j = 0 := by simpa using hj
    subst this
    simp [SAE.mean, SAE.z1, Act.map, Act.apply, dense, SAE.w1, ofData]
    norm_num

/-! ## C67: intrinsic plasticity -/

/-- the logistic function -/
def sigmoid (x : ℝ) : ℝ := 1 / (1 + Real.exp (-x))

/-- The divergence between the distribution of the output of a unit and the exponential distribution with mean `mu`, for one input
`a` and without the terms that do not depend on the unit: the output `y` has the density of the input divided by
`dy/da = s * y * (1 - y)`, the exponential distribution has the density `exp (-y / mu) / mu`. -/
def unitLoss (mu a s b : ℝ) : ℝ :=
  -Real.log (abs (s * sigmoid (a * s + b) * (1 - sigmoid (a * s + b)))) - Real.log (Real.exp (-(sigmoid (a * s + b) / mu)) / mu)

theorem unitLoss_hasDerivAt {mu a : ℝ} (hmu : mu ≠ 0) {s b : ℝ → ℝ} {s' b' t0 : ℝ} (hs : HasDerivAt s s' t0) (hb : HasDerivAt b b' t0)
    (h0 : s t0 ≠ 0) :
    HasDerivAt (fun t => unitLoss mu a (s t) (b t))
      (-(1 / s t0 + a - (2 + 1 / mu) * a * sigmoid (a * s t0 + b t0) +
          a * sigmoid (a * s t0 + b t0) * sigmoid (a * s t0 + b t0) / mu) * s' +
        -(1 - (2 + 1 / mu) * sigmoid (a * s t0 + b t0) + sigmoid (a * s t0 + b t0) * sigmoid (a * s t0 + b t0) / mu) * b') t0 := by
  have hx : HasDerivAt (fun t => a * s t + b t) (a * s' + b') t0 := (hs.const_mul a).add hb
  have hy := (hasDerivAt_sigmoid (a * s t0 + b t0)).comp t0 hx
  obtain ⟨y0, y1⟩ := sigmoid_mem (a * s t0 + b t0)
  set y : ℝ → ℝ := fun t => sigmoid (a * s t + b t) with hydef
  have hy' : HasDerivAt y (y t0 * (1 - y t0) * (a * s' + b')) t0 := hy
  have y0' : 0 < y t0 := y0
  have y1' : y t0 < 1 := y1
  have n0 : y t0 ≠ 0 := y0'.ne'
  have n1 : 1 - y t0 ≠ 0 := by linarith
  have hne : s t0 * y t0 * (1 - y t0) ≠ 0 := mul_ne_zero (mul_ne_zero h0 n0) n1
  have d1 := ((hs.fun_mul hy').fun_mul (hy'.const_sub 1)).log hne
  have d2 := ((((hy'.div_const mu).fun_neg).exp).div_const mu).log (div_ne_zero (Real.exp_pos _).ne' hmu)
  have hf : (fun t => unitLoss mu a (s t) (b t)) =
      fun t => -Real.log (s t * y t * (1 - y t)) - Real.log (Real.exp (-(y t / mu)) / mu) := by
    funext t
    simp only [unitLoss, Real.log_abs, hydef]
  rw [hf]
  refine (d1.neg.sub d2).congr_deriv ?_
  have he : Real.exp (-(y t0 / mu)) ≠ 0 := (Real.exp_pos _).ne'
  change _ = -(1 / s t0 + a - (2 + 1 / mu) * a * y t0 + a * y t0 * y t0 / mu) * s' + -(1 - (2 + 1 / mu) * y t0 + y t0 * y t0 / mu) * b'
  field_simp
  ring

theorem collect_loop {α : Type} (f : ℕ → α) (n : ℕ) (body : ℕ → List α → Outcome (List α)) (g : List α)
    (h : ∀ i < n, ∀ g, body i g = ok (g ++ [f i])) : forLoop n body g = ok (g ++ (List.range n).map f) := by
  have := forLoop_eq (n := n) (body := body) (fun k => g ++ (List.range k).map f) (fun i hi => by
    rw [h i hi, List.range_succ, List.map_append, List.append_assoc]
    rfl)
  simpa using this

theorem ip_output (m : IP) (hm : m.Valid) (a : List ℝ) (ha : a.length = m.nodes) :
    ∃ y, m.output a = ok y ∧ y.length = m.nodes ∧
      ∀ i < m.nodes, y.getD i 0 = Act.logistic.apply (a.getD i 0 * m.s.getD i 0 + m.b.getD i 0) := by
  refine ⟨_, by rw [IP.output, if_pos ⟨by rw [ha, hm.s], by rw [ha, hm.b]⟩], by simpa using ha, fun i hi => ?_⟩
  rw [List.getD_eq_getElem?_getD, List.getElem?_eq_getElem (by simp; omega), List.getElem_ofFn]
  rfl

theorem ip_gradient_eq (m : IP) (hm : m.Valid) (hn : 0 < m.nodes) (a : List ℝ) (ha : a.length = m.nodes) (h0 : m.s.getD 0 0 ≠ 0) :
    ∃ y : List ℝ, m.output a = ok y ∧ m.gradient a =
      ok ((List.range m.nodes).map (fun i => m.slopeEntry (a.getD i 0) (m.s.getD i 0) (y.getD i 0)) ++
        (List.range m.nodes).map fun j => m.biasEntry (y.getD j 0)) := by
  obtain ⟨y, h1, h2, _⟩ := ip_output m hm a ha
  have hsl := hm.s
  have rd : ∀ (l : List ℝ) (i : ℕ), i < l.length → Outcome.read l i = ok (l.getD i 0) := by
    intro l i hi
    rw [Outcome.read_of_lt hi, List.getD_eq_getElem?_getD, List.getElem?_eq_getElem hi]
    rfl
  refine ⟨y, h1, ?_⟩
  unfold IP.gradient
  rw [h1, ok_bind, rd _ _ (by omega), ok_bind, Outcome.check_true h0, ok_bind,
    collect_loop (fun i => m.slopeEntry (a.getD i 0) (m.s.getD i 0) (y.getD i 0)) _ _ _ (fun i hi g => by
      rw [rd _ _ (by omega), ok_bind, rd _ _ (by omega), ok_bind, rd _ _ (by omega), ok_bind]), ok_bind,
    collect_loop (fun j => m.biasEntry (y.getD j 0)) _ _ _ (fun i hi g => by
      rw [rd _ _ (by omega), ok_bind]), List.nil_append]

/-- **C67 (partial)**: the gradient of intrinsic plasticity is the derivative of the divergence from the exponential distribution
along every differentiable path of parameter vectors, in the order of the parameters, if all slopes are different from zero and no
unit is cut off.  Missing: it is not the derivative of the reported error (`ip_error_fails`), and only the first slope is checked
(`ip_zero_slope_fails`). -/
theorem ip_gradient_partial (m : IP) (hm : m.Valid) (hn : 0 < m.nodes) (hmu : m.mu ≠ 0) (a : List ℝ) (ha : a.length = m.nodes)
    (p : ℝ → List ℝ) (p' : ℕ → ℝ) (t0 : ℝ) (hp : ∀ t, (p t).length = m.dimension)
    (hd : ∀ e < m.dimension, HasDerivAt (fun t => (p t).getD e 0) (p' e) t0)
    (hs : ∀ i < m.nodes, (p t0).getD i 0 ≠ 0)
    (hx : ∀ i < m.nodes, |a.getD i 0 * (p t0).getD i 0 + (p t0).getD (m.nodes + i) 0| ≤ 45) :
    ∃ (M : ℝ → IP) (g : List ℝ), (∀ t, m.setParameters (p t) = ok (M t)) ∧ (M t0).gradient a = ok (g.map some) ∧
      g.length = m.dimension ∧
      HasDerivAt (fun t => ∑ i ∈ range m.nodes, unitLoss m.mu (a.getD i 0) ((M t).s.getD i 0) ((M t).b.getD i 0))
        (∑ e ∈ range m.dimension, g.getD e 0 * p' e) t0 := by
  choose M h1 h2 h3 h4 h5 h6 h7 using fun t => ip_round_trip m hm (p t) (hp t)
  have hs' : ∀ i < m.nodes, (M t0).s.getD i 0 ≠ 0 := fun i hi => by rw [(h7 t0 i hi).1]; exact hs i hi
  obtain ⟨y, hy, hg⟩ := ip_gradient_eq (M t0) (h2 t0) (by rw [h3]; exact hn) a (by rw [h3]; exact ha) (hs' 0 hn)
  obtain ⟨y2, hy2, _, hval⟩ := ip_output (M t0) (h2 t0) a (by rw [h3]; exact ha)
  rw [hy] at hy2
  cases hy2
  have hyv : ∀ i < m.nodes, y.getD i 0 = sigmoid (a.getD i 0 * (M t0).s.getD i 0 + (M t0).b.getD i 0) := by
    intro i hi
    rw [hval i (by rw [h3]; exact hi)]
    have hb := abs_le.1 (hx i hi)
    rw [← (h7 t0 i hi).1, ← (h7 t0 i hi).2] at hb
    rw [Act.apply, if_neg (not_lt.2 hb.1), if_neg (not_lt.2 hb.2), sigmoid]
  set gs : ℕ → ℝ := fun i => -(1 / (M t0).s.getD i 0 + a.getD i 0 - (2 + 1 / m.mu) * a.getD i 0 * y.getD i 0 +
    a.getD i 0 * y.getD i 0 * y.getD i 0 / m.mu) with hgs
  set gb : ℕ → ℝ := fun i => -(1 - (2 + 1 / m.mu) * y.getD i 0 + y.getD i 0 * y.getD i 0 / m.mu) with hgb
  refine ⟨M, (List.range m.nodes).map gs ++ (List.range m.nodes).map gb, h1, ?_, ?_, ?_⟩
  · rw [hg, h3, List.map_append, List.map_map, List.map_map]
    congr 2
    · refine List.map_congr_left fun i hi => ?_
      simp only [IP.slopeEntry, if_neg (hs' i (List.mem_range.1 hi)), h4, Function.comp, hgs]
    · refine List.map_congr_left fun i hi => ?_
      simp only [IP.biasEntry, h4, Function.comp, hgb]
  · simp [IP.dimension]
    omega
  · have hdim : m.dimension = m.nodes + m.nodes := by rw [IP.dimension]; omega
    have hsum : ∑ e ∈ range m.dimension, ((List.range m.nodes).map gs ++ (List.range m.nodes).map gb).getD e 0 * p' e =
        ∑ i ∈ range m.nodes, (gs i * p' i + gb i * p' (m.nodes + i)) := by
      rw [hdim, Finset.sum_range_add, Finset.sum_add_distrib]
      congr 1
      · refine Finset.sum_congr rfl fun i hi => ?_
        rw [mem_range] at hi
        rw [List.getD_eq_getElem?_getD, List.getElem?_append_left (by simpa using hi), List.getElem?_map, List.getElem?_range hi]
        rfl
      · refine Finset.sum_congr rfl fun i hi => ?_
        rw [mem_range] at hi
        rw [List.getD_eq_getElem?_getD, List.getElem?_append_right (by simp), List.length_map, List.length_range,
          Nat.add_sub_cancel_left, List.getElem?_map, List.getElem?_range hi]
        rfl
    rw [hsum]
    refine HasDerivAt.fun_sum fun i hi => ?_
    rw [mem_range] at hi
    have ds : HasDerivAt (fun t => (M t).s.getD i 0) (p' i) t0 :=
      (hd i (by omega)).congr_of_eventuallyEq (Filter.Eventually.of_forall fun t => (h7 t i hi).1)
    have db : HasDerivAt (fun t => (M t).b.getD i 0) (p' (m.nodes + i)) t0 :=
      (hd (m.nodes + i) (by omega)).congr_of_eventuallyEq (Filter.Eventually.of_forall fun t => (h7 t i hi).2)
    have key := unitLoss_hasDerivAt (a := a.getD i 0) hmu ds db (hs' i hi)
    refine key.congr_deriv ?_
    rw [← hyv i hi]

/-- **C67 is false** for the reported error: at a minimum of the error the gradient is not zero. -/
theorem ip_error_fails : ∃ (m : IP) (a : List ℝ) (f : ℝ → ℝ), m.Valid ∧
    (∀ t, ({ m with b := [t] } : IP).error a = ok (f t)) ∧ HasDerivAt f 0 0 ∧ m.b = [0] ∧
    m.gradient a = ok [some (-1), some (1 / 2)] := by
  refine ⟨⟨1, 1 / 2, [1], [0], [1, 0]⟩, [0], fun t => (Act.logistic.apply t - 1 / 2) * (Act.logistic.apply t - 1 / 2),
    ⟨rfl, rfl, rfl⟩, fun t => ?_, ?_, rfl, ?_⟩
  · simp [IP.error, IP.output, forLoop, Outcome.read, List.ofFn_succ]
  · have h1 := (act_hasDerivAt .logistic 0 (by simp [Act.Kink])).sub_const (1 / 2 : ℝ)
    have h2 := h1.fun_mul h1
    refine h2.congr_deriv ?_
    norm_num [Act.apply]
  · have hy : Act.logistic.apply 0 = 1 / 2 := by norm_num [Act.apply]
    simp [IP.gradient, IP.output, forLoop, Outcome.read, List.ofFn_succ, hy, IP.slopeEntry, IP.biasEntry]
    norm_num

/-- **C67 is false** if a slope other than the first is zero: the check passes and the gradient is not finite. -/
theorem ip_zero_slope_fails (m : IP) (hm : m.Valid) (a : List ℝ) (ha : a.length = m.nodes) (h0 : m.s.getD 0 0 ≠ 0) {i : ℕ}
    (hi : i < m.nodes) (h : m.s.getD i 0 = 0) : ∃ g, m.gradient a = ok g ∧ g.length = m.dimension ∧ g[i]? = some none := by
  obtain ⟨y, _, hg⟩ := ip_gradient_eq m hm (by omega) a ha h0
  refine ⟨_, hg, by simp [IP.dimension]; omega, ?_⟩
  rw [List.getElem?_append_left (by simpa using hi), List.getElem?_map, List.getElem?_range hi]
  simp only [Option.map_some, IP.slopeEntry, if_pos h]

example : ∃ m : IP, m.Valid ∧ m.s.getD 0 0 ≠ 0 ∧ m.s.getD 1 0 = 0 ∧ 1 < m.nodes :=
  ⟨⟨2, 1, [1, 0], [0, 0], [0, 0, 0, 0]⟩, ⟨rfl, rfl, rfl⟩, by norm_num, by norm_num, by norm_num⟩

end

end Verif.Unsup
