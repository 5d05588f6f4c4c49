import Verif.Model.Whitening
import Mathlib.Tactic.Linarith
import Mathlib.Tactic.LinearCombination
import Mathlib.Tactic.Abel
import Mathlib.Tactic.FieldSimp
import Mathlib.Tactic.Ring
import Mathlib.Tactic.NormNum
import Mathlib.Tactic.FinCases
import Mathlib.Tactic.IntervalCases
import Mathlib.LinearAlgebra.Matrix.NonsingularInverse
import Mathlib.LinearAlgebra.Matrix.Notation
import Mathlib.LinearAlgebra.Matrix.Trace
import Mathlib.LinearAlgebra.Matrix.DotProduct
import Mathlib.Algebra.BigOperators.Field
import Mathlib.Algebra.Order.BigOperators.Group.Finset

/-!
# C55: PCA and ZCA whitening
-/

namespace Verif.White

open Outcome Matrix

noncomputable section

/-! ## Specification -/

/-- mean of each column -/
def mean {N D : ℕ} (Y : Matrix (Fin N) (Fin D) ℝ) (j : Fin D) : ℝ := (∑ n, Y n j) / N

/-- covariance matrix; `k` is the number of rows or this number minus one -/
def cov {N D : ℕ} (k : ℝ) (Y : Matrix (Fin N) (Fin D) ℝ) : Matrix (Fin D) (Fin D) ℝ :=
  fun i j => (∑ n, (Y n i - mean Y i) * (Y n j - mean Y j)) / k

/-- the singular values, filled up with zeros -/
def padded {D : ℕ} (N : ℕ) (S : ℕ → ℝ) (j : Fin D) : ℝ := if j.1 < min N D then S j else 0

/-- `S` and `V` are the singular values and right singular vectors of `A`: this is the case exactly if `V` is orthogonal, the
singular values are nonnegative and sorted, and `V` diagonalises `A^T A`. -/
structure IsSVD {N D : ℕ} (A : Matrix (Fin N) (Fin D) ℝ) (r : SVD D) : Prop where
  nonneg : ∀ i < min N D, 0 ≤ r.S i
  sorted : ∀ i j, i ≤ j → j < min N D → r.S j ≤ r.S i
  orthogonal : r.V * r.Vᵀ = 1
  diagonalises : Aᵀ * A = r.V * diagonal (fun j => padded N r.S j ^ 2) * r.Vᵀ

/-! ## General lemmas -/

theorem align_sum {N D : ℕ} (X : Matrix (Fin N) (Fin D) ℝ) (hN : 0 < N) (d : Fin D) : ∑ n, align X (colMean X) n d = 0 := by
  have h : (N : ℝ) ≠ 0 := by exact_mod_cast hN.ne'
  simp only [align, colMean, Finset.sum_sub_distrib, Finset.sum_const, Finset.card_univ, Fintype.card_fin, nsmul_eq_mul]
  field_simp
  ring

theorem mul_sum_zero {N D c : ℕ} (A : Matrix (Fin N) (Fin D) ℝ) (B : Matrix (Fin D) (Fin c) ℝ) (h : ∀ d, ∑ n, A n d = 0)
    (j : Fin c) : ∑ n, (A * B) n j = 0 := by
  simp only [Matrix.mul_apply]
  rw [Finset.sum_comm]
  refine Finset.sum_eq_zero fun d _ => ?_
  rw [← Finset.sum_mul, h d, zero_mul]

theorem cov_centred {N D : ℕ} (k : ℝ) (Y : Matrix (Fin N) (Fin D) ℝ) (h : ∀ d, ∑ n, Y n d = 0) :
    cov k Y = (1 / k) • (Yᵀ * Y) := by
  ext i j
  have hm : ∀ d, mean Y d = 0 := fun d => by rw [mean, h d, zero_div]
  simp only [cov, hm, sub_zero, Matrix.smul_apply, Matrix.mul_apply, Matrix.transpose_apply, smul_eq_mul]
  rw [div_eq_inv_mul, one_div]

theorem cov_align {N D : ℕ} (k : ℝ) (X : Matrix (Fin N) (Fin D) ℝ) :
    cov k X = (1 / k) • ((align X (colMean X))ᵀ * align X (colMean X)) := by
  ext i j
  simp only [cov, Matrix.smul_apply, Matrix.mul_apply, Matrix.transpose_apply, smul_eq_mul, align]
  rw [div_eq_inv_mul, one_div]
  rfl

theorem cov_linear {N D c : ℕ} (k : ℝ) (X : Matrix (Fin N) (Fin D) ℝ) (hN : 0 < N) (B : Matrix (Fin D) (Fin c) ℝ) :
    cov k (align X (colMean X) * B) = Bᵀ * cov k X * B := by
  rw [cov_centred k _ (mul_sum_zero _ _ (align_sum X hN)), cov_align, Matrix.transpose_mul]
  simp only [Matrix.mul_smul, Matrix.smul_mul, Matrix.mul_assoc]

theorem pcaTransform_ok {D M components : ℕ} (p : Fitted D) (X : Matrix (Fin M) (Fin D) ℝ) (hD : 0 < D) (hc : components ≤ D) :
    pcaTransform components (some p) X = ok (align X p.mean * (p.W.submatrix (Fin.castLE hc) id)ᵀ) := by
  simp only [pcaTransform, if_pos hD, dif_pos hc]
  rfl

/-! ## PCA -/

/-- The matrix that is used for the transformation. -/
def pcaW {D : ℕ} (N : ℕ) (whiten : Bool) (r : SVD D) : Matrix (Fin D) (Fin D) ℝ :=
  if whiten then Matrix.of fun i d => r.V i d / (r.S i / Real.sqrt N) else r.V

theorem pcaFit_ok {N D : ℕ} (hN : D ≤ N) (whiten : Bool) (svd : Matrix (Fin N) (Fin D) ℝ → SVD D) (junk : ℕ → ℝ)
    (X : Matrix (Fin N) (Fin D) ℝ) : ∃ p, pcaFit whiten svd junk X = ok p ∧ p.mean = colMean X ∧
      p.W = pcaW N whiten (svd (align X (colMean X))) := by
  cases whiten
  · exact ⟨_, rfl, rfl, rfl⟩
  · have hw : ∀ S V, whitenRows (D := D) N S V = ok (Matrix.of fun i d => V i d / S i) := fun S V => if_pos (Or.inr (by omega))
    unfold pcaFit
    simp only
    rw [if_pos trivial, hw, ok_bind]
    exact ⟨_, rfl, rfl, rfl⟩

/-- What `fit` and `transform` compute for the training data. -/
theorem pca_apply {N D components : ℕ} (hD : 0 < D) (hN : D ≤ N) (hc : components ≤ D) (whiten : Bool)
    (svd : Matrix (Fin N) (Fin D) ℝ → SVD D) (junk : ℕ → ℝ) (X : Matrix (Fin N) (Fin D) ℝ) :
    ∃ p, pcaFit whiten svd junk X = ok p ∧ pcaTransform components (some p) X = ok (align X (colMean X) *
      ((pcaW N whiten (svd (align X (colMean X)))).submatrix (Fin.castLE hc) id)ᵀ) := by
  obtain ⟨p, h1, h2, h3⟩ := pcaFit_ok hN whiten svd junk X
  exact ⟨p, h1, by rw [pcaTransform_ok p X hD hc, h2, h3]⟩

/-- **C55**: the transformed training data has mean zero, whatever the decomposition is. -/
theorem pca_mean_zero {N D components : ℕ} (whiten : Bool) (svd : Matrix (Fin N) (Fin D) ℝ → SVD D) (junk : ℕ → ℝ)
    (X : Matrix (Fin N) (Fin D) ℝ) (hD : 0 < D) (hN : D ≤ N) (hc : components ≤ D) :
    ∃ p Y, pcaFit whiten svd junk X = ok p ∧ pcaTransform components (some p) X = ok Y ∧ ∀ j, mean Y j = 0 := by
  obtain ⟨p, h1, h2⟩ := pca_apply hD hN hc whiten svd junk X
  refine ⟨p, _, h1, h2, fun j => ?_⟩
  rw [mean, mul_sum_zero _ _ (align_sum X (by omega)), zero_div]

/-- covariance of the transformed training data -/
theorem cov_submatrix {N D c : ℕ} (k : ℝ) (X : Matrix (Fin N) (Fin D) ℝ) (hN : 0 < N) (W : Matrix (Fin D) (Fin D) ℝ)
    (hc : c ≤ D) : cov k (align X (colMean X) * (W.submatrix (Fin.castLE hc) id)ᵀ) =
      (W * cov k X * Wᵀ).submatrix (Fin.castLE hc) (Fin.castLE hc) := by
  rw [cov_linear k X hN, Matrix.transpose_transpose]
  rfl

theorem sum_padded {D : ℕ} (N : ℕ) (S : ℕ → ℝ) : ∑ j : Fin D, padded N S j ^ 2 = ∑ i ∈ Finset.range (min N D), S i ^ 2 := by
  have e := Fin.sum_univ_eq_sum_range (fun j => (if j < min N D then S j else 0) ^ 2) D
  refine Eq.trans (by rfl) (e.trans ?_)
  rw [← Finset.sum_subset (Finset.range_mono (Nat.min_le_right N D))]
  · exact Finset.sum_congr rfl fun j hj => by rw [if_pos (Finset.mem_range.1 hj)]
  · intro j _ hj
    rw [if_neg (by simpa using hj)]
    norm_num

/-- The sum of the variances is the sum of the squared singular values. -/
theorem total_variance {N D : ℕ} (X : Matrix (Fin N) (Fin D) ℝ) (r : SVD D) (h : IsSVD (align X (colMean X)) r) :
    (cov N X).trace = ∑ i ∈ Finset.range (min N D), (r.S i / Real.sqrt N) ^ 2 := by
  rw [cov_align, h.diagonalises, Matrix.trace_smul, Matrix.trace_mul_cycle, mul_eq_one_comm.1 h.orthogonal, one_mul,
    Matrix.trace_diagonal, sum_padded]
  simp only [div_pow, Real.sq_sqrt (Nat.cast_nonneg N)]
  rw [← Finset.sum_div, smul_eq_mul, one_div, inv_mul_eq_div]

/-- **C55**: the ratios of explained variance lie in `[0, 1]`, decrease and sum up to one over all components; the `i`-th ratio is
the share of the `i`-th squared singular value in the sum of the variances of the data. -/
theorem pca_ratios {N D : ℕ} (whiten : Bool) (svd : Matrix (Fin N) (Fin D) ℝ → SVD D) (junk : ℕ → ℝ)
    (X : Matrix (Fin N) (Fin D) ℝ) (hs : IsSVD (align X (colMean X)) (svd (align X (colMean X)))) (hvar : (cov N X).trace ≠ 0) (p : Fitted D)
    (hp : pcaFit whiten svd junk X = ok p) :
    (∀ i < min N D, 0 ≤ p.evr i ∧ p.evr i ≤ 1) ∧ (∀ i j, i ≤ j → j < min N D → p.evr j ≤ p.evr i) ∧
      ∑ i ∈ Finset.range (min N D), p.evr i = 1 ∧
      ∀ i < min N D, p.evr i * (cov N X).trace = (svd (align X (colMean X))).S i ^ 2 / N := by
  have ht := total_variance X _ hs
  have hevr : ∀ i < min N D, p.evr i = ((svd (align X (colMean X))).S i / Real.sqrt N) ^ 2 / (cov N X).trace := by
    intro i h
    rw [ht]
    unfold pcaFit at hp
    simp only at hp
    rw [bind_eq_ok] at hp
    obtain ⟨W, _, hW⟩ := hp
    cases hW
    simp only [if_pos h]
  have hpos : 0 < (cov N X).trace := lt_of_le_of_ne (by rw [ht]; exact Finset.sum_nonneg fun i _ => sq_nonneg _) (Ne.symm hvar)
  have hnn : ∀ i < min N D, 0 ≤ p.evr i := fun i hi => by rw [hevr i hi]; positivity
  have hsum : ∑ i ∈ Finset.range (min N D), p.evr i = 1 := by
    rw [Finset.sum_congr rfl fun i hi => hevr i (Finset.mem_range.1 hi)]
    rw [← Finset.sum_div, ← ht, div_self hvar]
  refine ⟨fun i hi => ⟨hnn i hi, ?_⟩, fun i j hij hj => ?_, hsum, fun i hi => ?_⟩
  · rw [← hsum]
    exact Finset.single_le_sum (f := fun i => p.evr i) (fun j hj => hnn j (Finset.mem_range.1 hj)) (Finset.mem_range.2 hi)
  · rw [hevr i (by omega), hevr j hj]
    have h1 := hs.sorted i j hij hj
    have h2 := hs.nonneg j hj
    have h3 := Real.sqrt_nonneg (N : ℝ)
    gcongr
  · rw [hevr i hi, div_mul_cancel₀ _ hvar, div_pow, Real.sq_sqrt (Nat.cast_nonneg N)]

/-- **C55 (partial)**: PCA whitens if the matrix of singular vectors is symmetric.  Missing: all other matrices
(`pca_whiten_fails`), because the program uses the rows of `V` instead of its columns. -/
theorem pca_whiten_partial {N D components : ℕ} (svd : Matrix (Fin N) (Fin D) ℝ → SVD D) (junk : ℕ → ℝ)
    (X : Matrix (Fin N) (Fin D) ℝ) (hs : IsSVD (align X (colMean X)) (svd (align X (colMean X)))) (hD : 0 < D) (hN : D ≤ N)
    (hc : components ≤ D) (hsym : (svd (align X (colMean X))).Vᵀ = (svd (align X (colMean X))).V)
    (hfull : ∀ i < D, (svd (align X (colMean X))).S i ≠ 0) :
    ∃ p Y, pcaFit true svd junk X = ok p ∧ pcaTransform components (some p) X = ok Y ∧ cov N Y = 1 := by
  obtain ⟨p, h1, h2⟩ := pca_apply hD hN hc true svd junk X
  refine ⟨p, _, h1, h2, ?_⟩
  rw [cov_submatrix _ _ (by omega)]
  generalize svd (align X (colMean X)) = r at hs hsym hfull
  have hNpos : (0 : ℝ) < N := by exact_mod_cast (by omega : 0 < N)
  have hW : pcaW N true r = diagonal (fun i : Fin D => Real.sqrt N / r.S i) * r.V := by
    ext i d
    rw [Matrix.diagonal_mul]
    simp only [pcaW, if_true, Matrix.of_apply]
    rw [div_div_eq_mul_div, mul_comm, mul_div_right_comm]
  have hVV : r.V * r.V = 1 := by
    have := hs.orthogonal
    rwa [hsym] at this
  have : pcaW N true r * cov N X * (pcaW N true r)ᵀ = 1 := by
    rw [cov_align, hs.diagonalises, hW, Matrix.transpose_mul, Matrix.diagonal_transpose, hsym]
    simp only [Matrix.mul_smul, Matrix.smul_mul]
    have e : diagonal (fun i : Fin D => Real.sqrt N / r.S i) * r.V *
        (r.V * diagonal (fun j => padded N r.S j ^ 2) * r.V) *
        (r.V * diagonal (fun i : Fin D => Real.sqrt N / r.S i)) =
        diagonal (fun i : Fin D => Real.sqrt N / r.S i) * (r.V * r.V) *
        diagonal (fun j => padded N r.S j ^ 2) * (r.V * r.V) *
        diagonal (fun i : Fin D => Real.sqrt N / r.S i) := by
      simp only [Matrix.mul_assoc]
    rw [e, hVV, Matrix.mul_one, Matrix.mul_one, Matrix.diagonal_mul_diagonal, Matrix.diagonal_mul_diagonal, ← Matrix.diagonal_smul,
      ← Matrix.diagonal_one]
    congr 1
    funext i
    have hi : i.1 < min N D := by have := i.2; omega
    simp only [Pi.smul_apply, smul_eq_mul, padded, if_pos hi]
    have h0 := hfull i i.2
    have hsq : Real.sqrt N * Real.sqrt N = N := Real.mul_self_sqrt hNpos.le
    field_simp
    rw [pow_two, hsq]
  rw [this]
  exact Matrix.submatrix_one _ (Fin.castLE_injective hc)

/-- Symmetric singular vectors occur for data with sorted, uncorrelated features. -/
example : ∃ (X : Matrix (Fin 4) (Fin 2) ℝ) (r : SVD 2), IsSVD (align X (colMean X)) r ∧ r.Vᵀ = r.V ∧ ∀ i < 2, r.S i ≠ 0 := by
  have hm : colMean (!![2, 0; -2, 0; 0, 1; 0, -1] : Matrix (Fin 4) (Fin 2) ℝ) = 0 := by
    funext d
    fin_cases d <;> simp [colMean, Fin.sum_univ_succ]
  have ha : align (!![2, 0; -2, 0; 0, 1; 0, -1] : Matrix (Fin 4) (Fin 2) ℝ) (colMean !![2, 0; -2, 0; 0, 1; 0, -1]) =
      !![2, 0; -2, 0; 0, 1; 0, -1] := by
    ext n d
    simp [align, hm]
  refine ⟨!![2, 0; -2, 0; 0, 1; 0, -1], ⟨fun i => Real.sqrt (if i = 0 then 8 else 2), 1⟩, ?_, by simp, ?_⟩
  · rw [ha]
    refine ⟨fun i _ => Real.sqrt_nonneg _, fun i j hij _ => Real.sqrt_le_sqrt ?_, by simp, ?_⟩
    · rcases Nat.eq_zero_or_pos i with rfl | hi
      · simp only [if_true]
        split <;> norm_num
      · rw [if_neg (by omega), if_neg (by omega)]
    · ext i j
      fin_cases i <;> fin_cases j <;> norm_num [Matrix.mul_apply, Fin.sum_univ_succ, padded, Matrix.diagonal]
  · intro i _
    simp only
    split <;> norm_num

/-! ### A counterexample for every decomposition -/

/-- Three uncorrelated features with the variances 1/3, 3 and 4/3. -/
def X6 : Matrix (Fin 6) (Fin 3) ℝ := !![1, 0, 0; -1, 0, 0; 0, 3, 0; 0, -3, 0; 0, 0, 2; 0, 0, -2]

theorem X6_mean : colMean X6 = 0 := by
  funext d
  fin_cases d <;> simp [colMean, X6, Fin.sum_univ_succ]

theorem X6_align : align X6 (colMean X6) = X6 := by
  ext n d
  simp [align, X6_mean]

theorem X6_gram : X6ᵀ * X6 = diagonal ![2, 18, 8] := by
  ext i j
  fin_cases i <;> fin_cases j <;> norm_num [X6, Matrix.mul_apply, Fin.sum_univ_succ, Matrix.diagonal]

theorem X6_vectors (r : SVD 3) (h : IsSVD X6 r) : r.V 0 0 = 0 ∧ r.V 0 1 = 0 ∧ r.V 0 2 ^ 2 = 1 ∧ r.S 0 ^ 2 = 18 := by
  have hd := h.diagonalises
  rw [X6_gram] at hd
  have hcomm : diagonal ![2, 18, 8] * r.V = r.V * diagonal (fun j => padded 6 r.S j ^ 2) := by
    rw [hd, Matrix.mul_assoc, mul_eq_one_comm.1 h.orthogonal, Matrix.mul_one]
  have hent : ∀ i j : Fin 3, (![2, 18, 8] i - r.S j ^ 2) * r.V i j = 0 := by
    intro i j
    have := congrFun (congrFun hcomm i) j
    rw [Matrix.diagonal_mul, Matrix.mul_diagonal] at this
    have hj : padded 6 r.S j = r.S j := by
      simp [padded]
    rw [hj] at this
    rw [sub_mul, this]
    ring
  have hrow : ∀ i : Fin 3, r.V i 0 ^ 2 + r.V i 1 ^ 2 + r.V i 2 ^ 2 = 1 := by
    intro i
    have := congrFun (congrFun h.orthogonal i) i
    simp only [Matrix.mul_apply, Matrix.transpose_apply, Fin.sum_univ_three, Matrix.one_apply_eq] at this
    rw [← this]
    ring
  have hex : ∀ i : Fin 3, ∃ j : Fin 3, r.S j ^ 2 = ![2, 18, 8] i := by
    intro i
    by_contra hne
    push Not at hne
    have hz : ∀ j, r.V i j = 0 := by
      intro j
      rcases mul_eq_zero.1 (hent i j) with h' | h'
      · exact absurd (sub_eq_zero.1 h').symm (hne j)
      · exact h'
    have := hrow i
    rw [hz 0, hz 1, hz 2] at this
    norm_num at this
  have hsort : ∀ i j : Fin 3, i ≤ j → r.S j ^ 2 ≤ r.S i ^ 2 := by
    intro i j hij
    have h1 := h.sorted i j hij j.2
    have h2 := h.nonneg j j.2
    gcongr
  have s01 : r.S 1 ^ 2 ≤ r.S 0 ^ 2 := hsort 0 1 (by decide)
  have s12 : r.S 2 ^ 2 ≤ r.S 1 ^ 2 := hsort 1 2 (by decide)
  obtain ⟨a, ha⟩ := hex 0
  obtain ⟨b, hb⟩ := hex 1
  obtain ⟨c, hc⟩ := hex 2
  have hS : r.S 0 ^ 2 = 18 ∧ r.S 1 ^ 2 = 8 ∧ r.S 2 ^ 2 = 2 := by
    fin_cases a <;> fin_cases b <;> fin_cases c <;> simp at ha hb hc <;>
      first
        | (exfalso; linarith)
        | exact ⟨ha, hb, hc⟩
        | exact ⟨hb, hc, ha⟩
  have e0 : (![2, 18, 8] 0 - r.S 0 ^ 2) * r.V 0 0 = 0 := hent 0 0
  have e1 : (![2, 18, 8] 0 - r.S 1 ^ 2) * r.V 0 1 = 0 := hent 0 1
  have hr := hrow 0
  rw [hS.1] at e0
  rw [hS.2.1] at e1
  simp only [Matrix.cons_val_zero] at e0 e1
  have v0 : r.V 0 0 = 0 := by linarith
  have v1 : r.V 0 1 = 0 := by linarith
  refine ⟨v0, v1, ?_, hS.1⟩
  rw [v0, v1] at hr
  linarith

/-- **C55 is false**: there is a data matrix of full rank for which PCA does not whiten, whatever correct decomposition is used:
the first component obtains the variance 4/9. -/
theorem pca_whiten_fails (svd : Matrix (Fin 6) (Fin 3) ℝ → SVD 3) (junk : ℕ → ℝ) (h : IsSVD X6 (svd X6)) :
    ∃ p, ∃ Y : Matrix (Fin 6) (Fin 3) ℝ, pcaFit true svd junk X6 = ok p ∧ pcaTransform 3 (some p) X6 = ok Y ∧
      cov 6 Y 0 0 = 4 / 9 := by
  obtain ⟨p, h1, h2⟩ := pca_apply (N := 6) (D := 3) (components := 3) (by decide) (by decide) (le_refl _) true svd junk X6
  refine ⟨p, _, h1, h2, ?_⟩
  rw [cov_submatrix _ _ (by decide), X6_align, cov_align, X6_align, X6_gram]
  obtain ⟨v0, v1, v2, hS⟩ := X6_vectors _ h
  generalize svd X6 = r at v0 v1 v2 hS
  have hsq : Real.sqrt 6 ^ 2 = 6 := Real.sq_sqrt (by norm_num)
  have hne : r.S 0 ≠ 0 := by
    intro h0
    rw [h0] at hS
    norm_num at hS
  simp only [Matrix.submatrix_apply, Matrix.mul_apply, Fin.sum_univ_three, Matrix.transpose_apply, Matrix.smul_apply,
    Matrix.diagonal_apply, pcaW, if_true, smul_eq_mul]
  simp [v0, v1]
  have : Real.sqrt 6 ≠ 0 := by
    intro h0
    rw [h0] at hsq
    norm_num at hsq
  field_simp
  rw [hsq, v2, hS]
  norm_num

/-- **C55**: also without whitening the first component is not the one with the largest variance: its variance is not the reported
share of the sum of all variances. -/
theorem pca_first_component_fails (svd : Matrix (Fin 6) (Fin 3) ℝ → SVD 3) (junk : ℕ → ℝ) (h : IsSVD X6 (svd X6)) :
    ∃ p, ∃ Y : Matrix (Fin 6) (Fin 3) ℝ, pcaFit false svd junk X6 = ok p ∧ pcaTransform 3 (some p) X6 = ok Y ∧
      cov 6 Y 0 0 = 4 / 3 ∧ p.evr 0 * (cov 6 X6).trace = 3 := by
  obtain ⟨p, h1, h2⟩ := pca_apply (N := 6) (D := 3) (components := 3) (by decide) (by decide) (le_refl _) false svd junk X6
  obtain ⟨v0, v1, v2, hS⟩ := X6_vectors _ h
  have htr : (cov 6 X6).trace = 14 / 3 := by
    rw [cov_align, X6_align, X6_gram]
    simp [Matrix.trace, Fin.sum_univ_three]
    norm_num
  refine ⟨p, _, h1, h2, ?_, ?_⟩
  · rw [cov_submatrix _ _ (by decide), X6_align, cov_align, X6_align, X6_gram]
    generalize svd X6 = r at v0 v1 v2 hS
    simp only [Matrix.submatrix_apply, Matrix.mul_apply, Fin.sum_univ_three, Matrix.transpose_apply, Matrix.smul_apply,
      Matrix.diagonal_apply, pcaW, smul_eq_mul]
    simp [v0, v1]
    have : r.V 0 2 * (6⁻¹ * 8) * r.V 0 2 = 6⁻¹ * 8 * r.V 0 2 ^ 2 := by ring
    rw [this, v2]
    norm_num
  · have := (pca_ratios false svd junk X6 (by rw [X6_align]; exact h) (by
      have : ((6 : ℕ) : ℝ) = 6 := by norm_num
      rw [this, htr]; norm_num) p h1).2.2.2 0 (by decide)
    rw [X6_align] at this
    rw [hS] at this
    norm_num at this
    rw [this]

/-- There are correct decompositions of this data. -/
example : ∃ r : SVD 3, IsSVD X6 r := by
  refine ⟨⟨fun i => [Real.sqrt 18, Real.sqrt 8, Real.sqrt 2].getD i 0, !![0, 0, 1; 1, 0, 0; 0, 1, 0]⟩, ?_, ?_, ?_, ?_⟩
  · intro i hi
    have : i < 3 := hi
    interval_cases i <;> simp
  · intro i j hij hj
    have : j < 3 := hj
    have h1 : Real.sqrt 8 ≤ Real.sqrt 18 := Real.sqrt_le_sqrt (by norm_num)
    have h2 : Real.sqrt 2 ≤ Real.sqrt 8 := Real.sqrt_le_sqrt (by norm_num)
    interval_cases j <;> interval_cases i <;> simp <;> linarith
  · ext i j
    fin_cases i <;> fin_cases j <;> simp [Matrix.mul_apply, Fin.sum_univ_three]
  · rw [X6_gram]
    ext i j
    fin_cases i <;> fin_cases j <;> simp [Matrix.mul_apply, Matrix.diagonal, padded, vecHead, vecTail]

/-- Whitening less instances than features violates an assertion. -/
theorem pca_short_ub {N D : ℕ} (svd : Matrix (Fin N) (Fin D) ℝ → SVD D) (junk : ℕ → ℝ) (X : Matrix (Fin N) (Fin D) ℝ)
    (h : N < D) : pcaFit true svd junk X = ub := by
  unfold pcaFit
  simp only
  rw [if_pos trivial, whitenRows, if_neg (by omega)]
  rfl

/-- Data of another size or calls before `fit` are refused. -/
theorem pca_refuses {D D' M components : ℕ} (p : Fitted D) (X : Matrix (Fin M) (Fin D') ℝ) :
    pcaTransform components (none : Option (Fitted D)) X = checkFailed ∧
      (D' ≠ D → pcaTransform components (some p) X = checkFailed) := by
  refine ⟨rfl, fun h => ?_⟩
  simp only [pcaTransform, dif_neg h, ite_self]

/-! ## ZCA whitening -/

/-- A symmetric, positive semidefinite root of a diagonal matrix is diagonal. -/
theorem psd_root_unique {D : ℕ} (M : Matrix (Fin D) (Fin D) ℝ) (hM : Mᵀ = M) (hpos : ∀ x, 0 ≤ x ⬝ᵥ (M *ᵥ x)) (s : Fin D → ℝ)
    (hs : ∀ i, 0 ≤ s i) (h : M * M = diagonal fun i => s i ^ 2) : M = diagonal s := by
  have hcomm : M * diagonal s = diagonal s * M := by
    have h1 : M * (M * M) = (M * M) * M := (Matrix.mul_assoc _ _ _).symm
    rw [h] at h1
    ext i j
    have h2 := congrFun (congrFun h1 i) j
    rw [Matrix.mul_diagonal, Matrix.diagonal_mul] at h2 ⊢
    have h3 : M i j * ((s j - s i) * (s j + s i)) = 0 := by linear_combination h2
    rcases mul_eq_zero.1 h3 with h4 | h4
    · rw [h4]; ring
    · rcases mul_eq_zero.1 h4 with h5 | h5
      · rw [show s j = s i by linarith]; ring
      · have := hs i
        have := hs j
        rw [show s i = 0 by linarith, show s j = 0 by linarith]; ring
  have hR : (M + diagonal s) * (M - diagonal s) = 0 := by
    rw [Matrix.add_mul, Matrix.mul_sub, Matrix.mul_sub, h, hcomm, Matrix.diagonal_mul_diagonal]
    have : (fun i => s i ^ 2) = fun i => s i * s i := by funext i; ring
    rw [this]
    abel
  have hcol : ∀ j, (M - diagonal s) *ᵥ ((M - diagonal s) *ᵥ Pi.single j 1) = 0 := by
    intro j
    have hr0 : (M + diagonal s) *ᵥ ((M - diagonal s) *ᵥ Pi.single j 1) = 0 := by
      rw [Matrix.mulVec_mulVec, hR, Matrix.zero_mulVec]
    generalize (M - diagonal s) *ᵥ Pi.single j 1 = r at hr0
    have hsum : r ⬝ᵥ (M *ᵥ r) + r ⬝ᵥ (diagonal s *ᵥ r) = 0 := by
      rw [← dotProduct_add, ← Matrix.add_mulVec, hr0, dotProduct_zero]
    have hd : r ⬝ᵥ (diagonal s *ᵥ r) = ∑ i, s i * r i ^ 2 := by
      simp only [dotProduct, Matrix.mulVec_diagonal]
      exact Finset.sum_congr rfl fun i _ => by ring
    have hdn : ∀ i ∈ Finset.univ, 0 ≤ s i * r i ^ 2 := fun i _ => mul_nonneg (hs i) (sq_nonneg _)
    have hd0 : ∑ i, s i * r i ^ 2 = 0 := by
      have h1 := hpos r
      have h2 := Finset.sum_nonneg hdn
      rw [hd] at hsum
      linarith
    have hz : diagonal s *ᵥ r = 0 := by
      funext i
      have := (Finset.sum_eq_zero_iff_of_nonneg hdn).1 hd0 i (Finset.mem_univ i)
      rw [Matrix.mulVec_diagonal]
      rcases mul_eq_zero.1 this with h1 | h1
      · rw [h1, zero_mul]; rfl
      · rw [pow_eq_zero_iff (by decide)] at h1
        rw [h1, mul_zero]; rfl
    rw [Matrix.add_mulVec, hz, add_zero] at hr0
    rw [Matrix.sub_mulVec, hr0, hz, sub_zero]
  have hsq : (M - diagonal s)ᵀ * (M - diagonal s) = 0 := by
    have hT : (M - diagonal s)ᵀ = M - diagonal s := by rw [Matrix.transpose_sub, hM, Matrix.diagonal_transpose]
    rw [hT]
    ext i j
    have := congrFun (hcol j) i
    rw [Matrix.mulVec_mulVec, Matrix.mulVec_single_one] at this
    exact this
  refine sub_eq_zero.1 ?_
  ext i j
  have := congrFun (congrFun hsq j) j
  simp only [Matrix.mul_apply, Matrix.transpose_apply, Matrix.zero_apply] at this
  have h0 := (Finset.sum_eq_zero_iff_of_nonneg fun k _ => mul_self_nonneg _).1 this i (Finset.mem_univ i)
  exact mul_self_eq_zero.1 h0

theorem zcaCov_eq {N D : ℕ} (X : Matrix (Fin N) (Fin D) ℝ) : zcaCov X = cov ((N : ℝ) - 1) X := by
  rw [cov_align]
  rfl

/-- The decomposition of the covariance matrix: its singular vectors are its eigenvectors. -/
theorem zca_eigen {N D : ℕ} (X : Matrix (Fin N) (Fin D) ℝ) (hN : 1 < N) (r : SVD D) (h : IsSVD (zcaCov X) r) :
    zcaCov X = r.V * diagonal (fun j : Fin D => r.S j) * r.Vᵀ := by
  have hk : (0 : ℝ) < 1 / ((N : ℝ) - 1) := by
    have : (1 : ℝ) < N := by exact_mod_cast hN
    exact one_div_pos.2 (by linarith)
  have hsym : (zcaCov X)ᵀ = zcaCov X := by
    unfold zcaCov
    rw [Matrix.transpose_smul, Matrix.transpose_mul, Matrix.transpose_transpose]
  have hVV : r.Vᵀ * r.V = 1 := mul_eq_one_comm.1 h.orthogonal
  have hpad : ∀ j : Fin D, padded D r.S j = r.S j := fun j => by simp [padded]
  have hM := psd_root_unique (r.Vᵀ * zcaCov X * r.V) (by
      rw [Matrix.transpose_mul, Matrix.transpose_mul, Matrix.transpose_transpose, hsym, Matrix.mul_assoc])
    (fun x => by
      have : r.Vᵀ * zcaCov X * r.V = (1 / ((N : ℝ) - 1)) • ((align X (colMean X) * r.V)ᵀ * (align X (colMean X) * r.V)) := by
        unfold zcaCov
        simp only [Matrix.mul_smul, Matrix.smul_mul, Matrix.transpose_mul, Matrix.mul_assoc]
      rw [this, Matrix.smul_mulVec, dotProduct_smul, ← Matrix.mulVec_mulVec, Matrix.dotProduct_mulVec, Matrix.vecMul_transpose]
      exact mul_nonneg hk.le (Finset.sum_nonneg fun i _ => mul_self_nonneg _))
    (fun j => r.S j) (fun i => h.nonneg i (by simp)) (by
      have hd := h.diagonalises
      rw [hsym] at hd
      simp only [hpad] at hd
      calc r.Vᵀ * zcaCov X * r.V * (r.Vᵀ * zcaCov X * r.V) = r.Vᵀ * zcaCov X * (r.V * r.Vᵀ) * zcaCov X * r.V := by
            simp only [Matrix.mul_assoc]
        _ = r.Vᵀ * (zcaCov X * zcaCov X) * r.V := by rw [h.orthogonal, Matrix.mul_one, Matrix.mul_assoc r.Vᵀ]
        _ = (r.Vᵀ * r.V) * diagonal (fun j : Fin D => r.S j ^ 2) * (r.Vᵀ * r.V) := by rw [hd]; simp only [Matrix.mul_assoc]
        _ = _ := by rw [hVV, Matrix.one_mul, Matrix.mul_one])
  calc zcaCov X = (r.V * r.Vᵀ) * zcaCov X * (r.V * r.Vᵀ) := by rw [h.orthogonal, Matrix.one_mul, Matrix.mul_one]
    _ = r.V * (r.Vᵀ * zcaCov X * r.V) * r.Vᵀ := by simp only [Matrix.mul_assoc]
    _ = _ := by rw [hM]

theorem zcaTransform_ok {D M : ℕ} (p : Zca D) (X : Matrix (Fin M) (Fin D) ℝ) (hD : 0 < D) :
    zcaTransform (some p) X = ok (align X p.mean * p.Wᵀ) := by
  simp only [zcaTransform, if_pos hD]
  rfl

/-- **C55 (partial)**: the training data is mapped to data with mean zero, and a covariance matrix with the same eigenvectors as
before; the eigenvalue `s` becomes `s / (s + 1e-5)`.  Missing: this is not one (`zca_identity_fails`). -/
theorem zca_cov_partial {N D : ℕ} (svd : Matrix (Fin D) (Fin D) ℝ → SVD D) (X : Matrix (Fin N) (Fin D) ℝ) (hD : 0 < D)
    (hN : 1 < N) (h : IsSVD (zcaCov X) (svd (zcaCov X))) :
    ∃ Y, zcaTransform (some (zcaFit svd X)) X = ok Y ∧ (∀ j, mean Y j = 0) ∧
      ∃ (V : Matrix (Fin D) (Fin D) ℝ) (s : Fin D → ℝ), V * Vᵀ = 1 ∧ (∀ i, 0 ≤ s i) ∧
        cov ((N : ℝ) - 1) X = V * diagonal s * Vᵀ ∧
        cov ((N : ℝ) - 1) Y = V * diagonal (fun i => s i / (s i + 1e-5)) * Vᵀ := by
  refine ⟨_, zcaTransform_ok _ X hD, fun j => ?_, (svd (zcaCov X)).V, fun i => (svd (zcaCov X)).S i, h.orthogonal,
    fun i => h.nonneg i (by simp), ?_, ?_⟩
  · have : (zcaFit svd X).mean = colMean X := rfl
    rw [this, mean, mul_sum_zero _ _ (align_sum X (by omega)), zero_div]
  · rw [← zcaCov_eq, ← zca_eigen X hN _ h]
  · have hm : (zcaFit svd X).mean = colMean X := rfl
    have he := zca_eigen X hN _ h
    have hW : (zcaFit svd X).W = (svd (zcaCov X)).V * diagonal (fun j : Fin D => 1 / Real.sqrt ((svd (zcaCov X)).S j + 1e-5)) *
        (svd (zcaCov X)).Vᵀ := by
      simp only [zcaFit]
      congr 1
      ext i d
      rw [Matrix.mul_diagonal, Matrix.of_apply, mul_one_div]
    rw [hm, cov_linear _ X (by omega), Matrix.transpose_transpose, ← zcaCov_eq, hW]
    have hnn : ∀ i : Fin D, 0 ≤ (svd (zcaCov X)).S i := fun i => h.nonneg i (by simp)
    have hVV : (svd (zcaCov X)).Vᵀ * (svd (zcaCov X)).V = 1 := mul_eq_one_comm.1 h.orthogonal
    generalize svd (zcaCov X) = r at he hnn hVV
    rw [he, Matrix.transpose_mul, Matrix.transpose_mul, Matrix.transpose_transpose, Matrix.diagonal_transpose]
    calc r.V * diagonal (fun j : Fin D => 1 / Real.sqrt (r.S j + 1e-5)) * r.Vᵀ * (r.V * diagonal (fun j : Fin D => r.S j) * r.Vᵀ) *
          (r.V * (diagonal (fun j : Fin D => 1 / Real.sqrt (r.S j + 1e-5)) * r.Vᵀ))
        = r.V * diagonal (fun j : Fin D => 1 / Real.sqrt (r.S j + 1e-5)) * (r.Vᵀ * r.V) * diagonal (fun j : Fin D => r.S j) * (r.Vᵀ * r.V) *
          diagonal (fun j : Fin D => 1 / Real.sqrt (r.S j + 1e-5)) * r.Vᵀ := by simp only [Matrix.mul_assoc]
      _ = _ := by
        rw [hVV, Matrix.mul_one, Matrix.mul_one, Matrix.mul_assoc r.V, Matrix.mul_assoc r.V, Matrix.diagonal_mul_diagonal,
          Matrix.diagonal_mul_diagonal]
        congr 3
        funext i
        have hp : 0 < r.S i + 1e-5 := by have := hnn i; norm_num; linarith
        have hsq : Real.sqrt (r.S i + 1e-5) * Real.sqrt (r.S i + 1e-5) = r.S i + 1e-5 := Real.mul_self_sqrt hp.le
        have : 1 / Real.sqrt (r.S i + 1e-5) * r.S i * (1 / Real.sqrt (r.S i + 1e-5)) =
            r.S i / (Real.sqrt (r.S i + 1e-5) * Real.sqrt (r.S i + 1e-5)) := by
          rw [div_mul_eq_mul_div, one_mul, div_mul_div_comm, mul_one]
        rw [this, hsq]

/-- **C55 (partial)**: if all eigenvalues of the covariance are at least `t`, then the new covariance is close to the identity. -/
theorem zca_close_partial {N D : ℕ} (svd : Matrix (Fin D) (Fin D) ℝ → SVD D) (X : Matrix (Fin N) (Fin D) ℝ) (hD : 0 < D)
    (hN : 1 < N) (h : IsSVD (zcaCov X) (svd (zcaCov X))) (t : ℝ) (ht : 0 < t)
    (hx : ∀ x : Fin D → ℝ, t * (x ⬝ᵥ x) ≤ x ⬝ᵥ (cov ((N : ℝ) - 1) X *ᵥ x)) :
    ∃ Y, zcaTransform (some (zcaFit svd X)) X = ok Y ∧
      ∀ i j, |cov ((N : ℝ) - 1) Y i j - (1 : Matrix (Fin D) (Fin D) ℝ) i j| ≤ 1e-5 / (t + 1e-5) := by
  obtain ⟨Y, hY, _, V, s, hV, hs, hX, hC⟩ := zca_cov_partial svd X hD hN h
  refine ⟨Y, hY, fun i j => ?_⟩
  have hVV : Vᵀ * V = 1 := mul_eq_one_comm.1 hV
  have hst : ∀ k, t ≤ s k := by
    intro k
    have h1 := hx (V *ᵥ Pi.single k 1)
    have hq : ∀ x y : Fin D → ℝ, (V *ᵥ x) ⬝ᵥ (V *ᵥ y) = x ⬝ᵥ y := by
      intro x y
      rw [Matrix.dotProduct_mulVec, ← Matrix.mulVec_transpose, Matrix.mulVec_mulVec, hVV, Matrix.one_mulVec]
    rw [hX, Matrix.mulVec_mulVec, Matrix.mul_assoc, hVV, Matrix.mul_one, ← Matrix.mulVec_mulVec, hq, hq] at h1
    simpa using h1
  have e : cov ((N : ℝ) - 1) Y i j - (1 : Matrix (Fin D) (Fin D) ℝ) i j = ∑ k, V i k * V j k * (s k / (s k + 1e-5) - 1) := by
    rw [hC, ← hV, Matrix.mul_apply, Matrix.mul_apply, ← Finset.sum_sub_distrib]
    refine Finset.sum_congr rfl fun k _ => ?_
    rw [Matrix.mul_diagonal, Matrix.transpose_apply]
    ring
  rw [e]
  have hrow : ∀ i, ∑ k, V i k ^ 2 = 1 := by
    intro i
    have := congrFun (congrFun hV i) i
    simp only [Matrix.mul_apply, Matrix.transpose_apply, Matrix.one_apply_eq] at this
    rw [← this]
    exact Finset.sum_congr rfl fun k _ => by ring
  have hbound : ∀ k, |s k / (s k + 1e-5) - 1| ≤ 1e-5 / (t + 1e-5) := by
    intro k
    have h1 := hst k
    have hp : (0 : ℝ) < s k + 1e-5 := by norm_num; linarith
    have hq : (0 : ℝ) < t + 1e-5 := by norm_num; linarith
    have : s k / (s k + 1e-5) - 1 = -(1e-5 / (s k + 1e-5)) := by field_simp; ring
    rw [this, abs_neg, abs_of_pos (div_pos (by norm_num) hp)]
    exact div_le_div_of_nonneg_left (by norm_num) hq (by linarith)
  have hδ : (0 : ℝ) ≤ 1e-5 / (t + 1e-5) := le_trans (abs_nonneg _) (hbound i)
  calc |∑ k, V i k * V j k * (s k / (s k + 1e-5) - 1)| ≤ ∑ k, |V i k * V j k * (s k / (s k + 1e-5) - 1)| :=
        Finset.abs_sum_le_sum_abs _ _
    _ ≤ ∑ k, (V i k ^ 2 + V j k ^ 2) / 2 * (1e-5 / (t + 1e-5)) := by
        refine Finset.sum_le_sum fun k _ => ?_
        rw [abs_mul]
        refine mul_le_mul ?_ (hbound k) (abs_nonneg _) (by positivity)
        rw [abs_le]
        constructor
        · nlinarith [sq_nonneg (V i k + V j k)]
        · nlinarith [sq_nonneg (V i k - V j k)]
    _ = 1e-5 / (t + 1e-5) := by
        rw [← Finset.sum_mul, ← Finset.sum_div, Finset.sum_add_distrib, hrow i, hrow j]
        ring

/-- **C55 is false** for ZCA whitening: the covariance is never the identity. -/
theorem zca_identity_fails {N D : ℕ} (svd : Matrix (Fin D) (Fin D) ℝ → SVD D) (X : Matrix (Fin N) (Fin D) ℝ) (hD : 0 < D)
    (hN : 1 < N) (h : IsSVD (zcaCov X) (svd (zcaCov X))) :
    ∃ Y, zcaTransform (some (zcaFit svd X)) X = ok Y ∧ cov ((N : ℝ) - 1) Y ≠ 1 := by
  obtain ⟨Y, hY, _, V, s, hV, hs, _, hC⟩ := zca_cov_partial svd X hD hN h
  refine ⟨Y, hY, fun h1 => ?_⟩
  rw [hC] at h1
  have htr := congrArg Matrix.trace h1
  rw [Matrix.trace_mul_cycle, mul_eq_one_comm.1 hV, one_mul, Matrix.trace_diagonal, Matrix.trace_one, Fintype.card_fin] at htr
  have : ∑ i, s i / (s i + 1e-5) < ∑ _i : Fin D, (1 : ℝ) := by
    refine Finset.sum_lt_sum_of_nonempty ⟨⟨0, hD⟩, Finset.mem_univ _⟩ fun i _ => ?_
    have hp : (0 : ℝ) < s i + 1e-5 := by have := hs i; norm_num; linarith
    rw [div_lt_one hp]
    norm_num
  simp at this
  linarith

/-- Data of another size or calls before `fit` are refused. -/
theorem zca_refuses {D D' M : ℕ} (p : Zca D) (X : Matrix (Fin M) (Fin D') ℝ) :
    zcaTransform (none : Option (Zca D)) X = checkFailed ∧ (D' ≠ D → zcaTransform (some p) X = checkFailed) := by
  refine ⟨rfl, fun h => ?_⟩
  simp only [zcaTransform, dif_neg h, ite_self]

/-- Two instances with one feature: a correct decomposition exists. -/
example : ∃ (svd : Matrix (Fin 1) (Fin 1) ℝ → SVD 1) (X : Matrix (Fin 2) (Fin 1) ℝ), IsSVD (zcaCov X) (svd (zcaCov X)) ∧ zcaCov X = !![2] := by
  have e : zcaCov (!![1; -1] : Matrix (Fin 2) (Fin 1) ℝ) = !![2] := by
    ext i j
    fin_cases i
    fin_cases j
    norm_num [zcaCov, align, colMean, Matrix.mul_apply, Fin.sum_univ_two]
  refine ⟨fun _ => ⟨fun _ => 2, 1⟩, !![1; -1], ?_, e⟩
  rw [e]
  refine ⟨fun _ _ => by norm_num, fun _ _ _ _ => le_refl _, by simp, ?_⟩
  ext i j
  fin_cases i
  fin_cases j
  norm_num [Matrix.mul_apply, padded]

end

end Verif.White
