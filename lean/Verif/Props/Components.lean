import Verif.Props.Whitening
import Mathlib.Order.Bounds.Basic

/-!
# C121: principal components keep as much variance as possible, ZCA whitening changes the data as little as possible
-/

namespace Verif.White

open Outcome Matrix

noncomputable section

/-! ## Projections -/

theorem mean_mul {N D k : ℕ} (X : Matrix (Fin N) (Fin D) ℝ) (B : Matrix (Fin D) (Fin k) ℝ) (j : Fin k) :
    mean (X * B) j = ∑ d, mean X d * B d j := by
  simp only [mean, Matrix.mul_apply]
  rw [Finset.sum_comm, Finset.sum_div]
  refine Finset.sum_congr rfl fun d _ => ?_
  rw [← Finset.sum_mul, div_mul_eq_mul_div]

/-- The covariance of projected data. -/
theorem cov_mul {N D k : ℕ} (c : ℝ) (X : Matrix (Fin N) (Fin D) ℝ) (B : Matrix (Fin D) (Fin k) ℝ) :
    cov c (X * B) = Bᵀ * cov c X * B := by
  have e : align (X * B) (colMean (X * B)) = align X (colMean X) * B := by
    ext n j
    have := mean_mul X B j
    simp only [align, Matrix.mul_apply, sub_mul, Finset.sum_sub_distrib]
    congr 1
  rw [cov_align, e, cov_align, Matrix.transpose_mul]
  simp only [Matrix.mul_smul, Matrix.smul_mul, Matrix.mul_assoc]

/-- The diagonal of `Q Qᵀ` lies between 0 and 1 if the columns of `Q` are orthonormal. -/
theorem diag_bounds {D k : ℕ} (Q : Matrix (Fin D) (Fin k) ℝ) (hQ : Qᵀ * Q = 1) (i : Fin D) :
    0 ≤ (Q * Qᵀ) i i ∧ (Q * Qᵀ) i i ≤ 1 := by
  have hP : (Q * Qᵀ) * (Q * Qᵀ) = Q * Qᵀ := by
    rw [Matrix.mul_assoc, ← Matrix.mul_assoc Qᵀ, hQ, Matrix.one_mul]
  have hT : (Q * Qᵀ)ᵀ = Q * Qᵀ := by rw [Matrix.transpose_mul, Matrix.transpose_transpose]
  generalize Q * Qᵀ = P at hP hT
  have h1 : P i i = ∑ j, P i j ^ 2 := by
    have := congrFun (congrFun hP i) i
    rw [Matrix.mul_apply] at this
    rw [← this]
    refine Finset.sum_congr rfl fun j _ => ?_
    have : P j i = P i j := congrFun (congrFun hT i) j
    rw [this, sq]
  have h2 : P i i ^ 2 ≤ ∑ j, P i j ^ 2 := Finset.single_le_sum (f := fun j => P i j ^ 2) (fun _ _ => sq_nonneg _) (Finset.mem_univ i)
  have h3 : 0 ≤ P i i := by rw [h1]; exact Finset.sum_nonneg fun _ _ => sq_nonneg _
  refine ⟨h3, ?_⟩
  by_contra hc
  push Not at hc
  nlinarith

/-- The variances along the principal components. -/
def variances {D : ℕ} (N : ℕ) (r : SVD D) (i : ℕ) : ℝ := if i < min N D then r.S i ^ 2 / N else 0

theorem cov_svd {N D : ℕ} (X : Matrix (Fin N) (Fin D) ℝ) (r : SVD D) (h : IsSVD (align X (colMean X)) r) :
    cov N X = r.V * diagonal (fun j : Fin D => variances N r j) * r.Vᵀ := by
  rw [cov_align, h.diagonalises, ← Matrix.smul_mul, ← Matrix.mul_smul, ← Matrix.diagonal_smul]
  congr 3
  funext j
  simp only [Pi.smul_apply, smul_eq_mul, padded, variances]
  split_ifs
  · ring
  · simp

theorem variances_sorted {N D : ℕ} {A : Matrix (Fin N) (Fin D) ℝ} {r : SVD D} (h : IsSVD A r) {i j : ℕ} (hij : i ≤ j) :
    variances N r j ≤ variances N r i := by
  unfold variances
  split_ifs with h1 h2
  · have h3 := h.sorted i j hij h1
    have h4 := h.nonneg j h1
    gcongr
  · omega
  · positivity
  · rfl

/-- The variance that is left after a projection is a mean of the variances of the components. -/
theorem kept_eq_sum {N D k : ℕ} (X : Matrix (Fin N) (Fin D) ℝ) (r : SVD D) (h : IsSVD (align X (colMean X)) r)
    (B : Matrix (Fin D) (Fin k) ℝ) :
    (cov N (X * B)).trace = ∑ i : Fin D, variances N r i * ((r.Vᵀ * B) * (r.Vᵀ * B)ᵀ) i i := by
  rw [cov_mul, cov_svd X r h]
  have e : Bᵀ * (r.V * diagonal (fun j : Fin D => variances N r j) * r.Vᵀ) * B =
      (r.Vᵀ * B)ᵀ * (diagonal (fun j : Fin D => variances N r j) * (r.Vᵀ * B)) := by
    rw [Matrix.transpose_mul, Matrix.transpose_transpose]
    simp only [Matrix.mul_assoc]
  rw [e, Matrix.trace_mul_comm, Matrix.mul_assoc, Matrix.trace]
  refine Finset.sum_congr rfl fun i _ => ?_
  rw [Matrix.diag_apply, Matrix.diagonal_mul]

/-- **C121 (bound).** No projection on `k` orthonormal directions keeps more variance than the first `k` components. -/
theorem kept_le {N D k : ℕ} (X : Matrix (Fin N) (Fin D) ℝ) (r : SVD D) (h : IsSVD (align X (colMean X)) r)
    (B : Matrix (Fin D) (Fin k) ℝ) (hB : Bᵀ * B = 1) :
    (cov N (X * B)).trace ≤ ∑ i ∈ Finset.range k, variances N r i := by
  have hQ : (r.Vᵀ * B)ᵀ * (r.Vᵀ * B) = 1 := by
    rw [Matrix.transpose_mul, Matrix.transpose_transpose, Matrix.mul_assoc, ← Matrix.mul_assoc r.V, h.orthogonal, Matrix.one_mul, hB]
  rw [kept_eq_sum X r h]
  have hp := diag_bounds _ hQ
  have hsum : ∑ i : Fin D, ((r.Vᵀ * B) * (r.Vᵀ * B)ᵀ) i i = k := by
    have := Matrix.trace_mul_comm (r.Vᵀ * B) (r.Vᵀ * B)ᵀ
    rw [hQ, Matrix.trace_one, Fintype.card_fin] at this
    exact this
  generalize hP : (fun i : Fin D => ((r.Vᵀ * B) * (r.Vᵀ * B)ᵀ) i i) = p at hp hsum
  have hp' : ∀ i, 0 ≤ p i ∧ p i ≤ 1 := fun i => by rw [← hP]; exact hp i
  have hs' : ∑ i, p i = k := hsum
  have hg : ∑ i : Fin D, variances N r i * ((r.Vᵀ * B) * (r.Vᵀ * B)ᵀ) i i = ∑ i : Fin D, variances N r i * p i := by rw [← hP]
  rw [hg]
  have hk : k ≤ D := by
    have : (k : ℝ) ≤ D := by
      rw [← hs']
      calc ∑ i, p i ≤ ∑ _i : Fin D, (1 : ℝ) := Finset.sum_le_sum fun i _ => (hp' i).2
        _ = D := by simp
    exact_mod_cast this
  have hr : ∑ i ∈ Finset.range k, variances N r i = ∑ i : Fin D, variances N r i * (if i.1 < k then 1 else 0) := by
    rw [Fin.sum_univ_eq_sum_range (fun i => variances N r i * (if i < k then 1 else 0)) D,
      ← Finset.sum_subset (Finset.range_mono hk)]
    · exact Finset.sum_congr rfl fun i hi => by rw [if_pos (Finset.mem_range.1 hi), mul_one]
    · intro i _ hi
      rw [if_neg (by simpa using hi), mul_zero]
  have hc : ∑ i : Fin D, (if i.1 < k then (1 : ℝ) else 0) = k := by
    rw [Fin.sum_univ_eq_sum_range (fun i => if i < k then (1 : ℝ) else 0) D, ← Finset.sum_subset (Finset.range_mono hk)]
    · rw [Finset.sum_congr rfl fun i hi => if_pos (Finset.mem_range.1 hi)]
      simp
    · intro i _ hi
      rw [if_neg (by simpa using hi)]
  rw [hr, ← sub_nonneg, ← Finset.sum_sub_distrib]
  have e : ∑ i : Fin D, (variances N r i * (if i.1 < k then 1 else 0) - variances N r i * p i) =
      ∑ i : Fin D, (variances N r i - variances N r (k - 1)) * ((if i.1 < k then 1 else 0) - p i) := by
    have : ∑ i : Fin D, variances N r (k - 1) * ((if i.1 < k then (1 : ℝ) else 0) - p i) = 0 := by
      rw [← Finset.mul_sum, Finset.sum_sub_distrib, hc, hs', sub_self, mul_zero]
    refine (sub_zero _).symm.trans ((congrArg _ this.symm).trans ?_)
    rw [← Finset.sum_sub_distrib]
    exact Finset.sum_congr rfl fun i _ => by ring
  rw [e]
  refine Finset.sum_nonneg fun i _ => ?_
  by_cases hi : i.1 < k
  · rw [if_pos hi]
    exact mul_nonneg (sub_nonneg.2 (variances_sorted h (by omega))) (sub_nonneg.2 (hp' i).2)
  · rw [if_neg hi]
    exact mul_nonneg_of_nonpos_of_nonpos (sub_nonpos.2 (variances_sorted h (by omega))) (by linarith [(hp' i).1])

/-- The first `k` columns of `V`. -/
def firstColumns {D k : ℕ} (r : SVD D) (hk : k ≤ D) : Matrix (Fin D) (Fin k) ℝ := r.V.submatrix id (Fin.castLE hk)

theorem firstColumns_orthonormal {N D k : ℕ} {A : Matrix (Fin N) (Fin D) ℝ} {r : SVD D} (h : IsSVD A r) (hk : k ≤ D) :
    (firstColumns r hk)ᵀ * firstColumns r hk = 1 := by
  have hVV : r.Vᵀ * r.V = 1 := mul_eq_one_comm.1 h.orthogonal
  ext i j
  have := congrFun (congrFun hVV (Fin.castLE hk i)) (Fin.castLE hk j)
  refine Eq.trans this ?_
  simp [Matrix.one_apply]

/-- The first columns of `V` keep this much. -/
theorem kept_columns {N D k : ℕ} (X : Matrix (Fin N) (Fin D) ℝ) (r : SVD D) (h : IsSVD (align X (colMean X)) r) (hk : k ≤ D) :
    (cov N (X * firstColumns r hk)).trace = ∑ i ∈ Finset.range k, variances N r i := by
  have hVV : r.Vᵀ * r.V = 1 := mul_eq_one_comm.1 h.orthogonal
  rw [cov_mul, cov_svd X r h, Matrix.trace, ← Fin.sum_univ_eq_sum_range]
  refine Finset.sum_congr rfl fun i _ => ?_
  have e : (firstColumns r hk)ᵀ * (r.V * diagonal (fun j : Fin D => variances N r j) * r.Vᵀ) * firstColumns r hk =
      ((r.Vᵀ * r.V) * diagonal (fun j : Fin D => variances N r j) * (r.Vᵀ * r.V)).submatrix (Fin.castLE hk) (Fin.castLE hk) := by
    have : (r.Vᵀ * r.V) * diagonal (fun j : Fin D => variances N r j) * (r.Vᵀ * r.V) =
        r.Vᵀ * (r.V * diagonal (fun j : Fin D => variances N r j) * r.Vᵀ) * r.V := by simp only [Matrix.mul_assoc]
    rw [this]
    rfl
  rw [e, hVV, Matrix.one_mul, Matrix.mul_one, Matrix.diag_apply, Matrix.submatrix_apply, Matrix.diagonal_apply_eq]
  rfl

/-- **C121 (explained variance).** What `explainedVarianceRatio` returns: the sum of the first `k` ratios is the largest part
of the variance that a projection on `k` orthonormal directions can keep. -/
theorem evr_optimal {N D k : ℕ} (whiten : Bool) (svd : Matrix (Fin N) (Fin D) ℝ → SVD D) (junk : ℕ → ℝ)
    (X : Matrix (Fin N) (Fin D) ℝ) (hs : IsSVD (align X (colMean X)) (svd (align X (colMean X)))) (hvar : (cov N X).trace ≠ 0)
    (p : Fitted D) (hp : pcaFit whiten svd junk X = ok p) (hk : k ≤ min N D) :
    IsGreatest {v | ∃ B : Matrix (Fin D) (Fin k) ℝ, Bᵀ * B = 1 ∧ v = (cov N (X * B)).trace / (cov N X).trace}
      (∑ i ∈ Finset.range k, p.evr i) := by
  have hr := (pca_ratios whiten svd junk X hs hvar p hp).2.2.2
  have hv : ∀ i < k, p.evr i = variances N (svd (align X (colMean X))) i / (cov N X).trace := by
    intro i hi
    rw [variances, if_pos (by omega), ← hr i (by omega), mul_div_assoc, div_self hvar, mul_one]
  have hsum : ∑ i ∈ Finset.range k, p.evr i =
      (∑ i ∈ Finset.range k, variances N (svd (align X (colMean X))) i) / (cov N X).trace := by
    rw [Finset.sum_div]
    exact Finset.sum_congr rfl fun i hi => hv i (Finset.mem_range.1 hi)
  have hpos : 0 < (cov N X).trace := by
    refine lt_of_le_of_ne ?_ (Ne.symm hvar)
    rw [total_variance X _ hs]
    exact Finset.sum_nonneg fun _ _ => sq_nonneg _
  rw [hsum]
  constructor
  · exact ⟨firstColumns _ (by omega), firstColumns_orthonormal hs _, by rw [kept_columns X _ hs]⟩
  · rintro v ⟨B, hB, rfl⟩
    exact div_le_div_of_nonneg_right (kept_le X _ hs B hB) hpos.le

/-! ## What `transform` keeps -/

/-- **C121 (transform), symmetric `V` only**: the transformed data have the largest variance that is possible.  Missing: `V` is
not symmetric in general, and then it is false (`pca_loses_fails`). -/
theorem pca_keeps_partial {N D components : ℕ} (svd : Matrix (Fin N) (Fin D) ℝ → SVD D) (junk : ℕ → ℝ)
    (X : Matrix (Fin N) (Fin D) ℝ) (hs : IsSVD (align X (colMean X)) (svd (align X (colMean X)))) (hD : 0 < D) (hN : D ≤ N)
    (hc : components ≤ D) (hsym : (svd (align X (colMean X))).Vᵀ = (svd (align X (colMean X))).V) :
    ∃ p Y, pcaFit false svd junk X = ok p ∧ pcaTransform components (some p) X = ok Y ∧
      ∀ B : Matrix (Fin D) (Fin components) ℝ, Bᵀ * B = 1 → (cov N (X * B)).trace ≤ (cov N Y).trace := by
  obtain ⟨p, h1, h2⟩ := pca_apply hD hN hc false svd junk X
  refine ⟨p, _, h1, h2, fun B hB => (kept_le X _ hs B hB).trans_eq ?_⟩
  rw [← kept_columns X _ hs hc, cov_linear _ X (by omega), cov_mul]
  congr 1
  have e : (Matrix.submatrix (pcaW N false (svd (align X (colMean X)))) (Fin.castLE hc) id)ᵀ =
      firstColumns (svd (align X (colMean X))) hc := by
    rw [show pcaW N false (svd (align X (colMean X))) = (svd (align X (colMean X))).V from rfl, ← hsym]
    rfl
  rw [e]

/-- A data matrix with variance in the first and third feature only. -/
def X4 : Matrix (Fin 4) (Fin 3) ℝ := !![1, 0, 0; -1, 0, 0; 0, 0, 2; 0, 0, -2]

theorem X4_align : align X4 (colMean X4) = X4 := by
  have : colMean X4 = 0 := by
    funext d
    fin_cases d <;> simp [colMean, X4, Fin.sum_univ_succ]
  ext n d
  simp [align, this]

theorem X4_gram : X4ᵀ * X4 = diagonal ![2, 0, 8] := by
  ext i j
  fin_cases i <;> fin_cases j <;> norm_num [X4, Matrix.mul_apply, Fin.sum_univ_succ, Matrix.diagonal]

theorem X4_vectors (r : SVD 3) (h : IsSVD X4 r) : r.V 0 0 = 0 ∧ r.V 0 2 = 0 ∧ r.S 0 ^ 2 = 8 ∧ r.S 1 ^ 2 = 2 ∧ r.S 2 ^ 2 = 0 := by
  have hd := h.diagonalises
  rw [X4_gram] at hd
  have hcomm : diagonal ![2, 0, 8] * r.V = r.V * diagonal (fun j => padded 4 r.S j ^ 2) := by
    rw [hd, Matrix.mul_assoc, mul_eq_one_comm.1 h.orthogonal, Matrix.mul_one]
  have hent : ∀ i j : Fin 3, (![2, 0, 8] i - r.S j ^ 2) * r.V i j = 0 := by
    intro i j
    have := congrFun (congrFun hcomm i) j
    rw [Matrix.diagonal_mul, Matrix.mul_diagonal] at this
    have hj : padded 4 r.S j = r.S j := by
      simp only [padded]
      exact if_pos (by omega)
    rw [hj] at this
    rw [sub_mul, this]
    ring
  have hrow : ∀ i : Fin 3, r.V i 0 ^ 2 + r.V i 1 ^ 2 + r.V i 2 ^ 2 = 1 := by
    intro i
    have := congrFun (congrFun h.orthogonal i) i
    simp only [Matrix.mul_apply, Matrix.transpose_apply, Fin.sum_univ_three, Matrix.one_apply_eq] at this
    rw [← this]
    ring
  have hex : ∀ i : Fin 3, ∃ j : Fin 3, r.S j ^ 2 = ![2, 0, 8] i := by
    intro i
    by_contra hne
    push Not at hne
    have hz : ∀ j, r.V i j = 0 := by
      intro j
      rcases mul_eq_zero.1 (hent i j) with h' | h'
      · exact absurd (sub_eq_zero.1 h').symm (hne j)
      · exact h'
    have := hrow i
    rw [hz 0, hz 1, hz 2] at this
    norm_num at this
  have hsort : ∀ i j : Fin 3, i ≤ j → r.S j ^ 2 ≤ r.S i ^ 2 := by
    intro i j hij
    have h1 := h.sorted i j hij (by omega)
    have h2 := h.nonneg j (by omega)
    gcongr
  have s01 : r.S 1 ^ 2 ≤ r.S 0 ^ 2 := hsort 0 1 (by decide)
  have s12 : r.S 2 ^ 2 ≤ r.S 1 ^ 2 := hsort 1 2 (by decide)
  obtain ⟨a, ha⟩ := hex 0
  obtain ⟨b, hb⟩ := hex 1
  obtain ⟨c, hc⟩ := hex 2
  have hS : r.S 0 ^ 2 = 8 ∧ r.S 1 ^ 2 = 2 ∧ r.S 2 ^ 2 = 0 := by
    have hb' : r.S b ^ 2 = 0 := hb
    clear hb
    fin_cases a <;> fin_cases b <;> fin_cases c <;> simp only [Matrix.cons_val] at ha hb' hc <;>
      first
        | (exfalso; linarith)
        | exact ⟨hc, ha, hb'⟩
  have e0 : (![2, 0, 8] 0 - r.S 0 ^ 2) * r.V 0 0 = 0 := hent 0 0
  have e2 : (![2, 0, 8] 0 - r.S 2 ^ 2) * r.V 0 2 = 0 := hent 0 2
  rw [hS.1] at e0
  rw [hS.2.2] at e2
  simp only [Matrix.cons_val_zero] at e0 e2
  exact ⟨by linarith, by linarith, hS⟩

/-- **C121 is false of `transform`**: for every correct decomposition, one component of this data set keeps nothing - all
instances are mapped to 0 - although `explainedVarianceRatio` says 4/5. -/
theorem pca_loses_fails (svd : Matrix (Fin 4) (Fin 3) ℝ → SVD 3) (junk : ℕ → ℝ) (h : IsSVD X4 (svd X4)) :
    ∃ p, pcaFit false svd junk X4 = ok p ∧ pcaTransform 1 (some p) X4 = ok 0 ∧ p.evr 0 = 4 / 5 := by
  obtain ⟨p, h1, h2⟩ := pca_apply (N := 4) (D := 3) (components := 1) (by decide) (by decide) (by decide) false svd junk X4
  obtain ⟨v0, v2, s0, s1, s2⟩ := X4_vectors _ h
  refine ⟨p, h1, ?_, ?_⟩
  · rw [h2, X4_align]
    congr 1
    ext n j
    have hj : j = 0 := Subsingleton.elim _ _
    subst hj
    rw [Matrix.mul_apply, Fin.sum_univ_three]
    show X4 n 0 * (svd X4).V 0 0 + X4 n 1 * (svd X4).V 0 1 + X4 n 2 * (svd X4).V 0 2 = 0
    rw [v0, v2, show X4 n 1 = 0 by fin_cases n <;> rfl]
    ring
  · have e : p.evr 0 = ((svd X4).S 0 / Real.sqrt (4 : ℕ)) ^ 2 / ∑ j ∈ Finset.range 3, ((svd X4).S j / Real.sqrt (4 : ℕ)) ^ 2 := by
      have h3 : pcaFit false svd junk X4 = ok ⟨colMean X4, (svd (align X4 (colMean X4))).V, fun i => if i < min 4 3 then
          ((svd (align X4 (colMean X4))).S i / Real.sqrt (4 : ℕ)) ^ 2 /
            ∑ j ∈ Finset.range (min 4 3), ((svd (align X4 (colMean X4))).S j / Real.sqrt (4 : ℕ)) ^ 2 else junk i⟩ := rfl
      rw [h1] at h3
      injection h3 with h3
      rw [h3, X4_align]
      rfl
    rw [e, Finset.sum_range_succ, Finset.sum_range_succ, Finset.sum_range_one]
    simp only [div_pow, s0, s1, s2, Real.sq_sqrt (Nat.cast_nonneg 4)]
    norm_num

/-- A decomposition. -/
def svd4 : SVD 3 := ⟨fun i => if i = 0 then Real.sqrt 8 else if i = 1 then Real.sqrt 2 else 0, !![0, 1, 0; 0, 0, 1; 1, 0, 0]⟩

theorem svd4_ok : IsSVD X4 svd4 where
  nonneg i _ := by
    simp only [svd4]
    split_ifs <;> positivity
  sorted i j hij hj := by
    have hj' : j < 3 := by omega
    have h28 : Real.sqrt 2 ≤ Real.sqrt 8 := Real.sqrt_le_sqrt (by norm_num)
    interval_cases j <;> interval_cases i <;> simp [svd4, h28]
  orthogonal := by
    ext i j
    fin_cases i <;> fin_cases j <;> norm_num [svd4, Matrix.mul_apply, Fin.sum_univ_succ]
  diagonalises := by
    rw [X4_gram]
    have h8 : Real.sqrt 8 ^ 2 = 8 := Real.sq_sqrt (by norm_num)
    have h2 : Real.sqrt 2 ^ 2 = 2 := Real.sq_sqrt (by norm_num)
    ext i j
    rw [Matrix.mul_apply, Fin.sum_univ_three, Matrix.mul_diagonal, Matrix.mul_diagonal, Matrix.mul_diagonal]
    fin_cases i <;> fin_cases j <;> simp [svd4, padded, h8, h2]

/-- The hypotheses of `evr_optimal` and `pca_loses_fails`. -/
example : IsSVD (align X4 (colMean X4)) svd4 ∧ (cov (4 : ℕ) X4).trace ≠ 0 ∧ ∃ p, pcaFit false (fun _ => svd4) (fun _ => 0) X4 = ok p := by
  refine ⟨by rw [X4_align]; exact svd4_ok, ?_, _, rfl⟩
  rw [cov_align, X4_align, X4_gram, Matrix.trace_smul, Matrix.trace_diagonal, Fin.sum_univ_three]
  show (1 / ((4 : ℕ) : ℝ)) * (2 + 0 + 8) ≠ 0
  norm_num

/-- The hypotheses of `pca_keeps_partial`: the first feature varies most. -/
example : IsSVD !![(2 : ℝ), 0; -2, 0; 0, 1; 0, -1] ⟨fun i => if i = 0 then Real.sqrt 8 else Real.sqrt 2, 1⟩ ∧
    (1 : Matrix (Fin 2) (Fin 2) ℝ)ᵀ = 1 := by
  have h28 : Real.sqrt 2 ≤ Real.sqrt 8 := Real.sqrt_le_sqrt (by norm_num)
  have h8 : Real.sqrt 8 ^ 2 = 8 := Real.sq_sqrt (by norm_num)
  have h2 : Real.sqrt 2 ^ 2 = 2 := Real.sq_sqrt (by norm_num)
  refine ⟨⟨fun i _ => ?_, fun i j hij hj => ?_, by simp, ?_⟩, Matrix.transpose_one⟩
  · dsimp only
    split_ifs <;> positivity
  · have hj' : j < 2 := by omega
    interval_cases j <;> interval_cases i <;> simp [h28]
  · rw [Matrix.transpose_one, Matrix.one_mul, Matrix.mul_one]
    ext i j
    fin_cases i <;> fin_cases j <;> norm_num [Matrix.mul_apply, Fin.sum_univ_succ, padded, Matrix.diagonal, h8, h2]

/-! ## Distances -/

theorem sum_castLE_le {D c : ℕ} (hc : c ≤ D) {f : Fin D → ℝ} (hf : ∀ i, 0 ≤ f i) : ∑ j : Fin c, f (Fin.castLE hc j) ≤ ∑ i, f i := by
  have : ∑ j : Fin c, f (Fin.castLE hc j) = ∑ i ∈ Finset.univ.map (Fin.castLEEmb hc), f i := by
    rw [Finset.sum_map]
    rfl
  rw [this]
  exact Finset.sum_le_sum_of_subset_of_nonneg (Finset.subset_univ _) fun i _ _ => hf i

/-- **C121 (distances).** Without whitening: the distance of two instances does not grow, and with all components it does not
change - for the data of `fit` and for all other data. -/
theorem pca_distances {N D M components : ℕ} (svd : Matrix (Fin N) (Fin D) ℝ → SVD D) (junk : ℕ → ℝ)
    (X : Matrix (Fin N) (Fin D) ℝ) (hs : IsSVD (align X (colMean X)) (svd (align X (colMean X)))) (hD : 0 < D)
    (hc : components ≤ D) (X' : Matrix (Fin M) (Fin D) ℝ) :
    ∃ p Y, pcaFit false svd junk X = ok p ∧ pcaTransform components (some p) X' = ok Y ∧
      ∀ n m, ∑ j, (Y n j - Y m j) ^ 2 ≤ ∑ d, (X' n d - X' m d) ^ 2 ∧
        (components = D → ∑ j, (Y n j - Y m j) ^ 2 = ∑ d, (X' n d - X' m d) ^ 2) := by
  have hVV : (svd (align X (colMean X))).Vᵀ * (svd (align X (colMean X))).V = 1 := mul_eq_one_comm.1 hs.orthogonal
  refine ⟨_, _, rfl, pcaTransform_ok _ X' hD hc, fun n m => ?_⟩
  generalize hV : (svd (align X (colMean X))).V = V at hVV
  let q : Fin D → ℝ := fun i => ∑ d, (X' n d - X' m d) * V i d
  have hq : ∑ i, q i ^ 2 = ∑ d, (X' n d - X' m d) ^ 2 := by
    have h1 : ∑ i, q i ^ 2 = ∑ i, ∑ d, ∑ e, (X' n d - X' m d) * (X' n e - X' m e) * (V i d * V i e) := by
      refine Finset.sum_congr rfl fun i _ => ?_
      rw [sq, Finset.sum_mul_sum]
      exact Finset.sum_congr rfl fun d _ => Finset.sum_congr rfl fun e _ => by ring
    rw [h1, Finset.sum_comm]
    refine Finset.sum_congr rfl fun d _ => ?_
    rw [Finset.sum_comm]
    have h2 : ∀ e, ∑ i, (X' n d - X' m d) * (X' n e - X' m e) * (V i d * V i e) =
        (X' n d - X' m d) * (X' n e - X' m e) * if d = e then 1 else 0 := by
      intro e
      rw [← Finset.mul_sum]
      congr 1
      have := congrFun (congrFun hVV d) e
      rw [Matrix.mul_apply, Matrix.one_apply] at this
      exact this
    rw [Finset.sum_congr rfl fun e _ => h2 e]
    simp [sq]
  have hY : ∀ j : Fin components, (align X' (colMean X) * (V.submatrix (Fin.castLE hc) id)ᵀ) n j -
      (align X' (colMean X) * (V.submatrix (Fin.castLE hc) id)ᵀ) m j = q (Fin.castLE hc j) := by
    intro j
    simp only [Matrix.mul_apply, Matrix.transpose_apply, Matrix.submatrix_apply, id_eq, align, q]
    rw [← Finset.sum_sub_distrib]
    exact Finset.sum_congr rfl fun d _ => by ring
  have hsum : ∑ j, ((align X' (colMean X) * (V.submatrix (Fin.castLE hc) id)ᵀ) n j -
      (align X' (colMean X) * (V.submatrix (Fin.castLE hc) id)ᵀ) m j) ^ 2 = ∑ j : Fin components, q (Fin.castLE hc j) ^ 2 :=
    Finset.sum_congr rfl fun j _ => by rw [hY]
  constructor
  · refine hsum.trans_le ?_
    rw [← hq]
    exact sum_castLE_le hc fun i => sq_nonneg _
  · intro he
    refine hsum.trans ?_
    rw [← hq]
    subst he
    rfl

/-- **C121 (shifts).** A vector that is added to all instances changes nothing, with and without whitening. -/
theorem pca_shift {N D components : ℕ} (whiten : Bool) (svd : Matrix (Fin N) (Fin D) ℝ → SVD D) (junk : ℕ → ℝ)
    (X : Matrix (Fin N) (Fin D) ℝ) (hN : 0 < N) (c : Fin D → ℝ) :
    (pcaFit whiten svd junk (fun n d => X n d + c d) >>= fun p => pcaTransform components (some p) fun n d => X n d + c d) =
      (pcaFit whiten svd junk X >>= fun p => pcaTransform components (some p) X) ∧
    ∀ p, pcaFit whiten svd junk X = ok p → ∃ p', pcaFit whiten svd junk (fun n d => X n d + c d) = ok p' ∧ p'.evr = p.evr := by
  have hm : colMean (fun n d => X n d + c d) = fun d => colMean X d + c d := by
    funext d
    have h : (N : ℝ) ≠ 0 := by exact_mod_cast hN.ne'
    simp only [colMean, Finset.sum_add_distrib, Finset.sum_const, Finset.card_univ, Fintype.card_fin, nsmul_eq_mul]
    field_simp
  have ha : align (fun n d => X n d + c d) (colMean fun n d => X n d + c d) = align X (colMean X) := by
    rw [hm]
    ext n d
    simp [align]
  have hf : pcaFit whiten svd junk (fun n d => X n d + c d) =
      (pcaFit whiten svd junk X >>= fun p => ok { p with mean := fun d => p.mean d + c d }) := by
    unfold pcaFit
    simp only [ha]
    rw [hm]
    cases whiten with
    | false => rfl
    | true =>
      simp only [if_true]
      cases whitenRows N _ _ <;> rfl
  have ht : ∀ p : Fitted D, pcaTransform components (some { p with mean := fun d => p.mean d + c d }) (fun n d => X n d + c d) =
      pcaTransform components (some p) X := by
    intro p
    have e : align (Matrix.submatrix (fun n d => X n d + c d) id (Fin.cast (rfl : D = D).symm))
        (fun d => p.mean d + c d) = align (X.submatrix id (Fin.cast (rfl : D = D).symm)) p.mean := by
      ext n d
      show X n d + c d - (p.mean d + c d) = X n d - p.mean d
      ring
    unfold pcaTransform
    simp only [e, dif_pos]
  constructor
  · rw [hf]
    cases h : pcaFit whiten svd junk X with
    | ok p =>
      rw [ok_bind, ok_bind, ok_bind]
      exact ht p
    | throws => rfl
    | checkFailed => rfl
    | ub => rfl
  · intro p hp
    rw [hf, hp, ok_bind]
    exact ⟨_, rfl, rfl⟩

/-! ## ZCA whitening -/

/-- The entries of an orthogonal matrix are at most 1. -/
theorem orthogonal_le_one {D : ℕ} (Q : Matrix (Fin D) (Fin D) ℝ) (hQ : Q * Qᵀ = 1) (i : Fin D) : Q i i ≤ 1 := by
  have h := congrFun (congrFun hQ i) i
  rw [Matrix.mul_apply, Matrix.one_apply_eq] at h
  have h2 : Q i i ^ 2 ≤ ∑ j, Q i j * Qᵀ j i := by
    have := Finset.single_le_sum (f := fun j => Q i j * Qᵀ j i) (fun j _ => mul_self_nonneg (Q i j)) (Finset.mem_univ i)
    rw [sq]
    exact this
  rw [h] at h2
  nlinarith

/-- **C121 (ZCA).** The whitened data are as close to the centred data as possible: no rotation or reflection of them is
closer. -/
theorem zca_closest {N D : ℕ} (svd : Matrix (Fin D) (Fin D) ℝ → SVD D) (X : Matrix (Fin N) (Fin D) ℝ) (hD : 0 < D) (hN : 1 < N)
    (h : IsSVD (zcaCov X) (svd (zcaCov X))) :
    ∃ Y, zcaTransform (some (zcaFit svd X)) X = ok Y ∧ ∀ Q : Matrix (Fin D) (Fin D) ℝ, Q * Qᵀ = 1 →
      ∑ n, ∑ d, (X n d - mean X d - Y n d) ^ 2 ≤ ∑ n, ∑ d, (X n d - mean X d - (Y * Q) n d) ^ 2 := by
  refine ⟨_, zcaTransform_ok _ X hD, fun Q hQ => ?_⟩
  have hm : (zcaFit svd X).mean = colMean X := rfl
  have hW : (zcaFit svd X).W = (svd (zcaCov X)).V * diagonal (fun j : Fin D => 1 / Real.sqrt ((svd (zcaCov X)).S j + 1e-5)) *
      (svd (zcaCov X)).Vᵀ := by
    simp only [zcaFit]
    congr 1
    ext i d
    rw [Matrix.mul_diagonal, Matrix.of_apply, mul_one_div]
  have hWT : (zcaFit svd X).Wᵀ = (zcaFit svd X).W := by
    rw [hW, Matrix.transpose_mul, Matrix.transpose_mul, Matrix.transpose_transpose, Matrix.diagonal_transpose, Matrix.mul_assoc]
  have he := zca_eigen X hN _ h
  have hk : (0 : ℝ) < (N : ℝ) - 1 := by
    have : (1 : ℝ) < N := by exact_mod_cast hN
    linarith
  have hA : (align X (colMean X))ᵀ * align X (colMean X) = ((N : ℝ) - 1) • zcaCov X := by
    rw [zcaCov, smul_smul, mul_one_div, div_self hk.ne', one_smul]
  rw [hm, hWT]
  generalize hY : align X (colMean X) * (zcaFit svd X).W = Y
  -- squares
  have hexp : ∀ Z : Matrix (Fin N) (Fin D) ℝ, ∑ n, ∑ d, (X n d - mean X d - Z n d) ^ 2 =
      ((align X (colMean X))ᵀ * align X (colMean X)).trace + (Zᵀ * Z).trace - 2 * ((align X (colMean X))ᵀ * Z).trace := by
    intro Z
    simp only [Matrix.trace, Matrix.diag_apply, Matrix.mul_apply, Matrix.transpose_apply]
    rw [Finset.sum_comm, ← Finset.sum_add_distrib, Finset.mul_sum, ← Finset.sum_sub_distrib]
    refine Finset.sum_congr rfl fun d _ => ?_
    rw [← Finset.sum_add_distrib, Finset.mul_sum, ← Finset.sum_sub_distrib]
    refine Finset.sum_congr rfl fun n _ => ?_
    show (X n d - colMean X d - Z n d) ^ 2 = (X n d - colMean X d) * (X n d - colMean X d) + Z n d * Z n d -
      2 * ((X n d - colMean X d) * Z n d)
    ring
  rw [hexp, hexp]
  have hsame : ((Y * Q)ᵀ * (Y * Q)).trace = (Yᵀ * Y).trace := by
    rw [Matrix.transpose_mul, Matrix.mul_assoc, Matrix.trace_mul_comm, Matrix.mul_assoc, Matrix.mul_assoc, hQ, Matrix.mul_one]
  have hVV : (svd (zcaCov X)).Vᵀ * (svd (zcaCov X)).V = 1 := mul_eq_one_comm.1 h.orthogonal
  have hnn : ∀ i : Fin D, 0 ≤ (svd (zcaCov X)).S i := fun i => h.nonneg i (by simp)
  have hcross : ∀ R : Matrix (Fin D) (Fin D) ℝ, ((align X (colMean X))ᵀ * (Y * R)).trace = ((N : ℝ) - 1) *
      ∑ i : Fin D, (svd (zcaCov X)).S i / Real.sqrt ((svd (zcaCov X)).S i + 1e-5) *
        ((svd (zcaCov X)).Vᵀ * R * (svd (zcaCov X)).V) i i := by
    intro R
    rw [← hY, hW]
    have e1 : (align X (colMean X))ᵀ * (align X (colMean X) * ((svd (zcaCov X)).V *
        diagonal (fun j : Fin D => 1 / Real.sqrt ((svd (zcaCov X)).S j + 1e-5)) * (svd (zcaCov X)).Vᵀ) * R) =
        ((align X (colMean X))ᵀ * align X (colMean X)) * ((svd (zcaCov X)).V *
        diagonal (fun j : Fin D => 1 / Real.sqrt ((svd (zcaCov X)).S j + 1e-5)) * (svd (zcaCov X)).Vᵀ * R) := by
      simp only [Matrix.mul_assoc]
    rw [e1, hA, Matrix.smul_mul, Matrix.trace_smul, smul_eq_mul]
    congr 1
    generalize svd (zcaCov X) = r at hVV he
    rw [he]
    have e2 : r.V * diagonal (fun j : Fin D => r.S j) * r.Vᵀ * (r.V * diagonal (fun j : Fin D => 1 / Real.sqrt (r.S j + 1e-5)) *
        r.Vᵀ * R) = r.V * (diagonal (fun j : Fin D => r.S j / Real.sqrt (r.S j + 1e-5)) * (r.Vᵀ * R)) := by
      calc _ = r.V * diagonal (fun j : Fin D => r.S j) * (r.Vᵀ * r.V) * diagonal (fun j : Fin D => 1 / Real.sqrt (r.S j + 1e-5)) *
            (r.Vᵀ * R) := by simp only [Matrix.mul_assoc]
        _ = r.V * ((diagonal (fun j : Fin D => r.S j) * diagonal (fun j : Fin D => 1 / Real.sqrt (r.S j + 1e-5))) *
            (r.Vᵀ * R)) := by rw [hVV, Matrix.mul_one]; simp only [Matrix.mul_assoc]
        _ = _ := by
          rw [Matrix.diagonal_mul_diagonal]
          simp only [mul_one_div]
    rw [e2, Matrix.trace_mul_comm, Matrix.mul_assoc, Matrix.trace]
    exact Finset.sum_congr rfl fun i _ => by rw [Matrix.diag_apply, Matrix.diagonal_mul]
  have hone := hcross 1
  rw [Matrix.mul_one, Matrix.mul_one, hVV] at hone
  rw [hsame, hone, hcross Q]
  have hle : ∑ i : Fin D, (svd (zcaCov X)).S i / Real.sqrt ((svd (zcaCov X)).S i + 1e-5) *
      ((svd (zcaCov X)).Vᵀ * Q * (svd (zcaCov X)).V) i i ≤
      ∑ i : Fin D, (svd (zcaCov X)).S i / Real.sqrt ((svd (zcaCov X)).S i + 1e-5) * (1 : Matrix (Fin D) (Fin D) ℝ) i i := by
    refine Finset.sum_le_sum fun i _ => ?_
    rw [Matrix.one_apply_eq]
    refine mul_le_mul_of_nonneg_left (orthogonal_le_one _ ?_ i) (div_nonneg (hnn i) (Real.sqrt_nonneg _))
    rw [Matrix.transpose_mul, Matrix.transpose_mul, Matrix.transpose_transpose]
    calc _ = (svd (zcaCov X)).Vᵀ * (Q * ((svd (zcaCov X)).V * (svd (zcaCov X)).Vᵀ) * Qᵀ) * (svd (zcaCov X)).V := by
          simp only [Matrix.mul_assoc]
      _ = 1 := by rw [h.orthogonal, Matrix.mul_one, hQ, Matrix.mul_one, hVV]
  have := mul_le_mul_of_nonneg_left hle hk.le
  linarith

/-- Two instances with one feature. -/
example : IsSVD (zcaCov !![(1 : ℝ); -1]) ⟨fun _ => 2, 1⟩ := by
  have e : zcaCov !![(1 : ℝ); -1] = diagonal fun _ => 2 := by
    ext i j
    fin_cases i
    fin_cases j
    norm_num [zcaCov, align, colMean, Matrix.mul_apply, Fin.sum_univ_two, Matrix.diagonal]
  rw [e]
  refine ⟨fun _ _ => by norm_num, fun _ _ _ _ => le_rfl, by simp, ?_⟩
  rw [Matrix.diagonal_transpose, Matrix.diagonal_mul_diagonal, Matrix.transpose_one, Matrix.one_mul, Matrix.mul_one]
  congr 1
  funext j
  have : padded 1 (fun _ => (2 : ℝ)) j = 2 := if_pos (by have := j.2; omega)
  rw [this]
  norm_num

end

end Verif.White
