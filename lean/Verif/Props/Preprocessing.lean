import Verif.Model.Preprocessing
import Verif.Props.Random
import Mathlib.Algebra.BigOperators.Field
import Mathlib.Algebra.BigOperators.Ring.Finset
import Mathlib.Algebra.Order.BigOperators.Group.Finset
import Mathlib.Tactic.Linarith
import Mathlib.Tactic.Positivity
import Mathlib.Tactic.FieldSimp
import Mathlib.Tactic.NormNum
import Mathlib.Tactic.Ring

/-!
# C50, C51 and C52: normalisation, scaling, filters
-/

namespace Verif.Pre

open Outcome Finset

noncomputable section

/-! ## C50 -/

/-- Mean of a column. -/
def mean (X : Mat) (d : ℕ) : ℝ := (∑ n ∈ range X.rows, X.val n d) / X.rows

/-- Standard deviation of a column. -/
def deviation (X : Mat) (d : ℕ) : ℝ := Real.sqrt ((∑ n ∈ range X.rows, (X.val n d - mean X d) ^ 2) / X.rows)

def Constant (X : Mat) (d : ℕ) : Prop := ∀ i < X.rows, ∀ j < X.rows, X.val i d = X.val j d

theorem squares_eq (X : Mat) (m std : ℕ → ℝ) :
    squares X m (setZero std) = ok fun e => if e < X.cols then ∑ n ∈ range X.rows, (X.val n e - m e) ^ 2 else 0 := by
  unfold squares setZero
  have := forLoop_eq (n := X.rows) (body := fun n s => forLoop X.cols (fun d s => do
    let x ← X.get n d
    ok (fun e => if e = d then s e + (x - m d) * (x - m d) else s e)) s)
    (fun k e => if e < X.cols then ∑ n ∈ range k, (X.val n e - m e) ^ 2 else 0) (fun i hi => by
      have := forLoop_eq (n := X.cols) (body := fun d s => do
          let x ← X.get i d
          ok (fun e => if e = d then s e + (x - m d) * (x - m d) else s e))
        (fun k e => if e < X.cols then if e < k then ∑ n ∈ range (i + 1), (X.val n e - m e) ^ 2 else
          ∑ n ∈ range i, (X.val n e - m e) ^ 2 else 0) (fun d hd => by
          rw [Mat.get_nat hi hd, ok_bind]
          congr 1
          funext e
          by_cases he : e = d
          · subst he
            simp only [if_true, if_pos hd, lt_irrefl, if_false, Nat.lt_succ_self, Finset.sum_range_succ]
            ring
          · rw [if_neg he]
            have : e < d ↔ e < d + 1 := by omega
            simp only [this])
      simp only [Nat.not_lt_zero, if_false] at this
      rw [this]
      congr 1
      funext e
      by_cases he : e < X.cols
      · simp only [if_pos he]
      · simp only [if_neg he])
  simpa using this

theorem fit_eq (N : Normalization) (X : Mat) : ∃ M, N.fit X = ok M ∧ M.cols = X.cols ∧ ∀ d < X.cols,
    M.mean d = mean X d ∧ M.std d = avoidZero (deviation X d) := by
  refine ⟨⟨X.cols, colMean X, fun d => avoidZero (Real.sqrt ((if d < X.cols then
    ∑ n ∈ range X.rows, (X.val n d - colMean X d) ^ 2 else 0) / X.rows))⟩, ?_, rfl, ?_⟩
  · simp only [Normalization.fit, squares_eq, ok_bind]
  · intro d hd
    refine ⟨rfl, ?_⟩
    simp only [if_pos hd]
    rfl

theorem deviation_eq_zero {X : Mat} {d : ℕ} (hr : 0 < X.rows) : deviation X d = 0 ↔ Constant X d := by
  have hN : (0 : ℝ) < X.rows := by exact_mod_cast hr
  have hnn : ∀ n ∈ range X.rows, 0 ≤ (X.val n d - mean X d) ^ 2 := fun n _ => sq_nonneg _
  unfold deviation
  rw [Real.sqrt_eq_zero (div_nonneg (Finset.sum_nonneg hnn) (le_of_lt hN)), div_eq_zero_iff]
  constructor
  · rintro (h | h)
    · rw [Finset.sum_eq_zero_iff_of_nonneg hnn] at h
      intro i hi j hj
      have h1 := pow_eq_zero_iff (two_ne_zero) |>.1 (h i (mem_range.2 hi))
      have h2 := pow_eq_zero_iff (two_ne_zero) |>.1 (h j (mem_range.2 hj))
      linarith
    · exact absurd h (ne_of_gt hN)
  · intro h
    left
    refine Finset.sum_eq_zero fun n hn => ?_
    have hm : mean X d = X.val n d := by
      unfold mean
      rw [Finset.sum_congr rfl (g := fun _ => X.val n d) fun k hk => h k (mem_range.1 hk) n (mem_range.1 hn)]
      rw [Finset.sum_const, card_range, nsmul_eq_mul]
      field_simp
    rw [hm]
    simp

/-- **C50**: after `fit(X)`, `transform(X)` has column means 0, standard deviation 1 in each column that is not constant, and 0 in
constant columns; whatever the transformer was fitted to before. -/
theorem normalization_standardises (N : Normalization) (X : Mat) (hr : 0 < X.rows) (hc : 0 < X.cols) :
    ∃ M Y, N.fit X = ok M ∧ M.transform X = ok Y ∧ Y.rows = X.rows ∧ Y.cols = X.cols ∧ ∀ d < X.cols,
      mean Y d = 0 ∧ (¬ Constant X d → deviation Y d = 1) ∧ (Constant X d → deviation Y d = 0) := by
  obtain ⟨M, hM, hcols, hv⟩ := fit_eq N X
  have hN : (0 : ℝ) < X.rows := by exact_mod_cast hr
  refine ⟨M, ⟨X.rows, X.cols, fun n d => (X.val n d - M.mean d) * (M.std d)⁻¹⟩, hM, ?_, rfl, rfl, fun d hd => ?_⟩
  · simp [Normalization.transform, hcols, hc]
  · obtain ⟨h1, h2⟩ := hv d hd
    have hm : mean ⟨X.rows, X.cols, fun n d => (X.val n d - M.mean d) * (M.std d)⁻¹⟩ d = 0 := by
      unfold mean
      simp only [h1]
      rw [← Finset.sum_mul, Finset.sum_sub_distrib, Finset.sum_const, card_range, nsmul_eq_mul]
      unfold mean
      field_simp
      simp
    have hdev : deviation ⟨X.rows, X.cols, fun n d => (X.val n d - M.mean d) * (M.std d)⁻¹⟩ d =
        deviation X d * |(M.std d)⁻¹| := by
      unfold deviation
      rw [hm, ← Real.sqrt_sq_eq_abs, ← Real.sqrt_mul (div_nonneg (Finset.sum_nonneg fun n _ => sq_nonneg _) (le_of_lt hN))]
      congr 1
      simp only [sub_zero, h1, mul_pow]
      rw [← Finset.sum_mul]
      ring
    refine ⟨hm, fun hconst => ?_, fun hconst => ?_⟩
    · have hne : deviation X d ≠ 0 := fun h => hconst ((deviation_eq_zero hr).1 h)
      have hpos : 0 < deviation X d := lt_of_le_of_ne (Real.sqrt_nonneg _) (Ne.symm hne)
      rw [hdev, h2, avoidZero, if_neg hne, abs_of_pos (inv_pos.2 hpos), mul_inv_cancel₀ hne]
    · rw [hdev, (deviation_eq_zero hr).2 hconst, zero_mul]

/-- **C50**: a later `fit` replaces an earlier one completely. -/
theorem normalization_refit (N M : Normalization) (X : Mat) : N.fit X = M.fit X := by
  simp only [Normalization.fit, squares_eq]

/-- **C50**: new data are mapped by the affine map that belongs to the fitted data, coefficient by coefficient. -/
theorem normalization_new_data (N : Normalization) (X Z : Mat) (hc : 0 < X.cols) (hz : Z.cols = X.cols) :
    ∃ M Y, N.fit X = ok M ∧ M.transform Z = ok Y ∧ Y.rows = Z.rows ∧ Y.cols = Z.cols ∧ ∀ n < Z.rows, ∀ d < X.cols,
      Y.val n d = (Z.val n d - mean X d) / if deviation X d = 0 then 1 else deviation X d := by
  obtain ⟨M, hM, hcols, hv⟩ := fit_eq N X
  refine ⟨M, ⟨Z.rows, Z.cols, fun n d => (Z.val n d - M.mean d) * (M.std d)⁻¹⟩, hM, ?_, rfl, rfl, fun n hn d hd => ?_⟩
  · simp [Normalization.transform, hcols, hc, hz]
  · obtain ⟨h1, h2⟩ := hv d hd
    simp only [h1, h2, avoidZero]
    rw [div_eq_mul_inv]

/-- Data with another number of features and transformers that were never fitted are refused. -/
theorem normalization_refuses (N : Normalization) (X Z : Mat) (hz : Z.cols ≠ X.cols) :
    (∀ M, N.fit X = ok M → M.transform Z = checkFailed) ∧ Normalization.new.transform Z = checkFailed := by
  refine ⟨fun M hM => ?_, rfl⟩
  obtain ⟨M', hM', hcols, _⟩ := fit_eq N X
  rw [hM'] at hM
  cases hM
  by_cases h0 : 0 < M.cols
  · have : ¬ Z.cols = M.cols := by rw [hcols]; exact hz
    simp [Normalization.transform, h0, this]
  · simp [Normalization.transform, h0]

example : ∃ X : Mat, 0 < X.rows ∧ 0 < X.cols ∧ ¬ Constant X 0 ∧ Constant X 1 :=
  ⟨⟨2, 2, fun i j => if j = 0 then i else 7⟩, by norm_num, by norm_num,
    fun h => by simpa using h 0 (by norm_num) 1 (by norm_num), fun i _ j _ => by simp⟩

/-! ## C51 -/

/-- Positions of a matrix. -/
def Inside (X : Mat) (p : ℕ × ℕ) : Prop := p.1 < X.rows ∧ p.2 < X.cols

/-- **C51 (partial)**: data with at least two different values are mapped by an increasing affine map that takes the smallest value
to `min` and the largest to `max`.  Missing: constant data (`scale_constant_fails`). -/
theorem scale_affine_partial (X : Mat) {min max : ℝ} (hmm : min < max) {p q : ℕ × ℕ} (hp : Inside X p) (hq : Inside X q)
    (hne : X.val p.1 p.2 ≠ X.val q.1 q.2) :
    ∃ Y s o, scaleData X min max = ok (some Y) ∧ Y.rows = X.rows ∧ Y.cols = X.cols ∧ 0 < s ∧
      (∀ i < X.rows, ∀ j < X.cols, Y.val i j = s * X.val i j + o ∧ min ≤ Y.val i j ∧ Y.val i j ≤ max) ∧
      (∃ a, Inside X a ∧ Y.val a.1 a.2 = min ∧ ∀ b, Inside X b → X.val a.1 a.2 ≤ X.val b.1 b.2) ∧
      (∃ a, Inside X a ∧ Y.val a.1 a.2 = max ∧ ∀ b, Inside X b → X.val b.1 b.2 ≤ X.val a.1 a.2) := by
  have mem : ∀ a, a ∈ entries X ↔ Inside X a := fun a => by simp [entries, Inside]
  have hnon : (entries X).Nonempty := ⟨p, (mem p).2 hp⟩
  obtain ⟨a, ha, hae⟩ := Finset.exists_mem_eq_inf' hnon fun p => X.val p.1 p.2
  obtain ⟨b, hb, hbe⟩ := Finset.exists_mem_eq_sup' hnon fun p => X.val p.1 p.2
  have hlo : ∀ c, Inside X c → (entries X).inf' hnon (fun p => X.val p.1 p.2) ≤ X.val c.1 c.2 :=
    fun c hc => Finset.inf'_le (fun p : ℕ × ℕ => X.val p.1 p.2) ((mem c).2 hc)
  have hhi : ∀ c, Inside X c → X.val c.1 c.2 ≤ (entries X).sup' hnon (fun p => X.val p.1 p.2) :=
    fun c hc => Finset.le_sup' (fun p : ℕ × ℕ => X.val p.1 p.2) ((mem c).2 hc)
  generalize hlow : (entries X).inf' hnon (fun p => X.val p.1 p.2) = lo at *
  generalize hhigh : (entries X).sup' hnon (fun p => X.val p.1 p.2) = hi at *
  have hlt : lo < hi := by
    rcases lt_or_gt_of_ne hne with h | h
    · exact lt_of_le_of_lt (hlo p hp) (lt_of_lt_of_le h (hhi q hq))
    · exact lt_of_le_of_lt (hlo q hq) (lt_of_lt_of_le h (hhi p hp))
  have hr : 0 < hi - lo := by linarith
  have hs : 0 < (max - min) / (hi - lo) := div_pos (by linarith) hr
  have hval : ∀ x, lo ≤ x → x ≤ hi → min ≤ x * ((max - min) / (hi - lo)) + (min - lo * ((max - min) / (hi - lo))) ∧
      x * ((max - min) / (hi - lo)) + (min - lo * ((max - min) / (hi - lo))) ≤ max := by
    intro x h1 h2
    have e1 : (hi - lo) * ((max - min) / (hi - lo)) = max - min := by field_simp
    have h3 := mul_le_mul_of_nonneg_right (sub_nonneg.2 h1) (le_of_lt hs)
    have h4 := mul_le_mul_of_nonneg_right (sub_le_sub_right h2 lo) (le_of_lt hs)
    rw [zero_mul] at h3
    rw [e1] at h4
    constructor <;> linarith
  refine ⟨⟨X.rows, X.cols, fun i j => X.val i j * ((max - min) / (hi - lo)) + (min - lo * ((max - min) / (hi - lo)))⟩,
    (max - min) / (hi - lo), min - lo * ((max - min) / (hi - lo)), ?_, rfl, rfl, hs, ?_, ?_, ?_⟩
  · unfold scaleData
    rw [if_neg (not_le.2 hmm), dif_pos hnon]
    simp only [hlow, hhigh]
    rw [if_neg (ne_of_gt hr)]
  · intro i hi' j hj
    refine ⟨by simp only; ring, ?_⟩
    exact hval _ (hlo (i, j) ⟨hi', hj⟩) (hhi (i, j) ⟨hi', hj⟩)
  · refine ⟨a, (mem a).1 ha, ?_, fun c hc => ?_⟩
    · simp only [← hae]
      ring
    · rw [← hae]; exact hlo c hc
  · refine ⟨b, (mem b).1 hb, ?_, fun c hc => ?_⟩
    · simp only [← hbe]
      field_simp
      ring
    · rw [← hbe]; exact hhi c hc

example : ∃ (X : Mat) (p q : ℕ × ℕ), Inside X p ∧ Inside X q ∧ X.val p.1 p.2 ≠ X.val q.1 q.2 :=
  ⟨⟨1, 2, fun _ j => j⟩, (0, 0), (0, 1), ⟨by norm_num, by norm_num⟩, ⟨by norm_num, by norm_num⟩, by norm_num⟩

/-- **C51**: `min >= max` is refused. -/
theorem scale_refuses (X : Mat) {min max : ℝ} (h : max ≤ min) : scaleData X min max = throws := if_pos h

/-- **C51 is false** for constant data: all coefficients become not a number. -/
theorem scale_constant_fails (X : Mat) {min max : ℝ} (hmm : min < max) (hr : 0 < X.rows) (hc : 0 < X.cols)
    (h : ∀ p q, Inside X p → Inside X q → X.val p.1 p.2 = X.val q.1 q.2) : scaleData X min max = ok none := by
  have mem : ∀ a, a ∈ entries X ↔ Inside X a := fun a => by simp [entries, Inside]
  have hnon : (entries X).Nonempty := ⟨(0, 0), (mem _).2 ⟨hr, hc⟩⟩
  obtain ⟨a, ha, hae⟩ := Finset.exists_mem_eq_inf' hnon fun p => X.val p.1 p.2
  obtain ⟨b, hb, hbe⟩ := Finset.exists_mem_eq_sup' hnon fun p => X.val p.1 p.2
  unfold scaleData
  rw [if_neg (not_le.2 hmm), dif_pos hnon]
  simp only [hae, hbe]
  rw [if_pos]
  rw [h b a ((mem b).1 hb) ((mem a).1 ha), sub_self]

/-- An empty matrix has no smallest coefficient. -/
theorem scale_empty_ub (X : Mat) {min max : ℝ} (hmm : min < max) (h : X.rows = 0 ∨ X.cols = 0) :
    scaleData X min max = ub := by
  unfold scaleData
  rw [if_neg (not_le.2 hmm), dif_neg]
  rintro ⟨a, ha⟩
  simp only [entries, mem_product, mem_range] at ha
  omega

end

end Verif.Pre
