import Verif.Model.Scripts
import Verif.Props.Preprocessing
import Mathlib.Tactic.IntervalCases

/-!
# C136: the scripts for SARCOS and Iris report what their data say
-/

namespace Verif.Scripts

open Outcome Verif.Pre

noncomputable section

/-! ## SARCOS -/

/-- The learner sees only the coefficients of the matrices and predicts one row of outputs for each row of inputs. -/
structure Careful (learn : Mat → Mat → Mat → Mat) : Prop where
  same : ∀ {X X' Y Y' Z Z' : Mat}, X.Same X' → Y.Same Y' → Z.Same Z' → (learn X Y Z).Same (learn X' Y' Z')
  rows : ∀ X Y Z, (learn X Y Z).rows = Z.rows
  cols : ∀ X Y Z, (learn X Y Z).cols = Y.cols

/-- Data as the files contain them: instances, features and outputs, the same columns in both files. -/
structure Proper (a : Arrays) : Prop where
  rows : 0 < a.X.rows
  sameRows : a.Y.rows = a.X.rows
  testRows : 0 < a.Xtest.rows
  sameTestRows : a.Ytest.rows = a.Xtest.rows
  inputs : 0 < a.X.cols
  outputs : 0 < a.Y.cols
  testInputs : a.Xtest.cols = a.X.cols
  testOutputs : a.Ytest.cols = a.Y.cols

/-- the factor of a normalised column: its standard deviation -/
def scale (X : Mat) (d : ℕ) : ℝ := if deviation X d = 0 then 1 else deviation X d

/-- `Z` is `W` in units of standard deviations from the mean of the columns of `X`. -/
def InUnitsOf (X W Z : Mat) : Prop :=
  Z.rows = W.rows ∧ Z.cols = W.cols ∧ ∀ n < W.rows, ∀ d < X.cols, Z.val n d = (W.val n d - mean X d) / scale X d

theorem transform_units {N M : Normalization} {X : Mat} (hM : N.fit X = ok M) (hc : 0 < X.cols) (W : Mat) (hw : W.cols = X.cols) :
    ∃ Z, M.transform W = ok Z ∧ InUnitsOf X W Z := by
  obtain ⟨M', Z, h1, h2, h3, h4, h5⟩ := normalization_new_data N X W hc hw
  rw [hM] at h1
  cases h1
  exact ⟨Z, h2, h3, h4, h5⟩

theorem normalise_units {a : Arrays} (h : Proper a) : ∃ b, normalise a = ok b ∧ InUnitsOf a.X a.X b.X ∧ InUnitsOf a.Y a.Y b.Y ∧
    InUnitsOf a.X a.Xtest b.Xtest ∧ InUnitsOf a.Y a.Ytest b.Ytest := by
  obtain ⟨M, hM, -, -⟩ := fit_eq Normalization.new a.X
  obtain ⟨X, hX, uX⟩ := transform_units hM h.inputs a.X rfl
  obtain ⟨Xt, hXt, uXt⟩ := transform_units hM h.inputs a.Xtest h.testInputs
  obtain ⟨M', hM', -, -⟩ := fit_eq M a.Y
  obtain ⟨Y, hY, uY⟩ := transform_units hM' h.outputs a.Y rfl
  obtain ⟨Yt, hYt, uYt⟩ := transform_units hM' h.outputs a.Ytest h.testOutputs
  exact ⟨⟨X, Y, Xt, Yt⟩, by simp only [normalise, hM, hX, hXt, hM', hY, hYt, ok_bind], uX, uY, uXt, uYt⟩

theorem sarcos_eq (learn : Mat → Mat → Mat → Mat) {a b : Arrays} (hb : normalise a = ok b) : sarcos learn a =
    ok ((List.range b.Y.cols).map fun f => (nMSE b.Y (learn b.X b.Y b.X) (variance b.Y f) f,
      nMSE b.Ytest (learn b.X b.Y b.Xtest) (variance b.Y f) f)) := by
  simp only [sarcos, hb, ok_bind]

theorem variance_eq (Y : Mat) (f : ℕ) : variance Y f = deviation Y f ^ 2 := by
  unfold variance deviation
  rw [Real.sq_sqrt (div_nonneg (Finset.sum_nonneg fun _ _ => sq_nonneg _) (Nat.cast_nonneg _))]
  rfl

theorem deviation_nonneg (X : Mat) (d : ℕ) : 0 ≤ deviation X d := Real.sqrt_nonneg _

theorem mean_congr {X Z : Mat} {d : ℕ} (hr : Z.rows = X.rows) (hv : ∀ n < X.rows, Z.val n d = X.val n d) : mean Z d = mean X d := by
  unfold mean
  rw [hr]
  congr 1
  exact Finset.sum_congr rfl fun n hn => hv n (Finset.mem_range.1 hn)

theorem mean_affine {X Z : Mat} {d : ℕ} (hr : Z.rows = X.rows) (h0 : 0 < X.rows) {s t : ℝ}
    (hv : ∀ n < X.rows, Z.val n d = s * X.val n d + t) : mean Z d = s * mean X d + t := by
  have hN : (X.rows : ℝ) ≠ 0 := by exact_mod_cast h0.ne'
  unfold mean
  rw [hr, Finset.sum_congr rfl fun n hn => hv n (Finset.mem_range.1 hn), Finset.sum_add_distrib, ← Finset.mul_sum]
  simp only [Finset.sum_const, Finset.card_range, nsmul_eq_mul]
  field_simp

theorem deviation_affine {X Z : Mat} {d : ℕ} (hr : Z.rows = X.rows) (h0 : 0 < X.rows) {s t : ℝ} (hs : 0 ≤ s)
    (hv : ∀ n < X.rows, Z.val n d = s * X.val n d + t) : deviation Z d = s * deviation X d := by
  unfold deviation
  rw [mean_affine hr h0 hv, hr]
  have : ∀ n ∈ Finset.range X.rows, (Z.val n d - (s * mean X d + t)) ^ 2 = s ^ 2 * (X.val n d - mean X d) ^ 2 := fun n hn => by
    rw [hv n (Finset.mem_range.1 hn)]; ring
  rw [Finset.sum_congr rfl this, ← Finset.mul_sum, mul_div_assoc, Real.sqrt_mul (sq_nonneg s), Real.sqrt_sq hs]

open Classical in
/-- Normalised columns have variance 1, constant ones 0. -/
theorem variance_units {Y Z : Mat} (h : InUnitsOf Y Y Z) (h0 : 0 < Y.rows) {f : ℕ} (hf : f < Y.cols) :
    variance Z f = if Constant Y f then 0 else 1 := by
  have hv : ∀ n < Y.rows, Z.val n f = (scale Y f)⁻¹ * Y.val n f + -(mean Y f * (scale Y f)⁻¹) := fun n hn => by
    rw [h.2.2 n hn f hf, div_eq_mul_inv]; ring
  have hpos : 0 < scale Y f := by
    unfold scale
    split_ifs with h1
    · norm_num
    · exact lt_of_le_of_ne (deviation_nonneg _ _) (Ne.symm h1)
  rw [variance_eq, deviation_affine h.1 h0 (inv_nonneg.2 hpos.le) hv]
  by_cases hc : Constant Y f
  · rw [if_pos hc, (deviation_eq_zero h0).2 hc]; simp
  · have hne : deviation Y f ≠ 0 := fun h => hc ((deviation_eq_zero h0).1 h)
    rw [if_neg hc, scale, if_neg hne, inv_mul_cancel₀ hne, one_pow]

theorem nMSE_congr {Y Y' P P' : Mat} {v : ℝ} {f : ℕ} (hr : Y.rows = Y'.rows) (hy : ∀ n < Y.rows, Y.val n f = Y'.val n f)
    (hp : ∀ n < Y.rows, P.val n f = P'.val n f) : nMSE Y P v f = nMSE Y' P' v f := by
  unfold nMSE
  rw [← hr]
  have : ∑ n ∈ Finset.range Y.rows, (Y.val n f - P.val n f) ^ 2 = ∑ n ∈ Finset.range Y.rows, (Y'.val n f - P'.val n f) ^ 2 :=
    Finset.sum_congr rfl fun n hn => by rw [hy n (Finset.mem_range.1 hn), hp n (Finset.mem_range.1 hn)]
  rw [this]

theorem InUnitsOf.same {X W W' Z Z' : Mat} (h : InUnitsOf X W Z) (h' : InUnitsOf X W' Z') (hw : W.cols = X.cols) (hs : W.Same W') :
    Z.Same Z' := by
  obtain ⟨s1, s2, s3⟩ := hs
  refine ⟨by rw [h.1, h'.1, s1], by rw [h.2.1, h'.2.1, s2], fun n hn d hd => ?_⟩
  rw [h.1] at hn
  rw [h.2.1] at hd
  rw [h.2.2 n hn d (hw ▸ hd), h'.2.2 n (s1 ▸ hn) d (hw ▸ hd), s3 n hn d hd]

/-- mean squared error of predictions in a column -/
def mse (Y P : Mat) (f : ℕ) : ℝ := (∑ n ∈ Finset.range Y.rows, (Y.val n f - P.val n f) ^ 2) / Y.rows

/-- predictions in the units of the outputs of `Y` -/
def original (Y P : Mat) : Mat := ⟨P.rows, P.cols, fun n f => P.val n f * scale Y f + mean Y f⟩

/-- **The printed numbers are mean squared errors in the original units, divided by the variance of the training outputs**, for every data
set, every method of training and every output that is not constant.  Inputs and targets that the method sees are normalised with
the statistics of the training data. -/
theorem sarcos_nMSE (learn : Mat → Mat → Mat → Mat) {a : Arrays} (h : Proper a) :
    ∃ b l, normalise a = ok b ∧ InUnitsOf a.X a.X b.X ∧ InUnitsOf a.Y a.Y b.Y ∧ InUnitsOf a.X a.Xtest b.Xtest ∧ sarcos learn a = ok l ∧
      l.length = a.Y.cols ∧ ∀ f < a.Y.cols, ¬ Constant a.Y f → l[f]? = some
        (some (mse a.Y (original a.Y (learn b.X b.Y b.X)) f / deviation a.Y f ^ 2),
         some (mse a.Ytest (original a.Y (learn b.X b.Y b.Xtest)) f / deviation a.Y f ^ 2)) := by
  obtain ⟨b, hb, uX, uY, uXt, uYt⟩ := normalise_units h
  have hYr : 0 < a.Y.rows := h.sameRows ▸ h.rows
  refine ⟨b, _, hb, uX, uY, uXt, sarcos_eq learn hb, by simp [uY.2.1], fun f hf hc => ?_⟩
  have hne : deviation a.Y f ≠ 0 := fun h' => hc ((deviation_eq_zero hYr).1 h')
  have hlen : f < b.Y.cols := by rw [uY.2.1]; exact hf
  rw [List.getElem?_map, List.getElem?_range hlen, Option.map_some]
  have key : ∀ {W Z : Mat} (P : Mat), InUnitsOf a.Y W Z → 0 < W.rows →
      nMSE Z P (variance b.Y f) f = some (mse W (original a.Y P) f / deviation a.Y f ^ 2) := by
    intro W Z P u hw
    rw [variance_units uY hYr hf, if_neg hc]
    unfold nMSE mse
    rw [if_neg (by rw [u.1]; simp [hw.ne']), u.1, div_one]
    congr 1
    rw [div_right_comm]
    congr 1
    rw [Finset.sum_div]
    refine Finset.sum_congr rfl fun n hn => ?_
    rw [u.2.2 n (Finset.mem_range.1 hn) f hf]
    simp only [original, scale, if_neg hne]
    field_simp
    ring
  rw [key _ uY hYr, key _ uYt (by rw [h.sameTestRows]; exact h.testRows)]

/-- **Nothing of the test file gets into the training or the training errors.** -/
theorem sarcos_honest {learn : Mat → Mat → Mat → Mat} (hl : Careful learn) {a a' : Arrays} (h : Proper a) (h' : Proper a')
    (hX : a.X = a'.X) (hY : a.Y = a'.Y) : ∃ l l', sarcos learn a = ok l ∧ sarcos learn a' = ok l' ∧ l.map Prod.fst = l'.map Prod.fst := by
  obtain ⟨b, hb, uX, uY, -, -⟩ := normalise_units h
  obtain ⟨b', hb', uX', uY', -, -⟩ := normalise_units h'
  rw [← hX] at uX'
  rw [← hY] at uY'
  have sX := uX.same uX' rfl ⟨rfl, rfl, fun _ _ _ _ => rfl⟩
  have sY := uY.same uY' rfl ⟨rfl, rfl, fun _ _ _ _ => rfl⟩
  have hYr : 0 < a.Y.rows := h.sameRows ▸ h.rows
  refine ⟨_, _, sarcos_eq learn hb, sarcos_eq learn hb', ?_⟩
  rw [List.map_map, List.map_map, ← sY.2.1]
  refine List.map_congr_left fun f hf => ?_
  have hf : f < b.Y.cols := List.mem_range.1 hf
  have hfa : f < a.Y.cols := by rw [← uY.2.1]; exact hf
  have hp := hl.same sX sY sX
  show nMSE b.Y _ (variance b.Y f) f = nMSE b'.Y _ (variance b'.Y f) f
  rw [variance_units uY hYr hfa, variance_units uY' hYr hfa]
  refine nMSE_congr sY.1 (fun n hn => sY.2.2 n hn f hf) fun n hn => hp.2.2 n ?_ f ?_
  · rw [hl.rows, uX.1, ← h.sameRows, ← uY.1]; exact hn
  · rw [hl.cols]; exact hf

/-- **Other units of measurement do not change the report**: the columns of both files may be multiplied by positive numbers and shifted, as long
as no input is constant in the training file. -/
theorem sarcos_units {learn : Mat → Mat → Mat → Mat} (hl : Careful learn) {a a' : Arrays} (h : Proper a) (h' : Proper a')
    (s t u v : ℕ → ℝ) (hs : ∀ d, 0 < s d) (hu : ∀ f, 0 < u f)
    (rX : a'.X.rows = a.X.rows) (cX : a'.X.cols = a.X.cols) (vX : ∀ n < a.X.rows, ∀ d < a.X.cols, a'.X.val n d = s d * a.X.val n d + t d)
    (rXt : a'.Xtest.rows = a.Xtest.rows)
    (vXt : ∀ n < a.Xtest.rows, ∀ d < a.X.cols, a'.Xtest.val n d = s d * a.Xtest.val n d + t d)
    (cY : a'.Y.cols = a.Y.cols) (vY : ∀ n < a.X.rows, ∀ f < a.Y.cols, a'.Y.val n f = u f * a.Y.val n f + v f)
    (vYt : ∀ n < a.Xtest.rows, ∀ f < a.Y.cols, a'.Ytest.val n f = u f * a.Ytest.val n f + v f)
    (hX : ∀ d < a.X.cols, ¬ Constant a.X d) : sarcos learn a = sarcos learn a' := by
  obtain ⟨b, hb, uX, uY, uXt, uYt⟩ := normalise_units h
  obtain ⟨b', hb', uX', uY', uXt', uYt'⟩ := normalise_units h'
  have hYr : 0 < a.Y.rows := h.sameRows ▸ h.rows
  have hYr' : 0 < a'.Y.rows := h'.sameRows ▸ h'.rows
  have rY : a'.Y.rows = a.Y.rows := by rw [h'.sameRows, h.sameRows, rX]
  have rYt : a'.Ytest.rows = a.Ytest.rows := by rw [h'.sameTestRows, h.sameTestRows, rXt]
  -- statistics
  have step : ∀ {A A' W W' Z Z' : Mat} {p q : ℕ → ℝ} {d : ℕ}, InUnitsOf A W Z → InUnitsOf A' W' Z' → A'.rows = A.rows → 0 < A.rows → 0 < p d →
      d < A.cols → d < A'.cols → W'.rows = W.rows → (∀ n < A.rows, A'.val n d = p d * A.val n d + q d) →
      (∀ n < W.rows, W'.val n d = p d * W.val n d + q d) → ¬ Constant A d → ∀ n < W.rows, Z.val n d = Z'.val n d := by
    intro A A' W W' Z Z' p q d hZ hZ' hr h0 hp hd hd' hW hA hWv hc n hn
    have hne : deviation A d ≠ 0 := fun h' => hc ((deviation_eq_zero h0).1 h')
    rw [hZ.2.2 n hn d hd, hZ'.2.2 n (hW ▸ hn) d hd', hWv n hn, mean_affine hr h0 hA]
    simp only [scale]
    rw [deviation_affine hr h0 hp.le hA, if_neg hne, if_neg (mul_ne_zero hp.ne' hne)]
    have := hp.ne'
    field_simp
    ring
  have sX : b.X.Same b'.X := by
    refine ⟨by rw [uX.1, uX'.1, rX], by rw [uX.2.1, uX'.2.1, cX], fun n hn d hd => ?_⟩
    rw [uX.1] at hn
    rw [uX.2.1] at hd
    exact step (p := s) (q := t) uX uX' rX h.rows (hs d) hd (cX ▸ hd) rX (fun n hn => vX n hn d hd) (fun n hn => vX n hn d hd) (hX d hd) n hn
  have sXt : b.Xtest.Same b'.Xtest := by
    refine ⟨by rw [uXt.1, uXt'.1, rXt], by rw [uXt.2.1, uXt'.2.1, h.testInputs, h'.testInputs, cX], fun n hn d hd => ?_⟩
    rw [uXt.1] at hn
    rw [uXt.2.1, h.testInputs] at hd
    exact step (p := s) (q := t) uXt uXt' rX h.rows (hs d) hd (cX ▸ hd) rXt (fun n hn => vX n hn d hd) (fun n hn => vXt n hn d hd) (hX d hd) n hn
  have hconst : ∀ f < a.Y.cols, Constant a'.Y f ↔ Constant a.Y f := by
    intro f hf
    rw [← deviation_eq_zero hYr', ← deviation_eq_zero hYr,
      deviation_affine rY hYr (hu f).le (fun n hn => vY n (h.sameRows ▸ hn) f hf)]
    simp [(hu f).ne']
  have sY : b.Y.Same b'.Y := by
    refine ⟨by rw [uY.1, uY'.1, rY], by rw [uY.2.1, uY'.2.1, cY], fun n hn f hf => ?_⟩
    rw [uY.1] at hn
    rw [uY.2.1] at hf
    by_cases hc : Constant a.Y f
    · have e1 : ∀ {A Z : Mat}, InUnitsOf A A Z → n < A.rows → f < A.cols → Constant A f → Z.val n f = 0 := by
        intro A Z hZ hn hf hc
        have hN : (A.rows : ℝ) ≠ 0 := by exact_mod_cast (lt_of_le_of_lt (Nat.zero_le n) hn).ne'
        have hm : mean A f = A.val n f := by
          unfold mean
          rw [Finset.sum_congr rfl (g := fun _ => A.val n f) fun k hk => hc k (Finset.mem_range.1 hk) n hn]
          rw [Finset.sum_const, Finset.card_range, nsmul_eq_mul]
          field_simp
        rw [hZ.2.2 n hn f hf, hm, sub_self, zero_div]
      rw [e1 uY hn hf hc, e1 uY' (rY ▸ hn) (cY ▸ hf) ((hconst f hf).2 hc)]
    · exact step (p := u) (q := v) uY uY' rY hYr (hu f) hf (cY ▸ hf) rY (fun n hn => vY n (h.sameRows ▸ hn) f hf)
        (fun n hn => vY n (h.sameRows ▸ hn) f hf) hc n hn
  rw [sarcos_eq learn hb, sarcos_eq learn hb']
  congr 1
  rw [← sY.2.1]
  refine List.map_congr_left fun f hf => ?_
  have hf : f < b.Y.cols := List.mem_range.1 hf
  have hfa : f < a.Y.cols := by rw [← uY.2.1]; exact hf
  rw [variance_units uY hYr hfa, variance_units uY' hYr' (cY ▸ hfa)]
  by_cases hc : Constant a.Y f
  · simp [nMSE, if_pos hc, if_pos ((hconst f hfa).2 hc)]
  · rw [if_neg hc, if_neg (fun h => hc ((hconst f hfa).1 h))]
    congr 1
    · refine nMSE_congr sY.1 (fun n hn => sY.2.2 n hn f hf) fun n hn => (hl.same sX sY sX).2.2 n ?_ f ?_
      · rw [hl.rows, uX.1, ← h.sameRows, ← uY.1]; exact hn
      · rw [hl.cols]; exact hf
    · refine nMSE_congr (by rw [uYt.1, uYt'.1, rYt]) (fun n hn => ?_) fun n hn => (hl.same sX sY sXt).2.2 n ?_ f ?_
      · rw [uYt.1] at hn
        exact step (p := u) (q := v) uYt uYt' rY hYr (hu f) hfa (cY ▸ hfa) rYt (fun n hn => vY n (h.sameRows ▸ hn) f hfa)
          (fun n hn => vYt n (h.sameTestRows ▸ hn) f hfa) hc n hn
      · rw [hl.rows, uXt.1, ← h.sameTestRows, ← uYt.1]; exact hn
      · rw [hl.cols]; exact hf

/-- **Every constant prediction has at least 100 % on the training data, with equality for the mean**: a smaller number is
better than any guess that ignores the inputs. -/
theorem sarcos_baseline (learn : Mat → Mat → Mat → Mat) {a : Arrays} (h : Proper a) {f : ℕ} (hf : f < a.Y.cols) (hc : ¬ Constant a.Y f)
    (c : ℝ) (hp : ∀ X Y Z n, (learn X Y Z).val n f = c) : ∃ l e', sarcos learn a = ok l ∧ l[f]? = some (some (1 + c ^ 2), e') := by
  obtain ⟨b, hb, uX, uY, uXt, uYt⟩ := normalise_units h
  have hYr : 0 < a.Y.rows := h.sameRows ▸ h.rows
  have hlen : f < b.Y.cols := by rw [uY.2.1]; exact hf
  refine ⟨_, nMSE b.Ytest (learn b.X b.Y b.Xtest) (variance b.Y f) f, sarcos_eq learn hb, ?_⟩
  rw [List.getElem?_map, List.getElem?_range hlen, Option.map_some]
  congr 2
  have hv := variance_units uY hYr hf
  rw [if_neg hc] at hv
  have hN : (b.Y.rows : ℝ) ≠ 0 := by rw [uY.1]; exact_mod_cast hYr.ne'
  have hm : mean b.Y f = 0 := by
    have hv : ∀ n < a.Y.rows, b.Y.val n f = (scale a.Y f)⁻¹ * a.Y.val n f + -(mean a.Y f * (scale a.Y f)⁻¹) := fun n hn => by
      rw [uY.2.2 n hn f hf, div_eq_mul_inv]; ring
    rw [mean_affine uY.1 hYr hv]; ring
  unfold nMSE
  rw [if_neg (by rw [hv, uY.1]; simp [hYr.ne']), hv, div_one]
  congr 1
  rw [← hv]
  have hsum : ∑ n ∈ Finset.range b.Y.rows, b.Y.val n f = 0 := by
    unfold mean at hm
    rcases div_eq_zero_iff.1 hm with h1 | h1
    · exact h1
    · exact absurd h1 hN
  unfold variance
  rw [hsum, zero_div]
  have : ∀ n ∈ Finset.range b.Y.rows, (b.Y.val n f - (learn b.X b.Y b.X).val n f) ^ 2 =
      (b.Y.val n f - 0) ^ 2 + -2 * c * b.Y.val n f + c ^ 2 := fun n _ => by rw [hp]; ring
  rw [Finset.sum_congr rfl this, Finset.sum_add_distrib, Finset.sum_add_distrib, ← Finset.mul_sum, hsum]
  simp only [Finset.sum_const, Finset.card_range, nsmul_eq_mul]
  field_simp
  ring

/-- **False of the code: every output has an nMSE.**  For an output that is constant in the training file nothing finite is printed. -/
theorem sarcos_constant_fails (learn : Mat → Mat → Mat → Mat) {a : Arrays} (h : Proper a) {f : ℕ} (hf : f < a.Y.cols) (hc : Constant a.Y f) :
    ∃ l, sarcos learn a = ok l ∧ l[f]? = some (none, none) := by
  obtain ⟨b, hb, uX, uY, uXt, uYt⟩ := normalise_units h
  have hYr : 0 < a.Y.rows := h.sameRows ▸ h.rows
  have hlen : f < b.Y.cols := by rw [uY.2.1]; exact hf
  refine ⟨_, sarcos_eq learn hb, ?_⟩
  rw [List.getElem?_map, List.getElem?_range hlen, Option.map_some, variance_units uY hYr hf, if_pos hc]
  simp [nMSE]

/-- **False of the code: the validation number is divided by the variance of the validation outputs.**  A method that always predicts the mean
of the validation outputs gets the quotient of both variances instead of 100 %. -/
theorem sarcos_validation_fails (learn : Mat → Mat → Mat → Mat) {a : Arrays} (h : Proper a) {f : ℕ} (hf : f < a.Y.cols) (hc : ¬ Constant a.Y f)
    (hp : ∀ X Y Z n, (original a.Y (learn X Y Z)).val n f = mean a.Ytest f) :
    ∃ l e, sarcos learn a = ok l ∧ l[f]? = some (e, some ((deviation a.Ytest f / deviation a.Y f) ^ 2)) := by
  obtain ⟨b, l, -, -, -, -, hl, -, hv⟩ := sarcos_nMSE learn h
  refine ⟨l, some (mse a.Y (original a.Y (learn b.X b.Y b.X)) f / deviation a.Y f ^ 2), hl, ?_⟩
  rw [hv f hf hc]
  congr 3
  rw [div_pow]
  congr 1
  rw [← variance_eq]
  unfold mse variance
  congr 1
  exact Finset.sum_congr rfl fun n _ => by rw [hp]; rfl

/-- Example for the hypotheses: two instances, one feature, one output with half the deviation of the validation outputs; the learner predicts the mean
of the training outputs, or reads inputs and targets. -/
example : ∃ a : Arrays, Proper a ∧ ¬ Constant a.X 0 ∧ ¬ Constant a.Y 0 ∧ deviation a.Ytest 0 ≠ deviation a.Y 0 ∧
    Careful (fun _ Y Z => ⟨Z.rows, Y.cols, fun _ _ => 0⟩) ∧
    ∀ n, (original a.Y ⟨a.Xtest.rows, a.Y.cols, fun _ _ => 0⟩).val n 0 = mean a.Ytest 0 := by
  refine ⟨⟨⟨2, 1, fun n _ => n⟩, ⟨2, 1, fun n _ => if n = 0 then 1 else -1⟩, ⟨2, 1, fun n _ => n⟩, ⟨2, 1, fun n _ => if n = 0 then 2 else -2⟩⟩,
    ⟨by norm_num, rfl, by norm_num, rfl, by norm_num, by norm_num, rfl, rfl⟩, fun h => ?_, fun h => ?_, ?_,
    ⟨fun _ hY hZ => ⟨hZ.1, hY.2.1, fun _ _ _ _ => rfl⟩, fun _ _ _ => rfl, fun _ _ _ => rfl⟩, fun n => ?_⟩
  · simpa using h 0 (by norm_num) 1 (by norm_num)
  · have := h 0 (by norm_num) 1 (by norm_num)
    norm_num at this
  · intro h
    have h2 : deviation (⟨2, 1, fun n _ => if n = 0 then 2 else -2⟩ : Mat) 0 ^ 2 = deviation (⟨2, 1, fun n _ => if n = 0 then 1 else -1⟩ : Mat) 0 ^ 2 := by
      rw [h]
    rw [← variance_eq, ← variance_eq] at h2
    norm_num [variance, Finset.sum_range_succ] at h2
  · norm_num [original, mean, Finset.sum_range_succ]

/-! ## Iris -/

theorem mem_slice {N a b i : ℕ} : i ∈ slice N a b ↔ a ≤ i ∧ i < b ∧ i < N := by
  simp only [slice, List.mem_range'_1]
  omega

theorem mem_trainingRows {N i : ℕ} : i ∈ trainingRows N ↔ i < N ∧ i < 150 ∧ i % 50 < 40 := by
  simp only [trainingRows, List.mem_append, mem_slice]
  omega

theorem mem_validationRows {N i : ℕ} : i ∈ validationRows N ↔ i < N ∧ i < 150 ∧ 40 ≤ i % 50 := by
  simp only [validationRows, List.mem_append, mem_slice]
  omega

theorem nodup_slice (N a b : ℕ) : (slice N a b).Nodup := List.nodup_range'

/-- **The data set is divided**: no instance is used twice, none is in both sets, and all of the first 150 are used. -/
theorem iris_partition (N : ℕ) : (trainingRows N ++ validationRows N).Nodup ∧
    ∀ i, i ∈ trainingRows N ++ validationRows N ↔ i < N ∧ i < 150 := by
  constructor
  · rw [List.nodup_append]
    refine ⟨?_, ?_, ?_⟩
    · simp only [trainingRows, List.nodup_append, List.mem_append, mem_slice]
      exact ⟨⟨nodup_slice .., nodup_slice .., by omega⟩, nodup_slice .., by omega⟩
    · simp only [validationRows, List.nodup_append, List.mem_append, mem_slice]
      exact ⟨⟨nodup_slice .., nodup_slice .., by omega⟩, nodup_slice .., by omega⟩
    · intro i hi j hj
      rw [mem_trainingRows] at hi
      rw [mem_validationRows] at hj
      rintro rfl
      omega
  · intro i
    rw [List.mem_append, mem_trainingRows, mem_validationRows]
    omega

/-- **Each class is equally distributed if the instances are sorted by classes**, 50 of each: 40 are for training, 10 for validation. -/
theorem iris_classes (Y : ℕ → ℕ) (hY : ∀ n < 150, Y n = n / 50) (c : ℕ) (hc : c < 3) :
    ((trainingRows 150).filter fun n => Y n = c).length = 40 ∧ ((validationRows 150).filter fun n => Y n = c).length = 10 := by
  have h1 : (trainingRows 150).filter (fun n => Y n = c) = (trainingRows 150).filter (fun n => n / 50 = c) :=
    List.filter_congr fun n hn => by rw [hY n (mem_trainingRows.1 hn).2.1]
  have h2 : (validationRows 150).filter (fun n => Y n = c) = (validationRows 150).filter (fun n => n / 50 = c) :=
    List.filter_congr fun n hn => by rw [hY n (mem_validationRows.1 hn).2.1]
  rw [h1, h2]
  interval_cases c <;> decide

/-- **False of the code for other orders**: nothing looks at the labels; 50 instances of each class may be sorted so that the validation set has only
one class. -/
theorem iris_order_fails : ∃ Y : ℕ → ℕ, (∀ c < 3, ((List.range 150).filter fun n => Y n = c).length = 50) ∧
    ((trainingRows 150).filter fun n => Y n = 0).length = 20 ∧ ((validationRows 150).filter fun n => Y n = 0).length = 30 := by
  refine ⟨fun n => if 40 ≤ n % 50 then 0 else if n < 20 then 0 else if n < 80 then 1 else 2, fun c hc => ?_, by decide⟩
  interval_cases c <;> decide

/-- **The targets of an instance are 1 for its class and 0 for the others**; labels that are not the numbers from 0 are an exception. -/
theorem iris_oneOfC (N : ℕ) (Y : ℕ → ℕ) : (∃ T, irisTargets N Y = ok T ∧ T.rows = N ∧ T.cols = ((Finset.range N).image Y).card ∧
      ∀ n < N, Y n < T.cols ∧ T.val n (Y n) = 1 ∧ ∀ f < T.cols, f ≠ Y n → T.val n f = 0) ∨
    (irisTargets N Y = throws ∧ ∃ c ∉ (Finset.range N).image Y, c < ((Finset.range N).image Y).card) := by
  unfold irisTargets
  split_ifs with h
  · left
    refine ⟨_, rfl, rfl, rfl, fun n hn => ⟨h n hn, by simp, fun f _ hf => by simp [hf]⟩⟩
  · right
    refine ⟨rfl, ?_⟩
    push Not at h
    obtain ⟨n, hn, hle⟩ := h
    by_contra hcon
    push Not at hcon
    -- otherwise all numbers below the number of classes are labels, and `Y n` is one more
    have hsub : insert (Y n) (Finset.range ((Finset.range N).image Y).card) ⊆ (Finset.range N).image Y := by
      intro c hc
      rcases Finset.mem_insert.1 hc with rfl | hc
      · exact Finset.mem_image_of_mem Y (Finset.mem_range.2 hn)
      · by_contra hnot
        exact absurd (hcon c hnot) (not_le.2 (Finset.mem_range.1 hc))
    have hcard := Finset.card_le_card hsub
    rw [Finset.card_insert_of_notMem (by rw [Finset.mem_range]; exact not_lt.2 hle), Finset.card_range] at hcard
    omega

/-- **Training and validation set consist of the instances with their own targets.** -/
theorem iris_sets (X : Mat) (Y : ℕ → ℕ) (T : Mat) (hT : irisTargets X.rows Y = ok T) : ∃ tr va, iris X Y = ok (tr, va) ∧
    (X.rows = 150 → tr.length = 120 ∧ va.length = 30) ∧
    (∀ p, p ∈ tr ↔ ∃ n, n < X.rows ∧ n < 150 ∧ n % 50 < 40 ∧ p = (irisInputs X n, T.val n)) ∧
    (∀ p, p ∈ va ↔ ∃ n, n < X.rows ∧ n < 150 ∧ 40 ≤ n % 50 ∧ p = (irisInputs X n, T.val n)) := by
  refine ⟨rowsOf (trainingRows X.rows) (irisInputs X) T, rowsOf (validationRows X.rows) (irisInputs X) T,
    by simp only [iris, hT, ok_bind], fun h => by simp only [rowsOf, List.length_map, h]; decide, fun p => ?_, fun p => ?_⟩
  · simp only [rowsOf, List.mem_map, mem_trainingRows]
    exact ⟨fun ⟨n, ⟨a, b, c⟩, e⟩ => ⟨n, a, b, c, e.symm⟩, fun ⟨n, a, b, c, e⟩ => ⟨n, ⟨a, b, c⟩, e.symm⟩⟩
  · simp only [rowsOf, List.mem_map, mem_validationRows]
    exact ⟨fun ⟨n, ⟨a, b, c⟩, e⟩ => ⟨n, a, b, c, e.symm⟩, fun ⟨n, a, b, c, e⟩ => ⟨n, ⟨a, b, c⟩, e.symm⟩⟩

/-- Example: the labels of the data set are accepted; labels 1, 2, 3 are not. -/
example : (∃ T, irisTargets 150 (fun n => n / 50) = ok T ∧ T.cols = 3) ∧ irisTargets 150 (fun n => n / 50 + 1) = throws := by
  have h1 : classes 150 (fun n => n / 50) = 3 := by
    have : (Finset.range 150).image (fun n => n / 50) = Finset.range 3 := by
      ext c
      simp only [Finset.mem_image, Finset.mem_range]
      exact ⟨fun ⟨n, hn, h⟩ => by omega, fun h => ⟨50 * c, by omega, by omega⟩⟩
    rw [classes, this, Finset.card_range]
  have h2 : classes 150 (fun n => n / 50 + 1) = 3 := by
    have : (Finset.range 150).image (fun n => n / 50 + 1) = (Finset.range 3).image (· + 1) := by
      ext c
      simp only [Finset.mem_image, Finset.mem_range]
      exact ⟨fun ⟨n, hn, h⟩ => ⟨n / 50, by omega, h⟩, fun ⟨k, hk, h⟩ => ⟨50 * k, by omega, by omega⟩⟩
    rw [classes, this, Finset.card_image_of_injective _ (add_left_injective 1), Finset.card_range]
  constructor
  · refine ⟨⟨150, 3, fun n f => if f = n / 50 then 1 else 0⟩, ?_, rfl⟩
    unfold irisTargets
    rw [h1, if_pos (fun n hn => by show n / 50 < 3; omega)]
  · unfold irisTargets
    rw [h2, if_neg (fun h => by have := h 149 (by norm_num); norm_num at this)]

/-- **The inputs have mean 0 and deviation 1 over all instances together**; a constant feature is not a number in all instances. -/
theorem iris_inputs (X : Mat) (hr : 0 < X.rows) (d : ℕ) :
    (Constant X d → ∀ n, irisInputs X n d = none) ∧
    (¬ Constant X d → ∃ Z : Mat, Z.rows = X.rows ∧ (∀ n, irisInputs X n d = some (Z.val n d)) ∧ mean Z d = 0 ∧ deviation Z d = 1) := by
  have hs : Real.sqrt (variance X d) = deviation X d := by rw [variance_eq, Real.sqrt_sq (deviation_nonneg X d)]
  constructor
  · intro hc n
    simp only [irisInputs, hs, (deviation_eq_zero hr).2 hc, if_true]
  · intro hc
    have hne : deviation X d ≠ 0 := fun h' => hc ((deviation_eq_zero hr).1 h')
    have hpos : 0 < deviation X d := lt_of_le_of_ne (deviation_nonneg X d) (Ne.symm hne)
    have hv : ∀ n < X.rows, (X.val n d - mean X d) / deviation X d = (deviation X d)⁻¹ * X.val n d + -(mean X d * (deviation X d)⁻¹) :=
      fun n _ => by rw [div_eq_mul_inv]; ring
    let Z : Mat := ⟨X.rows, X.cols, fun n d => (X.val n d - mean X d) / deviation X d⟩
    refine ⟨Z, rfl, fun n => ?_, ?_, ?_⟩
    · simp only [irisInputs, hs, if_neg hne]
      rfl
    · rw [mean_affine (X := X) (Z := Z) rfl hr hv]; ring
    · rw [deviation_affine (X := X) (Z := Z) rfl hr (inv_nonneg.2 hpos.le) hv, inv_mul_cancel₀ hne]

/-- **False of the code: the training set of Iris does not depend on the validation instances.**  Means and deviations are those of all
instances: if one validation instance is changed in one feature, the inputs of the training set change. -/
theorem iris_leak_fails : ∃ X X' : Mat, X.rows = 150 ∧ X'.rows = 150 ∧ X.cols = X'.cols ∧
    (∀ n, n ≠ 40 → ∀ d, X.val n d = X'.val n d) ∧ ∃ z z' : ℝ, irisInputs X 0 0 = some z ∧ irisInputs X' 0 0 = some z' ∧ z ≠ z' := by
  -- with -1 in the changed instance the mean is 0, with 0 it is not
  let X (e : ℝ) : Mat := ⟨150, 4, fun n _ => if n = 40 then e else if n = 41 then 1 else 0⟩
  have hval : ∀ e n, (X e).val n 0 = (if n = 40 then e else 0) + (if n = 41 then 1 else 0) := by
    intro e n
    by_cases h : n = 40
    · subst h; simp [X]
    · simp [X, h]
  have hmean : ∀ e, mean (X e) 0 = (e + 1) / 150 := by
    intro e
    unfold mean
    simp only [hval, Finset.sum_add_distrib, Finset.sum_ite_eq', Finset.mem_range]
    norm_num [X]
  have hdev : ∀ e, e ≠ 1 → deviation (X e) 0 ≠ 0 := fun e _ h => by
    have := (deviation_eq_zero (X := X e) (by norm_num [X])).1 h 41 (by norm_num [X]) 0 (by norm_num [X])
    simp [X] at this
  have hin : ∀ e, e ≠ 1 → irisInputs (X e) 0 0 = some ((0 - (e + 1) / 150) / deviation (X e) 0) := by
    intro e he
    have hs : Real.sqrt (variance (X e) 0) = deviation (X e) 0 := by rw [variance_eq, Real.sqrt_sq (deviation_nonneg _ _)]
    simp only [irisInputs, hs, if_neg (hdev e he)]
    congr 2
    rw [← hmean e]
    simp [X, mean]
  refine ⟨X 0, X (-1), rfl, rfl, rfl, fun n hn d => by simp [X, hn], _, _, hin 0 (by norm_num), hin (-1) (by norm_num), ?_⟩
  norm_num
  exact hdev 0 (by norm_num)

end

end Verif.Scripts
