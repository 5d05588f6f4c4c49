import Verif.Model.LRN
import Verif.Props.ConvBackprop
import Mathlib.Analysis.SpecialFunctions.Pow.Deriv

/-!
# Local response normalisation: C26
-/

namespace Verif.NN

open Finset

namespace LRN

variable {g : LRN}

noncomputable section

/-- Spec: the formula of the documentation (with squares), for map `i` and place `p` of an image given as a function of map
and place. -/
def formula (g : LRN) (x : ℕ → ℕ → ℝ) (i p : ℕ) : ℝ :=
  x i p / (g.k + g.alpha * ∑ j ∈ Finset.Icc (max 0 (i - g.size / 2)) (min (g.fm - 1) (i + g.size / 2)), x j p ^ 2) ^ g.beta

/-- Spec: instance `n` of a batch as an image. -/
def image (g : LRN) (x : Batch) (n : ℕ) : ℕ → ℕ → ℝ := fun i p => x n (i * (g.rows * g.cols) + p)

theorem split {i p S : ℕ} (hp : p < S) : (i * S + p) / S = i ∧ (i * S + p) % S = p := by
  have hS : 0 < S := by omega
  constructor
  · rw [Nat.mul_comm, Nat.mul_add_div hS, Nat.div_eq_of_lt hp, Nat.add_zero]
  · rw [Nat.mul_comm, Nat.mul_add_mod, Nat.mod_eq_of_lt hp]

theorem forward_eq (g : LRN) (x : Batch) (n : ℕ) {i p : ℕ} (hp : p < g.rows * g.cols) :
    g.image (g.forward x) n i p = g.image x n i p *
      (g.k + g.alpha * ∑ j ∈ g.maps n i, g.image x n j p ^ 2) ^ (-g.beta) := by
  obtain ⟨h1, h2⟩ := split (i := i) hp
  simp only [image, forward, denomAt, fmSize, h1, h2, denom, pow_two]

theorem maps_empty (g : LRN) {n : ℕ} (hn : n ≤ 1) (i : ℕ) : g.maps n i = ∅ := by
  have : n / 2 = 0 := by omega
  rw [maps, this]
  refine Finset.Ico_eq_empty ?_
  have := min_le_right (g.fm - 1) (i + 0)
  omega

/-- **C26, without competition** (`alpha = 0`).  Missing: all other settings, for which the statement is false. -/
theorem lrn_formula_partial (ha : g.alpha = 0) (hk : 0 ≤ g.k) (w : Weights) (N : ℕ) (x : Batch) (n : ℕ) {i p : ℕ}
    (hp : p < g.rows * g.cols) :
    g.image (g.layer.forward w N x) n i p = g.formula (g.image x n) i p := by
  show g.image (g.forward x) n i p = _
  rw [forward_eq g x n hp, formula, ha, zero_mul, zero_mul, add_zero, Real.rpow_neg hk, div_eq_mul_inv]

/-- **C26 is false** for the first two instances of every batch: whenever the input is not zero, the output differs from
the formula. -/
theorem lrn_formula_fails (ha : 0 < g.alpha) (hk : 0 < g.k) (hb : 0 < g.beta) (w : Weights) (N : ℕ) (x : Batch) {n : ℕ}
    (hn : n ≤ 1) {i p : ℕ} (hi : i < g.fm) (hp : p < g.rows * g.cols) (hx : g.image x n i p ≠ 0) :
    g.image (g.layer.forward w N x) n i p ≠ g.formula (g.image x n) i p := by
  show g.image (g.forward x) n i p ≠ _
  rw [forward_eq g x n hp, maps_empty g hn, Finset.sum_empty, mul_zero, add_zero, formula, div_eq_mul_inv]
  have hpos : 0 < ∑ j ∈ Finset.Icc (max 0 (i - g.size / 2)) (min (g.fm - 1) (i + g.size / 2)), g.image x n j p ^ 2 := by
    refine Finset.sum_pos' (fun j _ => sq_nonneg _) ⟨i, ?_, by positivity⟩
    rw [Finset.mem_Icc]
    refine ⟨by omega, ?_⟩
    rw [le_min_iff]
    omega
  intro e
  have e1 := mul_left_cancel₀ hx e
  rw [Real.rpow_neg hk.le, inv_inj] at e1
  have hlt : g.k < g.k + g.alpha *
      ∑ j ∈ Finset.Icc (max 0 (i - g.size / 2)) (min (g.fm - 1) (i + g.size / 2)), g.image x n j p ^ 2 := by
    have := mul_pos ha hpos
    linarith
  exact (Real.rpow_lt_rpow hk.le hlt hb).ne e1

/-- The setting recommended in the documentation meets the hypotheses. -/
example : ∃ g : LRN, 0 < g.alpha ∧ 0 < g.k ∧ 0 < g.beta ∧ 1 < g.fm ∧ g.size = 5 :=
  ⟨⟨3, 2, 2, 2, 5, 1e-4, 0.75⟩, by norm_num, by norm_num, by norm_num, by norm_num, rfl⟩

/-- The output of an instance depends on its place in the batch: the same image at places 0 and 2. -/
theorem lrn_batch_dependent (ha : 0 < g.alpha) (hk : 0 < g.k) (hb : 0 < g.beta) (hf : 3 ≤ g.fm)
    (hs : 0 < g.rows * g.cols) (w : Weights) (N : ℕ) :
    ∃ x : Batch, x 2 = x 0 ∧ g.image (g.layer.forward w N x) 2 1 0 ≠ g.image (g.layer.forward w N x) 0 1 0 := by
  refine ⟨fun _ _ => 1, rfl, ?_⟩
  show g.image (g.forward _) 2 1 0 ≠ g.image (g.forward _) 0 1 0
  rw [forward_eq g _ 2 hs, forward_eq g _ 0 hs, maps_empty g (by omega : 0 ≤ 1)]
  simp only [image, one_pow, Finset.sum_empty, mul_zero, add_zero, one_mul]
  have hm : g.maps 2 1 = Finset.Ico 0 2 := by
    rw [maps]
    congr 1
    omega
  rw [hm]
  simp only [Finset.sum_const, Nat.card_Ico, nsmul_eq_mul, mul_one]
  rw [Real.rpow_neg (by positivity), Real.rpow_neg hk.le]
  intro e
  rw [inv_inj] at e
  have : g.k < g.k + g.alpha * ((2 - 0 : ℕ) : ℝ) := by
    have : 0 < g.alpha * ((2 - 0 : ℕ) : ℝ) := by positivity
    linarith
  exact (Real.rpow_lt_rpow hk.le this hb).ne' e

/-- The layer obeys the law of backpropagation for batches with at most two rows (and for `alpha = 0`), where it scales its
input by a constant. -/
theorem lrn_backprop_partial {N : ℕ} (h : g.alpha = 0 ∨ N ≤ 2) (w0 : Weights) (x0 : Batch) :
    BackpropAt g.layer N w0 x0 := by
  have hd : ∀ (x : Batch) (n : ℕ), n < N → ∀ o, g.denomAt x n o = g.k := by
    intro x n hn o
    rw [denomAt, denom]
    rcases h with h | h
    · rw [h, zero_mul, add_zero]
    · rw [maps_empty g (by omega), Finset.sum_empty, mul_zero, add_zero]
  refine ⟨rfl, ?_⟩
  intro w x t0 w' x' _ hx0 _ _ hx
  subst hx0
  refine ⟨fun n o => x' n o * g.k ^ (-g.beta), 0, ?_, hasDerivAt_const t0 0, ?_⟩
  · intro n hn o ho
    have : (fun t => g.layer.forward (w t) N (x t) n o) = fun t => x t n o * g.k ^ (-g.beta) := by
      funext t
      show x t n o * g.denomAt (x t) n o ^ (-g.beta) = _
      rw [hd _ n hn]
    rw [this]
    exact (hx n hn o ho).mul_const _
  · intro ein stale
    show inner N g.inputs ein _ + 0 = inner N g.inputs (g.backward N (x t0) ein) x' + 0
    rw [add_zero, add_zero]
    refine Finset.sum_congr rfl fun n hn => Finset.sum_congr rfl fun o _ => ?_
    rw [mem_range] at hn
    have hz : x t0 n o * (∑ fmIn ∈ g.maps n (o / g.fmSize),
        g.etmp (x t0) ein ((fmIn * g.fmSize + o % g.fmSize) % N) ((fmIn * g.fmSize + o % g.fmSize) / N)) = 0 := by
      rcases h with h | h
      · have : ∀ a b, g.etmp (x t0) ein a b = 0 := fun a b => by rw [etmp, h]; ring
        simp only [this, Finset.sum_const_zero, mul_zero]
      · rw [maps_empty g (by omega), Finset.sum_empty, mul_zero]
    rw [backward, hz, hd _ n hn, zero_add]
    ring

/-- The gradient is wrong in the third row: with one pixel per map and three maps, the derivative of the last output with
respect to the middle input is not zero, but the layer returns zero. -/
theorem lrn_backprop_fails (ha : 0 < g.alpha) (hk : 0 < g.k) (hb : 0 < g.beta) (hf : g.fm = 3) (hr : g.rows = 1)
    (hc : g.cols = 1) (w0 : Weights) :
    ∃ x0 : Batch, ¬ BackpropAt g.layer 3 w0 x0 := by
  have hS : g.fmSize = 1 := by rw [fmSize, hr, hc]
  have hI : g.inputs = 3 := by rw [inputs, hf, hr, hc]
  let x : ℝ → Batch := fun t n o => if n = 2 then (if o = 1 then t else if o = 2 then 1 else 0) else 0
  let x' : Batch := fun n o => if n = 2 then (if o = 1 then 1 else 0) else 0
  let ein : Batch := fun n o => if n = 2 ∧ o = 2 then 1 else 0
  refine ⟨x 1, fun h => ?_⟩
  have hx : ∀ n, n < 3 → ∀ o, o < g.layer.inputs → HasDerivAt (fun t => x t n o) (x' n o) 1 := by
    intro n _ o _
    by_cases h2 : n = 2
    · by_cases h1 : o = 1
      · simp only [x, x', h2, h1, if_true]
        exact hasDerivAt_id' 1
      · simp only [x, x', h2, h1, if_true, if_false]
        exact hasDerivAt_const _ _
    · simp only [x, x', h2, if_false]
      exact hasDerivAt_const _ _
  obtain ⟨y', r', hy, hr', hd⟩ := h.2 (fun _ => w0) x 1 (fun _ => 0) x' rfl rfl
    (fun i _ => hasDerivAt_const _ _) (by intro i _ _; rfl) hx
  have h3 := hy 2 (by norm_num) 2 (by show 2 < g.inputs; omega)
  have hm : g.maps 2 2 = {1} := by rw [maps, hf]; rfl
  have hm1 : g.maps 2 1 = {0, 1} := by rw [maps, hf]; rfl
  have hfun : (fun t => g.layer.forward w0 3 (x t) 2 2) = fun t => (g.k + g.alpha * (t * t)) ^ (-g.beta) := by
    funext t
    show x t 2 2 * g.denomAt (x t) 2 2 ^ (-g.beta) = _
    rw [denomAt, hS, Nat.div_one, denom, hm, Finset.sum_singleton, hS]
    simp [x]
  rw [hfun] at h3
  have h4 : HasDerivAt (fun t : ℝ => (g.k + g.alpha * (t * t)) ^ (-g.beta))
      (g.alpha * (1 * 1 + 1 * 1) * (-g.beta) * (g.k + g.alpha * (1 * 1)) ^ (-g.beta - 1)) 1 := by
    refine HasDerivAt.rpow_const ?_ (Or.inl (by positivity))
    exact ((((hasDerivAt_id' (1 : ℝ)).mul (hasDerivAt_id' 1)).const_mul _).const_add _)
  have h5 := h3.unique h4
  have h6 := hd ein (fun _ _ => 0)
  have hR : r' = 0 := hr'.unique (hasDerivAt_const _ _)
  have hb1 : g.backward 3 (x 1) ein 2 1 = 0 := by
    rw [backward, hS, Nat.div_one, hm1]
    simp [etmp, ein]
  have hl : inner 3 g.layer.outputs ein y' = y' 2 2 := by
    show inner 3 g.inputs ein y' = _
    rw [hI]
    simp [inner, ein, Finset.sum_range_succ]
  have hrr : inner 3 g.layer.inputs (g.backward 3 (x 1) ein) x' = 0 := by
    show inner 3 g.inputs _ x' = _
    rw [hI]
    simp [inner, x', hb1]
  have h7 : y' 2 2 = 0 := by
    have : inner 3 g.layer.outputs ein y' + r' = inner 3 g.layer.inputs (g.backward 3 (x 1) ein) x' + 0 := h6
    rw [hl, hR, hrr] at this
    linarith
  rw [h7] at h5
  have : 0 < (g.k + g.alpha * (1 * 1)) ^ (-g.beta - 1) := Real.rpow_pos_of_pos (by positivity) _
  have : 0 < g.alpha * g.beta * (g.k + g.alpha * (1 * 1)) ^ (-g.beta - 1) := by positivity
  nlinarith

end

end LRN

end Verif.NN
