import Verif.Props.MiniBatch
import Verif.Props.LinearTraining
import Verif.Props.DropoutMean
import Verif.Props.Determined
import Mathlib.Analysis.SpecialFunctions.Log.Basic

/-!
# C125: outputs of trained networks are estimates of means and class probabilities

A network with a linear output layer (`outputLayer(F, LINEAR)`, with `setErrorFunction(MSE)` or `setErrorFunction(CE)`) predicts
averages.  Where the gradient for the whole training set is small, the mean output is the mean target, and the residuals are
uncorrelated with the outputs of the last hidden layer.  The smallest error that is possible is the error of the average of the
targets over the instances with the same input, and a network whose error is close to it is close to these averages.
-/

namespace Verif.NN

open Finset Verif.Opt

noncomputable section

/-! ## Specification -/

/-- Spec: the instances `n` and `m` of the training set have the same `D` inputs. -/
def SameInput (D : ℕ) (ds : TrainSet) (n m : ℕ) : Prop := ∀ i < D, ds.inst n i = ds.inst m i

open Classical in
/-- Spec: the instances of the training set with the inputs of instance `n`. -/
def alike (D : ℕ) (ds : TrainSet) (n : ℕ) : Finset ℕ := (range ds.samples).filter fun m => SameInput D ds n m

/-- Spec: the average target for the input of instance `n`; for targets in 1-of-c encoding it is the frequency of class `j`. -/
def meanTarget (D : ℕ) (ds : TrainSet) (n j : ℕ) : ℝ := (∑ m ∈ alike D ds n, ds.tgt m j) / (alike D ds n).card

/-- Spec: the error of the average targets. -/
def noise (D F : ℕ) (ds : TrainSet) : ℝ :=
  (∑ n ∈ range ds.samples, ∑ j ∈ range F, (meanTarget D ds n j - ds.tgt n j) ^ 2) / (2 * ds.samples)

/-- Spec: the entropy of the average targets. -/
def entropy (D F : ℕ) (ds : TrainSet) : ℝ :=
  -(∑ n ∈ range ds.samples, ∑ j ∈ range F, meanTarget D ds n j * Real.log (meanTarget D ds n j)) / ds.samples

/-- Spec: the targets are probabilities of classes, e.g. in 1-of-c encoding. -/
structure ClassTargets (F : ℕ) (ds : TrainSet) : Prop where
  nonneg : ∀ n < ds.samples, ∀ j < F, 0 ≤ ds.tgt n j
  sum : ∀ n < ds.samples, ∑ j ∈ range F, ds.tgt n j = 1

/-! ## The gradient of the last layer -/

theorem traceFrom_append (mem : Mem) (N : ℕ) : ∀ (A B : List Layer) (k : ℕ) (x : Batch),
    traceFrom mem N k (A ++ B) x = traceFrom mem N k A x ++ traceFrom mem N (k + A.length) B (forwardFrom mem N k A x) := by
  intro A
  induction A with
  | nil => intro B k x; rfl
  | cons a A ih =>
    intro B k x
    rw [List.cons_append, traceFrom, ih, traceFrom, List.cons_append, List.length_cons, forwardFrom, add_assoc, add_comm 1]

theorem traceFrom_lt (mem : Mem) (N : ℕ) : ∀ (A : List Layer) (k : ℕ) (x : Batch), ∀ t ∈ traceFrom mem N k A x,
    t.1 < k + A.length := by
  intro A
  induction A with
  | nil => intro k x t h; cases h
  | cons a A ih =>
    intro k x t h
    rcases List.mem_cons.1 h with rfl | h
    · simp
    · have := ih _ _ t h
      rw [List.length_cons]
      omega

theorem foldr_other (mem : Mem) (N : ℕ) (stale : ℕ → Batch) (m : ℕ) (st : Batch × Mem) :
    ∀ ts : List (ℕ × Layer × Batch), (∀ t ∈ ts, t.1 ≠ m) → (ts.foldr (backStep mem N stale) st).2 m = st.2 m := by
  intro ts
  induction ts with
  | nil => intro _; rfl
  | cons t ts ih =>
    intro h
    rw [List.foldr_cons]
    show Function.update _ t.1 _ m = _
    rw [Function.update_of_ne (h t (by simp)).symm, ih fun t' ht => h t' (by simp [ht])]

theorem last_derivs (mem : Mem) (N : ℕ) (stale : ℕ → Batch) (A : List Layer) (l : Layer) (x e : Batch) (d : Mem) :
    (backFrom mem N stale 0 (A ++ [l]) x e d).2 A.length =
      l.derivs (mem A.length) N (forwardFrom mem N 0 A x) e := by
  rw [backFrom, traceFrom_append, List.foldr_append, foldr_other]
  · show Function.update _ (0 + A.length) _ _ = _
    rw [Nat.zero_add, Function.update_self]
    rfl
  · intro t ht
    have := traceFrom_lt mem N A 0 x t ht
    omega

theorem isParamFrom_last (k : Kind) (s : Slot) : ∀ (ks : List Kind) (I : ℕ),
    IsParamFrom I (ks ++ [k]) ks.length s ↔ k.IsParam (outFrom I (layersFrom I ks)) s := by
  intro ks
  induction ks with
  | nil => intro I; exact Iff.rfl
  | cons a ks ih => intro I; exact ih _

theorem layers_last (D : ℕ) (ks : List Kind) (k : Kind) (ce : Bool) :
    (buildNet D (ks ++ [k]) ce).layers =
      (buildNet D ks false).layers ++ [k.layer (outFrom D (layersFrom D ks))] := by
  show inputLayer D :: layersFrom D (ks ++ [k]) = inputLayer D :: layersFrom D ks ++ _
  rw [layersFrom_append]
  rfl

theorem outputs_last (D : ℕ) (ks : List Kind) (F : ℕ) (bias : Bool) (act : Act) (reg : Reg) (ce : Bool) :
    (buildNet D (ks ++ [.fullyConnected F bias act reg]) ce).outputs = F := by
  rw [Net.outputs, layers_last]
  simp
  rfl

/-- The entry of the gradient for a parameter of the last layer. -/
theorem last_gradient {D : ℕ} (ks : List Kind) (k : Kind) (ce : Bool) (mem : Mem) (sc : Scratch) (ds : TrainSet)
    {s : Slot} (hs : k.IsParam (buildNet D ks false).outputs s) :
    ∃ i < (buildNet D (ks ++ [k]) ce).P, (buildNet D (ks ++ [k]) ce).parameters[i]? = some (ks.length + 1, s) ∧
      ((buildNet D (ks ++ [k]) ce).errorGradientAll mem sc ds).2[i]? = some
        ((k.layer (buildNet D ks false).outputs).derivs (mem (ks.length + 1)) ds.samples
          ((buildNet D ks false).predictAll mem ds.samples (selectRows ds.inst (List.range ds.samples)))
          (fun n j => (buildNet D (ks ++ [k]) ce).predictAll mem ds.samples (selectRows ds.inst (List.range ds.samples)) n j
            - selectRows ds.tgt (List.range ds.samples) n j) s / ds.samples) := by
  rw [outputs_buildNet] at hs ⊢
  obtain ⟨h1, _, _, h2, _⟩ := parameters_one_to_one D (ks ++ [k]) ce
  have hm : (ks.length + 1, s) ∈ (buildNet D (ks ++ [k]) ce).parameters := by
    have := h1 ks.length s ((isParamFrom_last k s ks D).2 hs)
    exact List.count_pos_iff.1 (by omega)
  obtain ⟨i, hi, he⟩ := List.getElem_of_mem hm
  refine ⟨i, hi, List.getElem?_eq_some_iff.2 ⟨hi, he⟩, ?_⟩
  rw [Net.errorGradientAll, Net.errorGradient, Net.grad, List.length_range, List.getElem?_map, h2,
    List.getElem?_eq_some_iff.2 ⟨hi, he⟩, Option.map_some]
  have hl : (buildNet D ks false).layers.length = ks.length + 1 := by
    show (inputLayer D :: layersFrom D ks).length = _
    rw [List.length_cons, layersFrom_length]
  have key := last_derivs mem ds.samples sc.stale (buildNet D ks false).layers (k.layer (outFrom D (layersFrom D ks)))
    (selectRows ds.inst (List.range ds.samples))
    (fun n j => (buildNet D (ks ++ [k]) ce).output mem ds.samples (selectRows ds.inst (List.range ds.samples)) n j
      - selectRows ds.tgt (List.range ds.samples) n j) sc.derivs
  rw [hl, ← layers_last D ks k ce] at key
  rw [key]
  rfl

section

variable {D F : ℕ} {ks : List Kind} {bias ce : Bool} {reg : Reg} (h : ∀ k ∈ ks, k.RowWise) (mem : Mem) (sc : Scratch)
  (ds : TrainSet)
include h

theorem rowWise_last (F : ℕ) (bias : Bool) (act : Act) (reg : Reg) : ∀ k ∈ ks ++ [.fullyConnected F bias act reg], k.RowWise := by
  intro k hk
  rcases List.mem_append.1 hk with hk | hk
  · exact h k hk
  · cases List.mem_singleton.1 hk
    trivial

/-- **C125 (means)**: for every network with a linear output layer, every weights and every training set, the entry of the
gradient for the bias of output `j` is the difference between the mean output and the mean target, whatever penalties and
constraints there are. -/
theorem bias_gradient {j : ℕ} (hj : j < F) :
    ∃ i < (buildNet D (ks ++ [.fullyConnected F true .linear reg]) ce).P,
      (buildNet D (ks ++ [.fullyConnected F true .linear reg]) ce).parameters[i]? = some (ks.length + 1, .b [j]) ∧
      ((buildNet D (ks ++ [.fullyConnected F true .linear reg]) ce).errorGradientAll mem sc ds).2[i]? = some
        ((∑ n ∈ range ds.samples, (buildNet D (ks ++ [.fullyConnected F true .linear reg]) ce).predict mem (ds.inst n) j) / ds.samples
          - (∑ n ∈ range ds.samples, ds.tgt n j) / ds.samples) := by
  obtain ⟨i, hi, hp, hg⟩ := last_gradient (D := D) ks (.fullyConnected F true .linear reg) ce mem sc ds (s := .b [j]) (by
    exact Or.inr ⟨rfl, j, hj, rfl⟩)
  refine ⟨i, hi, hp, hg.trans (congrArg some ?_)⟩
  rw [← sub_div, ← sum_sub_distrib]
  refine congrArg (· / _) ?_
  show ∑ n ∈ range ds.samples, _ = _
  refine sum_congr rfl fun n hn => ?_
  show (1 : ℝ) * _ = _
  beta_reduce
  rw [one_mul, batch_prediction_partial (rowWise_last h F true .linear reg), selectRows_range (mem_range.1 hn),
    selectRows_range (mem_range.1 hn)]

/-- **C125 (residuals)**: the entry for the weight between output `i` of the last hidden layer (the network without its output
layer) and output `j` of the network is the mean product of residual and hidden output plus the derivative of the penalties. -/
theorem weight_gradient {i j : ℕ} (hj : j < F) (hi : i < (buildNet D ks false).outputs) :
    ∃ p < (buildNet D (ks ++ [.fullyConnected F bias .linear reg]) ce).P,
      (buildNet D (ks ++ [.fullyConnected F bias .linear reg]) ce).parameters[p]? = some (ks.length + 1, .w [j, i]) ∧
      ((buildNet D (ks ++ [.fullyConnected F bias .linear reg]) ce).errorGradientAll mem sc ds).2[p]? = some
        ((∑ n ∈ range ds.samples, ((buildNet D (ks ++ [.fullyConnected F bias .linear reg]) ce).predict mem (ds.inst n) j - ds.tgt n j) *
          (buildNet D ks false).predict mem (ds.inst n) i) / ds.samples + reg.deriv (mem (ks.length + 1) (.w [j, i])) / ds.samples) := by
  obtain ⟨p, hp, hl, hg⟩ := last_gradient (D := D) ks (.fullyConnected F bias .linear reg) ce mem sc ds (s := .w [j, i]) (by
    exact Or.inl ⟨j, hj, i, hi, rfl⟩)
  refine ⟨p, hp, hl, hg.trans (congrArg some ?_)⟩
  rw [← add_div]
  refine congrArg (· / _) ?_
  show ∑ n ∈ range ds.samples, _ + _ = _
  refine congrArg (· + _) (sum_congr rfl fun n hn => ?_)
  show (1 : ℝ) * _ * _ = _
  beta_reduce
  rw [one_mul, batch_prediction_partial (rowWise_last h F bias .linear reg), batch_prediction_partial h,
    selectRows_range (mem_range.1 hn), selectRows_range (mem_range.1 hn)]

end

/-- Where the gradient vanishes, the mean output is the mean target. -/
theorem stationary_means {D F : ℕ} {ks : List Kind} {ce : Bool} {reg : Reg} (h : ∀ k ∈ ks, k.RowWise) (mem : Mem) (sc : Scratch)
    (ds : TrainSet)
    (h0 : ∀ g ∈ ((buildNet D (ks ++ [.fullyConnected F true .linear reg]) ce).errorGradientAll mem sc ds).2, g = 0) {j : ℕ} (hj : j < F) :
    (∑ n ∈ range ds.samples, (buildNet D (ks ++ [.fullyConnected F true .linear reg]) ce).predict mem (ds.inst n) j) / ds.samples =
      (∑ n ∈ range ds.samples, ds.tgt n j) / ds.samples := by
  obtain ⟨i, _, _, hg⟩ := bias_gradient (D := D) (F := F) (ce := ce) (reg := reg) h mem sc ds hj
  exact sub_eq_zero.1 (h0 _ (List.mem_of_getElem? hg))

/-! ## Averages over equal inputs -/

theorem SameInput.refl {D : ℕ} {ds : TrainSet} (n : ℕ) : SameInput D ds n n := fun _ _ => rfl

theorem SameInput.symm {D : ℕ} {ds : TrainSet} {n m : ℕ} (h : SameInput D ds n m) : SameInput D ds m n := fun i hi => (h i hi).symm

theorem SameInput.trans {D : ℕ} {ds : TrainSet} {n m k : ℕ} (h : SameInput D ds n m) (h' : SameInput D ds m k) : SameInput D ds n k :=
  fun i hi => (h i hi).trans (h' i hi)

theorem mem_alike {D : ℕ} {ds : TrainSet} {n m : ℕ} : m ∈ alike D ds n ↔ m < ds.samples ∧ SameInput D ds n m := by
  simp [alike]

theorem alike_eq {D : ℕ} {ds : TrainSet} {n m : ℕ} (h : SameInput D ds n m) : alike D ds n = alike D ds m := by
  ext k
  rw [mem_alike, mem_alike]
  exact and_congr_right fun _ => ⟨fun h' => h.symm.trans h', fun h' => h.trans h'⟩

theorem meanTarget_eq {D : ℕ} {ds : TrainSet} {n m : ℕ} (h : SameInput D ds n m) (j : ℕ) : meanTarget D ds n j = meanTarget D ds m j := by
  rw [meanTarget, meanTarget, alike_eq h]

theorem alike_card {D : ℕ} {ds : TrainSet} {n : ℕ} (h : n < ds.samples) : (0 : ℝ) < (alike D ds n).card := by
  exact_mod_cast card_pos.2 ⟨n, mem_alike.2 ⟨h, .refl n⟩⟩

/-- Replacing the targets by their averages does not change sums with weights that depend on the inputs only. -/
theorem sum_meanTarget {D : ℕ} (ds : TrainSet) {g : ℕ → ℝ} (j : ℕ)
    (hg : ∀ n < ds.samples, ∀ m < ds.samples, SameInput D ds n m → g n = g m) :
    ∑ n ∈ range ds.samples, g n * meanTarget D ds n j = ∑ n ∈ range ds.samples, g n * ds.tgt n j := by
  classical
  have e1 : ∀ n ∈ range ds.samples, g n * meanTarget D ds n j =
      ∑ m ∈ range ds.samples, if SameInput D ds n m then g n * ds.tgt m j / (alike D ds n).card else 0 := by
    intro n hn
    rw [meanTarget, ← mul_div_assoc, mul_sum, sum_div, alike, sum_filter]
  rw [sum_congr rfl e1, sum_comm]
  refine sum_congr rfl fun m hm => ?_
  have e2 : ∀ n ∈ range ds.samples, (if SameInput D ds n m then g n * ds.tgt m j / (alike D ds n).card else 0) =
      if SameInput D ds m n then g m * ds.tgt m j / (alike D ds m).card else 0 := by
    intro n hn
    by_cases h : SameInput D ds n m
    · rw [if_pos h, if_pos h.symm, alike_eq h, hg n (mem_range.1 hn) m (mem_range.1 hm) h]
    · rw [if_neg h, if_neg fun h' => h h'.symm]
  rw [sum_congr rfl e2, ← sum_filter, sum_const, nsmul_eq_mul]
  show ((alike D ds m).card : ℝ) * _ = _
  rw [mul_div_cancel₀ _ (alike_card (mem_range.1 hm)).ne']

theorem predict_alike {D : ℕ} {ks : List Kind} {ce : Bool} (hf : FitsFrom D ks) (hv : ∀ k ∈ ks, k.Visible) (mem : Mem)
    {ds : TrainSet} {n m : ℕ} (h : SameInput D ds n m) {j : ℕ} (hj : j < (buildNet D ks ce).outputs) :
    (buildNet D ks ce).predict mem (ds.inst n) j = (buildNet D ks ce).predict mem (ds.inst m) j :=
  predictAll_congr ce hf hv (mem := mem) (mem' := mem) (fun _ _ _ => rfl) 1 (X := fun _ => ds.inst n) (X' := fun _ => ds.inst m)
    (n := 0) h hj

/-! ## Regression -/

section

variable {D : ℕ} {ks : List Kind} (hf : FitsFrom D ks) (hv : ∀ k ∈ ks, k.Visible) (mem : Mem) (ds : TrainSet) (hN : 0 < ds.samples)
include hf hv hN

/-- **C125 (regression)**: for every network and all weights, the error is the error of the averages of the targets over equal
inputs, plus the mean squared distance of the outputs to these averages, plus the penalties. -/
theorem error_parts :
    (buildNet D ks false).error mem ds = noise D (buildNet D ks false).outputs ds +
      (∑ n ∈ range ds.samples, ∑ j ∈ range (buildNet D ks false).outputs,
        ((buildNet D ks false).predict mem (ds.inst n) j - meanTarget D ds n j) ^ 2) / (2 * ds.samples) +
      regFrom mem 0 (buildNet D ks false).layers := by
  set net := buildNet D ks false with hnet
  have hN' : (ds.samples : ℝ) ≠ 0 := by exact_mod_cast hN.ne'
  have e : ∀ n, net.errorAt mem ds n = (∑ j ∈ range net.outputs, (net.predict mem (ds.inst n) j - ds.tgt n j) ^ 2) / 2 +
      regFrom mem 0 net.layers := by
    intro n
    rw [Net.errorAt, Net.loss, show net.ce = false from rfl]
    simp [meanSquaredError, Net.predict]
  have key : ∑ n ∈ range ds.samples, ∑ j ∈ range net.outputs, (net.predict mem (ds.inst n) j - ds.tgt n j) ^ 2 =
      ∑ n ∈ range ds.samples, ∑ j ∈ range net.outputs, (meanTarget D ds n j - ds.tgt n j) ^ 2 +
      ∑ n ∈ range ds.samples, ∑ j ∈ range net.outputs, (net.predict mem (ds.inst n) j - meanTarget D ds n j) ^ 2 := by
    rw [sum_comm, sum_comm (s := range ds.samples) (t := range net.outputs), sum_comm (s := range ds.samples) (t := range net.outputs),
      ← sum_add_distrib]
    refine sum_congr rfl fun j hj => ?_
    have h1 := sum_meanTarget ds (D := D) (g := fun n => 2 * (net.predict mem (ds.inst n) j - meanTarget D ds n j)) j (by
      intro n _ m _ h
      rw [hnet, predict_alike hf hv mem h (mem_range.1 hj), meanTarget_eq h])
    beta_reduce at h1
    rw [← sum_add_distrib, ← sub_eq_zero, ← sum_sub_distrib]
    refine Eq.trans (sum_congr rfl fun n _ => ?_) ((sum_sub_distrib _ _).trans (sub_eq_zero.2 h1))
    ring
  rw [error_mean, sum_congr rfl fun n _ => e n, sum_add_distrib, ← sum_div, key, sum_const, card_range, nsmul_eq_mul, noise]
  field_simp

/-- No weights reach an error below the noise, ... -/
theorem error_ge_noise : noise D (buildNet D ks false).outputs ds + regFrom mem 0 (buildNet D ks false).layers ≤
    (buildNet D ks false).error mem ds := by
  rw [error_parts hf hv mem ds hN]
  have : (0 : ℝ) ≤ (∑ n ∈ range ds.samples, ∑ j ∈ range (buildNet D ks false).outputs,
        ((buildNet D ks false).predict mem (ds.inst n) j - meanTarget D ds n j) ^ 2) / (2 * ds.samples) := by positivity
  linarith

/-- ... and exactly those networks reach it that predict the average target for each input. -/
theorem error_eq_noise : (buildNet D ks false).error mem ds = noise D (buildNet D ks false).outputs ds +
      regFrom mem 0 (buildNet D ks false).layers ↔
    ∀ n < ds.samples, ∀ j < (buildNet D ks false).outputs, (buildNet D ks false).predict mem (ds.inst n) j = meanTarget D ds n j := by
  have hN' : (0 : ℝ) < ds.samples := by exact_mod_cast hN
  rw [error_parts hf hv mem ds hN, add_right_comm, add_eq_left, div_eq_zero_iff, or_iff_left (by positivity),
    sum_eq_zero_iff_of_nonneg fun n _ => sum_nonneg fun j _ => sq_nonneg _]
  refine ⟨fun h n hn j hj => ?_, fun h n hn => sum_eq_zero fun j hj => ?_⟩
  · have h1 := (sum_eq_zero_iff_of_nonneg fun j _ => sq_nonneg _).1 (h n (mem_range.2 hn)) j (mem_range.2 hj)
    exact sub_eq_zero.1 (pow_eq_zero_iff (two_ne_zero) |>.1 h1)
  · rw [h n (mem_range.1 hn) j (mem_range.1 hj), sub_self]
    norm_num

end

/-! ## Classification -/

/-- One term of the Kullback-Leibler divergence. -/
theorem divergence_term {c q : ℝ} (hc : 0 ≤ c) (hq : 0 < q) :
    (Real.sqrt c - Real.sqrt q) ^ 2 + (c - q) ≤ c * Real.log c - c * Real.log q := by
  have hsq : Real.sqrt q ^ 2 = q := Real.sq_sqrt hq.le
  have hsc : Real.sqrt c ^ 2 = c := Real.sq_sqrt hc
  rcases hc.eq_or_lt with rfl | hc
  · simp [hsq]
  · have h0 : 0 < Real.sqrt c := Real.sqrt_pos.2 hc
    have h1 : 0 < Real.sqrt q := Real.sqrt_pos.2 hq
    have h := Real.log_le_sub_one_of_pos (div_pos h1 h0)
    rw [Real.log_div h1.ne' h0.ne', Real.log_sqrt hq.le, Real.log_sqrt hc.le] at h
    have h2 : c * (Real.sqrt q / Real.sqrt c) = Real.sqrt c * Real.sqrt q := by
      rw [mul_div_assoc', div_eq_iff h0.ne']
      linear_combination (-Real.sqrt q) * hsc
    have h3 := mul_le_mul_of_nonneg_left h hc.le
    rw [mul_sub, mul_sub, h2] at h3
    nlinarith

/-- What the small constant in the logarithm makes of the probability `y`: a mixture with the uniform distribution. -/
def blur (F : ℕ) (y : ℝ) : ℝ := (y + 1e-10) / (1 + F * 1e-10)

theorem blur_pos {F : ℕ} {y : ℝ} (hy : 0 ≤ y) : 0 < blur F y := by unfold blur; positivity

theorem blur_sum {F : ℕ} {y : ℕ → ℝ} (hy : ∑ j ∈ range F, y j = 1) : ∑ j ∈ range F, blur F (y j) = 1 := by
  unfold blur
  rw [← sum_div, sum_add_distrib, hy, sum_const, card_range, nsmul_eq_mul, div_self (by positivity)]

theorem blur_le_one {F : ℕ} {y : ℕ → ℝ} (h0 : ∀ j < F, 0 ≤ y j) (hy : ∑ j ∈ range F, y j = 1) {j : ℕ} (hj : j < F) :
    blur F (y j) ≤ 1 := by
  rw [← blur_sum hy]
  exact single_le_sum (f := fun j => blur F (y j)) (fun k hk => (blur_pos (h0 k (mem_range.1 hk))).le) (mem_range.2 hj)

theorem blur_near {F : ℕ} (hF : 0 < F) {y : ℝ} (h0 : 0 ≤ y) (h1 : y ≤ 1) : |blur F y - y| ≤ F * 1e-10 := by
  have hF' : (1 : ℝ) ≤ F := by exact_mod_cast hF
  have e : blur F y - y = (1 - F * y) * 1e-10 / (1 + F * 1e-10) := by
    unfold blur
    field_simp
    ring
  have hpos : (0 : ℝ) < 1 + F * 1e-10 := by positivity
  rw [e, abs_div, abs_of_pos hpos, div_le_iff₀ hpos, abs_mul, abs_of_pos (by norm_num : (0 : ℝ) < 1e-10)]
  have h2 : |1 - F * y| ≤ F := by
    rw [abs_le]
    constructor <;> nlinarith
  nlinarith

/-- Gibbs' inequality with a remainder, for the logarithm of the code. -/
theorem cross_entropy_ge {F : ℕ} (hF : 0 < F) {c y : ℕ → ℝ} (hc0 : ∀ j < F, 0 ≤ c j) (hc : ∑ j ∈ range F, c j = 1)
    (hy0 : ∀ j < F, 0 ≤ y j) (hy : ∑ j ∈ range F, y j = 1) :
    -(∑ j ∈ range F, c j * Real.log (c j)) + (∑ j ∈ range F, (y j - c j) ^ 2) / 8 - F * (F * 1e-10) ^ 2 / 4 - F * 1e-10 ≤
      -(∑ j ∈ range F, c j * Real.log (y j + 1e-10)) := by
  have hpos : (0 : ℝ) < 1 + F * 1e-10 := by positivity
  have hlog : Real.log (1 + F * 1e-10) ≤ F * 1e-10 := by
    have := Real.log_le_sub_one_of_pos hpos
    linarith
  have e1 : ∑ j ∈ range F, c j * Real.log (blur F (y j)) =
      ∑ j ∈ range F, c j * Real.log (y j + 1e-10) - Real.log (1 + F * 1e-10) := by
    have : ∀ j ∈ range F, c j * Real.log (blur F (y j)) = c j * Real.log (y j + 1e-10) - c j * Real.log (1 + F * 1e-10) := by
      intro j hj
      have := hy0 j (mem_range.1 hj)
      rw [blur, Real.log_div (by positivity) hpos.ne', mul_sub]
    rw [sum_congr rfl this, sum_sub_distrib, ← sum_mul, hc, one_mul]
  have e2 : ∑ j ∈ range F, (Real.sqrt (c j) - Real.sqrt (blur F (y j))) ^ 2 ≤
      ∑ j ∈ range F, c j * Real.log (c j) - ∑ j ∈ range F, c j * Real.log (blur F (y j)) := by
    have h := sum_le_sum fun j (hj : j ∈ range F) =>
      divergence_term (hc0 j (mem_range.1 hj)) (blur_pos (F := F) (hy0 j (mem_range.1 hj)))
    rw [sum_add_distrib, sum_sub_distrib, sum_sub_distrib, hc, blur_sum hy] at h
    linarith
  have e3 : ∀ j ∈ range F, (y j - c j) ^ 2 / 8 ≤ (Real.sqrt (c j) - Real.sqrt (blur F (y j))) ^ 2 + (F * 1e-10) ^ 2 / 4 := by
    intro j hj
    have hj' := mem_range.1 hj
    have hc1 : c j ≤ 1 := hc ▸ single_le_sum (f := c) (fun k hk => hc0 k (mem_range.1 hk)) hj
    have hy1 : y j ≤ 1 := hy ▸ single_le_sum (f := y) (fun k hk => hy0 k (mem_range.1 hk)) hj
    have hq := blur_pos (F := F) (hy0 j hj')
    have hq1 := blur_le_one hy0 hy hj'
    have hn := blur_near hF (hy0 j hj') hy1
    set q := blur F (y j)
    have s1 : Real.sqrt (c j) ^ 2 = c j := Real.sq_sqrt (hc0 j hj')
    have s2 : Real.sqrt q ^ 2 = q := Real.sq_sqrt hq.le
    have s3 := Real.sqrt_nonneg (c j)
    have s4 := Real.sqrt_nonneg q
    have s5 : Real.sqrt (c j) ≤ 1 := Real.sqrt_le_one.2 hc1
    have s6 : Real.sqrt q ≤ 1 := Real.sqrt_le_one.2 hq1
    have h1 : (c j - q) ^ 2 ≤ 4 * (Real.sqrt (c j) - Real.sqrt q) ^ 2 := by
      have : c j - q = (Real.sqrt (c j) - Real.sqrt q) * (Real.sqrt (c j) + Real.sqrt q) := by
        rw [← s1, ← s2]
        simp only [Real.sqrt_sq s3, Real.sqrt_sq s4]
        ring
      rw [this, mul_pow, mul_comm]
      refine mul_le_mul_of_nonneg_right ?_ (sq_nonneg _)
      nlinarith
    have h2 : (q - y j) ^ 2 ≤ (F * 1e-10) ^ 2 := sq_le_sq' (by linarith [(abs_le.1 hn).1]) (abs_le.1 hn).2
    nlinarith [sq_nonneg ((y j - q) - (q - c j)), sq_nonneg ((y j - q) + (q - c j))]
  have e4 := sum_le_sum e3
  rw [← sum_div, sum_add_distrib, sum_const, card_range, nsmul_eq_mul] at e4
  linarith

theorem meanTarget_nonneg {D F : ℕ} {ds : TrainSet} (hT : ClassTargets F ds) (n : ℕ) {j : ℕ} (hj : j < F) : 0 ≤ meanTarget D ds n j :=
  div_nonneg (sum_nonneg fun m hm => hT.nonneg m (mem_alike.1 hm).1 j hj) (Nat.cast_nonneg _)

theorem meanTarget_sum {D F : ℕ} {ds : TrainSet} (hT : ClassTargets F ds) {n : ℕ} (hn : n < ds.samples) :
    ∑ j ∈ range F, meanTarget D ds n j = 1 := by
  unfold meanTarget
  rw [← sum_div, sum_comm, sum_congr rfl fun m hm => hT.sum m (mem_alike.1 hm).1, sum_const, nsmul_eq_mul, mul_one,
    div_self (alike_card hn).ne']

section

variable {D : ℕ} {ks : List Kind} (hf : FitsFrom D ks) (hv : ∀ k ∈ ks, k.Visible) (mem : Mem) {ds : TrainSet} (hN : 0 < ds.samples)
  (hT : ClassTargets (buildNet D ks true).outputs ds)
include hf hv hN

/-- The cross entropy depends on the targets through their averages only. -/
theorem error_entropy :
    (buildNet D ks true).error mem ds = -(∑ n ∈ range ds.samples, ∑ j ∈ range (buildNet D ks true).outputs,
        meanTarget D ds n j * Real.log ((buildNet D ks true).predict mem (ds.inst n) j + 1e-10)) / ds.samples +
      regFrom mem 0 (buildNet D ks true).layers := by
  set net := buildNet D ks true with hnet
  have hN' : (ds.samples : ℝ) ≠ 0 := by exact_mod_cast hN.ne'
  have e : ∀ n, net.errorAt mem ds n = -(∑ j ∈ range net.outputs, ds.tgt n j * Real.log (net.predict mem (ds.inst n) j + 1e-10)) +
      regFrom mem 0 net.layers := by
    intro n
    rw [Net.errorAt, Net.loss, show net.ce = true from rfl, if_pos rfl]
    simp [crossEntropy, Net.predict]
  have key : ∑ n ∈ range ds.samples, ∑ j ∈ range net.outputs, ds.tgt n j * Real.log (net.predict mem (ds.inst n) j + 1e-10) =
      ∑ n ∈ range ds.samples, ∑ j ∈ range net.outputs, meanTarget D ds n j * Real.log (net.predict mem (ds.inst n) j + 1e-10) := by
    rw [sum_comm, sum_comm (s := range ds.samples) (t := range net.outputs)]
    refine sum_congr rfl fun j hj => ?_
    have h1 := sum_meanTarget ds (D := D) (g := fun n => Real.log (net.predict mem (ds.inst n) j + 1e-10)) j (by
      intro n _ m _ h
      rw [hnet, predict_alike hf hv mem h (mem_range.1 hj)])
    simpa only [mul_comm] using h1.symm
  rw [error_mean, sum_congr rfl fun n _ => e n, sum_add_distrib, sum_neg_distrib, key, sum_const, card_range, nsmul_eq_mul]
  field_simp

include hT

/-- **C125 (classification)**: the error of a network with softmax outputs is not smaller than the entropy of the class
frequencies, up to the constant of the logarithm; a network whose error is close to it predicts, on average over the training
set, the frequencies of the classes among the instances with the same input. -/
theorem predictions_near_frequencies :
    (∑ n ∈ range ds.samples, ∑ j ∈ range (buildNet D ks true).outputs,
        ((buildNet D ks true).predict mem (ds.inst n) j - meanTarget D ds n j) ^ 2) / ds.samples ≤
      8 * ((buildNet D ks true).error mem ds - regFrom mem 0 (buildNet D ks true).layers - entropy D (buildNet D ks true).outputs ds +
        (buildNet D ks true).outputs * 1e-10) + 2 * (buildNet D ks true).outputs * ((buildNet D ks true).outputs * 1e-10) ^ 2 := by
  rw [error_entropy hf hv mem hN]
  set net := buildNet D ks true with hnet
  have hN' : (0 : ℝ) < ds.samples := by exact_mod_cast hN
  have hF : 0 < net.outputs := by
    rcases Nat.eq_zero_or_pos net.outputs with h | h
    · have := hT.sum 0 hN
      rw [h] at this
      simp at this
    · exact h
  have hp : ∀ n, net.predict mem (ds.inst n) = fun j => softmax 1 net.outputs (net.activations mem 1 fun _ => ds.inst n) 0 j := by
    intro n
    rw [Net.predict, Net.output, show net.ce = true from rfl, if_pos rfl]
  have h := sum_le_sum fun n (hn : n ∈ range ds.samples) => cross_entropy_ge hF (c := meanTarget D ds n)
    (y := net.predict mem (ds.inst n)) (fun j hj => meanTarget_nonneg hT n hj) (meanTarget_sum hT (mem_range.1 hn))
    (fun j hj => by rw [hp]; exact (softmax_pos 1 net.outputs _ 0 j hj).le) (by rw [hp]; exact softmax_sum 1 net.outputs hF _ 0)
  simp only [sum_sub_distrib, sum_add_distrib, sum_neg_distrib, ← sum_div, sum_const, card_range, nsmul_eq_mul] at h
  rw [entropy, div_le_iff₀ hN']
  have e : ∀ a b c r : ℝ, (8 * (-a / ds.samples + r - r - -b / ds.samples + net.outputs * 1e-10) + c) * ds.samples =
      8 * (-a + b + net.outputs * 1e-10 * ds.samples) + c * ds.samples := by
    intro a b c r
    field_simp
    ring
  rw [e]
  linarith

/-- No weights reach an error below the entropy (up to the constant of the logarithm), ... -/
theorem error_ge_entropy :
    entropy D (buildNet D ks true).outputs ds + regFrom mem 0 (buildNet D ks true).layers ≤ (buildNet D ks true).error mem ds +
      ((buildNet D ks true).outputs * 1e-10 + (buildNet D ks true).outputs * ((buildNet D ks true).outputs * 1e-10) ^ 2 / 4) := by
  have h := predictions_near_frequencies hf hv mem hN hT
  have h0 : (0 : ℝ) ≤ (∑ n ∈ range ds.samples, ∑ j ∈ range (buildNet D ks true).outputs,
        ((buildNet D ks true).predict mem (ds.inst n) j - meanTarget D ds n j) ^ 2) / ds.samples := by positivity
  linarith

/-- ... and predicting the class frequencies reaches it. -/
theorem error_le_entropy (hp : ∀ n < ds.samples, ∀ j < (buildNet D ks true).outputs,
      (buildNet D ks true).predict mem (ds.inst n) j = meanTarget D ds n j) :
    (buildNet D ks true).error mem ds ≤ entropy D (buildNet D ks true).outputs ds + regFrom mem 0 (buildNet D ks true).layers := by
  rw [error_entropy hf hv mem hN, entropy]
  refine add_le_add_left ?_ _
  refine div_le_div_of_nonneg_right (neg_le_neg ?_) (Nat.cast_nonneg _)
  refine sum_le_sum fun n hn => sum_le_sum fun j hj => ?_
  rw [hp n (mem_range.1 hn) j (mem_range.1 hj)]
  have h0 := meanTarget_nonneg (D := D) hT n (mem_range.1 hj)
  rcases h0.eq_or_lt with h | h
  · rw [← h]
    simp
  · exact mul_le_mul_of_nonneg_left (Real.log_le_log h (by norm_num)) h0

end

/-! ## Training -/

/-- Close to the infimum of a function with bounded curvature the gradient is small. -/
theorem small_gradient {P : ℕ} {L : ℝ} {f : Vec → ℝ} {g : Vec → Vec} (hL0 : 0 < L) (hL : CurvatureAtMost P L f g) (h0 : ∀ x, 0 ≤ f x)
    {e : ℝ} (he : 0 < e) : ∃ u, ∃ d > 0, ∀ x, f x ≤ f u + d → ∀ p < P, |g x p| ≤ e := by
  have hb : BddBelow (Set.range f) := ⟨0, by rintro _ ⟨x, rfl⟩; exact h0 x⟩
  have hd : 0 < e ^ 2 / (4 * L) := by positivity
  obtain ⟨_, ⟨u, rfl⟩, hu⟩ := exists_lt_of_csInf_lt (Set.range_nonempty f) (lt_add_of_pos_right (sInf (Set.range f)) hd)
  refine ⟨u, e ^ 2 / (4 * L), hd, fun x hx p hp => ?_⟩
  have hL' : CurvatureAtMost P L (fun x => f x - sInf (Set.range f)) g := by
    intro w v
    have := hL w v
    show f v - _ ≤ f w - _ + _ + _
    linarith
  have h1 := gradient_sq_le (f := fun x => f x - sInf (Set.range f)) hL0 hL'
    (fun x => sub_nonneg.2 (csInf_le hb ⟨x, rfl⟩)) x
  beta_reduce at h1
  have h2 : g x p ^ 2 ≤ ∑ p ∈ range P, g x p ^ 2 := single_le_sum (fun p _ => sq_nonneg (g x p)) (mem_range.2 hp)
  have h3 : 2 * L * (f x - sInf (Set.range f)) ≤ e ^ 2 := by
    have : f x - sInf (Set.range f) ≤ e ^ 2 / (2 * L) := by
      have e1 : e ^ 2 / (2 * L) = e ^ 2 / (4 * L) + e ^ 2 / (4 * L) := by
        field_simp
        norm_num
      linarith
    rwa [le_div_iff₀ (by positivity), mul_comm] at this
  exact abs_le_of_sq_le_sq (by linarith) he.le

theorem meanSquare_pos (D : ℕ) {ds : TrainSet} (hN : 0 < ds.samples) : 0 < meanSquare D ds := by
  have hN' : (0 : ℝ) < ds.samples := by exact_mod_cast hN
  exact div_pos (sum_pos (fun n _ => by positivity) ⟨0, mem_range.2 hN⟩) hN'

theorem fullGradient_bias {D F : ℕ} (ce : Bool) (mem : Mem) (ds : TrainSet) (w : Vec) {j : ℕ} (hj : j < F) :
    ∃ p < F * (D + 1), fullGradient D F ce mem ds w p =
      (∑ n ∈ range ds.samples, (buildNet D (linearKinds F) ce).predict ((buildNet D (linearKinds F) ce).setParameters mem
        (vectorOf (buildNet D (linearKinds F) ce) w)) (ds.inst n) j) / ds.samples - (∑ n ∈ range ds.samples, ds.tgt n j) / ds.samples := by
  obtain ⟨p, hp, _, hg⟩ := bias_gradient (D := D) (F := F) (ks := []) (ce := ce) (reg := ⟨0, 0, 0⟩) (by intro k hk; cases hk)
    ((buildNet D (linearKinds F) ce).setParameters mem (vectorOf (buildNet D (linearKinds F) ce) w)) ⟨fun _ _ => 0, fun _ _ _ => 0⟩ ds hj
  refine ⟨p, by rw [← linear_P D F ce]; exact hp, ?_⟩
  rw [fullGradient, List.getD_eq_getElem?_getD]
  exact congrArg (·.getD 0) hg

/-- **C125 (training, regression)**: after enough epochs of gradient descent the mean outputs of a network without hidden layers
are the mean targets, up to any given accuracy. -/
theorem regression_calibrated {D F : ℕ} (hF : 0 < F) (mem : Mem) (sc : ℕ → Scratch) (ds : TrainSet) (hN : 0 < ds.samples)
    {o0 : MBSGD} (ho : Suitable o0 ds (meanSquare D ds)) (hr : 0 < o0.minAlpha ∨ o0.alphaDecay = 1) (w : Vec) (calls : ℕ)
    (log : List Event) {e : ℝ} (he : 0 < e) :
    ∃ m0, 1 ≤ m0 ∧ ∀ m : ℕ, m0 ≤ m → ∃ o obj, (o0.setStopCriteria ⟨m, 0⟩).optimize (fun _ => false) m
        ⟨netProblem (buildNet D (linearKinds F) false) mem sc ds, w, calls, log⟩ = .ok (some (o, obj)) ∧
      ∀ j < F, |(∑ n ∈ range ds.samples, (buildNet D (linearKinds F) false).predict ((buildNet D (linearKinds F) false).setParameters mem
        (vectorOf (buildNet D (linearKinds F) false) (o.result obj).1)) (ds.inst n) j) / ds.samples -
        (∑ n ∈ range ds.samples, ds.tgt n j) / ds.samples| ≤ e := by
  obtain ⟨u, d, hd, hs⟩ := small_gradient (meanSquare_pos D hN) (linear_curvature D F mem ds hN).2
    (fun u => by unfold leastSquares; positivity) he
  obtain ⟨m0, h1, hb⟩ := least_squares_limit hF mem sc ds hN ho hr w calls log u hd
  refine ⟨m0, h1, fun m hm => ?_⟩
  obtain ⟨o, obj, h, hl⟩ := hb m hm
  refine ⟨o, obj, h, fun j hj => ?_⟩
  rw [linear_error D F mem ds hN, linear_error D F mem ds hN] at hl
  obtain ⟨p, hp, hg⟩ := fullGradient_bias (D := D) false mem ds (o.result obj).1 hj
  rw [← hg]
  exact hs _ hl p hp

/-- **C125 (training, classification)**: likewise, the mean predicted probability of each class is its frequency. -/
theorem classification_calibrated {D F : ℕ} (mem : Mem) (sc : ℕ → Scratch) (ds : TrainSet) (hN : 0 < ds.samples)
    (hT : ClassTargets F ds) {o0 : MBSGD} (ho : Suitable o0 ds (meanSquare D ds / 2)) (hr : 0 < o0.minAlpha ∨ o0.alphaDecay = 1)
    (w : Vec) (calls : ℕ) (log : List Event) {e : ℝ} (he : 0 < e) :
    ∃ m0, 1 ≤ m0 ∧ ∀ m : ℕ, m0 ≤ m → ∃ o obj, (o0.setStopCriteria ⟨m, 0⟩).optimize (fun _ => false) m
        ⟨netProblem (buildNet D (linearKinds F) true) mem sc ds, w, calls, log⟩ = .ok (some (o, obj)) ∧
      ∀ j < F, |(∑ n ∈ range ds.samples, (buildNet D (linearKinds F) true).predict ((buildNet D (linearKinds F) true).setParameters mem
        (vectorOf (buildNet D (linearKinds F) true) (o.result obj).1)) (ds.inst n) j) / ds.samples -
        (∑ n ∈ range ds.samples, ds.tgt n j) / ds.samples| ≤ e := by
  have h0 : ∀ u, 0 ≤ logisticRegression D F ds u := by
    intro u
    refine div_nonneg (neg_nonneg.2 (sum_nonpos fun n hn => sum_nonpos fun j hj => ?_)) (Nat.cast_nonneg _)
    refine mul_nonpos_of_nonneg_of_nonpos (hT.nonneg n (mem_range.1 hn) j (mem_range.1 hj)) (Real.log_nonpos (by positivity) ?_)
    exact div_le_one_of_le₀ (single_le_sum (f := fun k => Real.exp (score D (ds.inst n) u k)) (fun k _ => (Real.exp_pos _).le) hj)
      (by positivity)
  obtain ⟨u, d, hd, hs⟩ := small_gradient (half_pos (meanSquare_pos D hN)) (softmax_curvature mem ds hN hT.sum).2 h0 he
  obtain ⟨m0, h1, hb⟩ := bound_vanishes ho.valid ho.alpha ho.floor hr (d := distSq (F * (D + 1)) w u) hd
  refine ⟨m0, h1, fun m hm => ?_⟩
  have ho' : Suitable (o0.setStopCriteria ⟨m, 0⟩) ds (meanSquare D ds / 2) :=
    ⟨⟨ho.valid.1, ho.valid.2, ho.valid.3, ho.valid.4, ho.valid.5⟩, ho.fair, ho.fresh,
      ⟨ho.plain.1, ho.plain.2, ho.plain.3, ho.plain.4, ho.plain.5⟩, ho.batch, ho.alpha, ho.floor, ho.small⟩
  obtain ⟨o, obj, h, hbound⟩ := logistic_training mem sc ds hN hT.sum hT.nonneg ho' (h1.trans hm) rfl rfl w calls log
  refine ⟨o, obj, h, fun j hj => ?_⟩
  obtain ⟨p, hp, hg⟩ := fullGradient_bias (D := D) true mem ds (o.result obj).1 hj
  rw [← hg]
  refine hs _ ((hbound u).2.trans ?_) p hp
  have h3 : distSq (F * (D + 1)) w u / (2 * ∑ t ∈ range m, rate (o0.setStopCriteria ⟨m, 0⟩).alpha
      (o0.setStopCriteria ⟨m, 0⟩).alphaDecay (o0.setStopCriteria ⟨m, 0⟩).minAlpha t) ≤ d := hb m hm
  linarith

/-! ## Witnesses -/

/-- Two instances with the same input but different classes, and one with another input. -/
def coin : TrainSet := ⟨3, fun n _ => if n = 2 then 1 else 0, fun n j => if (n = 0 ↔ j = 0) then 1 else 0⟩

theorem coin_targets : ClassTargets 2 coin := by
  refine ⟨fun n _ j _ => ?_, fun n hn => ?_⟩
  · show (0 : ℝ) ≤ if _ then 1 else 0
    positivity
  · have : n = 0 ∨ n = 1 ∨ n = 2 := by change n < 3 at hn; omega
    rcases this with rfl | rfl | rfl <;> simp [coin, sum_range_succ]

theorem coin_alike : alike 1 coin 0 = {0, 1} := by
  ext m
  rw [mem_alike]
  simp only [SameInput, coin, mem_insert, mem_singleton]
  constructor
  · rintro ⟨h1, h2⟩
    by_contra h
    have : m = 2 := by omega
    have := h2 0 one_pos
    simp_all
  · rintro (rfl | rfl) <;> simp

/-- The classes of the first input are equally frequent. -/
example : meanTarget 1 coin 0 0 = 1 / 2 ∧ meanTarget 1 coin 0 1 = 1 / 2 := by
  have e : ∀ f : ℕ → ℝ, ∑ m ∈ ({0, 1} : Finset ℕ), f m = f 0 + f 1 := fun f => by simp
  constructor <;> rw [meanTarget, coin_alike, e] <;> simp [coin]

/-- Networks with hidden layers meet the conditions of the bounds, ... -/
example : FitsFrom 1 [.fullyConnected 3 true .tanh ⟨0, 0, 0⟩, .fullyConnected 2 true .linear ⟨0, 0, 0⟩] ∧
    (∀ k ∈ [Kind.fullyConnected 3 true .tanh ⟨0, 0, 0⟩, .fullyConnected 2 true .linear ⟨0, 0, 0⟩], k.Visible ∧ k.RowWise) ∧
    ClassTargets (buildNet 1 [.fullyConnected 3 true .tanh ⟨0, 0, 0⟩, .fullyConnected 2 true .linear ⟨0, 0, 0⟩] true).outputs coin := by
  refine ⟨⟨trivial, trivial, trivial⟩, ?_, coin_targets⟩
  intro k hk
  simp only [List.mem_cons, List.not_mem_nil, or_false] at hk
  rcases hk with rfl | rfl <;> exact ⟨trivial, trivial⟩

/-- ... and so do settings of the optimiser. -/
example : Suitable (plainOptimiser 5) coin (meanSquare 1 coin) ∧ Suitable (plainOptimiser 5) coin (meanSquare 1 coin / 2) ∧
    (plainOptimiser 5).alphaDecay = 1 := by
  have h : meanSquare 1 coin = 4 / 3 := by
    simp [meanSquare, coin, sum_range_succ]
    norm_num
  have key : ∀ L : ℝ, L ≤ 2 → Suitable (plainOptimiser 5) coin L := by
    intro L hL
    refine ⟨⟨?_, one_pos, le_rfl, le_rfl, le_rfl⟩, fun _ _ => List.Perm.refl _, ?_, ⟨rfl, rfl, rfl, rfl, zero_le_one⟩, ?_, ?_, ?_, ?_⟩
    · show 1 ≤ 10; norm_num
    · show (-1 : ℤ) < 0; norm_num
    · show 3 ≤ 10; norm_num
    · show (0 : ℝ) < 1 / 2; norm_num
    · show (0 : ℝ) ≤ 1 / 2; norm_num
    · show (1 / 2 : ℝ) * L ≤ 1; linarith
  exact ⟨key _ (by rw [h]; norm_num), key _ (by rw [h]; norm_num), rfl⟩

/-- Networks with a vanishing gradient exist. -/
example (mem : Mem) : ∀ g ∈ ((buildNet 1 (linearKinds 1) false).errorGradientAll ((buildNet 1 (linearKinds 1) false).setParameters mem
    (vectorOf (buildNet 1 (linearKinds 1) false) fun p => if p = 0 then 3 else -6)) ⟨fun _ _ => 0, fun _ _ _ => 0⟩ (point 2)).2, g = 0 := by
  intro g hg
  obtain ⟨i, hi, rfl⟩ := List.getElem_of_mem hg
  have hl : i < 2 := by
    refine lt_of_lt_of_eq hi ?_
    rw [Net.errorGradientAll, Net.errorGradient, grad_length, linear_P]
  have h := point_gradient 2 mem fun p => if p = 0 then 3 else -6
  have e : ∀ p, fullGradient 1 1 false mem (point 2) (fun p => if p = 0 then 3 else -6) p = List.getD _ p 0 := fun p => rfl
  rw [e, e] at h
  obtain ⟨h0, h1⟩ := h
  norm_num at h0 h1
  have hi' : i = 0 ∨ i = 1 := by omega
  rcases hi' with rfl | rfl
  · simpa [List.getElem?_eq_getElem hi] using h0
  · simpa [List.getElem?_eq_getElem hi] using h1

end

end Verif.NN
