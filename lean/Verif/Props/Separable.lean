import Verif.Props.LinearTraining
import Verif.Props.Evaluation

/-!
# Classifiers without hidden layers learn every separable training set (C143)

A network `inputLayer(D)`, `outputLayer(F, LINEAR)` with `setErrorFunction(CE)` is trained by `MBSGD` with full batches.  The training
set is in 1-of-c encoding.  What the network is good for is measured by `accuracy` and `classificationHits` (src/Evaluation.cpp).
-/

namespace Verif.NN

open Finset Verif.Opt

noncomputable section

/-! ## Spec -/

/-- Spec: instance `n` belongs to class `c n` of `F` classes, in 1-of-c encoding. -/
structure Classes (F : ℕ) (ds : TrainSet) (c : ℕ → ℕ) : Prop where
  lt : ∀ n < ds.samples, c n < F
  target : ∀ n < ds.samples, ∀ j < F, ds.tgt n j = if j = c n then 1 else 0

/-- Spec: the linear functions `u` give the class of each instance a score that exceeds the other scores by `γ`. -/
def HasMargin (D F : ℕ) (ds : TrainSet) (c : ℕ → ℕ) (u : Vec) (γ : ℝ) : Prop :=
  ∀ n < ds.samples, ∀ j < F, j ≠ c n → score D (ds.inst n) u j + γ ≤ score D (ds.inst n) u (c n)

/-- Spec: hyperplanes can separate the classes. -/
def Separable (D F : ℕ) (ds : TrainSet) (c : ℕ → ℕ) : Prop := ∃ (u : Vec) (γ : ℝ), 0 < γ ∧ HasMargin D F ds c u γ

/-- The training set as the functions of src/Evaluation.cpp see it. -/
def setOf (D F : ℕ) (ds : TrainSet) : Eval.Data where
  samples := ds.samples
  outputs := F
  getInstance n := (List.range D).map (ds.inst n)
  getTarget n := (List.range F).map (ds.tgt n)

/-- The network with the parameters `w` as the functions of src/Evaluation.cpp see it. -/
def classifier (D F : ℕ) (mem : Mem) (w : Vec) : Eval.Learner := fun x =>
  (List.range F).map ((buildNet D (linearKinds F) true).predict ((buildNet D (linearKinds F) true).setParameters mem
    (vectorOf (buildNet D (linearKinds F) true) w)) fun i => x.getD i 0)

/-! ## The cross entropy of one instance -/

section Loss

variable {F : ℕ} {z : ℕ → ℝ} {c : ℕ} (hc : c < F)

include hc

theorem crossLoss_nonneg : 0 ≤ logSumExp F z - z c := by
  have h : Real.exp (z c) ≤ ∑ j ∈ range F, Real.exp (z j) :=
    single_le_sum (f := fun j => Real.exp (z j)) (fun j _ => (Real.exp_pos _).le) (mem_range.2 hc)
  have := (Real.le_log_iff_exp_le (sumExp_pos (by omega) z)).2 h
  rw [logSumExp]
  linarith

theorem sumExp_split : ∑ j ∈ range F, Real.exp (z j) = Real.exp (z c) * (1 + ∑ j ∈ (range F).erase c, Real.exp (z j - z c)) := by
  rw [← add_sum_erase (range F) (fun j => Real.exp (z j)) (mem_range.2 hc), mul_add, mul_one, mul_sum]
  congr 1
  refine sum_congr rfl fun j _ => ?_
  rw [← Real.exp_add]
  congr 1
  ring

theorem crossLoss_eq : logSumExp F z - z c = Real.log (1 + ∑ j ∈ (range F).erase c, Real.exp (z j - z c)) := by
  have hp : 0 < 1 + ∑ j ∈ (range F).erase c, Real.exp (z j - z c) :=
    add_pos_of_pos_of_nonneg one_pos (sum_nonneg fun _ _ => (Real.exp_pos _).le)
  rw [logSumExp, sumExp_split hc, Real.log_mul (Real.exp_pos _).ne' hp.ne', Real.log_exp]
  ring

theorem crossLoss_ge {j : ℕ} (hj : j < F) (hne : j ≠ c) : Real.log (1 + Real.exp (z j - z c)) ≤ logSumExp F z - z c := by
  rw [crossLoss_eq hc]
  refine Real.log_le_log (by positivity) ?_
  have := single_le_sum (f := fun j => Real.exp (z j - z c)) (fun j _ => (Real.exp_pos _).le)
    (mem_erase.2 ⟨hne, mem_range.2 hj⟩)
  linarith

theorem crossLoss_le {γ : ℝ} (h : ∀ j < F, j ≠ c → z j + γ ≤ z c) : logSumExp F z - z c ≤ (F - 1 : ℕ) * Real.exp (-γ) := by
  have hs : ∑ j ∈ (range F).erase c, Real.exp (z j - z c) ≤ (F - 1 : ℕ) * Real.exp (-γ) := by
    have := sum_le_card_nsmul ((range F).erase c) (fun j => Real.exp (z j - z c)) (Real.exp (-γ)) fun j hj => by
      have := h j (mem_range.1 (mem_erase.1 hj).2) (mem_erase.1 hj).1
      exact Real.exp_le_exp.2 (by linarith)
    rwa [card_erase_of_mem (mem_range.2 hc), card_range, nsmul_eq_mul] at this
  have hp : 0 < 1 + ∑ j ∈ (range F).erase c, Real.exp (z j - z c) :=
    add_pos_of_pos_of_nonneg one_pos (sum_nonneg fun _ _ => (Real.exp_pos _).le)
  rw [crossLoss_eq hc]
  have := Real.log_le_sub_one_of_pos hp
  linarith

end Loss

/-! ## Cross entropy and margins -/

theorem score_scaled (D : ℕ) (x : ℕ → ℝ) (u : Vec) (t : ℝ) (j : ℕ) : score D x (fun p => t * u p) j = t * score D x u j := by
  have e : t * ∑ i ∈ range D, u (j * (D + 1) + i) * x i = ∑ i ∈ range D, t * u (j * (D + 1) + i) * x i := by
    rw [mul_sum]
    exact sum_congr rfl fun i _ => by ring
  rw [score, score, mul_add t, e]

section Sets

variable {D F : ℕ} {ds : TrainSet} {c : ℕ → ℕ} (hC : Classes F ds c)

include hC

theorem classes_sum : ∀ n < ds.samples, ∑ j ∈ range F, ds.tgt n j = 1 := by
  intro n hn
  rw [sum_congr rfl fun j hj => hC.target n hn j (mem_range.1 hj), sum_ite_eq' (range F) (c n),
    if_pos (mem_range.2 (hC.lt n hn))]

theorem classes_nonneg : ∀ n < ds.samples, ∀ j < F, 0 ≤ ds.tgt n j := by
  intro n hn j hj
  rw [hC.target n hn j hj]
  split <;> norm_num

theorem logistic_classes (hN : 0 < ds.samples) (u : Vec) : logisticRegression D F ds u =
    (∑ n ∈ range ds.samples, (logSumExp F (score D (ds.inst n) u) - score D (ds.inst n) u (c n))) / ds.samples := by
  have hF : 0 < F := by have := hC.lt 0 hN; omega
  rw [logistic_eq hF ds (classes_sum hC)]
  refine congrArg (· / (ds.samples : ℝ)) (sum_congr rfl fun n hn => ?_)
  have hn' := mem_range.1 hn
  have e : ∑ j ∈ range F, ds.tgt n j * score D (ds.inst n) u j = score D (ds.inst n) u (c n) := by
    rw [sum_congr rfl fun j hj => by rw [hC.target n hn' j (mem_range.1 hj), ite_mul, one_mul, zero_mul],
      sum_ite_eq' (range F) (c n), if_pos (mem_range.2 (hC.lt n hn'))]
  rw [e]

/-- The cross entropy of one instance is at most the number of instances times the cross entropy of the training set. -/
theorem one_le_all {n : ℕ} (hn : n < ds.samples) (u : Vec) :
    logSumExp F (score D (ds.inst n) u) - score D (ds.inst n) u (c n) ≤ ds.samples * logisticRegression D F ds u := by
  have hN : 0 < ds.samples := by omega
  have hN' : (ds.samples : ℝ) ≠ 0 := by exact_mod_cast hN.ne'
  rw [logistic_classes hC hN, mul_div_cancel₀ _ hN']
  exact single_le_sum (f := fun n => logSumExp F (score D (ds.inst n) u) - score D (ds.inst n) u (c n))
    (fun m hm => crossLoss_nonneg (hC.lt m (mem_range.1 hm))) (mem_range.2 hn)

/-- **C143 (small errors)**: if the cross entropy is below `log 2 / N` then every instance gets the largest score for its class. -/
theorem small_error_correct {u : Vec} (h : ds.samples * logisticRegression D F ds u < Real.log 2) {n : ℕ} (hn : n < ds.samples) {j : ℕ}
    (hj : j < F) (hne : j ≠ c n) : score D (ds.inst n) u j < score D (ds.inst n) u (c n) := by
  have h1 := crossLoss_ge (z := score D (ds.inst n) u) (hC.lt n hn) hj hne
  have h2 := one_le_all (D := D) hC hn u
  have h3 : Real.log (1 + Real.exp (score D (ds.inst n) u j - score D (ds.inst n) u (c n))) < Real.log 2 := by linarith
  have h4 := (Real.log_lt_log_iff (by positivity) (by norm_num)).1 h3
  have h5 : Real.exp (score D (ds.inst n) u j - score D (ds.inst n) u (c n)) < Real.exp 0 := by
    rw [Real.exp_zero]
    linarith
  have := Real.exp_lt_exp.1 h5
  linarith

/-- Separating functions have a cross entropy that vanishes exponentially with their scale. -/
theorem separator_error (hN : 0 < ds.samples) {u : Vec} {γ : ℝ} (h : HasMargin D F ds c u γ) {t : ℝ} (ht : 0 ≤ t) :
    logisticRegression D F ds (fun p => t * u p) ≤ (F - 1 : ℕ) * Real.exp (-(t * γ)) := by
  have hN' : (0 : ℝ) < ds.samples := by exact_mod_cast hN
  rw [logistic_classes hC hN, div_le_iff₀ hN']
  have := sum_le_card_nsmul (range ds.samples) (fun n => logSumExp F (score D (ds.inst n) fun p => t * u p) -
    score D (ds.inst n) (fun p => t * u p) (c n)) ((F - 1 : ℕ) * Real.exp (-(t * γ))) fun n hn => by
      refine crossLoss_le (hC.lt n (mem_range.1 hn)) fun j hj hne => ?_
      rw [score_scaled, score_scaled]
      have := mul_le_mul_of_nonneg_left (h n (mem_range.1 hn) j hj hne) ht
      linarith
  rw [card_range, nsmul_eq_mul] at this
  linarith

end Sets

/-! ## Accuracy -/

section Accuracy

variable {D F : ℕ} {ds : TrainSet} {c : ℕ → ℕ} (hC : Classes F ds c) (hF : 2 ≤ F) (mem : Mem) (w : Vec)

theorem range_getD (f : ℕ → ℝ) {j : ℕ} (hj : j < F) : ((List.range F).map f).getD j 0 = f j := by
  rw [List.getD, List.getElem?_map, List.getElem?_range hj]
  rfl

theorem setOf_score (n j : ℕ) : score D (fun i => ((setOf D F ds).getInstance n).getD i 0) w j = score D (ds.inst n) w j := by
  rw [score, score]
  congr 1
  refine sum_congr rfl fun i hi => ?_
  rw [setOf, range_getD _ (mem_range.1 hi)]

/-- The predicted probabilities are ordered like the scores. -/
theorem classifier_lt (hF : 0 < F) (n : ℕ) {i j : ℕ} (hi : i < F) (hj : j < F) :
    (classifier D F mem w ((setOf D F ds).getInstance n)).getD i 0 < (classifier D F mem w ((setOf D F ds).getInstance n)).getD j 0 ↔
      score D (ds.inst n) w i < score D (ds.inst n) w j := by
  rw [classifier, range_getD _ hi, range_getD _ hj, ← setOf_score (F := F) w n i, ← setOf_score (F := F) w n j,
    ← linear_activations D F true mem w 1 (fun _ i => ((setOf D F ds).getInstance n).getD i 0) 0 hi,
    ← linear_activations D F true mem w 1 (fun _ i => ((setOf D F ds).getInstance n).getD i 0) 0 hj]
  exact softmax_lt_iff 1 _ _ 0 i j (by rw [linear_outputs]; exact hF)

theorem classifier_length (x : List ℝ) : (classifier D F mem w x).length = F := by
  rw [classifier, List.length_map, List.length_range]

include hF in
theorem classifier_shaped : Eval.Shaped (classifier D F mem w) (setOf D F ds) where
  pos := by show 0 < F; omega
  target n _ := by show ((List.range F).map _).length = F; rw [List.length_map, List.length_range]
  prediction n _ := classifier_length mem w _

include hC hF

theorem label_target {n : ℕ} (hn : n < ds.samples) : Eval.label ((setOf D F ds).getTarget n) = c n := by
  have hl : ((setOf D F ds).getTarget n).length = F := by
    show ((List.range F).map _).length = F
    rw [List.length_map, List.length_range]
  refine (Eval.label_isLabel (by omega)).unique (Or.inr ⟨by omega, by rw [hl]; exact hC.lt n hn, fun j hj => ?_, fun j hj => ?_⟩)
  · rw [hl] at hj
    show ((List.range F).map _).getD _ _ ≤ ((List.range F).map _).getD _ _
    rw [range_getD _ hj, range_getD _ (hC.lt n hn), hC.target n hn j hj, hC.target n hn _ (hC.lt n hn), if_pos rfl]
    split <;> norm_num
  · have hj' : j < F := hj.trans (hC.lt n hn)
    show ((List.range F).map _).getD _ _ < ((List.range F).map _).getD _ _
    rw [range_getD _ hj', range_getD _ (hC.lt n hn), hC.target n hn j hj', hC.target n hn _ (hC.lt n hn), if_pos rfl,
      if_neg (by omega)]
    norm_num

/-- The network finds the class of an instance exactly if it is the first with the largest score. -/
theorem label_prediction {n : ℕ} (hn : n < ds.samples) :
    Eval.label (classifier D F mem w ((setOf D F ds).getInstance n)) = c n ↔
      (∀ j < F, score D (ds.inst n) w j ≤ score D (ds.inst n) w (c n)) ∧
        ∀ j < c n, score D (ds.inst n) w j < score D (ds.inst n) w (c n) := by
  have hl := classifier_length (D := D) (F := F) mem w ((setOf D F ds).getInstance n)
  have hF' : 0 < F := by omega
  have hcn := hC.lt n hn
  constructor
  · intro h
    rcases Eval.label_isLabel (v := classifier D F mem w ((setOf D F ds).getInstance n)) (by omega) with ⟨h1, _⟩ | ⟨_, _, h2, h3⟩
    · omega
    · rw [h] at h2 h3
      refine ⟨fun j hj => ?_, fun j hj => (classifier_lt mem w hF' n (hj.trans hcn) hcn).1 (h3 j hj)⟩
      have := h2 j (by omega)
      by_contra hlt
      exact absurd ((classifier_lt mem w hF' n hcn hj).2 (not_le.1 hlt)) (not_lt.2 this)
  · rintro ⟨h2, h3⟩
    refine (Eval.label_isLabel (by omega)).unique (Or.inr ⟨by omega, by omega, fun j hj => ?_, fun j hj => ?_⟩)
    · rw [hl] at hj
      by_contra hlt
      exact absurd ((classifier_lt mem w hF' n hcn hj).1 (not_le.1 hlt)) (not_lt.2 (h2 j hj))
    · exact (classifier_lt mem w hF' n (hj.trans hcn) hcn).2 (h3 j hj)

theorem accuracy_iff (hN : 0 < ds.samples) :
    (Eval.accuracy (classifier D F mem w) (setOf D F ds) = .ok 1 ∧
      Eval.classificationHits (classifier D F mem w) (setOf D F ds) = .ok ds.samples) ↔
      ∀ n < ds.samples, Eval.label (classifier D F mem w ((setOf D F ds).getInstance n)) = c n := by
  have hN' : (ds.samples : ℝ) ≠ 0 := by exact_mod_cast hN.ne'
  have hsh := classifier_shaped (D := D) (ds := ds) hF mem w
  have ha := (Eval.accuracy_fraction hsh hN).1
  have hh := Eval.classificationHits_partial hsh fun h1 => by
    change F = 1 at h1
    omega
  have hall : (Eval.hits (classifier D F mem w) (setOf D F ds)).card = ds.samples ↔
      ∀ n < ds.samples, Eval.label (classifier D F mem w ((setOf D F ds).getInstance n)) = c n := by
    have hr : ds.samples = (range ds.samples).card := (card_range _).symm
    rw [Eval.hits]
    show (filter _ (range ds.samples)).card = ds.samples ↔ _
    conv_lhs => rhs; rw [hr]
    rw [card_filter_eq_iff]
    refine ⟨fun h n hn => ?_, fun h n hn => ?_⟩
    · rw [h n (mem_range.2 hn), label_target hC hF hn]
    · rw [h n (mem_range.1 hn), label_target hC hF (mem_range.1 hn)]
  rw [ha, hh, ← hall]
  constructor
  · rintro ⟨_, h⟩
    injection h
  · intro h
    rw [h]
    refine ⟨?_, rfl⟩
    show Outcome.ok ((ds.samples : ℝ) / ds.samples) = _
    rw [div_self hN']

end Accuracy

/-! ## C143 -/

theorem exists_lower {ι : Type} (s : Finset ι) (f : ι → ℝ) (h : ∀ x ∈ s, 0 < f x) : ∃ g > 0, ∀ x ∈ s, g ≤ f x := by
  rcases s.eq_empty_or_nonempty with rfl | hs
  · exact ⟨1, one_pos, fun x hx => absurd hx (notMem_empty x)⟩
  · obtain ⟨y, hy, hmin⟩ := exists_min_image s f hs
    exact ⟨f y, h y hy, hmin⟩

/-- The parameters `w` with the bias of output `j` lowered by `ε * j`. -/
def tilted (D : ℕ) (w : Vec) (ε : ℝ) : Vec := fun p => w p - if p % (D + 1) = D then ε * (p / (D + 1) : ℕ) else 0

theorem score_tilted (D : ℕ) (x : ℕ → ℝ) (w : Vec) (ε : ℝ) (j : ℕ) : score D x (tilted D w ε) j = score D x w j - ε * j := by
  have hd : ∀ i < D + 1, (j * (D + 1) + i) % (D + 1) = i := by
    intro i hi
    rw [Nat.mul_add_mod_self_right, Nat.mod_eq_of_lt hi]
  have e1 : ∀ i ∈ range D, tilted D w ε (j * (D + 1) + i) * x i = w (j * (D + 1) + i) * x i := by
    intro i hi
    have hi' := mem_range.1 hi
    rw [tilted, if_neg (by rw [hd i (by omega)]; omega), sub_zero]
  have e2 : tilted D w ε (j * (D + 1) + D) = w (j * (D + 1) + D) - ε * j := by
    have hq : (j * (D + 1) + D) / (D + 1) = j := by
      rw [mul_comm, Nat.mul_add_div (by omega), Nat.div_eq_of_lt (by omega), add_zero]
    rw [tilted, if_pos (hd D (by omega)), hq]
  rw [score, score, sum_congr rfl e1, e2]
  ring

section Training

variable {D F : ℕ} {ds : TrainSet} {c : ℕ → ℕ} (hC : Classes F ds c) (hF : 2 ≤ F) (mem : Mem)

include hC hF

theorem strict_accuracy (hN : 0 < ds.samples) {w : Vec} (h : ∀ n < ds.samples, ∀ j < F, j ≠ c n →
      score D (ds.inst n) w j < score D (ds.inst n) w (c n)) :
    Eval.accuracy (classifier D F mem w) (setOf D F ds) = .ok 1 ∧
      Eval.classificationHits (classifier D F mem w) (setOf D F ds) = .ok ds.samples := by
  refine (accuracy_iff hC hF mem w hN).2 fun n hn => (label_prediction hC hF mem w hn).2 ⟨fun j hj => ?_, fun j hj => ?_⟩
  · by_cases e : j = c n
    · rw [e]
    · exact (h n hn j hj e).le
  · exact h n hn j (hj.trans (hC.lt n hn)) (by omega)

/-- **C143 (what can be classified)**: there are weights with which the network classifies all instances correctly exactly if
hyperplanes can separate the classes, also if the network decides between equal probabilities. -/
theorem separable_iff (hN : 0 < ds.samples) : Separable D F ds c ↔
    ∃ w, Eval.accuracy (classifier D F mem w) (setOf D F ds) = .ok 1 ∧
      Eval.classificationHits (classifier D F mem w) (setOf D F ds) = .ok ds.samples := by
  constructor
  · rintro ⟨u, γ, hγ, h⟩
    exact ⟨u, strict_accuracy hC hF mem hN fun n hn j hj hne => by have := h n hn j hj hne; linarith⟩
  · rintro ⟨w, h⟩
    have hl := fun n hn => (label_prediction hC hF mem w hn).1 ((accuracy_iff hC hF mem w hN).1 h n hn)
    obtain ⟨g, hg, hmin⟩ := exists_lower ((range ds.samples ×ˢ range F).filter fun x => x.2 < c x.1)
      (fun x => score D (ds.inst x.1) w (c x.1) - score D (ds.inst x.1) w x.2) (by
        intro x hx
        obtain ⟨h1, h2⟩ := mem_filter.1 hx
        have := (hl x.1 (mem_range.1 (mem_product.1 h1).1)).2 x.2 h2
        linarith)
    have hF' : (0 : ℝ) < F := by exact_mod_cast (by omega : 0 < F)
    have hF2 : (1 : ℝ) ≤ F := by exact_mod_cast (by omega : 1 ≤ F)
    obtain ⟨ε, hε⟩ : ∃ ε, ε = g / (2 * F) := ⟨_, rfl⟩
    have hεF : ε * F = g / 2 := by
      rw [hε]
      field_simp
    have hε0 : 0 < ε := by
      rw [hε]
      positivity
    refine ⟨tilted D w ε, ε, hε0, fun n hn j hj hne => ?_⟩
    rw [score_tilted, score_tilted]
    rcases Nat.lt_or_gt_of_ne hne with hlt | hgt
    · have h1 := hmin (n, j) (mem_filter.2 ⟨mem_product.2 ⟨mem_range.2 hn, mem_range.2 hj⟩, hlt⟩)
      have h2 : ε * (c n : ℝ) ≤ ε * (F - 1) := by
        refine mul_le_mul_of_nonneg_left ?_ hε0.le
        have : c n + 1 ≤ F := hC.lt n hn
        have : (c n : ℝ) + 1 ≤ F := by exact_mod_cast this
        linarith
      have h3 : 0 ≤ ε * (j : ℝ) := by positivity
      simp only at h1
      nlinarith
    · have h1 := (hl n hn).1 j hj
      have h2 : ε * ((c n : ℝ) + 1) ≤ ε * j := by
        refine mul_le_mul_of_nonneg_left ?_ hε0.le
        exact_mod_cast (by omega : c n + 1 ≤ j)
      linarith

/-- **C143 (number of epochs)**: if `u` separates the classes with the margin `γ` then training classifies all instances correctly
after a number of epochs that is known in advance: the sum of the learning rates has to exceed `N / log 2` times the squared distance
of the initial weights from `t * u`, where `t` is so large that `N * (F - 1) * exp (-t * γ)` is at most `log 2 / 2`. -/
theorem separable_epochs (sc : ℕ → Scratch) (hN : 0 < ds.samples) {o0 : MBSGD} (ho : Suitable o0 ds (meanSquare D ds / 2)) {m : ℕ}
    (hm : 1 ≤ m) (hmax : o0.stop.maximalIterations = m) (hstep : o0.stop.minimalSearchSpaceStep = 0) (w : Vec) (calls : ℕ)
    (log : List Event) {u : Vec} {γ t : ℝ} (hu : HasMargin D F ds c u γ) (ht : 0 ≤ t)
    (h1 : ds.samples * ((F - 1 : ℕ) * Real.exp (-(t * γ))) ≤ Real.log 2 / 2)
    (h2 : ds.samples * distSq (F * (D + 1)) w (fun p => t * u p) <
      Real.log 2 * ∑ k ∈ range m, rate o0.alpha o0.alphaDecay o0.minAlpha k) :
    ∃ o obj, o0.optimize (fun _ => false) m ⟨netProblem (buildNet D (linearKinds F) true) mem sc ds, w, calls, log⟩ =
        .ok (some (o, obj)) ∧
      Eval.accuracy (classifier D F mem (o.result obj).1) (setOf D F ds) = .ok 1 ∧
      Eval.classificationHits (classifier D F mem (o.result obj).1) (setOf D F ds) = .ok ds.samples := by
  obtain ⟨o, obj, h, hb⟩ := logistic_training mem sc ds hN (classes_sum hC) (classes_nonneg hC) ho hm hmax hstep w calls log
  refine ⟨o, obj, h, strict_accuracy hC hF mem hN fun n hn j hj hne => small_error_correct hC ?_ hn hj hne⟩
  have hN' : (0 : ℝ) < ds.samples := by exact_mod_cast hN
  have hlog : 0 < Real.log 2 := Real.log_pos (by norm_num)
  set S := ∑ k ∈ range m, rate o0.alpha o0.alphaDecay o0.minAlpha k with hS
  set d := distSq (F * (D + 1)) w (fun p => t * u p) with hd
  have hd0 : 0 ≤ d := sum_nonneg fun _ _ => sq_nonneg _
  have hS0 : 0 < S := by
    by_contra hneg
    have := mul_nonneg hN'.le hd0
    nlinarith
  have h3 := (hb fun p => t * u p).2
  have h4 := separator_error hC hN hu ht
  have h5 : ds.samples * (d / (2 * S)) < Real.log 2 / 2 := by
    rw [← mul_div_assoc, div_lt_iff₀ (by positivity)]
    linarith
  have h6 := mul_le_mul_of_nonneg_left (h3.trans (add_le_add_left h4 _)) hN'.le
  rw [mul_add] at h6
  linarith

/-- Bounded weights have a cross entropy that is bounded from below. -/
theorem bounded_weights (hN : 0 < ds.samples) {w : Vec} {R : ℝ} (h : ∀ p < F * (D + 1), |w p| ≤ R) :
    Real.log (1 + Real.exp (-(2 * (R * (∑ i ∈ range D, |ds.inst 0 i| + 1))))) ≤ ds.samples * logisticRegression D F ds w := by
  have hs : ∀ j < F, |score D (ds.inst 0) w j| ≤ R * (∑ i ∈ range D, |ds.inst 0 i| + 1) := by
    intro j hj
    rw [score, mul_add R, mul_one, mul_sum]
    refine (abs_add_le _ _).trans (add_le_add ((abs_sum_le_sum_abs _ _).trans (sum_le_sum fun i hi => ?_)) (h _ (block_lt hj (by omega))))
    rw [abs_mul]
    exact mul_le_mul_of_nonneg_right (h _ (block_lt hj (Nat.lt_succ_of_lt (mem_range.1 hi)))) (abs_nonneg _)
  obtain ⟨j, hj, hne⟩ : ∃ j < F, j ≠ c 0 := by
    by_cases e : c 0 = 0
    · exact ⟨1, by omega, by omega⟩
    · exact ⟨0, by omega, fun e' => e e'.symm⟩
  refine le_trans ?_ ((crossLoss_ge (z := score D (ds.inst 0) w) (hC.lt 0 hN) hj hne).trans (one_le_all hC hN w))
  refine Real.log_le_log (by positivity) ?_
  have h1 := abs_le.1 (hs j hj)
  have h2 := abs_le.1 (hs (c 0) (hC.lt 0 hN))
  have := Real.exp_le_exp.2 (show -(2 * (R * (∑ i ∈ range D, |ds.inst 0 i| + 1))) ≤ score D (ds.inst 0) w j - score D (ds.inst 0) w (c 0) by
    linarith [h1.1, h2.2])
  linarith

/-- **C143 (training)**: if hyperplanes can separate the classes then, from all initial weights, training classifies all instances
correctly from some epoch on for good; `error()` falls below every positive bound, and the weights grow beyond every bound. -/
theorem separable_training (sc : ℕ → Scratch) (hN : 0 < ds.samples) {o0 : MBSGD} (ho : Suitable o0 ds (meanSquare D ds / 2))
    (hr : 0 < o0.minAlpha ∨ o0.alphaDecay = 1) (w : Vec) (calls : ℕ) (log : List Event) (hs : Separable D F ds c) {e : ℝ} (he : 0 < e)
    (R : ℝ) :
    ∃ m0, 1 ≤ m0 ∧ ∀ m : ℕ, m0 ≤ m → ∃ o obj, (o0.setStopCriteria ⟨m, 0⟩).optimize (fun _ => false) m
        ⟨netProblem (buildNet D (linearKinds F) true) mem sc ds, w, calls, log⟩ = .ok (some (o, obj)) ∧
      Eval.accuracy (classifier D F mem (o.result obj).1) (setOf D F ds) = .ok 1 ∧
      Eval.classificationHits (classifier D F mem (o.result obj).1) (setOf D F ds) = .ok ds.samples ∧
      (buildNet D (linearKinds F) true).error ((buildNet D (linearKinds F) true).setParameters mem
        (vectorOf (buildNet D (linearKinds F) true) (o.result obj).1)) ds < e ∧
      ∃ p < F * (D + 1), R < |(o.result obj).1 p| := by
  obtain ⟨u, γ, hγ, hu⟩ := hs
  have hN' : (0 : ℝ) < ds.samples := by exact_mod_cast hN
  have hlog : 0 < Real.log 2 := Real.log_pos (by norm_num)
  have hB : 0 < Real.log (1 + Real.exp (-(2 * (R * (∑ i ∈ range D, |ds.inst 0 i| + 1))))) := by
    refine Real.log_pos ?_
    have := Real.exp_pos (-(2 * (R * (∑ i ∈ range D, |ds.inst 0 i| + 1))))
    linarith
  obtain ⟨δ, hδ⟩ : ∃ δ, δ = min (Real.log 2) (min (Real.log (1 + Real.exp (-(2 * (R * (∑ i ∈ range D, |ds.inst 0 i| + 1)))))) (ds.samples * e)) :=
    ⟨_, rfl⟩
  have hδ0 : 0 < δ := by
    rw [hδ]
    exact lt_min hlog (lt_min hB (by positivity))
  have hδ1 : δ ≤ Real.log 2 := by rw [hδ]; exact min_le_left _ _
  have hδ2 : δ ≤ Real.log (1 + Real.exp (-(2 * (R * (∑ i ∈ range D, |ds.inst 0 i| + 1))))) := by
    rw [hδ]
    exact (min_le_right _ _).trans (min_le_left _ _)
  have hδ3 : δ ≤ ds.samples * e := by
    rw [hδ]
    exact (min_le_right _ _).trans (min_le_right _ _)
  obtain ⟨K, hK⟩ : ∃ K : ℝ, K = 2 * ds.samples * (F - 1 : ℕ) / δ := ⟨_, rfl⟩
  have hK0 : 0 ≤ K := by rw [hK]; positivity
  have hKδ : K * δ = 2 * ds.samples * (F - 1 : ℕ) := by
    rw [hK]
    field_simp
  have hexp : ds.samples * ((F - 1 : ℕ) * Real.exp (-K)) < δ / 2 := by
    have h1 : Real.exp (-K) * (1 + K) ≤ 1 := by
      have h2 := Real.add_one_le_exp K
      have h3 : Real.exp (-K) * Real.exp K = 1 := by rw [← Real.exp_add, neg_add_cancel, Real.exp_zero]
      have := mul_le_mul_of_nonneg_left h2 (Real.exp_pos (-K)).le
      linarith
    have h4 := Real.exp_pos (-K)
    have h5 : Real.exp (-K) * (δ + 2 * ds.samples * (F - 1 : ℕ)) ≤ δ := by
      rw [← hKδ]
      nlinarith
    nlinarith
  have htγ : K / γ * γ = K := div_mul_cancel₀ _ hγ.ne'
  obtain ⟨m0, h1, hb⟩ := bound_vanishes ho.valid ho.alpha ho.floor hr (d := distSq (F * (D + 1)) w fun p => K / γ * u p)
    (e := δ / (2 * ds.samples)) (by positivity)
  refine ⟨m0, h1, fun m hm => ?_⟩
  have ho' : Suitable (o0.setStopCriteria ⟨m, 0⟩) ds (meanSquare D ds / 2) :=
    ⟨⟨ho.valid.1, ho.valid.2, ho.valid.3, ho.valid.4, ho.valid.5⟩, ho.fair, ho.fresh,
      ⟨ho.plain.1, ho.plain.2, ho.plain.3, ho.plain.4, ho.plain.5⟩, ho.batch, ho.alpha, ho.floor, ho.small⟩
  obtain ⟨o, obj, h, hbound⟩ := logistic_training mem sc ds hN (classes_sum hC) (classes_nonneg hC) ho' (h1.trans hm) rfl rfl w calls log
  have h3 : distSq (F * (D + 1)) w (fun p => K / γ * u p) / (2 * ∑ t ∈ range m, rate (o0.setStopCriteria ⟨m, 0⟩).alpha
      (o0.setStopCriteria ⟨m, 0⟩).alphaDecay (o0.setStopCriteria ⟨m, 0⟩).minAlpha t) ≤ δ / (2 * ds.samples) := hb m hm
  have h4 := separator_error hC hN hu (div_nonneg hK0 hγ.le)
  rw [htγ] at h4
  have h5 : ds.samples * logisticRegression D F ds (o.result obj).1 < δ := by
    have h6 := mul_le_mul_of_nonneg_left (((hbound fun p => K / γ * u p).2).trans (add_le_add h4 h3)) hN'.le
    have h7 : ds.samples * (δ / (2 * ds.samples)) = δ / 2 := by field_simp
    rw [mul_add, h7] at h6
    linarith
  obtain ⟨ha, hh⟩ := strict_accuracy (D := D) hC hF mem hN (w := (o.result obj).1) fun n hn j hj hne =>
    small_error_correct hC (h5.trans_le hδ1) hn hj hne
  refine ⟨o, obj, h, ha, hh, ?_, ?_⟩
  · have h8 := (hbound u).1
    have h9 : ds.samples * logisticRegression D F ds (o.result obj).1 < ds.samples * e := h5.trans_le hδ3
    exact h8.trans_lt (lt_of_mul_lt_mul_left h9 hN'.le)
  · by_contra hno
    push Not at hno
    have := bounded_weights hC hF hN hno
    linarith

end Training

/-! ## Witnesses -/

/-- The inputs 0 and 1 with the classes 0 and 1. -/
def stepSet : TrainSet := ⟨2, fun n _ => n, fun n j => if j = n then 1 else 0⟩

theorem stepSet_classes : Classes 2 stepSet fun n => n := ⟨fun _ h => h, fun _ _ _ _ => rfl⟩

/-- Score 0 for class 0 and `2 x - 1` for class 1 separate them with margin 1. -/
theorem stepSet_margin : HasMargin 1 2 stepSet (fun n => n) (fun p => if p = 2 then 2 else if p = 3 then -1 else 0) 1 := by
  intro n hn j hj hne
  have h1 : n = 0 ∨ n = 1 := by change n < 2 at hn; omega
  have h2 : j = 0 ∨ j = 1 := by omega
  rcases h1 with rfl | rfl <;> rcases h2 with rfl | rfl
  · exact absurd rfl hne
  · norm_num [score, stepSet]
  · norm_num [score, stepSet]
  · exact absurd rfl hne

/-- The hypotheses of `separable_training` and `separable_epochs` are met. -/
example : Separable 1 2 stepSet (fun n => n) ∧ Suitable (plainOptimiser 5) stepSet (meanSquare 1 stepSet / 2) ∧
    (plainOptimiser 5).alphaDecay = 1 := by
  have h : meanSquare 1 stepSet = 3 / 2 := by
    simp [meanSquare, stepSet, sum_range_succ]
    norm_num
  refine ⟨⟨_, 1, one_pos, stepSet_margin⟩, ⟨⟨?_, one_pos, le_rfl, le_rfl, le_rfl⟩, fun _ _ => List.Perm.refl _, ?_,
    ⟨rfl, rfl, rfl, rfl, zero_le_one⟩, ?_, ?_, ?_, ?_⟩, rfl⟩
  · show 1 ≤ 10; norm_num
  · show (-1 : ℤ) < 0; norm_num
  · show 2 ≤ 10; norm_num
  · show (0 : ℝ) < 1 / 2; norm_num
  · show (0 : ℝ) ≤ 1 / 2; norm_num
  · rw [h]
    show (1 / 2 : ℝ) * (3 / 2 / 2) ≤ 1
    norm_num

/-- The four instances of XOR. -/
def xorSet : TrainSet := ⟨4, fun n i => if i = 0 then (n / 2 : ℕ) else (n % 2 : ℕ), fun n j => if j = (n / 2 + n % 2) % 2 then 1 else 0⟩

theorem xorSet_classes : Classes 2 xorSet fun n => (n / 2 + n % 2) % 2 := ⟨fun _ _ => by omega, fun _ _ _ _ => rfl⟩

/-- **C143 (the limits)**: no hyperplane separates the classes of XOR, hence however long the network is trained, it does not classify
them all correctly. -/
theorem xor_unseparable (mem : Mem) (w : Vec) : ¬ (Eval.accuracy (classifier 2 2 mem w) (setOf 2 2 xorSet) = .ok 1 ∧
    Eval.classificationHits (classifier 2 2 mem w) (setOf 2 2 xorSet) = .ok 4) := by
  intro h
  obtain ⟨u, γ, hγ, hu⟩ := (separable_iff xorSet_classes le_rfl mem (by show 0 < 4; norm_num)).2 ⟨w, h⟩
  have h0 := hu 0 (by show 0 < 4; norm_num) 1 (by norm_num) (by norm_num)
  have h1 := hu 1 (by show 1 < 4; norm_num) 0 (by norm_num) (by norm_num)
  have h2 := hu 2 (by show 2 < 4; norm_num) 0 (by norm_num) (by norm_num)
  have h3 := hu 3 (by show 3 < 4; norm_num) 1 (by norm_num) (by norm_num)
  norm_num [score, xorSet, sum_range_succ] at h0 h1 h2 h3
  linarith

end

end Verif.NN
