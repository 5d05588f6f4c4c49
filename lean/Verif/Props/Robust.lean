import Verif.Props.Determined
import Mathlib.Analysis.Calculus.MeanValue
import Mathlib.Analysis.SpecialFunctions.Pow.Deriv
import Mathlib.Analysis.SpecialFunctions.Sqrt
import Mathlib.Topology.MetricSpace.ProperSpace
import Mathlib.Analysis.Complex.ExponentialBounds

/-!
# Small changes have small effects: C116

Parameters and inputs are known up to rounding, measurement errors or the digits in a file.  The outputs of a network are
then known up to a multiple of these errors, and up to the jump of the logistic function at its cut-off.
-/

namespace Verif.NN

open Finset

noncomputable section

/-! ## Functions that change little -/

/-- `f` is bounded and changes by at most a multiple of `δ + c`, on all pairs of points that `C B δ` relates. -/
def Calm {P : Type} (C : ℝ → ℝ → P → P → Prop) (c : ℝ) (f : P → ℝ) : Prop :=
  ∀ B, ∃ R L, 0 ≤ R ∧ 0 ≤ L ∧ ∀ δ p q, 0 ≤ δ → C B δ p q → |f p| ≤ R ∧ |f q| ≤ R ∧ |f p - f q| ≤ L * (δ + c)

/-- `g` is Lipschitz on every bounded part of `S`. -/
def LocLip (g : ℝ → ℝ) (S : Set ℝ) : Prop :=
  ∀ R, ∃ K, 0 ≤ K ∧ ∀ s ∈ S, ∀ t ∈ S, |s| ≤ R → |t| ≤ R → |g s - g t| ≤ K * |s - t|

theorem locLip_of_deriv {g g' : ℝ → ℝ} {S : Set ℝ} (hS : Convex ℝ S) (hc : IsClosed S)
    (hd : ∀ x ∈ S, HasDerivAt g (g' x) x) (hg : ContinuousOn g' S) : LocLip g S := by
  intro R
  have hk : IsCompact (S ∩ Set.Icc (-R) R) := isCompact_Icc.inter_left hc
  obtain ⟨K, hK⟩ := hk.exists_bound_of_continuousOn (hg.mono Set.inter_subset_left)
  have hcv : Convex ℝ (S ∩ Set.Icc (-R) R) := hS.inter (convex_Icc _ _)
  refine ⟨max K 0, le_max_right _ _, fun s hs t ht h1 h2 => ?_⟩
  have hs' : s ∈ S ∩ Set.Icc (-R) R := ⟨hs, abs_le.1 h1⟩
  have ht' : t ∈ S ∩ Set.Icc (-R) R := ⟨ht, abs_le.1 h2⟩
  have := hcv.norm_image_sub_le_of_norm_hasDerivWithin_le (f := g) (f' := g') (C := max K 0)
    (fun x hx => (hd x hx.1).hasDerivWithinAt) (fun x hx => (hK x hx).trans (le_max_left _ _)) ht' hs'
  simpa [Real.norm_eq_abs] using this

variable {P : Type} {C : ℝ → ℝ → P → P → Prop} {c : ℝ}

theorem Calm.of_eq {f g : P → ℝ} (hf : Calm C c f) (h : ∀ p, f p = g p) : Calm C c g := funext h ▸ hf

theorem Calm.const (_ : 0 ≤ c) (v : ℝ) : Calm C c fun _ => v := fun _ =>
  ⟨|v|, 0, abs_nonneg _, le_refl _, fun δ p q hδ _ => ⟨le_refl _, le_refl _, by simp⟩⟩

theorem Calm.add (_ : 0 ≤ c) {f g : P → ℝ} (hf : Calm C c f) (hg : Calm C c g) : Calm C c fun p => f p + g p := by
  intro B
  obtain ⟨R, L, hR, hL, h⟩ := hf B
  obtain ⟨R', L', hR', hL', h'⟩ := hg B
  refine ⟨R + R', L + L', by positivity, by positivity, fun δ p q hδ hC => ?_⟩
  obtain ⟨a1, a2, a3⟩ := h δ p q hδ hC
  obtain ⟨b1, b2, b3⟩ := h' δ p q hδ hC
  refine ⟨(abs_add_le _ _).trans (add_le_add a1 b1), (abs_add_le _ _).trans (add_le_add a2 b2), ?_⟩
  have : f p + g p - (f q + g q) = (f p - f q) + (g p - g q) := by ring
  rw [this, add_mul]
  exact (abs_add_le _ _).trans (add_le_add a3 b3)

theorem Calm.mul (hc : 0 ≤ c) {f g : P → ℝ} (hf : Calm C c f) (hg : Calm C c g) : Calm C c fun p => f p * g p := by
  intro B
  obtain ⟨R, L, hR, hL, h⟩ := hf B
  obtain ⟨R', L', hR', hL', h'⟩ := hg B
  refine ⟨R * R', R * L' + L * R', by positivity, by positivity, fun δ p q hδ hC => ?_⟩
  obtain ⟨a1, a2, a3⟩ := h δ p q hδ hC
  obtain ⟨b1, b2, b3⟩ := h' δ p q hδ hC
  refine ⟨?_, ?_, ?_⟩
  · rw [abs_mul]; exact mul_le_mul a1 b1 (abs_nonneg _) hR
  · rw [abs_mul]; exact mul_le_mul a2 b2 (abs_nonneg _) hR
  · have : f p * g p - f q * g q = f p * (g p - g q) + (f p - f q) * g q := by ring
    rw [this]
    refine (abs_add_le _ _).trans ?_
    rw [abs_mul, abs_mul]
    have h1 : |f p| * |g p - g q| ≤ R * (L' * (δ + c)) := mul_le_mul a1 b3 (abs_nonneg _) hR
    have h2 : |f p - f q| * |g q| ≤ L * (δ + c) * R' := mul_le_mul a3 b2 (abs_nonneg _) (by positivity)
    calc _ ≤ R * (L' * (δ + c)) + L * (δ + c) * R' := add_le_add h1 h2
      _ = _ := by ring

theorem Calm.sum (hc : 0 ≤ c) {ι : Type} (s : Finset ι) {f : ι → P → ℝ} (h : ∀ i ∈ s, Calm C c (f i)) :
    Calm C c fun p => ∑ i ∈ s, f i p := by
  classical
  induction s using Finset.induction_on with
  | empty => simpa using Calm.const (C := C) hc 0
  | insert a s ha ih =>
    simp only [Finset.sum_insert ha]
    exact (h a (Finset.mem_insert_self _ _)).add hc (ih fun i hi => h i (Finset.mem_insert_of_mem hi))

theorem Calm.neg {f : P → ℝ} (hf : Calm C c f) : Calm C c fun p => -f p := by
  intro B
  obtain ⟨R, L, hR, hL, h⟩ := hf B
  refine ⟨R, L, hR, hL, fun δ p q hδ hC => ?_⟩
  obtain ⟨a1, a2, a3⟩ := h δ p q hδ hC
  refine ⟨by rwa [abs_neg], by rwa [abs_neg], ?_⟩
  rwa [show -f p - -f q = -(f p - f q) by ring, abs_neg]

/-- A function that is Lipschitz up to a jump of at most `c`, of a calm function. -/
theorem Calm.comp_jump (hc : 0 ≤ c) {g : ℝ → ℝ} {S : Set ℝ} {a : ℝ} (ha : a ∈ S)
    (hg : ∀ R, ∃ K, 0 ≤ K ∧ ∀ s ∈ S, ∀ t ∈ S, |s| ≤ R → |t| ≤ R → |g s - g t| ≤ K * |s - t| + c)
    {f : P → ℝ} (hf : Calm C c f) (hS : ∀ p, f p ∈ S) : Calm C c fun p => g (f p) := by
  intro B
  obtain ⟨R, L, hR, hL, h⟩ := hf B
  obtain ⟨K, hK, k⟩ := hg (max R |a|)
  have hb : ∀ s ∈ S, |s| ≤ R → |g s| ≤ |g a| + (K * (R + |a|) + c) := by
    intro s hs h1
    have h2 := k s hs a ha (h1.trans (le_max_left _ _)) (le_max_right _ _)
    have h3 : |s - a| ≤ R + |a| := (abs_sub _ _).trans (by linarith)
    have h4 : |g s| ≤ |g a| + |g s - g a| := by
      have := abs_add_le (g a) (g s - g a)
      rwa [add_sub_cancel] at this
    nlinarith [mul_le_mul_of_nonneg_left h3 hK]
  refine ⟨|g a| + (K * (R + |a|) + c), K * L + 1, by positivity, by positivity, fun δ p q hδ hC => ?_⟩
  obtain ⟨a1, a2, a3⟩ := h δ p q hδ hC
  refine ⟨hb _ (hS p) a1, hb _ (hS q) a2, ?_⟩
  have := k _ (hS p) _ (hS q) (a1.trans (le_max_left _ _)) (a2.trans (le_max_left _ _))
  refine this.trans ?_
  have h1 := mul_le_mul_of_nonneg_left a3 hK
  nlinarith

theorem Calm.comp (hc : 0 ≤ c) {g : ℝ → ℝ} {S : Set ℝ} {a : ℝ} (ha : a ∈ S) (hg : LocLip g S) {f : P → ℝ} (hf : Calm C c f)
    (hS : ∀ p, f p ∈ S) : Calm C c fun p => g (f p) := by
  refine hf.comp_jump hc ha (fun R => ?_) hS
  obtain ⟨K, hK, k⟩ := hg R
  exact ⟨K, hK, fun s hs t ht h1 h2 => (k s hs t ht h1 h2).trans (by linarith)⟩

theorem locLip_max (a : ℝ) : LocLip (fun t => max a t) Set.univ := fun R =>
  ⟨1, zero_le_one, fun s _ t _ _ _ => by
    rw [one_mul]
    have := abs_max_sub_max_le_abs s t a
    rwa [max_comm s a, max_comm t a] at this⟩

theorem Calm.max (hc : 0 ≤ c) {f g : P → ℝ} (hf : Calm C c f) (hg : Calm C c g) : Calm C c fun p => max (f p) (g p) := by
  have h : Calm C c fun p => g p + Max.max 0 (f p + -g p) :=
    hg.add hc ((hf.add hc hg.neg).comp hc (Set.mem_univ 0) (locLip_max 0) fun _ => Set.mem_univ _)
  have e : (fun p => Max.max (f p) (g p)) = fun p => g p + Max.max 0 (f p + -g p) := by
    funext p
    rw [← max_add_add_left]
    simp [max_comm]
  rw [e]
  exact h

theorem Calm.ite (_ : 0 ≤ c) {f g : P → ℝ} (b : Prop) [Decidable b] (hf : b → Calm C c f) (hg : ¬ b → Calm C c g) :
    Calm C c fun p => if b then f p else g p := by
  by_cases h : b
  · simpa only [if_pos h] using hf h
  · simpa only [if_neg h] using hg h

theorem Calm.exp (hc : 0 ≤ c) {f : P → ℝ} (hf : Calm C c f) : Calm C c fun p => Real.exp (f p) :=
  hf.comp hc (Set.mem_univ 0) (locLip_of_deriv (g' := Real.exp) convex_univ isClosed_univ
    (fun x _ => Real.hasDerivAt_exp x) Real.continuous_exp.continuousOn) fun _ => Set.mem_univ _

theorem Calm.rpow (hc : 0 ≤ c) {f : P → ℝ} (hf : Calm C c f) {a : ℝ} (ha : 0 < a) (h : ∀ p, a ≤ f p) (b : ℝ) :
    Calm C c fun p => f p ^ b := by
  refine Calm.comp hc (g := fun x => x ^ b) (S := Set.Ici a) (a := a) Set.self_mem_Ici ?_ hf h
  refine locLip_of_deriv (g' := fun x => b * x ^ (b - 1)) (convex_Ici a) isClosed_Ici
    (fun x hx => Real.hasDerivAt_rpow_const (Or.inl (ne_of_gt (lt_of_lt_of_le ha hx)))) ?_
  exact continuousOn_const.mul (continuousOn_id.rpow_const fun x hx => Or.inl (ne_of_gt (lt_of_lt_of_le ha hx)))

/-! ## Activation functions -/

/-- The logistic function of the code differs from the logistic function by less than `exp (-45)`. -/
theorem logistic_error (a : ℝ) : |Act.logistic.apply a - 1 / (1 + Real.exp (-a))| ≤ Real.exp (-45) := by
  have hp := Real.exp_pos (-a)
  have hm := sigmoid_mem a
  simp only [Act.apply]
  split_ifs with h1 h2
  · rw [zero_sub, abs_neg, abs_of_pos hm.1, div_le_iff₀ (by positivity)]
    have : Real.exp (-45) * Real.exp (-a) = Real.exp (-45 + -a) := (Real.exp_add _ _).symm
    have h3 : 1 ≤ Real.exp (-45 + -a) := Real.one_le_exp (by linarith)
    nlinarith [Real.exp_pos (-45)]
  · rw [abs_of_pos (by linarith [hm.2])]
    have h3 : Real.exp (-a) ≤ Real.exp (-45) := Real.exp_le_exp.2 (by linarith)
    have h4 : 1 - 1 / (1 + Real.exp (-a)) = Real.exp (-a) / (1 + Real.exp (-a)) := by field_simp; ring
    rw [h4, div_le_iff₀ (by positivity)]
    nlinarith [Real.exp_pos (-45)]
  · rw [sub_self, abs_zero]; exact (Real.exp_pos _).le

/-- The largest jump of the logistic function of the code. -/
def jump : ℝ := 2 * Real.exp (-45)

theorem Calm.act (hc : 0 ≤ c) (act : Act) (hj : act = .logistic → jump ≤ c) {f : P → ℝ} (hf : Calm C c f) :
    Calm C c fun p => act.apply (f p) := by
  cases act with
  | logistic =>
    have hcj := hj rfl
    refine hf.comp_jump hc (Set.mem_univ 0) (fun R => ?_) fun _ => Set.mem_univ _
    obtain ⟨K, hK, k⟩ := (locLip_of_deriv (g := fun x => 1 / (1 + Real.exp (-x)))
      (g' := fun a => 1 / (1 + Real.exp (-a)) * (1 - 1 / (1 + Real.exp (-a)))) convex_univ isClosed_univ
      (fun x _ => hasDerivAt_sigmoid x) (by
        have : Continuous fun a : ℝ => 1 / (1 + Real.exp (-a)) :=
          continuous_const.div (by fun_prop) fun x => by positivity
        exact (this.mul (continuous_const.sub this)).continuousOn)) R
    refine ⟨K, hK, fun s hs t ht h1 h2 => ?_⟩
    have e1 := logistic_error s
    have e2 := logistic_error t
    have e3 := k s hs t ht h1 h2
    rw [jump] at hcj
    rw [abs_le] at *
    constructor <;> linarith [e1.1, e1.2, e2.1, e2.2, e3.1, e3.2]
  | tanh =>
    refine hf.comp hc (Set.mem_univ 0) (locLip_of_deriv (g' := fun a => 1 - Real.tanh a ^ 2) convex_univ isClosed_univ
      (fun x _ => hasDerivAt_tanh x) ?_) fun _ => Set.mem_univ _
    have : Continuous Real.tanh := continuous_iff_continuousAt.2 fun x => (hasDerivAt_tanh x).continuousAt
    exact (continuous_const.sub (this.pow 2)).continuousOn
  | tanhScaled =>
    have h1 : Calm C c fun p => 0.66666667 * f p := (Calm.const hc _).mul hc hf
    have h2 : Calm C c fun p => Real.tanh (0.66666667 * f p) := by
      refine h1.comp hc (Set.mem_univ 0) (locLip_of_deriv (g' := fun a => 1 - Real.tanh a ^ 2) convex_univ isClosed_univ
        (fun x _ => hasDerivAt_tanh x) ?_) fun _ => Set.mem_univ _
      have : Continuous Real.tanh := continuous_iff_continuousAt.2 fun x => (hasDerivAt_tanh x).continuousAt
      exact (continuous_const.sub (this.pow 2)).continuousOn
    exact (Calm.const hc _).mul hc h2
  | rectifier => exact hf.comp hc (Set.mem_univ 0) (locLip_max 0) fun _ => Set.mem_univ _
  | linear => exact hf

/-! ## Layers -/

/-- Spec: the layer has logistic units. -/
def Kind.logisticUnits : Kind → Prop
  | .fullyConnected _ _ act _ => act = .logistic
  | .compressed _ _ _ act _ _ => act = .logistic
  | .extreme _ _ act _ => act = .logistic
  | .intrinsicPlasticity _ _ => True
  | .rbm _ _ => True
  | .sparseAutoEncoder _ act _ => act = .logistic
  | .conv g => g.act = .logistic
  | .sub _ _ act _ => act = .logistic
  | _ => False

/-- Spec: local response normalisation divides by powers of numbers that are at least `k`, which is positive. -/
def Kind.Regular : Kind → Prop
  | .lrn g => 0 < g.k ∧ 0 ≤ g.alpha
  | _ => True

theorem calm_dense (hc : 0 ≤ c) {I n j : ℕ} {W : P → Batch} {b : P → ℕ → ℝ} {x : P → Batch}
    (hx : ∀ i < I, Calm C c fun p => x p n i) (hW : ∀ i < I, Calm C c fun p => W p j i) (hb : Calm C c fun p => b p j) :
    Calm C c fun p => dense I (W p) (b p) (x p) n j :=
  (Calm.sum hc _ fun i hi => (hx i (mem_range.1 hi)).mul hc (hW i (mem_range.1 hi))).add hc hb

theorem calm_rowMax (hc : 0 ≤ c) {x : P → Batch} {n base k : ℕ} (h : ∀ i < k, Calm C c fun p => x p n (base + i)) :
    Calm C c fun p => Pool.rowMax (x p) n base k := by
  induction k with
  | zero => exact Calm.const hc _
  | succ k ih => exact (ih fun i hi => h i (by omega)).max hc (h k (by omega))

theorem calm_forward (hc : 0 ≤ c) {k : Kind} {I : ℕ} (hf : k.Fits I) (hr : k.Regular) (hj : k.logisticUnits → jump ≤ c)
    {w : P → Weights} (hw : ∀ s, Calm C c fun p => w p s) {x : P → Batch} {N n : ℕ}
    (hx : ∀ i < I, Calm C c fun p => x p n i) {j : ℕ} (hjo : j < (k.layer I).outputs) :
    Calm C c fun p => (k.layer I).forward (w p) N (x p) n j := by
  have hbias : ∀ (b : Bool) (s : Slot), Calm C c fun p => if b then w p s else 0 := fun b s =>
    Calm.ite hc (b = true) (fun _ => hw s) fun _ => Calm.const hc 0
  have hcomp : ∀ (M i : ℕ) (phi : Batch), Calm C c fun p => compressedW M phi (w p) j i := fun M i phi =>
    Calm.sum hc _ fun m _ => (hw (.w [j, m])).mul hc (Calm.const hc _)
  cases k with
  | fullyConnected J bias act reg =>
    exact (calm_dense hc hx (fun i _ => hw (.w [j, i])) (hbias bias (.b [j]))).act hc act hj
  | compressed J M bias act reg phi =>
    refine (calm_dense hc hx (fun i _ => hcomp M i phi) ?_).act hc act hj
    exact Calm.ite hc (bias = true) (fun _ => hcomp M I phi) fun _ => Calm.const hc 0
  | extreme J bias act W =>
    exact (calm_dense (W := fun _ => W) hc hx (fun i _ => Calm.const hc _)
      (b := fun _ j => if bias then W j I else 0) (Calm.const hc _)).act hc act hj
  | intrinsicPlasticity s b =>
    exact (((hx j hjo).mul hc (Calm.const hc _)).add hc (Calm.const hc _)).act hc .logistic fun _ => hj trivial
  | rbm H backprop =>
    exact (calm_dense hc hx (fun i _ => hw (.w [j, i])) (hbias true (.b [j]))).act hc .logistic fun _ => hj trivial
  | sparseAutoEncoder H act lambda =>
    exact (calm_dense hc hx (fun i _ => hw (.w [j, i])) (hbias true (.b [j]))).act hc act hj
  | dropout mask => exact (Calm.const hc _).mul hc (hx j hjo)
  | conv g =>
    refine Calm.act hc g.act hj ?_
    refine Calm.sum hc _ fun fmo _ => Calm.sum hc _ fun fmi hfi => Calm.sum hc _ fun row hr => Calm.sum hc _ fun col hcc => ?_
    rw [mem_range] at hfi hr hcc
    refine Calm.ite hc _ (fun _ => ?_) fun _ => Calm.const hc 0
    refine Calm.add hc ?_ (hbias g.bias (.b [fmo, fmi]))
    refine Calm.sum hc _ fun kr hkr => Calm.sum hc _ fun kc hkc => ?_
    rw [mem_range] at hkr hkc
    have hb := Conv.inIdx_bound hf.2 hfi hr hcc hkr
    have e : g.inIdx fmi (row + kr) (col + kc) = g.inIdx fmi (row + kr) col + kc := by
      simp only [Conv.inIdx]; ring
    exact (hw _).mul hc (hx _ (by rw [← hf.1, e]; omega))
  | maxPool g =>
    refine calm_rowMax hc fun i hi => hx _ ?_
    rw [← hf.1]
    exact Pool.base_bound hf.2 hjo hi
  | sub g bias act reg =>
    refine Calm.act hc act hj (Calm.add hc (Calm.mul hc ?_ (hw _)) (hbias bias _))
    refine Calm.sum hc _ fun kr _ => Calm.sum hc _ fun kc hkc => hx _ ?_
    rw [← hf.1]
    exact Pool.base_bound hf.2 hjo (mem_range.1 hkc)
  | lrn g =>
    have hI : g.inputs = I := hf
    have hjI : j < g.inputs := hjo
    have hs : 0 < g.fmSize := by
      rcases Nat.eq_zero_or_pos g.fmSize with h | h
      · rw [LRN.inputs, Nat.mul_assoc, show g.rows * g.cols = 0 from h, Nat.mul_zero] at hjI
        omega
      · exact h
    refine Calm.mul hc (hx j (hI ▸ hjI)) ?_
    refine Calm.rpow hc ?_ hr.1 (fun p => ?_) (-g.beta)
    · refine (Calm.const hc _).add hc ((Calm.const hc _).mul hc (Calm.sum hc _ fun m hm => ?_))
      have hlt : m * g.fmSize + j % g.fmSize < I := by
        rw [LRN.maps, mem_Ico, lt_min_iff] at hm
        have h1 := Nat.mod_lt j hs
        have h2 : (m + 1) * g.fmSize ≤ g.fm * g.fmSize := Nat.mul_le_mul_right _ (by omega)
        rw [Nat.succ_mul] at h2
        rw [← hI, LRN.inputs, Nat.mul_assoc]
        exact lt_of_lt_of_le (by omega) h2
      exact (hx _ hlt).mul hc (hx _ hlt)
    · rw [LRN.denomAt, LRN.denom]
      have : 0 ≤ ∑ fmIn ∈ g.maps n (j / g.fmSize), x p n (fmIn * g.fmSize + j % g.fmSize) * x p n (fmIn * g.fmSize + j % g.fmSize) :=
        Finset.sum_nonneg fun _ _ => mul_self_nonneg _
      nlinarith [mul_nonneg hr.2 this]

/-- The max-norm constraint scales by `√m / √(max m S)`. -/
theorem calm_updated (hc : 0 ≤ c) {k : Kind} {I : ℕ} {w : P → Weights} (hw : ∀ s, Calm C c fun p => w p s) (s : Slot) :
    Calm C c fun p => (k.layer I).updated (w p) s := by
  cases k with
  | fullyConnected J bias act reg =>
    show Calm C c fun p => maxNormUpdate I reg.maxNorm (w p) s
    rcases le_or_gt reg.maxNorm 0 with h | h
    · simpa only [maxNormUpdate_nonpos h] using hw s
    · match s with
      | .w [j, i] =>
        have hS : Calm C c fun p => max reg.maxNorm (∑ i' ∈ range I, w p (.w [j, i']) ^ 2) := by
          refine (Calm.const hc _).max hc (Calm.sum hc _ fun i' _ => ?_)
          simpa only [pow_two] using (hw (.w [j, i'])).mul hc (hw (.w [j, i']))
        have hr : Calm C c fun p => (max reg.maxNorm (∑ i' ∈ range I, w p (.w [j, i']) ^ 2)) ^ (-(1 / 2) : ℝ) :=
          hS.rpow hc h (fun p => le_max_left _ _) _
        have := (hw (.w [j, i])).mul hc ((Calm.const hc (Real.sqrt reg.maxNorm)).mul hc hr)
        refine this.of_eq fun p => ?_
        simp only [maxNormUpdate]
        split_ifs with hlt
        · have hpos : 0 < ∑ i' ∈ range I, w p (.w [j, i']) ^ 2 := h.trans hlt.2
          rw [max_eq_right hlt.2.le, Real.sqrt_div h.le, Real.rpow_neg hpos.le, ← Real.sqrt_eq_rpow, div_eq_mul_inv]
        · have hle : ∑ i' ∈ range I, w p (.w [j, i']) ^ 2 ≤ reg.maxNorm := not_lt.1 fun hh => hlt ⟨h, hh⟩
          rw [max_eq_left hle, Real.rpow_neg h.le, ← Real.sqrt_eq_rpow, mul_inv_cancel₀ (Real.sqrt_pos.2 h).ne', mul_one]
      | .b _ => exact hw _
      | .w [] => exact hw _
      | .w [_] => exact hw _
      | .w (_ :: _ :: _ :: _) => exact hw _
  | _ => exact hw s

/-! ## Networks -/

theorem calm_forwardFrom (hc : 0 ≤ c) {N n : ℕ} {mem : P → Mem} (hm : ∀ l s, Calm C c fun p => mem p l s) :
    ∀ (ks : List Kind) (I m : ℕ), FitsFrom I ks → (∀ k ∈ ks, k.Regular) → (∀ k ∈ ks, k.logisticUnits → jump ≤ c) →
      ∀ x : P → Batch, (∀ i < I, Calm C c fun p => x p n i) →
        ∀ j < outFrom I (layersFrom I ks), Calm C c fun p => forwardFrom (mem p) N m (layersFrom I ks) (x p) n j := by
  intro ks
  induction ks with
  | nil => intro I m _ _ _ x hx j hj; exact hx j hj
  | cons k ks ih =>
    intro I m hf hr hj x hx j hjo
    refine ih (k.layer I).outputs (m + 1) hf.2 (fun a ha => hr a (List.mem_cons_of_mem _ ha))
      (fun a ha => hj a (List.mem_cons_of_mem _ ha)) (fun p => (k.layer I).forward (mem p m) N (x p)) ?_ j hjo
    intro i hi
    exact calm_forward hc hf.1 (hr k List.mem_cons_self) (hj k List.mem_cons_self) (fun s => hm m s) hx hi

theorem calm_predictAll (hc : 0 ≤ c) {D : ℕ} {ks : List Kind} (ce : Bool) (hf : FitsFrom D ks) (hr : ∀ k ∈ ks, k.Regular)
    (hj : ∀ k ∈ ks, k.logisticUnits → jump ≤ c) {N n : ℕ} {mem : P → Mem} (hm : ∀ l s, Calm C c fun p => mem p l s)
    {X : P → Batch} (hX : ∀ i < D, Calm C c fun p => X p n i) {j : ℕ} (hjo : j < (buildNet D ks ce).outputs) :
    Calm C c fun p => (buildNet D ks ce).predictAll (mem p) N (X p) n j := by
  have key : ∀ j < (buildNet D ks ce).outputs, Calm C c fun p => (buildNet D ks ce).activations (mem p) N (X p) n j := by
    intro j hjo
    rw [outputs_buildNet] at hjo
    exact calm_forwardFrom hc hm ks D 1 hf hr hj X hX j hjo
  cases ce with
  | false => exact key j hjo
  | true =>
    set F := (buildNet D ks true).outputs with hF
    set y := fun p => (buildNet D ks true).activations (mem p) N (X p) with hy
    have h1 : Calm C c fun p => ∑ k ∈ range F, Real.exp (y p n k + -(y p n j)) :=
      Calm.sum hc _ fun k hk => ((key k (mem_range.1 hk)).add hc (key j hjo).neg).exp hc
    have h2 : ∀ p, 1 ≤ ∑ k ∈ range F, Real.exp (y p n k + -(y p n j)) := by
      intro p
      have := Finset.single_le_sum (f := fun k => Real.exp (y p n k + -(y p n j))) (s := range F)
        (fun k _ => (Real.exp_pos _).le) (mem_range.2 hjo)
      simpa using this
    refine (h1.rpow hc one_pos h2 (-1)).of_eq fun p => ?_
    show _ = softmax N F (y p) n j
    rw [softmax_eq, Real.rpow_neg_one, ← softmax_shift F (y p n) (y p n j) j]
    simp [sub_eq_add_neg]

theorem calm_updatedFrom (hc : 0 ≤ c) : ∀ (ks : List Kind) (I m : ℕ) (mem : P → Mem), (∀ l s, Calm C c fun p => mem p l s) →
    ∀ l s, Calm C c fun p => updatedFrom m (layersFrom I ks) (mem p) l s := by
  intro ks
  induction ks with
  | nil => intro I m mem hm l s; exact hm l s
  | cons k ks ih =>
    intro I m mem hm l s
    refine ih (k.layer I).outputs (m + 1) (fun p => Function.update (mem p) m ((k.layer I).updated (mem p m))) ?_ l s
    intro l' s'
    by_cases h : l' = m
    · subst h
      simpa only [Function.update_self] using calm_updated hc (fun s => hm l' s) s'
    · simpa only [Function.update_of_ne h] using hm l' s'

/-! ## Vectors of parameters -/

/-- Spec: two vectors of parameters and two batches with entries between `-B` and `B` that differ by at most `δ`, in the
first `P` parameters and the `D` columns of row `n`. -/
structure CloseBy (P D n : ℕ) (B δ : ℝ) (a b : List ℝ × Batch) : Prop where
  long : P ≤ a.1.length ∧ P ≤ b.1.length
  params : ∀ i < P, |a.1.getD i 0| ≤ B ∧ |b.1.getD i 0| ≤ B ∧ |a.1.getD i 0 - b.1.getD i 0| ≤ δ
  inputs : ∀ i < D, |a.2 n i| ≤ B ∧ |b.2 n i| ≤ B ∧ |a.2 n i - b.2 n i| ≤ δ

theorem calm_coord {f : P → ℝ} (hc : 0 ≤ c)
    (h : ∀ B δ p q, C B δ p q → |f p| ≤ B ∧ |f q| ≤ B ∧ |f p - f q| ≤ δ) : Calm C c f := by
  intro B
  refine ⟨max B 0, 1, le_max_right _ _, zero_le_one, fun δ p q _ hC => ?_⟩
  obtain ⟨h1, h2, h3⟩ := h B δ p q hC
  exact ⟨h1.trans (le_max_left _ _), h2.trans (le_max_left _ _), by linarith⟩

theorem Calm.congr {f g : P → ℝ} (hf : Calm C c f) (h : ∀ B δ p q, C B δ p q → f p = g p ∧ f q = g q) : Calm C c g := by
  intro B
  obtain ⟨R, L, hR, hL, k⟩ := hf B
  refine ⟨R, L, hR, hL, fun δ p q hδ hC => ?_⟩
  obtain ⟨e1, e2⟩ := h B δ p q hC
  rw [← e1, ← e2]
  exact k δ p q hδ hC

theorem calm_setParameters (hc : 0 ≤ c) (D : ℕ) (ks : List Kind) (ce : Bool) (n : ℕ) (mem : Mem) (l : ℕ) (s : Slot) :
    Calm (CloseBy (buildNet D ks ce).P D n) c fun p : List ℝ × Batch => (buildNet D ks ce).setParameters mem p.1 l s := by
  refine calm_updatedFrom hc ks D 1 (fun p : List ℝ × Batch => Function.update (mem.writeAll (buildNet D ks ce).parameters p.1) 0
    ((inputLayer D).updated (mem.writeAll (buildNet D ks ce).parameters p.1 0))) ?_ l s
  intro l' s'
  have e : ∀ p : List ℝ × Batch, Function.update (mem.writeAll (buildNet D ks ce).parameters p.1) 0
      ((inputLayer D).updated (mem.writeAll (buildNet D ks ce).parameters p.1 0)) =
      mem.writeAll (buildNet D ks ce).parameters p.1 := fun p => Function.update_eq_self 0 _
  simp only [e]
  by_cases hmem : (l', s') ∈ (buildNet D ks ce).parameters
  · obtain ⟨i, hi, he⟩ := List.getElem_of_mem hmem
    have hi' : i < (buildNet D ks ce).P := hi
    have hval : ∀ θ : List ℝ, (buildNet D ks ce).P ≤ θ.length →
        θ.getD i 0 = mem.writeAll (buildNet D ks ce).parameters θ l' s' := by
      intro θ hθ
      have h1 := writeAll_getElem (mem := mem) (θ := θ) (parameters_nodup D ks ce) hi (lt_of_lt_of_le hi' hθ)
      rw [he] at h1
      rw [h1]
      simp [List.getD, lt_of_lt_of_le hi' hθ]
    refine Calm.congr (f := fun p : List ℝ × Batch => p.1.getD i 0) (calm_coord hc fun B δ p q h => h.params i hi') ?_
    intro B δ p q h
    exact ⟨hval _ h.long.1, hval _ h.long.2⟩
  · have : (fun p : List ℝ × Batch => mem.writeAll (buildNet D ks ce).parameters p.1 l' s') = fun _ => mem l' s' := by
      funext p
      exact writeAll_of_notMem (p := (l', s')) hmem
    rw [this]
    exact Calm.const hc _

/-- One number for finitely many functions. -/
theorem calm_uniform (hc : 0 ≤ c) {F : ℕ} {B : ℝ} {f : ℕ → P → ℝ} (h : ∀ j < F, Calm C c (f j)) :
    ∃ L, 0 ≤ L ∧ ∀ δ p q, 0 ≤ δ → C B δ p q → ∀ j < F, |f j p - f j q| ≤ L * (δ + c) := by
  induction F with
  | zero => exact ⟨0, le_refl _, fun _ _ _ _ _ j hj => absurd hj (Nat.not_lt_zero j)⟩
  | succ F ih =>
    obtain ⟨L, hL, k⟩ := ih fun j hj => h j (by omega)
    obtain ⟨R, L', hR, hL', k'⟩ := h F (by omega) B
    refine ⟨L + L', by positivity, fun δ p q hδ hC j hj => ?_⟩
    have h0 : 0 ≤ δ + c := by linarith
    rcases Nat.lt_succ_iff_lt_or_eq.1 hj with hj | rfl
    · have := k δ p q hδ hC j hj
      nlinarith [mul_nonneg hL' h0]
    · have := (k' δ p q hδ hC).2.2
      nlinarith [mul_nonneg hL h0]

/-! ## Main theorems -/

/-- **C116**: in every network, for parameters and inputs between `-B` and `B`, there is a number `L` such that changing the
parameters and the inputs by at most `δ` changes no output by more than `L (δ + jump)`.  The buffers of the layers may
contain anything (`mem`), the other rows of the batch may differ arbitrarily. -/
theorem robust_partial {D : ℕ} {ks : List Kind} (ce : Bool) (hf : FitsFrom D ks) (hr : ∀ k ∈ ks, k.Regular) (mem : Mem) (N n : ℕ)
    (B : ℝ) :
    ∃ L, 0 ≤ L ∧ ∀ (δ : ℝ) (θ θ' : List ℝ) (X X' : Batch), 0 ≤ δ →
      CloseBy (buildNet D ks ce).P D n B δ (θ, X) (θ', X') → ∀ j < (buildNet D ks ce).outputs,
        |(buildNet D ks ce).predictAll ((buildNet D ks ce).setParameters mem θ) N X n j -
          (buildNet D ks ce).predictAll ((buildNet D ks ce).setParameters mem θ') N X' n j| ≤ L * (δ + jump) := by
  have hc : 0 ≤ jump := by unfold jump; positivity
  obtain ⟨L, hL, h⟩ := calm_uniform hc (B := B) (C := CloseBy (buildNet D ks ce).P D n)
    fun j (hj : j < (buildNet D ks ce).outputs) => calm_predictAll hc ce hf hr (fun _ _ _ => le_refl _) (N := N)
      (mem := fun p : List ℝ × Batch => (buildNet D ks ce).setParameters mem p.1)
      (fun l s => calm_setParameters hc D ks ce n mem l s) (X := fun p => p.2)
      (fun i hi => calm_coord hc fun _ _ _ _ h => h.inputs i hi) hj
  exact ⟨L, hL, fun δ θ θ' X X' hδ hC j hj => h δ (θ, X) (θ', X') hδ hC j hj⟩

/-- **C116 (no logistic units)**: the outputs depend on parameters and inputs in a Lipschitz continuous way. -/
theorem robust_smooth {D : ℕ} {ks : List Kind} (ce : Bool) (hf : FitsFrom D ks) (hr : ∀ k ∈ ks, k.Regular)
    (hl : ∀ k ∈ ks, ¬ k.logisticUnits) (mem : Mem) (N n : ℕ) (B : ℝ) :
    ∃ L, 0 ≤ L ∧ ∀ (δ : ℝ) (θ θ' : List ℝ) (X X' : Batch), 0 ≤ δ →
      CloseBy (buildNet D ks ce).P D n B δ (θ, X) (θ', X') → ∀ j < (buildNet D ks ce).outputs,
        |(buildNet D ks ce).predictAll ((buildNet D ks ce).setParameters mem θ) N X n j -
          (buildNet D ks ce).predictAll ((buildNet D ks ce).setParameters mem θ') N X' n j| ≤ L * δ := by
  obtain ⟨L, hL, h⟩ := calm_uniform (le_refl (0 : ℝ)) (B := B) (C := CloseBy (buildNet D ks ce).P D n)
    fun j (hj : j < (buildNet D ks ce).outputs) => calm_predictAll (le_refl 0) ce hf hr
      (fun k hk h => absurd h (hl k hk)) (N := N) (mem := fun p : List ℝ × Batch => (buildNet D ks ce).setParameters mem p.1)
      (fun l s => calm_setParameters (le_refl 0) D ks ce n mem l s) (X := fun p => p.2)
      (fun i hi => calm_coord (le_refl 0) fun _ _ _ _ h => h.inputs i hi) hj
  refine ⟨L, hL, fun δ θ θ' X X' hδ hC j hj => ?_⟩
  simpa only [add_zero] using h δ (θ, X) (θ', X') hδ hC j hj

/-- The jump is far below what a `double` near 1 can resolve. -/
theorem jump_small : 0 < jump ∧ jump < 1e-19 := by
  refine ⟨by unfold jump; positivity, ?_⟩
  have h1 : (2.7 : ℝ) < Real.exp 1 := by linarith [Real.exp_one_gt_d9]
  have h2 : (2.7 : ℝ) ^ 45 ≤ Real.exp 45 := by
    have : Real.exp 45 = Real.exp 1 ^ 45 := by rw [← Real.exp_nat_mul]; norm_num
    rw [this]
    exact pow_le_pow_left₀ (by norm_num) h1.le 45
  rw [jump, Real.exp_neg, ← div_eq_mul_inv, div_lt_iff₀ (Real.exp_pos _)]
  refine lt_of_lt_of_le ?_ (mul_le_mul_of_nonneg_left h2 (by norm_num))
  norm_num

/-- **C116 (decisions)**: which of two outputs is larger does not change, if they are apart by more than a multiple of the
change. -/
theorem decision_kept {D : ℕ} {ks : List Kind} (ce : Bool) (hf : FitsFrom D ks) (hr : ∀ k ∈ ks, k.Regular) (mem : Mem) (N n : ℕ)
    (B : ℝ) :
    ∃ L, 0 ≤ L ∧ ∀ (δ : ℝ) (θ θ' : List ℝ) (X X' : Batch), 0 ≤ δ →
      CloseBy (buildNet D ks ce).P D n B δ (θ, X) (θ', X') →
        ∀ i < (buildNet D ks ce).outputs, ∀ j < (buildNet D ks ce).outputs,
          (buildNet D ks ce).predictAll ((buildNet D ks ce).setParameters mem θ) N X n i + L * (δ + jump) <
            (buildNet D ks ce).predictAll ((buildNet D ks ce).setParameters mem θ) N X n j →
          (buildNet D ks ce).predictAll ((buildNet D ks ce).setParameters mem θ') N X' n i <
            (buildNet D ks ce).predictAll ((buildNet D ks ce).setParameters mem θ') N X' n j := by
  obtain ⟨L, hL, h⟩ := robust_partial ce hf hr mem N n B
  refine ⟨2 * L, by linarith, fun δ θ θ' X X' hδ hC i hi j hj hij => ?_⟩
  have h1 := abs_le.1 (h δ θ θ' X X' hδ hC i hi)
  have h2 := abs_le.1 (h δ θ θ' X X' hδ hC j hj)
  linarith [h1.1, h1.2, h2.1, h2.2]

/-- False of the code: no multiple of the change of the input bounds the change of the output of a logistic unit. -/
theorem lipschitz_fails (L : ℝ) : ∃ (δ : ℝ) (X X' : Batch), 0 ≤ δ ∧
    CloseBy (buildNet 1 [.fullyConnected 1 false .logistic ⟨0, 0, 0⟩] false).P 1 0 46 δ ([1], X) ([1], X') ∧
    L * δ < |(buildNet 1 [.fullyConnected 1 false .logistic ⟨0, 0, 0⟩] false).predictAll
        ((buildNet 1 [.fullyConnected 1 false .logistic ⟨0, 0, 0⟩] false).setParameters (fun _ _ => 0) [1]) 1 X 0 0 -
      (buildNet 1 [.fullyConnected 1 false .logistic ⟨0, 0, 0⟩] false).predictAll
        ((buildNet 1 [.fullyConnected 1 false .logistic ⟨0, 0, 0⟩] false).setParameters (fun _ _ => 0) [1]) 1 X' 0 0| := by
  have hout : ∀ X : Batch, (buildNet 1 [.fullyConnected 1 false .logistic ⟨0, 0, 0⟩] false).predictAll
      ((buildNet 1 [.fullyConnected 1 false .logistic ⟨0, 0, 0⟩] false).setParameters (fun _ _ => 0) [1]) 1 X 0 0 =
      Act.logistic.apply (X 0 0) := by
    intro X
    rw [setParameters_unconstrained (updated_of_unconstrained (by
      intro k hk J bias act reg e
      rw [List.mem_singleton] at hk
      rw [hk] at e
      injection e with _ _ _ e
      rw [← e]))]
    show Act.logistic.apply (∑ i ∈ range 1, X 0 i * _ + 0) = _
    rw [Finset.sum_range_one, add_zero]
    congr 1
    show X 0 0 * 1 = X 0 0
    ring
  have hm := (sigmoid_mem 45).2
  set d := 1 - 1 / (1 + Real.exp (-45)) with hd
  have hdp : 0 < d := by rw [hd]; linarith
  set ε := min 1 (d / (2 * (|L| + 1))) with hε
  have hL : 0 ≤ |L| := abs_nonneg L
  have hεp : 0 < ε := lt_min one_pos (by positivity)
  have hε1 : ε ≤ 1 := min_le_left _ _
  have hε2 : ε * (2 * (|L| + 1)) ≤ d := by
    rw [← le_div_iff₀ (by positivity)]; exact min_le_right _ _
  refine ⟨ε, fun _ _ => 45, fun _ _ => 45 + ε, hεp.le, ⟨⟨le_refl _, le_refl _⟩, ?_, ?_⟩, ?_⟩
  · intro i hi
    have : i = 0 := Nat.lt_one_iff.1 hi
    subst this
    refine ⟨by norm_num, by norm_num, by simpa using hεp.le⟩
  · intro i _
    refine ⟨by norm_num, ?_, ?_⟩
    · show |45 + ε| ≤ 46
      rw [abs_of_pos (by linarith)]; linarith
    · show |45 - (45 + ε)| ≤ ε
      rw [show (45 : ℝ) - (45 + ε) = -ε by ring, abs_neg, abs_of_pos hεp]
  · rw [hout, hout]
    have e1 : Act.logistic.apply 45 = 1 / (1 + Real.exp (-45)) := by
      simp only [Act.apply]
      rw [if_neg (by norm_num), if_neg (by norm_num)]
    have e2 : Act.logistic.apply (45 + ε) = 1 := by
      simp only [Act.apply]
      rw [if_neg (by linarith), if_pos (by linarith)]
    rw [e1, e2, abs_sub_comm, ← hd, abs_of_pos hdp]
    have := le_abs_self L
    nlinarith [mul_le_mul_of_nonneg_right this hεp.le]

/-- False of the code without `0 < k`: local response normalisation may divide by arbitrarily small numbers. -/
theorem lrn_fails (L : ℝ) : ∃ (δ : ℝ) (X X' : Batch), 0 ≤ δ ∧
    CloseBy (buildNet 2 [.lrn ⟨2, 1, 1, 0, 3, 1, 1⟩] false).P 2 2 1 δ ([], X) ([], X') ∧
    L * (δ + jump) < |(buildNet 2 [.lrn ⟨2, 1, 1, 0, 3, 1, 1⟩] false).predictAll
        ((buildNet 2 [.lrn ⟨2, 1, 1, 0, 3, 1, 1⟩] false).setParameters (fun _ _ => 0) []) 3 X 2 0 -
      (buildNet 2 [.lrn ⟨2, 1, 1, 0, 3, 1, 1⟩] false).predictAll
        ((buildNet 2 [.lrn ⟨2, 1, 1, 0, 3, 1, 1⟩] false).setParameters (fun _ _ => 0) []) 3 X' 2 0| := by
  have hout : ∀ X : Batch, X 2 0 ≠ 0 → (buildNet 2 [.lrn ⟨2, 1, 1, 0, 3, 1, 1⟩] false).predictAll
      ((buildNet 2 [.lrn ⟨2, 1, 1, 0, 3, 1, 1⟩] false).setParameters (fun _ _ => 0) []) 3 X 2 0 = (X 2 0)⁻¹ := by
    intro X h0
    show X 2 0 * LRN.denomAt ⟨2, 1, 1, 0, 3, 1, 1⟩ X 2 0 ^ (-1 : ℝ) = _
    have e : LRN.denomAt ⟨2, 1, 1, 0, 3, 1, 1⟩ X 2 0 = X 2 0 * X 2 0 := by
      have hmaps : LRN.maps ⟨2, 1, 1, 0, 3, 1, 1⟩ 2 0 = {0} := by
        simp only [LRN.maps]; decide
      simp only [LRN.denomAt, LRN.denom, LRN.fmSize, Nat.mul_one, Nat.div_one, Nat.mod_one]
      rw [hmaps]
      simp
    rw [e, Real.rpow_neg_one]
    field_simp
  have hL : 0 ≤ |L| := abs_nonneg L
  set ε := 1 / (4 * (|L| + 1)) with hε
  have hεp : 0 < ε := by positivity
  have hε1 : ε ≤ 1 / 4 := by
    rw [hε]
    exact one_div_le_one_div_of_le (by norm_num) (by linarith)
  refine ⟨ε, fun _ _ => ε, fun _ _ => 2 * ε, hεp.le, ⟨⟨Nat.zero_le _, Nat.zero_le _⟩, ?_, ?_⟩, ?_⟩
  · intro i hi
    exact absurd hi (Nat.not_lt_zero i)
  · intro i _
    refine ⟨?_, ?_, ?_⟩
    · show |ε| ≤ 1
      rw [abs_of_pos hεp]; linarith
    · show |2 * ε| ≤ 1
      rw [abs_of_pos (by linarith)]; linarith
    · show |ε - 2 * ε| ≤ ε
      rw [show ε - 2 * ε = -ε by ring, abs_neg, abs_of_pos hεp]
  · rw [hout _ hεp.ne', hout _ (by positivity)]
    have e : ε⁻¹ - (2 * ε)⁻¹ = (2 * ε)⁻¹ := by field_simp; norm_num
    have e2 : (2 * ε)⁻¹ = 2 * (|L| + 1) := by rw [hε]; field_simp; norm_num
    rw [e, e2, abs_of_pos (by positivity)]
    have h1 := jump_small
    have := le_abs_self L
    nlinarith [mul_le_mul_of_nonneg_right this (show 0 ≤ ε + jump by linarith [h1.1])]

/-- The hypotheses of `robust_partial` and `robust_smooth` are met by a network with convolution, pooling, local response
normalisation and a constrained layer. -/
example : FitsFrom 16 [.conv ⟨1, 4, 4, 2, 3, 3, true, .tanh, ⟨0, 0, 0⟩⟩, .lrn ⟨2, 2, 2, 1, 3, 1, 1⟩, .maxPool ⟨2, 2, 2, 2, 2⟩,
      .fullyConnected 3 true .linear ⟨0, 0, 1⟩] ∧
    ∀ k ∈ ([.conv ⟨1, 4, 4, 2, 3, 3, true, .tanh, ⟨0, 0, 0⟩⟩, .lrn ⟨2, 2, 2, 1, 3, 1, 1⟩, .maxPool ⟨2, 2, 2, 2, 2⟩,
      .fullyConnected 3 true .linear ⟨0, 0, 1⟩] : List Kind), k.Regular ∧ ¬ k.logisticUnits := by
  refine ⟨⟨⟨rfl, ?_⟩, rfl, ⟨rfl, ?_⟩, trivial, trivial⟩, ?_⟩
  · unfold Conv.Valid; decide
  · unfold Pool.Valid; decide
  · intro k hk
    simp only [List.mem_cons, List.not_mem_nil, or_false] at hk
    rcases hk with rfl | rfl | rfl | rfl <;> simp [Kind.Regular, Kind.logisticUnits]

end

end Verif.NN
