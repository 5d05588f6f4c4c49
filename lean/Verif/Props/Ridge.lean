import Mathlib.Topology.UniformSpace.HeineCantor
import Mathlib.Topology.ContinuousMap.StoneWeierstrass
import Mathlib.Analysis.SpecialFunctions.Exp
import Mathlib.LinearAlgebra.Matrix.ToLinearEquiv
import Mathlib.Topology.Instances.Matrix

/-!
# Sums of ridge functions: C120 (analysis)

What functions are sums `∑ c σ(a · x + b)`.  `σ` is a function that goes from one value to another one.
-/

namespace Verif.Expressive

open Finset Filter Topology

noncomputable section

/-! ## One dimension -/

/-- Spec: `s` goes from 0 to 1 and is bounded. -/
structure Step (s : ℝ → ℝ) : Prop where
  bot : Tendsto s atBot (𝓝 0)
  top : Tendsto s atTop (𝓝 1)
  bounded : ∃ B, ∀ t, |s t| ≤ B

/-- The corners of `n` intervals of length `h` from `a`. -/
def corner (a h : ℝ) (i : ℕ) : ℝ := a + i * h

/-- A sum of steps at the corners. -/
def steps (s g : ℝ → ℝ) (a h k : ℝ) (n : ℕ) (t : ℝ) : ℝ :=
  g a + ∑ i ∈ range n, (g (corner a h (i + 1)) - g (corner a h i)) * s (k * (t - corner a h (i + 1)))

theorem sum_uncertain (n j : ℕ) (e c : ℝ) (hc : 0 ≤ c) :
    ∑ i ∈ range n, (e + if i = j ∨ i + 1 = j then c else 0) ≤ n * e + 2 * c := by
  rw [sum_add_distrib, sum_const, card_range, nsmul_eq_mul]
  have : ∑ i ∈ range n, (if i = j ∨ i + 1 = j then c else 0) ≤
      ∑ i ∈ range n, ((if i = j then c else 0) + if i = j - 1 then c else 0) := by
    refine sum_le_sum fun i _ => ?_
    split_ifs <;> first | omega | linarith
  rw [sum_add_distrib, sum_ite_eq', sum_ite_eq'] at this
  split_ifs at this <;> linarith

/-- Every continuous function is approximated by steps on every interval. -/
theorem steps_approximate {s : ℝ → ℝ} (hs : Step s) {g : ℝ → ℝ} (hg : Continuous g) {M : ℝ} (hM : 0 < M) {ε : ℝ} (hε : 0 < ε) :
    ∃ (n : ℕ) (k : ℝ), ∀ t, |t| ≤ M → |steps s g (-M) (2 * M / n) k n t - g t| ≤ ε := by
  obtain ⟨B, hB⟩ := hs.bounded
  have hB0 : 0 ≤ B := (abs_nonneg _).trans (hB 0)
  -- uniform continuity
  set e' := ε / (2 * B + 4) with he'
  have he'0 : 0 < e' := by positivity
  have huc := (isCompact_Icc (a := -M) (b := M)).uniformContinuousOn_of_continuous hg.continuousOn
  rw [Metric.uniformContinuousOn_iff] at huc
  obtain ⟨δ, hδ, hcont⟩ := huc e' he'0
  have hcont : ∀ x y : ℝ, |x| ≤ M → |y| ≤ M → |x - y| < δ → |g x - g y| ≤ e' := fun x y hx hy h =>
    (hcont x (abs_le.1 hx) y (abs_le.1 hy) h).le
  -- the intervals
  obtain ⟨n, hn⟩ := exists_nat_gt (2 * M / δ)
  have hn0 : (0 : ℝ) < n := lt_trans (by positivity) hn
  have hnn : 0 < n := by exact_mod_cast hn0
  set h := 2 * M / n with hh
  have h0 : 0 < h := by positivity
  have hhδ : h < δ := by
    rw [hh, div_lt_iff₀ hn0]
    rw [div_lt_iff₀ hδ] at hn
    linarith
  have hnh : (n : ℝ) * h = 2 * M := by rw [hh]; field_simp
  -- how steep
  obtain ⟨K0, hK0⟩ := Filter.eventually_atBot.1 (hs.bot.eventually (Metric.ball_mem_nhds 0 (ε := 1 / n) (by positivity)))
  obtain ⟨K1, hK1⟩ := Filter.eventually_atTop.1 (hs.top.eventually (Metric.ball_mem_nhds 1 (ε := 1 / n) (by positivity)))
  set k := max (|K0|) (|K1|) / h with hk
  have hk0 : 0 ≤ k := by positivity
  have hlow : ∀ u, u ≤ -h → |s (k * u)| ≤ 1 / n := by
    intro u hu
    have : k * u ≤ K0 := by
      have h1 : k * u ≤ k * (-h) := mul_le_mul_of_nonneg_left hu hk0
      have h2 : k * (-h) = -max (|K0|) (|K1|) := by rw [hk]; field_simp
      have h3 := le_max_left (|K0|) (|K1|)
      have h4 := neg_abs_le K0
      linarith
    have := hK0 _ this
    simpa using this.le
  have hhigh : ∀ u, h ≤ u → |s (k * u) - 1| ≤ 1 / n := by
    intro u hu
    have : K1 ≤ k * u := by
      have h1 : k * h ≤ k * u := mul_le_mul_of_nonneg_left hu hk0
      have h2 : k * h = max (|K0|) (|K1|) := by rw [hk]; field_simp
      have h3 := le_max_right (|K0|) (|K1|)
      have h4 := le_abs_self K1
      linarith
    exact (hK1 _ this).le
  refine ⟨n, k, fun t ht => ?_⟩
  obtain ⟨ht1, ht2⟩ := abs_le.1 ht
  -- the interval of `t`
  set j := ⌊(t + M) / h⌋₊ with hj
  have hj1 : (j : ℝ) * h ≤ t + M := by
    have := Nat.floor_le (a := (t + M) / h) (div_nonneg (by linarith) h0.le)
    rwa [← hj, le_div_iff₀ h0] at this
  have hj2 : t + M < (j + 1) * h := by
    have := Nat.lt_floor_add_one ((t + M) / h)
    rwa [← hj, div_lt_iff₀ h0] at this
  have hjn : j ≤ n := by
    have : (j : ℝ) * h ≤ n * h := by linarith
    exact_mod_cast le_of_mul_le_mul_right this h0
  have hcorner : ∀ i : ℕ, i ≤ n → |corner (-M) h i| ≤ M := by
    intro i hi
    have : (i : ℝ) ≤ n := by exact_mod_cast hi
    have h1 : (i : ℝ) * h ≤ 2 * M := by rw [← hnh]; exact mul_le_mul_of_nonneg_right this h0.le
    have h2 : 0 ≤ (i : ℝ) * h := by positivity
    rw [corner, abs_le]
    constructor <;> linarith
  have hstep : ∀ i < n, |g (corner (-M) h (i + 1)) - g (corner (-M) h i)| ≤ e' := fun i hi =>
    hcont _ _ (hcorner _ hi) (hcorner _ hi.le) (by
      simp only [corner]
      push_cast
      rw [show -M + ((i : ℝ) + 1) * h - (-M + i * h) = h by ring, abs_of_pos h0]
      exact hhδ)
  -- the value at the corner below `t`
  have htel : g (corner (-M) h j) = g (-M) + ∑ i ∈ range n, (g (corner (-M) h (i + 1)) - g (corner (-M) h i)) *
      (if i < j then 1 else 0) := by
    have h1 : ∑ i ∈ range n, (g (corner (-M) h (i + 1)) - g (corner (-M) h i)) * (if i < j then (1 : ℝ) else 0) =
        ∑ i ∈ range j, (g (corner (-M) h (i + 1)) - g (corner (-M) h i)) := by
      rw [← Finset.sum_subset (range_subset_range.2 hjn)]
      · exact sum_congr rfl fun i hi => by rw [if_pos (mem_range.1 hi), mul_one]
      · intro i _ hi
        rw [if_neg (by simpa using hi), mul_zero]
    rw [h1, sum_range_sub (fun i => g (corner (-M) h i))]
    simp [corner]
  have hdiff : |steps s g (-M) h k n t - g (corner (-M) h j)| ≤ e' * (1 + 2 * (B + 1)) := by
    rw [htel, steps, add_sub_add_left_eq_sub, ← sum_sub_distrib]
    refine (abs_sum_le_sum_abs _ _).trans ?_
    refine (sum_le_sum (g := fun i => e' * (1 / n + if i = j ∨ i + 1 = j then B + 1 else 0)) fun i hi => ?_).trans ?_
    · rw [← mul_sub, abs_mul]
      refine mul_le_mul (hstep i (mem_range.1 hi)) ?_ (abs_nonneg _) he'0.le
      by_cases hu : i = j ∨ i + 1 = j
      · rw [if_pos hu]
        have h1 := abs_sub (s (k * (t - corner (-M) h (i + 1)))) (if i < j then (1 : ℝ) else 0)
        have h2 := hB (k * (t - corner (-M) h (i + 1)))
        have h3 : |(if i < j then (1 : ℝ) else 0)| ≤ 1 := by split_ifs <;> simp
        have h4 : (0 : ℝ) ≤ 1 / n := by positivity
        linarith
      · rw [if_neg hu, add_zero]
        push Not at hu
        have hc : t - corner (-M) h (i + 1) = t + M - (i + 1) * h := by rw [corner]; push_cast; ring
        by_cases hij : i < j
        · rw [if_pos hij]
          refine hhigh _ ?_
          have : (i : ℝ) + 2 ≤ j := by exact_mod_cast (by omega : i + 2 ≤ j)
          rw [hc]
          nlinarith
        · rw [if_neg hij, sub_zero]
          refine hlow _ ?_
          have : (j : ℝ) + 1 ≤ i := by exact_mod_cast (by omega : j + 1 ≤ i)
          rw [hc]
          nlinarith
    · rw [← mul_sum]
      refine mul_le_mul_of_nonneg_left ?_ he'0.le
      refine (sum_uncertain n j (1 / n) (B + 1) (by linarith)).trans ?_
      rw [mul_one_div, div_self hn0.ne']
  have hlast : |g (corner (-M) h j) - g t| ≤ e' := by
    refine hcont _ _ (hcorner _ hjn) ht ?_
    rw [corner, abs_sub_comm, abs_of_nonneg (by linarith)]
    linarith
  have htri := abs_sub_le (steps s g (-M) h k n t) (g (corner (-M) h j)) (g t)
  have hfin : e' * (1 + 2 * (B + 1)) + e' = ε := by
    rw [he']
    field_simp
    ring
  linarith

/-! ## Several dimensions -/

/-- One unit: `c * σ(∑ a i * x i + b)`. -/
structure RidgeUnit (D : ℕ) where
  a : Fin D → ℝ
  b : ℝ
  c : ℝ

/-- Spec: the sum of units. -/
def total (σ : ℝ → ℝ) {D : ℕ} (l : List (RidgeUnit D)) (x : Fin D → ℝ) : ℝ :=
  (l.map fun u => u.c * σ (∑ i, u.a i * x i + u.b)).sum

/-- `f` is a sum of units. -/
def IsSum (σ : ℝ → ℝ) {D : ℕ} (f : (Fin D → ℝ) → ℝ) : Prop := ∃ l : List (RidgeUnit D), ∀ x, f x = total σ l x

/-- Spec: sums of `σ` contain a step. -/
structure Rich (σ : ℝ → ℝ) : Prop where
  nonzero : ∃ b, σ b ≠ 0
  step : ∃ s, Step s ∧ ∃ l : List (ℝ × ℝ × ℝ), ∀ t, s t = (l.map fun u => u.2.2 * σ (u.1 * t + u.2.1)).sum

variable {σ : ℝ → ℝ} {D : ℕ}

theorem IsSum.add {f g : (Fin D → ℝ) → ℝ} (hf : IsSum σ f) (hg : IsSum σ g) : IsSum σ fun x => f x + g x := by
  obtain ⟨l, hl⟩ := hf
  obtain ⟨m, hm⟩ := hg
  exact ⟨l ++ m, fun x => by simp only [hl, hm, total, List.map_append, List.sum_append]⟩

theorem IsSum.smul {f : (Fin D → ℝ) → ℝ} (hf : IsSum σ f) (r : ℝ) : IsSum σ fun x => r * f x := by
  obtain ⟨l, hl⟩ := hf
  refine ⟨l.map fun u => ⟨u.a, u.b, r * u.c⟩, fun x => ?_⟩
  show r * f x = _
  rw [hl, total, total, List.map_map, ← List.sum_map_mul_left]
  congr 1
  exact List.map_congr_left fun u _ => by simp [mul_assoc]

theorem IsSum.zero : IsSum σ fun _ : Fin D → ℝ => 0 := ⟨[], fun _ => rfl⟩

theorem IsSum.const (h : Rich σ) (r : ℝ) : IsSum σ fun _ : Fin D → ℝ => r := by
  obtain ⟨b, hb⟩ := h.nonzero
  refine ⟨[⟨0, b, r / σ b⟩], fun x => ?_⟩
  simp [total, hb]

theorem IsSum.sum {f : ℕ → (Fin D → ℝ) → ℝ} (n : ℕ) (h : ∀ i < n, IsSum σ (f i)) : IsSum σ fun x => ∑ i ∈ range n, f i x := by
  induction n with
  | zero => exact IsSum.zero
  | succ n ih =>
    simp only [sum_range_succ]
    exact (ih fun i hi => h i (by omega)).add (h n (by omega))

theorem IsSum.ridge {s : ℝ → ℝ} {l : List (ℝ × ℝ × ℝ)} (hl : ∀ t, s t = (l.map fun u => u.2.2 * σ (u.1 * t + u.2.1)).sum)
    (a : Fin D → ℝ) (k m : ℝ) : IsSum σ fun x => s (k * (∑ i, a i * x i - m)) := by
  refine ⟨l.map fun u => ⟨fun i => u.1 * k * a i, u.1 * (k * -m) + u.2.1, u.2.2⟩, fun x => ?_⟩
  show s _ = _
  rw [hl, total, List.map_map]
  congr 1
  refine List.map_congr_left fun u _ => ?_
  simp only [Function.comp]
  congr 2
  simp only [mul_assoc, ← mul_sum]
  ring

/-- `f` is approximated by sums of units on `K`. -/
def Approximated (σ : ℝ → ℝ) (K : Set (Fin D → ℝ)) (f : (Fin D → ℝ) → ℝ) : Prop :=
  ∀ ε > 0, ∃ g, IsSum σ g ∧ ∀ x ∈ K, |g x - f x| ≤ ε

theorem Approximated.add {K : Set (Fin D → ℝ)} {f g : (Fin D → ℝ) → ℝ} (hf : Approximated σ K f) (hg : Approximated σ K g) :
    Approximated σ K fun x => f x + g x := by
  intro ε hε
  obtain ⟨f', h1, h2⟩ := hf (ε / 2) (by linarith)
  obtain ⟨g', h3, h4⟩ := hg (ε / 2) (by linarith)
  refine ⟨_, h1.add h3, fun x hx => ?_⟩
  have := abs_add_le (f' x - f x) (g' x - g x)
  rw [show f' x + g' x - (f x + g x) = f' x - f x + (g' x - g x) by ring]
  linarith [h2 x hx, h4 x hx]

theorem Approximated.smul {K : Set (Fin D → ℝ)} {f : (Fin D → ℝ) → ℝ} (hf : Approximated σ K f) (r : ℝ) :
    Approximated σ K fun x => r * f x := by
  intro ε hε
  obtain ⟨f', h1, h2⟩ := hf (ε / (|r| + 1)) (by positivity)
  refine ⟨_, h1.smul r, fun x hx => ?_⟩
  rw [← mul_sub, abs_mul]
  have h3 := mul_le_mul_of_nonneg_left (h2 x hx) (abs_nonneg r)
  refine h3.trans ?_
  rw [← mul_div_assoc, div_le_iff₀ (by positivity)]
  nlinarith [abs_nonneg r]

theorem Approximated.exp (hσ : Rich σ) {K : Set (Fin D → ℝ)} (hK : IsCompact K) (a : Fin D → ℝ) :
    Approximated σ K fun x => Real.exp (∑ i, a i * x i) := by
  intro ε hε
  obtain ⟨s, hs, l, hl⟩ := hσ.step
  have hcont : Continuous fun x : Fin D → ℝ => ∑ i, a i * x i := by fun_prop
  obtain ⟨M, hM⟩ := hK.exists_bound_of_continuousOn hcont.continuousOn
  obtain ⟨n, k, h⟩ := steps_approximate hs Real.continuous_exp (M := |M| + 1) (by positivity) hε
  refine ⟨fun x => steps s Real.exp (-(|M| + 1)) (2 * (|M| + 1) / n) k n (∑ i, a i * x i), ?_, fun x hx => h _ ?_⟩
  · exact (IsSum.const hσ _).add (IsSum.sum n fun i _ => (IsSum.ridge hl a k _).smul _)
  · have := hM x hx
    rw [Real.norm_eq_abs] at this
    linarith [le_abs_self M]

/-! ### Exponentials are dense -/

/-- `exp(∑ a i * x i)` on `K`. -/
def expRidge (K : Set (Fin D → ℝ)) (a : Fin D → ℝ) : C(K, ℝ) where
  toFun x := Real.exp (∑ i, a i * x.1 i)
  continuous_toFun := Real.continuous_exp.comp (continuous_finsetSum _ fun i _ =>
    continuous_const.mul ((continuous_apply i).comp continuous_subtype_val))

/-- They are closed under products. -/
def expRidges (K : Set (Fin D → ℝ)) : Submonoid C(K, ℝ) where
  carrier := Set.range (expRidge K)
  one_mem' := ⟨0, by ext x; simp [expRidge]⟩
  mul_mem' := by
    rintro _ _ ⟨a, rfl⟩ ⟨b, rfl⟩
    refine ⟨a + b, ?_⟩
    ext x
    simp [expRidge, add_mul, sum_add_distrib, Real.exp_add]

/-- **Every continuous function on a compact set is approximated by sums of units.** -/
theorem approximated (hσ : Rich σ) {K : Set (Fin D → ℝ)} (hK : IsCompact K) {f : (Fin D → ℝ) → ℝ} (hf : ContinuousOn f K) :
    Approximated σ K f := by
  classical
  have : CompactSpace K := isCompact_iff_compactSpace.1 hK
  set A : Subalgebra ℝ C(K, ℝ) := Algebra.adjoin ℝ (expRidges K : Set C(K, ℝ)) with hA
  have hsep : A.SeparatesPoints := by
    intro x y hxy
    obtain ⟨i, hi⟩ : ∃ i, x.1 i ≠ y.1 i := by
      by_contra h
      push Not at h
      exact hxy (Subtype.ext (funext h))
    refine ⟨_, ⟨expRidge K (Pi.single i 1), Algebra.subset_adjoin ⟨_, rfl⟩, rfl⟩, ?_⟩
    simpa [expRidge, Pi.single_apply] using hi
  have hall : ∀ g ∈ A, Approximated σ K (fun x => if h : x ∈ K then g ⟨x, h⟩ else 0) := by
    intro g hg
    rw [hA, ← Subalgebra.mem_toSubmodule, Algebra.adjoin_eq_span, Submonoid.closure_eq] at hg
    induction hg using Submodule.span_induction with
    | mem g hg =>
      obtain ⟨a, rfl⟩ := hg
      intro ε hε
      obtain ⟨g, h1, h2⟩ := Approximated.exp hσ hK a ε hε
      refine ⟨g, h1, fun x hx => ?_⟩
      beta_reduce
      rw [dif_pos hx]
      exact h2 x hx
    | zero => exact fun ε hε => ⟨_, IsSum.zero, fun x hx => by simp [hε.le]⟩
    | add f g _ _ h1 h2 =>
      intro ε hε
      obtain ⟨g, h3, h4⟩ := (h1.add h2) ε hε
      refine ⟨g, h3, fun x hx => ?_⟩
      have := h4 x hx
      simpa [hx] using this
    | smul r g _ h1 =>
      intro ε hε
      obtain ⟨g, h3, h4⟩ := (h1.smul r) ε hε
      refine ⟨g, h3, fun x hx => ?_⟩
      have := h4 x hx
      simpa [hx] using this
  intro ε hε
  obtain ⟨g, hg⟩ := ContinuousMap.exists_mem_subalgebra_near_continuous_of_separatesPoints A hsep (fun x : K => f x)
    (continuousOn_iff_continuous_domRestrict.1 hf) (ε / 2) (by linarith)
  obtain ⟨g', h1, h2⟩ := hall g.1 g.2 (ε / 2) (by linarith)
  refine ⟨g', h1, fun x hx => ?_⟩
  have h3 := h2 x hx
  beta_reduce at h3
  rw [dif_pos hx] at h3
  have h4 := hg ⟨x, hx⟩
  rw [Real.norm_eq_abs] at h4
  have := abs_sub_le (g' x) ((g : C(K, ℝ)) ⟨x, hx⟩) (f x)
  linarith

/-! ## Interpolation -/

/-- Spec: the units `σ(α m * t + β m)` can take all values at the points `t n`. -/
def Interpolates (σ : ℝ → ℝ) {N : ℕ} (t : Fin N → ℝ) : Prop :=
  ∃ α β : Fin N → ℝ, ∀ y : Fin N → ℝ, ∃ v : Fin N → ℝ, ∀ n, ∑ m, v m * σ (α m * t n + β m) = y n

theorem solve_of_det {N : ℕ} {A : Matrix (Fin N) (Fin N) ℝ} (h : A.det ≠ 0) (y : Fin N → ℝ) :
    ∃ v : Fin N → ℝ, ∀ n, ∑ m, v m * A n m = y n := by
  refine ⟨A⁻¹.mulVec y, fun n => ?_⟩
  have : A.mulVec (A⁻¹.mulVec y) = y := by
    rw [Matrix.mulVec_mulVec, Matrix.mul_nonsing_inv _ (isUnit_iff_ne_zero.2 h), Matrix.one_mulVec]
  have h2 := congrFun this n
  rw [Matrix.mulVec, dotProduct] at h2
  rw [← h2]
  exact sum_congr rfl fun m _ => mul_comm _ _

theorem det_of_injective {N : ℕ} {A : Matrix (Fin N) (Fin N) ℝ} (h : ∀ v : Fin N → ℝ, (∀ n, ∑ m, A n m * v m = 0) → v = 0) :
    A.det ≠ 0 := by
  intro h0
  obtain ⟨v, hv, hz⟩ := Matrix.exists_mulVec_eq_zero_iff.2 h0
  exact hv (h v fun n => congrFun hz n)

/-- Smallest point with a property. -/
theorem exists_least {N : ℕ} (t : Fin N → ℝ) {P : Fin N → Prop} (h : ∃ m, P m) : ∃ m, P m ∧ ∀ m', P m' → t m ≤ t m' := by
  classical
  obtain ⟨m0, h0⟩ := h
  obtain ⟨m, hm, hmin⟩ := Finset.exists_min_image (univ.filter P) t ⟨m0, by simp [h0]⟩
  exact ⟨m, (mem_filter.1 hm).2, fun m' h' => hmin m' (by simp [h'])⟩

/-- Points that are different have a least distance. -/
theorem exists_gap {N : ℕ} {t : Fin N → ℝ} (ht : Function.Injective t) : ∃ d > 0, ∀ m n, m ≠ n → d ≤ |t m - t n| := by
  classical
  by_cases h : (univ.filter fun p : Fin N × Fin N => p.1 ≠ p.2).Nonempty
  · obtain ⟨p, hp, hmin⟩ := Finset.exists_min_image _ (fun p : Fin N × Fin N => |t p.1 - t p.2|) h
    refine ⟨|t p.1 - t p.2|, abs_pos.2 (sub_ne_zero.2 (ht.ne (mem_filter.1 hp).2)), fun m n hmn => ?_⟩
    exact hmin (m, n) (by simp [hmn])
  · refine ⟨1, one_pos, fun m n hmn => ?_⟩
    exact absurd ⟨(m, n), by simp [hmn]⟩ h

/-- A rectifier interpolates. -/
theorem rectifier_interpolates {N : ℕ} {t : Fin N → ℝ} (ht : Function.Injective t) : Interpolates (fun a => max 0 a) t := by
  obtain ⟨d, hd, hgap⟩ := exists_gap ht
  refine ⟨fun _ => 1, fun m => d - t m, fun y => ?_⟩
  refine solve_of_det (A := fun n m => max 0 (1 * t n + (d - t m))) (det_of_injective fun v hv => ?_) y
  by_contra hne
  obtain ⟨m0, hm0⟩ : ∃ m, v m ≠ 0 := by
    by_contra h
    push Not at h
    exact hne (funext h)
  obtain ⟨m, hm, hmin⟩ := exists_least t (P := fun m => v m ≠ 0) ⟨m0, hm0⟩
  have := hv m
  rw [sum_eq_single m] at this
  · rw [show 1 * t m + (d - t m) = d by ring, max_eq_right hd.le] at this
    exact (mul_ne_zero hd.ne' hm) this
  · intro m' _ hne'
    by_cases hv' : v m' = 0
    · rw [hv', mul_zero]
    · have h1 := hmin m' hv'
      have h2 := hgap m' m hne'
      rw [abs_of_nonneg (by linarith)] at h2
      rw [max_eq_left (by linarith), zero_mul]
  · simp

/-- A function with two different limits, the upper one not 0, interpolates. -/
theorem limits_interpolate {σ : ℝ → ℝ} {L R : ℝ} (hbot : Tendsto σ atBot (𝓝 L)) (htop : Tendsto σ atTop (𝓝 R)) (hLR : L ≠ R)
    (hR : R ≠ 0) {N : ℕ} {t : Fin N → ℝ} (ht : Function.Injective t) : Interpolates σ t := by
  classical
  obtain ⟨d, hd, hgap⟩ := exists_gap ht
  -- the limit of steeper and steeper units
  set S : Matrix (Fin N) (Fin N) ℝ := fun n m => if t m ≤ t n then R else L with hS
  have hdet : S.det ≠ 0 := by
    refine det_of_injective fun v hv => ?_
    by_contra hne
    obtain ⟨m0, hm0⟩ : ∃ m, v m ≠ 0 := by
      by_contra h
      push Not at h
      exact hne (funext h)
    have hpart : ∀ n, (R - L) * (∑ m, if t m ≤ t n then v m else 0) + L * ∑ m, v m = 0 := by
      intro n
      refine Eq.trans ?_ (hv n)
      rw [mul_sum, mul_sum, ← sum_add_distrib]
      refine sum_congr rfl fun m _ => ?_
      simp only [hS]
      split_ifs <;> ring
    have hsum : ∑ m, v m = 0 := by
      obtain ⟨n, -, hn⟩ := exists_least (fun m => -t m) (P := fun _ => True) ⟨m0, trivial⟩
      have := hv n
      have e : ∀ m, S n m * v m = R * v m := fun m => by
        simp only [hS]
        rw [if_pos (by linarith [hn m trivial])]
      simp only [e, ← mul_sum] at this
      exact (mul_eq_zero.1 this).resolve_left hR
    obtain ⟨m, hm, hmin⟩ := exists_least t (P := fun m => v m ≠ 0) ⟨m0, hm0⟩
    have := hpart m
    rw [hsum, mul_zero, add_zero] at this
    have h2 := (mul_eq_zero.1 this).resolve_left (sub_ne_zero.2 hLR.symm)
    rw [sum_eq_single m, if_pos le_rfl] at h2
    · exact hm h2
    · intro m' _ hne'
      by_cases hv' : v m' = 0
      · rw [hv', ite_self]
      · have h3 := hmin m' hv'
        exact if_neg fun h4 => hne' (ht (le_antisymm h4 h3))
    · simp
  have hlim : Tendsto (fun k : ℝ => (fun n m => σ (k * t n + k * (d / 2 - t m)) : Matrix (Fin N) (Fin N) ℝ)) atTop (𝓝 S) := by
    refine tendsto_pi_nhds.2 fun n => tendsto_pi_nhds.2 fun m => ?_
    have e : ∀ k : ℝ, k * t n + k * (d / 2 - t m) = k * (t n - t m + d / 2) := fun k => by ring
    simp only [e, hS]
    by_cases h : t m ≤ t n
    · rw [if_pos h]
      exact htop.comp (tendsto_id.atTop_mul_const (by linarith))
    · rw [if_neg h]
      have hne : m ≠ n := fun e => h (by rw [e])
      have := hgap m n hne
      rw [abs_of_pos (by linarith)] at this
      exact hbot.comp (tendsto_id.atTop_mul_const_of_neg (by linarith))
  have hdl : Tendsto (fun k : ℝ => Matrix.det (fun n m => σ (k * t n + k * (d / 2 - t m)) : Matrix (Fin N) (Fin N) ℝ)) atTop
      (𝓝 S.det) := (Continuous.matrix_det continuous_id).continuousAt.tendsto.comp hlim
  obtain ⟨k, hk⟩ := (hdl.eventually_ne hdet).exists
  exact ⟨fun _ => k, fun m => k * (d / 2 - t m), fun y => solve_of_det hk y⟩

end

end Verif.Expressive
