import Verif.Model.FiniteDifferences
import Verif.Model.Fill
import Verif.Props.OptimizableNet
import Mathlib.Analysis.Calculus.MeanValue
import Mathlib.Analysis.Calculus.Deriv.Slope
import Mathlib.Analysis.Calculus.Deriv.Pow
import Mathlib.Analysis.Calculus.Deriv.Comp
import Mathlib.Analysis.Calculus.Deriv.Shift

/-!
# C117: gradient checks with finite differences

What the functions of test/FiniteDifferences.cpp compute for arbitrary objectives and learners, how accurate it is, and what
a comparison with a gradient can tell.  For networks and layers see `Verif.Props.GradientChecks`.
-/

namespace Verif.GradCheck

open NN Finset Filter Topology

noncomputable section

/-! ## Central differences -/

/-- Spec: the central difference of `f` at `x`. -/
def central (f : ℝ → ℝ) (x eps : ℝ) : ℝ := (f (x + eps) - f (x - eps)) / (2 * eps)

theorem central_neg (f : ℝ → ℝ) (x eps : ℝ) : central f x (-eps) = central f x eps := by
  unfold central
  rw [← sub_eq_add_neg, sub_neg_eq_add, mul_neg, div_neg, ← neg_div, neg_sub]

theorem central_slope (f : ℝ → ℝ) (x : ℝ) {eps : ℝ} (h : eps ≠ 0) :
    central f x eps = (slope f x (x - eps) + slope f x (x + eps)) / 2 := by
  rw [central, slope_def_field, slope_def_field, show x - eps - x = -eps by ring, show x + eps - x = eps by ring]
  field_simp
  ring

theorem tendsto_right (x : ℝ) : Tendsto (fun eps : ℝ => x + eps) (𝓝[>] 0) (𝓝[>] x) := by
  refine tendsto_nhdsWithin_iff.2 ⟨?_, ?_⟩
  · have : Tendsto (fun eps : ℝ => x + eps) (𝓝 0) (𝓝 (x + 0)) := (continuous_const.add continuous_id).tendsto 0
    rw [add_zero] at this
    exact this.mono_left nhdsWithin_le_nhds
  · filter_upwards [self_mem_nhdsWithin] with e he
    have : (0 : ℝ) < e := he
    show x < x + e
    linarith

theorem tendsto_left (x : ℝ) : Tendsto (fun eps : ℝ => x - eps) (𝓝[>] 0) (𝓝[<] x) := by
  refine tendsto_nhdsWithin_iff.2 ⟨?_, ?_⟩
  · have : Tendsto (fun eps : ℝ => x - eps) (𝓝 0) (𝓝 (x - 0)) := (continuous_const.sub continuous_id).tendsto 0
    rw [sub_zero] at this
    exact this.mono_left nhdsWithin_le_nhds
  · filter_upwards [self_mem_nhdsWithin] with e he
    have : (0 : ℝ) < e := he
    show x - e < x
    linarith

/-- **C117 (kinks)**: with slopes `l` and `r` on the two sides, central differences tend to their mean. -/
theorem central_onesided {f : ℝ → ℝ} {x l r : ℝ} (hl : HasDerivWithinAt f l (Set.Iio x) x)
    (hr : HasDerivWithinAt f r (Set.Ioi x) x) : Tendsto (central f x) (𝓝[>] 0) (𝓝 ((l + r) / 2)) := by
  have h1 := ((hasDerivWithinAt_iff_tendsto_slope' (by simp)).1 hl).comp (tendsto_left x)
  have h2 := ((hasDerivWithinAt_iff_tendsto_slope' (by simp)).1 hr).comp (tendsto_right x)
  refine ((h1.add h2).div_const 2).congr' ?_
  filter_upwards [self_mem_nhdsWithin] with e he
  exact (central_slope f x (ne_of_gt he)).symm

/-- **C117 (limit)**: central differences tend to the derivative. -/
theorem central_tendsto {f : ℝ → ℝ} {x f' : ℝ} (h : HasDerivAt f f' x) : Tendsto (central f x) (𝓝[>] 0) (𝓝 f') := by
  have := central_onesided h.hasDerivWithinAt h.hasDerivWithinAt
  rwa [add_self_div_two] at this

/-- **C117 (accuracy)**: the error of a central difference is at most `M * eps ^ 2 / 6`, where `M` bounds the third
derivative. -/
theorem central_accuracy {f f1 f2 f3 : ℝ → ℝ} {x eps M : ℝ} (heps : 0 < eps)
    (h1 : ∀ y ∈ Set.Icc (x - eps) (x + eps), HasDerivAt f (f1 y) y)
    (h2 : ∀ y ∈ Set.Icc (x - eps) (x + eps), HasDerivAt f1 (f2 y) y)
    (h3 : ∀ y ∈ Set.Icc (x - eps) (x + eps), HasDerivAt f2 (f3 y) y)
    (hM : ∀ y ∈ Set.Icc (x - eps) (x + eps), |f3 y| ≤ M) : |central f x eps - f1 x| ≤ M * eps ^ 2 / 6 := by
  have hp : ∀ h ∈ Set.Icc 0 eps, x + h ∈ Set.Icc (x - eps) (x + eps) := fun h hh => ⟨by linarith [hh.1], by linarith [hh.2]⟩
  have hm : ∀ h ∈ Set.Icc 0 eps, x - h ∈ Set.Icc (x - eps) (x + eps) := fun h hh => ⟨by linarith [hh.2], by linarith [hh.1]⟩
  have dp : ∀ {g g' : ℝ → ℝ}, (∀ y ∈ Set.Icc (x - eps) (x + eps), HasDerivAt g (g' y) y) → ∀ h ∈ Set.Icc 0 eps,
      HasDerivAt (fun h => g (x + h)) (g' (x + h)) h := fun hg h hh => by
    simpa using (hg _ (hp h hh)).comp_const_add x h
  have dm : ∀ {g g' : ℝ → ℝ}, (∀ y ∈ Set.Icc (x - eps) (x + eps), HasDerivAt g (g' y) y) → ∀ h ∈ Set.Icc 0 eps,
      HasDerivAt (fun h => g (x - h)) (-g' (x - h)) h := fun hg h hh => by
    simpa using (hg _ (hm h hh)).comp_const_sub x h
  -- second derivative
  have b2 : ∀ h ∈ Set.Icc 0 eps, ‖f2 (x + h) - f2 (x - h)‖ ≤ M * (2 * h) := by
    intro h hh
    have := (convex_Icc (x - eps) (x + eps)).norm_image_sub_le_of_norm_hasDerivWithin_le (f := f2) (f' := f3) (C := M)
      (fun y hy => (h3 y hy).hasDerivWithinAt) (fun y hy => hM y hy) (hm h hh) (hp h hh)
    refine this.trans_eq ?_
    rw [Real.norm_eq_abs, show x + h - (x - h) = 2 * h by ring, abs_of_nonneg (by linarith [hh.1])]
  have step : ∀ {g g' B B' : ℝ → ℝ}, (∀ h ∈ Set.Icc 0 eps, HasDerivAt g (g' h) h) → (∀ h, HasDerivAt B (B' h) h) →
      g 0 = 0 → B 0 = 0 → (∀ h ∈ Set.Icc 0 eps, ‖g' h‖ ≤ B' h) → ∀ h ∈ Set.Icc 0 eps, ‖g h‖ ≤ B h := by
    intro g g' B B' hg hB g0 B0 hb h hh
    refine image_norm_le_of_norm_deriv_right_le_deriv_boundary (f := g) (f' := g') (a := 0) (b := eps) (B := B) (B' := B')
      (fun y hy => (hg y hy).continuousAt.continuousWithinAt)
      (fun y hy => (hg y ⟨hy.1, hy.2.le⟩).hasDerivWithinAt) (by rw [g0, B0, norm_zero]) hB
      (fun y hy => hb y ⟨hy.1, hy.2.le⟩) hh
  have b1 : ∀ h ∈ Set.Icc 0 eps, ‖f1 (x + h) + f1 (x - h) - 2 * f1 x‖ ≤ M * h ^ 2 := by
    refine step (g' := fun h => f2 (x + h) + -f2 (x - h)) (B' := fun h => M * (2 * h)) ?_ ?_ (by simp; ring) (by simp) ?_
    · exact fun h hh => ((dp h2 h hh).add (dm h2 h hh)).sub_const _
    · intro h
      simpa using (hasDerivAt_pow 2 h).const_mul M
    · intro h hh
      rw [← sub_eq_add_neg]
      exact b2 h hh
  have b0 : ∀ h ∈ Set.Icc 0 eps, ‖f (x + h) - f (x - h) - h * (2 * f1 x)‖ ≤ M / 3 * h ^ 3 := by
    refine step (g' := fun h => f1 (x + h) - -f1 (x - h) - 1 * (2 * f1 x)) (B' := fun h => M / 3 * (3 * h ^ 2)) ?_ ?_
      (by simp) (by simp) ?_
    · exact fun h hh => ((dp h1 h hh).sub (dm h1 h hh)).sub ((hasDerivAt_id h).mul_const _)
    · intro h
      simpa using (hasDerivAt_pow 3 h).const_mul (M / 3)
    · intro h hh
      rw [sub_neg_eq_add, one_mul]
      refine (b1 h hh).trans_eq (by ring)
  have e := b0 eps ⟨heps.le, le_refl _⟩
  have hc : central f x eps - f1 x = (f (x + eps) - f (x - eps) - eps * (2 * f1 x)) / (2 * eps) := by
    unfold central
    field_simp
  rw [hc, abs_div, abs_of_pos (by linarith : (0 : ℝ) < 2 * eps), div_le_iff₀ (by linarith)]
  refine e.trans_eq ?_
  ring

/-- **C117 (exactness)**: for polynomials of degree 2 the central difference is the derivative, for every step width. -/
theorem central_quadratic (a b c x : ℝ) {eps : ℝ} (h : eps ≠ 0) :
    central (fun t => a * t ^ 2 + b * t + c) x eps = 2 * a * x + b := by
  unfold central
  field_simp
  ring

/-! ## Estimated gradients with respect to parameters -/

variable {σ : Type}

/-- Spec: from state `s` on, `setParameters` leads to a state `S θ` that depends on the parameters only, where the examples
`idx` have errors `E θ`. -/
structure Follows (O : Optimizable σ) (idx : List ℕ) (s : σ) (S : List ℝ → σ) (E : List ℝ → List ℝ) : Prop where
  length : (O.current s).length = O.dimension
  first : ∀ θ, θ.length = O.dimension → O.set s θ = .ok (S θ)
  next : ∀ θ θ', θ.length = O.dimension → θ'.length = O.dimension → O.set (S θ) θ' = .ok (S θ')
  errors : ∀ θ, θ.length = O.dimension → O.errors (S θ) idx = .ok (E θ)

/-- Spec: the sum of the errors as a function of parameter `i`. -/
def along (E : List ℝ → List ℝ) (θ : List ℝ) (i : ℕ) (t : ℝ) : ℝ := (E (θ.set i t)).sum

theorem addAt_ok {v : List ℝ} {i : ℕ} (h : i < v.length) (d : ℝ) : addAt v i d = .ok (v.set i (v[i] + d)) := by
  rw [addAt, List.getElem?_eq_getElem h]

/-- **C117 (what is computed)**: entry `i` is the central difference of the sum of the errors in direction of parameter `i`,
and the objective has its parameters again afterwards. -/
theorem parameterGradient_eq {O : Optimizable σ} {idx : List ℕ} {s : σ} {S : List ℝ → σ} {E : List ℝ → List ℝ}
    (h : Follows O idx s S E) (eps : ℝ) :
    ∃ g t, parameterGradient O idx eps s = .ok (g, t) ∧ g.length = O.dimension ∧
      (0 < O.dimension → t = S (O.current s)) ∧ (O.dimension = 0 → t = s) ∧
      ∀ i (hi : i < O.dimension), g[i]? = some (central (along E (O.current s) i) ((O.current s)[i]'(by rw [h.length]; exact hi)) eps) := by
  set p := O.current s with hp
  have hl := h.length
  rw [← hp] at hl
  obtain ⟨v, hv, hg, hm, ho1, ho2, hall⟩ := forLoop_inv (n := O.dimension) (body := parameterStep O idx eps p)
    (P := fun k v => v.gradient.length = O.dimension ∧ v.modified = p ∧ (0 < k → v.opt = S p) ∧ (k = 0 → v.opt = s) ∧
      ∀ i (hi : i < O.dimension), v.gradient[i]? =
        some (if i < k then central (along E p i) (p[i]'(by omega)) eps else 0))
    (s := ⟨List.replicate O.dimension 0, p, s⟩)
    ⟨by simp, rfl, fun h => absurd h (lt_irrefl _), fun _ => rfl, fun i hi => by simp [hi]⟩
    (by
      rintro k hk ⟨vg, vm, vo⟩ ⟨h1, h2, h3, h4, h5⟩
      simp only at h1 h2 h3 h4 h5
      subst h2
      have hset : ∀ θ, θ.length = O.dimension → O.set vo θ = .ok (S θ) := by
        intro θ hθ
        rcases Nat.eq_zero_or_pos k with h0 | h0
        · rw [h4 h0]
          exact h.first θ hθ
        · rw [h3 h0]
          exact h.next _ θ hl hθ
      have hk' : k < p.length := by omega
      refine ⟨⟨vg.set k (vg[k]'(by omega) + ((E (p.set k (p[k] + eps))).sum - (E (p.set k (p[k] + -eps))).sum) / (2 * eps)),
        p, S p⟩, ?_, ?_⟩
      · unfold parameterStep
        simp only
        rw [addAt_ok hk', Outcome.ok_bind, hset _ (by simpa using hl), Outcome.ok_bind, h.errors _ (by simpa using hl),
          Outcome.ok_bind, addAt_ok hk', Outcome.ok_bind, h.next _ _ (by simpa using hl) (by simpa using hl), Outcome.ok_bind,
          h.errors _ (by simpa using hl), Outcome.ok_bind, addAt_ok (by omega), Outcome.ok_bind,
          h.next _ _ (by simpa using hl) hl, Outcome.ok_bind, Outcome.pure_eq]
      · refine ⟨by simpa using h1, rfl, fun _ => rfl, fun h => absurd h (Nat.succ_ne_zero _), fun i hi => ?_⟩
        simp only [List.getElem?_set]
        have hgk := h5 k hk
        rw [List.getElem?_eq_getElem (by omega), if_neg (lt_irrefl _)] at hgk
        by_cases hik : k = i
        · subst hik
          rw [if_pos rfl, if_pos (by omega), if_pos (Nat.lt_succ_self _), Option.some.inj hgk, zero_add]
          rfl
        · rw [if_neg hik, h5 i hi]
          congr 1
          by_cases hlt : i < k
          · rw [if_pos hlt, if_pos (by omega)]
          · rw [if_neg hlt, if_neg (by omega)])
  refine ⟨v.gradient, v.opt, ?_, hg, ho1, ho2, fun i hi => ?_⟩
  · rw [parameterGradient, ← hp, hv]
    rfl
  · rw [hall i hi, if_pos hi]

/-- Spec: the comparison that the tests make for all entries (`ASSERT_EQUALS_DELTA`). -/
def Accepts (tol : ℝ) (g e : List ℝ) : Prop :=
  g.length = e.length ∧ ∀ (i : ℕ) (a b : ℝ), g[i]? = some a → e[i]? = some b → |a - b| ≤ tol

theorem eventually_small {P : ℝ → Prop} (h : ∀ᶠ eps in 𝓝[>] (0 : ℝ), P eps) :
    ∃ eps0 > 0, ∀ eps, 0 < eps → eps < eps0 → P eps := by
  obtain ⟨u, hu, hs⟩ := mem_nhdsGT_iff_exists_Ioo_subset.1 h
  exact ⟨u, hu, fun eps h1 h2 => hs ⟨h1, h2⟩⟩

/-- **C117 (right gradients are accepted)**: if the entries of `g` are closer to the derivatives than the tolerance, then the
check succeeds for all small step widths. -/
theorem check_accepts {O : Optimizable σ} {idx : List ℕ} {s : σ} {S : List ℝ → σ} {E : List ℝ → List ℝ}
    (h : Follows O idx s S E) {g d : ℕ → ℝ} {tol : ℝ}
    (hd : ∀ i (hi : i < O.dimension), HasDerivAt (along E (O.current s) i) (d i) ((O.current s)[i]'(by rw [h.length]; exact hi)))
    (hg : ∀ i < O.dimension, |g i - d i| < tol) :
    ∃ eps0 > 0, ∀ eps, 0 < eps → eps < eps0 →
      ∃ e t, parameterGradient O idx eps s = .ok (e, t) ∧ Accepts tol ((List.range O.dimension).map g) e := by
  have hev : ∀ᶠ eps in 𝓝[>] (0 : ℝ), ∀ i (hi : i < O.dimension),
      |g i - central (along E (O.current s) i) ((O.current s)[i]'(by rw [h.length]; exact hi)) eps| < tol := by
    have : ∀ᶠ eps in 𝓝[>] (0 : ℝ), ∀ i : Fin O.dimension,
        |g i - central (along E (O.current s) i) ((O.current s)[(i : ℕ)]'(by rw [h.length]; exact i.2)) eps| < tol := by
      refine eventually_all.2 fun i => ?_
      have ht := ((tendsto_const_nhds (x := g i)).sub (central_tendsto (hd i i.2))).abs
      exact ht.eventually_lt_const (hg i i.2)
    filter_upwards [this] with eps he i hi
    exact he ⟨i, hi⟩
  obtain ⟨u, hu, hs⟩ := eventually_small hev
  refine ⟨u, hu, fun eps h1 h2 => ?_⟩
  obtain ⟨e, t, he, hl, _, _, hall⟩ := parameterGradient_eq h eps
  refine ⟨e, t, he, by simp [hl], fun i a b ha hb => ?_⟩
  have hi : i < O.dimension := by
    rw [← hl]
    exact (List.getElem?_eq_some_iff.1 hb).1
  rw [hall i hi] at hb
  rw [List.getElem?_map, List.getElem?_range hi] at ha
  cases ha
  cases hb
  exact (hs eps h1 h2 i hi).le

/-- **C117 (wrong gradients are found)**: if an entry of `g` differs by more than the tolerance from the derivative, then the
check fails for all small step widths. -/
theorem check_rejects {O : Optimizable σ} {idx : List ℕ} {s : σ} {S : List ℝ → σ} {E : List ℝ → List ℝ}
    (h : Follows O idx s S E) {g : List ℝ} {tol a d : ℝ} {i : ℕ} (hi : i < O.dimension) (ha : g[i]? = some a)
    (hd : HasDerivAt (along E (O.current s) i) d ((O.current s)[i]'(by rw [h.length]; exact hi)))
    (hg : tol < |a - d|) :
    ∃ eps0 > 0, ∀ eps, 0 < eps → eps < eps0 →
      ∃ e t, parameterGradient O idx eps s = .ok (e, t) ∧ ¬ Accepts tol g e := by
  have ht := ((tendsto_const_nhds (x := a)).sub (central_tendsto hd)).abs
  obtain ⟨u, hu, hs⟩ := eventually_small (ht.eventually_const_lt hg)
  refine ⟨u, hu, fun eps h1 h2 => ?_⟩
  obtain ⟨e, t, he, hl, _, _, hall⟩ := parameterGradient_eq h eps
  exact ⟨e, t, he, fun hacc => absurd (hacc.2 i _ _ ha (hall i hi)) (not_le.2 (hs eps h1 h2))⟩

/-! ## Estimated gradients with respect to inputs -/

theorem Learner.error_trainingSet (L : Learner) (X Y : Batch) :
    L.error (some (X, Y)) (L.trainingSet X Y) = L.errors X Y := by
  rw [Learner.trainingSet]
  cases L.copies <;> rfl

theorem addCol_addCol (X : Batch) (i : ℕ) (a b : ℝ) : addCol (addCol X i a) i b = addCol X i (a + b) := by
  funext n j
  simp only [addCol]
  split <;> ring

theorem setCol_addCol (X : Batch) (i : ℕ) (a : ℝ) : setCol (addCol X i a) i (fun n => X n i) = X := by
  funext n j
  simp only [setCol, addCol]
  split
  · next h => rw [h]
  · rfl

/-- **C117 (what is computed for inputs)**: entry `(n, i)` is the central difference of the error of example `n` when column
`i` of the inputs moves. -/
theorem inputGradient_eq {L : Learner} {N D : ℕ} {X Y : Batch} {E : Batch → ℕ → ℝ}
    (hE : ∀ X', L.errors X' Y = .ok ((List.range N).map (E X'))) (eps : ℝ) (before : Data) :
    ∃ g after, inputGradient L N D X Y eps before = .ok (g, after) ∧
      (∀ n < N, ∀ i < D, g n i = central (fun t => E (addCol X i t) n) 0 eps) ∧
      after = if D = 0 then before else L.trainingSet (addCol X (D - 1) (-eps)) Y := by
  obtain ⟨v, hv, h1, h2, h3⟩ := forLoop_inv (n := D) (body := inputStep L N X Y eps)
    (P := fun k v => v.input = X ∧ (∀ n < N, ∀ i < k, v.gradient n i = central (fun t => E (addCol X i t) n) 0 eps) ∧
      v.data = if k = 0 then before else L.trainingSet (addCol X (k - 1) (-eps)) Y)
    (s := ⟨fun _ _ => 0, X, before⟩) ⟨rfl, fun n _ i hi => absurd hi (Nat.not_lt_zero _), rfl⟩
    (by
      rintro k hk ⟨vg, vi, vd⟩ ⟨h1, h2, h3⟩
      simp only at h1 h2 h3
      subst h1
      refine ⟨⟨setCol vg k fun n => (((List.range N).map (E (addCol vi k eps))).getD n 0 -
        ((List.range N).map (E (addCol vi k (-eps)))).getD n 0) / (2 * eps), vi, L.trainingSet (addCol vi k (-eps)) Y⟩, ?_,
        rfl, ?_, ?_⟩
      · unfold inputStep
        simp only [Learner.error_trainingSet, addCol_addCol, hE, Outcome.ok_bind, List.length_map, List.length_range, and_self,
          if_true, setCol_addCol, Outcome.pure_eq]
        rw [show eps + -(2 * eps) = -eps by ring]
      · intro n hn i hi
        simp only [setCol]
        by_cases hik : i = k
        · subst hik
          rw [if_pos rfl, central, zero_add, zero_sub]
          simp [List.getD, hn]
        · rw [if_neg hik]
          exact h2 n hn i (by omega)
      · simp)
  refine ⟨v.gradient, v.data, ?_, h2, h3⟩
  rw [inputGradient, hv]
  rfl

/-- **C117 (limit for inputs)** -/
theorem input_tendsto {L : Learner} {N D : ℕ} {X Y : Batch} {E : Batch → ℕ → ℝ} {d : Batch}
    (hE : ∀ X', L.errors X' Y = .ok ((List.range N).map (E X'))) (before : Data)
    (hd : ∀ n < N, ∀ i < D, HasDerivAt (fun t => E (addCol X i t) n) (d n i) 0) {tol : ℝ} (htol : 0 < tol) :
    ∃ eps0 > 0, ∀ eps, 0 < eps → eps < eps0 → ∃ g after, inputGradient L N D X Y eps before = .ok (g, after) ∧
      ∀ n < N, ∀ i < D, |g n i - d n i| ≤ tol := by
  have hev : ∀ᶠ eps in 𝓝[>] (0 : ℝ), ∀ p : Fin N × Fin D,
      |central (fun t => E (addCol X p.2 t) p.1) 0 eps - d p.1 p.2| < tol := by
    refine eventually_all.2 fun p => ?_
    have ht := ((central_tendsto (hd p.1 p.1.2 p.2 p.2.2)).sub_const (d p.1 p.2)).abs
    rw [sub_self, abs_zero] at ht
    exact ht.eventually_lt_const htol
  obtain ⟨u, hu, hs⟩ := eventually_small hev
  refine ⟨u, hu, fun eps h1 h2 => ?_⟩
  obtain ⟨g, after, hg, hc, _⟩ := inputGradient_eq (D := D) (X := X) hE eps before
  refine ⟨g, after, hg, fun n hn i hi => ?_⟩
  rw [hc n hn i hi]
  exact (hs eps h1 h2 (⟨n, hn⟩, ⟨i, hi⟩)).le

/-- **C117 is false for the data afterwards (copies)**: an adapter is left with data whose last column is shifted, not with the
data that were passed. -/
theorem shifted_data_fails {L : Learner} (hL : L.copies = true) {N D : ℕ} (hD : 0 < D) {X Y : Batch} {E : Batch → ℕ → ℝ}
    (hE : ∀ X', L.errors X' Y = .ok ((List.range N).map (E X'))) {eps : ℝ} (heps : 0 < eps) (before : Data) :
    ∃ g X', inputGradient L N D X Y eps before = .ok (g, .copy X' Y) ∧ ∀ n, X' n (D - 1) = X n (D - 1) - eps ∧
      X' n (D - 1) ≠ X n (D - 1) := by
  obtain ⟨g, after, hg, _, ha⟩ := inputGradient_eq (D := D) (X := X) hE eps before
  rw [if_neg (by omega), Learner.trainingSet, if_pos hL] at ha
  refine ⟨g, _, by rw [hg, ha], fun n => ?_⟩
  have h : addCol X (D - 1) (-eps) n (D - 1) = X n (D - 1) - eps := by rw [addCol, if_pos rfl, sub_eq_add_neg]
  exact ⟨h, by rw [h]; linarith⟩

/-- **C117 is false for the data afterwards (pointers)**: a learner that keeps pointers, like a network, is left with pointers
to matrices that do not exist any more; the next use of the training set is undefined. -/
theorem dangling_data_ub {L : Learner} (hL : L.copies = false) {N D : ℕ} (hD : 0 < D) {X Y : Batch} {E : Batch → ℕ → ℝ}
    (hE : ∀ X', L.errors X' Y = .ok ((List.range N).map (E X'))) (eps : ℝ) (before : Data) :
    ∃ g after, inputGradient L N D X Y eps before = .ok (g, after) ∧ L.error none after = .ub := by
  obtain ⟨g, after, hg, _, ha⟩ := inputGradient_eq (D := D) (X := X) hE eps before
  rw [if_neg (by omega), Learner.trainingSet, if_neg (by simp [hL])] at ha
  exact ⟨g, after, hg, by rw [ha]; rfl⟩

/-! ## Examples -/

/-- The hypotheses of `central_accuracy` for a cubic function, with the bound attained. -/
example : |central (fun t => t ^ 3) 2 (1 / 10) - 12| = 6 * (1 / 10) ^ 2 / 6 := by
  unfold central
  norm_num [abs_of_pos]

/-- The absolute value at its kink: the estimate is 0 for every step width. -/
example : ∀ eps : ℝ, central (fun t => |t|) 0 eps = 0 := by
  intro eps
  simp [central]

/-- An objective with two parameters and one example that meets the hypotheses of `parameterGradient_eq`. -/
example : ∃ (O : Optimizable (List ℝ)) (s : List ℝ) (S : List ℝ → List ℝ) (E : List ℝ → List ℝ), Follows O [0] s S E ∧
    O.dimension = 2 ∧ E [1, 2] ≠ E [1, 3] := by
  refine ⟨⟨2, id, fun _ θ => .ok θ, fun s _ => .ok [s.sum ^ 2]⟩, [1, 2], id, fun θ => [θ.sum ^ 2], ⟨rfl, fun _ _ => rfl,
    fun _ _ _ _ => rfl, fun _ _ => rfl⟩, rfl, ?_⟩
  norm_num

end

end Verif.GradCheck
