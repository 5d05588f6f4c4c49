import Verif.Model.AlphaBeta

/-!
# The alpha-beta filter: C37
-/

namespace Verif.AlphaBeta

theorem root_bounds {g : ℝ} (hg : 0 ≤ g) : 0 < root g ∧ root g ≤ 1 := by
  have h1 : g ≤ Real.sqrt (8 * g + g * g) := by
    rw [Real.le_sqrt hg (by nlinarith)]
    nlinarith
  have h2 : Real.sqrt (8 * g + g * g) < 4 + g := by
    rw [Real.sqrt_lt' (by linarith)]
    nlinarith
  unfold root
  constructor <;> linarith

/-- **C37 (coefficients)**: after `setParameters` with any numbers, all coefficients lie in the stable region. -/
theorem coefficients_stable (f : Filter) (g : ℕ → ℝ) (i : ℕ) :
    0 ≤ (f.setParameters g).alpha i ∧ (f.setParameters g).alpha i < 1 ∧
    0 ≤ (f.setParameters g).beta i ∧ (f.setParameters g).beta i < 2 ∧
    2 * (f.setParameters g).alpha i + (f.setParameters g).beta i ≤ 4 := by
  obtain ⟨h0, h1⟩ := root_bounds (abs_nonneg (g i))
  show 0 ≤ 1 - root |g i| * root |g i| ∧ 1 - root |g i| * root |g i| < 1 ∧
    0 ≤ 2 * (1 - root |g i|) * (1 - root |g i|) ∧ 2 * (1 - root |g i|) * (1 - root |g i|) < 2 ∧
    2 * (1 - root |g i| * root |g i|) + 2 * (1 - root |g i|) * (1 - root |g i|) ≤ 4
  refine ⟨by nlinarith, by nlinarith, by nlinarith, by nlinarith, by nlinarith⟩

/-- The bounds are strict when the parameter is not zero: the filter then reacts to its input. -/
theorem coefficients_positive (f : Filter) {g : ℕ → ℝ} {i : ℕ} (hg : g i ≠ 0) :
    0 < (f.setParameters g).alpha i ∧ 0 < (f.setParameters g).beta i ∧
    2 * (f.setParameters g).alpha i + (f.setParameters g).beta i < 4 := by
  have hp : 0 < |g i| := abs_pos.2 hg
  obtain ⟨h0, _⟩ := root_bounds hp.le
  have h1 : root |g i| < 1 := by
    have : |g i| < Real.sqrt (8 * |g i| + |g i| * |g i|) := by
      rw [Real.lt_sqrt hp.le]
      nlinarith
    unfold root
    linarith
  show 0 < 1 - root |g i| * root |g i| ∧ 0 < 2 * (1 - root |g i|) * (1 - root |g i|) ∧
    2 * (1 - root |g i| * root |g i|) + 2 * (1 - root |g i|) * (1 - root |g i|) < 4
  refine ⟨by nlinarith, by nlinarith, by nlinarith⟩

/-- **C37 (sign)**: parameter vectors that differ in signs only give the same filter. -/
theorem sign_irrelevant (f : Filter) {g h : ℕ → ℝ} (hgh : ∀ i, |g i| = |h i|) : f.setParameters g = f.setParameters h := by
  have e : (fun i => |g i|) = fun i => |h i| := funext hgh
  simp only [Filter.setParameters, Filter.updatedParameters, Filter.reset, hgh]

/-- **C37 (constant input)**: after `reset` a constant input sequence of any length is reproduced with zero velocity, whatever
happened before. -/
theorem constant_input (f : Filter) (ops : List Op) (x : ℕ → ℝ) (n i : ℕ) :
    (f.run (ops ++ .reset :: List.replicate (n + 1) (.forward x))).output i = (x i, 0) := by
  have hstep : ∀ f' : Filter, f'.first = false → f'.value = x → f'.velocity = (fun _ => 0) → f'.forward x = f' := by
    intro f' h1 h2 h3
    have hs : f'.start x = f' := by rw [Filter.start, if_neg (by rw [h1]; decide)]
    rw [Filter.forward, hs]
    have hv : (fun i => f'.newVelocity x i) = f'.velocity := by
      funext i
      rw [Filter.newVelocity, h2, sub_self, mul_zero, add_zero]
    have hx : (fun i => f'.newValue x i (f'.newVelocity x i)) = f'.value := by
      funext i
      rw [Filter.newValue, Filter.newVelocity, h2, h3, sub_self]
      ring
    rw [hv, hx]
  have hfirst : ∀ f' : Filter, (f'.reset.forward x).first = false ∧ (f'.reset.forward x).value = x ∧
      (f'.reset.forward x).velocity = fun _ => 0 := by
    intro f'
    refine ⟨rfl, ?_, ?_⟩
    · funext i
      simp [Filter.forward, Filter.start, Filter.reset, Filter.newValue, Filter.newVelocity]
    · funext i
      simp [Filter.forward, Filter.start, Filter.reset, Filter.newVelocity]
  have hrep : ∀ n (f' : Filter), f'.first = false → f'.value = x → f'.velocity = (fun _ => 0) →
      (List.replicate n (Op.forward x)).foldl Filter.step f' = f' := by
    intro n
    induction n with
    | zero => intro f' _ _ _; rfl
    | succ n ih =>
      intro f' h1 h2 h3
      rw [List.replicate_succ, List.foldl_cons]
      show List.foldl _ (f'.forward x) _ = f'
      rw [hstep f' h1 h2 h3]
      exact ih f' h1 h2 h3
  obtain ⟨h1, h2, h3⟩ := hfirst (f.run ops)
  have : f.run (ops ++ .reset :: List.replicate (n + 1) (.forward x)) = (f.run ops).reset.forward x := by
    rw [Filter.run, List.foldl_append, List.foldl_cons, List.replicate_succ, List.foldl_cons]
    exact hrep n _ h1 h2 h3
  rw [this, Filter.output, h2, h3]

/-- **C37 (reset)**: after `reset` the outputs depend on the later inputs (and the coefficients) only: filters with the same
coefficients and different histories give the same outputs for every sequence of inputs. -/
theorem reset_forgets (f f' : Filter) (hT : f.deltaT = f'.deltaT) (ha : f.alpha = f'.alpha) (hb : f.beta = f'.beta)
    (xs : List (ℕ → ℝ)) (i : ℕ) :
    (f.run (.reset :: xs.map .forward)).output i = (f'.run (.reset :: xs.map .forward)).output i := by
  have key : ∀ (xs : List (ℕ → ℝ)) (g g' : Filter), g.deltaT = g'.deltaT → g.alpha = g'.alpha → g.beta = g'.beta →
      g.first = g'.first → g.value = g'.value → g.velocity = g'.velocity →
      (g.run (xs.map .forward)).output i = (g'.run (xs.map .forward)).output i := by
    intro xs
    induction xs with
    | nil =>
      intro g g' _ _ _ _ h5 h6
      show g.output i = g'.output i
      rw [Filter.output, Filter.output, h5, h6]
    | cons x xs ih =>
      intro g g' h1 h2 h3 h4 h5 h6
      refine ih (g.forward x) (g'.forward x) ?_ ?_ ?_ ?_ ?_ ?_ <;>
        (simp only [Filter.forward, Filter.start, Filter.newValue, Filter.newVelocity, h4]
         split <;> first | rfl | simp only [h1, h2, h3, h5, h6] | simp only [h4])
  exact key xs f.reset f'.reset hT ha hb rfl rfl rfl

/-- `setParameters` resets as well. -/
theorem setParameters_forgets (f f' : Filter) (hT : f.deltaT = f'.deltaT) (g : ℕ → ℝ) (xs : List (ℕ → ℝ)) (i : ℕ) :
    (f.run (.setParameters g :: xs.map .forward)).output i = (f'.run (.setParameters g :: xs.map .forward)).output i :=
  reset_forgets (Filter.setParameters f g) (Filter.setParameters f' g) hT rfl rfl xs i

/-- The coefficients for the parameter 1: `r = 1/2`. -/
example (f : Filter) : (f.setParameters fun _ => 1).alpha 0 = 3 / 4 ∧ (f.setParameters fun _ => 1).beta 0 = 1 / 2 := by
  have h9 : Real.sqrt (8 * 1 + 1 * 1) = 3 := by
    rw [show (8 * 1 + 1 * 1 : ℝ) = 3 ^ 2 by norm_num]
    exact Real.sqrt_sq (by norm_num)
  have hr : root |(1 : ℝ)| = 1 / 2 := by
    rw [abs_one, root, h9]
    norm_num
  constructor
  · show 1 - root |(1 : ℝ)| * root |(1 : ℝ)| = _
    rw [hr]
    norm_num
  · show 2 * (1 - root |(1 : ℝ)|) * (1 - root |(1 : ℝ)|) = _
    rw [hr]
    norm_num

end Verif.AlphaBeta
