import Verif.Props.AlphaBeta
import Mathlib.Analysis.SpecificLimits.Basic
import Mathlib.Topology.Algebra.Order.LiminfLimsup
import Mathlib.Tactic.LinearCombination

/-!
# The alpha-beta filter follows its input: C69

An input that moves with constant velocity is predicted without error in the limit, and the estimated velocity converges to
its velocity - whatever the filter has seen before.  The proof uses a quadratic Lyapunov function.
-/

namespace Verif.AlphaBeta

open _root_.Filter Topology

/-! ## Second order recurrences -/

/-- One step of the Lyapunov function. -/
theorem lyapunov_step {d t : ℝ} {e : ℕ → ℝ} (he : ∀ n, e (n + 2) = t * e (n + 1) - d * e n) (n : ℕ) :
    ((1 + d) * (e n ^ 2 + e (n + 1) ^ 2) - 2 * t * (e n * e (n + 1))) -
      ((1 + d) * (e (n + 1) ^ 2 + e (n + 2) ^ 2) - 2 * t * (e (n + 1) * e (n + 2))) =
    (1 - d) * ((1 + d) * e n - t * e (n + 1)) ^ 2 := by
  rw [he n]
  ring

/-- A second order recurrence whose coefficients satisfy the conditions of Jury tends to zero. -/
theorem recurrence_tendsto {d t : ℝ} {e : ℕ → ℝ} (he : ∀ n, e (n + 2) = t * e (n + 1) - d * e n) (hd0 : 0 ≤ d) (hd : d < 1)
    (ht : |t| < 1 + d) : Tendsto e atTop (𝓝 0) := by
  obtain ⟨ht1, ht2⟩ := abs_lt.1 ht
  set V : ℕ → ℝ := fun n => (1 + d) * (e n ^ 2 + e (n + 1) ^ 2) - 2 * t * (e n * e (n + 1)) with hV
  have hstep : ∀ n, V n - V (n + 1) = (1 - d) * ((1 + d) * e n - t * e (n + 1)) ^ 2 := fun n => lyapunov_step he n
  have hVpos : ∀ n, (1 + d - |t|) * (e n ^ 2) ≤ V n := by
    intro n
    have h1 : |t * (e n * e (n + 1))| ≤ |t| * ((e n ^ 2 + e (n + 1) ^ 2) / 2) := by
      rw [abs_mul]
      refine mul_le_mul_of_nonneg_left ?_ (abs_nonneg t)
      rw [abs_le]
      constructor <;> nlinarith [sq_nonneg (e n + e (n + 1)), sq_nonneg (e n - e (n + 1))]
    have h2 := (abs_le.1 h1).2
    have h3 : 0 ≤ (1 + d - |t|) * e (n + 1) ^ 2 := mul_nonneg (by linarith) (sq_nonneg _)
    simp only [hV]
    nlinarith
  have hVnn : ∀ n, 0 ≤ V n := fun n => le_trans (mul_nonneg (by linarith) (sq_nonneg _)) (hVpos n)
  have hanti : Antitone V := antitone_nat_of_succ_le fun n => by
    have h1 := hstep n
    have h2 : 0 ≤ (1 - d) * ((1 + d) * e n - t * e (n + 1)) ^ 2 := mul_nonneg (by linarith) (sq_nonneg _)
    linarith
  -- the decrements tend to zero
  have hlim : ∃ l, Tendsto V atTop (𝓝 l) :=
    ⟨_, tendsto_atTop_ciInf hanti ⟨0, by rintro _ ⟨n, rfl⟩; exact hVnn n⟩⟩
  obtain ⟨l, hl⟩ := hlim
  have hdec : Tendsto (fun n => V n - V (n + 1)) atTop (𝓝 0) := by
    have h := hl.sub ((tendsto_add_atTop_iff_nat 1).2 hl)
    rwa [sub_self] at h
  have hres : Tendsto (fun n => ((1 + d) * e n - t * e (n + 1)) ^ 2) atTop (𝓝 0) := by
    have h := hdec.const_mul ((1 - d)⁻¹)
    rw [mul_zero] at h
    refine h.congr fun n => ?_
    rw [hstep n, ← mul_assoc, inv_mul_cancel₀ (by linarith), one_mul]
  have hres' : Tendsto (fun n => |(1 + d) * e n - t * e (n + 1)|) atTop (𝓝 0) := by
    have h := hres.sqrt
    rw [Real.sqrt_zero] at h
    exact h.congr fun n => Real.sqrt_sq_eq_abs _
  -- the sequence is bounded
  obtain ⟨M, hM⟩ : ∃ M, ∀ n, |e n| ≤ M := by
    refine ⟨Real.sqrt (V 0 / (1 + d - |t|)), fun n => ?_⟩
    refine Real.abs_le_sqrt ?_
    rw [le_div_iff₀ (by linarith)]
    have h1 := hVpos n
    have h2 := hanti (Nat.zero_le n)
    linarith
  set c := |t| / (1 + d) with hc
  have hc0 : 0 ≤ c := div_nonneg (abs_nonneg _) (by linarith)
  have hc1 : c < 1 := by
    rw [hc, div_lt_one (by linarith)]
    exact ht
  rw [Metric.tendsto_atTop]
  intro ε hε
  set δ := ε / 2 * (1 - c) with hδ
  have hδ0 : 0 < δ := mul_pos (by linarith) (by linarith)
  obtain ⟨N, hN⟩ := (Metric.tendsto_atTop.1 hres') (δ * (1 + d)) (mul_pos hδ0 (by linarith))
  refine ⟨N, fun n hn => ?_⟩
  have hone : ∀ m ≥ N, |e m| ≤ c * |e (m + 1)| + δ := by
    intro m hm
    have h1 := hN m hm
    rw [Real.dist_eq, sub_zero, abs_abs] at h1
    have h2 : e m = (t * e (m + 1) + ((1 + d) * e m - t * e (m + 1))) / (1 + d) := by
      rw [add_sub_cancel, mul_div_cancel_left₀ _ (by linarith : (1 + d : ℝ) ≠ 0)]
    have h3 : |e m| ≤ (|t| * |e (m + 1)| + δ * (1 + d)) / (1 + d) := by
      conv_lhs => rw [h2]
      rw [abs_div, abs_of_pos (by linarith : (0 : ℝ) < 1 + d)]
      refine div_le_div_of_nonneg_right ?_ (by linarith)
      refine (abs_add_le _ _).trans ?_
      rw [abs_mul]
      linarith
    rw [add_div, mul_div_cancel_right₀ _ (by linarith : (1 + d : ℝ) ≠ 0), mul_div_right_comm] at h3
    exact h3
  have hmany : ∀ k m, N ≤ m → |e m| ≤ c ^ k * M + ε / 2 := by
    intro k
    induction k with
    | zero =>
      intro m _
      have := hM m
      rw [pow_zero, one_mul]
      linarith
    | succ k ih =>
      intro m hm
      have h1 := hone m hm
      have h2 := mul_le_mul_of_nonneg_left (ih (m + 1) (by omega)) hc0
      have h3 : c * (c ^ k * M + ε / 2) + δ = c ^ (k + 1) * M + ε / 2 := by
        rw [hδ]
        ring
      linarith
  have hle : |e n| ≤ ε / 2 := by
    have hlim : Tendsto (fun k => c ^ k * M + ε / 2) atTop (𝓝 (0 * M + ε / 2)) :=
      ((tendsto_pow_atTop_nhds_zero_of_lt_one hc0 hc1).mul_const M).add_const _
    have := ge_of_tendsto' hlim fun k => hmany k n hn
    linarith
  rw [Real.dist_eq, sub_zero]
  linarith

/-! ## The filter -/

/-- Input `k` of a signal that moves with constant velocity `b`, sampled every `T`. -/
noncomputable def ramp (a b : ℕ → ℝ) (T : ℝ) (k : ℕ) : ℕ → ℝ := fun i => a i + b i * (k * T)

/-- Nothing but new parameters changes the coefficients. -/
def Op.Keeps : Op → Prop
  | .setParameters _ => False
  | .reset => True
  | .forward _ => True

theorem run_append (f : Filter) (p q : List Op) : f.run (p ++ q) = (f.run p).run q := List.foldl_append

theorem start_coefficients (f : Filter) (x : ℕ → ℝ) :
    (f.start x).alpha = f.alpha ∧ (f.start x).beta = f.beta ∧ (f.start x).deltaT = f.deltaT := by
  unfold Filter.start
  split <;> exact ⟨rfl, rfl, rfl⟩

theorem step_coefficients (f : Filter) {op : Op} (h : op.Keeps) :
    (f.step op).alpha = f.alpha ∧ (f.step op).beta = f.beta ∧ (f.step op).deltaT = f.deltaT := by
  cases op with
  | setParameters g => exact h.elim
  | reset => exact ⟨rfl, rfl, rfl⟩
  | forward x => exact start_coefficients f x

theorem run_coefficients (f : Filter) (ops : List Op) (h : ∀ op ∈ ops, op.Keeps) :
    (f.run ops).alpha = f.alpha ∧ (f.run ops).beta = f.beta ∧ (f.run ops).deltaT = f.deltaT := by
  induction ops generalizing f with
  | nil => exact ⟨rfl, rfl, rfl⟩
  | cons op ops ih =>
    obtain ⟨h1, h2, h3⟩ := step_coefficients f (h op List.mem_cons_self)
    obtain ⟨h4, h5, h6⟩ := ih (f.step op) fun o ho => h o (List.mem_cons_of_mem _ ho)
    exact ⟨h4.trans h1, h5.trans h2, h6.trans h3⟩

theorem run_deltaT (f : Filter) (ops : List Op) : (f.run ops).deltaT = f.deltaT := by
  induction ops generalizing f with
  | nil => rfl
  | cons op ops ih =>
    refine (ih (f.step op)).trans ?_
    cases op with
    | setParameters g => rfl
    | reset => rfl
    | forward x => exact (start_coefficients f x).2.2

/-- The state after `n` inputs of the ramp. -/
noncomputable def track (f : Filter) (a b : ℕ → ℝ) (n : ℕ) : Filter :=
  f.run ((List.range n).map fun k => .forward (ramp a b f.deltaT k))

theorem track_succ (f : Filter) (a b : ℕ → ℝ) (n : ℕ) :
    track f a b (n + 1) = (track f a b n).forward (ramp a b f.deltaT n) := by
  unfold track
  rw [List.range_succ, List.map_append, run_append]
  rfl

theorem track_coefficients (f : Filter) (a b : ℕ → ℝ) (n : ℕ) :
    (track f a b n).alpha = f.alpha ∧ (track f a b n).beta = f.beta ∧ (track f a b n).deltaT = f.deltaT :=
  run_coefficients f _ fun op hop => by
    obtain ⟨k, _, rfl⟩ := List.mem_map.1 hop
    trivial

theorem track_first (f : Filter) (a b : ℕ → ℝ) (n : ℕ) : (track f a b (n + 1)).first = false := by
  rw [track_succ]
  unfold Filter.forward Filter.start
  dsimp only
  split
  · rfl
  · rename_i h
    simpa using h

/-- **C69 (tracking)**: after any history `before`, a call of `setParameters` with a nonzero parameter for input `i` and any
resets and inputs `after`, an input that moves with constant velocity is predicted without error in the limit, and the
estimated velocity converges to its velocity. -/
theorem ramp_tracking (f : Filter) (hT : f.deltaT ≠ 0) (before after : List Op) (g : ℕ → ℝ) {i : ℕ} (hg : g i ≠ 0)
    (hafter : ∀ op ∈ after, op.Keeps) (a b : ℕ → ℝ) :
    Tendsto (fun n => a i + b i * (n * f.deltaT) -
        (f.run (before ++ .setParameters g :: after ++
          (List.range n).map fun k => .forward (ramp a b f.deltaT k))).value i) atTop (𝓝 0) ∧
    Tendsto (fun n => (f.run (before ++ .setParameters g :: after ++
          (List.range n).map fun k => .forward (ramp a b f.deltaT k))).velocity i) atTop (𝓝 (b i)) := by
  set f1 := f.run (before ++ .setParameters g :: after) with hf1
  have hf1T : f1.deltaT = f.deltaT := run_deltaT f _
  have hcoef : f1.alpha i = 1 - root |g i| * root |g i| ∧ f1.beta i = 2 * (1 - root |g i|) * (1 - root |g i|) := by
    have h0 : f1 = ((f.run before).setParameters g).run after := by
      rw [hf1, run_append]
      rfl
    obtain ⟨h1, h2, _⟩ := run_coefficients ((f.run before).setParameters g) after hafter
    rw [h0, h1, h2]
    exact ⟨rfl, rfl⟩
  have htrack : ∀ n, f.run (before ++ .setParameters g :: after ++
      (List.range n).map fun k => .forward (ramp a b f.deltaT k)) = track f1 a b n := by
    intro n
    rw [run_append, ← hf1, track, hf1T]
  simp only [htrack]
  have hstable := coefficients_stable f g i
  have hpos := coefficients_positive f hg
  have e1 : (f.setParameters g).alpha i = 1 - root |g i| * root |g i| := rfl
  have e2 : (f.setParameters g).beta i = 2 * (1 - root |g i|) * (1 - root |g i|) := rfl
  rw [e1, e2, ← hcoef.1, ← hcoef.2] at hstable hpos
  set α := f1.alpha i with hα
  set β := f1.beta i with hβ
  -- error before input `n + 1`, and the missing velocity
  set e : ℕ → ℝ := fun n => a i + b i * ((n + 1 : ℕ) * f.deltaT) - (track f1 a b (n + 1)).value i with he
  set w : ℕ → ℝ := fun n => f.deltaT * ((track f1 a b (n + 1)).velocity i - b i) with hw
  have hstart : ∀ n x, (track f1 a b (n + 1)).start x = track f1 a b (n + 1) := by
    intro n x
    rw [Filter.start, if_neg (by rw [track_first]; decide)]
  have hvel : ∀ n, (track f1 a b (n + 2)).velocity i = (track f1 a b (n + 1)).velocity i + β / f.deltaT * e n := by
    intro n
    rw [track_succ]
    show ((track f1 a b (n + 1)).start _).newVelocity _ i = _
    rw [hstart, Filter.newVelocity, (track_coefficients f1 a b (n + 1)).2.1, (track_coefficients f1 a b (n + 1)).2.2, hf1T]
    rfl
  have hval : ∀ n, (track f1 a b (n + 2)).value i = (track f1 a b (n + 1)).value i + (α * e n +
      f.deltaT * (track f1 a b (n + 2)).velocity i) := by
    intro n
    rw [hvel, track_succ]
    show ((track f1 a b (n + 1)).start _).newValue _ i (((track f1 a b (n + 1)).start _).newVelocity _ i) = _
    rw [hstart, Filter.newValue, Filter.newVelocity, (track_coefficients f1 a b (n + 1)).1,
      (track_coefficients f1 a b (n + 1)).2.1, (track_coefficients f1 a b (n + 1)).2.2, hf1T]
    rfl
  have hw1 : ∀ n, w (n + 1) = w n + β * e n := by
    intro n
    simp only [hw]
    rw [hvel]
    field_simp
    ring
  have he1 : ∀ n, e (n + 1) = (1 - α - β) * e n - w n := by
    intro n
    have h1 : e (n + 1) = a i + b i * ((n + 1 + 1 : ℕ) * f.deltaT) - (track f1 a b (n + 2)).value i := rfl
    have h2 : w (n + 1) = f.deltaT * ((track f1 a b (n + 2)).velocity i - b i) := rfl
    have h3 : e n = a i + b i * ((n + 1 : ℕ) * f.deltaT) - (track f1 a b (n + 1)).value i := rfl
    have h4 := hw1 n
    rw [h2] at h4
    rw [h1, hval]
    push_cast at h3 ⊢
    linear_combination (-1 : ℝ) * h3 - h4
  have he2 : ∀ n, e (n + 2) = (2 - α - β) * e (n + 1) - (1 - α) * e n := by
    intro n
    have h1 := he1 (n + 1)
    have h2 := he1 n
    have h3 := hw1 n
    linear_combination h1 - h3 - h2
  have hlim : Tendsto e atTop (𝓝 0) := by
    refine recurrence_tendsto he2 (by linarith) (by linarith) ?_
    rw [abs_lt]
    constructor <;> linarith
  have hlimw : Tendsto w atTop (𝓝 0) := by
    have h1 : Tendsto (fun n => (1 - α - β) * e n - e (n + 1)) atTop (𝓝 ((1 - α - β) * 0 - 0)) :=
      (hlim.const_mul _).sub ((tendsto_add_atTop_iff_nat 1).2 hlim)
    rw [mul_zero, sub_zero] at h1
    refine h1.congr fun n => ?_
    rw [he1 n]
    ring
  constructor
  · exact (tendsto_add_atTop_iff_nat 1).1 hlim
  · refine (tendsto_add_atTop_iff_nat 1).1 ?_
    have h1 : Tendsto (fun n => w n / f.deltaT + b i) atTop (𝓝 (0 / f.deltaT + b i)) := (hlimw.div_const _).add_const _
    rw [zero_div, zero_add] at h1
    refine h1.congr fun n => ?_
    simp only [hw]
    rw [mul_div_cancel_left₀ _ hT, sub_add_cancel]

/-- **C69 (settling)**: an input that becomes constant is reproduced in the limit, with velocity zero. -/
theorem constant_settles (f : Filter) (hT : f.deltaT ≠ 0) (before after : List Op) (g : ℕ → ℝ) {i : ℕ} (hg : g i ≠ 0)
    (hafter : ∀ op ∈ after, op.Keeps) (x : ℕ → ℝ) :
    Tendsto (fun n => ((f.run (before ++ .setParameters g :: after ++ List.replicate n (.forward x))).output i)) atTop
      (𝓝 (x i, 0)) := by
  obtain ⟨h1, h2⟩ := ramp_tracking f hT before after g hg hafter x (fun _ => 0)
  have hr : ∀ n : ℕ, ((List.range n).map fun k => Op.forward (ramp x (fun _ => 0) f.deltaT k)) =
      List.replicate n (.forward x) := by
    intro n
    have : ∀ k, ramp x (fun _ => 0) f.deltaT k = x := by
      intro k
      funext j
      simp [ramp]
    simp only [this]
    rw [List.map_const', List.length_range]
  simp only [hr, zero_mul, add_zero] at h1 h2
  have h3 := (tendsto_const_nhds (x := x i)).sub h1
  simp only [sub_sub_cancel, sub_zero] at h3
  exact h3.prodMk_nhds h2

/-- The parameter must not be zero: the filter with parameter 0 never reacts. -/
theorem zero_parameter_fails (f : Filter) : ∃ (x y : ℕ → ℝ), x 0 ≠ y 0 ∧
    ∀ n, (f.run (.setParameters (fun _ => 0) :: .forward x :: List.replicate n (.forward y))).value 0 = x 0 := by
  refine ⟨fun _ => 1, fun _ => 0, one_ne_zero, fun n => ?_⟩
  have hroot : root |(0 : ℝ)| = 1 := by simp [root]
  set f1 := (f.setParameters fun _ => 0).forward fun _ => 1 with hf1
  have hinv : ∀ n (h : Filter), h.first = false → h.alpha 0 = 0 → h.beta 0 = 0 → h.velocity 0 = 0 →
      ((h.run (List.replicate n (.forward fun _ => 0))).value 0 = h.value 0) := by
    intro n
    induction n with
    | zero => intro h _ _ _ _; rfl
    | succ n ih =>
      intro h h1 h2 h3 h4
      have hs : h.start (fun _ => 0) = h := by rw [Filter.start, if_neg (by rw [h1]; decide)]
      have hv : (h.forward fun _ => 0).velocity 0 = 0 := by
        show (h.start fun _ => 0).newVelocity (fun _ => 0) 0 = 0
        rw [hs, Filter.newVelocity, h3, h4, zero_div, zero_mul, add_zero]
      have hx : (h.forward fun _ => 0).value 0 = h.value 0 := by
        show (h.start fun _ => 0).newValue (fun _ => 0) 0 ((h.start fun _ => 0).newVelocity (fun _ => 0) 0) = _
        rw [hs, Filter.newValue, Filter.newVelocity, h2, h3, h4]
        ring
      rw [List.replicate_succ]
      refine (ih (h.forward fun _ => 0) ?_ ?_ ?_ hv).trans hx
      · show (h.start _).first = false
        rw [hs, h1]
      · show (h.start _).alpha 0 = 0
        rw [hs, h2]
      · show (h.start _).beta 0 = 0
        rw [hs, h3]
  refine (hinv n f1 rfl ?_ ?_ ?_).trans ?_
  · show 1 - root |(0 : ℝ)| * root |(0 : ℝ)| = 0
    rw [hroot]
    ring
  · show 2 * (1 - root |(0 : ℝ)|) * (1 - root |(0 : ℝ)|) = 0
    rw [hroot]
    ring
  · simp [hf1, Filter.forward, Filter.start, Filter.setParameters, Filter.updatedParameters, Filter.reset,
      Filter.newVelocity]
  · simp [hf1, Filter.forward, Filter.start, Filter.setParameters, Filter.updatedParameters, Filter.reset,
      Filter.newVelocity, Filter.newValue]

/-- A history that ends with constant input: the parameters 3, an input 5, a reset, an input 7, then 2 for ever. -/
example (f : Filter) (hT : f.deltaT = 1 / 100) :
    Tendsto (fun n => ((f.run ([.forward fun _ => 1] ++ .setParameters (fun _ => 3) ::
      [.forward fun _ => 5, .reset, .forward fun _ => 7] ++ List.replicate n (.forward fun _ => 2))).output 0)) atTop
      (𝓝 (2, 0)) := by
  refine constant_settles f (by rw [hT]; norm_num) _ _ (fun _ => 3) (i := 0) (by norm_num) ?_ fun _ => 2
  intro op hop
  simp only [List.mem_cons, List.not_mem_nil, or_false] at hop
  rcases hop with rfl | rfl | rfl <;> trivial

end Verif.AlphaBeta
