import Verif.Props.MBSGDRun
import Mathlib.Analysis.Calculus.Deriv.Basic
import Mathlib.Algebra.BigOperators.Field

/-!
# Full batches reach the minimum of convex objectives: C82 (the optimiser)
-/

namespace Verif.Opt

open Finset

noncomputable section

/-! ## Spec -/

/-- Spec: the squared distance of two parameter vectors. -/
def distSq (P : ℕ) (u w : Vec) : ℝ := ∑ p ∈ range P, (u p - w p) ^ 2

/-- Spec: `J` with gradient `G` lies below parabolas with curvature `L`. -/
def CurvatureAtMost (P : ℕ) (L : ℝ) (J : Vec → ℝ) (G : Vec → Vec) : Prop :=
  ∀ w u, J u ≤ J w + ∑ p ∈ range P, G w p * (u p - w p) + L / 2 * distSq P u w

/-- Spec: `J` with gradient `G` lies above its tangents. -/
def ConvexWith (P : ℕ) (J : Vec → ℝ) (G : Vec → Vec) : Prop :=
  ∀ w u, J w + ∑ p ∈ range P, G w p * (u p - w p) ≤ J u

/-- Spec: no gains and no momentum. -/
structure MBSGD.Plain (o : MBSGD) : Prop where
  minGain : o.minGain = 1
  maxGain : o.maxGain = 1
  eta : o.eta = 0
  etaGain : o.etaGain = 0
  maxEta : 0 ≤ o.maxEta

/-- Spec: for every order of all examples the gradient is `G` of the parameters. -/
def Problem.FullGradient (A : Problem) (G : Vec → Vec) : Prop :=
  ∀ k w b, b.Perm (List.range A.examples) → (A.errorGradient k w b).2 = G w

/-! ## Gradient descent with varying step sizes -/

section Sequence

variable {P : ℕ} {L : ℝ} {J : Vec → ℝ} {G : Vec → Vec} {w : ℕ → Vec} {a : ℕ → ℝ}

theorem seq_step (hL : CurvatureAtMost P L J G) (hw : ∀ t, ∀ p < P, w (t + 1) p = w t p - a t * G (w t) p)
    (t : ℕ) (h0 : 0 ≤ a t) (h1 : a t * L ≤ 1) :
    J (w (t + 1)) ≤ J (w t) - a t / 2 * ∑ p ∈ range P, G (w t) p ^ 2 := by
  have h := hL (w t) (w (t + 1))
  have e1 : ∑ p ∈ range P, G (w t) p * (w (t + 1) p - w t p) = -a t * ∑ p ∈ range P, G (w t) p ^ 2 := by
    rw [mul_sum]
    refine sum_congr rfl fun p hp => ?_
    rw [hw t p (mem_range.1 hp)]
    ring
  have e2 : distSq P (w (t + 1)) (w t) = a t ^ 2 * ∑ p ∈ range P, G (w t) p ^ 2 := by
    rw [distSq, mul_sum]
    refine sum_congr rfl fun p hp => ?_
    rw [hw t p (mem_range.1 hp)]
    ring
  rw [e1, e2] at h
  have hS : 0 ≤ ∑ p ∈ range P, G (w t) p ^ 2 := sum_nonneg fun p _ => sq_nonneg _
  have : a t * (1 - a t * L) * ∑ p ∈ range P, G (w t) p ^ 2 ≥ 0 :=
    mul_nonneg (mul_nonneg h0 (by linarith)) hS
  nlinarith [this]

theorem seq_antitone (hL : CurvatureAtMost P L J G) (hw : ∀ t, ∀ p < P, w (t + 1) p = w t p - a t * G (w t) p)
    (h0 : ∀ t, 0 ≤ a t) (h1 : ∀ t, a t * L ≤ 1) {t t' : ℕ} (h : t ≤ t') : J (w t') ≤ J (w t) := by
  induction t' with
  | zero =>
    have : t = 0 := by omega
    rw [this]
  | succ t' ih =>
    rcases Nat.lt_or_ge t (t' + 1) with hlt | hge
    · refine le_trans (seq_step hL hw t' (h0 _) (h1 _)) ?_
      have hS : 0 ≤ a t' / 2 * ∑ p ∈ range P, G (w t') p ^ 2 :=
        mul_nonneg (by have := h0 t'; linarith) (sum_nonneg fun p _ => sq_nonneg _)
      have := ih (by omega)
      linarith
    · have : t = t' + 1 := by omega
      rw [this]

/-- The gradients become small. -/
theorem seq_gradients (hL : CurvatureAtMost P L J G) (hw : ∀ t, ∀ p < P, w (t + 1) p = w t p - a t * G (w t) p)
    (h0 : ∀ t, 0 ≤ a t) (h1 : ∀ t, a t * L ≤ 1) (n : ℕ) :
    ∑ t ∈ range n, a t / 2 * ∑ p ∈ range P, G (w t) p ^ 2 ≤ J (w 0) - J (w n) := by
  induction n with
  | zero => simp
  | succ n ih =>
    rw [sum_range_succ]
    have := seq_step hL hw n (h0 _) (h1 _)
    linarith

theorem seq_closer (hL : CurvatureAtMost P L J G) (hc : ConvexWith P J G)
    (hw : ∀ t, ∀ p < P, w (t + 1) p = w t p - a t * G (w t) p)
    (t : ℕ) (h0 : 0 ≤ a t) (h1 : a t * L ≤ 1) (u : Vec) :
    a t * (J (w (t + 1)) - J u) ≤ (distSq P (w t) u - distSq P (w (t + 1)) u) / 2 := by
  have h2 := seq_step hL hw t h0 h1
  have h3 := hc (w t) u
  have e : distSq P (w (t + 1)) u = distSq P (w t) u + 2 * a t * ∑ p ∈ range P, G (w t) p * (u p - w t p) +
      a t ^ 2 * ∑ p ∈ range P, G (w t) p ^ 2 := by
    rw [distSq, distSq, mul_sum, mul_sum, ← sum_add_distrib, ← sum_add_distrib]
    refine sum_congr rfl fun p hp => ?_
    rw [hw t p (mem_range.1 hp)]
    ring
  rw [e]
  have h4 : J (w (t + 1)) - J u ≤ -(∑ p ∈ range P, G (w t) p * (u p - w t p)) - a t / 2 * ∑ p ∈ range P, G (w t) p ^ 2 := by
    linarith
  have := mul_le_mul_of_nonneg_left h4 h0
  nlinarith [this]

/-- The error exceeds the error of any other parameters `u` by at most the squared distance of the start to `u`, divided by
twice the sum of the step sizes. -/
theorem seq_converges (hL : CurvatureAtMost P L J G) (hc : ConvexWith P J G)
    (hw : ∀ t, ∀ p < P, w (t + 1) p = w t p - a t * G (w t) p)
    (h0 : ∀ t, 0 ≤ a t) (h1 : ∀ t, a t * L ≤ 1) (n : ℕ) (u : Vec) :
    (∑ t ∈ range n, a t) * (J (w n) - J u) ≤ distSq P (w 0) u / 2 := by
  have key : ∀ n, (∑ t ∈ range n, a t * (J (w (t + 1)) - J u)) ≤ (distSq P (w 0) u - distSq P (w n) u) / 2 := by
    intro n
    induction n with
    | zero => simp
    | succ n ih =>
      rw [sum_range_succ]
      have := seq_closer hL hc hw n (h0 _) (h1 _) u
      linarith
  have hd : 0 ≤ distSq P (w n) u := sum_nonneg fun p _ => sq_nonneg _
  have hle : (∑ t ∈ range n, a t) * (J (w n) - J u) ≤ ∑ t ∈ range n, a t * (J (w (t + 1)) - J u) := by
    rw [sum_mul]
    refine sum_le_sum fun t ht => mul_le_mul_of_nonneg_left ?_ (h0 t)
    have := seq_antitone hL hw h0 h1 (t := t + 1) (t' := n) (by have := mem_range.1 ht; omega)
    linarith
  have := key n
  linarith

end Sequence

/-! ## The optimiser -/

theorem momentumAt_zero {o : MBSGD} (hp : o.Plain) (t : ℕ) : momentumAt o.eta o.etaGain o.maxEta t = 0 := by
  cases t with
  | zero => exact hp.eta
  | succ t =>
    rw [momentumAt, hp.eta, hp.etaGain, mul_zero, zero_add]
    exact min_eq_left hp.maxEta

/-- A run with full batches, without momentum and gains is gradient descent with the documented learning rates. -/
theorem plain_steps {o0 : MBSGD} (hv : o0.Valid) (hf : o0.Fair) (hn : o0.iteration < 0) (hp : o0.Plain) {obj0 : Obj}
    (hs : obj0.problem.examples ≤ o0.batchSize) {G : Vec → Vec} (hG : obj0.problem.FullGradient G) {n : ℕ} {c : Bool}
    {o : MBSGD} {obj : Obj} (h : Steps o0 obj0 (n + 1) c o obj) :
    ∃ w : ℕ → Vec, w 0 = obj0.w ∧ w (n + 1) = (o.result obj).1 ∧
      ∀ t p, w (t + 1) p = w t p - rate o0.alpha o0.alphaDecay o0.minAlpha t * G (w t) p := by
  rcases steps_runInv hv hn h with ⟨h0, _⟩ | ⟨_, hinv, _⟩
  · omega
  have hone : max (obj0.problem.examples / o0.batchSize) 1 = 1 := by
    have : obj0.problem.examples / o0.batchSize ≤ 1 := by
      calc obj0.problem.examples / o0.batchSize ≤ o0.batchSize / o0.batchSize := Nat.div_le_div_right hs
        _ ≤ 1 := by rw [Nat.div_self hv.batch]
    omega
  have hfol := hinv.follows
  rw [hone, Nat.mul_one] at hfol
  set batch := batchAt o0 obj0.problem.examples 1 with hbatch
  set D := descent o0 obj0 batch with hD
  have hb : ∀ t, (batch t).Perm (List.range obj0.problem.examples) := by
    intro t
    have hperm := indicesAt_perm hf obj0.problem.examples t
    have e : batch t = indicesAt o0 obj0.problem.examples t := by
      rw [hbatch, batchAt, Nat.div_one, Nat.mod_one, batchOf, Nat.zero_mul, List.drop_zero]
      refine List.take_of_length_le ?_
      rw [hperm.length_eq, List.length_range]
      exact hs
    rw [e]
    exact hperm
  have heta : ∀ t, D.eta t = 0 := fun t => momentumAt_zero hp t
  refine ⟨fun t => (D.at_ t).w, rfl, hfol.parameters.symm, fun t p => ?_⟩
  have hpl := D.plain hp.minGain hp.maxGain t p
  show (D.at_ (t + 1)).w p = (D.at_ t).w p - rate o0.alpha o0.alphaDecay o0.minAlpha t * G (D.at_ t).w p
  rw [hpl.2, hpl.1, heta, zero_mul, zero_sub]
  have he : D.eval t (D.at_ t) = (D.at_ t).w := by
    unfold Descent.eval
    split
    · funext q
      rw [heta, zero_mul, add_zero]
    · rfl
  rw [he]
  have hg : D.grad t (D.at_ t).w = G (D.at_ t).w := hG _ _ _ (hb t)
  rw [hg]
  show _ + -(rate o0.alpha o0.alphaDecay o0.minAlpha t * _) = _
  ring

/-- The learning rates are positive and at most the first one. -/
theorem rate_range {o : MBSGD} (hv : o.Valid) (ha : 0 < o.alpha) (hm : o.minAlpha ≤ o.alpha) (t : ℕ) :
    0 < rate o.alpha o.alphaDecay o.minAlpha t ∧ rate o.alpha o.alphaDecay o.minAlpha t ≤ o.alpha := by
  obtain ⟨_, h2, _, h4⟩ := rate_bounds (minimum := o.minAlpha) ha hv.decay_pos hv.decay_le t
  exact ⟨h4, by rwa [max_eq_left hm] at h2⟩

theorem rate_curvature {o : MBSGD} (hv : o.Valid) (ha : 0 < o.alpha) (hm : o.minAlpha ≤ o.alpha) {L : ℝ} (hL : o.alpha * L ≤ 1)
    (t : ℕ) : rate o.alpha o.alphaDecay o.minAlpha t * L ≤ 1 := by
  obtain ⟨h1, h2⟩ := rate_range hv ha hm t
  rcases le_total 0 L with h | h
  · exact le_trans (mul_le_mul_of_nonneg_right h2 h) hL
  · exact le_trans (mul_nonpos_of_nonneg_of_nonpos h1.le h) zero_le_one

/-- **C82 (descent)**: with full batches, without momentum and gains, and with a learning rate of at most `1 / L`, no epoch
raises an objective of curvature at most `L`, and the squared gradients of all epochs, weighted with half the learning rates,
add up to at most the reduction of the objective. -/
theorem full_batch_descends {o0 : MBSGD} (hv : o0.Valid) (hf : o0.Fair) (hn : o0.iteration < 0) (hp : o0.Plain) {obj0 : Obj}
    (hs : obj0.problem.examples ≤ o0.batchSize) (ha : 0 < o0.alpha) (hm : o0.minAlpha ≤ o0.alpha) {J : Vec → ℝ}
    {G : Vec → Vec} (hG : obj0.problem.FullGradient G) {L : ℝ} (hL : CurvatureAtMost obj0.problem.dimension L J G)
    (hrate : o0.alpha * L ≤ 1) {n : ℕ} {c : Bool} {o : MBSGD} {obj : Obj} (h : Steps o0 obj0 (n + 1) c o obj) :
    ∃ w : ℕ → Vec, w 0 = obj0.w ∧ w (n + 1) = (o.result obj).1 ∧ (∀ t, J (w (t + 1)) ≤ J (w t)) ∧
      ∑ t ∈ range (n + 1), rate o0.alpha o0.alphaDecay o0.minAlpha t / 2 * ∑ p ∈ range obj0.problem.dimension, G (w t) p ^ 2 ≤
        J obj0.w - J (o.result obj).1 := by
  obtain ⟨w, e0, e1, hw⟩ := plain_steps hv hf hn hp hs hG h
  have h0 : ∀ t, 0 ≤ rate o0.alpha o0.alphaDecay o0.minAlpha t := fun t => (rate_range hv ha hm t).1.le
  have h1 := rate_curvature hv ha hm hrate
  refine ⟨w, e0, e1, fun t => seq_antitone hL (fun t p _ => hw t p) h0 h1 (Nat.le_succ t), ?_⟩
  rw [← e0, ← e1]
  exact seq_gradients hL (fun t p _ => hw t p) h0 h1 (n + 1)

/-- **C82 (convex objectives)**: if the objective is convex too, then after every number of epochs it exceeds its value for any
other parameters `u` by at most the squared distance of the start to `u`, divided by twice the sum of the learning rates. -/
theorem full_batch_converges {o0 : MBSGD} (hv : o0.Valid) (hf : o0.Fair) (hn : o0.iteration < 0) (hp : o0.Plain) {obj0 : Obj}
    (hs : obj0.problem.examples ≤ o0.batchSize) (ha : 0 < o0.alpha) (hm : o0.minAlpha ≤ o0.alpha) {J : Vec → ℝ}
    {G : Vec → Vec} (hG : obj0.problem.FullGradient G) {L : ℝ} (hL : CurvatureAtMost obj0.problem.dimension L J G)
    (hc : ConvexWith obj0.problem.dimension J G)
    (hrate : o0.alpha * L ≤ 1) {n : ℕ} {c : Bool} {o : MBSGD} {obj : Obj} (h : Steps o0 obj0 (n + 1) c o obj) (u : Vec) :
    J (o.result obj).1 ≤ J u + distSq obj0.problem.dimension obj0.w u /
      (2 * ∑ t ∈ range (n + 1), rate o0.alpha o0.alphaDecay o0.minAlpha t) := by
  obtain ⟨w, e0, e1, hw⟩ := plain_steps hv hf hn hp hs hG h
  have hpos : ∀ t, 0 < rate o0.alpha o0.alphaDecay o0.minAlpha t := fun t => (rate_range hv ha hm t).1
  have h0 : ∀ t, 0 ≤ rate o0.alpha o0.alphaDecay o0.minAlpha t := fun t => (hpos t).le
  have h1 := rate_curvature hv ha hm hrate
  have hsum : 0 < ∑ t ∈ range (n + 1), rate o0.alpha o0.alphaDecay o0.minAlpha t :=
    sum_pos (fun t _ => hpos t) ⟨0, by simp⟩
  have := seq_converges hL hc (fun t p _ => hw t p) h0 h1 (n + 1) u
  rw [e0, e1] at this
  have h2 : J (o.result obj).1 - J u ≤ distSq obj0.problem.dimension obj0.w u /
      (2 * ∑ t ∈ range (n + 1), rate o0.alpha o0.alphaDecay o0.minAlpha t) := by
    rw [le_div_iff₀ (by linarith)]
    linarith
  linarith

/-- The sum of the learning rates grows at least like `n * floor` if they have a positive lower limit. -/
theorem sum_rate_ge {o : MBSGD} (hv : o.Valid) (ha : 0 < o.alpha) (hm : o.minAlpha ≤ o.alpha) (n : ℕ) :
    n * o.minAlpha ≤ ∑ t ∈ range n, rate o.alpha o.alphaDecay o.minAlpha t := by
  have : ∑ _t ∈ range n, o.minAlpha ≤ ∑ t ∈ range n, rate o.alpha o.alphaDecay o.minAlpha t := by
    refine sum_le_sum fun t _ => ?_
    exact (rate_bounds (minimum := o.minAlpha) ha hv.decay_pos hv.decay_le t).2.2.1 hm
  simpa using this

/-- Without decay the learning rate stays the first one. -/
theorem sum_rate_const {o : MBSGD} (hd : o.alphaDecay = 1) (hm : o.minAlpha ≤ o.alpha) (n : ℕ) :
    ∑ t ∈ range n, rate o.alpha o.alphaDecay o.minAlpha t = n * o.alpha := by
  have : ∀ t, rate o.alpha o.alphaDecay o.minAlpha t = o.alpha := by
    intro t
    cases t with
    | zero => rfl
    | succ t => rw [rate, hd, one_pow, mul_one, max_eq_left hm]
  simp [this]

/-- **C82 (runs)**: `optimize` with a limit of `m` epochs ends, and with what `result()` returns the objective is at most that
far away from its value for any other parameters. -/
theorem optimize_converges {o0 : MBSGD} (hv : o0.Valid) (hf : o0.Fair) (hn : o0.iteration < 0) (hp : o0.Plain) {obj0 : Obj}
    (hne : obj0.Nonempty) (hs : obj0.problem.examples ≤ o0.batchSize) (ha : 0 < o0.alpha) (hm : o0.minAlpha ≤ o0.alpha)
    {J : Vec → ℝ} {G : Vec → Vec} (hG : obj0.problem.FullGradient G) {L : ℝ}
    (hL : CurvatureAtMost obj0.problem.dimension L J G) (hc : ConvexWith obj0.problem.dimension J G)
    (hrate : o0.alpha * L ≤ 1) {m : ℕ} (hm1 : 1 ≤ m) (hmax : o0.stop.maximalIterations = m)
    (hstep : o0.stop.minimalSearchSpaceStep = 0) :
    ∃ o obj, o0.optimize (fun _ => false) m obj0 = .ok (some (o, obj)) ∧ ∀ u,
      J (o.result obj).1 ≤ J u + distSq obj0.problem.dimension obj0.w u /
        (2 * ∑ t ∈ range m, rate o0.alpha o0.alphaDecay o0.minAlpha t) := by
  obtain ⟨o, obj, h, hcount, _⟩ := optimize_exact hv hf hn hne hm1 hmax hstep
  refine ⟨o, obj, h, fun u => ?_⟩
  obtain ⟨n, c, hsteps, _⟩ := optimize_steps h
  have hnm : n + 1 = m := by
    rcases steps_runInv hv hn hsteps with ⟨h0, _⟩ | ⟨_, hinv, _⟩
    · omega
    · have := hinv.finished
      omega
  rw [← hnm]
  exact full_batch_converges hv hf hn hp hs ha hm hG hL hc hrate hsteps u

/-! ## How to find the slope of an objective -/

/-- A function that lies between a line and a parabola that touch at 0 has the slope of the line. -/
theorem slope_unique {f : ℝ → ℝ} {l g c : ℝ} (h1 : ∀ t, f 0 + t * l ≤ f t) (h2 : ∀ t, f t ≤ f 0 + t * l + c * t ^ 2)
    (h : HasDerivAt f g 0) : g = l := by
  have hc : 0 ≤ c := by
    have a := h1 1
    have b := h2 1
    linarith
  have hl : HasDerivAt f l 0 := by
    rw [hasDerivAt_iff_isLittleO]
    refine Asymptotics.IsBigO.trans_isLittleO (g := fun t : ℝ => t ^ 2) ?_ ?_
    · refine Asymptotics.IsBigO.of_bound c (Filter.Eventually.of_forall fun t => ?_)
      have a := h1 t
      have b := h2 t
      rw [Real.norm_eq_abs, Real.norm_eq_abs, abs_of_nonneg (sq_nonneg t), abs_le]
      simp only [sub_zero, smul_eq_mul]
      constructor
      · nlinarith [mul_nonneg hc (sq_nonneg t)]
      · linarith
    · have := Asymptotics.isLittleO_pow_id (𝕜 := ℝ) (n := 2) (by norm_num)
      simpa using this
  exact h.unique hl

end

end Verif.Opt
