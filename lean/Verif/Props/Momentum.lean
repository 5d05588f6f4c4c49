import Verif.Props.LinearMiniBatch

/-!
# Training with momentum: C84
-/

namespace Verif.Opt

open Finset

noncomputable section

/-! ## Spec -/

/-- Spec: the squared length of a vector. -/
def lengthSq (P : ℕ) (d : Vec) : ℝ := ∑ p ∈ range P, d p ^ 2

theorem lengthSq_nonneg (P : ℕ) (d : Vec) : 0 ≤ lengthSq P d := sum_nonneg fun _ _ => sq_nonneg _

/-- Spec: classical momentum with constant coefficients, no gains. -/
structure MBSGD.Heavy (o : MBSGD) : Prop where
  minGain : o.minGain = 1
  maxGain : o.maxGain = 1
  classical : o.nesterov = false
  etaGain : o.etaGain = 0
  maxEta : o.eta ≤ o.maxEta
  eta : 0 ≤ o.eta
  eta_lt : o.eta < 1
  decay : o.alphaDecay = 1
  floor : o.minAlpha ≤ o.alpha
  alpha : 0 < o.alpha

/-! ## The energy of a heavy ball -/

section Sequence

variable {P : ℕ} {L a η : ℝ} {J : Vec → ℝ} {G : Vec → Vec} {w d : ℕ → Vec}

/-- Error plus kinetic energy does not rise. -/
theorem heavy_step (ha : 0 < a) (hη : 0 ≤ η) (hL : CurvatureAtMost P L J G)
    (hd : ∀ t, ∀ p < P, d (t + 1) p = η * d t p - a * G (w t) p) (hw : ∀ t, ∀ p < P, w (t + 1) p = w t p + d (t + 1) p) (t : ℕ) :
    J (w (t + 1)) + η / (2 * a) * lengthSq P (d (t + 1)) + (1 - η - a * L / 2) / a * lengthSq P (d (t + 1)) ≤
      J (w t) + η / (2 * a) * lengthSq P (d t) := by
  have h := hL (w t) (w (t + 1))
  have e1 : distSq P (w (t + 1)) (w t) = lengthSq P (d (t + 1)) := by
    refine sum_congr rfl fun p hp => ?_
    rw [hw t p (mem_range.1 hp)]
    ring
  have e2 : ∑ p ∈ range P, G (w t) p * (w (t + 1) p - w t p) ≤
      η / (2 * a) * lengthSq P (d t) + (η / (2 * a) - 1 / a) * lengthSq P (d (t + 1)) := by
    rw [lengthSq, lengthSq, mul_sum, mul_sum, ← sum_add_distrib]
    refine sum_le_sum fun p hp => ?_
    have h1 := hd t p (mem_range.1 hp)
    rw [hw t p (mem_range.1 hp)]
    have hg : G (w t) p = (η * d t p - d (t + 1) p) / a := by
      rw [h1]
      field_simp
      ring
    rw [hg]
    have : η / (2 * a) * d t p ^ 2 + (η / (2 * a) - 1 / a) * d (t + 1) p ^ 2 -
        (η * d t p - d (t + 1) p) / a * (w t p + d (t + 1) p - w t p) = η / (2 * a) * (d t p - d (t + 1) p) ^ 2 := by
      field_simp
      ring
    have h2 : 0 ≤ η / (2 * a) * (d t p - d (t + 1) p) ^ 2 := mul_nonneg (by positivity) (sq_nonneg _)
    linarith
  rw [e1] at h
  have e3 : (1 - η - a * L / 2) / a * lengthSq P (d (t + 1)) =
      (1 / a - η / a - L / 2) * lengthSq P (d (t + 1)) := by
    field_simp
  have e4 : η / a = 2 * (η / (2 * a)) := by field_simp
  rw [e3, e4]
  nlinarith

variable (ha : 0 < a) (hη : 0 ≤ η) (hL : CurvatureAtMost P L J G)
  (hd : ∀ t, ∀ p < P, d (t + 1) p = η * d t p - a * G (w t) p) (hw : ∀ t, ∀ p < P, w (t + 1) p = w t p + d (t + 1) p)
  (hd0 : d 0 = fun _ => 0)

include ha hη hL hd hw hd0

theorem heavy_energy (n : ℕ) :
    J (w n) + η / (2 * a) * lengthSq P (d n) + (1 - η - a * L / 2) / a * ∑ t ∈ range n, lengthSq P (d (t + 1)) ≤ J (w 0) := by
  induction n with
  | zero => simp [hd0, lengthSq]
  | succ n ih =>
    have := heavy_step ha hη hL hd hw n
    rw [sum_range_succ, mul_add]
    linarith

/-- The error never rises above the error at the beginning. -/
theorem heavy_bounded (h1 : a * L ≤ 2 * (1 - η)) (n : ℕ) : J (w n) ≤ J (w 0) := by
  have h := heavy_energy ha hη hL hd hw hd0 n
  have h2 : 0 ≤ η / (2 * a) * lengthSq P (d n) := mul_nonneg (by positivity) (lengthSq_nonneg _ _)
  have h3 : 0 ≤ (1 - η - a * L / 2) / a * ∑ t ∈ range n, lengthSq P (d (t + 1)) :=
    mul_nonneg (div_nonneg (by linarith) ha.le) (sum_nonneg fun _ _ => lengthSq_nonneg _ _)
  linarith

/-- The squared steps have a finite sum. -/
theorem heavy_steps (h1 : a * L < 2 * (1 - η)) {low : ℝ} (hlow : ∀ x, low ≤ J x) (n : ℕ) :
    ∑ t ∈ range n, lengthSq P (d (t + 1)) ≤ a * (J (w 0) - low) / (1 - η - a * L / 2) := by
  have h := heavy_energy ha hη hL hd hw hd0 n
  have h2 : 0 ≤ η / (2 * a) * lengthSq P (d n) := mul_nonneg (by positivity) (lengthSq_nonneg _ _)
  have h3 := hlow (w n)
  have hpos : 0 < 1 - η - a * L / 2 := by linarith
  have h4 : (1 - η - a * L / 2) / a * ∑ t ∈ range n, lengthSq P (d (t + 1)) ≤ J (w 0) - low := by linarith
  rw [le_div_iff₀ hpos]
  rw [div_mul_eq_mul_div, div_le_iff₀ ha] at h4
  linarith

/-- The squared gradients have a finite sum. -/
theorem heavy_gradients (hη1 : η ≤ 1) (h1 : a * L < 2 * (1 - η)) {low : ℝ} (hlow : ∀ x, low ≤ J x) (n : ℕ) :
    ∑ t ∈ range n, lengthSq P (G (w t)) ≤ 4 * (J (w 0) - low) / (a * (1 - η - a * L / 2)) := by
  have hs := heavy_steps ha hη hL hd hw hd0 h1 hlow
  have hpos : 0 < 1 - η - a * L / 2 := by linarith
  have hg : ∀ t, a ^ 2 * lengthSq P (G (w t)) ≤ 2 * lengthSq P (d t) + 2 * lengthSq P (d (t + 1)) := by
    intro t
    rw [lengthSq, lengthSq, lengthSq, mul_sum, mul_sum, mul_sum, ← sum_add_distrib]
    refine sum_le_sum fun p hp => ?_
    have h2 := hd t p (mem_range.1 hp)
    have e : a ^ 2 * G (w t) p ^ 2 = (η * d t p - d (t + 1) p) ^ 2 := by
      rw [h2]
      ring
    rw [e]
    have h3 : (η * d t p) ^ 2 ≤ d t p ^ 2 := by
      rw [mul_pow]
      have : η ^ 2 ≤ 1 := pow_le_one₀ hη hη1
      nlinarith [sq_nonneg (d t p)]
    nlinarith [sq_nonneg (η * d t p + d (t + 1) p)]
  have hshift : ∑ t ∈ range n, lengthSq P (d t) ≤ ∑ t ∈ range n, lengthSq P (d (t + 1)) := by
    have e := sum_range_succ' (fun t => lengthSq P (d t)) n
    have e2 := sum_range_succ (fun t => lengthSq P (d t)) n
    have e0 : lengthSq P (d 0) = 0 := by simp [hd0, lengthSq]
    have := lengthSq_nonneg P (d n)
    linarith
  have hsum : a ^ 2 * ∑ t ∈ range n, lengthSq P (G (w t)) ≤ 4 * ∑ t ∈ range n, lengthSq P (d (t + 1)) := by
    rw [mul_sum]
    refine (sum_le_sum fun t _ => hg t).trans ?_
    rw [sum_add_distrib, ← mul_sum, ← mul_sum]
    linarith
  have h5 := hs n
  rw [le_div_iff₀ hpos] at h5
  rw [le_div_iff₀ (by positivity)]
  have h6 := mul_le_mul_of_nonneg_right hsum hpos.le
  have h7 : a * (a * (1 - η - a * L / 2) * ∑ t ∈ range n, lengthSq P (G (w t))) ≤ a * (4 * (J (w 0) - low)) := by nlinarith
  have h8 := le_of_mul_le_mul_left h7 ha
  linarith

end Sequence

/-! ## The optimiser -/

/-- The last step of a run after `t` updates. -/
def stepAt (o : MBSGD) (obj : Obj) (t : ℕ) : Vec :=
  ((descent o obj (batchAt o obj.problem.examples (batchCount o obj.problem.examples))).at_ t).d

theorem batchCount_full {o : MBSGD} (hv : o.Valid) {N : ℕ} (h : N ≤ o.batchSize) : batchCount o N = 1 := by
  have : N / o.batchSize ≤ 1 := by
    calc N / o.batchSize ≤ o.batchSize / o.batchSize := Nat.div_le_div_right h
      _ ≤ 1 := by rw [Nat.div_self hv.batch]
  rw [batchCount]
  omega

section Run

variable {o0 : MBSGD} (hv : o0.Valid) (hf : o0.Fair) (hh : o0.Heavy) {obj0 : Obj}
  (hs : obj0.problem.examples ≤ o0.batchSize) {G : Vec → Vec} (hG : obj0.problem.FullGradient G)

theorem heavy_rate (hh : o0.Heavy) (t : ℕ) : rate o0.alpha o0.alphaDecay o0.minAlpha t = o0.alpha := by
  cases t with
  | zero => rfl
  | succ t => rw [rate, hh.decay, one_pow, mul_one, max_eq_left hh.floor]

theorem heavy_momentum (hh : o0.Heavy) (t : ℕ) : momentumAt o0.eta o0.etaGain o0.maxEta t = o0.eta := by
  cases t with
  | zero => rfl
  | succ t => rw [momentumAt, hh.etaGain, mul_zero, add_zero, min_eq_left hh.maxEta]

include hv hf hh hs hG

/-- A run with full batches is the motion of a heavy ball. -/
theorem heavy_run (t p : ℕ) :
    stepAt o0 obj0 (t + 1) p = o0.eta * stepAt o0 obj0 t p - o0.alpha * G (weightsAt o0 obj0 t) p ∧
    weightsAt o0 obj0 (t + 1) p = weightsAt o0 obj0 t p + stepAt o0 obj0 (t + 1) p := by
  have hk := batchCount_full hv hs
  set D := descent o0 obj0 (batchAt o0 obj0.problem.examples (batchCount o0 obj0.problem.examples)) with hD
  have hpl := D.plain hh.minGain hh.maxGain t p
  refine ⟨?_, hpl.2⟩
  have hb : (batchFor o0 obj0 t).Perm (List.range obj0.problem.examples) := by
    have hperm := indicesAt_perm hf obj0.problem.examples t
    have e : batchFor o0 obj0 t = indicesAt o0 obj0.problem.examples t := by
      rw [batchFor, hk, batchAt, Nat.div_one, Nat.mod_one, batchOf, Nat.zero_mul, List.drop_zero]
      refine List.take_of_length_le ?_
      rw [hperm.length_eq, List.length_range]
      exact hs
    rw [e]
    exact hperm
  have he : D.eval t (D.at_ t) = (D.at_ t).w := by
    unfold Descent.eval
    rw [if_neg]
    show ¬ o0.nesterov = true
    rw [hh.classical]
    exact Bool.false_ne_true
  have hg : D.grad t (D.at_ t).w = G (D.at_ t).w := hG _ _ _ hb
  show (D.at_ (t + 1)).d p = o0.eta * (D.at_ t).d p - o0.alpha * G (D.at_ t).w p
  rw [hpl.1, he, hg]
  show momentumAt o0.eta o0.etaGain o0.maxEta t * _ - rate o0.alpha o0.alphaDecay o0.minAlpha t * _ = _
  rw [heavy_momentum hh, heavy_rate hh]

/-- **C84 (bounded)**: with momentum `η` and a learning rate of at most `2 (1 - η) / L`, the objective is never above its value at
the beginning. -/
theorem momentum_bounded {J : Vec → ℝ} {L : ℝ} (hL : CurvatureAtMost obj0.problem.dimension L J G)
    (h1 : o0.alpha * L ≤ 2 * (1 - o0.eta)) (hn : o0.iteration < 0) {n : ℕ} {c : Bool} {o : MBSGD} {obj : Obj}
    (h : Steps o0 obj0 (n + 1) c o obj) : J (o.result obj).1 ≤ J obj0.w := by
  rw [weightsAt_result hv hn h]
  exact heavy_bounded (w := weightsAt o0 obj0) (d := stepAt o0 obj0) hh.alpha hh.eta hL
    (fun t p _ => (heavy_run hv hf hh hs hG t p).1) (fun t p _ => (heavy_run hv hf hh hs hG t p).2) rfl h1 _

/-- **C84 (gradients)**: the squared gradients of all epochs have a finite sum, so there are arbitrarily small ones. -/
theorem momentum_gradients {J : Vec → ℝ} {L : ℝ} (hL : CurvatureAtMost obj0.problem.dimension L J G)
    (h1 : o0.alpha * L < 2 * (1 - o0.eta)) {low : ℝ} (hlow : ∀ x, low ≤ J x) (n : ℕ) :
    ∑ t ∈ range n, lengthSq obj0.problem.dimension (G (weightsAt o0 obj0 t)) ≤
      4 * (J obj0.w - low) / (o0.alpha * (1 - o0.eta - o0.alpha * L / 2)) :=
  heavy_gradients (w := weightsAt o0 obj0) (d := stepAt o0 obj0) hh.alpha hh.eta hL
    (fun t p _ => (heavy_run hv hf hh hs hG t p).1) (fun t p _ => (heavy_run hv hf hh hs hG t p).2) rfl hh.eta_lt.le h1 hlow n

omit hG hh hf in
/-- As long as the run goes on, the steps are as long as the step size criterion demands. -/
theorem steps_long (hn : o0.iteration < 0) (hstep : 0 < o0.stop.minimalSearchSpaceStep) {n : ℕ} {c : Bool} {o : MBSGD} {obj : Obj}
    (h : Steps o0 obj0 n c o obj) (hc : c = true) :
    ∀ t < n, o0.stop.minimalSearchSpaceStep ^ 2 ≤ lengthSq obj0.problem.dimension (stepAt o0 obj0 (t + 1)) := by
  induction h with
  | zero => intro t ht; omega
  | @succ n o1 obj1 c o2 obj2 hst hstp ih =>
    intro t ht
    rcases Nat.lt_or_ge t n with hlt | hge
    · exact ih rfl t hlt
    · have htn : t = n := by omega
      subst htn
      have hall := Steps.succ hst hstp
      have hans := (steps_answer hv hn hall).1 hc
      have hle := hans.2.resolve_left hstep.ne'
      rcases steps_runInv hv hn hall with ⟨h0, _⟩ | ⟨_, hinv, _⟩
      · omega
      have hk := batchCount_full hv hs
      have hmom := hinv.follows.momentum
      have hm : o2.momentum = stepAt o0 obj0 (t + 1) := by
        have hmom' : o2.momentum = stepAt o0 obj0 ((t + 1) * batchCount o0 obj0.problem.examples) := hmom
        rw [hmom', hk, Nat.mul_one]
      rw [MBSGD.momentumNorm, hinv.P, hm] at hle
      exact (Real.le_sqrt hstep.le (lengthSq_nonneg _ _)).1 hle

end Run

/-- A loop ends or goes on for all of its fuel. -/
theorem loop_or {signaled : ℕ → Bool} {o0 : MBSGD} (hv : o0.Valid) (hf : o0.Fair) (hn : o0.iteration < 0) {obj0 : Obj}
    (hne : obj0.Nonempty) {fuel k : ℕ} {o : MBSGD} {obj : Obj} (h : Steps o0 obj0 k true o obj) :
    (∃ o' obj', MBSGD.loop signaled fuel k o obj = .ok (some (o', obj'))) ∨
      ∃ o' obj', Steps o0 obj0 (k + fuel) true o' obj' := by
  induction fuel generalizing k o obj with
  | zero => exact Or.inr ⟨o, obj, h⟩
  | succ fuel ih =>
    obtain ⟨c, o1, obj1, hs, hst⟩ := steps_progress hv hf hn hne h
    rw [MBSGD.loop, hs, Outcome.ok_bind]
    show (∃ o' obj', (if (c && !signaled k) = true then _ else _) = _) ∨ _
    by_cases hc : (c && !signaled k) = true
    · have hc1 : c = true := by
        cases c
        · cases hc
        · rfl
      rw [if_pos hc]
      rw [hc1] at hst
      rcases ih hst with h1 | ⟨o', obj', h1⟩
      · exact Or.inl h1
      · refine Or.inr ⟨o', obj', ?_⟩
        rwa [show k + (fuel + 1) = k + 1 + fuel by omega]
    · rw [if_neg hc]
      exact Or.inl ⟨o1, obj1, rfl⟩

/-- **C84 (termination)**: with the step size criterion, training ends even if the number of epochs is not limited. -/
theorem momentum_terminates {o0 : MBSGD} (hv : o0.Valid) (hf : o0.Fair) (hh : o0.Heavy) (hn : o0.iteration < 0) {obj0 : Obj}
    (hne : obj0.Nonempty) (hs : obj0.problem.examples ≤ o0.batchSize) {G : Vec → Vec} (hG : obj0.problem.FullGradient G)
    {J : Vec → ℝ} {L : ℝ} (hL : CurvatureAtMost obj0.problem.dimension L J G) (h1 : o0.alpha * L < 2 * (1 - o0.eta)) {low : ℝ}
    (hlow : ∀ x, low ≤ J x) (hstep : 0 < o0.stop.minimalSearchSpaceStep) (signaled : ℕ → Bool) {fuel : ℕ}
    (hfuel : o0.alpha * (J obj0.w - low) / ((1 - o0.eta - o0.alpha * L / 2) * o0.stop.minimalSearchSpaceStep ^ 2) < fuel) :
    ∃ o obj, o0.optimize signaled fuel obj0 = .ok (some (o, obj)) := by
  rcases loop_or (signaled := signaled) (fuel := fuel) hv hf hn hne (Steps.zero) with h | ⟨o', obj', h⟩
  · exact h
  · exfalso
    rw [Nat.zero_add] at h
    have hlong := steps_long hv hs hn hstep h rfl
    have hsum := heavy_steps (w := weightsAt o0 obj0) (d := stepAt o0 obj0) hh.alpha hh.eta hL
      (fun t p _ => (heavy_run hv hf hh hs hG t p).1) (fun t p _ => (heavy_run hv hf hh hs hG t p).2) rfl h1 hlow fuel
    have h2 : fuel * o0.stop.minimalSearchSpaceStep ^ 2 ≤
        ∑ t ∈ range fuel, lengthSq obj0.problem.dimension (stepAt o0 obj0 (t + 1)) := by
      have := sum_le_sum fun t (ht : t ∈ range fuel) => hlong t (mem_range.1 ht)
      rwa [sum_const, card_range, nsmul_eq_mul] at this
    have hpos : 0 < 1 - o0.eta - o0.alpha * L / 2 := by linarith
    have h3 := h2.trans hsum
    rw [le_div_iff₀ hpos] at h3
    rw [div_lt_iff₀ (by positivity)] at hfuel
    have e0 : weightsAt o0 obj0 0 = obj0.w := rfl
    rw [e0] at h3
    nlinarith

end

end Verif.Opt

namespace Verif.NN

open Finset Opt

noncomputable section

/-! ## Networks without hidden layers -/

/-- **C84 (linear regression)**: training with momentum does not end with a larger error than it began with. -/
theorem momentum_least_squares (D F : ℕ) (mem : Mem) (sc : ℕ → Scratch) (ds : TrainSet) (hN : 0 < ds.samples) {o0 : MBSGD}
    (hv : o0.Valid) (hf : o0.Fair) (hh : o0.Heavy) (hn : o0.iteration < 0) (hs : ds.samples ≤ o0.batchSize)
    (h1 : o0.alpha * meanSquare D ds ≤ 2 * (1 - o0.eta)) (w : Vec) (calls : ℕ) (log : List Event) {n : ℕ} {c : Bool} {o : MBSGD}
    {obj : Obj} (h : Steps o0 ⟨netProblem (buildNet D (linearKinds F) false) mem sc ds, w, calls, log⟩ (n + 1) c o obj) :
    (buildNet D (linearKinds F) false).error ((buildNet D (linearKinds F) false).setParameters mem
      (vectorOf (buildNet D (linearKinds F) false) (o.result obj).1)) ds ≤
    (buildNet D (linearKinds F) false).error ((buildNet D (linearKinds F) false).setParameters mem
      (vectorOf (buildNet D (linearKinds F) false) w)) ds := by
  have hL := (linear_curvature D F mem ds hN).2
  rw [← linear_P D F false] at hL
  rw [linear_error D F mem ds hN, linear_error D F mem ds hN]
  exact momentum_bounded hv hf hh
    (obj0 := ⟨netProblem (buildNet D (linearKinds F) false) mem sc ds, w, calls, log⟩) hs
    (linear_fullGradient D F false mem sc ds hN) hL h1 hn h

/-- **C84 (termination for linear regression)**: with the step size criterion training ends after a number of epochs that is
known in advance from the error at the beginning. -/
theorem momentum_least_squares_ends {D F : ℕ} (hF : 0 < F) (mem : Mem) (sc : ℕ → Scratch) (ds : TrainSet) (hN : 0 < ds.samples)
    {o0 : MBSGD} (hv : o0.Valid) (hf : o0.Fair) (hh : o0.Heavy) (hn : o0.iteration < 0) (hs : ds.samples ≤ o0.batchSize)
    (h1 : o0.alpha * meanSquare D ds < 2 * (1 - o0.eta)) (hstep : 0 < o0.stop.minimalSearchSpaceStep) (signaled : ℕ → Bool)
    (w : Vec) (calls : ℕ) (log : List Event) {fuel : ℕ}
    (hfuel : o0.alpha * (buildNet D (linearKinds F) false).error ((buildNet D (linearKinds F) false).setParameters mem
      (vectorOf (buildNet D (linearKinds F) false) w)) ds /
        ((1 - o0.eta - o0.alpha * meanSquare D ds / 2) * o0.stop.minimalSearchSpaceStep ^ 2) < fuel) :
    ∃ o obj, o0.optimize signaled fuel ⟨netProblem (buildNet D (linearKinds F) false) mem sc ds, w, calls, log⟩ =
      .ok (some (o, obj)) := by
  have hL := (linear_curvature D F mem ds hN).2
  rw [← linear_P D F false] at hL
  rw [linear_error D F mem ds hN] at hfuel
  refine momentum_terminates hv hf hh hn (obj0 := ⟨netProblem (buildNet D (linearKinds F) false) mem sc ds, w, calls, log⟩)
    ⟨by show 0 < (buildNet D (linearKinds F) false).P; rw [linear_P]; positivity, hN⟩ hs
    (linear_fullGradient D F false mem sc ds hN) hL h1 (low := 0) (fun x => ?_) hstep signaled ?_
  · exact div_nonneg (sum_nonneg fun _ _ => sum_nonneg fun _ _ => sq_nonneg _) (by positivity)
  · rw [sub_zero]
    exact hfuel

/-- The default settings of `MBSGD` meet the conditions for the line `0 ↦ 1`, `1 ↦ 3` (learning rate 0.01, momentum 0.5,
batches of 10). -/
example (rng : ℕ → List ℕ → List ℕ) (hr : ∀ k l, (rng k l).Perm l) : ∃ o, MBSGD.new 0.01 0.5 10 false 1 0 0 1 1 1 rng = .ok o ∧
    o.Valid ∧ o.Fair ∧ o.Heavy ∧ o.iteration < 0 ∧ line.samples ≤ o.batchSize ∧
    o.alpha * meanSquare 1 line < 2 * (1 - o.eta) := by
  unfold MBSGD.new
  rw [if_neg (by norm_num), if_neg (by norm_num), if_neg (by norm_num), if_neg (by norm_num), if_neg (by norm_num),
    if_neg (by norm_num), if_neg (by norm_num)]
  refine ⟨_, rfl, ⟨?_, ?_, ?_, ?_, ?_⟩, hr, ⟨rfl, rfl, rfl, rfl, ?_, ?_, ?_, rfl, ?_, ?_⟩, ?_, ?_, ?_⟩
  · show 1 ≤ (10 : ℤ).toNat; decide
  · exact one_pos
  · exact le_rfl
  · exact le_rfl
  · exact le_rfl
  · show (0.5 : ℝ) ≤ 1; norm_num
  · show (0 : ℝ) ≤ 0.5; norm_num
  · show (0.5 : ℝ) < 1; norm_num
  · show (0 : ℝ) ≤ 0.01; norm_num
  · show (0 : ℝ) < 0.01; norm_num
  · show (-1 : ℤ) < 0; norm_num
  · show 2 ≤ (10 : ℤ).toNat; decide
  · rw [line_meanSquare]
    show (0.01 : ℝ) * (3 / 2) < 2 * (1 - 0.5)
    norm_num

end

end Verif.NN
