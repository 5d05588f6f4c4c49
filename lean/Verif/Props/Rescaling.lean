import Verif.Props.SoftmaxShift
import Verif.Props.Convergence

/-!
# C138: rectifier units have no scale, and training keeps them in balance

If all weights of a rectifier (or linear) hidden unit are multiplied by a positive number and the weights from this unit to the next layer are
divided by it, the network is the same function.  Predictions and errors do not change, gradients change by the inverse factors.  For
each such unit the inner product of weights and gradient is the same on both sides of the unit, so that a step of gradient descent changes the
difference of the squared norms of incoming and outgoing weights in second order only.  The training itself does depend on the scale.
-/

namespace Verif.NN

open Finset Verif.Opt

noncomputable section

/-! ## Specification -/

/-- Spec: the activation functions with `f (c * a) = c * f a` for all positive `c`. -/
def Act.Homogeneous : Act → Prop
  | .rectifier => True
  | .linear => True
  | _ => False

/-- Spec: the factor of a weight: `c a` for the weights and the bias of unit `a` of layer `k`, its inverse for the weights from this unit. -/
def scaleAt (k : ℕ) (c : ℕ → ℝ) : Loc → ℝ
  | (l, .w [j, i]) => if l = k then c j else if l = k + 1 then (c i)⁻¹ else 1
  | (l, .b [j]) => if l = k then c j else 1
  | _ => 1

/-- Spec: the weights of a network with rescaled units in layer `k`. -/
def rescaled (k : ℕ) (c : ℕ → ℝ) (mem : Mem) : Mem := fun l s => scaleAt k c (l, s) * mem l s

/-- Spec: the factor of entry `p` of the parameter vector. -/
def Net.scales (net : Net) (k : ℕ) (c : ℕ → ℝ) (p : ℕ) : ℝ := (net.parameters[p]?).elim 1 (scaleAt k c)

/-! ## Layers -/

theorem Act.Homogeneous.apply {act : Act} (h : act.Homogeneous) {c : ℝ} (hc : 0 < c) (a : ℝ) : act.apply (c * a) = c * act.apply a := by
  cases act with
  | rectifier =>
    show max 0 (c * a) = c * max 0 a
    rw [mul_max_of_nonneg _ _ hc.le, mul_zero]
  | linear => rfl
  | _ => exact h.elim

theorem Act.Homogeneous.deriv {act : Act} (h : act.Homogeneous) {c : ℝ} (hc : 0 < c) (z : ℝ) : act.deriv (c * z) = act.deriv z := by
  cases act with
  | rectifier =>
    show (if 0 < c * z then (1 : ℝ) else 0) * 1 = (if 0 < z then 1 else 0) * 1
    simp only [mul_pos_iff_of_pos_left hc]
  | linear => rfl
  | _ => exact h.elim

/-- The derivative times the activation is the output. -/
theorem Act.Homogeneous.euler {act : Act} (h : act.Homogeneous) (a : ℝ) : act.deriv (act.apply a) * a = act.apply a := by
  cases act with
  | rectifier =>
    show (if 0 < max 0 a then (1 : ℝ) else 0) * 1 * a = max 0 a
    by_cases ha : 0 < a
    · rw [max_eq_right ha.le, if_pos ha]; ring
    · rw [max_eq_left (not_lt.1 ha), if_neg (lt_irrefl _)]; ring
  | linear => exact one_mul a
  | _ => exact h.elim

section

variable {k : ℕ} {c : ℕ → ℝ}

theorem rescaled_other (mem : Mem) {l : ℕ} (h1 : l ≠ k) (h2 : l ≠ k + 1) : rescaled k c mem l = mem l := by
  funext s
  have : scaleAt k c (l, s) = 1 := by
    unfold scaleAt
    split
    · next e => cases e; rw [if_neg h1, if_neg h2]
    · next e => cases e; rw [if_neg h1]
    · rfl
  rw [rescaled, this, one_mul]

theorem scaleAt_in (j i : ℕ) : scaleAt k c (k, .w [j, i]) = c j := by simp [scaleAt]

theorem scaleAt_bias (j : ℕ) : scaleAt k c (k, .b [j]) = c j := by simp [scaleAt]

theorem scaleAt_out (j i : ℕ) : scaleAt k c (k + 1, .w [j, i]) = (c i)⁻¹ := by simp [scaleAt]

theorem scaleAt_out_bias (j : ℕ) : scaleAt k c (k + 1, .b [j]) = 1 := by simp [scaleAt]

variable {I J K : ℕ} {bias bias' : Bool} {act act' : Act} {reg reg' : Reg} (ha : act.Homogeneous) (hc : ∀ a, 0 < c a)

include ha hc in
theorem forward_in (mem : Mem) (N : ℕ) (x : Batch) :
    (fullyConnected I J bias act reg).forward (rescaled k c mem k) N x = fun n j =>
      c j * (fullyConnected I J bias act reg).forward (mem k) N x n j := by
  funext n j
  show act.apply (∑ i ∈ range I, x n i * (scaleAt k c (k, .w [j, i]) * mem k (.w [j, i])) +
      if bias then scaleAt k c (k, .b [j]) * mem k (.b [j]) else 0) =
    c j * act.apply (∑ i ∈ range I, x n i * mem k (.w [j, i]) + if bias then mem k (.b [j]) else 0)
  rw [← ha.apply (hc j), mul_add, mul_sum]
  simp only [scaleAt_in, scaleAt_bias]
  congr 2
  · exact sum_congr rfl fun i _ => by ring
  · split
    · rfl
    · exact (mul_zero _).symm

include hc in
theorem forward_out (mem : Mem) (N : ℕ) (x : Batch) :
    (fullyConnected J K bias' act' reg').forward (rescaled k c mem (k + 1)) N (fun n j => c j * x n j) =
      (fullyConnected J K bias' act' reg').forward (mem (k + 1)) N x := by
  funext n j
  show act'.apply (∑ i ∈ range J, c i * x n i * (scaleAt k c (k + 1, .w [j, i]) * mem (k + 1) (.w [j, i])) +
      if bias' then scaleAt k c (k + 1, .b [j]) * mem (k + 1) (.b [j]) else 0) =
    act'.apply (∑ i ∈ range J, x n i * mem (k + 1) (.w [j, i]) + if bias' then mem (k + 1) (.b [j]) else 0)
  simp only [scaleAt_out, scaleAt_out_bias, one_mul]
  congr 2
  refine sum_congr rfl fun i _ => ?_
  have := (hc i).ne'
  field_simp

include ha hc in
theorem derivs_in (hr : NoPenalty reg) (mem : Mem) (N : ℕ) (x e : Batch) :
    (fullyConnected I J bias act reg).derivs (rescaled k c mem k) N x (fun n j => (c j)⁻¹ * e n j) = fun s =>
      (scaleAt k c (k, s))⁻¹ * (fullyConnected I J bias act reg).derivs (mem k) N x e s := by
  have hd : ∀ n j, deltas act ((fullyConnected I J bias act reg).forward (rescaled k c mem k) N x) (fun n j => (c j)⁻¹ * e n j) n j =
      (c j)⁻¹ * deltas act ((fullyConnected I J bias act reg).forward (mem k) N x) e n j := by
    intro n j
    rw [forward_in ha hc]
    simp only [deltas, ha.deriv (hc j)]
    ring
  funext s
  cases s with
  | w idx =>
    match idx with
    | [] => exact (mul_zero _).symm
    | [_] => exact (mul_zero _).symm
    | [j, i] =>
      show ∑ n ∈ range N, deltas act ((fullyConnected I J bias act reg).forward (rescaled k c mem k) N x)
          (fun n j => (c j)⁻¹ * e n j) n j * x n i + reg.deriv _ =
        _ * (∑ n ∈ range N, deltas act ((fullyConnected I J bias act reg).forward (mem k) N x) e n j * x n i + reg.deriv _)
      simp only [hd, hr.deriv, add_zero, scaleAt_in, mul_sum, mul_assoc]
    | _ :: _ :: _ :: _ => exact (mul_zero _).symm
  | b idx =>
    match idx with
    | [] => exact (mul_zero _).symm
    | [j] =>
      show ∑ n ∈ range N, deltas act ((fullyConnected I J bias act reg).forward (rescaled k c mem k) N x)
          (fun n j => (c j)⁻¹ * e n j) n j =
        _ * ∑ n ∈ range N, deltas act ((fullyConnected I J bias act reg).forward (mem k) N x) e n j
      simp only [hd, scaleAt_bias, mul_sum]
    | _ :: _ :: _ => exact (mul_zero _).symm

include ha hc in
theorem back_in (mem : Mem) (N : ℕ) (x e : Batch) (flag : Bool) (stale : Batch) :
    (fullyConnected I J bias act reg).back (rescaled k c mem k) N x (fun n j => (c j)⁻¹ * e n j) flag stale =
      (fullyConnected I J bias act reg).back (mem k) N x e flag stale := by
  cases flag
  · rfl
  · funext n i
    show ∑ j ∈ range J, deltas act ((fullyConnected I J bias act reg).forward (rescaled k c mem k) N x)
        (fun n j => (c j)⁻¹ * e n j) n j * (scaleAt k c (k, .w [j, i]) * mem k (.w [j, i])) =
      ∑ j ∈ range J, deltas act ((fullyConnected I J bias act reg).forward (mem k) N x) e n j * mem k (.w [j, i])
    refine sum_congr rfl fun j _ => ?_
    rw [forward_in ha hc]
    simp only [deltas, ha.deriv (hc j), scaleAt_in]
    have := (hc j).ne'
    field_simp

include hc in
theorem derivs_out (hr : NoPenalty reg') (mem : Mem) (N : ℕ) (x e : Batch) :
    (fullyConnected J K bias' act' reg').derivs (rescaled k c mem (k + 1)) N (fun n j => c j * x n j) e = fun s =>
      (scaleAt k c (k + 1, s))⁻¹ * (fullyConnected J K bias' act' reg').derivs (mem (k + 1)) N x e s := by
  funext s
  cases s with
  | w idx =>
    match idx with
    | [] => exact (mul_zero _).symm
    | [_] => exact (mul_zero _).symm
    | [j, i] =>
      show ∑ n ∈ range N, deltas act' ((fullyConnected J K bias' act' reg').forward (rescaled k c mem (k + 1)) N (fun n j => c j * x n j))
          e n j * (c i * x n i) + reg'.deriv _ =
        _ * (∑ n ∈ range N, deltas act' ((fullyConnected J K bias' act' reg').forward (mem (k + 1)) N x) e n j * x n i + reg'.deriv _)
      simp only [forward_out hc, hr.deriv, add_zero, scaleAt_out, inv_inv, mul_sum]
      exact sum_congr rfl fun n _ => by ring
    | _ :: _ :: _ :: _ => exact (mul_zero _).symm
  | b idx =>
    match idx with
    | [] => exact (mul_zero _).symm
    | [j] =>
      show ∑ n ∈ range N, deltas act' ((fullyConnected J K bias' act' reg').forward (rescaled k c mem (k + 1)) N (fun n j => c j * x n j))
          e n j = _ * ∑ n ∈ range N, deltas act' ((fullyConnected J K bias' act' reg').forward (mem (k + 1)) N x) e n j
      rw [forward_out hc, scaleAt_out_bias, inv_one, one_mul]
    | _ :: _ :: _ => exact (mul_zero _).symm

include hc in
theorem back_out (mem : Mem) (N : ℕ) (x e stale : Batch) :
    (fullyConnected J K bias' act' reg').back (rescaled k c mem (k + 1)) N (fun n j => c j * x n j) e true stale = fun n i =>
      (c i)⁻¹ * (fullyConnected J K bias' act' reg').back (mem (k + 1)) N x e true stale n i := by
  funext n i
  show ∑ j ∈ range K, deltas act' ((fullyConnected J K bias' act' reg').forward (rescaled k c mem (k + 1)) N (fun n j => c j * x n j))
      e n j * (scaleAt k c (k + 1, .w [j, i]) * mem (k + 1) (.w [j, i])) =
    _ * ∑ j ∈ range K, deltas act' ((fullyConnected J K bias' act' reg').forward (mem (k + 1)) N x) e n j * mem (k + 1) (.w [j, i])
  rw [forward_out hc, mul_sum]
  exact sum_congr rfl fun j _ => by rw [scaleAt_out]; ring

omit hc in
theorem penalty_free (h : NoPenalty reg) (w : Weights) : (fullyConnected I J bias act reg).regError w = 0 := by
  show reg.error _ _ = 0
  rw [Reg.error, if_neg (not_lt.2 h.1), if_neg (not_lt.2 h.2), add_zero]

omit hc in
theorem constraint_free (h : reg.maxNorm ≤ 0) (w : Weights) : (fullyConnected I J bias act reg).updated w = w := by
  funext s
  show maxNormUpdate I reg.maxNorm w s = w s
  unfold maxNormUpdate
  split
  · rw [if_neg fun h' => absurd h'.1 (not_lt.2 h)]
  · rfl

/-- The inner product of weights and derivatives is the same on both sides of a unit. -/
theorem euler_unit (hr : NoPenalty reg) (hr' : NoPenalty reg') (ha : act.Homogeneous) (w w' : Weights) (N : ℕ) (x e stale : Batch) {a : ℕ} :
    ∑ i ∈ range I, w (.w [a, i]) * (fullyConnected I J bias act reg).derivs w N x
        ((fullyConnected J K bias' act' reg').back w' N ((fullyConnected I J bias act reg).forward w N x) e true stale) (.w [a, i]) +
      (if bias then w (.b [a]) * (fullyConnected I J bias act reg).derivs w N x
        ((fullyConnected J K bias' act' reg').back w' N ((fullyConnected I J bias act reg).forward w N x) e true stale) (.b [a]) else 0) =
    ∑ j ∈ range K, w' (.w [j, a]) * (fullyConnected J K bias' act' reg').derivs w' N
      ((fullyConnected I J bias act reg).forward w N x) e (.w [j, a]) := by
  set y := (fullyConnected I J bias act reg).forward w N x with hy
  set s := (fullyConnected J K bias' act' reg').back w' N y e true stale with hs
  set z : ℕ → ℝ := fun n => ∑ i ∈ range I, x n i * w (.w [a, i]) + (if bias then w (.b [a]) else 0) with hz
  have hyz : ∀ n, y n a = act.apply (z n) := fun n => rfl
  have h1 : ∀ i, (fullyConnected I J bias act reg).derivs w N x s (.w [a, i]) =
      ∑ n ∈ range N, act.deriv (y n a) * s n a * x n i := fun i => by
    show ∑ n ∈ range N, act.deriv (y n a) * s n a * x n i + reg.deriv _ = _
    rw [hr.deriv, add_zero]
  have h2 : (fullyConnected I J bias act reg).derivs w N x s (.b [a]) = ∑ n ∈ range N, act.deriv (y n a) * s n a := rfl
  have h3 : ∀ j, (fullyConnected J K bias' act' reg').derivs w' N y e (.w [j, a]) =
      ∑ n ∈ range N, deltas act' ((fullyConnected J K bias' act' reg').forward w' N y) e n j * y n a := fun j => by
    show ∑ n ∈ range N, deltas act' ((fullyConnected J K bias' act' reg').forward w' N y) e n j * y n a + reg'.deriv _ = _
    rw [hr'.deriv, add_zero]
  have h4 : ∀ n, s n a = ∑ j ∈ range K, deltas act' ((fullyConnected J K bias' act' reg').forward w' N y) e n j * w' (.w [j, a]) :=
    fun n => rfl
  simp only [h1, h2, h3]
  have hl : ∑ i ∈ range I, w (.w [a, i]) * ∑ n ∈ range N, act.deriv (y n a) * s n a * x n i +
      (if bias then w (.b [a]) * ∑ n ∈ range N, act.deriv (y n a) * s n a else 0) =
      ∑ n ∈ range N, s n a * (act.deriv (y n a) * z n) := by
    have e1 : ∑ i ∈ range I, w (.w [a, i]) * ∑ n ∈ range N, act.deriv (y n a) * s n a * x n i =
        ∑ n ∈ range N, s n a * (act.deriv (y n a) * ∑ i ∈ range I, x n i * w (.w [a, i])) := by
      simp only [mul_sum]
      rw [sum_comm]
      exact sum_congr rfl fun n _ => sum_congr rfl fun i _ => by ring
    have e2 : (if bias then w (.b [a]) * ∑ n ∈ range N, act.deriv (y n a) * s n a else 0) =
        ∑ n ∈ range N, s n a * (act.deriv (y n a) * if bias then w (.b [a]) else 0) := by
      split
      · rw [mul_sum]
        exact sum_congr rfl fun n _ => by ring
      · simp
    rw [e1, e2, ← sum_add_distrib]
    exact sum_congr rfl fun n _ => by rw [hz]; ring
  rw [hl]
  have : ∀ n, s n a * (act.deriv (y n a) * z n) =
      ∑ j ∈ range K, w' (.w [j, a]) * (deltas act' ((fullyConnected J K bias' act' reg').forward w' N y) e n j * y n a) := by
    intro n
    rw [hyz, ha.euler, ← hyz, h4, sum_mul]
    exact sum_congr rfl fun j _ => by ring
  simp only [this, mul_sum]
  exact sum_comm

end

/-! ## Networks -/

/-- The layers before the rescaled one -/
theorem backFrom_before_rescaled {k : ℕ} {c : ℕ → ℝ} {mem : Mem} {N : ℕ} (stale : ℕ → Batch) {B : List Layer} {e : Batch} {d : Mem}
    (hB : ∀ x, (backFrom (rescaled k c mem) N stale k B x e d).1 = (backFrom mem N stale k B x e d).1 ∧
      ∀ l s, k ≤ l → l < k + B.length → (backFrom (rescaled k c mem) N stale k B x e d).2 l s =
        (scaleAt k c (l, s))⁻¹ * (backFrom mem N stale k B x e d).2 l s) :
    ∀ (A : List Layer) (m : ℕ) (x : Batch), m + A.length = k →
      (backFrom (rescaled k c mem) N stale m (A ++ B) x e d).1 = (backFrom mem N stale m (A ++ B) x e d).1 ∧
      ∀ l s, m ≤ l → l < k + B.length → (backFrom (rescaled k c mem) N stale m (A ++ B) x e d).2 l s =
        (scaleAt k c (l, s))⁻¹ * (backFrom mem N stale m (A ++ B) x e d).2 l s
  | [], m, x, hm => by
    have : m = k := by simpa using hm
    subst this
    exact hB x
  | a :: A, m, x, hm => by
    rw [List.length_cons] at hm
    have h1 : m ≠ k := by omega
    have h2 : m ≠ k + 1 := by omega
    have ih := backFrom_before_rescaled stale hB A (m + 1) (a.forward (mem m) N x) (by omega)
    rw [List.cons_append, backFrom_cons, backFrom_cons, rescaled_other mem h1 h2]
    refine ⟨?_, fun l s hl hlt => ?_⟩
    · simp only [backStep, rescaled_other mem h1 h2, ih.1]
    · simp only [backStep, rescaled_other mem h1 h2, ih.1]
      by_cases hlm : l = m
      · subst hlm
        rw [Function.update_self, Function.update_self]
        have e1 : rescaled k c mem l = mem l := rescaled_other mem h1 h2
        have : scaleAt k c (l, s) = 1 := by
          unfold scaleAt
          split
          · next e => cases e; rw [if_neg h1, if_neg h2]
          · next e => cases e; rw [if_neg h1]
          · rfl
        rw [this, inv_one, one_mul]
      · rw [Function.update_of_ne hlm, Function.update_of_ne hlm]
        exact ih.2 l s (by omega) hlt

section

variable {net : Net} {A B : List Layer} {I J K : ℕ} {bias bias' : Bool} {act act' : Act} {reg reg' : Reg} {c : ℕ → ℝ}
  (hnet : net.layers = A ++ fullyConnected I J bias act reg :: fullyConnected J K bias' act' reg' :: B)
  (ha : act.Homogeneous) (hc : ∀ a, 0 < c a)

include hnet ha hc

theorem activations_rescaled (mem : Mem) (N : ℕ) (X : Batch) :
    net.activations (rescaled A.length c mem) N X = net.activations mem N X := by
  rw [Net.activations, Net.activations, hnet, forwardFrom_append, forwardFrom_append]
  rw [Nat.zero_add, forwardFrom_agree (mem := rescaled A.length c mem) (mem' := mem) A 0 X
    fun l _ h => rescaled_other mem (by omega) (by omega)]
  rw [forwardFrom, forwardFrom, forwardFrom, forwardFrom, forward_in ha hc, forward_out hc]
  exact forwardFrom_agree B _ _ fun l h _ => rescaled_other mem (by omega) (by omega)

theorem output_rescaled (mem : Mem) (N : ℕ) (X : Batch) :
    net.output (rescaled A.length c mem) N X = net.output mem N X := by
  rw [Net.output, Net.output, activations_rescaled hnet ha hc]

omit ha hc in
theorem regFrom_rescaled (hr : NoPenalty reg) (hr' : NoPenalty reg') (mem : Mem) :
    regFrom (rescaled A.length c mem) 0 net.layers = regFrom mem 0 net.layers := by
  rw [hnet, regFrom_append, regFrom_append, Nat.zero_add, regFrom_agree (mem := rescaled A.length c mem) (mem' := mem) A 0
    fun l _ h => rescaled_other mem (by omega) (by omega)]
  rw [regFrom, regFrom, regFrom, regFrom, penalty_free hr, penalty_free hr, penalty_free hr', penalty_free hr',
    regFrom_agree (mem := rescaled A.length c mem) (mem' := mem) B _
      fun l h _ => rescaled_other mem (by omega) (by omega)]

theorem backFrom_rescaled (hr : NoPenalty reg) (hr' : NoPenalty reg') (hA : 0 < A.length) (mem : Mem) (N : ℕ) (stale : ℕ → Batch)
    (X e : Batch) (d : Mem) (l : ℕ) (s : Slot) (hl : l < net.layers.length) :
    (backFrom (rescaled A.length c mem) N stale 0 net.layers X e d).2 l s =
      (scaleAt A.length c (l, s))⁻¹ * (backFrom mem N stale 0 net.layers X e d).2 l s := by
  rw [hnet] at hl ⊢
  refine (backFrom_before_rescaled stale (fun x => ?_) A 0 X (Nat.zero_add _)).2 l s (Nat.zero_le _) (by simpa using hl)
  rw [backFrom_cons, backFrom_cons, backFrom_cons, backFrom_cons, forward_in ha hc, forward_out hc,
    backFrom_agree (mem := rescaled A.length c mem) (mem' := mem) stale e d B _ _
      fun l h _ => rescaled_other mem (by omega) (by omega)]
  have hr2 : ∀ l s, A.length + 1 + 1 ≤ l → scaleAt A.length c (l, s) = 1 := by
    intro l s h
    unfold scaleAt
    split
    · next e => cases e; rw [if_neg (by omega), if_neg (by omega)]
    · next e => cases e; rw [if_neg (by omega)]
    · rfl
  generalize backFrom mem N stale (A.length + 1 + 1) B _ e d = r
  have hf1 : decide (A.length + 1 + 1 > 2) = true := by simp; omega
  simp only [backStep, hf1, derivs_out hc hr', back_out hc, derivs_in ha hc hr, back_in ha hc]
  refine ⟨trivial, fun l s hl _ => ?_⟩
  by_cases h1 : l = A.length
  · subst h1
    rw [Function.update_self, Function.update_self]
  · by_cases h2 : l = A.length + 1
    · subst h2
      rw [Function.update_of_ne (by omega), Function.update_self, Function.update_of_ne (by omega), Function.update_self]
    · rw [Function.update_of_ne h1, Function.update_of_ne h2, Function.update_of_ne h1, Function.update_of_ne h2,
        hr2 l s (by omega), inv_one, one_mul]

omit ha hc in
theorem updatedFrom_rescaled (hm : reg.maxNorm ≤ 0) (hm' : reg'.maxNorm ≤ 0) (mem : Mem) :
    updatedFrom 0 net.layers (rescaled A.length c mem) = rescaled A.length c (updatedFrom 0 net.layers mem) := by
  have key : ∀ (m : Mem) (l : ℕ), updatedFrom 0 net.layers m l =
      if h : l < net.layers.length then net.layers[l].updated (m l) else m l := by
    intro m l
    split
    · next h => simpa using updatedFrom_getElem (k := 0) (mem := m) h
    · next h => exact updatedFrom_ge (by omega)
  have hk : net.layers[A.length]? = some (fullyConnected I J bias act reg) := by rw [hnet]; simp
  have hk1 : net.layers[A.length + 1]? = some (fullyConnected J K bias' act' reg') := by rw [hnet]; simp
  obtain ⟨h, e⟩ := List.getElem?_eq_some_iff.1 hk
  obtain ⟨h', e'⟩ := List.getElem?_eq_some_iff.1 hk1
  have k1 : ∀ m : Mem, updatedFrom 0 net.layers m A.length = m A.length := fun m => by
    rw [key, dif_pos h, e, constraint_free hm]
  have k2 : ∀ m : Mem, updatedFrom 0 net.layers m (A.length + 1) = m (A.length + 1) := fun m => by
    rw [key, dif_pos h', e', constraint_free hm']
  funext l
  by_cases h1 : l = A.length
  · subst h1
    rw [k1]
    funext s
    rw [rescaled, rescaled, k1]
  · by_cases h2 : l = A.length + 1
    · subst h2
      rw [k2]
      funext s
      rw [rescaled, rescaled, k2]
    · rw [rescaled_other _ h1 h2, key, key, rescaled_other _ h1 h2]

omit ha hc in
theorem setParameters_rescaled_layers (hm : reg.maxNorm ≤ 0) (hm' : reg'.maxNorm ≤ 0) (hnd : net.parameters.Nodup) (mem : Mem) (w : ℕ → ℝ) :
    net.setParameters (rescaled A.length c mem) ((List.range net.P).map fun p => net.scales A.length c p * w p) =
      rescaled A.length c (net.setParameters mem ((List.range net.P).map w)) := by
  rw [Net.setParameters, Net.setParameters, ← updatedFrom_rescaled hnet hm hm']
  congr 1
  funext l s
  by_cases hp : (l, s) ∈ net.parameters
  · obtain ⟨p, hlt, e⟩ := List.getElem_of_mem hp
    have h1 := writeAll_getElem (θ := (List.range net.P).map fun p => net.scales A.length c p * w p) (mem := rescaled A.length c mem) hnd hlt
      (by simpa [Net.P] using hlt)
    have h2 := writeAll_getElem (θ := (List.range net.P).map w) (mem := mem) hnd hlt (by simpa [Net.P] using hlt)
    have hs : net.scales A.length c p = scaleAt A.length c (l, s) := by
      rw [Net.scales, List.getElem?_eq_getElem hlt, e]
      rfl
    rw [e] at h1 h2
    rw [rescaled, h2]
    refine h1.trans ?_
    simp [hs]
  · have h1 := writeAll_of_notMem (θ := (List.range net.P).map fun p => net.scales A.length c p * w p) (mem := rescaled A.length c mem) hp
    have h2 := writeAll_of_notMem (θ := (List.range net.P).map w) (mem := mem) hp
    rw [rescaled, h2]
    exact h1

omit hc in
/-- The inner products of weights and gradient on both sides of a unit -/
theorem euler_layers (hr : NoPenalty reg) (hr' : NoPenalty reg') (hA : 0 < A.length) (mem : Mem) (N : ℕ) (stale : ℕ → Batch)
    (X e : Batch) (d : Mem) (a : ℕ) :
    ∑ i ∈ range I, mem A.length (.w [a, i]) * (backFrom mem N stale 0 net.layers X e d).2 A.length (.w [a, i]) +
      (if bias then mem A.length (.b [a]) * (backFrom mem N stale 0 net.layers X e d).2 A.length (.b [a]) else 0) =
    ∑ j ∈ range K, mem (A.length + 1) (.w [j, a]) * (backFrom mem N stale 0 net.layers X e d).2 (A.length + 1) (.w [j, a]) := by
  have key : ∃ e2, (backFrom mem N stale 0 net.layers X e d).2 (A.length + 1) =
        (fullyConnected J K bias' act' reg').derivs (mem (A.length + 1)) N
          ((fullyConnected I J bias act reg).forward (mem A.length) N (forwardFrom mem N 0 A X)) e2 ∧
      (backFrom mem N stale 0 net.layers X e d).2 A.length =
        (fullyConnected I J bias act reg).derivs (mem A.length) N (forwardFrom mem N 0 A X)
          ((fullyConnected J K bias' act' reg').back (mem (A.length + 1)) N
            ((fullyConnected I J bias act reg).forward (mem A.length) N (forwardFrom mem N 0 A X)) e2 true (stale (A.length + 1))) := by
    have hlt : ∀ t ∈ traceFrom mem N 0 A X, t.1 < A.length := fun t ht => by
      have := traceFrom_lt mem N A 0 X t ht
      omega
    have hf1 : decide (A.length + 1 + 1 > 2) = true := by simp; omega
    rw [backFrom, hnet, traceFrom_append, List.foldr_append, Nat.zero_add]
    refine ⟨(backFrom mem N stale (A.length + 1 + 1) B ((fullyConnected J K bias' act' reg').forward (mem (A.length + 1)) N
      ((fullyConnected I J bias act reg).forward (mem A.length) N (forwardFrom mem N 0 A X))) e d).1, ?_, ?_⟩
    · rw [foldr_other _ _ _ _ _ _ fun t ht => by have := hlt t ht; omega]
      show Function.update (Function.update _ (A.length + 1) _) A.length _ (A.length + 1) = _
      rw [Function.update_of_ne (by omega), Function.update_self]
      rfl
    · rw [foldr_other _ _ _ _ _ _ fun t ht => by have := hlt t ht; omega]
      show Function.update (Function.update _ (A.length + 1) _) A.length _ A.length = _
      rw [Function.update_self]
      simp only [backStep, List.foldr_cons, traceFrom, hf1]
      rfl
  obtain ⟨e2, h2, h1⟩ := key
  rw [h1, h2]
  exact euler_unit hr hr' ha _ _ N _ e2 _

end

theorem locsFrom_lt : ∀ (ls : List Layer) (k : ℕ), ∀ q ∈ locsFrom k ls, q.1 < k + ls.length
  | [], _, _, h => by cases h
  | l :: ls, k, q, h => by
    rw [locsFrom, List.mem_append, List.mem_map] at h
    rw [List.length_cons]
    rcases h with ⟨s, _, rfl⟩ | h
    · show k < _
      omega
    · have := locsFrom_lt ls (k + 1) q h
      omega

/-! ## Architectures -/

/-- Spec: the positions of the parameters of unit `a` of layer `k`, with `I` inputs and `K` units in the next layer. -/
structure UnitPositions (net : Net) (k I K : ℕ) (bias : Bool) (a : ℕ) (pin : ℕ → ℕ) (pb : ℕ) (pout : ℕ → ℕ) : Prop where
  incoming : ∀ i < I, net.parameters[pin i]? = some (k, .w [a, i])
  bias : bias = true → net.parameters[pb]? = some (k, .b [a])
  outgoing : ∀ j < K, net.parameters[pout j]? = some (k + 1, .w [j, a])

section

variable {D J K : ℕ} {pre post : List Kind} {bias bias' ce : Bool} {act act' : Act} {reg reg' : Reg} {net : Net}
  (hn : net = buildNet D (withHidden pre (.fullyConnected J bias act reg) K bias' act' reg' post) ce)

include hn

theorem layers_unit : net.layers = (inputLayer D :: layersFrom D pre) ++
      fullyConnected (buildNet D pre false).outputs J bias act reg :: fullyConnected J K bias' act' reg' :: layersFrom K post ∧
    (inputLayer D :: layersFrom D pre).length = pre.length + 1 := by
  refine ⟨?_, by rw [List.length_cons, layersFrom_length]⟩
  rw [hn, outputs_buildNet]
  show inputLayer D :: layersFrom D (pre ++ .fullyConnected J bias act reg :: .fullyConnected K bias' act' reg' :: post) = _
  rw [layersFrom_append, layersFrom, layersFrom]
  rfl

variable (ha : act.Homogeneous)

include ha

/-- **C138 (predictions and errors)**: rescaling the units of a rectifier (or linear) layer changes neither the outputs for any batch, nor,
without penalties on the two layers, the value of `errorGradient`, `error(n)` and `error()`. -/
theorem predict_rescaled {c : ℕ → ℝ} (hc : ∀ a, 0 < c a) (mem : Mem) :
    (∀ N X, net.predictAll (rescaled (pre.length + 1) c mem) N X = net.predictAll mem N X) ∧
    (NoPenalty reg → NoPenalty reg' →
      (∀ N X T, net.value (rescaled (pre.length + 1) c mem) N X T = net.value mem N X T) ∧
      (∀ ds n, net.errorAt (rescaled (pre.length + 1) c mem) ds n = net.errorAt mem ds n) ∧
      ∀ ds, net.error (rescaled (pre.length + 1) c mem) ds = net.error mem ds) := by
  obtain ⟨hnet, hA⟩ := layers_unit hn
  rw [← hA]
  refine ⟨fun N X => output_rescaled hnet ha hc mem N X, fun hr hr' => ?_⟩
  have hat : ∀ ds n, net.errorAt (rescaled (inputLayer D :: layersFrom D pre).length c mem) ds n = net.errorAt mem ds n := fun ds n => by
    rw [Net.errorAt, Net.errorAt, output_rescaled hnet ha hc, regFrom_rescaled hnet hr hr']
  refine ⟨fun N X T => ?_, hat, fun ds => ?_⟩
  · rw [Net.value, Net.value, output_rescaled hnet ha hc, regFrom_rescaled hnet hr hr']
  · rw [Net.error, Net.error]
    simp only [hat]

omit ha in
theorem setParameters_rescaled (hm : reg.maxNorm ≤ 0) (hm' : reg'.maxNorm ≤ 0) (c : ℕ → ℝ) (mem : Mem) (w : ℕ → ℝ) :
    net.setParameters (rescaled (pre.length + 1) c mem) ((List.range net.P).map fun p => net.scales (pre.length + 1) c p * w p) =
      rescaled (pre.length + 1) c (net.setParameters mem ((List.range net.P).map w)) := by
  obtain ⟨hnet, hA⟩ := layers_unit hn
  rw [← hA]
  exact setParameters_rescaled_layers hnet hm hm' (by rw [hn]; exact parameters_nodup D _ ce) mem w

variable (hf : FitsFrom D (withHidden pre (.fullyConnected J bias act reg) K bias' act' reg' post))
  (hv : ∀ k ∈ withHidden pre (.fullyConnected J bias act reg) K bias' act' reg' post, k.Visible)

include hf hv

/-- **C138 (parameter vector)**: the rescaled parameter vector gives the same outputs. -/
theorem predictions_rescaled (hm : reg.maxNorm ≤ 0) (hm' : reg'.maxNorm ≤ 0) {c : ℕ → ℝ} (hc : ∀ a, 0 < c a) (mem : Mem) (w : ℕ → ℝ)
    (N : ℕ) (X : Batch) (n : ℕ) {j : ℕ} (hj : j < net.outputs) :
    net.predictAll (net.setParameters mem ((List.range net.P).map fun p => net.scales (pre.length + 1) c p * w p)) N X n j =
      net.predictAll (net.setParameters mem ((List.range net.P).map w)) N X n j := by
  have hdet := parameters_determine ce hf hv mem (rescaled (pre.length + 1) c mem)
    (θ := (List.range net.P).map fun p => net.scales (pre.length + 1) c p * w p) (by simp [hn]) N (X := X) (X' := X) (n := n)
    (fun _ _ => rfl) (j := j) (by rw [← hn]; exact hj)
  rw [← hn] at hdet
  rw [hdet, setParameters_rescaled hn hm hm', (predict_rescaled hn ha hc _).1]

/-- **C138 (gradient)**: the gradient at the rescaled parameters is the gradient with the inverse factors. -/
theorem errorGradient_rescaled (hr : FreeWeights reg) (hr' : FreeWeights reg') {c : ℕ → ℝ} (hc : ∀ a, 0 < c a) (mem : Mem) (sc : Scratch)
    (ds : TrainSet) (idx : List ℕ) (w : ℕ → ℝ) :
    (net.errorGradient (net.setParameters mem ((List.range net.P).map fun p => net.scales (pre.length + 1) c p * w p)) sc ds idx).1 =
      (net.errorGradient (net.setParameters mem ((List.range net.P).map w)) sc ds idx).1 ∧
    ∀ p, (net.errorGradient (net.setParameters mem ((List.range net.P).map fun p => net.scales (pre.length + 1) c p * w p)) sc ds idx).2.getD p 0 =
      (net.scales (pre.length + 1) c p)⁻¹ * (net.errorGradient (net.setParameters mem ((List.range net.P).map w)) sc ds idx).2.getD p 0 := by
  have hdet := errorGradient_determined ce hf hv mem (rescaled (pre.length + 1) c mem)
    (θ := (List.range net.P).map fun p => net.scales (pre.length + 1) c p * w p) (by simp [hn]) sc sc (ds := ds) (ds' := ds) (idx := idx)
    fun _ _ => ⟨fun _ _ => rfl, fun _ _ => rfl⟩
  have hder : net.derivatives = net.parameters := by
    rw [hn]
    exact (parameters_one_to_one D _ ce).2.2.2.1
  have hlay : ∀ q ∈ net.parameters, q.1 < net.layers.length := fun q hq => by simpa using locsFrom_lt net.layers 0 q hq
  rw [← hn] at hdet
  rw [hdet, setParameters_rescaled hn hr.2 hr'.2]
  generalize net.setParameters mem ((List.range net.P).map w) = m
  refine ⟨((predict_rescaled hn ha hc m).2 hr.1 hr'.1).1 _ _ _, fun p => ?_⟩
  show (net.grad _ _ _ _ _).getD p 0 = _ * (net.grad _ _ _ _ _).getD p 0
  obtain ⟨hnet, hA⟩ := layers_unit hn
  rw [← hA, Net.grad, Net.grad, output_rescaled hnet ha hc, hder]
  simp only [List.getD_eq_getElem?_getD, List.getElem?_map, Net.scales]
  cases hl : net.parameters[p]? with
  | some l =>
    have hlt := hlay l (List.mem_of_getElem? hl)
    show _ / _ = _ * (_ / _)
    rw [backFrom_rescaled hnet ha hc hr.1 hr'.1 (by omega) m _ _ _ _ _ _ _ hlt]
    exact mul_div_assoc _ _ _
  | none => exact (mul_zero _).symm

omit ha hf hv in
/-- The two layers hold the entries of the parameter vector. -/
theorem setParameters_entry (hm : reg.maxNorm ≤ 0) (hm' : reg'.maxNorm ≤ 0) (mem : Mem) (w : ℕ → ℝ) {p l : ℕ} {s : Slot}
    (hps : net.parameters[p]? = some (l, s)) (hl : l = pre.length + 1 ∨ l = pre.length + 1 + 1) :
    net.setParameters mem ((List.range net.P).map w) l s = w p := by
  have hnd : net.parameters.Nodup := by rw [hn]; exact parameters_nodup D _ ce
  obtain ⟨hnet, hA⟩ := layers_unit hn
  have hk : net.layers[pre.length + 1]? = some (fullyConnected (buildNet D pre false).outputs J bias act reg) := by
    rw [hnet, ← hA]; simp
  have hk1 : net.layers[pre.length + 1 + 1]? = some (fullyConnected J K bias' act' reg') := by rw [hnet, ← hA]; simp
  obtain ⟨hlt, e⟩ := List.getElem?_eq_some_iff.1 hps
  have h2 := writeAll_getElem (θ := (List.range net.P).map w) (mem := mem) hnd hlt (by simpa [Net.P] using hlt)
  rw [e] at h2
  have hupd : net.setParameters mem ((List.range net.P).map w) l = (mem.writeAll net.parameters ((List.range net.P).map w)) l := by
    rw [Net.setParameters]
    rcases hl with rfl | rfl
    · obtain ⟨h, e⟩ := List.getElem?_eq_some_iff.1 hk
      have := updatedFrom_getElem (k := 0) (mem := mem.writeAll net.parameters ((List.range net.P).map w)) h
      rw [Nat.zero_add, e, constraint_free hm] at this
      exact this
    · obtain ⟨h, e⟩ := List.getElem?_eq_some_iff.1 hk1
      have := updatedFrom_getElem (k := 0) (mem := mem.writeAll net.parameters ((List.range net.P).map w)) h
      rw [Nat.zero_add, e, constraint_free hm'] at this
      exact this
  rw [hupd]
  refine h2.trans ?_
  simp

omit hf hv in
/-- **C138 (balance)**: for every unit of a rectifier (or linear) layer, the inner product of its weights (with the bias) and their gradient is the
inner product of the weights from this unit to the next layer and their gradient, for all examples. -/
theorem gradient_balanced (hr : FreeWeights reg) (hr' : FreeWeights reg') (mem : Mem) (sc : Scratch) (ds : TrainSet) (idx : List ℕ)
    (w : ℕ → ℝ) {a pb : ℕ} {pin pout : ℕ → ℕ}
    (hp : UnitPositions net (pre.length + 1) (buildNet D pre false).outputs K bias a pin pb pout) :
    ∑ i ∈ range (buildNet D pre false).outputs,
        w (pin i) * (net.errorGradient (net.setParameters mem ((List.range net.P).map w)) sc ds idx).2.getD (pin i) 0 +
      (if bias then w pb * (net.errorGradient (net.setParameters mem ((List.range net.P).map w)) sc ds idx).2.getD pb 0 else 0) =
    ∑ j ∈ range K, w (pout j) * (net.errorGradient (net.setParameters mem ((List.range net.P).map w)) sc ds idx).2.getD (pout j) 0 := by
  have hder : net.derivatives = net.parameters := by
    rw [hn]
    exact (parameters_one_to_one D _ ce).2.2.2.1
  have hnd : net.parameters.Nodup := by rw [hn]; exact parameters_nodup D _ ce
  obtain ⟨hnet, hA⟩ := layers_unit hn
  set m := net.setParameters mem ((List.range net.P).map w) with hmdef
  have hval : ∀ (p l : ℕ) (s : Slot), net.parameters[p]? = some (l, s) → l = pre.length + 1 ∨ l = pre.length + 1 + 1 → m l s = w p :=
    fun p l s => setParameters_entry hn hr.2 hr'.2 mem w
  have key := euler_layers hnet ha hr.1 hr'.1 (by omega) m idx.length sc.stale (selectRows ds.inst idx)
    (fun n j => net.output m idx.length (selectRows ds.inst idx) n j - selectRows ds.tgt idx n j) sc.derivs a
  rw [hA] at key
  have hg : ∀ (p l : ℕ) (s : Slot), net.parameters[p]? = some (l, s) → (net.errorGradient m sc ds idx).2.getD p 0 =
      (backFrom m idx.length sc.stale 0 net.layers (selectRows ds.inst idx)
        (fun n j => net.output m idx.length (selectRows ds.inst idx) n j - selectRows ds.tgt idx n j) sc.derivs).2 l s / idx.length :=
    fun p l s h => grad_entry net m sc ds idx (hder ▸ h)
  generalize (backFrom m idx.length sc.stale 0 net.layers (selectRows ds.inst idx)
        (fun n j => net.output m idx.length (selectRows ds.inst idx) n j - selectRows ds.tgt idx n j) sc.derivs).2 = G at key hg
  have e1 : ∀ i ∈ range (buildNet D pre false).outputs, w (pin i) * (net.errorGradient m sc ds idx).2.getD (pin i) 0 =
      m (pre.length + 1) (.w [a, i]) * G (pre.length + 1) (.w [a, i]) / idx.length := fun i hi => by
    have h := hp.incoming i (mem_range.1 hi)
    rw [hg _ _ _ h, hval _ _ _ h (Or.inl rfl), mul_div_assoc]
  have e2 : (if bias then w pb * (net.errorGradient m sc ds idx).2.getD pb 0 else 0) =
      (if bias then m (pre.length + 1) (.b [a]) * G (pre.length + 1) (.b [a]) else 0) / idx.length := by
    cases hb : bias
    · simp
    · have h := hp.bias hb
      rw [if_pos rfl, if_pos rfl, hg _ _ _ h, hval _ _ _ h (Or.inl rfl), mul_div_assoc]
  have e3 : ∀ j ∈ range K, w (pout j) * (net.errorGradient m sc ds idx).2.getD (pout j) 0 =
      m (pre.length + 1 + 1) (.w [j, a]) * G (pre.length + 1 + 1) (.w [j, a]) / idx.length := fun j hj => by
    have h := hp.outgoing j (mem_range.1 hj)
    rw [hg _ _ _ h, hval _ _ _ h (Or.inr rfl), mul_div_assoc]
  rw [sum_congr rfl e1, e2, sum_congr rfl e3, ← sum_div, ← sum_div, ← add_div, key]

omit ha hf hv in
/-- These positions exist. -/
theorem unit_positions_exist {a : ℕ} (hJ : a < J) : ∃ pin pb pout,
    UnitPositions net (pre.length + 1) (buildNet D pre false).outputs K bias a pin pb pout := by
  obtain ⟨hnet, hA⟩ := layers_unit hn
  have hm : ∀ (A B : List Layer) (l : Layer) (k : ℕ), ∀ s ∈ l.pointers, (k + A.length, s) ∈ locsFrom k (A ++ l :: B) := by
    intro A
    induction A with
    | nil => intro B l k s hs; simp [locsFrom, hs]
    | cons b A ih =>
      intro B l k s hs
      rw [List.cons_append, locsFrom, List.mem_append]
      right
      have := ih B l (k + 1) s hs
      rwa [show k + (b :: A).length = k + 1 + A.length by simp; omega]
  have h1 : ∀ s ∈ (fullyConnected (buildNet D pre false).outputs J bias act reg).pointers,
      ∃ p : ℕ, net.parameters[p]? = some (pre.length + 1, s) := by
    intro s hs
    have := hm (inputLayer D :: layersFrom D pre) (fullyConnected J K bias' act' reg' :: layersFrom K post) _ 0 s hs
    rw [← hnet, hA, Nat.zero_add] at this
    exact List.mem_iff_getElem?.1 this
  have h2 : ∀ s ∈ (fullyConnected J K bias' act' reg').pointers, ∃ p : ℕ, net.parameters[p]? = some (pre.length + 1 + 1, s) := by
    intro s hs
    have := hm ((inputLayer D :: layersFrom D pre) ++ [fullyConnected (buildNet D pre false).outputs J bias act reg])
      (layersFrom K post) _ 0 s hs
    rw [List.append_assoc, List.singleton_append, ← hnet, List.length_append, hA, Nat.zero_add] at this
    exact List.mem_iff_getElem?.1 this
  have e1 : ∀ i, ∃ p : ℕ, i < (buildNet D pre false).outputs → net.parameters[p]? = some (pre.length + 1, .w [a, i]) := fun i => by
    by_cases h : i < (buildNet D pre false).outputs
    · obtain ⟨p, hp⟩ := h1 (.w [a, i]) (((Kind.fullyConnected J bias act reg).mem_pointers (buildNet D pre false).outputs _).2
        (Or.inl ⟨a, hJ, i, h, rfl⟩))
      exact ⟨p, fun _ => hp⟩
    · exact ⟨0, fun h' => absurd h' h⟩
  have e2 : ∃ p : ℕ, bias = true → net.parameters[p]? = some (pre.length + 1, .b [a]) := by
    by_cases h : bias = true
    · obtain ⟨p, hp⟩ := h1 (.b [a]) (((Kind.fullyConnected J bias act reg).mem_pointers (buildNet D pre false).outputs _).2
        (Or.inr ⟨h, a, hJ, rfl⟩))
      exact ⟨p, fun _ => hp⟩
    · exact ⟨0, fun h' => absurd h' h⟩
  have e3 : ∀ j, ∃ p : ℕ, j < K → net.parameters[p]? = some (pre.length + 1 + 1, .w [j, a]) := fun j => by
    by_cases h : j < K
    · obtain ⟨p, hp⟩ := h2 (.w [j, a]) (((Kind.fullyConnected K bias' act' reg').mem_pointers J _).2 (Or.inl ⟨j, h, a, hJ, rfl⟩))
      exact ⟨p, fun _ => hp⟩
    · exact ⟨0, fun h' => absurd h' h⟩
  choose pin hpin using e1
  obtain ⟨pb, hpb⟩ := e2
  choose pout hpout using e3
  exact ⟨pin, pb, pout, hpin, hpb, hpout⟩

end

end

end Verif.NN

namespace Verif.Opt

open Finset NN

noncomputable section

/-! ## Gradient descent -/

/-- Spec: the squared norm of the incoming weights minus the squared norm of the outgoing weights of a unit. -/
def excess (I K : ℕ) (bias : Bool) (pin : ℕ → ℕ) (pb : ℕ) (pout : ℕ → ℕ) (w : Vec) : ℝ :=
  ∑ i ∈ range I, w (pin i) ^ 2 + (if bias then w pb ^ 2 else 0) - ∑ j ∈ range K, w (pout j) ^ 2

section

variable {I K : ℕ} {bias : Bool} {pin pout : ℕ → ℕ} {pb : ℕ}

theorem excess_step (w g : Vec) (α : ℝ)
    (h : ∑ i ∈ range I, w (pin i) * g (pin i) + (if bias then w pb * g pb else 0) = ∑ j ∈ range K, w (pout j) * g (pout j)) :
    excess I K bias pin pb pout (fun p => w p - α * g p) = excess I K bias pin pb pout w + α ^ 2 * excess I K bias pin pb pout g := by
  have key : ∀ (n : ℕ) (q : ℕ → ℕ), ∑ i ∈ range n, (w (q i) - α * g (q i)) ^ 2 =
      ∑ i ∈ range n, w (q i) ^ 2 - 2 * α * ∑ i ∈ range n, w (q i) * g (q i) + α ^ 2 * ∑ i ∈ range n, g (q i) ^ 2 := by
    intro n q
    rw [mul_sum, mul_sum, ← sum_sub_distrib, ← sum_add_distrib]
    exact sum_congr rfl fun i _ => by ring
  unfold excess
  rw [key, key, ← h]
  split <;> ring

/-- A run without momentum and gains is gradient descent on the gradients of the mini-batches. -/
theorem plain_descent {o0 : MBSGD} (hv : o0.Valid) (hn : o0.iteration < 0) (hp : o0.Plain) {obj0 : Obj} {n : ℕ} {c : Bool}
    {o : MBSGD} {obj : Obj} (h : Steps o0 obj0 (n + 1) c o obj) :
    ∃ (w : ℕ → Vec) (b : ℕ → List ℕ), w 0 = obj0.w ∧ w ((n + 1) * max (obj0.problem.examples / o0.batchSize) 1) = (o.result obj).1 ∧
      evaluations obj.log = evaluations obj0.log ++
        (List.range ((n + 1) * max (obj0.problem.examples / o0.batchSize) 1)).map (fun t => (w t, b t)) ∧
      ∀ t p, w (t + 1) p = w t p - rate o0.alpha o0.alphaDecay o0.minAlpha t *
        (obj0.problem.errorGradient (obj0.calls + t) (w t) (b t)).2 p := by
  rcases steps_runInv hv hn h with ⟨h0, _⟩ | ⟨_, hinv, _⟩
  · omega
  have hfol := hinv.follows
  set batch := batchAt o0 obj0.problem.examples (max (obj0.problem.examples / o0.batchSize) 1)
  set D := descent o0 obj0 batch with hD
  have heta : ∀ t, D.eta t = 0 := fun t => momentumAt_zero hp t
  have he : ∀ t, D.eval t (D.at_ t) = (D.at_ t).w := by
    intro t
    unfold Descent.eval
    split
    · funext q
      rw [heta, zero_mul, add_zero]
    · rfl
  refine ⟨fun t => (D.at_ t).w, batch, rfl, hfol.parameters.symm, ?_, fun t p => ?_⟩
  · rw [hfol.log]
    simp only [he]
  have hpl := D.plain hp.minGain hp.maxGain t p
  show (D.at_ (t + 1)).w p = _
  rw [hpl.2, hpl.1, heta, zero_mul, zero_sub, he]
  show _ + -(rate o0.alpha o0.alphaDecay o0.minAlpha t * (obj0.problem.errorGradient (obj0.calls + t) (D.at_ t).w (batch t)).2 p) = _
  ring

end

section

variable {D J K : ℕ} {bias bias' ce : Bool} {act act' : Act} {reg reg' : Reg} {pre post : List Kind} {net : Net}
  (hn : net = buildNet D (withHidden pre (.fullyConnected J bias act reg) K bias' act' reg' post) ce)

include hn

/-- **C138 (training)**: for every unit of a rectifier (or linear) layer, after every number of epochs of a fresh optimiser without momentum and gains,
the squared norm of the incoming weights minus the squared norm of the outgoing weights has changed by the same difference for the
gradients that were evaluated, weighted with the squared learning rates. -/
theorem training_balance (ha : act.Homogeneous) (hr : FreeWeights reg) (hr' : FreeWeights reg') (ds : TrainSet) (mem : Mem)
    (sc : ℕ → Scratch) {a pb : ℕ} {pin pout : ℕ → ℕ}
    (hp : UnitPositions net (pre.length + 1) (buildNet D pre false).outputs K bias a pin pb pout) {o : MBSGD} (hv : o.Valid)
    (ho : o.iteration < 0) (hpl : o.Plain) (w : Vec) (calls : ℕ) {n : ℕ} {c : Bool} {o1 : MBSGD} {obj1 : Obj}
    (hs : Steps o ⟨netProblem net mem sc ds, w, calls, []⟩ (n + 1) c o1 obj1) :
    ∃ (path : ℕ → Vec) (b : ℕ → List ℕ),
      evaluations obj1.log = (List.range ((n + 1) * max (ds.samples / o.batchSize) 1)).map (fun t => (path t, b t)) ∧
      excess (buildNet D pre false).outputs K bias pin pb pout (o1.result obj1).1 =
        excess (buildNet D pre false).outputs K bias pin pb pout w +
          ∑ t ∈ range ((n + 1) * max (ds.samples / o.batchSize) 1), rate o.alpha o.alphaDecay o.minAlpha t ^ 2 *
            excess (buildNet D pre false).outputs K bias pin pb pout
              ((netProblem net mem sc ds).errorGradient (calls + t) (path t) (b t)).2 := by
  obtain ⟨path, b, h0, hT, hlog, hstep⟩ := plain_descent hv ho hpl hs
  refine ⟨path, b, hlog.trans (List.nil_append _), ?_⟩
  have key : ∀ T, excess (buildNet D pre false).outputs K bias pin pb pout (path T) =
      excess (buildNet D pre false).outputs K bias pin pb pout w + ∑ t ∈ range T, rate o.alpha o.alphaDecay o.minAlpha t ^ 2 *
            excess (buildNet D pre false).outputs K bias pin pb pout
              ((netProblem net mem sc ds).errorGradient (calls + t) (path t) (b t)).2 := by
    intro T
    induction T with
    | zero => rw [h0]; simp
    | succ T ih =>
      rw [sum_range_succ, ← add_assoc, ← ih, funext (hstep T)]
      exact excess_step _ _ _ (gradient_balanced hn ha hr hr' mem (sc (calls + T)) ds (b T) (path T) hp)
  rw [← hT]
  exact key _

end

/-! ## The scale is not irrelevant for training -/

/-- One linear hidden unit and one linear output unit without biases. -/
def chain : Net := buildNet 1 (withHidden [] (.fullyConnected 1 false .linear ⟨0, 0, 0⟩) 1 false .linear ⟨0, 0, 0⟩ []) false

theorem chain_setParameters (mem : Mem) (w : Vec) : (chain.setParameters mem ((List.range chain.P).map w)) 1 (.w [0, 0]) = w 0 ∧
    (chain.setParameters mem ((List.range chain.P).map w)) 2 (.w [0, 0]) = w 1 :=
  ⟨setParameters_entry (net := chain) rfl le_rfl le_rfl mem w (p := 0) rfl (Or.inl rfl),
    setParameters_entry (net := chain) rfl le_rfl le_rfl mem w (p := 1) rfl (Or.inr rfl)⟩

theorem chain_output (mem : Mem) (N : ℕ) (X : Batch) (n : ℕ) :
    chain.predictAll mem N X n 0 = X n 0 * mem 1 (.w [0, 0]) * mem 2 (.w [0, 0]) := by
  show (∑ i ∈ range 1, (∑ j ∈ range 1, X n j * mem 1 (.w [i, j]) + 0) * mem 2 (.w [0, i]) + 0) = _
  simp

theorem chain_gradient (mem : Mem) (sc : Scratch) :
    (chain.errorGradient mem sc ⟨1, fun _ _ => 1, fun _ _ => 0⟩ [0]).2.getD 0 0 =
      mem 1 (.w [0, 0]) * mem 2 (.w [0, 0]) * mem 2 (.w [0, 0]) ∧
    (chain.errorGradient mem sc ⟨1, fun _ _ => 1, fun _ _ => 0⟩ [0]).2.getD 1 0 =
      mem 1 (.w [0, 0]) * mem 2 (.w [0, 0]) * mem 1 (.w [0, 0]) := by
  have ho : chain.output mem 1 (selectRows (fun _ _ => 1) [0]) 0 0 = mem 1 (.w [0, 0]) * mem 2 (.w [0, 0]) := by
    have := chain_output mem 1 (selectRows (fun _ _ => 1) [0]) 0
    rw [show selectRows (fun _ _ => (1 : ℝ)) [0] 0 0 = 1 from rfl, one_mul] at this
    exact this
  have h0 := grad_entry chain mem sc ⟨1, fun _ _ => 1, fun _ _ => 0⟩ [0] (p := 0) (q := (1, .w [0, 0])) rfl
  have h1 := grad_entry chain mem sc ⟨1, fun _ _ => 1, fun _ _ => 0⟩ [0] (p := 1) (q := (2, .w [0, 0])) rfl
  constructor
  · rw [h0]
    show (∑ n ∈ range 1, 1 * (∑ j ∈ range 1, 1 * (chain.output mem 1 (selectRows (fun _ _ => 1) [0]) n j - 0) * mem 2 (.w [j, 0])) * 1 +
      (⟨0, 0, 0⟩ : Reg).deriv (mem 1 (.w [0, 0]))) / ((1 : ℕ) : ℝ) = _
    simp [ho, Reg.deriv]
  · rw [h1]
    show (∑ n ∈ range 1, 1 * (chain.output mem 1 (selectRows (fun _ _ => 1) [0]) n 0 - 0) * (∑ j ∈ range 1, 1 * mem 1 (.w [0, j]) + 0) +
      (⟨0, 0, 0⟩ : Reg).deriv (mem 2 (.w [0, 0]))) / ((1 : ℕ) : ℝ) = _
    simp [ho, Reg.deriv]

/-- **C138 (training depends on the scale)**: a network of two linear units and its rescaled copy give the same outputs, but after one step of
gradient descent with the same learning rate they do not. -/
theorem training_scale_matters : ∃ (c : ℕ → ℝ) (mem : Mem) (sc : Scratch) (ds : TrainSet) (w : Vec) (α : ℝ), (∀ a, 0 < c a) ∧
    let w' : Vec := fun p => chain.scales 1 c p * w p
    let after : Vec → Vec := fun v p => v p -
      α * (chain.errorGradient (chain.setParameters mem ((List.range chain.P).map v)) sc ds [0]).2.getD p 0
    let predict : Vec → ℝ → ℝ := fun v x => chain.predictAll (chain.setParameters mem ((List.range chain.P).map v)) 1 (fun _ _ => x) 0 0
    (∀ x, predict w' x = predict w x) ∧ predict (after w') 1 ≠ predict (after w) 1 := by
  refine ⟨fun _ => 2, fun _ _ => 0, ⟨fun _ _ => 0, fun _ _ _ => 0⟩, ⟨1, fun _ _ => 1, fun _ _ => 0⟩, fun _ => 1, 1 / 2, fun _ => two_pos, ?_⟩
  have s0 : chain.scales 1 (fun _ => 2) 0 = 2 := by
    have : chain.parameters[0]? = some (1, .w [0, 0]) := rfl
    simp [Net.scales, this, scaleAt]
  have s1 : chain.scales 1 (fun _ => 2) 1 = 2⁻¹ := by
    have : chain.parameters[1]? = some (2, .w [0, 0]) := rfl
    simp [Net.scales, this, scaleAt]
  intro w' after predict
  have hp : ∀ v x, predict v x = x * v 0 * v 1 := fun v x => by
    show chain.predictAll _ 1 (fun _ _ => x) 0 0 = _
    rw [chain_output, (chain_setParameters _ v).1, (chain_setParameters _ v).2]
  have hw0 : w' 0 = 2 := by show chain.scales 1 _ 0 * 1 = 2; rw [s0, mul_one]
  have hw1 : w' 1 = 2⁻¹ := by show chain.scales 1 _ 1 * 1 = 2⁻¹; rw [s1, mul_one]
  have ha : ∀ v, after v 0 = v 0 - 1 / 2 * (v 0 * v 1 * v 1) ∧ after v 1 = v 1 - 1 / 2 * (v 0 * v 1 * v 0) := fun v => by
    have := chain_gradient (chain.setParameters (fun _ _ => 0) ((List.range chain.P).map v)) ⟨fun _ _ => 0, fun _ _ _ => 0⟩
    rw [(chain_setParameters _ v).1, (chain_setParameters _ v).2] at this
    exact ⟨congrArg (fun z => v 0 - 1 / 2 * z) this.1, congrArg (fun z => v 1 - 1 / 2 * z) this.2⟩
  refine ⟨fun x => ?_, ?_⟩
  · rw [hp, hp, hw0, hw1]
    ring
  · rw [hp, hp, (ha w').1, (ha w').2, (ha fun _ => 1).1, (ha fun _ => 1).2, hw0, hw1]
    norm_num

/-- The hypotheses are met: an epoch for one rectifier unit with bias. -/
example : ∃ (o : MBSGD) (c : Bool) (o1 : MBSGD) (obj1 : Obj) (pin : ℕ → ℕ) (pb : ℕ) (pout : ℕ → ℕ), o.iteration < 0 ∧ o.Valid ∧ o.Plain ∧
    Act.rectifier.Homogeneous ∧ FreeWeights ⟨0, 0, 0⟩ ∧
    FitsFrom 1 (withHidden [] (.fullyConnected 1 true .rectifier ⟨0, 0, 0⟩) 1 true .linear ⟨0, 0, 0⟩ []) ∧
    (∀ k ∈ withHidden [] (.fullyConnected 1 true .rectifier ⟨0, 0, 0⟩) 1 true .linear ⟨0, 0, 0⟩ [], k.Visible) ∧
    UnitPositions (buildNet 1 (withHidden [] (.fullyConnected 1 true .rectifier ⟨0, 0, 0⟩) 1 true .linear ⟨0, 0, 0⟩ []) false)
      1 1 1 true 0 pin pb pout ∧
    Steps o ⟨netProblem (buildNet 1 (withHidden [] (.fullyConnected 1 true .rectifier ⟨0, 0, 0⟩) 1 true .linear ⟨0, 0, 0⟩ []) false)
      (fun _ _ => 0) (fun _ => ⟨fun _ _ => 0, fun _ _ _ => 0⟩) ⟨1, fun _ _ => 1, fun _ _ => 2⟩, fun _ => 1, 0, []⟩ 1 c o1 obj1 := by
  have hn : (example1 false 1 5).iteration < 0 := by show (-1 : ℤ) < 0; norm_num
  obtain ⟨c, o', obj', _, hst⟩ := steps_progress (example1_valid false one_pos le_rfl 5) (example1_fair false 1 5) hn
    (obj := ⟨netProblem (buildNet 1 (withHidden [] (.fullyConnected 1 true .rectifier ⟨0, 0, 0⟩) 1 true .linear ⟨0, 0, 0⟩ []) false)
      (fun _ _ => 0) (fun _ => ⟨fun _ _ => 0, fun _ _ _ => 0⟩) ⟨1, fun _ _ => 1, fun _ _ => 2⟩, fun _ => 1, 0, []⟩)
    ⟨by show 0 < 4; norm_num, Nat.one_pos⟩ .zero
  obtain ⟨pin, pb, pout, hpos⟩ := unit_positions_exist (D := 1) (J := 1) (K := 1) (bias := true) (bias' := true) (ce := false) (act := .rectifier)
    (act' := .linear) (reg := ⟨0, 0, 0⟩) (reg' := ⟨0, 0, 0⟩) (pre := []) (post := []) rfl (a := 0) Nat.one_pos
  refine ⟨_, c, o', obj', pin, pb, pout, hn, example1_valid false one_pos le_rfl 5, ?_, trivial, ⟨⟨le_rfl, le_rfl⟩, le_rfl⟩,
    ⟨trivial, trivial, trivial⟩, ?_, hpos, hst⟩
  · constructor <;> simp [example1]
  · intro k hk
    simp only [withHidden, List.nil_append, List.mem_cons, List.not_mem_nil, or_false] at hk
    rcases hk with rfl | rfl <;> trivial

end

end Verif.Opt
