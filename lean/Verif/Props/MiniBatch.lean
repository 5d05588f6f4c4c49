import Verif.Props.Convergence
import Mathlib.Analysis.SpecificLimits.Basic
import Mathlib.Algebra.Order.Chebyshev
import Mathlib.Topology.Algebra.InfiniteSum.Real

/-!
# Mini-batches on data that can be fitted perfectly: C83 (the optimiser)
-/

namespace Verif.Opt

open Finset

noncomputable section

/-! ## Spec -/

/-- Spec: the mean error over a batch, for the errors `E n` of the examples. -/
def meanError (E : ℕ → Vec → ℝ) (b : List ℕ) (w : Vec) : ℝ := (b.map fun n => E n w).sum / b.length

/-- Spec: the batches of existing examples. -/
def Problem.Batch (A : Problem) (b : List ℕ) : Prop := b ≠ [] ∧ ∀ i ∈ b, i < A.examples

/-- Spec: the gradient of each batch belongs to the mean of non-negative errors of its examples, which is convex and of curvature
at most `L`. -/
structure Problem.MeanOf (A : Problem) (E : ℕ → Vec → ℝ) (G : List ℕ → Vec → Vec) (L : ℝ) : Prop where
  nonneg : ∀ n w, 0 ≤ E n w
  gradient : ∀ k w b, A.Batch b → (A.errorGradient k w b).2 = G b w
  convex : ∀ b, A.Batch b → ConvexWith A.dimension (meanError E b) (G b)
  curvature : ∀ b, A.Batch b → CurvatureAtMost A.dimension L (meanError E b) (G b)

/-- Spec: parameters without error on any example. -/
def PerfectFit (N : ℕ) (E : ℕ → Vec → ℝ) (u : Vec) : Prop := ∀ n < N, E n u = 0

theorem meanError_nonneg {E : ℕ → Vec → ℝ} (h : ∀ n w, 0 ≤ E n w) (b : List ℕ) (w : Vec) : 0 ≤ meanError E b w := by
  refine div_nonneg (List.sum_nonneg ?_) (Nat.cast_nonneg _)
  intro x hx
  obtain ⟨n, _, rfl⟩ := List.mem_map.1 hx
  exact h n w

theorem meanError_fit {N : ℕ} {E : ℕ → Vec → ℝ} {u : Vec} (h : PerfectFit N E u) {b : List ℕ} (hb : ∀ i ∈ b, i < N) :
    meanError E b u = 0 := by
  have : (b.map fun n => E n u) = b.map fun _ => 0 := List.map_congr_left fun n hn => h n (hb n hn)
  rw [meanError, this]
  simp

/-! ## Descent along changing objectives -/

section Sequence

variable {P : ℕ} {L : ℝ} {J : ℕ → Vec → ℝ} {G : ℕ → Vec → Vec} {w : ℕ → Vec} {a : ℕ → ℝ}

/-- The gradient of a non-negative function is small where the function is. -/
theorem gradient_sq_le {f : Vec → ℝ} {g : Vec → Vec} (hL0 : 0 < L) (hL : CurvatureAtMost P L f g) (h0 : ∀ x, 0 ≤ f x) (x : Vec) :
    ∑ p ∈ range P, g x p ^ 2 ≤ 2 * L * f x := by
  have h := hL x fun p => x p - 1 / L * g x p
  have e1 : ∑ p ∈ range P, g x p * (x p - 1 / L * g x p - x p) = -(1 / L) * ∑ p ∈ range P, g x p ^ 2 := by
    rw [mul_sum]
    exact sum_congr rfl fun p _ => by ring
  have e2 : distSq P (fun p => x p - 1 / L * g x p) x = (1 / L) ^ 2 * ∑ p ∈ range P, g x p ^ 2 := by
    rw [distSq, mul_sum]
    exact sum_congr rfl fun p _ => by ring
  rw [e1, e2] at h
  have h1 := h0 fun p => x p - 1 / L * g x p
  set S := ∑ p ∈ range P, g x p ^ 2
  have e3 : L / 2 * ((1 / L) ^ 2 * S) = 1 / L * S / 2 := by field_simp
  rw [e3] at h
  have h2 : 1 / L * S ≤ 2 * f x := by linarith
  have h3 := mul_le_mul_of_nonneg_left h2 hL0.le
  have e4 : L * (1 / L * S) = S := by field_simp
  rw [e4] at h3
  linarith

/-- Every step brings the parameters closer to every perfect fit. -/
theorem mini_closer (hL0 : 0 < L) (hw : ∀ t, ∀ p < P, w (t + 1) p = w t p - a t * G t (w t) p) {t : ℕ}
    (hL : CurvatureAtMost P L (J t) (G t)) (hc : ConvexWith P (J t) (G t)) (hJ : ∀ x, 0 ≤ J t x) (h0 : 0 ≤ a t) {u : Vec}
    (hu : J t u = 0) :
    distSq P (w (t + 1)) u ≤ distSq P (w t) u - 2 * a t * (1 - a t * L) * J t (w t) := by
  have e : distSq P (w (t + 1)) u = distSq P (w t) u + 2 * a t * ∑ p ∈ range P, G t (w t) p * (u p - w t p) +
      a t ^ 2 * ∑ p ∈ range P, G t (w t) p ^ 2 := by
    rw [distSq, distSq, mul_sum, mul_sum, ← sum_add_distrib, ← sum_add_distrib]
    refine sum_congr rfl fun p hp => ?_
    rw [hw t p (mem_range.1 hp)]
    ring
  rw [e]
  have h1 := hc (w t) u
  rw [hu] at h1
  have h2 := mul_le_mul_of_nonneg_left h1 h0
  have h3 := mul_le_mul_of_nonneg_left (gradient_sq_le hL0 hL hJ (w t)) (sq_nonneg (a t))
  nlinarith

variable (hL0 : 0 < L) (hw : ∀ t, ∀ p < P, w (t + 1) p = w t p - a t * G t (w t) p)
  (hL : ∀ t, CurvatureAtMost P L (J t) (G t)) (hc : ∀ t, ConvexWith P (J t) (G t)) (hJ : ∀ t x, 0 ≤ J t x) (h0 : ∀ t, 0 ≤ a t)

include hL0 hw hL hc hJ h0

theorem mini_antitone (h1 : ∀ t, a t * L ≤ 1) {u : Vec} (hu : ∀ t, J t u = 0) (t : ℕ) :
    distSq P (w (t + 1)) u ≤ distSq P (w t) u := by
  refine (mini_closer hL0 hw (hL t) (hc t) (hJ t) (h0 t) (hu t)).trans ?_
  have := mul_nonneg (mul_nonneg (mul_nonneg two_pos.le (h0 t)) (sub_nonneg.2 (h1 t))) (hJ t (w t))
  linarith

/-- The errors that are seen during training have a finite sum. -/
theorem mini_sum (h1 : ∀ t, a t * L ≤ 1 / 2) {u : Vec} (hu : ∀ t, J t u = 0) (n : ℕ) :
    ∑ t ∈ range n, a t * J t (w t) ≤ distSq P (w 0) u - distSq P (w n) u := by
  induction n with
  | zero => simp
  | succ n ih =>
    rw [sum_range_succ]
    have h := mini_closer hL0 hw (hL n) (hc n) (hJ n) (h0 n) (hu n)
    have h2 : 0 ≤ a n * (1 - 2 * (a n * L)) * J n (w n) :=
      mul_nonneg (mul_nonneg (h0 n) (by have := h1 n; linarith)) (hJ n _)
    nlinarith

omit hc in
/-- How far the parameters move from `t` to `t + k`. -/
theorem mini_moves (h1 : ∀ t, a t * L ≤ 1 / 2) (t k : ℕ) :
    distSq P (w (t + k)) (w t) * (2 * L) ≤ k * ∑ r ∈ range k, J (t + r) (w (t + r)) := by
  have hsum : ∀ p ∈ range P, w (t + k) p - w t p = -∑ r ∈ range k, a (t + r) * G (t + r) (w (t + r)) p := by
    intro p hp
    induction k with
    | zero => simp
    | succ k ih =>
      rw [sum_range_succ, ← Nat.add_assoc, hw _ p (mem_range.1 hp)]
      linarith
  have hp : distSq P (w (t + k)) (w t) ≤
      k * ∑ r ∈ range k, a (t + r) ^ 2 * ∑ p ∈ range P, G (t + r) (w (t + r)) p ^ 2 := by
    calc distSq P (w (t + k)) (w t) = ∑ p ∈ range P, (∑ r ∈ range k, a (t + r) * G (t + r) (w (t + r)) p) ^ 2 := by
          refine sum_congr rfl fun p hp => ?_
          rw [hsum p hp, neg_sq]
      _ ≤ ∑ p ∈ range P, k * ∑ r ∈ range k, (a (t + r) * G (t + r) (w (t + r)) p) ^ 2 := by
          refine sum_le_sum fun p _ => ?_
          have := sq_sum_le_card_mul_sum_sq (s := range k) (f := fun r => a (t + r) * G (t + r) (w (t + r)) p)
          rwa [card_range] at this
      _ = _ := by
          rw [← mul_sum, sum_comm]
          refine congrArg _ (sum_congr rfl fun r _ => ?_)
          rw [mul_sum]
          exact sum_congr rfl fun p _ => by ring
  have hr : ∀ r, a (t + r) ^ 2 * (∑ p ∈ range P, G (t + r) (w (t + r)) p ^ 2) * (2 * L) ≤ J (t + r) (w (t + r)) := by
    intro r
    have hg := gradient_sq_le hL0 (hL (t + r)) (hJ (t + r)) (w (t + r))
    have hb : (a (t + r) * L) ^ 2 ≤ (1 / 2) ^ 2 := pow_le_pow_left₀ (mul_nonneg (h0 _) hL0.le) (h1 _) 2
    have h2 := mul_le_mul_of_nonneg_left hg (mul_nonneg (sq_nonneg (a (t + r))) (by linarith : 0 ≤ 2 * L))
    have h3 := mul_le_mul_of_nonneg_right hb (hJ (t + r) (w (t + r)))
    nlinarith
  calc distSq P (w (t + k)) (w t) * (2 * L)
      ≤ k * (∑ r ∈ range k, a (t + r) ^ 2 * ∑ p ∈ range P, G (t + r) (w (t + r)) p ^ 2) * (2 * L) :=
        mul_le_mul_of_nonneg_right hp (by linarith)
    _ = k * ∑ r ∈ range k, a (t + r) ^ 2 * (∑ p ∈ range P, G (t + r) (w (t + r)) p ^ 2) * (2 * L) := by
        rw [mul_assoc, sum_mul]
    _ ≤ _ := mul_le_mul_of_nonneg_left (sum_le_sum fun r _ => hr r) (Nat.cast_nonneg _)

omit hc in
/-- The error on a batch `k` steps later. -/
theorem mini_later (h1 : ∀ t, a t * L ≤ 1 / 2) (t k : ℕ) :
    J t (w (t + k)) ≤ 2 * J t (w t) + k / 2 * ∑ r ∈ range k, J (t + r) (w (t + r)) := by
  have h := hL t (w t) (w (t + k))
  have hg := gradient_sq_le hL0 (hL t) (hJ t) (w t)
  have hm := mini_moves hL0 hw hL hJ h0 h1 t k
  have hi : ∑ p ∈ range P, G t (w t) p * (w (t + k) p - w t p) ≤
      1 / (2 * L) * ∑ p ∈ range P, G t (w t) p ^ 2 + L / 2 * distSq P (w (t + k)) (w t) := by
    rw [distSq, mul_sum, mul_sum, ← sum_add_distrib]
    refine sum_le_sum fun p _ => ?_
    set g := G t (w t) p
    set d := w (t + k) p - w t p
    have : 1 / (2 * L) * g ^ 2 + L / 2 * d ^ 2 - g * d = 1 / (2 * L) * (g - L * d) ^ 2 := by
      field_simp
      ring
    have h2 : 0 ≤ 1 / (2 * L) * (g - L * d) ^ 2 := mul_nonneg (by positivity) (sq_nonneg _)
    linarith
  have h3 : 1 / (2 * L) * ∑ p ∈ range P, G t (w t) p ^ 2 ≤ J t (w t) := by
    rw [div_mul_eq_mul_div, one_mul, div_le_iff₀ (by linarith)]
    linarith
  set S := ∑ r ∈ range k, J (t + r) (w (t + r))
  have : k / 2 * S = k * S / 2 := by ring
  nlinarith

omit hc in
/-- The errors at the end of an epoch of `k` steps, in terms of the errors seen during this epoch. -/
theorem mini_epoch (h1 : ∀ t, a t * L ≤ 1 / 2) (t k : ℕ) :
    ∑ i ∈ range k, J (t + i) (w (t + k)) ≤ (2 + (k : ℝ) ^ 2 / 2) * ∑ i ∈ range k, J (t + i) (w (t + i)) := by
  set S := ∑ i ∈ range k, J (t + i) (w (t + i)) with hS
  have hone : ∀ i ∈ range k, J (t + i) (w (t + k)) ≤ 2 * J (t + i) (w (t + i)) + k / 2 * S := by
    intro i hi
    have hik := mem_range.1 hi
    have h := mini_later hL0 hw hL hJ h0 h1 (t + i) (k - i)
    rw [show t + i + (k - i) = t + k by omega] at h
    refine h.trans ?_
    have hle : ∑ r ∈ range (k - i), J (t + i + r) (w (t + i + r)) ≤ S := by
      have e := sum_range_add (fun r => J (t + r) (w (t + r))) i (k - i)
      rw [show i + (k - i) = k by omega] at e
      rw [hS, e]
      have : 0 ≤ ∑ r ∈ range i, J (t + r) (w (t + r)) := sum_nonneg fun r _ => hJ _ _
      have e2 : ∑ r ∈ range (k - i), J (t + (i + r)) (w (t + (i + r))) = ∑ r ∈ range (k - i), J (t + i + r) (w (t + i + r)) :=
        sum_congr rfl fun r _ => by rw [Nat.add_assoc]
      linarith
    have hn : 0 ≤ ∑ r ∈ range (k - i), J (t + i + r) (w (t + i + r)) := sum_nonneg fun r _ => hJ _ _
    have hk : ((k - i : ℕ) : ℝ) ≤ k := by exact_mod_cast Nat.sub_le k i
    have : ((k - i : ℕ) : ℝ) / 2 * ∑ r ∈ range (k - i), J (t + i + r) (w (t + i + r)) ≤ k / 2 * S := by
      gcongr
    linarith
  refine (sum_le_sum hone).trans (le_of_eq ?_)
  rw [sum_add_distrib, ← mul_sum, sum_const, card_range, nsmul_eq_mul]
  ring

end Sequence

/-! ## The optimiser -/

/-- Number of batches per epoch. -/
def batchCount (o : MBSGD) (N : ℕ) : ℕ := max (N / o.batchSize) 1

/-- The weights after `t` updates of a run of `o` on `obj`. -/
def weightsAt (o : MBSGD) (obj : Obj) (t : ℕ) : Vec :=
  ((descent o obj (batchAt o obj.problem.examples (batchCount o obj.problem.examples))).at_ t).w

/-- The batch of update `t`. -/
def batchFor (o : MBSGD) (obj : Obj) (t : ℕ) : List ℕ :=
  batchAt o obj.problem.examples (batchCount o obj.problem.examples) t

theorem indicesAt_stop (o : MBSGD) (s : Stop) (N e : ℕ) : indicesAt (o.setStopCriteria s) N e = indicesAt o N e := by
  induction e with
  | zero => rfl
  | succ e ih =>
    show o.rng (e + 2) (indicesAt (o.setStopCriteria s) N e) = o.rng (e + 2) (indicesAt o N e)
    rw [ih]

/-- The limits for the length of a run have no influence on the weights before its end. -/
theorem weightsAt_stop (o : MBSGD) (s : Stop) (obj : Obj) (t : ℕ) :
    weightsAt (o.setStopCriteria s) obj t = weightsAt o obj t := by
  have e : batchAt (o.setStopCriteria s) = batchAt o := by
    funext N k t
    show batchOf (indicesAt (o.setStopCriteria s) N (t / k)) o.batchSize (t % k) = _
    rw [indicesAt_stop]
    rfl
  show ((descent _ obj (batchAt (o.setStopCriteria s) _ (batchCount o _))).at_ t).w = _
  rw [e]
  rfl

/-- The result of a run of `n` epochs. -/
theorem weightsAt_result {o0 : MBSGD} (hv : o0.Valid) (hn : o0.iteration < 0) {obj0 : Obj} {n : ℕ} {c : Bool}
    {o : MBSGD} {obj : Obj} (h : Steps o0 obj0 (n + 1) c o obj) :
    (o.result obj).1 = weightsAt o0 obj0 ((n + 1) * batchCount o0 obj0.problem.examples) := by
  rcases steps_runInv hv hn h with ⟨h0, _⟩ | ⟨_, hinv, _⟩
  · omega
  exact hinv.follows.parameters

theorem batchCount_pos (o : MBSGD) (N : ℕ) : 0 < batchCount o N := lt_of_lt_of_le Nat.zero_lt_one (le_max_right _ _)

theorem batchFor_epoch {o : MBSGD} (obj : Obj) (e : ℕ) {i : ℕ} (hi : i < batchCount o obj.problem.examples) :
    batchFor o obj (e * batchCount o obj.problem.examples + i) =
      batchOf (indicesAt o obj.problem.examples e) o.batchSize i := by
  have hk := batchCount_pos o obj.problem.examples
  rw [batchFor, batchAt]
  have e1 : (e * batchCount o obj.problem.examples + i) / batchCount o obj.problem.examples = e := by
    rw [Nat.add_comm, Nat.add_mul_div_right _ _ hk, Nat.div_eq_of_lt hi, Nat.zero_add]
  have e2 : (e * batchCount o obj.problem.examples + i) % batchCount o obj.problem.examples = i := by
    rw [Nat.add_comm, Nat.add_mul_mod_self_right, Nat.mod_eq_of_lt hi]
  rw [e1, e2]

/-- All batches of a run consist of existing examples, and there are no empty batches. -/
theorem batchFor_batch {o : MBSGD} (hv : o.Valid) (hf : o.Fair) {obj : Obj} (hN : 0 < obj.problem.examples) (t : ℕ) :
    obj.problem.Batch (batchFor o obj t) := by
  set N := obj.problem.examples with hNdef
  have hk := batchCount_pos o N
  have ht : t = t / batchCount o N * batchCount o N + t % batchCount o N := by
    have := Nat.div_add_mod t (batchCount o N)
    rw [Nat.mul_comm] at this
    omega
  have hi := Nat.mod_lt t hk
  have hp := indicesAt_perm hf N (t / batchCount o N)
  have hb := fairEpoch_batches hv.batch hp
  have hmem : batchFor o obj t ∈ (List.range (max (N / o.batchSize) 1)).map
      (batchOf (indicesAt o N (t / batchCount o N)) o.batchSize) := by
    refine List.mem_map.2 ⟨t % batchCount o N, List.mem_range.2 hi, ?_⟩
    conv_rhs => rw [ht]
    exact (batchFor_epoch obj _ hi).symm
  refine ⟨?_, fun i hi => hb.valid i (List.mem_flatten.2 ⟨_, hmem, hi⟩)⟩
  intro hnil
  rcases Nat.lt_or_ge N o.batchSize with h | h
  · have hk1 : max (N / o.batchSize) 1 = 1 := by rw [Nat.div_eq_of_lt h]; rfl
    have hlen := hb.small h
    rw [hk1] at hlen hmem
    simp only [List.range_one, List.map_cons, List.map_nil, List.flatten_cons, List.flatten_nil, List.append_nil,
      List.mem_singleton] at hlen hmem
    rw [← hmem, hnil] at hlen
    simp only [List.length_nil] at hlen
    omega
  · have := hb.full h _ hmem
    rw [hnil] at this
    have := hv.batch
    simp only [List.length_nil] at *
    omega

/-- Without momentum and gains every update is a step of gradient descent for its batch. -/
theorem weightsAt_step {o0 : MBSGD} (hv : o0.Valid) (hf : o0.Fair) (hp : o0.Plain) {obj0 : Obj} (hN : 0 < obj0.problem.examples)
    {G : List ℕ → Vec → Vec} (hG : ∀ k w b, obj0.problem.Batch b → (obj0.problem.errorGradient k w b).2 = G b w) (t p : ℕ) :
    weightsAt o0 obj0 (t + 1) p = weightsAt o0 obj0 t p -
      rate o0.alpha o0.alphaDecay o0.minAlpha t * G (batchFor o0 obj0 t) (weightsAt o0 obj0 t) p := by
  have hb := batchFor_batch hv hf hN t
  set D := descent o0 obj0 (batchAt o0 obj0.problem.examples (batchCount o0 obj0.problem.examples)) with hD
  have heta : ∀ t, D.eta t = 0 := fun t => momentumAt_zero hp t
  have hpl := D.plain hp.minGain hp.maxGain t p
  show (D.at_ (t + 1)).w p = (D.at_ t).w p - _ * G _ (D.at_ t).w p
  rw [hpl.2, hpl.1, heta, zero_mul, zero_sub]
  have he : D.eval t (D.at_ t) = (D.at_ t).w := by
    unfold Descent.eval
    split
    · funext q
      rw [heta, zero_mul, add_zero]
    · rfl
  rw [he]
  have hg : D.grad t (D.at_ t).w = G (batchFor o0 obj0 t) (D.at_ t).w := hG _ _ _ hb
  rw [hg]
  show _ + -(rate o0.alpha o0.alphaDecay o0.minAlpha t * _) = _
  ring

theorem sum_flatten_map (E : ℕ → ℝ) (ls : List (List ℕ)) : (ls.flatten.map E).sum = (ls.map fun b => (b.map E).sum).sum := by
  induction ls with
  | nil => rfl
  | cons b ls ih =>
    rw [List.flatten_cons, List.map_append, List.sum_append, ih]
    rfl

/-- The error over all examples is the mean of the errors of the batches of an epoch, if the batches have the same size and
together contain all examples. -/
theorem meanError_epoch {o : MBSGD} (hv : o.Valid) (hf : o.Fair) {obj : Obj} (hN : 0 < obj.problem.examples)
    (hd : obj.problem.examples % o.batchSize = 0 ∨ obj.problem.examples < o.batchSize) (E : ℕ → Vec → ℝ) (e : ℕ) (x : Vec) :
    batchCount o obj.problem.examples * meanError E (List.range obj.problem.examples) x =
      ∑ i ∈ range (batchCount o obj.problem.examples), meanError E (batchFor o obj (e * batchCount o obj.problem.examples + i)) x := by
  set N := obj.problem.examples with hNdef
  set k := batchCount o N with hk
  have hkpos : 0 < k := batchCount_pos o N
  have hp := indicesAt_perm hf N e
  have hb := fairEpoch_batches hv.batch hp
  have hall := hb.all hd
  set s := if N < o.batchSize then N else o.batchSize with hs
  have hspos : 0 < s := by
    rw [hs]
    split
    · exact hN
    · exact hv.batch
  have hlen : ∀ i < k, (batchOf (indicesAt o N e) o.batchSize i).length = s := by
    intro i hi
    have hmem : batchOf (indicesAt o N e) o.batchSize i ∈ (List.range (max (N / o.batchSize) 1)).map
        (batchOf (indicesAt o N e) o.batchSize) := List.mem_map.2 ⟨i, List.mem_range.2 hi, rfl⟩
    rw [hs]
    split
    · rename_i h
      have hk1 : k = 1 := by rw [hk, batchCount, Nat.div_eq_of_lt h]; rfl
      have h0 : i = 0 := by omega
      rw [h0, batchOf, Nat.zero_mul, List.drop_zero, List.length_take, hp.length_eq, List.length_range]
      omega
    · rename_i h
      exact hb.full (by omega) _ hmem
  have hNs : k * s = N := by
    rw [hs]
    split
    · rename_i h
      have hk1 : k = 1 := by rw [hk, batchCount, Nat.div_eq_of_lt h]; rfl
      rw [hk1, Nat.one_mul]
    · rename_i h
      have hdv := hd.resolve_right h
      have hk1 : k = N / o.batchSize := max_eq_left (Nat.div_pos (by omega) hv.batch)
      rw [hk1]
      exact Nat.div_mul_cancel (Nat.dvd_of_mod_eq_zero hdv)
  have hsum : ((List.range N).map fun n => E n x).sum =
      ∑ i ∈ range k, ((batchOf (indicesAt o N e) o.batchSize i).map fun n => E n x).sum := by
    rw [← (hall.map fun n => E n x).sum_eq, sum_flatten_map, List.map_map]
    rfl
  have hks : (N : ℝ) = k * s := by
    rw [← hNs]
    push_cast
    ring
  have hk0 : (k : ℝ) ≠ 0 := by exact_mod_cast hkpos.ne'
  have hs0 : (s : ℝ) ≠ 0 := by exact_mod_cast hspos.ne'
  have hR : ∀ i ∈ range k, meanError E (batchFor o obj (e * k + i)) x =
      ((batchOf (indicesAt o N e) o.batchSize i).map fun n => E n x).sum / s := by
    intro i hi
    have hik := mem_range.1 hi
    rw [batchFor_epoch obj e hik, meanError, hlen i hik]
  rw [sum_congr rfl hR, ← sum_div, ← hsum, meanError, List.length_range, hks]
  field_simp

/-- Spec: the settings of the optimiser for C83. -/
structure SuitableMini (o : MBSGD) (L : ℝ) : Prop where
  valid : o.Valid
  fair : o.Fair
  fresh : o.iteration < 0
  plain : o.Plain
  alpha : 0 < o.alpha
  floor : o.minAlpha ≤ o.alpha
  small : o.alpha * L ≤ 1 / 2

section Run

variable {o0 : MBSGD} {obj0 : Obj} {E : ℕ → Vec → ℝ} {G : List ℕ → Vec → Vec} {L : ℝ}

/-- **C83 (closer)**: no update moves the weights away from any perfect fit, for every order of the examples and every batch
size. -/
theorem mini_batches_closer (ho : SuitableMini o0 L) (hL0 : 0 < L) (hN : 0 < obj0.problem.examples)
    (hA : obj0.problem.MeanOf E G L) {u : Vec} (hu : PerfectFit obj0.problem.examples E u) (t : ℕ) :
    distSq obj0.problem.dimension (weightsAt o0 obj0 (t + 1)) u ≤ distSq obj0.problem.dimension (weightsAt o0 obj0 t) u := by
  have hb := fun t => batchFor_batch ho.valid ho.fair (obj := obj0) hN t
  exact mini_antitone hL0 (J := fun t => meanError E (batchFor o0 obj0 t)) (G := fun t => G (batchFor o0 obj0 t))
    (fun t p _ => weightsAt_step ho.valid ho.fair ho.plain hN hA.gradient t p) (fun t => hA.curvature _ (hb t))
    (fun t => hA.convex _ (hb t)) (fun t => meanError_nonneg hA.nonneg _) (fun t => (rate_range ho.valid ho.alpha ho.floor t).1.le)
    (fun t => rate_curvature ho.valid ho.alpha ho.floor (by have := ho.small; linarith) t)
    (fun t => meanError_fit hu (hb t).2) t

theorem rate_half (ho : SuitableMini o0 L) (hL0 : 0 < L) (t : ℕ) : rate o0.alpha o0.alphaDecay o0.minAlpha t * L ≤ 1 / 2 :=
  (mul_le_mul_of_nonneg_right (rate_range ho.valid ho.alpha ho.floor t).2 hL0.le).trans ho.small

/-- **C83 (seen errors)**: the errors of all batches, each before the update with it and weighted with the learning rate, add up
to at most the squared distance of the initial weights to any perfect fit. -/
theorem mini_batches_seen (ho : SuitableMini o0 L) (hL0 : 0 < L) (hN : 0 < obj0.problem.examples)
    (hA : obj0.problem.MeanOf E G L) {u : Vec} (hu : PerfectFit obj0.problem.examples E u) (n : ℕ) :
    ∑ t ∈ range n, rate o0.alpha o0.alphaDecay o0.minAlpha t * meanError E (batchFor o0 obj0 t) (weightsAt o0 obj0 t) ≤
      distSq obj0.problem.dimension obj0.w u := by
  have hb := fun t => batchFor_batch ho.valid ho.fair (obj := obj0) hN t
  have h := mini_sum hL0 (J := fun t => meanError E (batchFor o0 obj0 t)) (G := fun t => G (batchFor o0 obj0 t))
    (fun t p _ => weightsAt_step ho.valid ho.fair ho.plain hN hA.gradient t p) (fun t => hA.curvature _ (hb t))
    (fun t => hA.convex _ (hb t)) (fun t => meanError_nonneg hA.nonneg _) (fun t => (rate_range ho.valid ho.alpha ho.floor t).1.le)
    (rate_half ho hL0) (fun t => meanError_fit hu (hb t).2) n
  have hd : 0 ≤ distSq obj0.problem.dimension (weightsAt o0 obj0 n) u := sum_nonneg fun p _ => sq_nonneg _
  have e0 : weightsAt o0 obj0 0 = obj0.w := rfl
  rw [e0] at h
  linarith

/-- **C83 (errors after the epochs)**: if the batch size divides the number of examples and the learning rate has a positive lower
limit `c`, then the errors over all examples after each of the epochs have a finite sum. -/
theorem mini_batches_epochs (ho : SuitableMini o0 L) (hL0 : 0 < L) (hN : 0 < obj0.problem.examples)
    (hA : obj0.problem.MeanOf E G L) {u : Vec} (hu : PerfectFit obj0.problem.examples E u)
    (hd : obj0.problem.examples % o0.batchSize = 0 ∨ obj0.problem.examples < o0.batchSize) {c : ℝ} (hc : 0 < c)
    (hr : ∀ t, c ≤ rate o0.alpha o0.alphaDecay o0.minAlpha t) (m : ℕ) :
    ∑ e ∈ range m, meanError E (List.range obj0.problem.examples)
        (weightsAt o0 obj0 ((e + 1) * batchCount o0 obj0.problem.examples)) ≤
      (2 + (batchCount o0 obj0.problem.examples : ℝ) ^ 2 / 2) * distSq obj0.problem.dimension obj0.w u /
        (batchCount o0 obj0.problem.examples * c) := by
  set k := batchCount o0 obj0.problem.examples with hk
  have hkpos : 0 < k := batchCount_pos _ _
  have hk0 : (0 : ℝ) < k := by exact_mod_cast hkpos
  have hb := fun t => batchFor_batch ho.valid ho.fair (obj := obj0) hN t
  set J : ℕ → Vec → ℝ := fun t => meanError E (batchFor o0 obj0 t) with hJ
  set W := weightsAt o0 obj0 with hW
  have hepoch : ∀ e, k * meanError E (List.range obj0.problem.examples) (W ((e + 1) * k)) ≤
      (2 + (k : ℝ) ^ 2 / 2) * ∑ i ∈ range k, J (e * k + i) (W (e * k + i)) := by
    intro e
    rw [meanError_epoch ho.valid ho.fair hN hd E e, show (e + 1) * k = e * k + k by ring]
    exact mini_epoch (J := J) (G := fun t => G (batchFor o0 obj0 t)) hL0
      (fun t p _ => weightsAt_step ho.valid ho.fair ho.plain hN hA.gradient t p) (fun t => hA.curvature _ (hb t))
      (fun t => meanError_nonneg hA.nonneg _) (fun t => (rate_range ho.valid ho.alpha ho.floor t).1.le)
      (rate_half ho hL0) (e * k) k
  have hsum : ∑ e ∈ range m, ∑ i ∈ range k, J (e * k + i) (W (e * k + i)) = ∑ t ∈ range (m * k), J t (W t) := by
    clear hepoch
    induction m with
    | zero => simp
    | succ m ih => rw [sum_range_succ, ih, Nat.succ_mul, sum_range_add]
  have hseen := mini_batches_seen ho hL0 hN hA hu (m * k)
  have hcs : c * ∑ t ∈ range (m * k), J t (W t) ≤ distSq obj0.problem.dimension obj0.w u := by
    refine le_trans ?_ hseen
    rw [mul_sum]
    exact sum_le_sum fun t _ => mul_le_mul_of_nonneg_right (hr t) (meanError_nonneg hA.nonneg _ _)
  rw [le_div_iff₀ (by positivity)]
  have h1 : k * ∑ e ∈ range m, meanError E (List.range obj0.problem.examples) (W ((e + 1) * k)) ≤
      (2 + (k : ℝ) ^ 2 / 2) * ∑ t ∈ range (m * k), J t (W t) := by
    rw [← hsum, mul_sum, mul_sum]
    exact sum_le_sum fun e _ => hepoch e
  have h2 := mul_le_mul_of_nonneg_right h1 hc.le
  have h3 : (0 : ℝ) ≤ 2 + (k : ℝ) ^ 2 / 2 := by positivity
  have h4 := mul_le_mul_of_nonneg_left hcs h3
  nlinarith

/-- The lower limit of the learning rate. -/
theorem rate_lower (ho : SuitableMini o0 L) (hr : 0 < o0.minAlpha ∨ o0.alphaDecay = 1) :
    ∃ c > 0, ∀ t, c ≤ rate o0.alpha o0.alphaDecay o0.minAlpha t := by
  rcases hr with h | h
  · exact ⟨o0.minAlpha, h, fun t => (rate_bounds (minimum := o0.minAlpha) ho.alpha ho.valid.decay_pos ho.valid.decay_le t).2.2.1
      ho.floor⟩
  · refine ⟨o0.alpha, ho.alpha, fun t => ?_⟩
    cases t with
    | zero => exact le_rfl
    | succ t => rw [rate, h, one_pow, mul_one, max_eq_left ho.floor]

/-- **C83 (limit)**: whatever the order of the examples, the error over all examples gets below every positive `e` and stays
there. -/
theorem mini_batches_limit (ho : SuitableMini o0 L) (hL0 : 0 < L) (hN : 0 < obj0.problem.examples)
    (hA : obj0.problem.MeanOf E G L) {u : Vec} (hu : PerfectFit obj0.problem.examples E u)
    (hd : obj0.problem.examples % o0.batchSize = 0 ∨ obj0.problem.examples < o0.batchSize)
    (hr : 0 < o0.minAlpha ∨ o0.alphaDecay = 1) {e : ℝ} (he : 0 < e) :
    ∃ m0, ∀ m, m0 ≤ m → meanError E (List.range obj0.problem.examples)
      (weightsAt o0 obj0 (m * batchCount o0 obj0.problem.examples)) ≤ e := by
  obtain ⟨c, hc, hcr⟩ := rate_lower ho hr
  have hs : Summable fun m => meanError E (List.range obj0.problem.examples)
      (weightsAt o0 obj0 ((m + 1) * batchCount o0 obj0.problem.examples)) :=
    summable_of_sum_range_le (fun m => meanError_nonneg hA.nonneg _ _) (mini_batches_epochs ho hL0 hN hA hu hd hc hcr)
  have ht := hs.tendsto_atTop_zero.eventually (gt_mem_nhds he)
  obtain ⟨m0, hm0⟩ := Filter.eventually_atTop.1 ht
  refine ⟨m0 + 1, fun m hm => ?_⟩
  have := hm0 (m - 1) (by omega)
  rw [show m - 1 + 1 = m by omega] at this
  exact this.le

/-- **C83 (runs)**: `optimize` with a sufficiently large limit of epochs ends with an error of at most `e`. -/
theorem mini_batches_optimize (ho : SuitableMini o0 L) (hL0 : 0 < L) (hne : obj0.Nonempty)
    (hA : obj0.problem.MeanOf E G L) {u : Vec} (hu : PerfectFit obj0.problem.examples E u)
    (hd : obj0.problem.examples % o0.batchSize = 0 ∨ obj0.problem.examples < o0.batchSize)
    (hr : 0 < o0.minAlpha ∨ o0.alphaDecay = 1) {e : ℝ} (he : 0 < e) :
    ∃ m0, 1 ≤ m0 ∧ ∀ m : ℕ, m0 ≤ m → ∃ o obj, (o0.setStopCriteria ⟨m, 0⟩).optimize (fun _ => false) m obj0 = .ok (some (o, obj)) ∧
      meanError E (List.range obj0.problem.examples) (o.result obj).1 ≤ e := by
  obtain ⟨m0, hm0⟩ := mini_batches_limit ho hL0 hne.2 hA hu hd hr he
  refine ⟨m0 + 1, by omega, fun m hm => ?_⟩
  have hv : (o0.setStopCriteria ⟨m, 0⟩).Valid :=
    ⟨ho.valid.1, ho.valid.2, ho.valid.3, ho.valid.4, ho.valid.5⟩
  obtain ⟨o, obj, h, hcount, _⟩ := optimize_exact (m := m) hv ho.fair ho.fresh hne (by omega) rfl rfl
  refine ⟨o, obj, h, ?_⟩
  obtain ⟨n, c, hsteps, _⟩ := optimize_steps h
  have hnm : n + 1 = m := by
    rcases steps_runInv hv ho.fresh hsteps with ⟨h0, _⟩ | ⟨_, hinv, _⟩
    · omega
    · have := hinv.finished
      omega
  rw [weightsAt_result hv ho.fresh hsteps, weightsAt_stop, hnm]
  exact hm0 m (by omega)

end Run

end

end Verif.Opt
