import Verif.Model.Net
import Verif.Props.Activation
import Mathlib.Analysis.Calculus.Deriv.Abs
import Mathlib.Analysis.Calculus.Deriv.Pow
import Mathlib.Algebra.BigOperators.Group.Finset.Sigma

/-!
# Backpropagation, layer by layer

`BackpropAt` is the law that a layer has to obey at a point so that backpropagation through a stack of layers computes
derivatives: along every differentiable movement of its weights and inputs the outputs move differentiably, and the
error signal passed back together with the stored weight derivatives account for the change of the error exactly.
-/

set_option linter.unusedSectionVars false

namespace Verif.NN

open Finset

noncomputable section

/-- Inner product of two batches with `N` rows and `F` columns. -/
def inner (N F : ℕ) (u v : Batch) : ℝ := ∑ n ∈ range N, ∑ j ∈ range F, u n j * v n j

/-- The law of backpropagation for one layer at weights `w0` and input `x0`. -/
def BackpropAt (l : Layer) (N : ℕ) (w0 : Weights) (x0 : Batch) : Prop :=
  l.derivPointers = l.pointers ∧
  ∀ (w : ℝ → Weights) (x : ℝ → Batch) (t0 : ℝ) (w' : Weights) (x' : Batch),
    w t0 = w0 → x t0 = x0 →
    (∀ s ∈ l.pointers, HasDerivAt (fun t => w t s) (w' s) t0) →
    (∀ s, s ∉ l.pointers → ∀ t, w t s = w0 s) →
    (∀ n < N, ∀ i < l.inputs, HasDerivAt (fun t => x t n i) (x' n i) t0) →
    ∃ (y' : Batch) (R' : ℝ),
      (∀ n < N, ∀ j < l.outputs, HasDerivAt (fun t => l.forward (w t) N (x t) n j) (y' n j) t0) ∧
      HasDerivAt (fun t => l.regError (w t)) R' t0 ∧
      ∀ ein stale,
        inner N l.outputs ein y' + R' =
          inner N l.inputs (l.back w0 N x0 ein true stale) x' +
            (l.pointers.map fun s => l.derivs w0 N x0 ein s * w' s).sum

/-! ## Sums -/

theorem sum_map_range (f : ℕ → ℝ) (n : ℕ) : ((List.range n).map f).sum = ∑ i ∈ range n, f i := by
  induction n with
  | zero => simp
  | succ n ih => rw [List.range_succ, List.map_append, List.sum_append, ih, Finset.sum_range_succ]; simp

theorem sum_flatMap_range {α : Type} (g : ℕ → List α) (f : α → ℝ) (n : ℕ) :
    (((List.range n).flatMap g).map f).sum = ∑ j ∈ range n, ((g j).map f).sum := by
  induction n with
  | zero => simp
  | succ n ih =>
    rw [List.range_succ, List.flatMap_append, List.map_append, List.sum_append, ih, Finset.sum_range_succ]
    simp

theorem sum_denseSlots (I J : ℕ) (bias : Bool) (f : Slot → ℝ) :
    ((denseSlots I J bias).map f).sum =
      ∑ j ∈ range J, ∑ i ∈ range I, f (.w [j, i]) + ∑ j ∈ range J, if bias then f (.b [j]) else 0 := by
  rw [denseSlots, sum_flatMap_range, ← Finset.sum_add_distrib]
  refine Finset.sum_congr rfl fun j _ => ?_
  rw [List.map_append, List.sum_append, List.map_map, sum_map_range]
  cases bias <;> simp

theorem sum_weightsThenBiases (I J : ℕ) (f : Slot → ℝ) :
    ((weightsThenBiases I J).map f).sum =
      ∑ j ∈ range J, ∑ i ∈ range I, f (.w [j, i]) + ∑ j ∈ range J, f (.b [j]) := by
  rw [weightsThenBiases, List.map_append, List.sum_append, sum_flatMap_range, List.map_map, sum_map_range]
  congr 1
  refine Finset.sum_congr rfl fun j _ => ?_
  rw [List.map_map, sum_map_range]
  rfl

theorem mem_denseSlots_w {I J : ℕ} {bias : Bool} {j i : ℕ} (hj : j < J) (hi : i < I) :
    Slot.w [j, i] ∈ denseSlots I J bias := by
  simp only [denseSlots, List.mem_flatMap, List.mem_range, List.mem_append, List.mem_map]
  exact ⟨j, hj, Or.inl ⟨i, hi, rfl⟩⟩

theorem mem_denseSlots_b {I J : ℕ} {j : ℕ} (hj : j < J) : Slot.b [j] ∈ denseSlots I J true := by
  simp only [denseSlots, List.mem_flatMap, List.mem_range, List.mem_append]
  exact ⟨j, hj, Or.inr (by simp)⟩

theorem mem_weightsThenBiases_w {I J : ℕ} {j i : ℕ} (hj : j < J) (hi : i < I) :
    Slot.w [j, i] ∈ weightsThenBiases I J := by
  simp only [weightsThenBiases, List.mem_flatMap, List.mem_range, List.mem_append, List.mem_map]
  exact Or.inl ⟨j, hj, i, hi, rfl⟩

theorem mem_weightsThenBiases_b {I J : ℕ} {j : ℕ} (hj : j < J) : Slot.b [j] ∈ weightsThenBiases I J := by
  simp only [weightsThenBiases, List.mem_range, List.mem_append, List.mem_map]
  exact Or.inr ⟨j, hj, rfl⟩

/-! ## The dense core -/

/-- Derivative of the activations of a dense layer. -/
def denseDot (I : ℕ) (W W' : Batch) (b' : ℕ → ℝ) (x x' : Batch) : Batch := fun n j =>
  ∑ i ∈ range I, (x' n i * W j i + x n i * W' j i) + b' j

theorem dense_hasDerivAt {I J N : ℕ} {W : ℝ → Batch} {b : ℝ → ℕ → ℝ} {x : ℝ → Batch} {t0 : ℝ} {W' x' : Batch}
    {b' : ℕ → ℝ}
    (hW : ∀ j < J, ∀ i < I, HasDerivAt (fun t => W t j i) (W' j i) t0)
    (hb : ∀ j < J, HasDerivAt (fun t => b t j) (b' j) t0)
    (hx : ∀ n < N, ∀ i < I, HasDerivAt (fun t => x t n i) (x' n i) t0)
    {n j : ℕ} (hn : n < N) (hj : j < J) :
    HasDerivAt (fun t => dense I (W t) (b t) (x t) n j) (denseDot I (W t0) W' b' (x t0) x' n j) t0 := by
  refine HasDerivAt.add ?_ (hb j hj)
  refine HasDerivAt.fun_sum fun i hi => ?_
  exact (hx n hn i (mem_range.1 hi)).mul (hW j hj i (mem_range.1 hi))

/-- Bookkeeping of a dense layer: the error signal times the change of the activations. -/
theorem dense_adjoint (I J N : ℕ) (W W' : Batch) (b' : ℕ → ℝ) (x x' δ : Batch) :
    inner N J δ (denseDot I W W' b' x x') =
      inner N I (fun n i => ∑ j ∈ range J, δ n j * W j i) x' +
        (∑ j ∈ range J, ∑ i ∈ range I, (∑ n ∈ range N, δ n j * x n i) * W' j i +
          ∑ j ∈ range J, (∑ n ∈ range N, δ n j) * b' j) := by
  have h1 : inner N I (fun n i => ∑ j ∈ range J, δ n j * W j i) x' =
      ∑ n ∈ range N, ∑ j ∈ range J, ∑ i ∈ range I, δ n j * (x' n i * W j i) := by
    refine Finset.sum_congr rfl fun n _ => ?_
    rw [Finset.sum_comm]
    refine Finset.sum_congr rfl fun i _ => ?_
    rw [Finset.sum_mul]
    exact Finset.sum_congr rfl fun j _ => by ring
  have h2 : ∑ j ∈ range J, ∑ i ∈ range I, (∑ n ∈ range N, δ n j * x n i) * W' j i =
      ∑ n ∈ range N, ∑ j ∈ range J, ∑ i ∈ range I, δ n j * (x n i * W' j i) := by
    rw [Finset.sum_comm (s := range N)]
    refine Finset.sum_congr rfl fun j _ => ?_
    rw [Finset.sum_comm (s := range N)]
    refine Finset.sum_congr rfl fun i _ => ?_
    rw [Finset.sum_mul]
    exact Finset.sum_congr rfl fun n _ => by ring
  have h3 : ∑ j ∈ range J, (∑ n ∈ range N, δ n j) * b' j = ∑ n ∈ range N, ∑ j ∈ range J, δ n j * b' j := by
    rw [Finset.sum_comm (s := range N)]
    refine Finset.sum_congr rfl fun j _ => ?_
    rw [Finset.sum_mul]
  rw [h1, h2, h3, ← Finset.sum_add_distrib, ← Finset.sum_add_distrib]
  refine Finset.sum_congr rfl fun n _ => ?_
  rw [← Finset.sum_add_distrib, ← Finset.sum_add_distrib]
  refine Finset.sum_congr rfl fun j _ => ?_
  rw [denseDot, mul_add, Finset.sum_add_distrib, mul_add, Finset.mul_sum, Finset.mul_sum]
  ring

theorem inner_deltas (N J : ℕ) (act : Act) (y ein a' : Batch) :
    inner N J ein (fun n j => act.deriv (y n j) * a' n j) = inner N J (deltas act y ein) a' := by
  refine Finset.sum_congr rfl fun n _ => Finset.sum_congr rfl fun j _ => ?_
  rw [deltas]
  ring

/-- No activation of the `N x J` matrix `a` is at a kink of `act`. -/
def Smooth (act : Act) (N J : ℕ) (a : Batch) : Prop := ∀ n < N, ∀ j < J, ¬ act.Kink (a n j)

theorem map_hasDerivAt {act : Act} {N J : ℕ} {a : ℝ → Batch} {a' : Batch} {t0 : ℝ}
    (hs : Smooth act N J (a t0))
    (ha : ∀ n < N, ∀ j < J, HasDerivAt (fun t => a t n j) (a' n j) t0) {n j : ℕ} (hn : n < N) (hj : j < J) :
    HasDerivAt (fun t => act.map (a t) n j) (act.deriv (act.map (a t0) n j) * a' n j) t0 :=
  (act_hasDerivAt act _ (hs n hn j hj)).comp t0 (ha n hn j hj)

/-! ## Regularisation -/

/-- The penalties are differentiable at the weight `w`. -/
def Reg.Smooth (r : Reg) (w : ℝ) : Prop := 0 < r.l1 → w ≠ 0

theorem reg_hasDerivAt_set {ι : Type} {r : Reg} {S : Finset ι} {v : ℝ → ι → ℝ} {v' : ι → ℝ} {t0 : ℝ}
    (hv : ∀ c ∈ S, HasDerivAt (fun t => v t c) (v' c) t0) (hs : ∀ c ∈ S, r.Smooth (v t0 c)) :
    HasDerivAt (fun t => r.error (∑ c ∈ S, |v t c|) (∑ c ∈ S, v t c ^ 2)) (∑ c ∈ S, r.deriv (v t0 c) * v' c) t0 := by
  have h2 : HasDerivAt (fun t => if 0 < r.l2 then r.l2 * (∑ c ∈ S, v t c ^ 2) / 2 else 0)
      (∑ c ∈ S, (if 0 < r.l2 then r.l2 * v t0 c else 0) * v' c) t0 := by
    by_cases h : 0 < r.l2
    · simp only [if_pos h]
      have : HasDerivAt (fun t => ∑ c ∈ S, v t c ^ 2) (∑ c ∈ S, 2 * v t0 c * v' c) t0 := by
        refine HasDerivAt.fun_sum fun c hc => ?_
        refine ((hv c hc).fun_pow 2).congr_deriv ?_
        push_cast
        ring
      refine ((this.const_mul r.l2).div_const 2).congr_deriv ?_
      rw [Finset.mul_sum, Finset.sum_div]
      exact Finset.sum_congr rfl fun c _ => by ring
    · simp only [if_neg h]
      simpa using hasDerivAt_const t0 (0 : ℝ)
  have h1 : HasDerivAt (fun t => if 0 < r.l1 then r.l1 * (∑ c ∈ S, |v t c|) else 0)
      (∑ c ∈ S, (if 0 < r.l1 then r.l1 * v t0 c / |v t0 c| else 0) * v' c) t0 := by
    by_cases h : 0 < r.l1
    · simp only [if_pos h]
      have : HasDerivAt (fun t => ∑ c ∈ S, |v t c|) (∑ c ∈ S, v t0 c / |v t0 c| * v' c) t0 := by
        refine HasDerivAt.fun_sum fun c hc => ?_
        have hne := hs c hc h
        have habs : HasDerivAt (fun y : ℝ => |y|) (v t0 c / |v t0 c|) (v t0 c) := by
          rcases lt_or_gt_of_ne hne with hlt | hgt
          · refine (hasDerivAt_abs_neg hlt).congr_deriv ?_
            rw [abs_of_neg hlt, div_neg, div_self hne]
          · refine (hasDerivAt_abs_pos hgt).congr_deriv ?_
            rw [abs_of_pos hgt, div_self hne]
        exact habs.comp t0 (hv c hc)
      refine (this.const_mul r.l1).congr_deriv ?_
      rw [Finset.mul_sum]
      exact Finset.sum_congr rfl fun c _ => by ring
    · simp only [if_neg h]
      simpa using hasDerivAt_const t0 (0 : ℝ)
  refine (h1.add h2).congr_deriv ?_
  rw [← Finset.sum_add_distrib]
  refine Finset.sum_congr rfl fun c _ => ?_
  rw [Reg.deriv]
  ring

theorem reg_hasDerivAt {r : Reg} {I J : ℕ} {W : ℝ → Batch} {W' : Batch} {t0 : ℝ}
    (hW : ∀ j < J, ∀ i < I, HasDerivAt (fun t => W t j i) (W' j i) t0)
    (hs : ∀ j < J, ∀ i < I, r.Smooth (W t0 j i)) :
    HasDerivAt (fun t => r.error (∑ j ∈ range J, ∑ i ∈ range I, |W t j i|) (∑ j ∈ range J, ∑ i ∈ range I, W t j i ^ 2))
      (∑ j ∈ range J, ∑ i ∈ range I, r.deriv (W t0 j i) * W' j i) t0 := by
  have := reg_hasDerivAt_set (r := r) (S := range J ×ˢ range I) (v := fun t c => W t c.1 c.2) (v' := fun c => W' c.1 c.2)
    (t0 := t0)
    (fun c hc => hW _ (mem_range.1 (mem_product.1 hc).1) _ (mem_range.1 (mem_product.1 hc).2))
    (fun c hc => hs _ (mem_range.1 (mem_product.1 hc).1) _ (mem_range.1 (mem_product.1 hc).2))
  simpa only [Finset.sum_product] using this

/-! ## The layers -/

theorem input_backprop (J N : ℕ) (w : Weights) (x : Batch) : BackpropAt (inputLayer J) N w x := by
  refine ⟨rfl, ?_⟩
  intro w x t0 w' x' _ _ _ _ hx
  refine ⟨x', 0, fun n hn j hj => hx n hn j hj, hasDerivAt_const t0 0, fun ein stale => ?_⟩
  simp [inputLayer]

theorem dropout_backprop (I N : ℕ) (mask : Batch) (w : Weights) (x : Batch) :
    BackpropAt (dropout I mask) N w x := by
  refine ⟨rfl, ?_⟩
  intro w x t0 w' x' _ _ _ _ hx
  refine ⟨fun n j => mask n j * x' n j, 0, fun n hn j hj => ?_, hasDerivAt_const t0 0, fun ein stale => ?_⟩
  · exact (hx n hn j hj).const_mul (mask n j)
  · simp only [dropout, List.map_nil, List.sum_nil, add_zero]
    refine Finset.sum_congr rfl fun n _ => Finset.sum_congr rfl fun j _ => ?_
    ring

theorem fullyConnected_backprop {I J N : ℕ} {bias : Bool} {act : Act} {reg : Reg} {w0 : Weights} {x0 : Batch}
    (hs : Smooth act N J (dense I w0.mat (w0.vec bias) x0))
    (hr : ∀ j < J, ∀ i < I, reg.Smooth (w0.mat j i)) :
    BackpropAt (fullyConnected I J bias act reg) N w0 x0 := by
  refine ⟨rfl, ?_⟩
  intro w x t0 w' x' hw0 hx0 hw _ hx
  subst hw0 hx0
  have hW : ∀ j < J, ∀ i < I, HasDerivAt (fun t => (w t).mat j i) (w'.mat j i) t0 :=
    fun j hj i hi => hw _ (mem_denseSlots_w hj hi)
  have hb : ∀ j < J, HasDerivAt (fun t => (w t).vec bias j) (w'.vec bias j) t0 := by
    intro j hj
    cases bias with
    | false => exact hasDerivAt_const t0 0
    | true => exact hw _ (mem_denseSlots_b hj)
  have ha := fun n hn j hj => dense_hasDerivAt hW hb hx (n := n) (j := j) hn hj
  refine ⟨_, _, fun n hn j hj => map_hasDerivAt hs ha hn hj, reg_hasDerivAt hW hr, fun ein stale => ?_⟩
  have key := dense_adjoint I J N (w t0).mat w'.mat (w'.vec bias) (x t0) x'
    (deltas act (act.map (dense I (w t0).mat ((w t0).vec bias) (x t0))) ein)
  have e1 : inner N J ein (fun n j => act.deriv (act.map (dense I (w t0).mat ((w t0).vec bias) (x t0)) n j) *
      denseDot I (w t0).mat w'.mat (w'.vec bias) (x t0) x' n j) = _ := (inner_deltas N J act _ ein _).trans key
  simp only [fullyConnected] at *
  rw [e1, sum_denseSlots]
  simp only [if_true, add_mul, Finset.sum_add_distrib]
  have hv : ∀ f : ℕ → ℝ, ∑ j ∈ range J, f j * w'.vec bias j =
      ∑ j ∈ range J, if bias then f j * w' (.b [j]) else 0 := by
    intro f
    refine Finset.sum_congr rfl fun j _ => ?_
    cases bias <;> simp [Weights.vec]
  rw [hv]
  simp only [Weights.mat]
  ring

theorem extreme_backprop {I J N : ℕ} {bias : Bool} {act : Act} {W : Batch} {w0 : Weights} {x0 : Batch}
    (hs : Smooth act N J (dense I W (fun j => if bias then W j I else 0) x0)) :
    BackpropAt (extreme I J bias act W) N w0 x0 := by
  refine ⟨rfl, ?_⟩
  intro w x t0 w' x' hw0 hx0 hw _ hx
  subst hw0 hx0
  have hW : ∀ j < J, ∀ i < I, HasDerivAt (fun _ : ℝ => W j i) ((fun _ _ => 0 : Batch) j i) t0 :=
    fun j _ i _ => hasDerivAt_const t0 _
  have hb : ∀ j < J, HasDerivAt (fun _ : ℝ => (fun j => if bias then W j I else 0) j) ((fun _ => 0 : ℕ → ℝ) j) t0 :=
    fun j _ => hasDerivAt_const t0 _
  have ha := fun n hn j hj =>
    dense_hasDerivAt (W := fun _ => W) (b := fun _ j => if bias then W j I else 0) hW hb hx (n := n) (j := j) hn hj
  refine ⟨_, 0, fun n hn j hj => map_hasDerivAt hs ha hn hj, hasDerivAt_const t0 0, fun ein stale => ?_⟩
  have key := dense_adjoint I J N W (fun _ _ => 0) (fun _ => 0) (x t0) x'
    (deltas act (act.map (dense I W (fun j => if bias then W j I else 0) (x t0))) ein)
  have e1 := (inner_deltas N J act (act.map (dense I W (fun j => if bias then W j I else 0) (x t0))) ein
    (denseDot I W (fun _ _ => 0) (fun _ => 0) (x t0) x')).trans key
  simp only [extreme] at *
  rw [e1]
  simp

theorem compressed_backprop {I J M N : ℕ} {bias : Bool} {act : Act} {reg : Reg} {phi : Batch} {w0 : Weights}
    {x0 : Batch}
    (hs : Smooth act N J (dense I (compressedW M phi w0) (compressedBias I M bias phi w0) x0))
    (hr : ∀ j < J, ∀ m < M, reg.Smooth (w0.mat j m)) :
    BackpropAt (compressed I J M bias act reg phi) N w0 x0 := by
  refine ⟨rfl, ?_⟩
  intro w x t0 w' x' hw0 hx0 hw _ hx
  subst hw0 hx0
  have hα : ∀ j < J, ∀ m < M, HasDerivAt (fun t => (w t).mat j m) (w'.mat j m) t0 :=
    fun j hj m hm => hw _ (mem_denseSlots_w hj hm)
  have hW' : ∀ j < J, ∀ i, HasDerivAt (fun t => compressedW M phi (w t) j i) (compressedW M phi w' j i) t0 :=
    fun j hj i => HasDerivAt.fun_sum fun m hm => (hα j hj m (mem_range.1 hm)).mul_const (phi m i)
  have hb : ∀ j < J, HasDerivAt (fun t => compressedBias I M bias phi (w t) j) (compressedBias I M bias phi w' j) t0 := by
    intro j hj
    cases bias with
    | false => exact hasDerivAt_const t0 0
    | true => exact hW' j hj I
  have ha := fun n hn j hj => dense_hasDerivAt (fun j hj i _ => hW' j hj i) hb hx (n := n) (j := j) hn hj
  refine ⟨_, _, fun n hn j hj => map_hasDerivAt hs ha hn hj, reg_hasDerivAt hα hr, fun ein stale => ?_⟩
  set δ := deltas act (act.map (dense I (compressedW M phi (w t0)) (compressedBias I M bias phi (w t0)) (x t0))) ein
    with hδ
  have key := dense_adjoint I J N (compressedW M phi (w t0)) (compressedW M phi w') (compressedBias I M bias phi w')
    (x t0) x' δ
  have e1 := (inner_deltas N J act
    (act.map (dense I (compressedW M phi (w t0)) (compressedBias I M bias phi (w t0)) (x t0))) ein
    (denseDot I (compressedW M phi (w t0)) (compressedW M phi w') (compressedBias I M bias phi w') (x t0) x')).trans key
  simp only [compressed] at *
  rw [e1, sum_denseSlots]
  simp only [if_true, add_mul, Finset.sum_add_distrib, ← hδ]
  have c1 : ∑ j ∈ range J, ∑ i ∈ range I, (∑ n ∈ range N, δ n j * x t0 n i) * compressedW M phi w' j i =
      ∑ j ∈ range J, ∑ m ∈ range M, (∑ i ∈ range I, (∑ n ∈ range N, δ n j * x t0 n i) * phi m i) * w'.mat j m := by
    refine Finset.sum_congr rfl fun j _ => ?_
    simp only [compressedW, Finset.mul_sum]
    rw [Finset.sum_comm]
    refine Finset.sum_congr rfl fun m _ => ?_
    rw [Finset.sum_mul]
    exact Finset.sum_congr rfl fun i _ => by ring
  have c2 : ∑ j ∈ range J, (∑ n ∈ range N, δ n j) * compressedBias I M bias phi w' j =
      ∑ j ∈ range J, ∑ m ∈ range M, (if bias then (∑ n ∈ range N, δ n j) * phi m I else 0) * w'.mat j m := by
    refine Finset.sum_congr rfl fun j _ => ?_
    cases bias with
    | false => simp [compressedBias]
    | true =>
      simp only [compressedBias, if_true, compressedW, Finset.mul_sum]
      exact Finset.sum_congr rfl fun m _ => by ring
  rw [c1, c2]
  simp only [Weights.mat, Bool.false_eq_true, if_false, Finset.sum_const_zero]
  ring

theorem intrinsicPlasticity_backprop {J N : ℕ} {s b : ℕ → ℝ} {w0 : Weights} {x0 : Batch}
    (hs : Smooth .logistic N J (fun n j => x0 n j * s j + b j)) :
    BackpropAt (intrinsicPlasticity J s b) N w0 x0 := by
  refine ⟨rfl, ?_⟩
  intro w x t0 w' x' hw0 hx0 hw _ hx
  subst hw0 hx0
  have ha : ∀ n < N, ∀ j < J, HasDerivAt (fun t => (fun n j => x t n j * s j + b j : Batch) n j)
      ((fun n j => x' n j * s j : Batch) n j) t0 :=
    fun n hn j hj => ((hx n hn j hj).mul_const (s j)).add_const (b j)
  refine ⟨_, 0, fun n hn j hj => map_hasDerivAt (a := fun t n j => x t n j * s j + b j) hs ha hn hj,
    hasDerivAt_const t0 0, fun ein stale => ?_⟩
  simp only [intrinsicPlasticity, List.map_nil, List.sum_nil, add_zero, if_true]
  refine Finset.sum_congr rfl fun n _ => Finset.sum_congr rfl fun j _ => ?_
  simp only [Act.map]
  ring

theorem rbm_backprop {D H N : ℕ} {backprop : Bool} {w0 : Weights} {x0 : Batch}
    (hs : Smooth .logistic N H (dense D w0.mat (w0.vec true) x0)) :
    BackpropAt (rbm D H backprop) N w0 x0 := by
  refine ⟨rfl, ?_⟩
  intro w x t0 w' x' hw0 hx0 hw hc hx
  subst hw0 hx0
  have hW : ∀ j < H, ∀ i < D, HasDerivAt (fun t => (w t).mat j i) (if backprop then w'.mat j i else 0) t0 := by
    intro j hj i hi
    cases backprop with
    | true => exact hw _ (mem_weightsThenBiases_w hj hi)
    | false =>
      have : (fun t => (w t).mat j i) = fun _ => (w t0).mat j i := by
        funext t
        exact hc _ (by simp [rbm]) t
      rw [this]
      exact hasDerivAt_const t0 _
  have hb : ∀ j < H, HasDerivAt (fun t => (w t).vec true j) (if backprop then w'.vec true j else 0) t0 := by
    intro j hj
    cases backprop with
    | true => exact hw _ (mem_weightsThenBiases_b hj)
    | false =>
      have : (fun t => (w t).vec true j) = fun _ => (w t0).vec true j := by
        funext t
        exact hc _ (by simp [rbm]) t
      rw [this]
      exact hasDerivAt_const t0 _
  have ha := fun n hn j hj =>
    dense_hasDerivAt (W' := fun j i => if backprop then w'.mat j i else 0)
      (b' := fun j => if backprop then w'.vec true j else 0) hW hb hx (n := n) (j := j) hn hj
  refine ⟨_, 0, fun n hn j hj => map_hasDerivAt (act := .logistic) hs ha hn hj, hasDerivAt_const t0 0, fun ein stale => ?_⟩
  have key := dense_adjoint D H N (w t0).mat (fun j i => if backprop then w'.mat j i else 0)
    (fun j => if backprop then w'.vec true j else 0) (x t0) x'
    (deltas .logistic (Act.logistic.map (dense D (w t0).mat ((w t0).vec true) (x t0))) ein)
  have e1 := (inner_deltas N H .logistic (Act.logistic.map (dense D (w t0).mat ((w t0).vec true) (x t0))) ein
    (denseDot D (w t0).mat (fun j i => if backprop then w'.mat j i else 0)
    (fun j => if backprop then w'.vec true j else 0) (x t0) x')).trans key
  simp only [rbm] at *
  rw [e1]
  cases backprop with
  | true =>
    rw [if_pos rfl, sum_weightsThenBiases]
    simp only [Weights.mat, Weights.vec, if_true]
    ring
  | false => simp

theorem sparseAutoEncoder_backprop {D H N : ℕ} {act : Act} {lambda : ℝ} {w0 : Weights} {x0 : Batch}
    (hs : Smooth act N H (dense D w0.mat (w0.vec true) x0)) (hl : 0 ≤ lambda) :
    BackpropAt (sparseAutoEncoder D H act lambda) N w0 x0 := by
  refine ⟨rfl, ?_⟩
  intro w x t0 w' x' hw0 hx0 hw _ hx
  subst hw0 hx0
  have hW : ∀ j < H, ∀ i < D, HasDerivAt (fun t => (w t).mat j i) (w'.mat j i) t0 :=
    fun j hj i hi => hw _ (mem_weightsThenBiases_w hj hi)
  have hb : ∀ j < H, HasDerivAt (fun t => (w t).vec true j) (w'.vec true j) t0 :=
    fun j hj => hw _ (mem_weightsThenBiases_b hj)
  have ha := fun n hn j hj => dense_hasDerivAt hW hb hx (n := n) (j := j) hn hj
  have hR : HasDerivAt (fun t => (sparseAutoEncoder D H act lambda).regError (w t))
      (∑ j ∈ range H, ∑ i ∈ range D, lambda * (w t0).mat j i * w'.mat j i) t0 := by
    have h0 := reg_hasDerivAt (r := ⟨0, lambda, 0⟩) hW (fun j _ i _ h => absurd h (lt_irrefl 0))
    have e : (fun t => (sparseAutoEncoder D H act lambda).regError (w t)) = fun t =>
        Reg.error ⟨0, lambda, 0⟩ (∑ j ∈ range H, ∑ i ∈ range D, |(w t).mat j i|)
          (∑ j ∈ range H, ∑ i ∈ range D, (w t).mat j i ^ 2) := by
      funext t
      simp [Reg.error, sparseAutoEncoder]
    rw [e]
    refine h0.congr_deriv ?_
    refine Finset.sum_congr rfl fun j _ => Finset.sum_congr rfl fun i _ => ?_
    simp only [Reg.deriv, lt_irrefl, if_false, zero_add]
    by_cases h : 0 < lambda
    · rw [if_pos h]
    · rw [if_neg h, le_antisymm (not_lt.1 h) hl]
      ring
  refine ⟨_, _, fun n hn j hj => map_hasDerivAt hs ha hn hj, hR, fun ein stale => ?_⟩
  have key := dense_adjoint D H N (w t0).mat w'.mat (w'.vec true) (x t0) x'
    (deltas act (act.map (dense D (w t0).mat ((w t0).vec true) (x t0))) ein)
  have e1 := (inner_deltas N H act (act.map (dense D (w t0).mat ((w t0).vec true) (x t0))) ein
    (denseDot D (w t0).mat w'.mat (w'.vec true) (x t0) x')).trans key
  simp only [sparseAutoEncoder] at *
  rw [e1, sum_weightsThenBiases]
  simp only [if_true, add_mul, Finset.sum_add_distrib, Weights.mat, Weights.vec]
  ring

end

end Verif.NN
