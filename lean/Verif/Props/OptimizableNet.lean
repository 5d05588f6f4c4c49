import Verif.Model.OptimizableNet
import Verif.Props.Optimizable
import Verif.Props.AlglibFails

/-!
# The functions that a network inherits from `Optimizable` (C73)

`error(startN, endN)` and `gradient(startN, endN)` are inherited, `errorGradient(startN, endN, ...)` is overridden.  The
inherited functions add up, the overriding one returns means.
-/

namespace Verif.NN

open Finset

/-- **C73 (value of a batch)**: for every list of examples, `errorGradient` returns the mean of the errors of the examples, for
every architecture whose layers treat the rows of a batch alike. -/
theorem batch_value_mean {D : ℕ} {ks : List Kind} {ce : Bool} (h : ∀ k ∈ ks, k.RowWise) (mem : Mem) (sc : Scratch)
    (ds : TrainSet) {idx : List ℕ} (hidx : idx ≠ []) :
    ((buildNet D ks ce).errorGradient mem sc ds idx).1 =
      (∑ n ∈ range idx.length, (buildNet D ks ce).errorAt mem ds (idx.getD n 0)) / idx.length := by
  have hN' : (idx.length : ℝ) ≠ 0 := by
    have := List.length_pos_iff.2 hidx
    exact_mod_cast this.ne'
  set net := buildNet D ks ce with hnet
  have hrow : ∀ n j, net.output mem idx.length (selectRows ds.inst idx) n j =
      net.output mem 1 (fun _ => ds.inst (idx.getD n 0)) 0 j := fun n j => output_row (buildNet_row h) mem _ _ n j
  show regFrom mem 0 net.layers + net.loss idx.length (net.output mem idx.length (selectRows ds.inst idx))
    (selectRows ds.tgt idx) = _
  simp only [Net.errorAt, Finset.sum_add_distrib, Finset.sum_const, card_range, nsmul_eq_mul]
  rw [add_div, mul_div_cancel_left₀ _ hN', add_comm]
  refine congrArg (fun z => z + regFrom mem 0 net.layers) ?_
  unfold Net.loss
  cases net.ce
  · simp only [Bool.false_eq_true, if_false, meanSquaredError, Finset.sum_range_one, Nat.cast_one, hrow, selectRows]
    rw [← Finset.sum_div, div_div]
    congr 1
    ring
  · simp only [if_true, crossEntropy, Finset.sum_range_one, Nat.cast_one, div_one, hrow, selectRows]
    rw [Finset.sum_neg_distrib]

end Verif.NN

namespace Verif.Opt

open NN Finset

noncomputable section

variable {D : ℕ} {ks : List Kind} (ce : Bool) (mem : Mem) (sc : ℕ → Scratch) (ds : TrainSet)

/-- A network meets the specification of an objective. -/
theorem net_is (hs : ds.samples ≤ 2 ^ 31) :
    (netObjective (buildNet D ks ce) mem sc ds).Is ds.samples (buildNet D ks ce).P
      (fun n => (buildNet D ks ce).errorAt mem ds n) (fun n => ((buildNet D ks ce).errorGradient mem (sc n) ds [n]).2) where
  examples := rfl
  dimension := rfl
  small := hs
  error n hn := by
    show (if n < ds.samples then _ else _) = _
    rw [if_pos hn]
  gradient n hn := by
    show (if n < ds.samples then _ else _) = _
    rw [if_pos hn]
  length n _ := by
    rw [errorGradient_length, (parameters_one_to_one D ks ce).2.2.2.1, Net.P]

theorem sum_map_getD (f : ℕ → ℝ) (idx : List ℕ) : (idx.map f).sum = ∑ n ∈ range idx.length, f (idx.getD n 0) := by
  induction idx with
  | nil => simp
  | cons a idx ih =>
    rw [List.map_cons, List.sum_cons, ih, List.length_cons, sum_range_succ']
    simp [add_comm]

/-- **C73 (inherited errors)**: `error(startN, endN)` lists the errors of the examples; `errorGradient` returns their mean. -/
theorem net_errors (hr : ∀ k ∈ ks, k.RowWise) (hs : ds.samples ≤ 2 ^ 31) (sc' : Scratch) {idx : List ℕ} (hidx : idx ≠ [])
    (hi : ∀ n ∈ idx, n < ds.samples) :
    ∃ es, (netObjective (buildNet D ks ce) mem sc ds).errors (ints idx) = .ok es ∧ es.length = idx.length ∧
      ((buildNet D ks ce).errorGradient mem sc' ds idx).1 = es.sum / idx.length :=
  ⟨_, errors_accumulates (net_is ce mem sc ds hs) hi, by simp, by
    rw [batch_value_mean hr mem sc' ds hidx, sum_map_getD]⟩

/-- **C73 (inherited gradient)**: `gradient(startN, endN)` is `N` times the gradient that `errorGradient` returns for the same
examples, plus `N - 1` times the gradient of the penalties. -/
theorem net_gradient (hr : ∀ k ∈ ks, k.RowWise) (hs : ds.samples ≤ 2 ^ 31) (sc' : Scratch) {idx : List ℕ} (hidx : idx ≠ [])
    (hi : ∀ n ∈ idx, n < ds.samples) {i : ℕ} (hP : i < (buildNet D ks ce).P) :
    ∃ (G : List ℝ) (G' g p : ℝ), (netObjective (buildNet D ks ce) mem sc ds).gradientRange (ints idx) = .ok G ∧
      G[i]? = some G' ∧ ((buildNet D ks ce).errorGradient mem sc' ds idx).2[i]? = some g ∧
      (decayGradient D ks mem)[i]? = some p ∧ G' = idx.length * g + (idx.length - 1) * p := by
  obtain ⟨g, p, gs, h1, h2, h3, h4⟩ := batch_gradient ce hr mem sc' (fun n => sc (idx.getD n 0)) ds hidx hP
  refine ⟨_, ∑ n ∈ range idx.length, gs n, g, p, gradient_accumulates (net_is ce mem sc ds hs) hi, ?_, h1, h2, ?_⟩
  · rw [totalGradient, List.getElem?_map, List.getElem?_range hP, Option.map_some, sum_map_getD]
    congr 1
    refine sum_congr rfl fun n _ => ?_
    rw [List.getD, h3 n]
    rfl
  · rw [h4]
    ring

/-- **C73 (inherited gradient without penalties)** -/
theorem net_gradient_sum (hr : ∀ k ∈ ks, k.RowWise) (hp : ∀ k ∈ ks, k.NoDecay) (hs : ds.samples ≤ 2 ^ 31) (sc' : Scratch)
    {idx : List ℕ} (hidx : idx ≠ []) (hi : ∀ n ∈ idx, n < ds.samples) {i : ℕ} (hP : i < (buildNet D ks ce).P) :
    ∃ (G : List ℝ) (G' g : ℝ), (netObjective (buildNet D ks ce) mem sc ds).gradientRange (ints idx) = .ok G ∧
      G[i]? = some G' ∧ ((buildNet D ks ce).errorGradient mem sc' ds idx).2[i]? = some g ∧ G' = idx.length * g := by
  obtain ⟨G, G', g, p, h1, h2, h3, h4, h5⟩ := net_gradient ce mem sc ds hr hs sc' hidx hi hP
  refine ⟨G, G', g, h1, h2, h3, ?_⟩
  have hp0 : p = 0 := by
    rw [decayGradient, List.getElem?_map] at h4
    obtain ⟨q, hq, rfl⟩ := Option.map_eq_some_iff.1 h4
    rw [decayAt]
    cases hk : ks[q.1 - 1]? with
    | none => rfl
    | some k => exact k.decay_zero (hp k (List.mem_of_getElem? hk)) _ _
  rw [h5, hp0, mul_zero, add_zero]

/-- **C73 is false for networks**: the documentation of the interface promises the accumulated error of the examples
(and the inherited function computes it); the function of `Net` returns half of it for two examples. -/
theorem net_accumulated_fails (sc' : Scratch) :
    ∃ (net : Net) (ds : TrainSet) (mem : Mem) (idx : List ℕ), (∀ n ∈ idx, n < ds.samples) ∧ (∃ D ks, net = buildNet D ks false) ∧
      ∀ sc, ∃ v G, (netObjective net mem sc ds).errorGradientRange true (ints idx) (List.replicate net.P 0) = .ok (v, G) ∧
        (net.errorGradient mem sc' ds idx).1 ≠ v ∧ (net.errorGradient mem sc' ds idx).1 = v / 2 := by
  refine ⟨Alglib.neuron, Alglib.twoExamples, Alglib.neuron.setParameters (fun _ _ => 0) [0], [0, 1], by decide, ⟨_, _, rfl⟩,
    fun sc => ⟨_, _, range_accumulates (net_is false (Alglib.neuron.setParameters (fun _ _ => 0) [0]) sc Alglib.twoExamples
      (by decide)) true (idx := [0, 1]) (by decide) (List.length_replicate ..), ?_⟩⟩
  have hv : (Alglib.neuron.errorGradient (Alglib.neuron.setParameters (fun _ _ => 0) [0]) sc' Alglib.twoExamples [0, 1]).1 = 1 := by
    have := batch_value_mean (D := 1) (ks := [.fullyConnected 1 false .linear ⟨0, 0, 0⟩]) (ce := false)
      (by intro k hk; rw [List.mem_singleton] at hk; rw [hk]; trivial)
      (Alglib.neuron.setParameters (fun _ _ => 0) [0]) sc' Alglib.twoExamples (idx := [0, 1]) (by simp)
    refine this.trans ?_
    show (∑ n ∈ range 2, Alglib.neuron.errorAt _ _ _) / ((2 : ℕ) : ℝ) = _
    rw [sum_range_succ, sum_range_one, Alglib.neuron_errorAt, Alglib.neuron_errorAt]
    norm_num
  have ht : total (fun n => Alglib.neuron.errorAt (Alglib.neuron.setParameters (fun _ _ => 0) [0]) Alglib.twoExamples n) [0, 1] = 2 := by
    simp only [total, List.map_cons, List.map_nil, List.sum_cons, List.sum_nil, Alglib.neuron_errorAt]
    norm_num
  have ht' : total (fun n => (buildNet 1 [.fullyConnected 1 false .linear ⟨0, 0, 0⟩] false).errorAt
      (Alglib.neuron.setParameters (fun _ _ => 0) [0]) Alglib.twoExamples n) [0, 1] = 2 := ht
  rw [hv, ht']
  norm_num

/-- The hypotheses are met by a network with a penalty, a batch of three with a repetition. -/
example : ∃ (ks : List Kind) (ds : TrainSet) (idx : List ℕ), 2 ≤ ks.length ∧ (∀ k ∈ ks, k.RowWise) ∧ idx ≠ [] ∧
    ds.samples ≤ 2 ^ 31 ∧ (∀ n ∈ idx, n < ds.samples) ∧ 0 < (buildNet 3 ks true).P ∧
      ∃ k ∈ ks, ∃ s, k.decay s 1 ≠ 0 := by
  refine ⟨[.fullyConnected 2 true .tanh ⟨0, 1, 0⟩, .fullyConnected 2 true .linear ⟨0, 0, 0⟩],
    ⟨4, fun _ _ => 1, fun _ _ => 0⟩, [1, 3, 1], by simp, ?_, by simp, by norm_num, by simp, by
      rw [(parameters_one_to_one 3 _ true).2.2.2.2]; decide, ?_⟩
  · intro k hk
    simp only [List.mem_cons, List.not_mem_nil, or_false] at hk
    rcases hk with rfl | rfl <;> trivial
  · refine ⟨_, List.mem_cons_self, .w [0, 0], ?_⟩
    show Reg.deriv ⟨0, 1, 0⟩ 1 ≠ 0
    norm_num [Reg.deriv]

end

end Verif.Opt
