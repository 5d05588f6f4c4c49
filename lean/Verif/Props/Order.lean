import Verif.Props.OptimizableNet

/-!
# The order of the examples does not matter (C74): error and gradient of a network
-/

namespace Verif.NN

open Finset

noncomputable section

/-- Spec: the mean of a function over a list of examples. -/
def meanOver (f : ℕ → ℝ) (idx : List ℕ) : ℝ := (idx.map f).sum / idx.length

theorem meanOver_perm {f : ℕ → ℝ} {idx idx' : List ℕ} (h : idx.Perm idx') : meanOver f idx = meanOver f idx' := by
  rw [meanOver, meanOver, (h.map f).sum_eq, h.length_eq]

section

variable {D : ℕ} {ks : List Kind} (ce : Bool) (hr : ∀ k ∈ ks, k.RowWise) (mem : Mem) (ds : TrainSet)

/-- An entry of the gradient of one example (with fixed buffers; they have no influence). -/
def gradientEntry (D : ℕ) (ks : List Kind) (ce : Bool) (mem : Mem) (ds : TrainSet) (i n : ℕ) : ℝ :=
  ((buildNet D ks ce).errorGradient mem ⟨fun _ _ => 0, fun _ _ _ => 0⟩ ds [n]).2.getD i 0

include hr

/-- Every entry of the gradient of a batch, as a function of the multiset of examples. -/
theorem gradient_entry (sc : Scratch) {idx : List ℕ} (hidx : idx ≠ []) {i : ℕ} (hi : i < (buildNet D ks ce).P) :
    ((buildNet D ks ce).errorGradient mem sc ds idx).2[i]? =
      some (meanOver (gradientEntry D ks ce mem ds i) idx -
        (idx.length - 1) / idx.length * (decayGradient D ks mem).getD i 0) := by
  obtain ⟨g, p, gs, h1, h2, h3, h4⟩ := batch_gradient ce hr mem sc (fun _ => ⟨fun _ _ => 0, fun _ _ _ => 0⟩) ds hidx hi
  have hN : (idx.length : ℝ) ≠ 0 := by
    have := List.length_pos_iff.2 hidx
    exact_mod_cast this.ne'
  have hs : ∑ n ∈ range idx.length, gs n = (idx.map (gradientEntry D ks ce mem ds i)).sum := by
    rw [Opt.sum_map_getD]
    refine sum_congr rfl fun n _ => ?_
    rw [gradientEntry, List.getD, h3 n]
    rfl
  have hp : (decayGradient D ks mem).getD i 0 = p := by
    rw [List.getD, h2]
    rfl
  rw [h1, hp, meanOver, ← hs]
  congr 1
  rw [hs] at h4 ⊢
  field_simp
  linarith

/-- **C74 (batches)**: value and gradient of a batch do not depend on the order of its examples, with or without penalties. -/
theorem batch_order (sc sc' : Scratch) {idx idx' : List ℕ} (hp : idx.Perm idx') (hidx : idx ≠ []) :
    (buildNet D ks ce).errorGradient mem sc ds idx = (buildNet D ks ce).errorGradient mem sc' ds idx' := by
  have hidx' : idx' ≠ [] := fun e => hidx (by rw [e] at hp; exact hp.eq_nil)
  refine Prod.ext ?_ (List.ext_getElem? fun i => ?_)
  · rw [batch_value_mean hr mem sc ds hidx, batch_value_mean hr mem sc' ds hidx', ← Opt.sum_map_getD, ← Opt.sum_map_getD]
    exact meanOver_perm hp
  · by_cases hi : i < (buildNet D ks ce).P
    · rw [gradient_entry ce hr mem ds sc hidx hi, gradient_entry ce hr mem ds sc' hidx' hi, meanOver_perm hp, hp.length_eq]
    · have hl : ∀ sc idx, ((buildNet D ks ce).errorGradient mem sc ds idx).2.length = (buildNet D ks ce).P := by
        intro sc idx
        rw [errorGradient_length, (parameters_one_to_one D ks ce).2.2.2.1, Net.P]
      rw [List.getElem?_eq_none (by rw [hl]; omega), List.getElem?_eq_none (by rw [hl]; omega)]

/-- **C74 (repetitions)**: without penalties, a batch that contains every example `m` times as often has the same value and
gradient. -/
theorem batch_repeated (hd : ∀ k ∈ ks, k.NoDecay) (sc sc' : Scratch) {idx idx' : List ℕ} {m : ℕ} (hm : 0 < m)
    (hp : idx'.Perm (List.replicate m idx).flatten) (hidx : idx ≠ []) :
    (buildNet D ks ce).errorGradient mem sc ds idx' = (buildNet D ks ce).errorGradient mem sc' ds idx := by
  have hidx' : idx' ≠ [] := by
    intro e
    rw [e] at hp
    have := hp.symm.eq_nil
    rw [List.flatten_eq_nil_iff] at this
    exact hidx (this idx (List.mem_replicate.2 ⟨by omega, rfl⟩))
  have hN : (idx.length : ℝ) ≠ 0 := by
    have := List.length_pos_iff.2 hidx
    exact_mod_cast this.ne'
  have hM : (m : ℝ) ≠ 0 := by exact_mod_cast hm.ne'
  have hmean : ∀ f : ℕ → ℝ, meanOver f idx' = meanOver f idx := by
    intro f
    rw [meanOver_perm hp, meanOver, meanOver]
    have h1 : (((List.replicate m idx).flatten).map f).sum = m * (idx.map f).sum := by
      rw [List.map_flatten, List.sum_flatten]
      simp
    have h2 : (((List.replicate m idx).flatten).length : ℝ) = m * idx.length := by
      simp [List.length_flatten]
    rw [h1, h2, mul_div_mul_left _ _ hM]
  have hdec : ∀ i, (decayGradient D ks mem).getD i 0 = 0 := by
    intro i
    rw [List.getD]
    cases h : (decayGradient D ks mem)[i]? with
    | none => rfl
    | some p =>
      rw [decayGradient, List.getElem?_map] at h
      obtain ⟨q, hq, rfl⟩ := Option.map_eq_some_iff.1 h
      rw [Option.getD_some, decayAt]
      cases hk : ks[q.1 - 1]? with
      | none => rfl
      | some k => exact k.decay_zero (hd k (List.mem_of_getElem? hk)) _ _
  refine Prod.ext ?_ (List.ext_getElem? fun i => ?_)
  · rw [batch_value_mean hr mem sc ds hidx', batch_value_mean hr mem sc' ds hidx, ← Opt.sum_map_getD, ← Opt.sum_map_getD]
    exact hmean _
  · by_cases hi : i < (buildNet D ks ce).P
    · rw [gradient_entry ce hr mem ds sc hidx' hi, gradient_entry ce hr mem ds sc' hidx hi, hmean, hdec, mul_zero, mul_zero]
    · have hl : ∀ sc idx, ((buildNet D ks ce).errorGradient mem sc ds idx).2.length = (buildNet D ks ce).P := by
        intro sc idx
        rw [errorGradient_length, (parameters_one_to_one D ks ce).2.2.2.1, Net.P]
      rw [List.getElem?_eq_none (by rw [hl]; omega), List.getElem?_eq_none (by rw [hl]; omega)]

end

/-- Spec: training set `ds'` contains the examples of `ds` in the order `π`. -/
def Reordered (π : List ℕ) (ds ds' : TrainSet) : Prop :=
  π.Perm (List.range ds.samples) ∧ ds'.samples = ds.samples ∧
    ∀ n < ds.samples, ds'.inst n = ds.inst (π.getD n 0) ∧ ds'.tgt n = ds.tgt (π.getD n 0)

section

variable {D : ℕ} {ks : List Kind} (ce : Bool) (mem : Mem) {ds ds' : TrainSet} {π : List ℕ} (h : Reordered π ds ds')

include h

/-- **C74 (`error()`)**: `error()` is the same for every order of the training set, for every network without exception. -/
theorem error_order (net : Net) : net.error mem ds = net.error mem ds' := by
  obtain ⟨hp, hs, hr⟩ := h
  rw [error_mean, error_mean, hs]
  congr 1
  have h1 : ∑ n ∈ range ds.samples, net.errorAt mem ds' n = ∑ n ∈ range ds.samples, net.errorAt mem ds (π.getD n 0) := by
    refine sum_congr rfl fun n hn => ?_
    rw [Net.errorAt, Net.errorAt, (hr n (mem_range.1 hn)).1, (hr n (mem_range.1 hn)).2]
  have hl : π.length = ds.samples := by rw [hp.length_eq, List.length_range]
  rw [h1, ← hl, ← Opt.sum_map_getD, (hp.map _).sum_eq, Opt.sum_map_getD, List.length_range]
  rw [hl]
  refine sum_congr rfl fun n hn => ?_
  rw [List.getD, List.getElem?_range (mem_range.1 hn)]
  rfl

/-- **C74 (`errorGradient()`)**: value and gradient for the whole training set are the same for every order of the training
set. -/
theorem errorGradient_order (hr : ∀ k ∈ ks, k.RowWise) (sc sc' : Scratch) (hN : 0 < ds.samples) :
    (buildNet D ks ce).errorGradientAll mem sc ds = (buildNet D ks ce).errorGradientAll mem sc' ds' := by
  obtain ⟨hp, hs, hrow⟩ := h
  have hl : π.length = ds.samples := by rw [hp.length_eq, List.length_range]
  have hne : π ≠ [] := by
    intro e
    rw [e] at hl
    simp at hl
    omega
  rw [Net.errorGradientAll, Net.errorGradientAll, hs, batch_order ce hr mem ds sc sc' hp.symm (by
    intro e
    rw [List.range_eq_nil] at e
    omega)]
  have hl' : (List.range ds.samples).length = π.length := by rw [hl, List.length_range]
  have hrange : List.range ds.samples ≠ [] := by
    intro e
    rw [List.range_eq_nil] at e
    omega
  have hmean : ∀ f f' : ℕ → ℝ, (∀ n < ds.samples, f' n = f (π.getD n 0)) →
      meanOver f π = meanOver f' (List.range ds.samples) := by
    intro f f' hf
    rw [meanOver, meanOver, hl', Opt.sum_map_getD, Opt.sum_map_getD, hl']
    congr 1
    refine sum_congr rfl fun n hn => ?_
    rw [mem_range, hl] at hn
    have : (List.range ds.samples).getD n 0 = n := by
      rw [List.getD, List.getElem?_range hn]
      rfl
    rw [this, hf n hn]
  refine Prod.ext ?_ (List.ext_getElem? fun i => ?_)
  · rw [batch_value_mean hr mem sc' ds hne, batch_value_mean hr mem sc' ds' hrange, ← Opt.sum_map_getD, ← Opt.sum_map_getD]
    refine hmean _ _ fun n hn => ?_
    rw [Net.errorAt, Net.errorAt, (hrow n hn).1, (hrow n hn).2]
  · by_cases hi : i < (buildNet D ks ce).P
    · rw [gradient_entry ce hr mem ds sc' hne hi, gradient_entry ce hr mem ds' sc' hrange hi, hl']
      congr 2
      refine hmean _ _ fun n hn => ?_
      rw [gradientEntry, gradientEntry, List.getD, List.getD,
        single_gradient ce hr mem _ ⟨fun _ _ => 0, fun _ _ _ => 0⟩ (hrow n hn).1 (hrow n hn).2 hi]
    · have hl : ∀ sc ds idx, ((buildNet D ks ce).errorGradient mem sc ds idx).2.length = (buildNet D ks ce).P := by
        intro sc ds idx
        rw [errorGradient_length, (parameters_one_to_one D ks ce).2.2.2.1, Net.P]
      rw [List.getElem?_eq_none (by rw [hl]; omega), List.getElem?_eq_none (by rw [hl]; omega)]

end

/-- **C74 is false with local response normalisation**: a batch of three examples has another value when its examples are
taken in the opposite order. -/
theorem batch_order_fails {g : LRN} (ha : 0 < g.alpha) (hk : 0 < g.k) (hb : 0 < g.beta) (hf : g.fm = 3)
    (hr : g.rows = 1) (hc : g.cols = 1) (mem : Mem) (sc : Scratch) :
    ∃ ds : TrainSet, ds.samples = 3 ∧ ((buildNet g.inputs [.lrn g] false).errorGradient mem sc ds [0, 1, 2]).1 ≠
      ((buildNet g.inputs [.lrn g] false).errorGradient mem sc ds [2, 1, 0]).1 := by
  have hS : g.fmSize = 1 := by rw [LRN.fmSize, hr, hc]
  have hI : g.inputs = 3 := by rw [LRN.inputs, hf, hr, hc]
  set net := buildNet g.inputs [.lrn g] false with hnet
  have hF : net.outputs = 3 := by
    show g.inputs = 3
    exact hI
  have hreg : regFrom mem 0 net.layers = 0 := by
    show (0 : ℝ) + (0 + 0) = 0
    norm_num
  let X : Batch := fun n _ => if n = 2 then 1 else 0
  refine ⟨⟨3, X, fun _ _ => 0⟩, rfl, fun e => ?_⟩
  have hm0 : (g.maps 2 0).card = 1 := by rw [LRN.maps, hf]; rfl
  have hm1 : (g.maps 2 1).card = 2 := by rw [LRN.maps, hf]; rfl
  have hm2 : (g.maps 2 2).card = 1 := by rw [LRN.maps, hf]; rfl
  have hv : ∀ idx : List ℕ, idx.length = 3 → (net.errorGradient mem sc ⟨3, X, fun _ _ => 0⟩ idx).1 =
      (∑ n ∈ range 3, ∑ j ∈ range 3, (g.forward (selectRows X idx) n j) ^ 2) / 6 := by
    intro idx hl
    show regFrom mem 0 net.layers + meanSquaredError idx.length net.outputs _ = _
    rw [hreg, zero_add, hF, hl, meanSquaredError]
    show (∑ n ∈ range 3, ∑ j ∈ range 3, (g.forward (selectRows X idx) n j - 0) ^ 2) / (2 * ((3 : ℕ) : ℝ)) = _
    simp only [sub_zero]
    norm_num
  have hfw0 : ∀ (Y : Batch) n j, Y n j = 0 → g.forward Y n j = 0 := fun Y n j h => by rw [LRN.forward, h, zero_mul]
  have hA : ∀ j, g.forward (selectRows X [0, 1, 2]) 2 j = (g.k + g.alpha * (g.maps 2 j).card) ^ (-g.beta) := by
    intro j
    have h2 : ∀ i, selectRows X [0, 1, 2] 2 i = 1 := fun i => by simp [selectRows, X]
    simp only [LRN.forward, LRN.denomAt, LRN.denom, hS, Nat.div_one, h2, one_mul, Finset.sum_const, nsmul_eq_mul, mul_one]
  have hB : ∀ j, g.forward (selectRows X [2, 1, 0]) 0 j = g.k ^ (-g.beta) := by
    intro j
    have h2 : ∀ i, selectRows X [2, 1, 0] 0 i = 1 := fun i => by simp [selectRows, X]
    simp only [LRN.forward, LRN.denomAt, LRN.denom, LRN.maps_empty g (Nat.zero_le 1), Finset.sum_empty, mul_zero, add_zero, h2,
      one_mul]
  rw [hv _ rfl, hv _ rfl] at e
  have a0 : ∀ j, g.forward (selectRows X [0, 1, 2]) 0 j = 0 := fun j => hfw0 _ _ _ (by simp [selectRows, X])
  have a1 : ∀ j, g.forward (selectRows X [0, 1, 2]) 1 j = 0 := fun j => hfw0 _ _ _ (by simp [selectRows, X])
  have b1 : ∀ j, g.forward (selectRows X [2, 1, 0]) 1 j = 0 := fun j => hfw0 _ _ _ (by simp [selectRows, X])
  have b2 : ∀ j, g.forward (selectRows X [2, 1, 0]) 2 j = 0 := fun j => hfw0 _ _ _ (by simp [selectRows, X])
  simp only [Finset.sum_range_succ, Finset.sum_range_zero, a0, a1, b1, b2, hA, hB, hm0, hm1, hm2, zero_add, Nat.cast_one,
    mul_one, Nat.cast_ofNat] at e
  have hlt : ∀ c : ℝ, 0 < c → (g.k + c) ^ (-g.beta) < g.k ^ (-g.beta) := by
    intro c hc'
    rw [Real.rpow_neg (by positivity), Real.rpow_neg hk.le]
    have h1 := Real.rpow_lt_rpow hk.le (show g.k < g.k + c by linarith) hb
    have h2 := Real.rpow_pos_of_pos hk g.beta
    exact (inv_lt_inv₀ (h2.trans h1) h2).2 h1
  have p1 := Real.rpow_pos_of_pos (show 0 < g.k + g.alpha by positivity) (-g.beta)
  have p2 := Real.rpow_pos_of_pos (show 0 < g.k + g.alpha * 2 by positivity) (-g.beta)
  have q1 := pow_lt_pow_left₀ (hlt g.alpha ha) p1.le two_ne_zero
  have q2 := pow_lt_pow_left₀ (hlt (g.alpha * 2) (by positivity)) p2.le two_ne_zero
  rw [div_left_inj' (by norm_num)] at e
  norm_num at e
  linarith

/-- The documented setting of local response normalisation, with three maps of one pixel, meets the hypotheses. -/
example : ∃ g : LRN, 0 < g.alpha ∧ 0 < g.k ∧ 0 < g.beta ∧ g.fm = 3 ∧ g.rows = 1 ∧ g.cols = 1 :=
  ⟨⟨3, 1, 1, 1, 5, 1e-4, 0.75⟩, by norm_num, by norm_num, by norm_num, rfl, rfl, rfl⟩

/-- A training set of four examples and the same examples in another order. -/
example : Reordered [2, 0, 3, 1] ⟨4, fun n _ => n, fun n _ => 2 * n⟩
    ⟨4, fun n _ => ([2, 0, 3, 1].getD n 0 : ℕ), fun n _ => 2 * ([2, 0, 3, 1].getD n 0 : ℕ)⟩ :=
  ⟨by decide, rfl, fun _ _ => ⟨rfl, rfl⟩⟩

end

end Verif.NN
