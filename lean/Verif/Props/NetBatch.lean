import Verif.Props.NetGradient

/-!
# Batches and single instances: C20, C21
-/

namespace Verif.NN

open Finset

noncomputable section

/-- Spec: layers that treat all rows alike.  Dropout does so when it is off (its mask is `1 - p` everywhere); local response
normalisation does not, unless `alpha = 0`. -/
def Kind.RowWise : Kind → Prop
  | .dropout mask => ∀ n i, mask n i = mask 0 i
  | .lrn g => g.alpha = 0
  | _ => True

theorem Kind.forward_row {k : Kind} (h : k.RowWise) (I : ℕ) (w : Weights) (N : ℕ) (x : Batch) (n : ℕ) :
    (k.layer I).forward w N x n = (k.layer I).forward w 1 (fun _ => x n) 0 := by
  cases k with
  | dropout mask =>
    funext i
    show mask n i * x n i = mask 0 i * x n i
    rw [show mask n i = mask 0 i from h n i]
  | lrn g =>
    funext o
    have h' : g.alpha = 0 := h
    show x n o * g.denomAt x n o ^ (-g.beta) = x n o * g.denomAt (fun _ => x n) 0 o ^ (-g.beta)
    rw [LRN.denomAt, LRN.denom, LRN.denomAt, LRN.denom, h', zero_mul, zero_mul]
  | maxPool g =>
    funext o
    show Pool.rowMax x n (g.base o) g.kernelCols = Pool.rowMax (fun _ => x n) 0 (g.base o) g.kernelCols
    have : ∀ b K, Pool.rowMax x n b K = Pool.rowMax (fun _ => x n) 0 b K := by
      intro b K
      induction K with
      | zero => rfl
      | succ K ih => rw [Pool.rowMax, Pool.rowMax, ih]
    exact this _ _
  | _ => rfl

theorem forwardFrom_row {mem : Mem} {ls : List Layer}
    (h : ∀ l ∈ ls, ∀ w N x n, l.forward w N x n = l.forward w 1 (fun _ => x n) 0) (N k : ℕ) (x : Batch) (n : ℕ) :
    forwardFrom mem N k ls x n = forwardFrom mem 1 k ls (fun _ => x n) 0 := by
  induction ls generalizing k x n N with
  | nil => rfl
  | cons l ls ih =>
    have ih' := fun N k x n => ih (fun l' hl' => h l' (List.mem_cons_of_mem _ hl')) N k x n
    rw [forwardFrom, forwardFrom, ih' N, h l List.mem_cons_self, ih' 1 _ (l.forward (mem k) 1 fun _ => x n) 0]

theorem buildNet_row {D : ℕ} {ks : List Kind} {ce : Bool} (h : ∀ k ∈ ks, k.RowWise) :
    ∀ l ∈ (buildNet D ks ce).layers, ∀ w N x n, l.forward w N x n = l.forward w 1 (fun _ => x n) 0 := by
  intro l hl w N x n
  rcases mem_buildNet hl with rfl | ⟨k, hk, I', rfl⟩
  · rfl
  · exact Kind.forward_row (h k hk) I' w N x n

theorem output_row {net : Net} (h : ∀ l ∈ net.layers, ∀ w N x n, l.forward w N x n = l.forward w 1 (fun _ => x n) 0)
    (mem : Mem) (N : ℕ) (X : Batch) (n j : ℕ) : net.output mem N X n j = net.output mem 1 (fun _ => X n) 0 j := by
  have ha : net.activations mem N X n = net.activations mem 1 (fun _ => X n) 0 := forwardFrom_row h N 0 X n
  unfold Net.output
  cases net.ce
  · exact congrFun ha j
  · simp only [if_true, softmax_eq, ha]

/-- **C21, all layers except local response normalisation** (and dropout in training): row `n` of the prediction for a matrix
is the prediction for the `n`-th input alone. -/
theorem batch_prediction_partial {D : ℕ} {ks : List Kind} {ce : Bool} (h : ∀ k ∈ ks, k.RowWise) (mem : Mem) (N : ℕ)
    (X : Batch) (n j : ℕ) :
    (buildNet D ks ce).predictAll mem N X n j = (buildNet D ks ce).predict mem (X n) j :=
  output_row (buildNet_row h) mem N X n j

/-- In particular, neither order nor number of the other rows matters. -/
theorem batch_order_partial {D : ℕ} {ks : List Kind} {ce : Bool} (h : ∀ k ∈ ks, k.RowWise) (mem : Mem) (N M : ℕ)
    (X Z : Batch) (n m : ℕ) (hr : X n = Z m) (j : ℕ) :
    (buildNet D ks ce).predictAll mem N X n j = (buildNet D ks ce).predictAll mem M Z m j := by
  rw [batch_prediction_partial h, batch_prediction_partial h, hr]

/-- **C21 is false with local response normalisation**: there are batches in which row 2 differs from the prediction for its
input alone. -/
theorem batch_prediction_fails {g : LRN} (ha : 0 < g.alpha) (hk : 0 < g.k) (hb : 0 < g.beta) (hf : 3 ≤ g.fm)
    (hs : 0 < g.rows * g.cols) (mem : Mem) (N : ℕ) :
    ∃ (X : Batch) (j : ℕ), (buildNet g.inputs [.lrn g] false).predictAll mem N X 2 j ≠
      (buildNet g.inputs [.lrn g] false).predict mem (X 2) j := by
  obtain ⟨x, hx, hne⟩ := LRN.lrn_batch_dependent ha hk hb hf hs (mem 1) N
  refine ⟨x, 1 * (g.rows * g.cols) + 0, fun e => hne ?_⟩
  have h0 : (buildNet g.inputs [.lrn g] false).predict mem (x 2) (1 * (g.rows * g.cols) + 0) =
      g.layer.forward (mem 1) N x 0 (1 * (g.rows * g.cols) + 0) := by
    rw [hx]
    rfl
  exact e.trans h0

/-- The documented setting of local response normalisation meets the hypotheses. -/
example : ∃ g : LRN, 0 < g.alpha ∧ 0 < g.k ∧ 0 < g.beta ∧ 3 ≤ g.fm ∧ 0 < g.rows * g.cols :=
  ⟨⟨16, 5, 5, 1, 5, 1e-4, 0.75⟩, by norm_num, by norm_num, by norm_num, by norm_num, by norm_num⟩

/-- All layers but local response normalisation can be combined freely. -/
example : ∃ ks : List Kind, 2 ≤ ks.length ∧ (∀ k ∈ ks, k.RowWise) ∧ FitsFrom 36 ks := by
  refine ⟨[.conv ⟨1, 6, 6, 2, 3, 3, true, .tanh, ⟨0, 0, 0⟩⟩, .maxPool ⟨2, 4, 4, 2, 2⟩, .dropout fun _ _ => 0.5,
    .fullyConnected 3 true .linear ⟨0, 0, 0⟩], by simp, ?_, ?_⟩
  · intro k hk
    simp only [List.mem_cons, List.not_mem_nil, or_false] at hk
    rcases hk with rfl | rfl | rfl | rfl
    · trivial
    · trivial
    · exact fun _ _ => rfl
    · trivial
  · exact ⟨⟨rfl, by unfold Conv.Valid; decide⟩, ⟨rfl, by unfold Pool.Valid; decide⟩, trivial, trivial, trivial⟩

/-! ## The error of a training set -/

theorem foldl_add_eq_sum (f : ℕ → ℝ) (n : ℕ) : (List.range n).foldl (fun e i => e + f i) 0 = ∑ i ∈ range n, f i := by
  induction n with
  | zero => rfl
  | succ n ih => rw [List.range_succ, List.foldl_append, ih, Finset.sum_range_succ]; rfl

/-- **C20 (mean)**: `error()` is the mean of `error(n)` over the training set, for every network. -/
theorem error_mean (net : Net) (mem : Mem) (ds : TrainSet) :
    net.error mem ds = (∑ n ∈ range ds.samples, net.errorAt mem ds n) / ds.samples := by
  rw [Net.error, foldl_add_eq_sum, Finset.sum_div]

theorem selectRows_range {m : Batch} {N n : ℕ} (h : n < N) : selectRows m (List.range N) n = m n := by
  simp [selectRows, List.getD, h]

/-- **C20 (value), all layers except local response normalisation**: `error()` is the value that `errorGradient` returns for the
whole training set. -/
theorem error_eq_value_partial {D : ℕ} {ks : List Kind} {ce : Bool} (h : ∀ k ∈ ks, k.RowWise) (mem : Mem) (sc : Scratch)
    (ds : TrainSet) (hN : 0 < ds.samples) :
    (buildNet D ks ce).error mem ds = ((buildNet D ks ce).errorGradientAll mem sc ds).1 := by
  have hN' : (ds.samples : ℝ) ≠ 0 := by exact_mod_cast hN.ne'
  set net := buildNet D ks ce with hnet
  have hrow : ∀ n, n < ds.samples → ∀ j, net.output mem ds.samples (selectRows ds.inst (List.range ds.samples)) n j =
      net.output mem 1 (fun _ => ds.inst n) 0 j := by
    intro n hn j
    rw [output_row (buildNet_row h), selectRows_range hn]
  rw [error_mean]
  show _ = regFrom mem 0 net.layers + net.loss (List.range ds.samples).length
    (net.output mem (List.range ds.samples).length (selectRows ds.inst (List.range ds.samples)))
    (selectRows ds.tgt (List.range ds.samples))
  rw [List.length_range]
  simp only [Net.errorAt, Finset.sum_add_distrib, Finset.sum_const, card_range, nsmul_eq_mul]
  rw [add_div, mul_div_cancel_left₀ _ hN', add_comm]
  refine congrArg (fun z => regFrom mem 0 net.layers + z) ?_
  unfold Net.loss
  cases net.ce
  · simp only [Bool.false_eq_true, if_false, meanSquaredError, Finset.sum_range_one, Nat.cast_one]
    rw [← Finset.sum_div, div_div]
    congr 1
    · refine Finset.sum_congr rfl fun n hn => Finset.sum_congr rfl fun j _ => ?_
      rw [hrow n (mem_range.1 hn), selectRows_range (mem_range.1 hn)]
    · ring
  · simp only [if_true, crossEntropy, Finset.sum_range_one, Nat.cast_one, div_one]
    rw [Finset.sum_neg_distrib]
    congr 2
    refine Finset.sum_congr rfl fun n hn => Finset.sum_congr rfl fun j _ => ?_
    rw [hrow n (mem_range.1 hn), selectRows_range (mem_range.1 hn)]

/-- **C20 is false with local response normalisation**: for three equal instances with target zero, `error()` differs from the
value that `errorGradient` returns. -/
theorem error_eq_value_fails {g : LRN} (ha : 0 < g.alpha) (hk : 0 < g.k) (hb : 0 < g.beta) (hf : g.fm = 3)
    (hr : g.rows = 1) (hc : g.cols = 1) (mem : Mem) (sc : Scratch) :
    ∃ ds : TrainSet, ds.samples = 3 ∧ (buildNet g.inputs [.lrn g] false).error mem ds ≠
      ((buildNet g.inputs [.lrn g] false).errorGradientAll mem sc ds).1 := by
  have hS : g.fmSize = 1 := by rw [LRN.fmSize, hr, hc]
  have hI : g.inputs = 3 := by rw [LRN.inputs, hf, hr, hc]
  refine ⟨⟨3, fun _ _ => 1, fun _ _ => 0⟩, rfl, ?_⟩
  set net := buildNet g.inputs [.lrn g] false with hnet
  set X : Batch := fun _ _ => 1 with hX
  have hout : ∀ N X n o, net.output mem N X n o = g.forward X n o := fun N X n o => rfl
  have hF : net.outputs = 3 := by
    show g.inputs = 3
    exact hI
  have hreg : regFrom mem 0 net.layers = 0 := by
    show (0 : ℝ) + (0 + 0) = 0
    norm_num
  have hfw : ∀ n, n ≤ 1 → ∀ o, g.forward X n o = g.k ^ (-g.beta) := by
    intro n hn o
    simp only [LRN.forward, LRN.denomAt, LRN.denom, LRN.maps_empty g hn, Finset.sum_empty, mul_zero, add_zero, hX, one_mul]
  have hsel : ∀ n, n < 3 → selectRows X (List.range 3) n = X n := fun n hn => selectRows_range hn
  have hfw2 : ∀ o, g.forward X 2 o = (g.k + g.alpha * (g.maps 2 o).card) ^ (-g.beta) := by
    intro o
    simp only [LRN.forward, LRN.denomAt, LRN.denom, hS, Nat.div_one, hX, one_mul, Finset.sum_const, nsmul_eq_mul, mul_one]
  have hm0 : (g.maps 2 0).card = 1 := by rw [LRN.maps, hf]; rfl
  have hm1 : (g.maps 2 1).card = 2 := by rw [LRN.maps, hf]; rfl
  have hm2 : (g.maps 2 2).card = 1 := by rw [LRN.maps, hf]; rfl
  have hsel' : selectRows X (List.range 3) = X := by
    funext n j
    rfl
  intro e
  rw [error_mean] at e
  have e1 : ∑ n ∈ range 3, net.errorAt mem ⟨3, X, fun _ _ => 0⟩ n = 3 * (3 * (g.k ^ (-g.beta)) ^ 2 / 2) := by
    have : ∀ n, net.errorAt mem ⟨3, X, fun _ _ => 0⟩ n = 3 * (g.k ^ (-g.beta)) ^ 2 / 2 := by
      intro n
      rw [Net.errorAt, hreg, add_zero]
      show meanSquaredError 1 net.outputs _ = _
      rw [hF, meanSquaredError]
      have : ∀ j, net.output mem 1 (fun _ => X n) 0 j = g.k ^ (-g.beta) := fun j => by
        rw [hout]
        exact hfw 0 (by norm_num) j
      simp only [this, Finset.sum_range_one, Nat.cast_one, sub_zero, Finset.sum_const, card_range, nsmul_eq_mul]
      norm_num
    simp only [this, Finset.sum_const, card_range, nsmul_eq_mul]
    norm_num
  have e2 : (net.errorGradientAll mem sc ⟨3, X, fun _ _ => 0⟩).1 =
      (6 * (g.k ^ (-g.beta)) ^ 2 + (2 * ((g.k + g.alpha) ^ (-g.beta)) ^ 2 + ((g.k + g.alpha * 2) ^ (-g.beta)) ^ 2)) / 6 := by
    show regFrom mem 0 net.layers + meanSquaredError 3 net.outputs _ = _
    rw [hreg, zero_add, hF, meanSquaredError]
    have hsel3 : selectRows X (List.range 3) = X := hsel'
    show (∑ n ∈ range 3, ∑ j ∈ range 3, (g.forward (selectRows X (List.range 3)) n j - 0) ^ 2) / (2 * ((3 : ℕ) : ℝ)) = _
    rw [hsel3]
    simp only [Finset.sum_range_succ, Finset.sum_range_zero, sub_zero, zero_add, hfw 0 (by norm_num), hfw 1 (by norm_num),
      hfw2, hm0, hm1, hm2, Nat.cast_one, mul_one, Nat.cast_ofNat]
    ring
  rw [show (∑ n ∈ range (TrainSet.mk 3 X fun _ _ => 0).samples, net.errorAt mem ⟨3, X, fun _ _ => 0⟩ n) =
    3 * (3 * (g.k ^ (-g.beta)) ^ 2 / 2) from e1, e2] at e
  have hlt : ∀ c : ℝ, 0 < c → (g.k + c) ^ (-g.beta) < g.k ^ (-g.beta) := by
    intro c hc'
    rw [Real.rpow_neg (by positivity), Real.rpow_neg hk.le]
    have h1 := Real.rpow_lt_rpow hk.le (show g.k < g.k + c by linarith) hb
    have h2 := Real.rpow_pos_of_pos hk g.beta
    exact (inv_lt_inv₀ (h2.trans h1) h2).2 h1
  have p0 := Real.rpow_pos_of_pos hk (-g.beta)
  have p1 := Real.rpow_pos_of_pos (show 0 < g.k + g.alpha by positivity) (-g.beta)
  have p2 := Real.rpow_pos_of_pos (show 0 < g.k + g.alpha * 2 by positivity) (-g.beta)
  have q1 := pow_lt_pow_left₀ (hlt g.alpha ha) p1.le two_ne_zero
  have q2 := pow_lt_pow_left₀ (hlt (g.alpha * 2) (by positivity)) p2.le two_ne_zero
  have e' : 3 * (3 * (g.k ^ (-g.beta)) ^ 2 / 2) / (3 : ℝ) =
      (6 * (g.k ^ (-g.beta)) ^ 2 + (2 * ((g.k + g.alpha) ^ (-g.beta)) ^ 2 + ((g.k + g.alpha * 2) ^ (-g.beta)) ^ 2)) / 6 := by
    exact_mod_cast e
  linarith

end

end Verif.NN
