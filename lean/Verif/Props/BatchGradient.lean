import Verif.Props.NetBatch

/-!
# The gradient of a batch and the gradients of its examples (C73)

`Net::errorGradient` for a range of examples divides what backpropagation adds up by the number of examples.  Without
penalties the result is the mean of the gradients of the examples; with penalties it is not, because a batch adds the
derivative of the penalties once.  The function `gradient(startN, endN)` that `Net` inherits from `Optimizable` returns the
sum of the gradients of the examples instead.
-/

namespace Verif.NN

open Finset

noncomputable section

/-- Spec: the derivative that the penalty of a layer has with respect to a weight `v` at place `s`, as far as the layers add
it to the derivatives. -/
def Kind.decay : Kind → Slot → ℝ → ℝ
  | .fullyConnected _ _ _ reg, .w [_, _], v => reg.deriv v
  | .compressed _ _ _ _ reg _, .w [_, _], v => reg.deriv v
  | .sparseAutoEncoder _ _ lambda, .w [_, _], v => lambda * v
  | .conv g, .w _, v => g.reg.deriv v
  | .sub _ _ _ reg, .w _, v => reg.deriv v
  | _, _, _ => 0

/-- Spec: penalties are switched off. -/
def Kind.NoDecay (k : Kind) : Prop :=
  k.Unregularised ∧ ∀ H act lambda, k = .sparseAutoEncoder H act lambda → lambda = 0

theorem Reg.deriv_zero {r : Reg} (h : r.l1 ≤ 0 ∧ r.l2 ≤ 0) (v : ℝ) : r.deriv v = 0 := by
  rw [Reg.deriv, if_neg (not_lt.2 h.1), if_neg (not_lt.2 h.2), add_zero]

theorem Kind.decay_zero {k : Kind} (h : k.NoDecay) (s : Slot) (v : ℝ) : k.decay s v = 0 := by
  unfold Kind.decay
  split
  · exact Reg.deriv_zero h.1 v
  · exact Reg.deriv_zero h.1 v
  · rw [h.2 _ _ _ rfl, zero_mul]
  · exact Reg.deriv_zero h.1 v
  · exact Reg.deriv_zero h.1 v
  · rfl

/-! ## One layer -/

section

variable {k : Kind} {I : ℕ} {w : Weights} {N : ℕ} {x ein : Batch}

theorem rowArg_row (x z : Batch) (n b K : ℕ) (h : z 0 = x n) : Pool.rowArg x n b K = Pool.rowArg z 0 b K := by
  have hm : ∀ b K, Pool.rowMax x n b K = Pool.rowMax z 0 b K := by
    intro b K
    induction K with
    | zero => rfl
    | succ K ih => rw [Pool.rowMax, Pool.rowMax, ih, h]
  induction K with
  | zero => rfl
  | succ K ih => rw [Pool.rowArg, Pool.rowArg, ih, hm, h]

/-- The output of a row depends only on this row. -/
theorem Kind.forward_rows (h : k.RowWise) (N : ℕ) {n : ℕ} {z : Batch} (hz : z 0 = x n) :
    (k.layer I).forward w 1 z 0 = (k.layer I).forward w N x n := by
  rw [k.forward_row h I w N x n, k.forward_row h I w 1 z 0, hz]

theorem conv_deltas_row {g : Conv} {n : ℕ} {z e : Batch} (hz : z 0 = x n) (he : e 0 = ein n) :
    deltas g.act (g.act.map (g.activation w z)) e 0 = deltas g.act (g.act.map (g.activation w x)) ein n := by
  have ha : g.activation w z 0 = g.activation w x n := by
    funext o
    simp only [Conv.activation, Conv.window, hz]
  funext o
  rw [deltas, deltas, Act.map, Act.map, ha, he]

theorem conv_errorSignal_row {g : Conv} {δ δ' : Batch} {n m : ℕ} (h : δ' m = δ n) :
    g.errorSignal w δ' m = g.errorSignal w δ n := by
  funext i
  simp only [Conv.errorSignal, h]

/-- The error signal of a row depends only on this row. -/
theorem Kind.back_rows (h : k.RowWise) (N : ℕ) (stale stale' : Batch) {n : ℕ} {z e : Batch} (hz : z 0 = x n)
    (he : e 0 = ein n) :
    (k.layer I).back w 1 z e true stale' 0 = (k.layer I).back w N x ein true stale n := by
  cases k with
  | fullyConnected J bias act reg =>
    funext i
    simp only [Kind.layer, NN.fullyConnected, if_true, deltas, Act.map, dense, hz, he]
  | compressed J M bias act reg phi =>
    funext i
    simp only [Kind.layer, NN.compressed, if_true, deltas, Act.map, dense, hz, he]
  | extreme J bias act W =>
    funext i
    simp only [Kind.layer, NN.extreme, if_true, deltas, Act.map, dense, hz, he]
  | intrinsicPlasticity s b =>
    funext i
    simp only [Kind.layer, NN.intrinsicPlasticity, if_true, hz, he]
  | rbm H backprop =>
    funext i
    simp only [Kind.layer, NN.rbm, if_true, deltas, Act.map, dense, hz, he]
  | sparseAutoEncoder H act lambda =>
    funext i
    simp only [Kind.layer, NN.sparseAutoEncoder, if_true, deltas, Act.map, dense, hz, he]
  | dropout mask =>
    funext i
    show mask 0 i * e 0 i = mask n i * ein n i
    rw [he, show mask n i = mask 0 i from h n i]
  | conv g =>
    exact conv_errorSignal_row (conv_deltas_row hz he)
  | maxPool g =>
    funext i
    simp only [Kind.layer, Pool.maxLayer, he, rowArg_row x z n _ _ hz]
  | sub g bias act reg =>
    funext i
    simp only [Kind.layer, Pool.subLayer, Pool.subError, Pool.subActivation, Pool.rowSum, deltas, Act.map, hz, he]
  | lrn g =>
    funext i
    have h' : g.alpha = 0 := h
    simp only [Kind.layer, LRN.layer, LRN.backward, LRN.etmp, LRN.denomAt, LRN.denom, h', hz, he, mul_zero, zero_mul,
      sum_const_zero]

theorem rows_sum {a b : ℕ → ℝ} {c t : ℝ} (ht : t = ∑ n ∈ range N, a n + c) (h : ∀ n, b n = a n + c) :
    t = ∑ n ∈ range N, (b n - c) + c := by
  rw [ht, sum_congr rfl fun n _ => show b n - c = a n by rw [h n, add_sub_cancel_right]]

variable (w N) {z e : ℕ → Batch} (hz : ∀ n, z n 0 = x n) (he : ∀ n, e n 0 = ein n)

theorem rows_zero (t : ℝ) (ht : t = 0) : t = ∑ _n ∈ range N, ((0 : ℝ) - 0) + 0 := by simp [ht]

include hz he

theorem fullyConnected_rows {J : ℕ} {bias : Bool} {act : Act} {reg : Reg} : ∀ s : Slot,
    (NN.fullyConnected I J bias act reg).derivs w N x ein s =
      ∑ n ∈ range N, ((NN.fullyConnected I J bias act reg).derivs w 1 (z n) (e n) s -
        (Kind.fullyConnected J bias act reg).decay s (w s)) + (Kind.fullyConnected J bias act reg).decay s (w s)
  | .w [j, i] => by
    refine rows_sum rfl fun n => ?_
    show ∑ m ∈ range 1, _ + reg.deriv (w (.w [j, i])) = _ + reg.deriv (w (.w [j, i]))
    simp only [sum_range_one, deltas, Act.map, dense, hz, he]
  | .b [j] => by
    refine rows_sum (add_zero _).symm fun n => ?_
    show ∑ m ∈ range 1, _ = _ + (0 : ℝ)
    simp only [sum_range_one, deltas, Act.map, dense, hz, he, add_zero]
  | .w [] | .w [_] | .w (_ :: _ :: _ :: _) | .b [] | .b (_ :: _ :: _) => rows_zero N _ rfl

theorem sparseAutoEncoder_rows {H : ℕ} {act : Act} {lambda : ℝ} : ∀ s : Slot,
    (NN.sparseAutoEncoder I H act lambda).derivs w N x ein s =
      ∑ n ∈ range N, ((NN.sparseAutoEncoder I H act lambda).derivs w 1 (z n) (e n) s -
        (Kind.sparseAutoEncoder H act lambda).decay s (w s)) + (Kind.sparseAutoEncoder H act lambda).decay s (w s)
  | .w [j, i] => by
    refine rows_sum rfl fun n => ?_
    show ∑ m ∈ range 1, _ + lambda * (w (.w [j, i])) = _ + lambda * (w (.w [j, i]))
    simp only [sum_range_one, deltas, Act.map, dense, hz, he]
  | .b [j] => by
    refine rows_sum (add_zero _).symm fun n => ?_
    show ∑ m ∈ range 1, _ = _ + (0 : ℝ)
    simp only [sum_range_one, deltas, Act.map, dense, hz, he, add_zero]
  | .w [] | .w [_] | .w (_ :: _ :: _ :: _) | .b [] | .b (_ :: _ :: _) => rows_zero N _ rfl

theorem rbm_rows {H : ℕ} {backprop : Bool} : ∀ s : Slot,
    (NN.rbm I H backprop).derivs w N x ein s =
      ∑ n ∈ range N, ((NN.rbm I H backprop).derivs w 1 (z n) (e n) s -
        (Kind.rbm H backprop).decay s (w s)) + (Kind.rbm H backprop).decay s (w s)
  | .w [j, i] => by
    refine rows_sum (add_zero _).symm fun n => ?_
    show ∑ m ∈ range 1, _ = _ + (0 : ℝ)
    simp only [sum_range_one, deltas, Act.map, dense, hz, he, add_zero]
  | .b [j] => by
    refine rows_sum (add_zero _).symm fun n => ?_
    show ∑ m ∈ range 1, _ = _ + (0 : ℝ)
    simp only [sum_range_one, deltas, Act.map, dense, hz, he, add_zero]
  | .w [] | .w [_] | .w (_ :: _ :: _ :: _) | .b [] | .b (_ :: _ :: _) => rows_zero N _ rfl

theorem compressed_rows {J M : ℕ} {bias : Bool} {act : Act} {reg : Reg} {phi : Batch} : ∀ s : Slot,
    (NN.compressed I J M bias act reg phi).derivs w N x ein s =
      ∑ n ∈ range N, ((NN.compressed I J M bias act reg phi).derivs w 1 (z n) (e n) s -
        (Kind.compressed J M bias act reg phi).decay s (w s)) + (Kind.compressed J M bias act reg phi).decay s (w s)
  | .w [j, m] => by
    let y : Batch := act.map (dense I (compressedW M phi w) (compressedBias I M bias phi w) x)
    refine rows_sum (a := fun n => ∑ i ∈ range I, deltas act y ein n j * x n i * phi m i +
      if bias then deltas act y ein n j * phi m I else 0) ?_ fun n => ?_
    · show ∑ i ∈ range I, (∑ n ∈ range N, deltas act y ein n j * x n i) * phi m i +
        (if bias then (∑ n ∈ range N, deltas act y ein n j) * phi m I else 0) + reg.deriv (w (.w [j, m])) =
        _ + reg.deriv (w (.w [j, m]))
      congr 1
      rw [sum_add_distrib, sum_comm]
      congr 1
      · exact sum_congr rfl fun i _ => by rw [sum_mul]
      · cases bias
        · simp
        · simp only [if_true, sum_mul]
    · show ∑ i ∈ range I, (∑ n ∈ range 1, _) * phi m i + (if bias then (∑ n ∈ range 1, _) * phi m I else 0) +
        reg.deriv (w (.w [j, m])) = _ + reg.deriv (w (.w [j, m]))
      simp only [sum_range_one, deltas, Act.map, dense, hz, he, y]
  | .w [] | .w [_] | .w (_ :: _ :: _ :: _) | .b _ => rows_zero N _ rfl

theorem conv_rows {g : Conv} : ∀ s : Slot,
    g.layer.derivs w N x ein s =
      ∑ n ∈ range N, (g.layer.derivs w 1 (z n) (e n) s - (Kind.conv g).decay s (w s)) + (Kind.conv g).decay s (w s)
  | .w [fmo, fmi, kr, kc] => by
    let δ : Batch := deltas g.act (g.act.map (g.activation w x)) ein
    refine rows_sum (a := fun n => ∑ row ∈ range g.maxRow, ∑ col ∈ range g.maxCol,
      δ n (g.outIdx fmo row col) * x n (g.inIdx fmi (row + kr) (col + kc))) rfl fun n => ?_
    show ∑ m ∈ range 1, ∑ row ∈ range g.maxRow, ∑ col ∈ range g.maxCol,
      deltas g.act (g.act.map (g.activation w (z n))) (e n) m (g.outIdx fmo row col) *
        z n m (g.inIdx fmi (row + kr) (col + kc)) + g.reg.deriv (w (.w [fmo, fmi, kr, kc])) = _
    rw [sum_range_one, conv_deltas_row (hz n) (he n), hz n]
    rfl
  | .b [fmo, fmi] => by
    let δ : Batch := deltas g.act (g.act.map (g.activation w x)) ein
    refine rows_sum (a := fun n => ∑ row ∈ range g.maxRow, ∑ col ∈ range g.maxCol, δ n (g.outIdx fmo row col))
      (add_zero _).symm fun n => ?_
    show ∑ m ∈ range 1, ∑ row ∈ range g.maxRow, ∑ col ∈ range g.maxCol,
      deltas g.act (g.act.map (g.activation w (z n))) (e n) m (g.outIdx fmo row col) = _ + (0 : ℝ)
    rw [sum_range_one, conv_deltas_row (hz n) (he n), add_zero]
  | .w [] | .w [_] | .w [_, _] | .w [_, _, _] | .w (_ :: _ :: _ :: _ :: _ :: _) =>
    rows_sum (a := fun _ => 0) (by rw [sum_const_zero]; rfl) fun n => rfl
  | .b [] | .b [_] | .b (_ :: _ :: _ :: _) => rows_zero N _ rfl

theorem sub_rows {g : Pool} {bias : Bool} {act : Act} {reg : Reg} : ∀ s : Slot,
    (g.subLayer bias act reg).derivs w N x ein s =
      ∑ n ∈ range N, ((g.subLayer bias act reg).derivs w 1 (z n) (e n) s -
        (Kind.sub g bias act reg).decay s (w s)) + (Kind.sub g bias act reg).decay s (w s)
  | .w [fmo, r, c] => by
    refine rows_sum rfl fun n => ?_
    show ∑ m ∈ range 1, _ + reg.deriv (w (.w [fmo, r, c])) = _ + reg.deriv (w (.w [fmo, r, c]))
    simp only [sum_range_one, deltas, Act.map, Pool.subActivation, Pool.rowSum, hz, he]
  | .b [fmo, r, c] => by
    refine rows_sum (add_zero _).symm fun n => ?_
    show ∑ m ∈ range 1, _ = _ + (0 : ℝ)
    simp only [sum_range_one, deltas, Act.map, Pool.subActivation, Pool.rowSum, hz, he, add_zero]
  | .w [] | .w [_] | .w [_, _] | .w (_ :: _ :: _ :: _ :: _) =>
    rows_sum (a := fun _ => 0) (by rw [sum_const_zero]; rfl) fun n => rfl
  | .b [] | .b [_] | .b [_, _] | .b (_ :: _ :: _ :: _ :: _) => rows_zero N _ rfl

/-- The derivatives of a batch are the sum of what its rows contribute, and the derivative of the penalty, once. -/
theorem Kind.derivs_rows (s : Slot) :
    (k.layer I).derivs w N x ein s =
      ∑ n ∈ range N, ((k.layer I).derivs w 1 (z n) (e n) s - k.decay s (w s)) + k.decay s (w s) := by
  cases k with
  | fullyConnected J bias act reg => exact fullyConnected_rows w N hz he s
  | compressed J M bias act reg phi => exact compressed_rows w N hz he s
  | rbm H backprop => exact rbm_rows w N hz he s
  | sparseAutoEncoder H act lambda => exact sparseAutoEncoder_rows w N hz he s
  | conv g => exact conv_rows w N hz he s
  | sub g bias act reg => exact sub_rows w N hz he s
  | _ => exact rows_zero N _ rfl

end

/-! ## A network -/

/-- Spec: the derivative of the penalties with respect to the weight at place `s` of layer number `l` (`l = 0` is the first
layer after the input). -/
def decayAt (ks : List Kind) (l : ℕ) (s : Slot) (v : ℝ) : ℝ := (ks[l]?.map fun k => k.decay s v).getD 0

/-- Backpropagation of a batch through the layers `ks` from index `m ≥ 1`, row by row. -/
theorem backFrom_rows {mem : Mem} {N : ℕ} (stale : ℕ → Batch) (stale' : ℕ → ℕ → Batch) (d : Mem) (d' : ℕ → Mem) :
    ∀ (ks : List Kind) (I m : ℕ), 1 ≤ m → (∀ k ∈ ks, k.RowWise) → ∀ (x e : Batch) (z f : ℕ → Batch),
      (∀ n, z n 0 = x n) → (∀ n, f n 0 = e n) →
        (2 ≤ m → ∀ n, (backFrom mem 1 (stale' n) m (layersFrom I ks) (z n) (f n) (d' n)).1 0 =
          (backFrom mem N stale m (layersFrom I ks) x e d).1 n) ∧
        ∀ l < ks.length, ∀ s, (backFrom mem N stale m (layersFrom I ks) x e d).2 (m + l) s =
          ∑ n ∈ range N, ((backFrom mem 1 (stale' n) m (layersFrom I ks) (z n) (f n) (d' n)).2 (m + l) s -
            decayAt ks l s (mem (m + l) s)) + decayAt ks l s (mem (m + l) s) := by
  intro ks
  induction ks with
  | nil =>
    intro I m _ _ x e z f _ hf
    exact ⟨fun _ => hf, fun l hl => by simp at hl⟩
  | cons k ks ih =>
    intro I m h1 hr x e z f hz hf
    have hk := hr k List.mem_cons_self
    obtain ⟨ih1, ih2⟩ := ih (k.layer I).outputs (m + 1) (by omega) (fun a ha => hr a (List.mem_cons_of_mem _ ha))
      ((k.layer I).forward (mem m) N x) e (fun n => (k.layer I).forward (mem m) 1 (z n)) f
      (fun n => k.forward_rows hk N (hz n)) hf
    replace ih1 := ih1 (by omega)
    refine ⟨fun h2 n => ?_, fun l hl s => ?_⟩
    · show (k.layer I).back (mem m) 1 (z n) _ (decide (m + 1 > 2)) (stale' n m) 0 =
        (k.layer I).back (mem m) N x _ (decide (m + 1 > 2)) (stale m) n
      rw [decide_eq_true (by omega : m + 1 > 2)]
      exact k.back_rows hk N _ _ (hz n) (ih1 n)
    · cases l with
      | zero =>
        show (Function.update (β := fun _ => Weights) _ m _) m s =
          ∑ n ∈ range N, ((Function.update (β := fun _ => Weights) _ m _) m s - k.decay s (mem m s)) + k.decay s (mem m s)
        simp only [Function.update_self]
        exact Kind.derivs_rows (k := k) (mem m) N hz ih1 s
      | succ l =>
        show (Function.update (β := fun _ => Weights) _ m _) (m + (l + 1)) s =
          ∑ n ∈ range N, ((Function.update (β := fun _ => Weights) _ m _) (m + (l + 1)) s - _) + _
        simp only [Function.update_of_ne (show m + (l + 1) ≠ m by omega)]
        have := ih2 l (by simpa using hl) s
        rw [show m + 1 + l = m + (l + 1) by omega] at this
        exact this

/-- Spec: the gradient of the penalties, in the order of the parameter vector. -/
def decayGradient (D : ℕ) (ks : List Kind) (mem : Mem) : List ℝ :=
  (locsFrom 1 (layersFrom D ks)).map fun p => decayAt ks (p.1 - 1) p.2 (mem p.1 p.2)

section

variable {D : ℕ} {ks : List Kind} (ce : Bool) (hr : ∀ k ∈ ks, k.RowWise) (mem : Mem)

theorem isParamFrom_lt {I : ℕ} : ∀ {ks : List Kind} {l : ℕ} {s : Slot}, IsParamFrom I ks l s → l < ks.length := by
  intro ks
  induction ks generalizing I with
  | nil => intro l s h; simp [IsParamFrom] at h
  | cons k ks ih =>
    intro l s h
    cases l with
    | zero => simp
    | succ l => exact Nat.succ_lt_succ (ih h)

/-- The length of the gradient is the number of parameters. -/
theorem errorGradient_length (net : Net) (sc : Scratch) (ds : TrainSet) (idx : List ℕ) :
    (net.errorGradient mem sc ds idx).2.length = net.derivatives.length := by
  simp [Net.errorGradient, Net.grad]

include hr

/-- The gradient of a batch of `N` rows and the gradients of batches that consist of one of these rows each. -/
theorem grad_rows (sc : Scratch) (sc' : ℕ → Scratch) {N : ℕ} (hN : 0 < N) {X T : Batch} {Z S : ℕ → Batch}
    (hZ : ∀ n, Z n 0 = X n) (hS : ∀ n, S n 0 = T n) {i : ℕ} (hi : i < (buildNet D ks ce).P) :
    ∃ (g p : ℝ) (gs : ℕ → ℝ), ((buildNet D ks ce).grad mem sc N X T)[i]? = some g ∧
      (decayGradient D ks mem)[i]? = some p ∧
      (∀ n, ((buildNet D ks ce).grad mem (sc' n) 1 (Z n) (S n))[i]? = some (gs n)) ∧
      N * g = ∑ n ∈ range N, gs n - (N - 1) * p := by
  set net := buildNet D ks ce with hnet
  have hd : net.derivatives = locsFrom 1 (layersFrom D ks) := (parameters_one_to_one D ks ce).2.2.2.1
  have hi' : i < (locsFrom 1 (layersFrom D ks)).length := hi
  obtain ⟨loc, hloc⟩ : ∃ loc, (locsFrom 1 (layersFrom D ks))[i]? = some loc := ⟨_, List.getElem?_eq_getElem hi'⟩
  have hmem := List.mem_of_getElem? hloc
  have hidx1 := locsFrom_index hmem
  obtain ⟨l, s⟩ := loc
  obtain ⟨l, rfl⟩ : ∃ l', l = 1 + l' := ⟨l - 1, by simp only at hidx1; omega⟩
  have hl := isParamFrom_lt (mem_locs_layersFrom.1 hmem)
  have hN' : (N : ℝ) ≠ 0 := by exact_mod_cast hN.ne'
  let e : Batch := fun n j => net.output mem N X n j - T n j
  let f : ℕ → Batch := fun k n j => net.output mem 1 (Z k) n j - S k n j
  have hf : ∀ n, f n 0 = e n := by
    intro n
    funext j
    show net.output mem 1 (Z n) 0 j - S n 0 j = net.output mem N X n j - T n j
    rw [output_row (buildNet_row hr) mem N, output_row (buildNet_row hr) mem 1 (Z n), hZ n, hS n]
  have key := (backFrom_rows sc.stale (fun n => (sc' n).stale) sc.derivs (fun n => (sc' n).derivs) ks D 1 le_rfl hr
    (mem := mem) (N := N) X e Z f hZ hf).2 l hl s
  have entry : ∀ (N : ℕ) (stale : ℕ → Batch) (x e : Batch) (d : Mem),
      (backFrom mem N stale 0 net.layers x e d).2 (1 + l) s = (backFrom mem N stale 1 (layersFrom D ks) x e d).2 (1 + l) s := by
    intro N stale x e d
    show (Function.update (β := fun _ => Weights) _ 0 _) (1 + l) s = _
    rw [Function.update_of_ne (by omega)]
    rfl
  refine ⟨(backFrom mem N sc.stale 1 (layersFrom D ks) X e sc.derivs).2 (1 + l) s / N,
    decayAt ks l s (mem (1 + l) s),
    fun n => (backFrom mem 1 (sc' n).stale 1 (layersFrom D ks) (Z n) (f n) (sc' n).derivs).2 (1 + l) s, ?_, ?_, ?_, ?_⟩
  · rw [Net.grad, List.getElem?_map, hd, hloc, Option.map_some, entry]
  · rw [decayGradient, List.getElem?_map, hloc, Option.map_some]
    simp
  · intro n
    rw [Net.grad, List.getElem?_map, hd, hloc, Option.map_some, entry, Nat.cast_one, div_one]
  · rw [mul_div_cancel₀ _ hN', key, sum_sub_distrib, sum_const, card_range, nsmul_eq_mul]
    ring

/-- **C73 (gradient of a batch)**: for every architecture whose layers treat the rows of a batch alike, every parameter and
every list of examples: `N` times the gradient of the batch is the sum of the gradients of its examples less `N - 1` times
the gradient of the penalties. -/
theorem batch_gradient (sc : Scratch) (sc' : ℕ → Scratch) (ds : TrainSet) {idx : List ℕ} (hidx : idx ≠ []) {i : ℕ}
    (hi : i < (buildNet D ks ce).P) :
    ∃ (g p : ℝ) (gs : ℕ → ℝ), ((buildNet D ks ce).errorGradient mem sc ds idx).2[i]? = some g ∧
      (decayGradient D ks mem)[i]? = some p ∧
      (∀ n, ((buildNet D ks ce).errorGradient mem (sc' n) ds [idx.getD n 0]).2[i]? = some (gs n)) ∧
      idx.length * g = ∑ n ∈ range idx.length, gs n - (idx.length - 1) * p :=
  grad_rows ce hr mem sc sc' (List.length_pos_iff.2 hidx) (X := selectRows ds.inst idx) (T := selectRows ds.tgt idx)
    (Z := fun n => selectRows ds.inst [idx.getD n 0]) (S := fun n => selectRows ds.tgt [idx.getD n 0]) (fun _ => rfl)
    (fun _ => rfl) hi

/-- The gradient of a single example depends only on this example. -/
theorem single_gradient (sc sc' : Scratch) {ds ds' : TrainSet} {n m : ℕ} (hx : ds.inst n = ds'.inst m)
    (ht : ds.tgt n = ds'.tgt m) {i : ℕ} (hi : i < (buildNet D ks ce).P) :
    ((buildNet D ks ce).errorGradient mem sc ds [n]).2[i]? = ((buildNet D ks ce).errorGradient mem sc' ds' [m]).2[i]? := by
  obtain ⟨g, p, gs, h1, _, h3, h4⟩ := grad_rows ce hr mem sc (fun _ => sc') Nat.one_pos (X := fun _ => ds.inst n)
    (T := fun _ => ds.tgt n) (Z := fun _ => selectRows ds'.inst [m]) (S := fun _ => selectRows ds'.tgt [m])
    (fun _ => hx.symm) (fun _ => ht.symm) hi
  obtain ⟨g', p', gs', h1', _, h3', h4'⟩ := grad_rows ce hr mem sc (fun _ => sc) Nat.one_pos (X := fun _ => ds.inst n)
    (T := fun _ => ds.tgt n) (Z := fun _ => selectRows ds.inst [n]) (S := fun _ => selectRows ds.tgt [n])
    (fun _ => rfl) (fun _ => rfl) hi
  have hg : g = g' := Option.some.inj (h1.symm.trans h1')
  have e1 := h3 0
  have e2 := h3' 0
  simp only [Nat.cast_one, one_mul, sum_range_one, sub_self, zero_mul, sub_zero] at h4 h4'
  show ((buildNet D ks ce).grad mem sc 1 (selectRows ds.inst [n]) (selectRows ds.tgt [n]))[i]? =
    ((buildNet D ks ce).grad mem sc' 1 (selectRows ds'.inst [m]) (selectRows ds'.tgt [m]))[i]?
  rw [e1, e2, ← h4, ← h4', hg]

/-- **C73 (mean)**: without penalties the gradient of a batch is the mean of the gradients of its examples. -/
theorem batch_gradient_mean (hp : ∀ k ∈ ks, k.NoDecay) (sc : Scratch) (sc' : ℕ → Scratch) (ds : TrainSet) {idx : List ℕ}
    (hidx : idx ≠ []) {i : ℕ} (hi : i < (buildNet D ks ce).P) :
    ∃ (g : ℝ) (gs : ℕ → ℝ), ((buildNet D ks ce).errorGradient mem sc ds idx).2[i]? = some g ∧
      (∀ n, ((buildNet D ks ce).errorGradient mem (sc' n) ds [idx.getD n 0]).2[i]? = some (gs n)) ∧
      g = (∑ n ∈ range idx.length, gs n) / idx.length := by
  obtain ⟨g, p, gs, h1, h2, h3, h4⟩ := batch_gradient ce hr mem sc sc' ds hidx hi
  refine ⟨g, gs, h1, h3, ?_⟩
  have hp0 : p = 0 := by
    rw [decayGradient, List.getElem?_map] at h2
    obtain ⟨q, hq, rfl⟩ := Option.map_eq_some_iff.1 h2
    rw [decayAt]
    cases hk : ks[q.1 - 1]? with
    | none => rfl
    | some k => exact k.decay_zero (hp k (List.mem_of_getElem? hk)) _ _
  have hN : (idx.length : ℝ) ≠ 0 := by
    have := List.length_pos_iff.2 hidx
    exact_mod_cast this.ne'
  rw [eq_div_iff hN, mul_comm, h4, hp0, mul_zero, sub_zero]

end

end

end Verif.NN
