import Verif.Model.NetHooks
import Verif.Props.Parameters

/-!
# Max-norm constraint, dropout, compressed layers, propagation of data sets: C22, C27, C31, C33
-/

namespace Verif.NN

open Finset

noncomputable section

/-! ## C22 -/

/-- Spec: squared norm of the incoming weights of neuron `j`. -/
def rowNorm (I : ℕ) (w : Weights) (j : ℕ) : ℝ := ∑ i ∈ range I, w (.w [j, i]) ^ 2

theorem rowNorm_nonneg (I : ℕ) (w : Weights) (j : ℕ) : 0 ≤ rowNorm I w j := Finset.sum_nonneg fun _ _ => sq_nonneg _

/-- **C22 (one layer)**: bound, neurons within the bound unchanged, the others scaled to the bound without change of
direction, biases unchanged. -/
theorem maxNorm_constraint {I : ℕ} {m : ℝ} (hm : 0 < m) (w : Weights) (j : ℕ) :
    rowNorm I (maxNormUpdate I m w) j ≤ m ∧
    (rowNorm I w j ≤ m → ∀ i, maxNormUpdate I m w (.w [j, i]) = w (.w [j, i])) ∧
    (m < rowNorm I w j → rowNorm I (maxNormUpdate I m w) j = m ∧
      ∃ c, 0 < c ∧ c < 1 ∧ ∀ i, maxNormUpdate I m w (.w [j, i]) = c * w (.w [j, i])) ∧
    ∀ idx, maxNormUpdate I m w (.b idx) = w (.b idx) := by
  have hval : ∀ i, maxNormUpdate I m w (.w [j, i]) =
      if m < rowNorm I w j then w (.w [j, i]) * Real.sqrt (m / rowNorm I w j) else w (.w [j, i]) := by
    intro i
    simp only [maxNormUpdate, hm, true_and, rowNorm]
    exact if_congr Iff.rfl rfl rfl
  have hlarge : m < rowNorm I w j → rowNorm I (maxNormUpdate I m w) j = m := by
    intro h
    have hp : 0 < rowNorm I w j := hm.trans h
    rw [rowNorm]
    simp only [hval, if_pos h, mul_pow, Real.sq_sqrt (div_nonneg hm.le hp.le)]
    rw [← Finset.sum_mul]
    show rowNorm I w j * (m / rowNorm I w j) = m
    field_simp
  refine ⟨?_, ?_, ?_, fun idx => rfl⟩
  · by_cases h : m < rowNorm I w j
    · exact (hlarge h).le
    · rw [rowNorm]
      simp only [hval, if_neg h]
      exact not_lt.1 h
  · intro h i
    rw [hval, if_neg (not_lt.2 h)]
  · intro h
    have hp : 0 < rowNorm I w j := hm.trans h
    refine ⟨hlarge h, Real.sqrt (m / rowNorm I w j), Real.sqrt_pos.2 (div_pos hm hp), ?_, ?_⟩
    · rw [Real.sqrt_lt' one_pos, one_pow, div_lt_one hp]
      exact h
    · intro i
      rw [hval, if_pos h, mul_comm]

/-- **C22 (idempotence)**: applying the constraint twice changes nothing more. -/
theorem maxNorm_idempotent (I : ℕ) (m : ℝ) (w : Weights) :
    maxNormUpdate I m (maxNormUpdate I m w) = maxNormUpdate I m w := by
  by_cases hm : 0 < m
  · funext s
    have : ∀ j i, maxNormUpdate I m (maxNormUpdate I m w) (.w [j, i]) = maxNormUpdate I m w (.w [j, i]) := fun j i =>
      (maxNorm_constraint hm (maxNormUpdate I m w) j).2.1 (maxNorm_constraint hm w j).1 i
    rcases s with idx | idx
    · match idx with
      | [j, i] => exact this j i
      | [] => rfl
      | [_] => rfl
      | _ :: _ :: _ :: _ => rfl
    · rfl
  · rw [maxNormUpdate_nonpos (not_lt.1 hm)]

/-- **C22 (networks)**: after every `setParameters`, in every fully connected layer with a bound `m > 0`, the squared norm of
the incoming weights of every neuron is at most `m`; a second call of `updatedParameters` would change nothing. -/
theorem setParameters_maxNorm {net : Net} (mem : Mem) (θ : List ℝ) {k : ℕ} (hk : k < net.layers.length) {I J : ℕ} {bias : Bool}
    {act : Act} {reg : Reg} (hl : net.layers[k] = fullyConnected I J bias act reg) :
    (0 < reg.maxNorm → ∀ j, rowNorm I (net.setParameters mem θ k) j ≤ reg.maxNorm) ∧
      (fullyConnected I J bias act reg).updated (net.setParameters mem θ k) = net.setParameters mem θ k := by
  have h := updatedFrom_getElem (k := 0) (mem := mem.writeAll net.parameters θ) hk
  rw [Nat.zero_add, hl] at h
  rw [Net.setParameters, h]
  exact ⟨fun hm j => (maxNorm_constraint hm _ j).1, maxNorm_idempotent I reg.maxNorm _⟩

/-- A weight vector that the constraint shortens. -/
example : ∃ w : Weights, (1 : ℝ) < rowNorm 2 w 0 := ⟨fun _ => 1, by simp [rowNorm]⟩

/-! ## C27 -/

/-- **C27 (training)**: every output is zero or the input, and the error signal passes exactly where the input passed. -/
theorem dropout_on (I N : ℕ) (p : ℝ) (draw x ein stale : Batch) (w : Weights) (flag : Bool) (n i : ℕ) :
    (draw n i < p → (dropout I (dropoutMask true p draw)).forward w N x n i = 0 ∧
      (dropout I (dropoutMask true p draw)).back w N x ein flag stale n i = 0) ∧
    (p ≤ draw n i → (dropout I (dropoutMask true p draw)).forward w N x n i = x n i ∧
      (dropout I (dropoutMask true p draw)).back w N x ein flag stale n i = ein n i) := by
  constructor
  · intro h
    simp [dropout, dropoutMask, h]
  · intro h
    simp [dropout, dropoutMask, not_lt.2 h]

/-- **C27 (after training)**: the output is `1 - p` times the input, whatever the random numbers are. -/
theorem dropout_off (I N : ℕ) {p : ℝ} (hp : 0 ≤ p) (draw x : Batch) (w : Weights) (n i : ℕ) :
    (dropout I (dropoutMask false p draw)).forward w N x n i = (1 - p) * x n i := by
  rcases hp.eq_or_lt with h | h
  · simp [dropout, dropoutMask, ← h]
  · simp [dropout, dropoutMask, h]

/-- Spec: the flag that the calls of `useDropout` leave behind. -/
def lastSetting : Bool → List NetOp → Bool
  | b, [] => b
  | _, .useDropout b :: ops => lastSetting b ops
  | b, .finishedIteration :: ops => lastSetting b ops

theorem callback_flag {σ : Type} (cb : Option (Callback σ)) (s : Iter σ) : (s.callback cb).dropout = s.dropout := by
  unfold Iter.callback
  by_cases h : s.thrown
  · rw [if_pos h]
  · rw [if_neg h]
    cases cb with
    | none => rfl
    | some f =>
      dsimp only
      cases f s.dropout s.user <;> rfl

theorem callback_congr {σ : Type} {f g : Callback σ} (h : ∀ u, f false u = g false u) {s : Iter σ} (hs : s.dropout = false) :
    s.callback (some f) = s.callback (some g) := by
  simp only [Iter.callback, hs, h]

/-- **C27 (callbacks)**: callbacks only ever see dropout off: two pairs of callbacks that behave alike when dropout is off
cannot be told apart by any history. -/
theorem callbacks_see_dropout_off {σ : Type} {f g f' g' : Callback σ} (hf : ∀ u, f false u = f' false u)
    (hg : ∀ u, g false u = g' false u) (ops : List NetOp) (s : Iter σ) :
    runOps (some f) (some g) ops s = runOps (some f') (some g') ops s := by
  induction ops generalizing s with
  | nil => rfl
  | cons op ops ih =>
    rw [runOps, runOps]
    by_cases h : s.thrown
    · rw [if_pos h, if_pos h]
    · rw [if_neg h, if_neg h]
      cases op with
      | useDropout b => exact ih _
      | finishedIteration =>
        have e : finishedIteration (some f) (some g) s = finishedIteration (some f') (some g') s := by
          unfold finishedIteration
          rw [callback_congr hf rfl, callback_congr hg (callback_flag _ _)]
        rw [stepOp, stepOp, e]
        exact ih _

/-- **C27 (restored)**: after any history without exceptions, dropout is what the last call of `useDropout` said. -/
theorem dropout_restored {σ : Type} (train valid : Option (Callback σ)) (ops : List NetOp) (s : Iter σ)
    (h : (runOps train valid ops s).thrown = false) :
    (runOps train valid ops s).dropout = lastSetting s.dropout ops := by
  induction ops generalizing s with
  | nil => rfl
  | cons op ops ih =>
    rw [runOps] at h ⊢
    by_cases ht : s.thrown
    · rw [if_pos ht] at h
      rw [ht] at h
      cases h
    · rw [if_neg ht] at h ⊢
      cases op with
      | useDropout b => exact ih _ h
      | finishedIteration =>
        rw [ih _ h]
        show lastSetting (finishedIteration train valid s).dropout ops = lastSetting s.dropout ops
        have hnt : (finishedIteration train valid s).thrown = false := by
          by_contra hc
          have hc' : (finishedIteration train valid s).thrown = true := by simpa using hc
          have : runOps train valid ops (finishedIteration train valid s) = finishedIteration train valid s := by
            cases ops with
            | nil => rfl
            | cons op ops => rw [runOps, if_pos hc']
          rw [stepOp, this, hc'] at h
          cases h
        unfold finishedIteration at hnt ⊢
        dsimp only at hnt ⊢
        by_cases h1 : (Iter.callback valid (Iter.callback train { s with dropout := false })).thrown
        · rw [if_pos h1] at hnt
          rw [h1] at hnt
          cases hnt
        · rw [if_neg h1]

/-- An exception in a callback leaves dropout off. -/
theorem dropout_not_restored_after_exception {σ : Type} (valid : Option (Callback σ)) (u : σ) :
    finishedIteration (some fun _ _ => none) valid ⟨true, u, false⟩ = ⟨false, u, true⟩ := rfl

/-- A history with callbacks that do something. -/
example : runOps (σ := ℕ) (some fun b u => some (if b then u else u + 1)) none
    [.useDropout true, .finishedIteration, .finishedIteration, .useDropout false, .finishedIteration]
    ⟨false, 0, false⟩ = ⟨false, 3, false⟩ := rfl

/-! ## C31 -/

/-- Spec: the weights of a fully connected layer that equal `alpha * phi`; column `I` of the product is the bias. -/
def generated (I M : ℕ) (phi : Batch) (alpha : Weights) : Weights
  | .w [j, i] => ∑ m ∈ range M, alpha (.w [j, m]) * phi m i
  | .b [j] => ∑ m ∈ range M, alpha (.w [j, m]) * phi m I
  | _ => 0

theorem generated_mat (I M : ℕ) (phi : Batch) (alpha : Weights) : (generated I M phi alpha).mat = compressedW M phi alpha := rfl

theorem generated_vec (I M : ℕ) (bias : Bool) (phi : Batch) (alpha : Weights) :
    (generated I M phi alpha).vec bias = compressedBias I M bias phi alpha := by
  funext j
  cases bias <;> rfl

/-- **C31 (forward)**: a compressed layer computes what a fully connected layer with weights `alpha * phi` computes, and passes the
same error signal back. -/
theorem compressed_forward (I J M N : ℕ) (bias : Bool) (act : Act) (reg reg' : Reg) (phi : Batch) (alpha : Weights)
    (x ein stale : Batch) (flag : Bool) :
    (compressed I J M bias act reg phi).forward alpha N x =
      (fullyConnected I J bias act reg').forward (generated I M phi alpha) N x ∧
    (compressed I J M bias act reg phi).back alpha N x ein flag stale =
      (fullyConnected I J bias act reg').back (generated I M phi alpha) N x ein flag stale := by
  constructor
  · simp only [compressed, fullyConnected, generated_mat, generated_vec]
  · simp only [compressed, fullyConnected, generated_mat, generated_vec]

/-- **C31 (gradient)**: its derivative with respect to `alpha(j, m)` is the chain-rule image of the derivatives of the fully
connected layer (plus that of the penalties on `alpha`). -/
theorem compressed_gradient (I J M N : ℕ) (bias : Bool) (act : Act) (reg : Reg) (phi : Batch) (alpha : Weights)
    (x ein : Batch) (j m : ℕ) :
    (compressed I J M bias act reg phi).derivs alpha N x ein (.w [j, m]) =
      ∑ i ∈ range I, (fullyConnected I J bias act ⟨0, 0, 0⟩).derivs (generated I M phi alpha) N x ein (.w [j, i]) * phi m i +
      (if bias then (fullyConnected I J bias act ⟨0, 0, 0⟩).derivs (generated I M phi alpha) N x ein (.b [j]) * phi m I
        else 0) +
      reg.deriv (alpha (.w [j, m])) := by
  have h0 : ∀ v, Reg.deriv ⟨0, 0, 0⟩ v = 0 := by
    intro v
    simp [Reg.deriv]
  simp only [compressed, fullyConnected, generated_mat, generated_vec, h0, add_zero]
  rfl

/-! ## C33 -/

/-- Spec: the activations of layer `l` for one instance. -/
def activationsOfLayer (net : Net) (mem : Mem) (l : ℕ) (x : ℕ → ℝ) : ℕ → ℝ :=
  forwardFrom mem 1 0 (net.layers.take l) (fun _ => x) 0

/-- **C33 is false**: whenever `propagateDataSet` returns, every access to the instances or targets of the returned data set is
undefined behaviour. -/
theorem propagateDataSet_dangling_ub (net : Net) (mem : Mem) (ds : TrainSet) (D : ℕ) (l : ℤ) (d : MatrixData)
    (h : net.propagateDataSet mem ds D l = .ok d) (n : ℕ) : d.getInstance n = .ub ∧ d.getTarget n = .ub := by
  unfold Net.propagateDataSet at h
  by_cases hc : 0 < ds.samples ∧ propagateCols l 0 net.layers D ≠ D
  · rw [if_pos hc] at h
    cases h
  · rw [if_neg hc] at h
    cases h
    exact ⟨rfl, rfl⟩

theorem propagateLoop_all {mem : Mem} {l : ℤ} (hl : 0 < l) (ls : List Layer) (k : ℕ) (y : Batch) :
    propagateLoop mem l 0 k ls y = forwardFrom mem 1 k ls y := by
  induction ls generalizing k y with
  | nil => rfl
  | cons a ls ih => rw [propagateLoop, if_pos hl, forwardFrom, ih]

theorem propagateCols_all {l : ℤ} (hl : 0 < l) (ls : List Layer) (d : ℕ) :
    propagateCols l 0 ls d = (ls.getLast?.map Layer.outputs).getD d := by
  induction ls generalizing d with
  | nil => rfl
  | cons a ls ih =>
    rw [propagateCols, if_pos hl, ih]
    cases ls with
    | nil => rfl
    | cons b ls =>
      rw [List.getLast?_cons_cons, List.getLast?_eq_getLast_of_ne_nil (List.cons_ne_nil b ls)]
      rfl

/-- Apart from that, the rows belong to the last layer, not to layer `l`, ... -/
theorem propagateDataSet_rows (net : Net) (mem : Mem) (ds : TrainSet) (D : ℕ) {l : ℤ} (hl : 0 < l) (d : MatrixData)
    (h : net.propagateDataSet mem ds D l = .ok d) (n : ℕ) :
    d.inst n = activationsOfLayer net mem net.layers.length (ds.inst n) := by
  unfold Net.propagateDataSet at h
  by_cases hc : 0 < ds.samples ∧ propagateCols l 0 net.layers D ≠ D
  · rw [if_pos hc] at h
    cases h
  · rw [if_neg hc] at h
    cases h
    rw [activationsOfLayer, List.take_length]
    show propagateLoop mem l 0 0 net.layers _ 0 = _
    rw [propagateLoop_all hl]

/-- ... and if the network has another number of outputs than inputs, the function itself has undefined behaviour. -/
theorem propagateDataSet_width_ub (net : Net) (mem : Mem) (ds : TrainSet) {D : ℕ} {l : ℤ} (hl : 0 < l) (hs : 0 < ds.samples)
    (hn : net.layers ≠ []) (ho : net.outputs ≠ D) : net.propagateDataSet mem ds D l = .ub := by
  refine if_pos ⟨hs, ?_⟩
  rw [propagateCols_all hl, List.getLast?_eq_getLast_of_ne_nil hn]
  rw [Net.outputs, List.getLast?_eq_getLast_of_ne_nil hn] at ho
  exact ho

/-- **C33 is false** for the values as well: a network with one weight, propagated through its input layer only. -/
theorem propagateDataSet_rows_fails (mem : Mem) (v : ℝ) (hv : v ≠ 1) (hm : mem 1 (.w [0, 0]) = v) :
    ∃ d, (buildNet 1 [.fullyConnected 1 false .linear ⟨0, 0, 0⟩] false).propagateDataSet mem ⟨1, fun _ _ => 1, fun _ _ => 0⟩ 1 1 =
        .ok d ∧
      d.inst 0 0 ≠ activationsOfLayer (buildNet 1 [.fullyConnected 1 false .linear ⟨0, 0, 0⟩] false) mem 1 (fun _ => 1) 0 := by
  refine ⟨_, if_neg fun h => h.2 rfl, ?_⟩
  have h1 : activationsOfLayer (buildNet 1 [.fullyConnected 1 false .linear ⟨0, 0, 0⟩] false) mem 1 (fun _ => 1) 0 = 1 := rfl
  rw [h1]
  show Act.linear.apply (∑ i ∈ range 1, (1 : ℝ) * mem 1 (.w [0, i]) + 0) ≠ 1
  simp [Act.apply, hm, hv]

/-- A network that meets the hypotheses: three inputs, two outputs. -/
example : (buildNet 3 [.fullyConnected 2 true .tanh ⟨0, 0, 0⟩] false).outputs ≠ 3 := by
  show 2 ≠ 3
  decide

end

end Verif.NN
