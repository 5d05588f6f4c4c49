import Verif.Props.Parameters
import Verif.Props.Subsampling
import Verif.Props.LRN

/-!
# The gradient of a network: C18, C19
-/

namespace Verif.NN

open Finset

noncomputable section

/-! ## Spec: well-formed architectures and smooth points -/

/-- Spec: the image dimensions of a layer match its number of inputs and were accepted by its `initialize`. -/
def Kind.Fits (I : ℕ) : Kind → Prop
  | .conv g => g.inputs = I ∧ g.Valid
  | .maxPool g => g.inputs = I ∧ g.Valid
  | .sub g _ _ _ => g.inputs = I ∧ g.Valid
  | .lrn g => g.inputs = I
  | _ => True

def FitsFrom : ℕ → List Kind → Prop
  | _, [] => True
  | I, k :: ks => k.Fits I ∧ FitsFrom (k.layer I).outputs ks

/-- Spec: the layer is differentiable at weights `w` and input `x`: no activation lies on a kink, no weight with an L1 penalty
is zero, the maximum of each window is unique; local response normalisation only where its backward pass is right. -/
def Kind.SmoothAt (I N : ℕ) (w : Weights) (x : Batch) : Kind → Prop
  | .fullyConnected J bias act reg =>
    Smooth act N J (dense I w.mat (w.vec bias) x) ∧ ∀ j < J, ∀ i < I, reg.Smooth (w.mat j i)
  | .compressed J M bias act reg phi =>
    Smooth act N J (dense I (compressedW M phi w) (compressedBias I M bias phi w) x) ∧
      ∀ j < J, ∀ m < M, reg.Smooth (w.mat j m)
  | .extreme J bias act W => Smooth act N J (dense I W (fun j => if bias then W j I else 0) x)
  | .intrinsicPlasticity s b => Smooth .logistic N I (fun n j => x n j * s j + b j)
  | .rbm H _ => Smooth .logistic N H (dense I w.mat (w.vec true) x)
  | .sparseAutoEncoder H act lambda => Smooth act N H (dense I w.mat (w.vec true) x) ∧ 0 ≤ lambda
  | .dropout _ => True
  | .conv g => Smooth g.act N g.outputs (g.activation w x) ∧
      ∀ fmo < g.fmout, ∀ fmi < g.fmin, ∀ kr < g.kernelRows, ∀ kc < g.kernelCols, g.reg.Smooth (w (.w [fmo, fmi, kr, kc]))
  | .maxPool g => g.MaxSmooth N x
  | .sub g bias act reg => Smooth act N g.outputs (g.subActivation bias w x) ∧
      ∀ m < g.fm, ∀ r < g.outRows, ∀ c < g.outCols, reg.Smooth (w (.w [m, r, c]))
  | .lrn g => g.alpha = 0 ∨ N ≤ 2

def SmoothFrom (mem : Mem) (N : ℕ) : ℕ → ℕ → List Kind → Batch → Prop
  | _, _, [], _ => True
  | n, I, k :: ks, x =>
    k.SmoothAt I N (mem n) x ∧ SmoothFrom mem N (n + 1) (k.layer I).outputs ks ((k.layer I).forward (mem n) N x)

/-- Every kind of layer obeys the law of backpropagation where it is differentiable. -/
theorem Kind.backprop {k : Kind} {I N : ℕ} {w : Weights} {x : Batch} (hf : k.Fits I) (hs : k.SmoothAt I N w x) :
    BackpropAt (k.layer I) N w x := by
  cases k with
  | fullyConnected J bias act reg => exact fullyConnected_backprop hs.1 hs.2
  | compressed J M bias act reg phi => exact compressed_backprop hs.1 hs.2
  | extreme J bias act W => exact extreme_backprop hs
  | intrinsicPlasticity s b => exact intrinsicPlasticity_backprop hs
  | rbm H backprop => exact rbm_backprop hs
  | sparseAutoEncoder H act lambda => exact sparseAutoEncoder_backprop hs.1 hs.2
  | dropout mask => exact dropout_backprop I N mask w x
  | conv g => exact Conv.conv_backprop hf.2 hs.1 hs.2
  | maxPool g => exact Pool.maxPool_backprop hf.2 hs
  | sub g bias act reg => exact Pool.sub_backprop hf.2 hs.1 hs.2
  | lrn g => exact LRN.lrn_backprop_partial hs w x

theorem Kind.inputs_eq {k : Kind} {I : ℕ} (hf : k.Fits I) : (k.layer I).inputs = I := by
  cases k with
  | conv g => exact hf.1
  | maxPool g => exact hf.1
  | sub g bias act reg => exact hf.1
  | lrn g => exact hf
  | _ => rfl

theorem chained_layersFrom {I : ℕ} {ks : List Kind} (h : FitsFrom I ks) : Chained I (layersFrom I ks) := by
  induction ks generalizing I with
  | nil => trivial
  | cons k ks ih => exact ⟨k.inputs_eq h.1, ih h.2⟩

theorem trace_backprop {mem : Mem} {N n I : ℕ} {ks : List Kind} {x : Batch} (hf : FitsFrom I ks)
    (hs : SmoothFrom mem N n I ks x) :
    ∀ e ∈ traceFrom mem N n (layersFrom I ks) x, BackpropAt e.2.1 N (mem e.1) e.2.2 := by
  induction ks generalizing n I x with
  | nil => intro e he; cases he
  | cons k ks ih =>
    intro e he
    rcases List.mem_cons.1 he with rfl | he
    · exact Kind.backprop hf.1 hs.1
    · exact ih hf.2 hs.2 e he

/-! ## Changing one entry of the parameter vector -/

theorem writeAll_set {ps : List Loc} {θ : List ℝ} {mem : Mem} (hn : ps.Nodup) {i : ℕ} (hi : i < ps.length)
    (hθ : i < θ.length) (t : ℝ) : mem.writeAll ps (θ.set i t) = (mem.writeAll ps θ).write ps[i] t := by
  funext k s
  by_cases hm : (k, s) ∈ ps
  · obtain ⟨j, hj, e⟩ := List.getElem_of_mem hm
    by_cases hl : j < θ.length
    · have h1 := writeAll_getElem (mem := mem) (θ := θ.set i t) hn hj (by simpa using hl)
      have h2 := writeAll_getElem (mem := mem) (θ := θ) hn hj hl
      rw [e] at h1 h2
      simp only at h1 h2
      rw [h1, Mem.write, h2, List.getElem_set]
      by_cases hij : i = j
      · subst hij
        rw [if_pos rfl, if_pos e.symm]
      · rw [if_neg hij, if_neg]
        intro h
        exact hij ((List.Nodup.getElem_inj_iff hn).1 (h.symm.trans e.symm))
    · have key : ∀ θ' : List ℝ, θ'.length = θ.length → mem.writeAll ps θ' k s = mem k s := by
        intro θ' hl'
        have : ∀ (ps : List Loc) (θ : List ℝ) (mem : Mem) (j : ℕ) (hj : j < ps.length), ps.Nodup → θ.length ≤ j →
            mem.writeAll ps θ ps[j].1 ps[j].2 = mem ps[j].1 ps[j].2 := by
          intro ps
          induction ps with
          | nil => intro θ mem j hj; cases hj
          | cons a ps ih =>
            intro θ mem j hj hnd hle
            cases θ with
            | nil => rfl
            | cons v θ =>
              cases j with
              | zero => simp at hle
              | succ j =>
                rw [List.nodup_cons] at hnd
                simp only [List.getElem_cons_succ]
                rw [show mem.writeAll (a :: ps) (v :: θ) = (mem.write a v).writeAll ps θ from rfl,
                  ih θ (mem.write a v) j (by simpa using hj) hnd.2 (by simpa using hle), Mem.write]
                refine if_neg fun h => hnd.1 ?_
                have h' : ps[j]'(by simpa using hj) = a := h
                rw [← h']
                exact List.getElem_mem _
        have h1 := this ps θ' mem j hj hn (by omega)
        rw [e] at h1
        exact h1
      rw [key _ (by simp), Mem.write, key _ rfl, if_neg]
      intro h
      have := (List.Nodup.getElem_inj_iff hn).1 (e.trans h)
      omega
  · have h1 := writeAll_of_notMem (θ := θ.set i t) (mem := mem) hm
    have h2 := writeAll_of_notMem (θ := θ) (mem := mem) hm
    simp only at h1 h2
    rw [h1, Mem.write, h2, if_neg]
    intro h
    exact hm (by rw [h]; exact List.getElem_mem hi)

theorem getD_mem {idx : List ℕ} {n : ℕ} (h : n < idx.length) : idx.getD n 0 ∈ idx := by
  rw [List.getD, List.getElem?_eq_getElem h]
  exact List.getElem_mem h

/-! ## The theorems -/

/-- Spec: the error over the selected examples, without regularisation (and, for cross entropy, without the safety term in
the logarithm), as a function of the weights. -/
def dataError (net : Net) (mem : Mem) (ds : TrainSet) (idx : List ℕ) : ℝ :=
  exactLoss net.ce idx.length net.outputs (net.activations mem idx.length (selectRows ds.inst idx)) (selectRows ds.tgt idx)

/-- Spec: the penalties of all layers. -/
def penalty (net : Net) (mem : Mem) : ℝ := regFrom mem 0 net.layers

/-- What `errorGradient` computes, for every architecture: entry `i` of `grad` is the derivative of
`error + penalties / N` with respect to entry `i` of the parameter vector. -/
theorem errorGradient_hasDerivAt {D : ℕ} {ks : List Kind} {ce : Bool} (hf : FitsFrom D ks) (hu : Unconstrained ks)
    (mem0 : Mem) (sc : Scratch) (ds : TrainSet) {idx : List ℕ} (hidx : idx ≠ [])
    (hT : ce = true → ∀ n ∈ idx, ∑ j ∈ range (buildNet D ks ce).outputs, ds.tgt n j = 1)
    {θ : List ℝ} (hθ : θ.length = (buildNet D ks ce).P)
    (hs : SmoothFrom ((buildNet D ks ce).setParameters mem0 θ) idx.length 1 D ks (selectRows ds.inst idx))
    {i : ℕ} (hi : i < (buildNet D ks ce).P) :
    ∃ h : i < ((buildNet D ks ce).errorGradient ((buildNet D ks ce).setParameters mem0 θ) sc ds idx).2.length,
      HasDerivAt (fun t =>
          dataError (buildNet D ks ce) ((buildNet D ks ce).setParameters mem0 (θ.set i t)) ds idx +
            penalty (buildNet D ks ce) ((buildNet D ks ce).setParameters mem0 (θ.set i t)) / idx.length)
        (((buildNet D ks ce).errorGradient ((buildNet D ks ce).setParameters mem0 θ) sc ds idx).2[i]) (θ[i]'(by omega)) := by
  set net := buildNet D ks ce with hnet
  set mem := net.setParameters mem0 θ with hmem
  have hN : 0 < idx.length := List.length_pos_iff.2 hidx
  obtain ⟨h, hd⟩ := grad_hasDerivAt (net := net) (d := D) (ls := layersFrom D ks) (N := idx.length)
    (X := selectRows ds.inst idx) (T := selectRows ds.tgt idx) (mem := mem) sc rfl (chained_layersFrom hf) hN
    (by
      intro hce n hn
      refine hT hce _ ?_
      exact getD_mem hn)
    (by
      intro e he
      rcases List.mem_cons.1 he with rfl | he
      · exact input_backprop D _ _ _
      · exact trace_backprop hf hs e he)
    (parameters_nodup D ks ce) hi
  refine ⟨h, ?_⟩
  have hw : ∀ t, net.setParameters mem0 (θ.set i t) = mem.write (net.parameters[i]'hi) t := by
    intro t
    rw [hmem, setParameters_unconstrained (updated_of_unconstrained hu),
      setParameters_unconstrained (updated_of_unconstrained hu)]
    exact writeAll_set (parameters_nodup D ks ce) hi (by omega) t
  have h0 : mem (net.parameters[i]'hi).1 (net.parameters[i]'hi).2 = θ[i]'(by omega) := by
    rw [hmem, setParameters_unconstrained (updated_of_unconstrained hu)]
    exact writeAll_getElem (parameters_nodup D ks ce) hi _
  rw [h0] at hd
  simp only [hw]
  exact hd

/-- The value that `errorGradient` returns for the mean squared error is the error plus the penalties. -/
theorem value_mse {D : ℕ} {ks : List Kind} (mem : Mem) (sc : Scratch) (ds : TrainSet) (idx : List ℕ) :
    ((buildNet D ks false).errorGradient mem sc ds idx).1 =
      dataError (buildNet D ks false) mem ds idx + penalty (buildNet D ks false) mem := by
  show regFrom _ _ _ + meanSquaredError _ _ _ = _
  rw [add_comm]
  rfl

/-- The value that `errorGradient` returns for cross entropy lies below the error plus the penalties, and by at most
`1e-10 * sum(T / Y) / N` for outputs `Y`. -/
theorem value_ce {D : ℕ} {ks : List Kind} (mem : Mem) (sc : Scratch) (ds : TrainSet) {idx : List ℕ} (hidx : idx ≠ [])
    (hT : ∀ n ∈ idx, ∀ j < (buildNet D ks true).outputs, 0 ≤ ds.tgt n j) :
    ((buildNet D ks true).errorGradient mem sc ds idx).1 ≤
        dataError (buildNet D ks true) mem ds idx + penalty (buildNet D ks true) mem ∧
      dataError (buildNet D ks true) mem ds idx + penalty (buildNet D ks true) mem -
          ((buildNet D ks true).errorGradient mem sc ds idx).1 ≤
        1e-10 * (∑ n ∈ range idx.length, ∑ j ∈ range (buildNet D ks true).outputs,
          selectRows ds.tgt idx n j /
            (buildNet D ks true).output mem idx.length (selectRows ds.inst idx) n j) / idx.length := by
  set net := buildNet D ks true with hnet
  set F := net.outputs with hF
  set N := idx.length with hN
  have hNpos : 0 < (N : ℝ) := by exact_mod_cast List.length_pos_iff.2 hidx
  set T := selectRows ds.tgt idx with hTd
  set A := net.activations mem N (selectRows ds.inst idx) with hA
  have hY : ∀ n j, net.output mem N (selectRows ds.inst idx) n j = softmax N F A n j := fun n j => rfl
  have hval : (net.errorGradient mem sc ds idx).1 = penalty net mem + crossEntropy N F (softmax N F A) T := rfl
  have hdata : dataError net mem ds idx =
      -(∑ n ∈ range N, ∑ j ∈ range F, T n j * Real.log (softmax N F A n j)) / N := by
    show exactLoss true N F A T = _
    rw [exactLoss, if_pos rfl]
    simp only [softmax_eq]
  have hTn : ∀ n ∈ range N, ∀ j ∈ range F, 0 ≤ T n j := by
    intro n hn j hj
    refine hT _ ?_ j (mem_range.1 hj)
    exact getD_mem (mem_range.1 hn)
  have hpos : ∀ n j, j < F → 0 < softmax N F A n j := fun n j hj => softmax_pos N F A n j hj
  have hdiff : dataError net mem ds idx + penalty net mem - (net.errorGradient mem sc ds idx).1 =
      (∑ n ∈ range N, ∑ j ∈ range F, T n j * (Real.log (softmax N F A n j + 1e-10) - Real.log (softmax N F A n j))) / N := by
    rw [hval, hdata, crossEntropy]
    simp only [mul_sub, Finset.sum_sub_distrib]
    ring
  constructor
  · rw [← sub_nonneg, hdiff]
    refine div_nonneg (Finset.sum_nonneg fun n hn => Finset.sum_nonneg fun j hj => ?_) hNpos.le
    refine mul_nonneg (hTn n hn j hj) (sub_nonneg.2 ?_)
    exact Real.log_le_log (hpos n j (mem_range.1 hj)) (by linarith [show (0 : ℝ) < 1e-10 by norm_num])
  · rw [hdiff, Finset.mul_sum]
    simp only [Finset.mul_sum]
    refine div_le_div_of_nonneg_right (Finset.sum_le_sum fun n hn => Finset.sum_le_sum fun j hj => ?_) hNpos.le
    have hp := hpos n j (mem_range.1 hj)
    rw [hY, show (1e-10 : ℝ) * (T n j / softmax N F A n j) = T n j * (1e-10 / softmax N F A n j) by ring]
    refine mul_le_mul_of_nonneg_left ?_ (hTn n hn j hj)
    rw [← Real.log_div (by positivity) hp.ne']
    have hq : 0 < (softmax N F A n j + 1e-10) / softmax N F A n j := by positivity
    have := Real.log_le_sub_one_of_pos hq
    refine this.trans (le_of_eq ?_)
    field_simp
    ring

/-- Spec: no penalties. -/
def Kind.Unregularised : Kind → Prop
  | .fullyConnected _ _ _ reg => reg.l1 ≤ 0 ∧ reg.l2 ≤ 0
  | .compressed _ _ _ _ reg _ => reg.l1 ≤ 0 ∧ reg.l2 ≤ 0
  | .sparseAutoEncoder _ _ lambda => lambda ≤ 0
  | .conv g => g.reg.l1 ≤ 0 ∧ g.reg.l2 ≤ 0
  | .sub _ _ _ reg => reg.l1 ≤ 0 ∧ reg.l2 ≤ 0
  | _ => True

theorem Reg.error_zero {r : Reg} (h : r.l1 ≤ 0 ∧ r.l2 ≤ 0) (a b : ℝ) : r.error a b = 0 := by
  rw [Reg.error, if_neg (not_lt.2 h.1), if_neg (not_lt.2 h.2), add_zero]

theorem Kind.regError_zero {k : Kind} (h : k.Unregularised) (I : ℕ) (w : Weights) : (k.layer I).regError w = 0 := by
  cases k with
  | fullyConnected J bias act reg => exact Reg.error_zero h _ _
  | compressed J M bias act reg phi => exact Reg.error_zero h _ _
  | sparseAutoEncoder H act lambda => exact if_neg (not_lt.2 h)
  | conv g => exact Reg.error_zero h _ _
  | sub g bias act reg => exact Reg.error_zero h _ _
  | _ => rfl

theorem penalty_zero {D : ℕ} {ks : List Kind} {ce : Bool} (h : ∀ k ∈ ks, k.Unregularised) (mem : Mem) :
    penalty (buildNet D ks ce) mem = 0 := by
  have : ∀ (ks : List Kind) (I n : ℕ), (∀ k ∈ ks, k.Unregularised) → regFrom mem n (layersFrom I ks) = 0 := by
    intro ks
    induction ks with
    | nil => intro I n _; rfl
    | cons k ks ih =>
      intro I n h
      rw [layersFrom, regFrom, k.regError_zero (h k List.mem_cons_self),
        ih _ _ fun k' h' => h k' (List.mem_cons_of_mem _ h'), add_zero]
  show (0 : ℝ) + regFrom mem 1 _ = 0
  rw [this ks D 1 h, add_zero]

/-- **C18 (mean squared error)**: without penalties, `grad` is the vector of partial derivatives of the returned value, as a
function of the parameter vector, for every architecture (not only fully connected layers), every parameter vector and every
choice of examples at which the network is differentiable. -/
theorem backprop_gradient_mse {D : ℕ} {ks : List Kind} (hf : FitsFrom D ks) (hu : Unconstrained ks)
    (hr : ∀ k ∈ ks, k.Unregularised) (mem0 : Mem) (sc sc' : Scratch) (ds : TrainSet) {idx : List ℕ} (hidx : idx ≠ [])
    {θ : List ℝ} (hθ : θ.length = (buildNet D ks false).P)
    (hs : SmoothFrom ((buildNet D ks false).setParameters mem0 θ) idx.length 1 D ks (selectRows ds.inst idx))
    {i : ℕ} (hi : i < (buildNet D ks false).P) :
    ∃ h : i < ((buildNet D ks false).errorGradient ((buildNet D ks false).setParameters mem0 θ) sc ds idx).2.length,
      HasDerivAt (fun t =>
          ((buildNet D ks false).errorGradient ((buildNet D ks false).setParameters mem0 (θ.set i t)) sc' ds idx).1)
        (((buildNet D ks false).errorGradient ((buildNet D ks false).setParameters mem0 θ) sc ds idx).2[i])
        (θ[i]'(by omega)) := by
  obtain ⟨h, hd⟩ := errorGradient_hasDerivAt (ce := false) hf hu mem0 sc ds hidx
    (by intro h; exact absurd h (by simp)) hθ hs hi
  refine ⟨h, ?_⟩
  simp only [penalty_zero hr, zero_div, add_zero] at hd
  simp only [value_mse, penalty_zero hr, add_zero]
  exact hd

/-- **C18 (cross entropy)**: likewise for softmax and cross entropy with targets that sum to one, where `grad` is the gradient
of the error without the safety term in the logarithm; `value_ce` says how far that is from the returned value. -/
theorem backprop_gradient_ce {D : ℕ} {ks : List Kind} (hf : FitsFrom D ks) (hu : Unconstrained ks)
    (hr : ∀ k ∈ ks, k.Unregularised) (mem0 : Mem) (sc : Scratch) (ds : TrainSet) {idx : List ℕ} (hidx : idx ≠ [])
    (hT : ∀ n ∈ idx, ∑ j ∈ range (buildNet D ks true).outputs, ds.tgt n j = 1)
    {θ : List ℝ} (hθ : θ.length = (buildNet D ks true).P)
    (hs : SmoothFrom ((buildNet D ks true).setParameters mem0 θ) idx.length 1 D ks (selectRows ds.inst idx))
    {i : ℕ} (hi : i < (buildNet D ks true).P) :
    ∃ h : i < ((buildNet D ks true).errorGradient ((buildNet D ks true).setParameters mem0 θ) sc ds idx).2.length,
      HasDerivAt (fun t => dataError (buildNet D ks true) ((buildNet D ks true).setParameters mem0 (θ.set i t)) ds idx)
        (((buildNet D ks true).errorGradient ((buildNet D ks true).setParameters mem0 θ) sc ds idx).2[i])
        (θ[i]'(by omega)) := by
  obtain ⟨h, hd⟩ := errorGradient_hasDerivAt (ce := true) hf hu mem0 sc ds hidx (fun _ => hT) hθ hs hi
  refine ⟨h, ?_⟩
  simp only [penalty_zero hr, zero_div, add_zero] at hd
  exact hd

/-- **C19, batches of one example**: with penalties, `grad` is the gradient of the returned value.  Missing: larger batches,
for which the statement is false. -/
theorem regularised_gradient_partial {D : ℕ} {ks : List Kind} (hf : FitsFrom D ks) (hu : Unconstrained ks)
    (mem0 : Mem) (sc sc' : Scratch) (ds : TrainSet) {idx : List ℕ} (hidx : idx.length = 1)
    {θ : List ℝ} (hθ : θ.length = (buildNet D ks false).P)
    (hs : SmoothFrom ((buildNet D ks false).setParameters mem0 θ) idx.length 1 D ks (selectRows ds.inst idx))
    {i : ℕ} (hi : i < (buildNet D ks false).P) :
    ∃ h : i < ((buildNet D ks false).errorGradient ((buildNet D ks false).setParameters mem0 θ) sc ds idx).2.length,
      HasDerivAt (fun t =>
          ((buildNet D ks false).errorGradient ((buildNet D ks false).setParameters mem0 (θ.set i t)) sc' ds idx).1)
        (((buildNet D ks false).errorGradient ((buildNet D ks false).setParameters mem0 θ) sc ds idx).2[i])
        (θ[i]'(by omega)) := by
  obtain ⟨h, hd⟩ := errorGradient_hasDerivAt (ce := false) hf hu mem0 sc ds
    (by intro e; rw [e] at hidx; simp at hidx) (by intro h; exact absurd h (by simp)) hθ hs hi
  refine ⟨h, ?_⟩
  simp only [hidx, Nat.cast_one, div_one] at hd
  simp only [value_mse]
  exact hd

/-- **C19 is false for larger batches**: with two or more examples, `grad` differs from the gradient of the returned value
in every entry in which the gradient of the penalties is not zero. -/
theorem regularised_gradient_fails {D : ℕ} {ks : List Kind} (hf : FitsFrom D ks) (hu : Unconstrained ks)
    (mem0 : Mem) (sc sc' : Scratch) (ds : TrainSet) {idx : List ℕ} (hidx : 2 ≤ idx.length)
    {θ : List ℝ} (hθ : θ.length = (buildNet D ks false).P)
    (hs : SmoothFrom ((buildNet D ks false).setParameters mem0 θ) idx.length 1 D ks (selectRows ds.inst idx))
    {i : ℕ} (hi : i < (buildNet D ks false).P) {R' : ℝ} (hR0 : R' ≠ 0)
    (hR : HasDerivAt (fun t => penalty (buildNet D ks false) ((buildNet D ks false).setParameters mem0 (θ.set i t))) R'
      (θ[i]'(by omega))) :
    ∀ g, ((buildNet D ks false).errorGradient ((buildNet D ks false).setParameters mem0 θ) sc ds idx).2[i]? = some g →
      ¬ HasDerivAt (fun t =>
          ((buildNet D ks false).errorGradient ((buildNet D ks false).setParameters mem0 (θ.set i t)) sc' ds idx).1)
        g (θ[i]'(by omega)) := by
  intro g hg hval
  obtain ⟨h, hd⟩ := errorGradient_hasDerivAt (ce := false) hf hu mem0 sc ds
    (by intro e; rw [e] at hidx; simp at hidx) (by intro h; exact absurd h (by simp)) hθ hs hi
  rw [List.getElem?_eq_getElem h] at hg
  simp only [value_mse] at hval
  have hg' := Option.some.inj hg
  rw [hg'] at hd
  have h1 := (hd.sub (hR.div_const (idx.length : ℝ))).unique
    ((hval.sub hR).congr_of_eventuallyEq (Filter.Eventually.of_forall fun t => by simp))
  have hN : (2 : ℝ) ≤ idx.length := by exact_mod_cast hidx
  have h2 : R' / idx.length = R' := by linarith
  rw [div_eq_iff (by positivity)] at h2
  have : R' * ((idx.length : ℝ) - 1) = 0 := by linarith
  rcases mul_eq_zero.1 this with h3 | h3
  · exact hR0 h3
  · linarith

/-- The hypotheses of `regularised_gradient_fails` are met: one linear layer with an L2 penalty, at every parameter vector
with a non-zero first weight and for all data. -/
theorem regularised_gradient_fails_example {D J : ℕ} (hD : 0 < D) (hJ : 0 < J) {l2 : ℝ} (hl : 0 < l2) (mem0 : Mem)
    (sc sc' : Scratch) (ds : TrainSet) {idx : List ℕ} (hidx : 2 ≤ idx.length) {θ : List ℝ}
    (hθ : θ.length = J * (D + 1)) (h0 : ∃ v : ℝ, v ≠ 0 ∧ θ[0]? = some v) :
    ∀ g v, ((buildNet D [.fullyConnected J true .linear ⟨0, l2, 0⟩] false).errorGradient
        ((buildNet D [.fullyConnected J true .linear ⟨0, l2, 0⟩] false).setParameters mem0 θ) sc ds idx).2[0]? = some g →
      θ[0]? = some v →
      ¬ HasDerivAt (fun t => ((buildNet D [.fullyConnected J true .linear ⟨0, l2, 0⟩] false).errorGradient
          ((buildNet D [.fullyConnected J true .linear ⟨0, l2, 0⟩] false).setParameters mem0 (θ.set 0 t)) sc' ds idx).1)
        g v := by
  set ks : List Kind := [.fullyConnected J true .linear ⟨0, l2, 0⟩] with hks
  have hu : Unconstrained ks := by
    intro k hk J bias act reg e
    rw [hks, List.mem_singleton] at hk
    rw [hk] at e
    cases e
    exact le_refl _
  have hP : (buildNet D ks false).P = J * (D + 1) := (parameters_one_to_one D ks false).2.2.2.2
  have hpos : 0 < (buildNet D ks false).P := by rw [hP]; positivity
  have hp0 : (buildNet D ks false).parameters[0]'hpos = (1, .w [0, 0]) := by
    have h1 : (buildNet D ks false).parameters =
        (denseSlots D J true).map (fun s => (1, s)) ++ [] := rfl
    obtain ⟨d, rfl⟩ := Nat.exists_eq_succ_of_ne_zero hD.ne'
    obtain ⟨j, rfl⟩ := Nat.exists_eq_succ_of_ne_zero hJ.ne'
    simp only [h1, denseSlots, List.range_succ_eq_map, List.flatMap_cons, List.map_cons, List.cons_append,
      List.getElem_cons_zero]
  obtain ⟨v0, hv0, hv0'⟩ := h0
  intro g v hg hv
  rw [hv0'] at hv
  obtain rfl := Option.some.inj hv
  have hlt : 0 < θ.length := by rw [hθ, ← hP]; exact hpos
  have hθ0 : θ[0]'hlt = v0 := by
    rw [List.getElem?_eq_getElem hlt] at hv0'
    exact Option.some.inj hv0'
  have hset : ∀ t, (buildNet D ks false).setParameters mem0 (θ.set 0 t) =
      ((buildNet D ks false).setParameters mem0 θ).write (1, .w [0, 0]) t := by
    intro t
    rw [setParameters_unconstrained (updated_of_unconstrained hu),
      setParameters_unconstrained (updated_of_unconstrained hu),
      writeAll_set (parameters_nodup D ks false) hpos hlt t, hp0]
  set mem := (buildNet D ks false).setParameters mem0 θ with hmem
  have hval : mem 1 (.w [0, 0]) = v0 := by
    rw [hmem, setParameters_unconstrained (updated_of_unconstrained hu)]
    have := writeAll_getElem (mem := mem0) (parameters_nodup D ks false) hpos hlt
    rw [hp0, hθ0] at this
    exact this
  rw [← hθ0]
  refine regularised_gradient_fails (D := D) (ks := ks) (R' := l2 * v0) ⟨trivial, trivial⟩ hu mem0 sc sc' ds hidx (by rw [hP, hθ]) ?_ hpos
    (mul_ne_zero hl.ne' hv0) ?_ g hg
  · refine ⟨⟨fun n _ j _ => ?_, fun j _ i _ h => ?_⟩, trivial⟩
    · simp [Act.Kink]
    · exact absurd h (lt_irrefl (0 : ℝ))
  · have hpen : ∀ m : Mem, penalty (buildNet D ks false) m =
        0 + (Reg.error ⟨0, l2, 0⟩ (∑ j ∈ range J, ∑ i ∈ range D, |(m 1).mat j i|)
          (∑ j ∈ range J, ∑ i ∈ range D, (m 1).mat j i ^ 2) + 0) := fun m => rfl
    simp only [hpen, hset, Reg.error, lt_irrefl, if_false, if_pos hl, zero_add, add_zero]
    rw [hθ0]
    have hsq : HasDerivAt (fun t => ∑ j ∈ range J, ∑ i ∈ range D, (mem.write (1, .w [0, 0]) t 1).mat j i ^ 2)
        (∑ j ∈ range J, ∑ i ∈ range D, if j = 0 ∧ i = 0 then 2 * v0 else 0) v0 := by
      refine HasDerivAt.fun_sum fun j _ => HasDerivAt.fun_sum fun i _ => ?_
      by_cases hji : j = 0 ∧ i = 0
      · obtain ⟨rfl, rfl⟩ := hji
        simp only [Weights.mat, Mem.write, if_true, and_self]
        exact ((hasDerivAt_id' v0).fun_pow 2).congr_deriv (by simp)
      · have : ∀ t, (mem.write (1, .w [0, 0]) t 1).mat j i = mem 1 (.w [j, i]) := by
          intro t
          simp only [Weights.mat, Mem.write]
          refine if_neg fun e => hji ?_
          simpa using e
        simp only [this, if_neg hji]
        exact hasDerivAt_const _ _
    have hsum : (∑ j ∈ range J, ∑ i ∈ range D, if j = 0 ∧ i = 0 then 2 * v0 else 0) = 2 * v0 := by
      simp only [ite_and]
      rw [Finset.sum_eq_single 0]
      · simp [hD]
      · intro j _ hj
        simp [hj]
      · intro h
        exact absurd (mem_range.2 hJ) h
    rw [hsum] at hsq
    exact ((hsq.const_mul l2).div_const 2).congr_deriv (by ring)

/-- Networks of fully connected layers with activation functions without kinks are differentiable everywhere, so that
`backprop_gradient_mse` and `backprop_gradient_ce` apply to all parameter vectors and all data. -/
theorem smoothFrom_fullyConnected {ks : List Kind}
    (h : ∀ k ∈ ks, ∃ J bias act, k = .fullyConnected J bias act ⟨0, 0, 0⟩ ∧ act ≠ .logistic ∧ act ≠ .rectifier)
    (mem : Mem) (N n I : ℕ) (x : Batch) : SmoothFrom mem N n I ks x := by
  induction ks generalizing n I x with
  | nil => trivial
  | cons k ks ih =>
    refine ⟨?_, ih (fun k' h' => h k' (List.mem_cons_of_mem _ h')) _ _ _⟩
    obtain ⟨J, bias, act, rfl, h1, h2⟩ := h k List.mem_cons_self
    refine ⟨fun n _ j _ hk => ?_, fun j _ i _ h => absurd h (lt_irrefl (0 : ℝ))⟩
    cases act with
    | logistic => exact h1 rfl
    | rectifier => exact h2 rfl
    | tanh => exact hk
    | tanhScaled => exact hk
    | linear => exact hk

/-- A network with two hidden layers meets all hypotheses of `backprop_gradient_mse`. -/
example (mem : Mem) (x : Batch) : ∃ ks : List Kind, ks.length = 3 ∧ FitsFrom 4 ks ∧ Unconstrained ks ∧
    (∀ k ∈ ks, k.Unregularised) ∧ SmoothFrom mem 10 1 4 ks x ∧ 0 < (buildNet 4 ks false).P := by
  refine ⟨[.fullyConnected 7 true .tanh ⟨0, 0, 0⟩, .fullyConnected 5 false .tanhScaled ⟨0, 0, 0⟩,
    .fullyConnected 2 true .linear ⟨0, 0, 0⟩], rfl, ⟨trivial, trivial, trivial, trivial⟩, ?_, ?_, ?_, ?_⟩
  · intro k hk J bias act reg e
    simp only [List.mem_cons, List.not_mem_nil, or_false] at hk
    rcases hk with rfl | rfl | rfl <;> cases e <;> exact le_refl _
  · intro k hk
    simp only [List.mem_cons, List.not_mem_nil, or_false] at hk
    rcases hk with rfl | rfl | rfl <;> exact ⟨le_refl _, le_refl _⟩
  · refine smoothFrom_fullyConnected ?_ _ _ _ _ _
    intro k hk
    simp only [List.mem_cons, List.not_mem_nil, or_false] at hk
    rcases hk with rfl | rfl | rfl
    · exact ⟨_, _, _, rfl, by decide, by decide⟩
    · exact ⟨_, _, _, rfl, by decide, by decide⟩
    · exact ⟨_, _, _, rfl, by decide, by decide⟩
  · rw [(parameters_one_to_one _ _ _).2.2.2.2]
    simp [countFrom, Kind.count]

end

end Verif.NN
