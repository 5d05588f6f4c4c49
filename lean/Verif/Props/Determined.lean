import Verif.Props.NetGradient

/-!
# The parameter vector determines what a network computes: C70, first part

Two networks with the same layers and the same parameter vector give the same outputs, whatever their buffers contained
before.  This holds for all layers whose weights are all in the parameter vector; an RBM without `backprop` is the
exception among the kinds of `Verif.Model.Arch`.
-/

namespace Verif.NN

open Finset

noncomputable section

/-! ## Spec -/

/-- Spec: all weights that the layer uses are in the parameter vector of the network. -/
def Kind.Visible : Kind → Prop
  | .rbm _ backprop => backprop = true
  | _ => True

/-! ## One layer -/

theorem dense_congr {I : ℕ} {W W' : Batch} {b b' : ℕ → ℝ} {x x' : Batch} {n j : ℕ} (hx : ∀ i < I, x n i = x' n i)
    (hW : ∀ i < I, W j i = W' j i) (hb : b j = b' j) : dense I W b x n j = dense I W' b' x' n j := by
  rw [dense, dense, hb]
  congr 1
  exact sum_congr rfl fun i hi => by rw [hx i (mem_range.1 hi), hW i (mem_range.1 hi)]

theorem compressedW_congr {M j : ℕ} {phi : Batch} {w w' : Weights} (h : ∀ m < M, w (.w [j, m]) = w' (.w [j, m])) (i : ℕ) :
    compressedW M phi w j i = compressedW M phi w' j i :=
  sum_congr rfl fun m hm => by rw [Weights.mat, Weights.mat, h m (mem_range.1 hm)]

theorem rowMax_congr {x x' : Batch} {n base k : ℕ} (h : ∀ i < k, x n (base + i) = x' n (base + i)) :
    Pool.rowMax x n base k = Pool.rowMax x' n base k := by
  induction k with
  | zero => rfl
  | succ k ih => rw [Pool.rowMax, Pool.rowMax, ih fun i hi => h i (by omega), h k (by omega)]

/-- The outputs of a layer depend only on its parameters and on the columns of its input. -/
theorem Kind.forward_congr {k : Kind} {I N : ℕ} (hf : k.Fits I) (hv : k.Visible) {w w' : Weights}
    (hw : ∀ s, k.IsParam I s → w s = w' s) {x x' : Batch} {n : ℕ} (hx : ∀ i < I, x n i = x' n i) {j : ℕ}
    (hj : j < (k.layer I).outputs) : (k.layer I).forward w N x n j = (k.layer I).forward w' N x' n j := by
  cases k with
  | fullyConnected J bias act reg =>
    refine congrArg act.apply (dense_congr hx (fun i hi => hw _ (Or.inl ⟨j, hj, i, hi, rfl⟩)) ?_)
    cases bias with
    | false => rfl
    | true => exact hw _ (Or.inr ⟨rfl, j, hj, rfl⟩)
  | compressed J M bias act reg phi =>
    have h : ∀ m < M, w (.w [j, m]) = w' (.w [j, m]) := fun m hm => hw _ ⟨j, hj, m, hm, rfl⟩
    refine congrArg act.apply (dense_congr hx (fun i _ => compressedW_congr h i) ?_)
    rw [compressedBias, compressedBias, compressedW_congr h I]
  | extreme J bias act W => exact congrArg act.apply (dense_congr hx (fun _ _ => rfl) rfl)
  | intrinsicPlasticity s b =>
    show Act.logistic.apply (x n j * s j + b j) = Act.logistic.apply (x' n j * s j + b j)
    rw [hx j hj]
  | rbm H backprop =>
    have hb : backprop = true := hv
    subst hb
    exact congrArg Act.logistic.apply (dense_congr hx (fun i hi => hw _ ⟨rfl, Or.inl ⟨j, hj, i, hi, rfl⟩⟩)
      (hw _ ⟨rfl, Or.inr ⟨j, hj, rfl⟩⟩))
  | sparseAutoEncoder H act lambda =>
    exact congrArg act.apply (dense_congr hx (fun i hi => hw _ (Or.inl ⟨j, hj, i, hi, rfl⟩))
      (hw _ (Or.inr ⟨j, hj, rfl⟩)))
  | dropout mask =>
    show mask n j * x n j = mask n j * x' n j
    rw [hx j hj]
  | conv g =>
    refine congrArg g.act.apply ?_
    refine sum_congr rfl fun fmo hfo => sum_congr rfl fun fmi hfi => sum_congr rfl fun row hr => sum_congr rfl fun col hc =>
      ?_
    rw [mem_range] at hfo hfi hr hc
    have hwin : g.window w x n fmo fmi row col = g.window w' x' n fmo fmi row col := by
      refine sum_congr rfl fun kr hkr => sum_congr rfl fun kc hkc => ?_
      rw [mem_range] at hkr hkc
      have hb := Conv.inIdx_bound hf.2 hfi hr hc hkr
      have e : g.inIdx fmi (row + kr) (col + kc) = g.inIdx fmi (row + kr) col + kc := by
        simp only [Conv.inIdx]; ring
      rw [hw _ ⟨fmo, hfo, fmi, hfi, Or.inl ⟨kr, hkr, kc, hkc, rfl⟩⟩, hx _ (by rw [← hf.1, e]; omega)]
    have hbias : (if g.bias then w (.b [fmo, fmi]) else 0) = if g.bias then w' (.b [fmo, fmi]) else 0 := by
      by_cases hb : g.bias = true
      · rw [if_pos hb, if_pos hb]
        exact hw _ ⟨fmo, hfo, fmi, hfi, Or.inr ⟨hb, rfl⟩⟩
      · rw [if_neg hb, if_neg hb]
    rw [hwin, hbias]
  | maxPool g =>
    refine rowMax_congr fun i hi => hx _ ?_
    rw [← hf.1]
    exact Pool.base_bound hf.2 hj hi
  | sub g bias act reg =>
    refine congrArg act.apply ?_
    have hm := Pool.mapOf_lt (g := g) hj
    have hr := Pool.rowOf_lt hf.2 j
    have hc := Pool.colOf_lt hf.2 j
    have hsum : g.rowSum x n (g.base j) = g.rowSum x' n (g.base j) := by
      refine sum_congr rfl fun kr _ => sum_congr rfl fun kc hkc => hx _ ?_
      rw [← hf.1]
      exact Pool.base_bound hf.2 hj (mem_range.1 hkc)
    rw [Pool.subActivation, Pool.subActivation, hsum, hw _ ⟨_, hm, _, hr, _, hc, Or.inl rfl⟩]
    congr 1
    cases bias with
    | false => rfl
    | true => exact hw _ ⟨_, hm, _, hr, _, hc, Or.inr ⟨rfl, rfl⟩⟩
  | lrn g =>
    have hI : g.inputs = I := hf
    have hjI : j < g.inputs := hj
    have hs : 0 < g.fmSize := by
      rcases Nat.eq_zero_or_pos g.fmSize with h | h
      · rw [LRN.inputs, Nat.mul_assoc, show g.rows * g.cols = 0 from h, Nat.mul_zero] at hjI
        omega
      · exact h
    have hd : g.denomAt x n j = g.denomAt x' n j := by
      rw [LRN.denomAt, LRN.denomAt, LRN.denom, LRN.denom]
      congr 2
      refine sum_congr rfl fun m hm => ?_
      have hlt : m * g.fmSize + j % g.fmSize < I := by
        rw [LRN.maps, mem_Ico, lt_min_iff] at hm
        have h1 := Nat.mod_lt j hs
        have h2 : (m + 1) * g.fmSize ≤ g.fm * g.fmSize := Nat.mul_le_mul_right _ (by omega)
        rw [Nat.succ_mul] at h2
        rw [← hI, LRN.inputs, Nat.mul_assoc]
        exact lt_of_lt_of_le (by omega) h2
      rw [hx _ hlt]
    show x n j * g.denomAt x n j ^ (-g.beta) = x' n j * g.denomAt x' n j ^ (-g.beta)
    rw [hd, hx j (hI ▸ hjI)]

/-- `updatedParameters` computes the parameters from the parameters. -/
theorem Kind.updated_congr {k : Kind} {I : ℕ} {w w' : Weights} (hw : ∀ s, k.IsParam I s → w s = w' s) :
    ∀ s, k.IsParam I s → (k.layer I).updated w s = (k.layer I).updated w' s := by
  intro s hs
  cases k with
  | fullyConnected J bias act reg =>
    show maxNormUpdate I reg.maxNorm w s = maxNormUpdate I reg.maxNorm w' s
    rcases hs with ⟨j, hj, i, hi, rfl⟩ | ⟨hb, j, hj, rfl⟩
    · have e : ∑ i' ∈ range I, w (.w [j, i']) ^ 2 = ∑ i' ∈ range I, w' (.w [j, i']) ^ 2 :=
        sum_congr rfl fun i' hi' => by rw [hw _ (Or.inl ⟨j, hj, i', mem_range.1 hi', rfl⟩)]
      simp only [maxNormUpdate]
      rw [e, hw _ (Or.inl ⟨j, hj, i, hi, rfl⟩)]
    · exact hw _ (Or.inr ⟨hb, j, hj, rfl⟩)
  | _ => exact hw s hs

/-! ## A network -/

theorem forwardFrom_congr {N : ℕ} {mem mem' : Mem} {n : ℕ} :
    ∀ (ks : List Kind) (I m : ℕ), FitsFrom I ks → (∀ k ∈ ks, k.Visible) →
      (∀ l s, IsParamFrom I ks l s → mem (m + l) s = mem' (m + l) s) →
      ∀ (x x' : Batch), (∀ i < I, x n i = x' n i) →
        ∀ j < outFrom I (layersFrom I ks), forwardFrom mem N m (layersFrom I ks) x n j =
          forwardFrom mem' N m (layersFrom I ks) x' n j := by
  intro ks
  induction ks with
  | nil => intro I m _ _ _ x x' hx j hj; exact hx j hj
  | cons k ks ih =>
    intro I m hf hv hm x x' hx j hj
    refine ih (k.layer I).outputs (m + 1) hf.2 (fun a ha => hv a (List.mem_cons_of_mem _ ha)) ?_ _ _ ?_ j hj
    · intro l s hs
      have := hm (l + 1) s hs
      rwa [show m + (l + 1) = m + 1 + l by omega] at this
    · intro i hi
      exact Kind.forward_congr hf.1 (hv k List.mem_cons_self) (fun s hs => hm 0 s hs) hx hi

theorem outputs_buildNet (D : ℕ) (ks : List Kind) (ce : Bool) :
    (buildNet D ks ce).outputs = outFrom D (layersFrom D ks) :=
  outputs_eq_outFrom D (inputLayer D) (layersFrom D ks) ce

/-- Networks that agree on their parameters compute the same outputs. -/
theorem predictAll_congr {D : ℕ} {ks : List Kind} (ce : Bool) (hf : FitsFrom D ks) (hv : ∀ k ∈ ks, k.Visible)
    {mem mem' : Mem} (hm : ∀ l s, IsParamFrom D ks l s → mem (l + 1) s = mem' (l + 1) s) (N : ℕ) {X X' : Batch} {n : ℕ}
    (hX : ∀ i < D, X n i = X' n i) {j : ℕ} (hj : j < (buildNet D ks ce).outputs) :
    (buildNet D ks ce).predictAll mem N X n j = (buildNet D ks ce).predictAll mem' N X' n j := by
  have key : ∀ j < (buildNet D ks ce).outputs,
      (buildNet D ks ce).activations mem N X n j = (buildNet D ks ce).activations mem' N X' n j := by
    intro j hj
    rw [outputs_buildNet] at hj
    refine forwardFrom_congr ks D 1 hf hv ?_ X X' hX j hj
    intro l s hs
    rw [Nat.add_comm]
    exact hm l s hs
  rw [Net.predictAll, Net.predictAll, Net.output, Net.output]
  cases ce with
  | false => exact key j hj
  | true =>
    show softmax N _ _ n j = softmax N _ _ n j
    rw [softmax_eq, softmax_eq, key j hj]
    congr 1
    exact sum_congr rfl fun i hi => by rw [key i (mem_range.1 hi)]

theorem layersFrom_getElem {I : ℕ} {ks : List Kind} {l : ℕ} {s : Slot} (h : IsParamFrom I ks l s) :
    ∃ (k : Kind) (I' : ℕ) (hl : l < (layersFrom I ks).length), (layersFrom I ks)[l] = k.layer I' ∧ k.IsParam I' s ∧
      ∀ s', k.IsParam I' s' → IsParamFrom I ks l s' := by
  induction ks generalizing I l with
  | nil => simp [IsParamFrom] at h
  | cons k ks ih =>
    cases l with
    | zero => exact ⟨k, I, by simp [layersFrom], rfl, h, fun s' hs' => hs'⟩
    | succ l =>
      obtain ⟨k', I', hl, e, h1, h2⟩ := ih h
      exact ⟨k', I', by simpa [layersFrom] using hl, by simpa [layersFrom] using e, h1, h2⟩

/-- After `setParameters` the places named by the parameter vector do not depend on what was there before. -/
theorem setParameters_determined {D : ℕ} {ks : List Kind} (ce : Bool) (mem mem' : Mem) {θ : List ℝ}
    (hθ : (buildNet D ks ce).P ≤ θ.length) {l : ℕ} {s : Slot} (h : IsParamFrom D ks l s) :
    (buildNet D ks ce).setParameters mem θ (l + 1) s = (buildNet D ks ce).setParameters mem' θ (l + 1) s := by
  have hwr : ∀ s', IsParamFrom D ks l s' → mem.writeAll (buildNet D ks ce).parameters θ (l + 1) s' =
      mem'.writeAll (buildNet D ks ce).parameters θ (l + 1) s' := by
    intro s' hs'
    have hmem : (l + 1, s') ∈ (buildNet D ks ce).parameters := by
      have := (mem_locs_layersFrom (k := 1)).2 hs'
      rwa [Nat.add_comm] at this
    obtain ⟨i, hi, e⟩ := List.getElem_of_mem hmem
    have hi' : i < θ.length := lt_of_lt_of_le hi hθ
    have h1 := writeAll_getElem (mem := mem) (θ := θ) (parameters_nodup D ks ce) hi hi'
    have h2 := writeAll_getElem (mem := mem') (θ := θ) (parameters_nodup D ks ce) hi hi'
    rw [e] at h1 h2
    exact h1.trans h2.symm
  obtain ⟨k, I', hl, e, h1, h2⟩ := layersFrom_getElem h
  have hlen : l + 1 < (buildNet D ks ce).layers.length := by
    show l + 1 < (inputLayer D :: layersFrom D ks).length
    rw [List.length_cons]
    omega
  have hget : (buildNet D ks ce).layers[l + 1] = k.layer I' := e
  have u1 := updatedFrom_getElem (k := 0) (mem := mem.writeAll (buildNet D ks ce).parameters θ) hlen
  have u2 := updatedFrom_getElem (k := 0) (mem := mem'.writeAll (buildNet D ks ce).parameters θ) hlen
  rw [Nat.zero_add, hget] at u1 u2
  rw [Net.setParameters, Net.setParameters, u1, u2]
  exact Kind.updated_congr (fun s' hs' => hwr s' (h2 s' hs')) s h1

/-- **C70 (the parameter vector determines the function)**: for every architecture whose weights are all in the parameter
vector, `setParameters` with at least `dimension()` numbers makes the outputs for every batch a function of these numbers,
whatever weights the network had before. -/
theorem parameters_determine {D : ℕ} {ks : List Kind} (ce : Bool) (hf : FitsFrom D ks) (hv : ∀ k ∈ ks, k.Visible)
    (mem mem' : Mem) {θ : List ℝ} (hθ : (buildNet D ks ce).P ≤ θ.length) (N : ℕ) {X X' : Batch} {n : ℕ}
    (hX : ∀ i < D, X n i = X' n i) {j : ℕ} (hj : j < (buildNet D ks ce).outputs) :
    (buildNet D ks ce).predictAll ((buildNet D ks ce).setParameters mem θ) N X n j =
      (buildNet D ks ce).predictAll ((buildNet D ks ce).setParameters mem' θ) N X' n j :=
  predictAll_congr ce hf hv (fun _ _ hs => setParameters_determined ce mem mem' hθ hs) N hX hj

/-- An RBM that takes no part in backpropagation keeps its weights for itself: networks with the same (empty) parameter
vector differ. -/
theorem frozen_rbm_not_determined (D H : ℕ) (hH : 0 < H) (θ : List ℝ) :
    ∃ (mem mem' : Mem) (X : Batch),
      (buildNet D [.rbm H false] false).P = 0 ∧ (buildNet D [.rbm H false] false).outputs = H ∧
      (buildNet D [.rbm H false] false).predictAll ((buildNet D [.rbm H false] false).setParameters mem θ) 1 X 0 0 ≠
        (buildNet D [.rbm H false] false).predictAll ((buildNet D [.rbm H false] false).setParameters mem' θ) 1 X 0 0 := by
  have _ := hH
  refine ⟨fun _ _ => 0, fun _ s => if s = .b [0] then 100 else 0, fun _ _ => 0, rfl, rfl, ?_⟩
  have hset : ∀ mem : Mem, (buildNet D [.rbm H false] false).setParameters mem θ = mem := by
    intro mem
    rw [setParameters_unconstrained]
    · rfl
    · exact updated_of_unconstrained (by
        intro k hk J bias act reg e
        rw [List.mem_singleton] at hk
        rw [hk] at e
        cases e)
  rw [hset, hset]
  show Act.logistic.apply (∑ i ∈ range D, (0 : ℝ) * 0 + 0) ≠ Act.logistic.apply (∑ i ∈ range D, (0 : ℝ) * 0 + 100)
  rw [sum_congr rfl fun i _ => zero_mul (0 : ℝ)]
  simp only [sum_const_zero, zero_add, Act.apply]
  norm_num

/-- The hypotheses of `parameters_determine` are met by a network with a convolution, pooling and a constrained layer. -/
example : FitsFrom 16 [.conv ⟨1, 4, 4, 2, 3, 3, true, .tanh, ⟨0, 0, 0⟩⟩, .maxPool ⟨2, 2, 2, 2, 2⟩,
      .fullyConnected 3 true .linear ⟨0, 0, 1⟩] ∧
    (buildNet 16 [.conv ⟨1, 4, 4, 2, 3, 3, true, .tanh, ⟨0, 0, 0⟩⟩, .maxPool ⟨2, 2, 2, 2, 2⟩,
      .fullyConnected 3 true .linear ⟨0, 0, 1⟩] true).P = 29 := by
  refine ⟨⟨⟨rfl, ?_⟩, ⟨rfl, ?_⟩, trivial, trivial⟩, rfl⟩
  · unfold Conv.Valid; decide
  · unfold Pool.Valid; decide

end

end Verif.NN
