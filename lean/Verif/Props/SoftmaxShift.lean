import Verif.Props.SignFlipTraining
import Verif.Props.Untouched
import Verif.Props.Calibration

/-!
# C137: a common shift of the outputs of a classifier means nothing and is not learned

A network that is trained with `setErrorFunction(CE)` and has a linear output layer applies softmax to the outputs of this layer.  The same
vector added to the weights of all output units, and the same number added to all of their biases, changes neither predictions nor errors
nor gradients.  `MBSGD` never moves in these directions: it goes from shifted parameters to the shifted parameters, and without gains
the sums of the weights and of the biases over the output units stay what they were in the beginning.
-/

namespace Verif.NN

open Finset Verif.Opt

noncomputable section

/-! ## Specification -/

/-- Spec: what is added to a weight: `u i` to weight `i` and `v` to the bias of each unit of layer `k`. -/
def shiftAt (k : ℕ) (u : ℕ → ℝ) (v : ℝ) : Loc → ℝ
  | (l, .w [_, i]) => if l = k then u i else 0
  | (l, .b [_]) => if l = k then v else 0
  | _ => 0

/-- Spec: the weights with the same shift of all units of layer `k`. -/
def shifted (k : ℕ) (u : ℕ → ℝ) (v : ℝ) (mem : Mem) : Mem := fun l s => mem l s + shiftAt k u v (l, s)

/-- Spec: what is added to entry `p` of the parameter vector. -/
def Net.shifts (net : Net) (k : ℕ) (u : ℕ → ℝ) (v : ℝ) (p : ℕ) : ℝ := (net.parameters[p]?).elim 0 (shiftAt k u v)

/-- Spec: the targets of each instance add up to 1, as in 1-of-c encoding. -/
def TargetsSumToOne (F : ℕ) (ds : TrainSet) : Prop := ∀ n < ds.samples, ∑ j ∈ range F, ds.tgt n j = 1

/-- Spec: the output layer has neither penalties nor a maximum norm of the weights. -/
def FreeWeights (reg : Reg) : Prop := NoPenalty reg ∧ reg.maxNorm ≤ 0

/-! ## The number that is subtracted -/

theorem foldl_max_spec : ∀ (l : List ℝ) (a : ℝ), (l.foldl max a = a ∨ l.foldl max a ∈ l) ∧ a ≤ l.foldl max a ∧ ∀ b ∈ l, b ≤ l.foldl max a
  | [], a => ⟨Or.inl rfl, le_rfl, fun _ h => by cases h⟩
  | b :: l, a => by
    obtain ⟨h1, h2, h3⟩ := foldl_max_spec l (max a b)
    rw [List.foldl_cons]
    refine ⟨?_, (le_max_left a b).trans h2, fun c hc => ?_⟩
    · rcases h1 with h1 | h1
      · rcases max_choice a b with e | e
        · exact Or.inl (h1.trans e)
        · refine Or.inr ?_
          have e' : l.foldl max (max a b) = b := h1.trans e
          rw [e']
          exact List.mem_cons_self
      · exact Or.inr (List.mem_cons_of_mem _ h1)
    · rcases List.mem_cons.1 hc with rfl | hc
      · exact (le_max_right a c).trans h2
      · exact h3 c hc

/-- **C29 (no exponent is positive)**: softmax subtracts the greatest activation of the batch, so that no exponential is greater than 1
and one of them is 1. -/
theorem softmax_exponents {N F : ℕ} (hN : 0 < N) (hF : 0 < F) (y : Batch) :
    (∃ n < N, ∃ j < F, maxCoeff N F y = y n j) ∧ ∀ n < N, ∀ j < F, y n j ≤ maxCoeff N F y := by
  have hm : ∀ n < N, ∀ j < F, y n j ∈ (List.range N).flatMap fun n => (List.range F).map fun j => y n j := fun n hn j hj =>
    List.mem_flatMap.2 ⟨n, List.mem_range.2 hn, List.mem_map.2 ⟨j, List.mem_range.2 hj, rfl⟩⟩
  obtain ⟨h1, _, h3⟩ := foldl_max_spec ((List.range N).flatMap fun n => (List.range F).map fun j => y n j) (y 0 0)
  refine ⟨?_, fun n hn j hj => h3 _ (hm n hn j hj)⟩
  rcases h1 with h1 | h1
  · exact ⟨0, hN, 0, hF, h1⟩
  · obtain ⟨n, hn, h⟩ := List.mem_flatMap.1 h1
    obtain ⟨j, hj, e⟩ := List.mem_map.1 h
    exact ⟨n, List.mem_range.1 hn, j, List.mem_range.1 hj, e.symm⟩

example : (∃ n < 2, ∃ j < 1, maxCoeff 2 1 (fun n _ => (n : ℝ)) = (fun n _ => (n : ℝ) : Batch) n j) ∧
    ∀ n < 2, ∀ j < 1, (fun n _ => (n : ℝ) : Batch) n j ≤ maxCoeff 2 1 fun n _ => (n : ℝ) :=
  softmax_exponents (by norm_num) (by norm_num) fun n _ => (n : ℝ)

/-! ## The output layer -/

section

variable {k : ℕ} {u : ℕ → ℝ} {v : ℝ}

theorem shifted_other (mem : Mem) {l : ℕ} (h : l ≠ k) : shifted k u v mem l = mem l := by
  funext s
  have : shiftAt k u v (l, s) = 0 := by
    unfold shiftAt
    split <;> first | rfl | skip
    all_goals next e => cases e; exact if_neg h
  rw [shifted, this, add_zero]

theorem shifted_w (mem : Mem) (j i : ℕ) : shifted k u v mem k (.w [j, i]) = mem k (.w [j, i]) + u i := by
  simp [shifted, shiftAt]

theorem shifted_b (mem : Mem) (j : ℕ) : shifted k u v mem k (.b [j]) = mem k (.b [j]) + v := by
  simp [shifted, shiftAt]

variable {I F : ℕ} {bias : Bool} {reg : Reg}

theorem softmax_rows (N F : ℕ) (y : Batch) (c : ℕ → ℝ) : softmax N F (fun n j => y n j + c n) = softmax N F y := by
  funext n j
  rw [softmax_eq, softmax_eq, ← softmax_shift F (y n) (-c n) j]
  simp

theorem forward_shifted (mem : Mem) (N : ℕ) (x : Batch) :
    (fullyConnected I F bias .linear reg).forward (shifted k u v mem k) N x = fun n j =>
      (fullyConnected I F bias .linear reg).forward (mem k) N x n j + (∑ i ∈ range I, x n i * u i + if bias then v else 0) := by
  funext n j
  show ∑ i ∈ range I, x n i * shifted k u v mem k (.w [j, i]) + (if bias then shifted k u v mem k (.b [j]) else 0) =
    ∑ i ∈ range I, x n i * mem k (.w [j, i]) + (if bias then mem k (.b [j]) else 0) + _
  simp only [shifted_w, shifted_b, mul_add, sum_add_distrib]
  split <;> ring

theorem regError_free (h : NoPenalty reg) (w : Weights) : (fullyConnected I F bias .linear reg).regError w = 0 := by
  show reg.error _ _ = 0
  rw [Reg.error, if_neg (not_lt.2 h.1), if_neg (not_lt.2 h.2), add_zero]

theorem derivs_free (h : NoPenalty reg) (w w' : Weights) (N : ℕ) (x e : Batch) :
    (fullyConnected I F bias .linear reg).derivs w N x e = (fullyConnected I F bias .linear reg).derivs w' N x e := by
  funext s
  unfold fullyConnected
  dsimp only
  split
  · simp only [h.deriv, deltas, Act.deriv]
  · simp only [deltas, Act.deriv]
  · rfl

theorem back_shifted (mem : Mem) (N : ℕ) (x : Batch) {e : Batch} (he : ∀ n, ∑ j ∈ range F, e n j = 0) (flag : Bool) (stale : Batch) :
    (fullyConnected I F bias .linear reg).back (shifted k u v mem k) N x e flag stale =
      (fullyConnected I F bias .linear reg).back (mem k) N x e flag stale := by
  unfold fullyConnected
  dsimp only
  split
  · funext n i
    show ∑ j ∈ range F, 1 * e n j * shifted k u v mem k (.w [j, i]) = ∑ j ∈ range F, 1 * e n j * mem k (.w [j, i])
    simp only [shifted_w, mul_add, sum_add_distrib, one_mul]
    rw [← sum_mul, he, zero_mul, add_zero]
  · rfl

theorem updated_free (h : reg.maxNorm ≤ 0) (w : Weights) : (fullyConnected I F bias .linear reg).updated w = w := by
  funext s
  show maxNormUpdate I reg.maxNorm w s = w s
  unfold maxNormUpdate
  split
  · rw [if_neg fun h' => absurd h'.1 (not_lt.2 h)]
  · rfl

end

/-! ## Networks -/

section

variable {D F : ℕ} {ks : List Kind} {bias : Bool} {reg : Reg} {u : ℕ → ℝ} {v : ℝ} {net : Net}
  (hn : net = buildNet D (ks ++ [.fullyConnected F bias .linear reg]) true)

include hn

theorem layers_classifier : net.layers = (buildNet D ks false).layers ++
      [fullyConnected (outFrom D (layersFrom D ks)) F bias .linear reg] ∧
    (buildNet D ks false).layers.length = ks.length + 1 := by
  refine ⟨by rw [hn]; exact layers_last D ks _ true, ?_⟩
  show (inputLayer D :: layersFrom D ks).length = _
  rw [List.length_cons, layersFrom_length]

theorem output_shifted (mem : Mem) (N : ℕ) (X : Batch) :
    net.output (shifted (ks.length + 1) u v mem) N X = net.output mem N X := by
  obtain ⟨hl, hA⟩ := layers_classifier hn
  have hce : net.ce = true := by rw [hn]; rfl
  rw [Net.output, Net.output, if_pos hce, if_pos hce, Net.activations, Net.activations, hl]
  have hag : forwardFrom (shifted (ks.length + 1) u v mem) N 0 (buildNet D ks false).layers X =
      forwardFrom mem N 0 (buildNet D ks false).layers X := forwardFrom_agree _ _ _ fun l _ h => shifted_other mem (by omega)
  rw [forwardFrom_append, forwardFrom_append, hag]
  rw [Nat.zero_add, hA]
  generalize forwardFrom mem N 0 (buildNet D ks false).layers X = x
  show softmax N net.outputs ((fullyConnected _ F bias .linear reg).forward (shifted (ks.length + 1) u v mem (ks.length + 1)) N x) = _
  rw [forward_shifted]
  exact softmax_rows N net.outputs _ _

theorem regFrom_shifted (hr : NoPenalty reg) (mem : Mem) :
    regFrom (shifted (ks.length + 1) u v mem) 0 net.layers = regFrom mem 0 net.layers := by
  obtain ⟨hl, hA⟩ := layers_classifier hn
  rw [hl, regFrom_append, regFrom_append, regFrom_agree (mem' := mem) _ _ (fun l _ h => shifted_other mem (by omega))]
  simp only [regFrom, regError_free hr]

/-- **C137 (predictions and errors)**: a common shift of the output units changes neither the outputs for any batch nor the value of
`errorGradient`, `error(n)` and `error()`; the targets need not add up to 1. -/
theorem predict_shifted (hr : NoPenalty reg) (mem : Mem) :
    (∀ N X, net.predictAll (shifted (ks.length + 1) u v mem) N X = net.predictAll mem N X) ∧
    (∀ N X T, net.value (shifted (ks.length + 1) u v mem) N X T = net.value mem N X T) ∧
    (∀ ds n, net.errorAt (shifted (ks.length + 1) u v mem) ds n = net.errorAt mem ds n) ∧
    ∀ ds, net.error (shifted (ks.length + 1) u v mem) ds = net.error mem ds := by
  have hat : ∀ ds n, net.errorAt (shifted (ks.length + 1) u v mem) ds n = net.errorAt mem ds n := fun ds n => by
    rw [Net.errorAt, Net.errorAt, output_shifted hn, regFrom_shifted hn hr]
  refine ⟨fun N X => output_shifted hn mem N X, fun N X T => ?_, hat, fun ds => ?_⟩
  · rw [Net.value, Net.value, output_shifted hn, regFrom_shifted hn hr]
  · rw [Net.error, Net.error]
    simp only [hat]

theorem outputs_classifier : net.outputs = F := by
  rw [hn]
  exact outputs_last D ks F bias .linear reg true

/-- The error signal of each row adds up to 0. -/
theorem signal_sum {ds : TrainSet} (ht : TargetsSumToOne F ds) {idx : List ℕ} (hi : ∀ n ∈ idx, n < ds.samples) (hne : idx ≠ [])
    (mem : Mem) (N : ℕ) (X : Batch) (n : ℕ) :
    ∑ j ∈ range F, (net.output mem N X n j - selectRows ds.tgt idx n j) = 0 := by
  have hlt : idx.getD n 0 < ds.samples := by
    by_cases h : n < idx.length
    · exact selectRows_mem hi h
    · obtain ⟨m, hm⟩ := List.exists_mem_of_ne_nil idx hne
      rw [List.getD_eq_getElem?_getD, List.getElem?_eq_none (by omega)]
      exact lt_of_le_of_lt (Nat.zero_le m) (hi m hm)
  have h1 : ∑ j ∈ range F, selectRows ds.tgt idx n j = 1 := ht _ hlt
  have hF : 0 < F := by
    rcases Nat.eq_zero_or_pos F with h | h
    · rw [h, sum_range_zero] at h1
      exact absurd h1 (by norm_num)
    · exact h
  rw [sum_sub_distrib, h1, Net.output, if_pos (by rw [hn]; rfl), outputs_classifier hn, softmax_sum N F hF, sub_self]

theorem backFrom_shifted (hr : NoPenalty reg) (mem : Mem) (N : ℕ) (stale : ℕ → Batch) (x : Batch) {e : Batch}
    (he : ∀ n, ∑ j ∈ range F, e n j = 0) (d : Mem) :
    backFrom (shifted (ks.length + 1) u v mem) N stale 0 net.layers x e d = backFrom mem N stale 0 net.layers x e d := by
  obtain ⟨hl, hA⟩ := layers_classifier hn
  have key : ∀ m : Mem, backFrom m N stale 0 net.layers x e d = backFrom m N stale 0 (buildNet D ks false).layers x
      (backStep m N stale (ks.length + 1, fullyConnected (outFrom D (layersFrom D ks)) F bias .linear reg,
        forwardFrom m N 0 (buildNet D ks false).layers x) (e, d)).1
      (backStep m N stale (ks.length + 1, fullyConnected (outFrom D (layersFrom D ks)) F bias .linear reg,
        forwardFrom m N 0 (buildNet D ks false).layers x) (e, d)).2 := by
    intro m
    rw [backFrom, hl, traceFrom_append, List.foldr_append, Nat.zero_add, hA]
    rfl
  have hag : ∀ l, 0 ≤ l → l < 0 + (buildNet D ks false).layers.length → shifted (ks.length + 1) u v mem l = mem l :=
    fun l _ h => shifted_other mem (by omega)
  rw [key, key, backFrom_agree _ _ _ _ _ _ hag, forwardFrom_agree _ _ _ hag]
  simp only [backStep]
  rw [back_shifted mem N _ he, derivs_free hr _ (mem (ks.length + 1))]

/-- The gradient is the same with the shift. -/
theorem errorGradient_shifted_mem (hr : NoPenalty reg) {ds : TrainSet} (ht : TargetsSumToOne F ds) {idx : List ℕ}
    (hi : ∀ n ∈ idx, n < ds.samples) (mem : Mem) (sc : Scratch) :
    net.errorGradient (shifted (ks.length + 1) u v mem) sc ds idx = net.errorGradient mem sc ds idx := by
  refine Prod.ext ((predict_shifted hn hr mem).2.1 _ _ _) ?_
  show net.grad _ _ _ _ _ = net.grad _ _ _ _ _
  rw [Net.grad, Net.grad]
  by_cases hne : idx = []
  · subst hne
    simp
  · rw [output_shifted hn, backFrom_shifted hn hr mem _ _ _ (signal_sum hn ht hi hne mem _ _)]

theorem updatedFrom_shifted (hm : reg.maxNorm ≤ 0) (mem : Mem) :
    updatedFrom 0 net.layers (shifted (ks.length + 1) u v mem) = shifted (ks.length + 1) u v (updatedFrom 0 net.layers mem) := by
  obtain ⟨hl, hA⟩ := layers_classifier hn
  have key : ∀ (m : Mem) (l : ℕ), updatedFrom 0 net.layers m l =
      if h : l < net.layers.length then net.layers[l].updated (m l) else m l := by
    intro m l
    split
    · next h => simpa using updatedFrom_getElem (k := 0) (mem := m) h
    · next h => exact updatedFrom_ge (by omega)
  have hk : net.layers[ks.length + 1]? = some (fullyConnected (outFrom D (layersFrom D ks)) F bias .linear reg) := by
    rw [hl, ← hA]; simp
  obtain ⟨h, e⟩ := List.getElem?_eq_some_iff.1 hk
  have hlast : ∀ m : Mem, updatedFrom 0 net.layers m (ks.length + 1) = m (ks.length + 1) := fun m => by
    rw [key, dif_pos h, e, updated_free hm]
  funext l
  by_cases h1 : l = ks.length + 1
  · subst h1
    rw [hlast]
    funext s
    rw [shifted, shifted, hlast]
  · rw [shifted_other _ h1, key, key, shifted_other _ h1]

/-- Writing shifted parameters gives the shifted weights. -/
theorem setParameters_shifted (hm : reg.maxNorm ≤ 0) (mem : Mem) (w : ℕ → ℝ) :
    net.setParameters (shifted (ks.length + 1) u v mem) ((List.range net.P).map fun p => w p + net.shifts (ks.length + 1) u v p) =
      shifted (ks.length + 1) u v (net.setParameters mem ((List.range net.P).map w)) := by
  have hnd : net.parameters.Nodup := by rw [hn]; exact parameters_nodup D _ true
  rw [Net.setParameters, Net.setParameters, ← updatedFrom_shifted hn hm]
  congr 1
  funext l s
  by_cases hp : (l, s) ∈ net.parameters
  · obtain ⟨p, hlt, e⟩ := List.getElem_of_mem hp
    have h1 := writeAll_getElem (θ := (List.range net.P).map fun p => w p + net.shifts (ks.length + 1) u v p)
      (mem := shifted (ks.length + 1) u v mem) hnd hlt (by simpa [Net.P] using hlt)
    have h2 := writeAll_getElem (θ := (List.range net.P).map w) (mem := mem) hnd hlt (by simpa [Net.P] using hlt)
    have hs : net.shifts (ks.length + 1) u v p = shiftAt (ks.length + 1) u v (l, s) := by
      rw [Net.shifts, List.getElem?_eq_getElem hlt, e]
      rfl
    rw [e] at h1 h2
    rw [shifted, h2]
    refine h1.trans ?_
    simp [hs]
  · have h1 := writeAll_of_notMem (θ := (List.range net.P).map fun p => w p + net.shifts (ks.length + 1) u v p)
      (mem := shifted (ks.length + 1) u v mem) hp
    have h2 := writeAll_of_notMem (θ := (List.range net.P).map w) (mem := mem) hp
    rw [shifted, h2]
    exact h1

variable (hf : FitsFrom D (ks ++ [.fullyConnected F bias .linear reg]))
  (hv : ∀ k ∈ ks ++ [.fullyConnected F bias .linear reg], k.Visible)

include hf hv

/-- **C137 (gradient)**: `errorGradient` returns the same value and the same gradient for the shifted parameters, for any examples,
whatever the weights and buffers contained before. -/
theorem errorGradient_shifted (hr : FreeWeights reg) {ds : TrainSet} (ht : TargetsSumToOne F ds) {idx : List ℕ}
    (hi : ∀ n ∈ idx, n < ds.samples) (mem : Mem) (sc : Scratch) (w : ℕ → ℝ) :
    net.errorGradient (net.setParameters mem ((List.range net.P).map fun p => w p + net.shifts (ks.length + 1) u v p)) sc ds idx =
      net.errorGradient (net.setParameters mem ((List.range net.P).map w)) sc ds idx := by
  have hdet := errorGradient_determined true hf hv mem (shifted (ks.length + 1) u v mem)
    (θ := (List.range net.P).map fun p => w p + net.shifts (ks.length + 1) u v p) (by simp [hn]) sc sc (ds := ds) (ds' := ds) (idx := idx)
    fun _ _ => ⟨fun _ _ => rfl, fun _ _ => rfl⟩
  rw [← hn] at hdet
  rw [hdet, setParameters_shifted hn hr.2, errorGradient_shifted_mem hn hr.1 ht hi]

/-- **C137 (parameter vector)**: the shifted parameter vector gives the same outputs. -/
theorem predictions_shifted (hm : reg.maxNorm ≤ 0) (mem : Mem) (w : ℕ → ℝ) (N : ℕ) (X : Batch) (n : ℕ) {j : ℕ} (hj : j < net.outputs) :
    net.predictAll (net.setParameters mem ((List.range net.P).map fun p => w p + net.shifts (ks.length + 1) u v p)) N X n j =
      net.predictAll (net.setParameters mem ((List.range net.P).map w)) N X n j := by
  have hdet := parameters_determine true hf hv mem (shifted (ks.length + 1) u v mem)
    (θ := (List.range net.P).map fun p => w p + net.shifts (ks.length + 1) u v p) (by simp [hn]) N (X := X) (X' := X) (n := n)
    (fun _ _ => rfl) (j := j) (by rw [← hn]; exact hj)
  rw [← hn] at hdet
  rw [hdet, setParameters_shifted hn hm]
  exact congrFun (congrFun (output_shifted hn _ N X) n) j

end

/-! ## The gradient has no part in these directions -/

section

variable {D F : ℕ} {ks : List Kind} {bias : Bool} {reg : Reg} {net : Net}
  (hn : net = buildNet D (ks ++ [.fullyConnected F bias .linear reg]) true)

/-- Spec: the positions of the weights from unit `i` of the last hidden layer to the output units. -/
def WeightsFrom (net : Net) (k F i : ℕ) (pos : ℕ → ℕ) : Prop := ∀ j < F, net.parameters[pos j]? = some (k, .w [j, i])

/-- Spec: the positions of the biases of the output units. -/
def BiasesOf (net : Net) (k F : ℕ) (pos : ℕ → ℕ) : Prop := ∀ j < F, net.parameters[pos j]? = some (k, .b [j])

include hn

/-- **C137 (sums of the gradient)**: the derivatives of the weights from one hidden unit to the output units add up to 0, and so do the
derivatives of their biases. -/
theorem gradient_sum (hr : NoPenalty reg) {ds : TrainSet} (ht : TargetsSumToOne F ds) {idx : List ℕ} (hi : ∀ n ∈ idx, n < ds.samples)
    (mem : Mem) (sc : Scratch) {pos : ℕ → ℕ} (hpos : (∃ i, WeightsFrom net (ks.length + 1) F i pos) ∨ BiasesOf net (ks.length + 1) F pos) :
    ∑ j ∈ range F, (net.errorGradient mem sc ds idx).2.getD (pos j) 0 = 0 := by
  have hder : net.derivatives = net.parameters := by
    rw [hn]
    exact (parameters_one_to_one D _ true).2.2.2.1
  obtain ⟨hl, hA⟩ := layers_classifier hn
  by_cases hne : idx = []
  · subst hne
    refine sum_eq_zero fun j _ => ?_
    show (net.grad _ _ _ _ _).getD _ 0 = _
    rw [Net.grad, List.getD_eq_getElem?_getD, List.getElem?_map]
    cases net.derivatives[pos j]? <;> simp
  have hsig := signal_sum hn ht hi hne mem idx.length (selectRows ds.inst idx)
  have key : ∀ j < F, ∀ s, net.parameters[pos j]? = some (ks.length + 1, s) →
      (net.errorGradient mem sc ds idx).2.getD (pos j) 0 =
        (fullyConnected (outFrom D (layersFrom D ks)) F bias .linear reg).derivs (mem (ks.length + 1)) idx.length
          (forwardFrom mem idx.length 0 (buildNet D ks false).layers (selectRows ds.inst idx))
          (fun n j => net.output mem idx.length (selectRows ds.inst idx) n j - selectRows ds.tgt idx n j) s / idx.length := by
    intro j _ s hp
    rw [grad_entry net mem sc ds idx (hder ▸ hp)]
    have := last_derivs mem idx.length sc.stale (buildNet D ks false).layers
      (fullyConnected (outFrom D (layersFrom D ks)) F bias .linear reg) (selectRows ds.inst idx)
      (fun n j => net.output mem idx.length (selectRows ds.inst idx) n j - selectRows ds.tgt idx n j) sc.derivs
    rw [hA, ← hl] at this
    dsimp only
    rw [this]
  generalize forwardFrom mem idx.length 0 (buildNet D ks false).layers (selectRows ds.inst idx) = x at key
  rcases hpos with ⟨i, h⟩ | h
  · rw [sum_congr rfl fun j hj => key j (mem_range.1 hj) _ (h j (mem_range.1 hj)), ← sum_div]
    have : ∑ j ∈ range F, (fullyConnected (outFrom D (layersFrom D ks)) F bias .linear reg).derivs (mem (ks.length + 1)) idx.length x
        (fun n j => net.output mem idx.length (selectRows ds.inst idx) n j - selectRows ds.tgt idx n j) (.w [j, i]) = 0 := by
      show ∑ j ∈ range F, (∑ n ∈ range idx.length, 1 * (net.output mem idx.length (selectRows ds.inst idx) n j -
        selectRows ds.tgt idx n j) * x n i + reg.deriv _) = 0
      simp only [hr.deriv, add_zero, one_mul]
      rw [sum_comm]
      refine sum_eq_zero fun n _ => ?_
      rw [← sum_mul, hsig, zero_mul]
    rw [this, zero_div]
  · rw [sum_congr rfl fun j hj => key j (mem_range.1 hj) _ (h j (mem_range.1 hj)), ← sum_div]
    have : ∑ j ∈ range F, (fullyConnected (outFrom D (layersFrom D ks)) F bias .linear reg).derivs (mem (ks.length + 1)) idx.length x
        (fun n j => net.output mem idx.length (selectRows ds.inst idx) n j - selectRows ds.tgt idx n j) (.b [j]) = 0 := by
      show ∑ j ∈ range F, ∑ n ∈ range idx.length, 1 * (net.output mem idx.length (selectRows ds.inst idx) n j -
        selectRows ds.tgt idx n j) = 0
      simp only [one_mul]
      rw [sum_comm]
      exact sum_eq_zero fun n _ => hsig n
    rw [this, zero_div]

/-- These positions exist. -/
theorem positions_exist : (∀ i < (buildNet D ks false).outputs, ∃ pos, WeightsFrom net (ks.length + 1) F i pos) ∧
    (bias = true → ∃ pos, BiasesOf net (ks.length + 1) F pos) := by
  have hm : ∀ s, (Kind.fullyConnected F bias .linear reg).IsParam (outFrom D (layersFrom D ks)) s →
      ∃ p : ℕ, net.parameters[p]? = some (ks.length + 1, s) := by
    intro s hs
    have h1 := (parameters_one_to_one D (ks ++ [.fullyConnected F bias .linear reg]) true).1 ks.length s ((isParamFrom_last _ s ks D).2 hs)
    rw [← hn] at h1
    obtain ⟨p, hp, e⟩ := List.getElem_of_mem (List.count_pos_iff.1 (show 0 < net.parameters.count (ks.length + 1, s) by omega))
    exact ⟨p, List.getElem?_eq_some_iff.2 ⟨hp, e⟩⟩
  constructor
  · intro i hi
    rw [outputs_buildNet] at hi
    have : ∀ j, ∃ p : ℕ, j < F → net.parameters[p]? = some (ks.length + 1, .w [j, i]) := by
      intro j
      by_cases hj : j < F
      · obtain ⟨p, hp⟩ := hm (.w [j, i]) (Or.inl ⟨j, hj, i, hi, rfl⟩)
        exact ⟨p, fun _ => hp⟩
      · exact ⟨0, fun h => absurd h hj⟩
    choose pos hpos using this
    exact ⟨pos, hpos⟩
  · intro hb
    have : ∀ j, ∃ p : ℕ, j < F → net.parameters[p]? = some (ks.length + 1, .b [j]) := by
      intro j
      by_cases hj : j < F
      · obtain ⟨p, hp⟩ := hm (.b [j]) (Or.inr ⟨hb, j, hj, rfl⟩)
        exact ⟨p, fun _ => hp⟩
      · exact ⟨0, fun h => absurd h hj⟩
    choose pos hpos using this
    exact ⟨pos, hpos⟩

end

end

end Verif.NN

namespace Verif.Opt

open Finset NN

noncomputable section

/-! ## Optimiser -/

/-- Spec: the shift `τ` of the parameters changes neither the value nor the gradient of any batch. -/
def Problem.ShiftInvariant (A : Problem) (τ : ℕ → ℝ) : Prop :=
  ∀ k w b, (∀ n ∈ b, n < A.examples) → A.errorGradient k (fun p => w p + τ p) b = A.errorGradient k w b

/-- Spec: the derivatives of some parameters add up to 0 for any batch. -/
def Problem.Balanced (A : Problem) (F : ℕ) (pos : ℕ → ℕ) : Prop :=
  ∀ k w b, (∀ n ∈ b, n < A.examples) → ∑ j ∈ range F, (A.errorGradient k w b).2 (pos j) = 0

/-- Spec: a shifted event. -/
def Event.moved (τ : ℕ → ℝ) : Event → Event
  | .evaluate w b => .evaluate (fun p => w p + τ p) b
  | .finished w => .finished fun p => w p + τ p

/-- Spec: the optimised object with shifted parameters. -/
def Obj.moved (obj : Obj) (τ : ℕ → ℝ) : Obj := { obj with w := fun p => obj.w p + τ p, log := obj.log.map (Event.moved τ) }

/-- Spec: the optimiser with shifted parameters; the momentum is the same. -/
def MBSGD.moved (o : MBSGD) (τ : ℕ → ℝ) : MBSGD := { o with parameters := fun p => o.parameters p + τ p }

theorem SameConfig.noGain {a b : MBSGD} (h : SameConfig a b) (hb : ¬b.useGain) : ¬a.useGain := by
  unfold MBSGD.useGain at hb ⊢
  rw [h.minGain, h.maxGain]
  exact hb

/-- The indices of a run are indices of examples. -/
structure MBSGD.Sane (o : MBSGD) (A : Problem) : Prop where
  fair : o.Fair
  indices : 0 ≤ o.iteration → ∀ n ∈ o.randomIndices, n < A.examples

theorem ready_sane {o : MBSGD} {obj : Obj} (h : o.Sane obj.problem) :
    (∀ n ∈ (o.ready obj).reshuffle.randomIndices, n < obj.problem.examples) ∧ (o.ready obj).Fair := by
  have hr : (∀ n ∈ (o.ready obj).randomIndices, n < obj.problem.examples) ∧ (o.ready obj).Fair := by
    by_cases hi : o.iteration < 0
    · rw [ready_of_lt hi]
      refine ⟨fun m hm => ?_, fun k => h.fair (k + 1)⟩
      have : m ∈ List.range obj.problem.examples := (h.fair 0 _).subset hm
      exact List.mem_range.1 this
    · rw [ready_of_ge (by omega)]
      exact ⟨h.indices (by omega), h.fair⟩
  exact ⟨fun m hm => hr.1 m ((hr.2 0 _).subset hm), hr.2⟩

theorem step_sane {o : MBSGD} {obj : Obj} (h : o.Sane obj.problem) {c : Bool} {o1 : MBSGD} {obj1 : Obj}
    (hs : o.step obj = .ok (c, o1, obj1)) : o1.Sane obj1.problem ∧ obj1.problem = obj.problem := by
  obtain ⟨hi, hr⟩ := ready_sane h
  obtain ⟨_, _, _, _, _, rfl, rfl, rfl⟩ := step_eq hs
  have hsame := updates_same (o.ready obj).reshuffle obj (o.ready obj).batches
  have hf := finish_same ((o.ready obj).reshuffle.updates obj (o.ready obj).batches).1
  have hp : ((o.ready obj).reshuffle.updates obj (o.ready obj).batches).2.finishedIteration.problem = obj.problem :=
    updates_problem _ _ _
  refine ⟨⟨fun k l => ?_, fun _ m hm => ?_⟩, hp⟩
  · rw [hf.2.2.2.2.2.2.2.2.2.2.2, hsame.rng]
    exact hr (k + 1) l
  · rw [hf.2.2.2.2.2.2.2.2.2.2.1, hsame.randomIndices] at hm
    rw [hp]
    exact hi m hm

theorem batch_valid {l : List ℕ} {N : ℕ} (h : ∀ n ∈ l, n < N) (size b : ℕ) : ∀ n ∈ batchOf l size b, n < N :=
  fun m hm => h m (List.mem_of_mem_drop (List.mem_of_mem_take hm))

section

variable {τ : ℕ → ℝ}

theorem lookAhead_moved (o : MBSGD) (obj : Obj) : (o.moved τ).lookAhead (obj.moved τ) = (o.lookAhead obj).moved τ := by
  unfold MBSGD.lookAhead
  show (if o.nesterov = true then _ else _) = _
  cases o.nesterov
  · rfl
  · have e : (fun p => o.parameters p + τ p + o.eta * o.momentum p) = fun p => o.parameters p + o.eta * o.momentum p + τ p := by
      funext p
      ring
    show Obj.mk _ (fun p => o.parameters p + τ p + o.eta * o.momentum p) _ _ = _
    rw [e]
    rfl

theorem move_moved (o : MBSGD) (g : Vec) : (o.moved τ).move g = (o.move g).moved τ := by
  unfold MBSGD.move MBSGD.moved
  congr 1
  funext p
  dsimp only
  ring

theorem update_moved (o : MBSGD) {obj : Obj} (h : obj.problem.ShiftInvariant τ) {b : List ℕ} (hb : ∀ n ∈ b, n < obj.problem.examples) :
    (o.moved τ).update (obj.moved τ) b = ((o.update obj b).1.moved τ, (o.update obj b).2.moved τ) := by
  have hres : ((o.lookAhead obj).moved τ).result b = (o.lookAhead obj).result b := by
    have hp := lookAhead_problem o obj
    exact (hp.symm ▸ h : (o.lookAhead obj).problem.ShiftInvariant τ) _ _ b (by rw [hp]; exact hb)
  have hlog : ∀ ob : Obj, (ob.moved τ).evaluate b = (ob.evaluate b).moved τ := by
    intro ob
    unfold Obj.evaluate Obj.moved
    simp [Event.moved]
  have hg : ∀ g, (o.moved τ).newGains g = o.newGains g := fun _ => rfl
  have hsc : ∀ g, (o.moved τ).scaled g = o.scaled g := fun _ => rfl
  unfold MBSGD.update
  simp only [lookAhead_moved, hres, hg, hsc, move_moved, hlog]
  refine Prod.ext rfl ?_
  show (if o.nesterov = true then _ else _) = _
  cases o.nesterov <;> rfl

theorem updates_moved (o : MBSGD) {obj : Obj} (h : obj.problem.ShiftInvariant τ) (hi : ∀ n ∈ o.randomIndices, n < obj.problem.examples) :
    ∀ n, (o.moved τ).updates (obj.moved τ) n = ((o.updates obj n).1.moved τ, (o.updates obj n).2.moved τ)
  | 0 => rfl
  | n + 1 => by
    rw [MBSGD.updates, updates_moved o h hi n]
    exact update_moved _ (by rw [updates_problem]; exact h) (by rw [updates_problem]; exact batch_valid hi _ _)

theorem ready_moved (o : MBSGD) (obj : Obj) : (o.moved τ).ready (obj.moved τ) = (o.ready obj).moved τ := by
  unfold MBSGD.ready
  by_cases h : o.iteration < 0
  · rw [if_pos h, if_pos (show (o.moved τ).iteration < 0 from h)]
    rfl
  · rw [if_neg h, if_neg (show ¬(o.moved τ).iteration < 0 from h)]

theorem finish_moved (o : MBSGD) : (o.moved τ).finish = (o.finish.1, o.finish.2.moved τ) := by
  unfold MBSGD.finish
  by_cases h : ({ o with iteration := o.iteration + 1 } : MBSGD).run
  · rw [if_pos h, if_pos (show ({ o.moved τ with iteration := (o.moved τ).iteration + 1 } : MBSGD).run from h)]
    rfl
  · rw [if_neg h, if_neg (show ¬({ o.moved τ with iteration := (o.moved τ).iteration + 1 } : MBSGD).run from h)]
    rfl

theorem step_moved {o : MBSGD} {obj : Obj} (h : obj.problem.ShiftInvariant τ) (ho : o.Sane obj.problem) {c : Bool} {o1 : MBSGD}
    {obj1 : Obj} (hs : o.step obj = .ok (c, o1, obj1)) :
    (o.moved τ).step (obj.moved τ) = .ok (c, o1.moved τ, obj1.moved τ) := by
  obtain ⟨h1, h2, h3, h4, h5, rfl, rfl, rfl⟩ := step_eq hs
  have hu := updates_moved (o.ready obj).reshuffle h (ready_sane ho).1 (o.ready obj).batches
  rw [step_ok (by rw [ready_moved]; exact h1) (by rw [ready_moved]; exact h2) (by rw [ready_moved]; exact h3)
    (by rw [ready_moved]; exact h4) (by rw [ready_moved]; exact h5), ready_moved]
  rw [show ((o.ready obj).moved τ).reshuffle.updates (obj.moved τ) ((o.ready obj).moved τ).batches =
    ((o.ready obj).reshuffle.moved τ).updates (obj.moved τ) (o.ready obj).batches from rfl, hu, finish_moved]
  refine congrArg Outcome.ok (Prod.ext rfl (Prod.ext rfl ?_))
  unfold Obj.finishedIteration Obj.moved
  simp [Event.moved]

/-- **C137 (optimiser)**: if a shift of the parameters changes neither values nor gradients, then every number of steps from the shifted
parameters gives the shifted parameters, with the same answers of `step()`, the same momentum and the same gains. -/
theorem steps_moved {o : MBSGD} {obj : Obj} (h : obj.problem.ShiftInvariant τ) (ho : o.Sane obj.problem) {n : ℕ} {c : Bool} {o1 : MBSGD}
    {obj1 : Obj} (hs : Steps o obj n c o1 obj1) : Steps (o.moved τ) (obj.moved τ) n c (o1.moved τ) (obj1.moved τ) ∧
      obj1.problem = obj.problem ∧ o1.Sane obj1.problem := by
  induction hs with
  | zero => exact ⟨.zero, rfl, ho⟩
  | succ _ hstep ih =>
    have h1 := step_moved (τ := τ) (by rw [ih.2.1]; exact h) ih.2.2 hstep
    have h2 := step_sane ih.2.2 hstep
    exact ⟨.succ ih.1 h1, h2.2.trans ih.2.1, h2.1⟩

/-- A fresh optimiser overwrites all its vectors. -/
theorem steps_fresh_moved {o : MBSGD} (ho : o.iteration < 0) {obj : Obj} {n : ℕ} (hpos : 0 < n) {c : Bool} {o1 : MBSGD}
    {obj1 : Obj} (hs : Steps (o.moved τ) obj n c o1 obj1) : Steps o obj n c o1 obj1 := by
  have hstep : o.step obj = (o.moved τ).step obj := by
    have : o.ready obj = (o.moved τ).ready obj := by
      rw [ready_of_lt ho, ready_of_lt (show (o.moved τ).iteration < 0 from ho)]
      rfl
    unfold MBSGD.step
    rw [this]
  induction hs with
  | zero => omega
  | @succ n o2 obj2 c o3 obj3 hs1 hs2 ih =>
    cases n with
    | zero =>
      cases hs1
      exact .succ .zero (hstep.trans hs2)
    | succ n => exact .succ (ih (by omega)) hs2

end

/-! ## Sums that stay what they are -/

section

variable {F : ℕ} {pos : ℕ → ℕ} {S : ℝ}

/-- The parameters have the sum `S` and the momentum has the sum 0. -/
structure MBSGD.Keeps (o : MBSGD) (F : ℕ) (pos : ℕ → ℕ) (S : ℝ) : Prop where
  parameters : ∑ j ∈ range F, o.parameters (pos j) = S
  momentum : ∑ j ∈ range F, o.momentum (pos j) = 0

theorem update_keeps {o : MBSGD} (hg : ¬o.useGain) {obj : Obj} (h : obj.problem.Balanced F pos) (ho : o.Keeps F pos S)
    (hw : ∑ j ∈ range F, obj.w (pos j) = S) {b : List ℕ} (hb : ∀ n ∈ b, n < obj.problem.examples) :
    (o.update obj b).1.Keeps F pos S ∧ ∑ j ∈ range F, (o.update obj b).2.w (pos j) = S := by
  have hw1 : ∑ j ∈ range F, (o.lookAhead obj).w (pos j) = S := by
    unfold MBSGD.lookAhead
    cases o.nesterov
    · exact hw
    · show ∑ j ∈ range F, (o.parameters (pos j) + o.eta * o.momentum (pos j)) = S
      rw [sum_add_distrib, ← mul_sum, ho.parameters, ho.momentum, mul_zero, add_zero]
  have hgr : ∑ j ∈ range F, o.scaled ((o.lookAhead obj).result b).2 (pos j) = 0 := by
    unfold MBSGD.scaled
    rw [if_neg hg, Obj.result]
    rw [← lookAhead_problem o obj] at h hb
    exact h _ _ _ hb
  have hm : ∑ j ∈ range F, (o.update obj b).1.momentum (pos j) = 0 := by
    show ∑ j ∈ range F, (o.eta * o.momentum (pos j) - o.alpha * o.scaled ((o.lookAhead obj).result b).2 (pos j)) = 0
    rw [sum_sub_distrib, ← mul_sum, ← mul_sum, ho.momentum, hgr, mul_zero, mul_zero, sub_zero]
  have hp' : ∑ j ∈ range F, (o.update obj b).1.parameters (pos j) = S := by
    show ∑ j ∈ range F, (o.parameters (pos j) + (o.update obj b).1.momentum (pos j)) = S
    rw [sum_add_distrib, hm, ho.parameters, add_zero]
  refine ⟨⟨hp', hm⟩, ?_⟩
  have h2 : (o.update obj b).2 = if o.nesterov then (o.lookAhead obj).evaluate b
      else { (o.lookAhead obj).evaluate b with w := (o.update obj b).1.parameters } := rfl
  rw [h2]
  split
  · exact hw1
  · exact hp'

theorem updates_keeps {o : MBSGD} (hg : ¬o.useGain) {obj : Obj} (h : obj.problem.Balanced F pos) (ho : o.Keeps F pos S)
    (hw : ∑ j ∈ range F, obj.w (pos j) = S) (hi : ∀ n ∈ o.randomIndices, n < obj.problem.examples) :
    ∀ n, (o.updates obj n).1.Keeps F pos S ∧ ∑ j ∈ range F, (o.updates obj n).2.w (pos j) = S
  | 0 => ⟨ho, hw⟩
  | n + 1 => by
    have ih := updates_keeps hg h ho hw hi n
    exact update_keeps ((updates_same o obj n).toSameConfig.noGain hg) (by rw [updates_problem]; exact h) ih.1 ih.2
      (by rw [updates_problem]; exact batch_valid hi _ _)

/-- **C137 (conserved sums)**: if the derivatives of some parameters add up to 0 for all parameters and batches, then the sum of these
parameters is after every number of steps of a fresh optimiser without gains what it was in the beginning. -/
theorem steps_keeps {o : MBSGD} (hg : ¬o.useGain) (hfair : o.Fair) (hn : o.iteration < 0) {obj : Obj} (h : obj.problem.Balanced F pos)
    {n : ℕ} {c : Bool} {o1 : MBSGD} {obj1 : Obj} (hs : Steps o obj n c o1 obj1) :
    ∑ j ∈ range F, obj1.w (pos j) = ∑ j ∈ range F, obj.w (pos j) ∧
      (0 < n → ∑ j ∈ range F, (o1.result obj1).1 (pos j) = ∑ j ∈ range F, obj.w (pos j)) := by
  have key : ∀ {n : ℕ} {c : Bool} {o1 : MBSGD} {obj1 : Obj}, Steps o obj n c o1 obj1 →
      obj1.problem = obj.problem ∧ o1.Sane obj1.problem ∧ ¬o1.useGain ∧ ∑ j ∈ range F, obj1.w (pos j) = ∑ j ∈ range F, obj.w (pos j) ∧
      (0 < n ∨ 0 ≤ o1.iteration → o1.Keeps F pos (∑ j ∈ range F, obj.w (pos j))) := by
    intro n c o1 obj1 hs
    induction hs with
    | zero => exact ⟨rfl, ⟨hfair, fun h => by omega⟩, hg, rfl, fun h => by omega⟩
    | @succ n o1 obj1 c o2 obj2 _ hstep ih =>
      obtain ⟨hp, hsane, hg1, hw1, ho1⟩ := ih
      have hr : (o1.ready obj1).Keeps F pos (∑ j ∈ range F, obj.w (pos j)) := by
        by_cases hi : o1.iteration < 0
        · rw [ready_of_lt hi]
          exact ⟨hw1, sum_eq_zero fun _ _ => rfl⟩
        · rw [ready_of_ge (by omega)]
          exact ho1 (Or.inr (by omega))
      have hg2 : ¬(o1.ready obj1).reshuffle.useGain :=
        ((reshuffle_same _).trans (ready_same o1 obj1).1).noGain hg1
      have hst := step_sane hsane hstep
      have hi := (ready_sane hsane).1
      obtain ⟨_, _, _, _, _, rfl, rfl, rfl⟩ := step_eq hstep
      have hu := updates_keeps (o := (o1.ready obj1).reshuffle) (obj := obj1) hg2 (by rw [hp]; exact h)
        ⟨hr.parameters, hr.momentum⟩ hw1 hi (o1.ready obj1).batches
      have hsame := updates_same (o1.ready obj1).reshuffle obj1 (o1.ready obj1).batches
      have hf := finish_same ((o1.ready obj1).reshuffle.updates obj1 (o1.ready obj1).batches).1
      refine ⟨hst.2.trans hp, hst.1, (hf.1.trans hsame.toSameConfig).noGain hg2, hu.2, fun _ => ⟨?_, ?_⟩⟩
      · rw [hf.2.2.2.2.2.1]
        exact hu.1.parameters
      · rw [hf.2.2.2.2.2.2.1]
        exact hu.1.momentum
  obtain ⟨_, _, _, h1, h2⟩ := key hs
  exact ⟨h1, fun hn => (h2 (Or.inl hn)).parameters⟩

end

/-! ## Training of classifiers -/

section

variable {D F : ℕ} {ks : List Kind} {bias : Bool} {reg : Reg} {net : Net}
  (hn : net = buildNet D (ks ++ [.fullyConnected F bias .linear reg]) true)

include hn

/-- **C137 (training)**: a common shift of the output units before the training is, after every number of steps of a fresh optimiser, still
the same shift: the answers of `step()` are the same, the parameters differ by the shift and the predictions are the same. -/
theorem training_shifted (hf : FitsFrom D (ks ++ [.fullyConnected F bias .linear reg]))
    (hv : ∀ k ∈ ks ++ [.fullyConnected F bias .linear reg], k.Visible) (hr : FreeWeights reg) {ds : TrainSet}
    (ht : TargetsSumToOne F ds) (u : ℕ → ℝ) (v : ℝ) (mem : Mem) (sc : ℕ → Scratch) {o : MBSGD} (hfair : o.Fair) (ho : o.iteration < 0)
    (w : Vec) (calls : ℕ) {n : ℕ} (hpos : 0 < n) {c : Bool} {o1 : MBSGD} {obj1 : Obj}
    (hs : Steps o ⟨netProblem net mem sc ds, w, calls, []⟩ n c o1 obj1) :
    ∃ o2 obj2, Steps o ⟨netProblem net mem sc ds, fun p => w p + net.shifts (ks.length + 1) u v p, calls, []⟩ n c o2 obj2 ∧
      (∀ p, (o2.result obj2).1 p = (o1.result obj1).1 p + net.shifts (ks.length + 1) u v p) ∧
      (∀ p, obj2.w p = obj1.w p + net.shifts (ks.length + 1) u v p) ∧
      ∀ N X m, ∀ j < net.outputs,
        net.predictAll (net.setParameters mem ((List.range net.P).map (o2.result obj2).1)) N X m j =
          net.predictAll (net.setParameters mem ((List.range net.P).map (o1.result obj1).1)) N X m j := by
  have hinv : (netProblem net mem sc ds).ShiftInvariant (net.shifts (ks.length + 1) u v) := by
    intro k w _ hb
    have := errorGradient_shifted hn hf hv (u := u) (v := v) hr ht hb mem (sc k) w
    simp only [netProblem, this]
  have hs' := (steps_moved hinv ⟨hfair, fun h => by omega⟩ hs).1
  exact ⟨_, _, steps_fresh_moved ho hpos hs', fun _ => rfl, fun _ => rfl, fun N X m j hj =>
    predictions_shifted hn hf hv hr.2 mem o1.parameters N X m hj⟩

/-- **C137 (conserved sums of classifiers)**: the sum of the weights from one hidden unit to all output units, and the sum of the biases of
the output units, are after every number of steps of a fresh optimiser without gains what they were in the beginning, also with
a maximum norm of the weights. -/
theorem sums_conserved (hr : NoPenalty reg) {ds : TrainSet} (ht : TargetsSumToOne F ds) (mem : Mem) (sc : ℕ → Scratch) {pos : ℕ → ℕ}
    (hpos : (∃ i, WeightsFrom net (ks.length + 1) F i pos) ∨ BiasesOf net (ks.length + 1) F pos) {o : MBSGD} (hg : ¬o.useGain)
    (hfair : o.Fair) (ho : o.iteration < 0) (w : Vec) (calls : ℕ) (log : List Event) {n : ℕ} {c : Bool} {o1 : MBSGD} {obj1 : Obj}
    (hs : Steps o ⟨netProblem net mem sc ds, w, calls, log⟩ n c o1 obj1) :
    ∑ j ∈ range F, obj1.w (pos j) = ∑ j ∈ range F, w (pos j) ∧
      (0 < n → ∑ j ∈ range F, (o1.result obj1).1 (pos j) = ∑ j ∈ range F, w (pos j)) :=
  steps_keeps hg hfair ho (obj := ⟨netProblem net mem sc ds, w, calls, log⟩)
    (fun k w _ hb => gradient_sum hn hr ht hb (net.setParameters mem ((List.range net.P).map w)) (sc k) hpos) hs

end

/-- The hypotheses of `training_shifted` and `sums_conserved` are met: one step for two classes and one example. -/
example : ∃ (o : MBSGD) (c : Bool) (o1 : MBSGD) (obj1 : Obj) (pos : ℕ → ℕ), o.iteration < 0 ∧ o.Fair ∧ ¬o.useGain ∧
    FitsFrom 1 ([] ++ [.fullyConnected 2 true .linear ⟨0, 0, 0⟩]) ∧
    (∀ k ∈ ([] : List Kind) ++ [.fullyConnected 2 true .linear ⟨0, 0, 0⟩], k.Visible) ∧ FreeWeights ⟨0, 0, 0⟩ ∧
    TargetsSumToOne 2 ⟨1, fun _ _ => 1, fun _ j => if j = 0 then 1 else 0⟩ ∧
    BiasesOf (buildNet 1 ([] ++ [.fullyConnected 2 true .linear ⟨0, 0, 0⟩]) true) 1 2 pos ∧
    Steps o ⟨netProblem (buildNet 1 ([] ++ [.fullyConnected 2 true .linear ⟨0, 0, 0⟩]) true) (fun _ _ => 0)
      (fun _ => ⟨fun _ _ => 0, fun _ _ _ => 0⟩) ⟨1, fun _ _ => 1, fun _ j => if j = 0 then 1 else 0⟩, fun _ => 0, 0, []⟩ 1 c o1 obj1 := by
  have hn : (example1 false 1 5).iteration < 0 := by show (-1 : ℤ) < 0; norm_num
  obtain ⟨c, o', obj', _, hst⟩ := steps_progress (example1_valid false one_pos le_rfl 5) (example1_fair false 1 5) hn
    (obj := ⟨netProblem (buildNet 1 ([] ++ [.fullyConnected 2 true .linear ⟨0, 0, 0⟩]) true) (fun _ _ => 0)
      (fun _ => ⟨fun _ _ => 0, fun _ _ _ => 0⟩) ⟨1, fun _ _ => 1, fun _ j => if j = 0 then 1 else 0⟩, fun _ => 0, 0, []⟩)
    ⟨by show 0 < 4; norm_num, Nat.one_pos⟩ .zero
  obtain ⟨pos, hpos⟩ := (positions_exist (D := 1) (F := 2) (ks := []) (bias := true) (reg := ⟨0, 0, 0⟩) rfl).2 rfl
  refine ⟨_, c, o', obj', pos, hn, example1_fair false 1 5, ?_, ⟨trivial, trivial⟩, ?_, ⟨⟨le_rfl, le_rfl⟩, le_rfl⟩, ?_, hpos, hst⟩
  · simp [MBSGD.useGain, example1]
  · intro k hk
    simp only [List.nil_append, List.mem_cons, List.not_mem_nil, or_false] at hk
    subst hk
    trivial
  · intro n _
    simp

end

end Verif.Opt
