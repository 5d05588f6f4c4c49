import Verif.Props.Calibration
import Verif.Props.Symmetry
import Verif.Props.DropoutMean
import Verif.Props.Expressive

/-!
# C127: layers without parameters are preprocessing

Training of a network whose first layers have no parameters (`Extreme`, `IntrinsicPlasticity`, max-pooling, RBMs outside of
backpropagation) is training of the remaining layers on the outputs of the first ones: not only the predictions, every value and
every gradient that an optimiser sees is the same.  An extreme learning machine (random hidden layers and a linear output layer) is
linear regression on random features, so that training finds the best output weights, and with as many independent features as
instances it reproduces the targets.
-/

namespace Verif.NN

open Finset Verif.Opt

noncomputable section

/-! ## Spec -/

/-- Spec: layers that give no parameters to the network. -/
def Kind.Frozen : Kind → Prop
  | .extreme .. => True
  | .intrinsicPlasticity .. => True
  | .rbm _ backprop => backprop = false
  | .maxPool _ => True
  | .lrn _ => True
  | .dropout _ => True
  | _ => False

/-- Spec: what the first layers `fs` make of an instance. -/
def preprocess (D : ℕ) (fs : List Kind) (mem : Mem) (x : ℕ → ℝ) : ℕ → ℝ := (buildNet D fs false).predict mem x

/-- Spec: the number of values that they give. -/
def featureCount (D : ℕ) (fs : List Kind) : ℕ := (buildNet D fs false).outputs

/-- Spec: the preprocessed training set. -/
def preprocessed (D : ℕ) (fs : List Kind) (mem : Mem) (ds : TrainSet) : TrainSet :=
  ⟨ds.samples, fun n => preprocess D fs mem (ds.inst n), ds.tgt⟩

/-- The weights of the layers behind the first `L` ones. -/
def behind (L : ℕ) (mem : Mem) : Mem := fun k => mem (k + L)

/-- Their buffers. -/
def Scratch.behind (L : ℕ) (sc : Scratch) : Scratch := ⟨NN.behind L sc.derivs, fun k => sc.stale (k + L)⟩

/-! ## Layers -/

/-- What is used of frozen layers. -/
structure Layer.Idle (l : Layer) : Prop where
  pointers : l.pointers = []
  derivPointers : l.derivPointers = []
  regError : ∀ w, l.regError w = 0
  updated : ∀ w, l.updated w = w

theorem idle_input (D : ℕ) : (inputLayer D).Idle := ⟨rfl, rfl, fun _ => rfl, fun _ => rfl⟩

theorem Kind.Frozen.idle {k : Kind} (h : k.Frozen) (I : ℕ) : (k.layer I).Idle := by
  cases k with
  | fullyConnected => exact h.elim
  | compressed => exact h.elim
  | sparseAutoEncoder => exact h.elim
  | conv => exact h.elim
  | sub => exact h.elim
  | rbm H b =>
    cases (show b = false from h)
    exact ⟨rfl, rfl, fun _ => rfl, fun _ => rfl⟩
  | _ => exact ⟨rfl, rfl, fun _ => rfl, fun _ => rfl⟩

theorem frozen_idle {fs : List Kind} (h : ∀ k ∈ fs, k.Frozen) (D : ℕ) : ∀ l ∈ inputLayer D :: layersFrom D fs, l.Idle := by
  intro l hl
  rcases List.mem_cons.1 hl with rfl | hl
  · exact idle_input D
  · obtain ⟨k, hk, I, rfl⟩ := mem_layersFrom hl
    exact (h k hk).idle I

variable {A B : List Layer}

theorem locs_idle (h : ∀ l ∈ A, l.Idle) : ∀ k, locsFrom k (A ++ B) = locsFrom (k + A.length) B := by
  induction A with
  | nil => intro k; rfl
  | cons a A ih =>
    intro k
    rw [List.cons_append, locsFrom, (h a List.mem_cons_self).pointers, ih (fun l hl => h l (List.mem_cons_of_mem _ hl)),
      List.length_cons, add_assoc, add_comm 1]
    rfl

theorem derivLocs_idle (h : ∀ l ∈ A, l.Idle) : ∀ k, derivLocsFrom k (A ++ B) = derivLocsFrom (k + A.length) B := by
  induction A with
  | nil => intro k; rfl
  | cons a A ih =>
    intro k
    rw [List.cons_append, derivLocsFrom, (h a List.mem_cons_self).derivPointers, ih (fun l hl => h l (List.mem_cons_of_mem _ hl)),
      List.length_cons, add_assoc, add_comm 1]
    rfl

theorem reg_idle (h : ∀ l ∈ A, l.Idle) (mem : Mem) : ∀ k, regFrom mem k (A ++ B) = regFrom mem (k + A.length) B := by
  induction A with
  | nil => intro k; rfl
  | cons a A ih =>
    intro k
    rw [List.cons_append, regFrom, (h a List.mem_cons_self).regError, ih (fun l hl => h l (List.mem_cons_of_mem _ hl)), zero_add,
      List.length_cons, add_assoc, add_comm 1]

theorem updated_idle (h : ∀ l ∈ A, l.Idle) (mem : Mem) : ∀ k, updatedFrom k (A ++ B) mem = updatedFrom (k + A.length) B mem := by
  induction A with
  | nil => intro k; rfl
  | cons a A ih =>
    intro k
    rw [List.cons_append, updatedFrom, (h a List.mem_cons_self).updated, Function.update_eq_self,
      ih (fun l hl => h l (List.mem_cons_of_mem _ hl)), List.length_cons, add_assoc, add_comm 1]

/-! ## Other indices -/

theorem locs_behind (L : ℕ) : ∀ (B : List Layer) (k : ℕ), locsFrom (k + L) B = (locsFrom k B).map fun p => (p.1 + L, p.2) := by
  intro B
  induction B with
  | nil => intro k; rfl
  | cons b B ih =>
    intro k
    rw [locsFrom, show k + L + 1 = k + 1 + L by omega, ih, locsFrom, List.map_append, List.map_map]
    rfl

theorem derivLocs_behind (L : ℕ) : ∀ (B : List Layer) (k : ℕ),
    derivLocsFrom (k + L) B = (derivLocsFrom k B).map fun p => (p.1 + L, p.2) := by
  intro B
  induction B with
  | nil => intro k; rfl
  | cons b B ih =>
    intro k
    rw [derivLocsFrom, show k + L + 1 = k + 1 + L by omega, ih, derivLocsFrom, List.map_append, List.map_map]
    rfl

theorem forward_behind (L : ℕ) (mem : Mem) (N : ℕ) : ∀ (B : List Layer) (k : ℕ) (x : Batch),
    forwardFrom mem N (k + L) B x = forwardFrom (behind L mem) N k B x := by
  intro B
  induction B with
  | nil => intro k x; rfl
  | cons b B ih =>
    intro k x
    rw [forwardFrom, show k + L + 1 = k + 1 + L by omega, ih]
    rfl

theorem reg_behind (L : ℕ) (mem : Mem) : ∀ (B : List Layer) (k : ℕ), regFrom mem (k + L) B = regFrom (behind L mem) k B := by
  intro B
  induction B with
  | nil => intro k; rfl
  | cons b B ih =>
    intro k
    rw [regFrom, show k + L + 1 = k + 1 + L by omega, ih]
    rfl

theorem write_behind (L : ℕ) (mem : Mem) (p : Loc) (v : ℝ) :
    behind L (mem.write (p.1 + L, p.2) v) = (behind L mem).write p v := by
  funext k s
  show (if (k + L, s) = (p.1 + L, p.2) then v else mem (k + L) s) = if (k, s) = p then v else mem (k + L) s
  have : (k + L, s) = (p.1 + L, p.2) ↔ (k, s) = p := by
    obtain ⟨a, b⟩ := p
    simp
  simp only [this]

theorem writeAll_behind (L : ℕ) : ∀ (ps : List Loc) (θ : List ℝ) (mem : Mem),
    behind L (mem.writeAll (ps.map fun p => (p.1 + L, p.2)) θ) = (behind L mem).writeAll ps θ := by
  intro ps
  induction ps with
  | nil => intro θ mem; rfl
  | cons p ps ih =>
    intro θ mem
    cases θ with
    | nil => rfl
    | cons v θ =>
      show behind L ((mem.write (p.1 + L, p.2) v).writeAll (ps.map fun p => (p.1 + L, p.2)) θ) = ((behind L mem).write p v).writeAll ps θ
      rw [ih, write_behind]

theorem update_behind (L k : ℕ) (mem : Mem) (w : Weights) :
    behind L (Function.update mem (k + L) w) = Function.update (behind L mem) k w := by
  funext i
  show Function.update mem (k + L) w (i + L) = Function.update (fun k => mem (k + L)) k w i
  by_cases h : i = k
  · subst h
    rw [Function.update_self, Function.update_self]
  · rw [Function.update_of_ne (by omega), Function.update_of_ne h]

theorem updated_behind (L : ℕ) : ∀ (B : List Layer) (k : ℕ) (mem : Mem),
    behind L (updatedFrom (k + L) B mem) = updatedFrom k B (behind L mem) := by
  intro B
  induction B with
  | nil => intro k mem; rfl
  | cons b B ih =>
    intro k mem
    rw [updatedFrom, show k + L + 1 = k + 1 + L by omega, ih, update_behind]
    rfl

theorem back_behind_deep (L : ℕ) (mem : Mem) (N : ℕ) (stale : ℕ → Batch) (d : Mem) (e : Batch) : ∀ (B : List Layer) (k : ℕ) (x : Batch),
    2 ≤ k → (backFrom mem N stale (k + L) B x e d).1 = (backFrom (behind L mem) N (fun k => stale (k + L)) k B x e (behind L d)).1 ∧
      behind L (backFrom mem N stale (k + L) B x e d).2 =
        (backFrom (behind L mem) N (fun k => stale (k + L)) k B x e (behind L d)).2 := by
  intro B
  induction B with
  | nil => intro k x _; exact ⟨rfl, rfl⟩
  | cons b B ih =>
    intro k x hk
    obtain ⟨h1, h2⟩ := ih (k + 1) (b.forward (mem (k + L)) N x) (by omega)
    rw [show k + 1 + L = k + L + 1 by omega] at h1 h2
    rw [backFrom_cons, backFrom_cons]
    have hx : b.forward (behind L mem k) N x = b.forward (mem (k + L)) N x := rfl
    rw [hx]
    constructor
    · show b.back (mem (k + L)) N x _ (decide (k + L + 1 > 2)) (stale (k + L)) = b.back (mem (k + L)) N x _ (decide (k + 1 > 2)) (stale (k + L))
      rw [h1, decide_eq_true (by omega : k + L + 1 > 2), decide_eq_true (by omega : k + 1 > 2)]
    · show behind L (Function.update _ (k + L) _) = Function.update _ k _
      rw [update_behind, h2]
      exact congrArg (fun e => Function.update (_ : Mem) k (b.derivs (mem (k + L)) N x e)) h1

/-- The derivatives do not depend on whether layers come before. -/
theorem back_behind (L : ℕ) (mem : Mem) (N : ℕ) (stale : ℕ → Batch) (d : Mem) (e : Batch) (B : List Layer) (x : Batch) :
    behind L (backFrom mem N stale (1 + L) B x e d).2 =
        (backFrom (behind L mem) N (fun k => stale (k + L)) 1 B x e (behind L d)).2 := by
  cases B with
  | nil => rfl
  | cons b B =>
    obtain ⟨h1, h2⟩ := back_behind_deep L mem N stale d e B 2 (b.forward (mem (1 + L)) N x) le_rfl
    rw [show 2 + L = 1 + L + 1 by omega] at h1 h2
    rw [backFrom_cons, backFrom_cons]
    have hx : b.forward (behind L mem 1) N x = b.forward (mem (1 + L)) N x := rfl
    rw [hx]
    show behind L (Function.update _ (1 + L) _) = Function.update _ 1 _
    rw [update_behind, h2]
    exact congrArg (fun e => Function.update (_ : Mem) 1 (b.derivs (mem (1 + L)) N x e)) h1

/-! ## Networks -/

section

variable {D : ℕ} {fs ks : List Kind} (hf : ∀ k ∈ fs, k.Frozen) (hr : ∀ k ∈ fs, k.RowWise) (ce : Bool)

theorem frozen_layers (D : ℕ) (fs ks : List Kind) (ce : Bool) : (buildNet D (fs ++ ks) ce).layers =
    (inputLayer D :: layersFrom D fs) ++ layersFrom (featureCount D fs) ks := by
  show inputLayer D :: layersFrom D (fs ++ ks) = _
  rw [layersFrom_append, featureCount, outputs_buildNet]
  rfl

theorem frozen_length (D : ℕ) (fs : List Kind) : (inputLayer D :: layersFrom D fs).length = 1 + fs.length := by
  rw [List.length_cons, layersFrom_length, add_comm]

include hf in
theorem frozen_parameters : (buildNet D (fs ++ ks) ce).parameters =
    (buildNet (featureCount D fs) ks ce).parameters.map fun p => (p.1 + fs.length, p.2) := by
  rw [Net.parameters, frozen_layers, locs_idle (frozen_idle hf D), frozen_length, zero_add, locs_behind]
  rfl

include hf in
theorem frozen_derivatives : (buildNet D (fs ++ ks) ce).derivatives =
    (buildNet (featureCount D fs) ks ce).derivatives.map fun p => (p.1 + fs.length, p.2) := by
  rw [Net.derivatives, frozen_layers, derivLocs_idle (frozen_idle hf D), frozen_length, zero_add, derivLocs_behind]
  rfl

include hf in
theorem frozen_P : (buildNet D (fs ++ ks) ce).P = (buildNet (featureCount D fs) ks ce).P := by
  rw [Net.P, frozen_parameters hf, List.length_map]
  rfl

theorem frozen_outputs : (buildNet D (fs ++ ks) ce).outputs = (buildNet (featureCount D fs) ks ce).outputs := by
  rw [outputs_buildNet, outputs_buildNet, layersFrom_append, featureCount, outputs_buildNet]
  generalize layersFrom D fs = X
  generalize layersFrom (outFrom D X) ks = Y
  induction X generalizing D with
  | nil => rfl
  | cons a X ih => exact ih

include hf in
theorem frozen_setParameters (mem : Mem) (θ : List ℝ) :
    behind fs.length ((buildNet D (fs ++ ks) ce).setParameters mem θ) =
      (buildNet (featureCount D fs) ks ce).setParameters (behind fs.length mem) θ := by
  rw [Net.setParameters, frozen_parameters hf, frozen_layers, updated_idle (frozen_idle hf D), frozen_length, zero_add, updated_behind,
    writeAll_behind]
  refine congrArg (updatedFrom 1 _) ?_
  exact (Function.update_eq_self 0 _).symm

include hf in
/-- The frozen layers keep their weights. -/
theorem frozen_memory (mem : Mem) (θ : List ℝ) {k : ℕ} (hk : k ≤ fs.length) :
    (buildNet D (fs ++ ks) ce).setParameters mem θ k = mem k := by
  rw [Net.setParameters, frozen_layers, updated_idle (frozen_idle hf D), frozen_length, zero_add, updatedFrom_lt (by omega)]
  funext s
  refine writeAll_of_notMem (p := (k, s)) fun h => ?_
  rw [frozen_parameters hf] at h
  obtain ⟨p, hp, he⟩ := List.mem_map.1 h
  have h1 : 1 ≤ p.1 := locsFrom_index (k := 1) (ls := layersFrom (featureCount D fs) ks) hp
  have h2 := congrArg Prod.fst he
  dsimp only at h2
  omega

include hr in
theorem preprocess_rows (mem : Mem) (N : ℕ) (X : Batch) (n : ℕ) :
    forwardFrom mem N 0 (inputLayer D :: layersFrom D fs) X n = preprocess D fs mem (X n) := by
  exact forwardFrom_row (buildNet_row (D := D) (ks := fs) (ce := false) hr) N 0 X n

theorem derivLocsFrom_index : ∀ (B : List Layer) (k : ℕ), ∀ p ∈ derivLocsFrom k B, k ≤ p.1 := by
  intro B
  induction B with
  | nil => intro k p h; cases h
  | cons b B ih =>
    intro k p h
    rcases List.mem_append.1 h with h | h
    · obtain ⟨s, _, rfl⟩ := List.mem_map.1 h
      exact le_rfl
    · exact (Nat.le_succ k).trans (ih _ p h)

include hr in
theorem frozen_activations (mem : Mem) (N : ℕ) (X : Batch) :
    (buildNet D (fs ++ ks) ce).activations mem N X =
      (buildNet (featureCount D fs) ks ce).activations (behind fs.length mem) N fun n => preprocess D fs mem (X n) := by
  rw [Net.activations, frozen_layers, forwardFrom_append, frozen_length, zero_add, forward_behind,
    funext (preprocess_rows hr mem N X)]
  rfl

include hr in
theorem frozen_output (mem : Mem) (N : ℕ) (X : Batch) :
    (buildNet D (fs ++ ks) ce).output mem N X =
      (buildNet (featureCount D fs) ks ce).output (behind fs.length mem) N fun n => preprocess D fs mem (X n) := by
  unfold Net.output
  rw [frozen_activations hr, frozen_outputs]
  rfl

include hf hr in
theorem frozen_value (mem : Mem) (N : ℕ) (X T : Batch) :
    (buildNet D (fs ++ ks) ce).value mem N X T =
      (buildNet (featureCount D fs) ks ce).value (behind fs.length mem) N (fun n => preprocess D fs mem (X n)) T := by
  unfold Net.value Net.loss
  rw [frozen_output hr, frozen_outputs, frozen_layers, reg_idle (frozen_idle hf D), frozen_length, zero_add, reg_behind]
  refine congrArg₂ (· + ·) ?_ rfl
  show _ = 0 + _
  rw [zero_add]

include hf hr in
theorem frozen_grad (mem : Mem) (sc : Scratch) (N : ℕ) (X T : Batch) :
    (buildNet D (fs ++ ks) ce).grad mem sc N X T =
      (buildNet (featureCount D fs) ks ce).grad (behind fs.length mem) (sc.behind fs.length) N (fun n => preprocess D fs mem (X n)) T := by
  unfold Net.grad
  rw [frozen_derivatives hf, List.map_map]
  refine List.map_congr_left fun p hp => ?_
  have h1 : 1 ≤ p.1 := derivLocsFrom_index (layersFrom (featureCount D fs) ks) 1 p hp
  refine congrArg (· / (N : ℝ)) ?_
  show (backFrom mem N sc.stale 0 _ X _ sc.derivs).2 (p.1 + fs.length) p.2 = _
  rw [frozen_output hr, frozen_layers, backFrom, traceFrom_append, List.foldr_append,
    foldr_other _ _ _ _ _ _ (fun t ht => by have := traceFrom_lt _ _ _ _ _ t ht; rw [frozen_length] at this; omega),
    frozen_length, zero_add, funext (preprocess_rows hr mem N X)]
  have := congrFun (congrFun (back_behind fs.length mem N sc.stale sc.derivs
    (fun n j => (buildNet (featureCount D fs) ks ce).output (behind fs.length mem) N (fun n => preprocess D fs mem (X n)) n j - T n j)
    (layersFrom (featureCount D fs) ks) fun n => preprocess D fs mem (X n)) p.1) p.2
  refine this.trans ?_
  show _ = (Function.update _ 0 _ : Mem) p.1 p.2
  rw [Function.update_of_ne (by omega)]
  rfl

include hf in
theorem preprocess_kept (mem : Mem) (θ : List ℝ) (x : ℕ → ℝ) :
    preprocess D fs ((buildNet D (fs ++ ks) ce).setParameters mem θ) x = preprocess D fs mem x := by
  show forwardFrom _ 1 0 _ _ 0 = forwardFrom _ 1 0 _ _ 0
  rw [forwardFrom_agree (mem' := mem) _ 0 _ fun l _ hl => frozen_memory hf ce mem θ (by
    have := frozen_length D fs
    change l < 0 + (inputLayer D :: layersFrom D fs).length at hl
    omega)]

include hf hr in
/-- **C127 (predictions)**: the network predicts what the layers with parameters predict for the preprocessed instance. -/
theorem frozen_predict (mem : Mem) (θ : List ℝ) (x : ℕ → ℝ) :
    (buildNet D (fs ++ ks) ce).predict ((buildNet D (fs ++ ks) ce).setParameters mem θ) x =
      (buildNet (featureCount D fs) ks ce).predict ((buildNet (featureCount D fs) ks ce).setParameters (behind fs.length mem) θ)
        (preprocess D fs mem x) := by
  rw [Net.predict, frozen_output hr, frozen_setParameters hf]
  show (buildNet (featureCount D fs) ks ce).output _ 1 (fun n => preprocess D fs _ x) 0 = _
  rw [preprocess_kept hf]
  rfl

include hf hr in
/-- **C127 (error)** -/
theorem frozen_error (mem : Mem) (θ : List ℝ) (ds : TrainSet) :
    (buildNet D (fs ++ ks) ce).error ((buildNet D (fs ++ ks) ce).setParameters mem θ) ds =
      (buildNet (featureCount D fs) ks ce).error ((buildNet (featureCount D fs) ks ce).setParameters (behind fs.length mem) θ)
        (preprocessed D fs mem ds) := by
  have h : ∀ n, (buildNet D (fs ++ ks) ce).errorAt ((buildNet D (fs ++ ks) ce).setParameters mem θ) ds n =
      (buildNet (featureCount D fs) ks ce).errorAt ((buildNet (featureCount D fs) ks ce).setParameters (behind fs.length mem) θ)
        (preprocessed D fs mem ds) n := by
    intro n
    have := frozen_value (D := D) hf hr ce (ks := ks) ((buildNet D (fs ++ ks) ce).setParameters mem θ) 1 (fun _ => ds.inst n) (fun _ => ds.tgt n)
    rw [frozen_setParameters hf, preprocess_kept hf] at this
    rw [Net.errorAt, Net.errorAt, add_comm, add_comm (Net.loss _ 1 _ fun _ => (preprocessed D fs mem ds).tgt n)]
    exact this
  unfold Net.error
  simp only [h]
  rfl

include hf hr in
/-- **C127**: to every optimiser the network looks like the layers with parameters with the preprocessed training set. -/
theorem frozen_problem (mem : Mem) (sc : ℕ → Scratch) (ds : TrainSet) :
    netProblem (buildNet D (fs ++ ks) ce) mem sc ds =
      netProblem (buildNet (featureCount D fs) ks ce) (behind fs.length mem) (fun k => (sc k).behind fs.length)
        (preprocessed D fs mem ds) := by
  have hg : ∀ (θ : List ℝ) (sc : Scratch) (idx : List ℕ),
      (buildNet D (fs ++ ks) ce).errorGradient ((buildNet D (fs ++ ks) ce).setParameters mem θ) sc ds idx =
        (buildNet (featureCount D fs) ks ce).errorGradient
          ((buildNet (featureCount D fs) ks ce).setParameters (behind fs.length mem) θ) (sc.behind fs.length)
          (preprocessed D fs mem ds) idx := by
    intro θ sc idx
    have hx : (fun n => preprocess D fs ((buildNet D (fs ++ ks) ce).setParameters mem θ) (selectRows ds.inst idx n)) =
        selectRows (preprocessed D fs mem ds).inst idx := funext fun n => preprocess_kept hf ce mem θ _
    rw [Net.errorGradient, frozen_value hf hr, frozen_grad hf hr, frozen_setParameters hf, hx]
    rfl
  unfold netProblem
  simp only [hg, frozen_P hf]
  rfl

end

/-! ## Extreme learning machines -/

section

variable {D F : ℕ} {fs : List Kind} (hf : ∀ k ∈ fs, k.Frozen) (hr : ∀ k ∈ fs, k.RowWise)

include hf hr in
/-- **C127 (regression)**: whatever the random weights are, training of the linear output layer for `m` epochs ends with an error
that exceeds the error with any other output weights `u` by at most `|w - u|^2 / (2 * sum of the learning rates)`. -/
theorem elm_training (hF : 0 < F) (mem : Mem) (sc : ℕ → Scratch) (ds : TrainSet) (hN : 0 < ds.samples)
    {net : Net} (hn : net = buildNet D (fs ++ linearKinds F) false) {o0 : MBSGD}
    (ho : Suitable o0 ds (meanSquare (featureCount D fs) (preprocessed D fs mem ds))) {m : ℕ} (hm : 1 ≤ m)
    (hmax : o0.stop.maximalIterations = m) (hstep : o0.stop.minimalSearchSpaceStep = 0) (w : Vec) (calls : ℕ) (log : List Event) :
    ∃ o obj, o0.optimize (fun _ => false) m ⟨netProblem net mem sc ds, w, calls, log⟩ = .ok (some (o, obj)) ∧ ∀ u,
      net.error (net.setParameters mem (vectorOf net (o.result obj).1)) ds ≤
      net.error (net.setParameters mem (vectorOf net u)) ds +
        distSq net.P w u / (2 * ∑ t ∈ range m, rate o0.alpha o0.alphaDecay o0.minAlpha t) := by
  subst hn
  obtain ⟨o, obj, h, hb⟩ := least_squares_training (D := featureCount D fs) hF (behind fs.length mem)
    (fun k => (sc k).behind fs.length) (preprocessed D fs mem ds) hN
    ⟨ho.valid, ho.fair, ho.fresh, ho.plain, ho.batch, ho.alpha, ho.floor, ho.small⟩ hm hmax hstep w calls log
  refine ⟨o, obj, by rw [frozen_problem hf hr]; exact h, fun u => ?_⟩
  have hv : ∀ u, vectorOf (buildNet D (fs ++ linearKinds F) false) u = vectorOf (buildNet (featureCount D fs) (linearKinds F) false) u := by
    intro u
    rw [vectorOf, vectorOf, frozen_P hf]
  rw [frozen_error hf hr, frozen_error hf hr, hv, hv, frozen_P hf, linear_P,
    linear_error _ _ (behind fs.length mem) (preprocessed D fs mem ds) hN u]
  exact hb u

include hf hr in
/-- With a learning rate that does not vanish the error comes arbitrarily close to the smallest one. -/
theorem elm_limit (hF : 0 < F) (mem : Mem) (sc : ℕ → Scratch) (ds : TrainSet) (hN : 0 < ds.samples)
    {net : Net} (hn : net = buildNet D (fs ++ linearKinds F) false) {o0 : MBSGD}
    (ho : Suitable o0 ds (meanSquare (featureCount D fs) (preprocessed D fs mem ds))) (hrate : 0 < o0.minAlpha ∨ o0.alphaDecay = 1)
    (w : Vec) (calls : ℕ) (log : List Event) (u : Vec) {e : ℝ} (he : 0 < e) :
    ∃ m0, 1 ≤ m0 ∧ ∀ m : ℕ, m0 ≤ m → ∃ o obj, (o0.setStopCriteria ⟨m, 0⟩).optimize (fun _ => false) m
        ⟨netProblem net mem sc ds, w, calls, log⟩ = .ok (some (o, obj)) ∧
      net.error (net.setParameters mem (vectorOf net (o.result obj).1)) ds ≤
      net.error (net.setParameters mem (vectorOf net u)) ds + e := by
  subst hn
  obtain ⟨m0, h1, h⟩ := least_squares_limit (D := featureCount D fs) hF (behind fs.length mem)
    (fun k => (sc k).behind fs.length) (preprocessed D fs mem ds) hN
    ⟨ho.valid, ho.fair, ho.fresh, ho.plain, ho.batch, ho.alpha, ho.floor, ho.small⟩ hrate w calls log u he
  refine ⟨m0, h1, fun m hm => ?_⟩
  obtain ⟨o, obj, h, hb⟩ := h m hm
  refine ⟨o, obj, by rw [frozen_problem hf hr]; exact h, ?_⟩
  have hv : ∀ u, vectorOf (buildNet D (fs ++ linearKinds F) false) u = vectorOf (buildNet (featureCount D fs) (linearKinds F) false) u := by
    intro u
    rw [vectorOf, vectorOf, frozen_P hf]
  rw [frozen_error hf hr, frozen_error hf hr, hv, hv]
  exact hb

include hf hr in
/-- **C127 (classification)**: likewise for softmax and cross entropy. -/
theorem elm_classification (mem : Mem) (sc : ℕ → Scratch) (ds : TrainSet) (hN : 0 < ds.samples)
    (hT : ∀ n < ds.samples, ∑ j ∈ range F, ds.tgt n j = 1) (hT0 : ∀ n < ds.samples, ∀ j < F, 0 ≤ ds.tgt n j)
    {net : Net} (hn : net = buildNet D (fs ++ linearKinds F) true) {o0 : MBSGD}
    (ho : Suitable o0 ds (meanSquare (featureCount D fs) (preprocessed D fs mem ds) / 2)) {m : ℕ} (hm : 1 ≤ m)
    (hmax : o0.stop.maximalIterations = m) (hstep : o0.stop.minimalSearchSpaceStep = 0) (w : Vec) (calls : ℕ) (log : List Event) :
    ∃ o obj, o0.optimize (fun _ => false) m ⟨netProblem net mem sc ds, w, calls, log⟩ = .ok (some (o, obj)) ∧ ∀ u,
      net.error (net.setParameters mem (vectorOf net (o.result obj).1)) ds ≤
      logisticRegression (featureCount D fs) F (preprocessed D fs mem ds) u +
        distSq net.P w u / (2 * ∑ t ∈ range m, rate o0.alpha o0.alphaDecay o0.minAlpha t) := by
  subst hn
  obtain ⟨o, obj, h, hb⟩ := logistic_training (D := featureCount D fs) (F := F) (behind fs.length mem)
    (fun k => (sc k).behind fs.length) (preprocessed D fs mem ds) hN hT hT0
    ⟨ho.valid, ho.fair, ho.fresh, ho.plain, ho.batch, ho.alpha, ho.floor, ho.small⟩ hm hmax hstep w calls log
  refine ⟨o, obj, by rw [frozen_problem hf hr]; exact h, fun u => ?_⟩
  rw [frozen_error hf hr, vectorOf, frozen_P hf]
  refine (hb u).1.trans ((hb u).2.trans (le_of_eq ?_))
  rw [linear_P]

/-! ### Enough features -/

/-- Spec: the vectors of `H` features, with 1 for the bias, of the `N` instances are linearly independent. -/
def IndependentRows (H N : ℕ) (f : Batch) : Prop :=
  LinearIndependent ℝ fun (n : Fin N) (i : Fin (H + 1)) => if (i : ℕ) < H then f n i else 1

theorem independent_fit {H N : ℕ} {f : Batch} (h : IndependentRows H N f) (t : Batch) :
    ∃ u : Vec, ∀ n < N, ∀ j, score H (f n) u j = t n j := by
  unfold IndependentRows at h
  have h1 : ∀ y : Fin N → ℝ, ∃ c : Fin (H + 1) → ℝ, ∀ n : Fin N, ∑ i : Fin (H + 1), (if (i : ℕ) < H then f n i else 1) * c i = y n := by
    intro y
    obtain ⟨g, hg⟩ := LinearMap.exists_extend ((Module.Basis.span h).constr ℝ y)
    refine ⟨fun i => g fun k => if i = k then 1 else 0, fun n => ?_⟩
    have h2 := LinearMap.pi_apply_eq_sum_univ g fun i : Fin (H + 1) => if (i : ℕ) < H then f n i else 1
    simp only [smul_eq_mul] at h2
    rw [← h2]
    have h3 := LinearMap.congr_fun hg (Module.Basis.span h n)
    rw [Module.Basis.constr_basis, LinearMap.comp_apply, Submodule.subtype_apply, Module.Basis.span_apply] at h3
    exact h3
  choose c hc using fun j : ℕ => h1 fun n => t n j
  refine ⟨fun p => if hp : p % (H + 1) < H + 1 then c (p / (H + 1)) ⟨p % (H + 1), hp⟩ else 0, fun n hn j => ?_⟩
  have hu : ∀ i (hi : i < H + 1), (if hp : (j * (H + 1) + i) % (H + 1) < H + 1 then
      c ((j * (H + 1) + i) / (H + 1)) ⟨(j * (H + 1) + i) % (H + 1), hp⟩ else 0) = c j ⟨i, hi⟩ := by
    intro i hi
    have e1 : (j * (H + 1) + i) % (H + 1) = i := by
      rw [mul_comm, Nat.mul_add_mod, Nat.mod_eq_of_lt hi]
    have e2 : (j * (H + 1) + i) / (H + 1) = j := by
      rw [mul_comm, Nat.mul_add_div (by omega), Nat.div_eq_of_lt hi, add_zero]
    simp only [e1, e2, dif_pos hi]
  have := hc j ⟨n, hn⟩
  rw [Fin.sum_univ_castSucc] at this
  rw [score, hu H (by omega), ← this]
  refine congrArg₂ (· + ·) ?_ ?_
  · rw [← Fin.sum_univ_eq_sum_range (fun i => (if hp : (j * (H + 1) + i) % (H + 1) < H + 1 then
      c ((j * (H + 1) + i) / (H + 1)) ⟨(j * (H + 1) + i) % (H + 1), hp⟩ else 0) * f n i)]
    refine sum_congr rfl fun i _ => ?_
    rw [hu i (by omega), if_pos (by simp), mul_comm]
    rfl
  · simp
    rfl

theorem leastSquares_single {H F : ℕ} {ds : TrainSet} {u : Vec} {e : ℝ} (h : leastSquares H F ds u ≤ e) {n j : ℕ} (hn : n < ds.samples)
    (hj : j < F) : (score H (ds.inst n) u j - ds.tgt n j) ^ 2 ≤ 2 * ds.samples * e := by
  have hN : (0 : ℝ) < ds.samples := by exact_mod_cast (by omega : 0 < ds.samples)
  rw [leastSquares, div_le_iff₀ (by positivity)] at h
  have h1 := single_le_sum (f := fun j => (score H (ds.inst n) u j - ds.tgt n j) ^ 2) (fun j _ => sq_nonneg _) (mem_range.2 hj)
  have h2 := single_le_sum (f := fun n => ∑ j ∈ range F, (score H (ds.inst n) u j - ds.tgt n j) ^ 2)
    (fun n _ => sum_nonneg fun j _ => sq_nonneg _) (mem_range.2 hn)
  linarith

theorem linear_predict (D F : ℕ) (mem : Mem) (u : Vec) (x : ℕ → ℝ) {j : ℕ} (hj : j < F) :
    (buildNet D (linearKinds F) false).predict ((buildNet D (linearKinds F) false).setParameters mem
      (vectorOf (buildNet D (linearKinds F) false) u)) x j = score D x u j :=
  linear_activations D F false mem u 1 (fun _ => x) 0 hj

include hf hr in
/-- **C127 (training sets)**: if the random features of the training instances are linearly independent (which needs at least as
many of them as there are instances, up to one), training of the output layer learns all targets: after enough epochs all
predictions are as close to the targets as desired. -/
theorem elm_memorises (hF : 0 < F) (mem : Mem) (sc : ℕ → Scratch) (ds : TrainSet) (hN : 0 < ds.samples)
    (hi : IndependentRows (featureCount D fs) ds.samples fun n => preprocess D fs mem (ds.inst n))
    {net : Net} (hn : net = buildNet D (fs ++ linearKinds F) false) {o0 : MBSGD}
    (ho : Suitable o0 ds (meanSquare (featureCount D fs) (preprocessed D fs mem ds))) (hrate : 0 < o0.minAlpha ∨ o0.alphaDecay = 1)
    (w : Vec) (calls : ℕ) (log : List Event) {e : ℝ} (he : 0 < e) :
    ∃ m0, 1 ≤ m0 ∧ ∀ m : ℕ, m0 ≤ m → ∃ o obj, (o0.setStopCriteria ⟨m, 0⟩).optimize (fun _ => false) m
        ⟨netProblem net mem sc ds, w, calls, log⟩ = .ok (some (o, obj)) ∧
      ∀ n < ds.samples, ∀ j < F,
        |net.predict (net.setParameters mem (vectorOf net (o.result obj).1)) (ds.inst n) j - ds.tgt n j| ≤ e := by
  obtain ⟨u, hu⟩ := independent_fit hi ds.tgt
  have hN' : (0 : ℝ) < ds.samples := by exact_mod_cast hN
  obtain ⟨m0, h1, h⟩ := elm_limit hf hr hF mem sc ds hN hn ho hrate w calls log u (e := e ^ 2 / (2 * ds.samples)) (by positivity)
  refine ⟨m0, h1, fun m hm => ?_⟩
  obtain ⟨o, obj, h, hb⟩ := h m hm
  refine ⟨o, obj, h, fun n hn' j hj => ?_⟩
  subst hn
  have hv : ∀ u, vectorOf (buildNet D (fs ++ linearKinds F) false) u = vectorOf (buildNet (featureCount D fs) (linearKinds F) false) u := by
    intro u
    rw [vectorOf, vectorOf, frozen_P hf]
  rw [frozen_error hf hr, frozen_error hf hr, hv, hv,
    linear_error _ _ (behind fs.length mem) (preprocessed D fs mem ds) hN,
    linear_error _ _ (behind fs.length mem) (preprocessed D fs mem ds) hN] at hb
  have h0 : leastSquares (featureCount D fs) F (preprocessed D fs mem ds) u = 0 := by
    rw [leastSquares, sum_eq_zero, zero_div]
    intro n hn
    refine sum_eq_zero fun j _ => ?_
    have := hu n (mem_range.1 hn) j
    show (score _ (preprocess D fs mem (ds.inst n)) u j - ds.tgt n j) ^ 2 = 0
    rw [this, sub_self, zero_pow two_ne_zero]
  rw [h0, zero_add] at hb
  have h2 := leastSquares_single hb (n := n) hn' hj
  rw [frozen_predict hf hr, hv, linear_predict _ _ _ _ _ hj]
  refine abs_le_of_sq_le_sq ?_ he.le
  refine h2.trans (le_of_eq ?_)
  show 2 * (ds.samples : ℝ) * _ = _
  field_simp

end

/-- There are such random weights for every training set without repetitions, as soon as there are as many units as instances
and the activation function is not linear. -/
theorem random_features_exist {D N J : ℕ} {act : Act} (hact : act ≠ .linear) (hJ : N ≤ J) {x : Batch} (hx : Expressive.Distinct D N x)
    (mem : Mem) : ∃ W : Batch, IndependentRows (featureCount D [.extreme J true act W]) N
      fun n => preprocess D [.extreme J true act W] mem (x n) := by
  obtain ⟨a, ha⟩ := Expressive.exists_direction hx
  obtain ⟨α, β, hint⟩ := Expressive.act_interpolates hact (t := fun n : Fin N => ∑ i ∈ range D, x n i * a i) (by
    intro n m h
    by_contra hne
    exact ha n n.2 m m.2 (fun e => hne (Fin.ext e)) h)
  refine ⟨fun m i => if h : m < N then (if i = D then β ⟨m, h⟩ else α ⟨m, h⟩ * a i) else 0, ?_⟩
  show IndependentRows J N _
  have hval : ∀ (n m : Fin N), preprocess D [.extreme J true act fun m i => if h : m < N then (if i = D then β ⟨m, h⟩ else α ⟨m, h⟩ * a i) else 0]
      mem (x n) m = act.apply (α m * (∑ i ∈ range D, x n i * a i) + β m) := by
    intro n m
    show act.apply (∑ i ∈ range D, x n i * (if h : (m : ℕ) < N then (if i = D then β ⟨m, h⟩ else α ⟨m, h⟩ * a i) else 0) +
      if true then (if h : (m : ℕ) < N then (if D = D then β ⟨m, h⟩ else α ⟨m, h⟩ * a D) else 0) else 0) = _
    rw [if_pos rfl, dif_pos m.2, if_pos rfl, mul_sum]
    congr 2
    refine sum_congr rfl fun i hi => ?_
    rw [dif_pos m.2, if_neg (mem_range.1 hi).ne]
    show _ * (α m * a i) = _
    ring
  rw [IndependentRows, Fintype.linearIndependent_iff]
  intro c hc
  obtain ⟨v, hv⟩ := hint c
  have hz : ∀ m : Fin N, ∑ n, c n * act.apply (α m * (∑ i ∈ range D, x n i * a i) + β m) = 0 := by
    intro m
    have := congrFun hc ⟨m, by omega⟩
    simp only [Finset.sum_apply, Pi.smul_apply, smul_eq_mul, Pi.zero_apply] at this
    rw [← this]
    refine sum_congr rfl fun n _ => ?_
    rw [if_pos (by show (m : ℕ) < J; omega)]
    exact congrArg _ (hval n m).symm
  have hs : ∑ n, c n * c n = 0 := by
    calc ∑ n, c n * c n = ∑ n, c n * ∑ m, v m * act.apply (α m * (∑ i ∈ range D, x n i * a i) + β m) :=
          sum_congr rfl fun n _ => by rw [hv n]
      _ = ∑ m, v m * ∑ n, c n * act.apply (α m * (∑ i ∈ range D, x n i * a i) + β m) := by
          simp only [mul_sum]
          rw [sum_comm]
          exact sum_congr rfl fun m _ => sum_congr rfl fun n _ => by ring
      _ = 0 := sum_eq_zero fun m _ => by rw [hz m, mul_zero]
  intro n
  have := (sum_eq_zero_iff_of_nonneg fun n _ => mul_self_nonneg (c n)).1 hs n (mem_univ n)
  exact mul_self_eq_zero.1 this

/-- One rectifier with the weight 1. -/
def oneFeature : List Kind := [.extreme 1 true .rectifier fun _ i => if i = 0 then 1 else 0]

theorem oneFeature_value (mem : Mem) (n : ℕ) : preprocess 1 oneFeature mem (line.inst n) 0 = n := by
  show max 0 (∑ i ∈ range 1, (n : ℝ) * (if i = 0 then 1 else 0) + (if true then (if 1 = 0 then (1 : ℝ) else 0) else 0)) = n
  simp

/-- The hypotheses hold for it, two instances and the optimiser of C82. -/
example (mem : Mem) : (∀ k ∈ oneFeature, k.Frozen) ∧ (∀ k ∈ oneFeature, k.RowWise) ∧
    IndependentRows (featureCount 1 oneFeature) line.samples (fun n => preprocess 1 oneFeature mem (line.inst n)) ∧
    Suitable (plainOptimiser 5) line (meanSquare (featureCount 1 oneFeature) (preprocessed 1 oneFeature mem line)) ∧
    (plainOptimiser 5).alphaDecay = 1 := by
  have hm : meanSquare (featureCount 1 oneFeature) (preprocessed 1 oneFeature mem line) = 3 / 2 := by
    show (∑ n ∈ range 2, (∑ i ∈ range 1, preprocess 1 oneFeature mem (line.inst n) i ^ 2 + 1)) / ((2 : ℕ) : ℝ) = 3 / 2
    simp only [sum_range_succ, sum_range_zero, oneFeature_value]
    norm_num
  refine ⟨by simp [oneFeature, Kind.Frozen], by simp [oneFeature, Kind.RowWise], ?_,
    ⟨⟨?_, ?_, ?_, ?_, ?_⟩, fun _ _ => List.Perm.refl _, ?_, ⟨rfl, rfl, rfl, rfl, ?_⟩, ?_, ?_, ?_, ?_⟩, rfl⟩
  · show LinearIndependent ℝ fun (n : Fin 2) (i : Fin 2) => if (i : ℕ) < 1 then preprocess 1 oneFeature mem (line.inst n) i else 1
    rw [Fintype.linearIndependent_iff]
    intro c hc
    have h0 := congrFun hc 0
    have h1 := congrFun hc 1
    simp [Fin.sum_univ_two, oneFeature_value] at h0 h1
    have h2 : c 0 = 0 := by rw [h0, add_zero] at h1; exact h1
    intro i
    fin_cases i
    · exact h2
    · exact h0
  · show 1 ≤ 10; norm_num
  · exact one_pos
  · exact le_rfl
  · exact le_rfl
  · exact le_rfl
  · show (-1 : ℤ) < 0; norm_num
  · exact zero_le_one
  · show 2 ≤ 10; norm_num
  · show (0 : ℝ) < 1 / 2; norm_num
  · show (0 : ℝ) ≤ 1 / 2; norm_num
  · rw [hm]; show (1 / 2 : ℝ) * (3 / 2) ≤ 1; norm_num

end

end Verif.NN
