import Verif.Props.LinearTraining
import Mathlib.LinearAlgebra.FiniteDimensional.Lemmas
import Mathlib.LinearAlgebra.Dual.Lemmas

/-!
# Penalties trade weights against the error: C122
-/

namespace Verif.NN

open Finset Verif.Opt

noncomputable section

/-! ## Spec -/

/-- Spec: the place is in a weight matrix, not in a bias vector. -/
def Slot.isWeight : Slot → Bool
  | .w _ => true
  | .b _ => false

/-- Spec: the layers that are created with the regularisation settings of the network. -/
def Kind.penalised : Kind → Bool
  | .fullyConnected .. => true
  | .compressed .. => true
  | .conv .. => true
  | .sub .. => true
  | _ => false

/-- Spec: the weights of these layers among the parameters of the layers `ks`; the first layer has the index `n` and `I`
inputs. -/
def weightsFrom : ℕ → ℕ → List Kind → List Loc
  | _, _, [] => []
  | n, I, k :: ks => (if k.penalised then ((k.layer I).pointers.filter Slot.isWeight).map (fun s => (n, s)) else []) ++
      weightsFrom (n + 1) (k.layer I).outputs ks

/-- Spec: the weights of a network. -/
def weightsOf (D : ℕ) (ks : List Kind) : List Loc := weightsFrom 1 D ks

/-- Spec: the sum of the absolute values of the weights. -/
def sumAbs (mem : Mem) (l : List Loc) : ℝ := (l.map fun p => |mem p.1 p.2|).sum

/-- Spec: the sum of the squares of the weights. -/
def sumSquares (mem : Mem) (l : List Loc) : ℝ := (l.map fun p => mem p.1 p.2 ^ 2).sum

/-- The same layer after `setRegularization(a, b, ...)`; the maximum of the squared norm is not changed. -/
def Kind.withPenalty (a b : ℝ) : Kind → Kind
  | .fullyConnected J bias act reg => .fullyConnected J bias act ⟨a, b, reg.maxNorm⟩
  | .compressed J M bias act reg phi => .compressed J M bias act ⟨a, b, reg.maxNorm⟩ phi
  | .conv g => .conv { g with reg := ⟨a, b, g.reg.maxNorm⟩ }
  | .sub g bias act reg => .sub g bias act ⟨a, b, reg.maxNorm⟩
  | k => k

/-- The network with the penalties `a` (L1) and `b` (L2). -/
def penalNet (D : ℕ) (ks : List Kind) (ce : Bool) (a b : ℝ) : Net := buildNet D (ks.map (Kind.withPenalty a b)) ce

/-- The weights after `setParameters` with the parameters `w`. -/
def stateOf (D : ℕ) (ks : List Kind) (ce : Bool) (a b : ℝ) (mem : Mem) (w : Vec) : Mem :=
  (penalNet D ks ce a b).setParameters mem (vectorOf (penalNet D ks ce a b) w)

/-- `error()` of the network with the penalties `a` and `b` and the parameters `w`. -/
def penalError (D : ℕ) (ks : List Kind) (ce : Bool) (a b : ℝ) (mem : Mem) (ds : TrainSet) (w : Vec) : ℝ :=
  (penalNet D ks ce a b).error (stateOf D ks ce a b mem w) ds

/-- Spec: no parameters have a smaller error than `w`. -/
def Best (D : ℕ) (ks : List Kind) (ce : Bool) (a b : ℝ) (mem : Mem) (ds : TrainSet) (w : Vec) : Prop :=
  ∀ w', penalError D ks ce a b mem ds w ≤ penalError D ks ce a b mem ds w'

/-! ## Penalties change nothing but the error -/

section Same

variable (a b a' b' : ℝ)

theorem Kind.withPenalty_pointers (k : Kind) (I : ℕ) : ((k.withPenalty a b).layer I).pointers = (k.layer I).pointers := by
  cases k <;> rfl

theorem Kind.withPenalty_outputs (k : Kind) (I : ℕ) : ((k.withPenalty a b).layer I).outputs = (k.layer I).outputs := by
  cases k <;> rfl

theorem Kind.withPenalty_forward (k : Kind) (I : ℕ) : ((k.withPenalty a b).layer I).forward = (k.layer I).forward := by
  cases k <;> rfl

theorem Kind.withPenalty_updated (k : Kind) (I : ℕ) : ((k.withPenalty a b).layer I).updated = (k.layer I).updated := by
  cases k <;> rfl

theorem Kind.withPenalty_fits (k : Kind) (I : ℕ) : (k.withPenalty a b).Fits I ↔ k.Fits I := by
  cases k <;> exact Iff.rfl

theorem locsFrom_withPenalty : ∀ (ks : List Kind) (I n : ℕ),
    locsFrom n (layersFrom I (ks.map (Kind.withPenalty a b))) = locsFrom n (layersFrom I ks)
  | [], _, _ => rfl
  | k :: ks, I, n => by
    rw [List.map_cons, layersFrom, locsFrom, layersFrom, locsFrom, k.withPenalty_pointers, k.withPenalty_outputs,
      locsFrom_withPenalty ks]

theorem forwardFrom_withPenalty (mem : Mem) (N : ℕ) : ∀ (ks : List Kind) (I n : ℕ) (x : Batch),
    forwardFrom mem N n (layersFrom I (ks.map (Kind.withPenalty a b))) x = forwardFrom mem N n (layersFrom I ks) x
  | [], _, _, _ => rfl
  | k :: ks, I, n, x => by
    rw [List.map_cons, layersFrom, forwardFrom, layersFrom, forwardFrom, k.withPenalty_forward, k.withPenalty_outputs,
      forwardFrom_withPenalty mem N ks]

theorem updatedFrom_withPenalty : ∀ (ks : List Kind) (I n : ℕ) (mem : Mem),
    updatedFrom n (layersFrom I (ks.map (Kind.withPenalty a b))) mem = updatedFrom n (layersFrom I ks) mem
  | [], _, _, _ => rfl
  | k :: ks, I, n, mem => by
    rw [List.map_cons, layersFrom, updatedFrom, layersFrom, updatedFrom, k.withPenalty_updated, k.withPenalty_outputs,
      updatedFrom_withPenalty ks]

theorem outputs_withPenalty (ks : List Kind) (I : ℕ) :
    (layersFrom I (ks.map (Kind.withPenalty a b))).map Layer.outputs = (layersFrom I ks).map Layer.outputs := by
  induction ks generalizing I with
  | nil => rfl
  | cons k ks ih => rw [List.map_cons, layersFrom, layersFrom, List.map_cons, List.map_cons, k.withPenalty_outputs, ih]

variable (D : ℕ) (ks : List Kind) (ce : Bool)

theorem penalNet_parameters : (penalNet D ks ce a b).parameters = (buildNet D ks ce).parameters := by
  show _ ++ locsFrom 1 (layersFrom D (ks.map (Kind.withPenalty a b))) = _ ++ locsFrom 1 (layersFrom D ks)
  rw [locsFrom_withPenalty]

theorem penalNet_outputs : (penalNet D ks ce a b).outputs = (buildNet D ks ce).outputs := by
  have h : ∀ net : Net, net.outputs = ((net.layers.map Layer.outputs).getLast?).getD 0 := by
    intro net
    rw [Net.outputs, List.getLast?_map]
  rw [h, h]
  show ((D :: (layersFrom D (ks.map (Kind.withPenalty a b))).map Layer.outputs).getLast?).getD 0 =
    ((D :: (layersFrom D ks).map Layer.outputs).getLast?).getD 0
  rw [outputs_withPenalty]

theorem penalNet_activations (mem : Mem) (N : ℕ) (X : Batch) :
    (penalNet D ks ce a b).activations mem N X = (buildNet D ks ce).activations mem N X :=
  forwardFrom_withPenalty a b mem N ks D 1 X

theorem penalNet_output (mem : Mem) (N : ℕ) (X : Batch) :
    (penalNet D ks ce a b).output mem N X = (buildNet D ks ce).output mem N X := by
  rw [Net.output, Net.output, penalNet_activations, penalNet_outputs]
  rfl

theorem penalNet_loss (N : ℕ) (Y T : Batch) : (penalNet D ks ce a b).loss N Y T = (buildNet D ks ce).loss N Y T := by
  rw [Net.loss, Net.loss, penalNet_outputs]
  rfl

theorem penalNet_setParameters (mem : Mem) (θ : List ℝ) :
    (penalNet D ks ce a b).setParameters mem θ = (buildNet D ks ce).setParameters mem θ := by
  rw [Net.setParameters, Net.setParameters, penalNet_parameters]
  exact updatedFrom_withPenalty a b ks D 1 _

/-- Predictions of networks with the same parameters do not depend on the penalties. -/
theorem penalNet_predict (mem : Mem) (x : ℕ → ℝ) : (penalNet D ks ce a b).predict mem x = (buildNet D ks ce).predict mem x := by
  rw [Net.predict, Net.predict, penalNet_output]

theorem stateOf_eq (mem : Mem) (w : Vec) :
    stateOf D ks ce a b mem w = (buildNet D ks ce).setParameters mem (vectorOf (buildNet D ks ce) w) := by
  rw [stateOf, penalNet_setParameters, vectorOf, vectorOf, Net.P, Net.P, penalNet_parameters]

end Same

/-! ## The error -/

/-- The sum of `f` over the weights among the places `l`. -/
def weightSum (f : Slot → ℝ) (l : List Slot) : ℝ := ((l.filter Slot.isWeight).map f).sum

theorem weightSum_append (f : Slot → ℝ) (l l' : List Slot) : weightSum f (l ++ l') = weightSum f l + weightSum f l' := by
  rw [weightSum, List.filter_append, List.map_append, List.sum_append]
  rfl

theorem weightSum_flatMap (f : Slot → ℝ) (n : ℕ) (g : ℕ → List Slot) :
    weightSum f ((List.range n).flatMap g) = ∑ i ∈ range n, weightSum f (g i) := by
  have : ∀ l : List ℕ, weightSum f (l.flatMap g) = (l.map fun i => weightSum f (g i)).sum := by
    intro l
    induction l with
    | nil => rfl
    | cons i l ih => rw [List.flatMap_cons, weightSum_append, ih, List.map_cons, List.sum_cons]
  exact this _

theorem weightSum_map (f : Slot → ℝ) (n : ℕ) (g : ℕ → Slot) (hg : ∀ i, (g i).isWeight = true) :
    weightSum f ((List.range n).map g) = ∑ i ∈ range n, f (g i) := by
  rw [weightSum, List.filter_eq_self.2, List.map_map]
  · rfl
  · intro s hs
    obtain ⟨i, _, rfl⟩ := List.mem_map.1 hs
    exact hg i

theorem weightSum_bias (f : Slot → ℝ) (bias : Bool) (idx : List ℕ) : weightSum f (if bias then [Slot.b idx] else []) = 0 := by
  cases bias <;> rfl

theorem weightSum_dense (f : Slot → ℝ) (I J : ℕ) (bias : Bool) :
    weightSum f (denseSlots I J bias) = ∑ j ∈ range J, ∑ i ∈ range I, f (.w [j, i]) := by
  rw [denseSlots, weightSum_flatMap]
  refine sum_congr rfl fun j _ => ?_
  rw [weightSum_append, weightSum_bias, add_zero, weightSum_map _ _ _ fun _ => rfl]

theorem weightSum_conv (f : Slot → ℝ) (g : Conv) :
    weightSum f g.slots = ∑ fmo ∈ range g.fmout, ∑ fmi ∈ range g.fmin, ∑ kr ∈ range g.kernelRows, ∑ kc ∈ range g.kernelCols,
      f (.w [fmo, fmi, kr, kc]) := by
  rw [Conv.slots, weightSum_flatMap]
  refine sum_congr rfl fun fmo _ => ?_
  rw [weightSum_flatMap]
  refine sum_congr rfl fun fmi _ => ?_
  rw [weightSum_append, weightSum_bias, add_zero, weightSum_flatMap]
  refine sum_congr rfl fun kr _ => ?_
  rw [weightSum_map _ _ _ fun _ => rfl]

theorem weightSum_sub (f : Slot → ℝ) (g : Pool) (bias : Bool) :
    weightSum f (g.slots bias) = ∑ fmo ∈ range g.fm, ∑ r ∈ range g.outRows, ∑ c ∈ range g.outCols, f (.w [fmo, r, c]) := by
  rw [Pool.slots, weightSum_flatMap]
  refine sum_congr rfl fun fmo _ => ?_
  rw [weightSum_flatMap]
  refine sum_congr rfl fun r _ => ?_
  rw [weightSum_flatMap]
  refine sum_congr rfl fun c _ => ?_
  rw [show Slot.w [fmo, r, c] :: (if bias then [Slot.b [fmo, r, c]] else []) =
    [Slot.w [fmo, r, c]] ++ (if bias then [Slot.b [fmo, r, c]] else []) from rfl, weightSum_append, weightSum_bias, add_zero]
  exact add_zero _

theorem Reg.error_split {a b : ℝ} (ha : 0 ≤ a) (hb : 0 ≤ b) (m m' s t : ℝ) :
    (⟨a, b, m⟩ : Reg).error s t = (⟨0, 0, m'⟩ : Reg).error s t + (a * s + b / 2 * t) := by
  rw [Reg.error, Reg.error, if_neg (lt_irrefl _), if_neg (lt_irrefl _)]
  rcases ha.lt_or_eq with ha | rfl <;> rcases hb.lt_or_eq with hb | rfl
  · rw [if_pos ha, if_pos hb]; ring
  · rw [if_pos ha, if_neg (lt_irrefl _)]; ring
  · rw [if_neg (lt_irrefl _), if_pos hb]; ring
  · rw [if_neg (lt_irrefl _), if_neg (lt_irrefl _)]; ring

theorem Kind.regError_split {a b : ℝ} (ha : 0 ≤ a) (hb : 0 ≤ b) (k : Kind) (I : ℕ) (w : Weights) :
    ((k.withPenalty a b).layer I).regError w = ((k.withPenalty 0 0).layer I).regError w +
      if k.penalised then a * weightSum (fun s => |w s|) (k.layer I).pointers +
        b / 2 * weightSum (fun s => w s ^ 2) (k.layer I).pointers else 0 := by
  cases k with
  | fullyConnected J bias act reg =>
    rw [show (Kind.fullyConnected J bias act reg).penalised = true from rfl, if_pos rfl]
    show Reg.error _ _ _ = Reg.error _ _ _ + (a * weightSum _ (denseSlots I J bias) + b / 2 * weightSum _ (denseSlots I J bias))
    rw [weightSum_dense, weightSum_dense]
    exact Reg.error_split ha hb _ _ _ _
  | compressed J M bias act reg phi =>
    rw [show (Kind.compressed J M bias act reg phi).penalised = true from rfl, if_pos rfl]
    show Reg.error _ _ _ = Reg.error _ _ _ + (a * weightSum _ (denseSlots M J false) + b / 2 * weightSum _ (denseSlots M J false))
    rw [weightSum_dense, weightSum_dense]
    exact Reg.error_split ha hb _ _ _ _
  | conv g =>
    rw [show (Kind.conv g).penalised = true from rfl, if_pos rfl]
    show Reg.error _ _ _ = Reg.error _ _ _ + (a * weightSum _ g.slots + b / 2 * weightSum _ g.slots)
    rw [weightSum_conv, weightSum_conv]
    exact Reg.error_split ha hb _ _ _ _
  | sub g bias act reg =>
    rw [show (Kind.sub g bias act reg).penalised = true from rfl, if_pos rfl]
    show Reg.error _ _ _ = Reg.error _ _ _ + (a * weightSum _ (g.slots bias) + b / 2 * weightSum _ (g.slots bias))
    rw [weightSum_sub, weightSum_sub]
    exact Reg.error_split ha hb _ _ _ _
  | _ => exact (add_zero _).symm

theorem sum_weightsFrom (f : Loc → ℝ) (k : Kind) (ks : List Kind) (n I : ℕ) :
    ((weightsFrom n I (k :: ks)).map f).sum = (if k.penalised then weightSum (fun s => f (n, s)) (k.layer I).pointers else 0) +
      ((weightsFrom (n + 1) (k.layer I).outputs ks).map f).sum := by
  rw [weightsFrom, List.map_append, List.sum_append]
  congr 1
  split
  · rw [List.map_map, weightSum]
    rfl
  · rfl

theorem regFrom_split {a b : ℝ} (ha : 0 ≤ a) (hb : 0 ≤ b) (mem : Mem) : ∀ (ks : List Kind) (I n : ℕ),
    regFrom mem n (layersFrom I (ks.map (Kind.withPenalty a b))) = regFrom mem n (layersFrom I (ks.map (Kind.withPenalty 0 0))) +
      (a * sumAbs mem (weightsFrom n I ks) + b / 2 * sumSquares mem (weightsFrom n I ks))
  | [], _, _ => by simp [layersFrom, regFrom, weightsFrom, sumAbs, sumSquares]
  | k :: ks, I, n => by
    rw [List.map_cons, layersFrom, regFrom, List.map_cons, layersFrom, regFrom, k.regError_split ha hb, k.withPenalty_outputs,
      k.withPenalty_outputs, regFrom_split ha hb mem ks]
    have e1 : sumAbs mem (weightsFrom n I (k :: ks)) = _ + sumAbs mem (weightsFrom (n + 1) (k.layer I).outputs ks) :=
      sum_weightsFrom _ k ks n I
    have e2 : sumSquares mem (weightsFrom n I (k :: ks)) = _ + sumSquares mem (weightsFrom (n + 1) (k.layer I).outputs ks) :=
      sum_weightsFrom _ k ks n I
    rw [e1, e2]
    split <;> ring

theorem foldl_add_div (N : ℝ) (f : ℕ → ℝ) (l : List ℕ) (e : ℝ) :
    l.foldl (fun e n => e + f n / N) e = e + (l.map f).sum / N := by
  induction l generalizing e with
  | nil => simp
  | cons n l ih =>
    rw [List.foldl_cons, ih, List.map_cons, List.sum_cons]
    ring

theorem error_sum (net : Net) (mem : Mem) (ds : TrainSet) :
    net.error mem ds = (∑ n ∈ range ds.samples, net.errorAt mem ds n) / ds.samples := by
  rw [Net.error, foldl_add_div, zero_add]
  rfl

/-- **C122 (the error)**: `error()` with the penalties `a`, `b` is `error()` without them plus `a` times the sum of the absolute
values and `b / 2` times the sum of the squares of all weights (not of biases). -/
theorem penalised_error (D : ℕ) (ks : List Kind) (ce : Bool) {a b : ℝ} (ha : 0 ≤ a) (hb : 0 ≤ b) (mem : Mem) (ds : TrainSet)
    (hN : 0 < ds.samples) (w : Vec) :
    penalError D ks ce a b mem ds w = penalError D ks ce 0 0 mem ds w + a * sumAbs (stateOf D ks ce 0 0 mem w) (weightsOf D ks) +
      b / 2 * sumSquares (stateOf D ks ce 0 0 mem w) (weightsOf D ks) := by
  have hN' : (ds.samples : ℝ) ≠ 0 := by exact_mod_cast hN.ne'
  rw [penalError, penalError, show stateOf D ks ce a b mem w = stateOf D ks ce 0 0 mem w by rw [stateOf_eq, stateOf_eq]]
  generalize stateOf D ks ce 0 0 mem w = m
  rw [error_sum, error_sum]
  have e : ∀ n, (penalNet D ks ce a b).errorAt m ds n = (penalNet D ks ce 0 0).errorAt m ds n +
      (a * sumAbs m (weightsOf D ks) + b / 2 * sumSquares m (weightsOf D ks)) := by
    intro n
    rw [Net.errorAt, Net.errorAt, penalNet_loss, penalNet_loss, penalNet_output, penalNet_output]
    show _ + (0 + regFrom m 1 _) = _ + (0 + regFrom m 1 _) + _
    rw [regFrom_split ha hb m ks D 1]
    show _ = _ + (a * sumAbs m (weightsFrom 1 D ks) + b / 2 * sumSquares m (weightsFrom 1 D ks))
    ring
  simp only [e, sum_add_distrib, sum_const, card_range, nsmul_eq_mul]
  field_simp
  ring

theorem sumAbs_nonneg (mem : Mem) (l : List Loc) : 0 ≤ sumAbs mem l :=
  List.sum_nonneg fun _ h => by obtain ⟨p, _, rfl⟩ := List.mem_map.1 h; exact abs_nonneg _

theorem sumSquares_nonneg (mem : Mem) (l : List Loc) : 0 ≤ sumSquares mem l :=
  List.sum_nonneg fun _ h => by obtain ⟨p, _, rfl⟩ := List.mem_map.1 h; exact sq_nonneg _

/-! ## Stronger penalties -/

section Stronger

variable {D : ℕ} {ks : List Kind} {ce : Bool} {mem : Mem} {ds : TrainSet}

/-- **C122 (L2)**: of two networks with the smallest error, the one with the stronger L2 penalty has the smaller weights and the
larger error apart from this penalty, for every architecture and training set. -/
theorem stronger_l2 (hN : 0 < ds.samples) {a b b' : ℝ} (ha : 0 ≤ a) (hb : 0 ≤ b) (hlt : b < b') {w w' : Vec}
    (h : Best D ks ce a b mem ds w) (h' : Best D ks ce a b' mem ds w') :
    sumSquares (stateOf D ks ce a b' mem w') (weightsOf D ks) ≤ sumSquares (stateOf D ks ce a b mem w) (weightsOf D ks) ∧
      penalError D ks ce a 0 mem ds w ≤ penalError D ks ce a 0 mem ds w' := by
  have h1 := h w'
  have h2 := h' w
  rw [penalised_error D ks ce ha hb mem ds hN, penalised_error D ks ce ha hb mem ds hN] at h1
  rw [penalised_error D ks ce ha (hb.trans hlt.le) mem ds hN, penalised_error D ks ce ha (hb.trans hlt.le) mem ds hN] at h2
  rw [penalised_error D ks ce ha le_rfl mem ds hN, penalised_error D ks ce ha le_rfl mem ds hN]
  rw [show stateOf D ks ce a b' mem w' = stateOf D ks ce 0 0 mem w' by rw [stateOf_eq, stateOf_eq],
    show stateOf D ks ce a b mem w = stateOf D ks ce 0 0 mem w by rw [stateOf_eq, stateOf_eq]]
  have key : sumSquares (stateOf D ks ce 0 0 mem w') (weightsOf D ks) ≤ sumSquares (stateOf D ks ce 0 0 mem w) (weightsOf D ks) := by
    by_contra hc
    have := mul_pos (sub_pos.2 hlt) (sub_pos.2 (not_le.1 hc))
    nlinarith [this]
  refine ⟨key, ?_⟩
  have := mul_le_mul_of_nonneg_left key (show 0 ≤ b / 2 by linarith)
  linarith

/-- **C122 (L1)**: likewise for the L1 penalty. -/
theorem stronger_l1 (hN : 0 < ds.samples) {a a' b : ℝ} (ha : 0 ≤ a) (hb : 0 ≤ b) (hlt : a < a') {w w' : Vec}
    (h : Best D ks ce a b mem ds w) (h' : Best D ks ce a' b mem ds w') :
    sumAbs (stateOf D ks ce a' b mem w') (weightsOf D ks) ≤ sumAbs (stateOf D ks ce a b mem w) (weightsOf D ks) ∧
      penalError D ks ce 0 b mem ds w ≤ penalError D ks ce 0 b mem ds w' := by
  have h1 := h w'
  have h2 := h' w
  rw [penalised_error D ks ce ha hb mem ds hN, penalised_error D ks ce ha hb mem ds hN] at h1
  rw [penalised_error D ks ce (ha.trans hlt.le) hb mem ds hN, penalised_error D ks ce (ha.trans hlt.le) hb mem ds hN] at h2
  rw [penalised_error D ks ce le_rfl hb mem ds hN, penalised_error D ks ce le_rfl hb mem ds hN]
  rw [show stateOf D ks ce a' b mem w' = stateOf D ks ce 0 0 mem w' by rw [stateOf_eq, stateOf_eq],
    show stateOf D ks ce a b mem w = stateOf D ks ce 0 0 mem w by rw [stateOf_eq, stateOf_eq]]
  have key : sumAbs (stateOf D ks ce 0 0 mem w') (weightsOf D ks) ≤ sumAbs (stateOf D ks ce 0 0 mem w) (weightsOf D ks) := by
    by_contra hc
    have := mul_pos (sub_pos.2 hlt) (sub_pos.2 (not_le.1 hc))
    nlinarith [this]
  refine ⟨key, ?_⟩
  have := mul_le_mul_of_nonneg_left key ha
  linarith

/-! ## Bounds -/

theorem regFrom_zero_nonneg (mem : Mem) : ∀ (ks : List Kind) (I n : ℕ),
    0 ≤ regFrom mem n (layersFrom I (ks.map (Kind.withPenalty 0 0)))
  | [], _, _ => le_refl _
  | k :: ks, I, n => by
    rw [List.map_cons, layersFrom, regFrom]
    refine add_nonneg ?_ (regFrom_zero_nonneg mem ks _ _)
    cases k with
    | fullyConnected J bias act reg => exact (Reg.error_zero ⟨le_rfl, le_rfl⟩ _ _).ge
    | compressed J M bias act reg phi => exact (Reg.error_zero ⟨le_rfl, le_rfl⟩ _ _).ge
    | conv g => exact (Reg.error_zero ⟨le_rfl, le_rfl⟩ _ _).ge
    | sub g bias act reg => exact (Reg.error_zero ⟨le_rfl, le_rfl⟩ _ _).ge
    | sparseAutoEncoder H act lambda =>
      show 0 ≤ if 0 < lambda then _ else _
      split
      · rename_i h
        exact div_nonneg (mul_nonneg h.le (sum_nonneg fun _ _ => sum_nonneg fun _ _ => sq_nonneg _)) (by norm_num)
      · exact le_rfl
    | _ => exact le_rfl

/-- The mean squared error is not negative. -/
theorem penalError_nonneg (w : Vec) : 0 ≤ penalError D ks false 0 0 mem ds w := by
  rw [penalError, error_sum]
  refine div_nonneg (sum_nonneg fun n _ => ?_) (Nat.cast_nonneg _)
  rw [Net.errorAt]
  refine add_nonneg ?_ (add_nonneg le_rfl (regFrom_zero_nonneg _ ks D 1))
  rw [Net.loss, if_neg (by simp [penalNet, buildNet])]
  exact div_nonneg (sum_nonneg fun _ _ => sum_nonneg fun _ _ => sq_nonneg _) (by positivity)

/-- **C122 (bounds)**: the weights of every network are bounded by its mean squared error with penalties; in particular
training that does not increase the error keeps the weights in a bounded region. -/
theorem weights_bounded (hN : 0 < ds.samples) {a b : ℝ} (ha : 0 ≤ a) (hb : 0 ≤ b) (w : Vec) :
    a * sumAbs (stateOf D ks false a b mem w) (weightsOf D ks) + b / 2 * sumSquares (stateOf D ks false a b mem w) (weightsOf D ks) ≤
      penalError D ks false a b mem ds w := by
  rw [penalised_error D ks false ha hb mem ds hN,
    show stateOf D ks false a b mem w = stateOf D ks false 0 0 mem w by rw [stateOf_eq, stateOf_eq]]
  have := penalError_nonneg (D := D) (ks := ks) (mem := mem) (ds := ds) w
  linarith

/-- **C122 (limit)**: the weights of a network with the smallest error are at most as large as `2 e / b` (sum of squares), where
`e` is the error of any network whose weights are zero; thus they vanish for strong penalties. -/
theorem best_weights_small (hN : 0 < ds.samples) {a b : ℝ} (ha : 0 ≤ a) (hb : 0 < b) {w w0 : Vec}
    (h : Best D ks false a b mem ds w) (h0 : ∀ p ∈ weightsOf D ks, stateOf D ks false a b mem w0 p.1 p.2 = 0) :
    sumSquares (stateOf D ks false a b mem w) (weightsOf D ks) ≤ 2 * penalError D ks false 0 0 mem ds w0 / b := by
  have h1 := weights_bounded (D := D) (ks := ks) (mem := mem) hN ha hb.le w
  have h2 := h w0
  rw [penalised_error D ks false ha hb.le mem ds hN w0] at h2
  have e : ∀ p ∈ weightsOf D ks, stateOf D ks false 0 0 mem w0 p.1 p.2 = 0 := by
    intro p hp
    rw [← h0 p hp, stateOf_eq, stateOf_eq]
  have e1 : sumAbs (stateOf D ks false 0 0 mem w0) (weightsOf D ks) = 0 := by
    refine List.sum_eq_zero fun x hx => ?_
    obtain ⟨p, hp, rfl⟩ := List.mem_map.1 hx
    rw [e p hp, abs_zero]
  have e2 : sumSquares (stateOf D ks false 0 0 mem w0) (weightsOf D ks) = 0 := by
    refine List.sum_eq_zero fun x hx => ?_
    obtain ⟨p, hp, rfl⟩ := List.mem_map.1 hx
    rw [e p hp]
    norm_num
  rw [e1, e2] at h2
  have h3 := mul_nonneg ha (sumAbs_nonneg (stateOf D ks false a b mem w) (weightsOf D ks))
  rw [le_div_iff₀ hb]
  linarith

end Stronger


/-! ## Weights that are exactly zero -/

theorem sum_replace {l : List Loc} (hn : l.Nodup) {x : Loc} (hx : x ∈ l) {f g : Loc → ℝ} (h : ∀ p ∈ l, p ≠ x → f p = g p) :
    (l.map f).sum = (l.map g).sum + (f x - g x) := by
  induction l with
  | nil => cases hx
  | cons y l ih =>
    rw [List.nodup_cons] at hn
    rw [List.map_cons, List.sum_cons, List.map_cons, List.sum_cons]
    by_cases e : y = x
    · subst e
      have : l.map f = l.map g := List.map_congr_left fun p hp =>
        h p (List.mem_cons_of_mem _ hp) fun e => hn.1 (e ▸ hp)
      rw [this]
      ring
    · have hx' : x ∈ l := (List.mem_cons.1 hx).resolve_left (Ne.symm e)
      rw [ih hn.2 hx' fun p hp => h p (List.mem_cons_of_mem _ hp), h y List.mem_cons_self e]
      ring

theorem weightsFrom_sublist : ∀ (ks : List Kind) (n I : ℕ), List.Sublist (weightsFrom n I ks) (locsFrom n (layersFrom I ks))
  | [], _, _ => List.Sublist.refl _
  | k :: ks, n, I => by
    rw [weightsFrom, layersFrom, locsFrom]
    refine List.Sublist.append ?_ (weightsFrom_sublist ks _ _)
    split
    · exact List.Sublist.map _ List.filter_sublist
    · exact List.nil_sublist _

theorem weightsOf_sublist (D : ℕ) (ks : List Kind) (ce : Bool) : List.Sublist (weightsOf D ks) (buildNet D ks ce).parameters :=
  weightsFrom_sublist ks 1 D

theorem stateOf_getElem {D : ℕ} {ks : List Kind} {ce : Bool} (hu : Unconstrained ks) (a b : ℝ) (mem : Mem) (w : Vec) {i : ℕ}
    (hi : i < (buildNet D ks ce).parameters.length) :
    stateOf D ks ce a b mem w (buildNet D ks ce).parameters[i].1 (buildNet D ks ce).parameters[i].2 = w i := by
  rw [stateOf_eq, setParameters_unconstrained (updated_of_unconstrained hu), writeAll_getElem (parameters_nodup D ks ce) hi
    (by rw [vectorOf, List.length_map, List.length_range]; exact hi)]
  simp [vectorOf]

/-- Spec: the direction of parameter `i`. -/
def axis (i : ℕ) : Vec := fun p => if p = i then 1 else 0

theorem sum_along {D : ℕ} {ks : List Kind} {ce : Bool} (hu : Unconstrained ks) (a b : ℝ) (mem : Mem) (w : Vec) {i : ℕ}
    (hi : i < (buildNet D ks ce).parameters.length) (hw : (buildNet D ks ce).parameters[i] ∈ weightsOf D ks) (f : ℝ → ℝ) (t : ℝ) :
    ((weightsOf D ks).map fun p => f (stateOf D ks ce a b mem (fun q => w q + t * axis i q) p.1 p.2)).sum =
      ((weightsOf D ks).map fun p => f (stateOf D ks ce a b mem w p.1 p.2)).sum + (f (w i + t) - f (w i)) := by
  have hn := (parameters_nodup D ks ce).sublist (weightsOf_sublist D ks ce)
  rw [sum_replace hn hw (g := fun p => f (stateOf D ks ce a b mem w p.1 p.2))]
  · rw [stateOf_getElem hu a b mem _ hi, stateOf_getElem hu a b mem _ hi, axis, if_pos rfl, mul_one]
  · intro p hp hne
    obtain ⟨j, hj, rfl⟩ := List.getElem_of_mem ((weightsOf_sublist D ks ce).subset hp)
    have hji : j ≠ i := fun e => hne (by subst e; rfl)
    rw [stateOf_getElem hu a b mem _ hj, stateOf_getElem hu a b mem _ hj, axis, if_neg hji, mul_zero, add_zero]

/-- **C122 (L1, zero weights)**: let `g` be the derivative of the error without penalties with respect to a weight.  In a network
with the smallest error, the weight is exactly zero if `|g|` is smaller than the L1 penalty; otherwise, unless it is zero,
`g` balances the penalties. -/
theorem l1_zero {D : ℕ} {ks : List Kind} {ce : Bool} {mem : Mem} {ds : TrainSet} (hN : 0 < ds.samples) (hu : Unconstrained ks)
    {a b : ℝ} (ha : 0 ≤ a) (hb : 0 ≤ b) {w : Vec} (h : Best D ks ce a b mem ds w) {i : ℕ}
    (hi : i < (buildNet D ks ce).parameters.length) (hw : (buildNet D ks ce).parameters[i] ∈ weightsOf D ks) {g : ℝ}
    (hg : HasDerivAt (fun t => penalError D ks ce 0 0 mem ds fun q => w q + t * axis i q) g 0) :
    (|g| < a → w i = 0) ∧ (w i ≠ 0 → g = -(a * (w i / |w i|) + b * w i)) := by
  have key : w i ≠ 0 → g = -(a * (w i / |w i|) + b * w i) := by
    intro hne
    have e : (fun t => penalError D ks ce a b mem ds fun q => w q + t * axis i q) = fun t =>
        penalError D ks ce 0 0 mem ds (fun q => w q + t * axis i q) +
          a * (sumAbs (stateOf D ks ce 0 0 mem w) (weightsOf D ks) + (|w i + t| - |w i|)) +
          b / 2 * (sumSquares (stateOf D ks ce 0 0 mem w) (weightsOf D ks) + ((w i + t) ^ 2 - w i ^ 2)) := by
      funext t
      rw [penalised_error D ks ce ha hb mem ds hN]
      congr 1
      · congr 2
        exact sum_along hu 0 0 mem w hi hw (fun x => |x|) t
      · congr 1
        exact sum_along hu 0 0 mem w hi hw (fun x => x ^ 2) t
    have hid : HasDerivAt (fun t : ℝ => w i + t) 1 0 := (hasDerivAt_id (0 : ℝ)).const_add (w i)
    have habs : HasDerivAt (fun t : ℝ => |w i + t|) (w i / |w i|) 0 := by
      have h1 : HasDerivAt (fun x : ℝ => |x|) (SignType.sign (w i + 0) : ℝ) (w i + 0) := hasDerivAt_abs (by rwa [add_zero])
      have h2 := h1.comp (0 : ℝ) hid
      have e2 : ((SignType.sign (w i + 0) : SignType) : ℝ) * 1 = w i / |w i| := by
        rw [add_zero, mul_one]
        rcases lt_or_gt_of_ne hne with hlt | hgt
        · rw [sign_neg hlt, abs_of_neg hlt, div_neg, div_self hne]
          rfl
        · rw [sign_pos hgt, abs_of_pos hgt, div_self hne]
          rfl
      rw [e2] at h2
      exact h2
    have hsq : HasDerivAt (fun t : ℝ => (w i + t) ^ 2) (2 * w i) 0 := by
      have := hid.fun_pow 2
      simpa using this
    have hd : HasDerivAt (fun t => penalError D ks ce a b mem ds fun q => w q + t * axis i q)
        (g + a * (w i / |w i|) + b / 2 * (2 * w i)) 0 := by
      rw [e]
      exact (hg.add (((habs.sub_const _).const_add _).const_mul a)).add (((hsq.sub_const _).const_add _).const_mul (b / 2))
    have hmin : IsLocalMin (fun t => penalError D ks ce a b mem ds fun q => w q + t * axis i q) 0 := by
      refine Filter.Eventually.of_forall fun t => ?_
      have e0 : (fun q => w q + 0 * axis i q) = w := by
        funext q
        ring
      simp only [e0]
      exact h _
    have := hmin.hasDerivAt_eq_zero hd
    linarith
  refine ⟨fun hlt => ?_, key⟩
  by_contra hne
  have hp : 0 < |w i| := abs_pos.2 hne
  have e : g = -((a / |w i| + b) * w i) := by
    rw [key hne]
    ring
  have h0 : 0 ≤ a / |w i| + b := add_nonneg (div_nonneg ha hp.le) hb
  rw [e, abs_neg, abs_mul, abs_of_nonneg h0, add_mul, div_mul_cancel₀ _ hp.ne'] at hlt
  have := mul_nonneg hb hp.le
  linarith

theorem unconstrained_withPenalty {ks : List Kind} (hu : Unconstrained ks) (a b : ℝ) :
    Unconstrained (ks.map (Kind.withPenalty a b)) := by
  intro k hk J bias act reg e
  obtain ⟨k0, hk0, rfl⟩ := List.mem_map.1 hk
  cases k0 <;> cases e
  have := hu _ hk0 _ _ _ _ rfl
  exact this

/-- **C122 (L1, by the gradient)**: the derivative of `l1_zero` is what the network without penalties returns as gradient of the
mean squared error. -/
theorem l1_zero_gradient {D : ℕ} {ks : List Kind} {mem : Mem} {ds : TrainSet} (hN : 0 < ds.samples) (hu : Unconstrained ks)
    (hf : FitsFrom D (ks.map (Kind.withPenalty 0 0))) (hr : ∀ k ∈ ks.map (Kind.withPenalty 0 0), k.Unregularised)
    (hrow : ∀ k ∈ ks.map (Kind.withPenalty 0 0), k.RowWise) {a b : ℝ} (ha : 0 ≤ a) (hb : 0 ≤ b) {w : Vec}
    (h : Best D ks false a b mem ds w) {i : ℕ} (hi : i < (buildNet D ks false).parameters.length)
    (hw : (buildNet D ks false).parameters[i] ∈ weightsOf D ks) (sc : Scratch)
    (hs : SmoothFrom (stateOf D ks false 0 0 mem w) ds.samples 1 D (ks.map (Kind.withPenalty 0 0))
      (selectRows ds.inst (List.range ds.samples))) :
    |((penalNet D ks false 0 0).errorGradientAll (stateOf D ks false 0 0 mem w) sc ds).2.getD i 0| < a → w i = 0 := by
  refine (l1_zero hN hu ha hb h hi hw ?_).1
  have hd := directional (ce := false) hf (unconstrained_withPenalty hu 0 0) mem sc ds (idx := List.range ds.samples)
    (ne_nil_of_perm hN (.refl _)) (by intro h; cases h) w (axis i) (by rw [List.length_range]; exact hs)
  simp only [trainObjective, penalty_zero hr, zero_div, add_zero] at hd
  have e : (fun t => penalError D ks false 0 0 mem ds fun q => w q + t * axis i q) = fun t =>
      dataError (buildNet D (ks.map (Kind.withPenalty 0 0)) false) ((buildNet D (ks.map (Kind.withPenalty 0 0)) false).setParameters mem
        (vectorOf (buildNet D (ks.map (Kind.withPenalty 0 0)) false) fun q => w q + t * axis i q)) ds (List.range ds.samples) := by
    funext t
    exact error_eq_dataError hr hrow _ ds hN (.refl _)
  rw [e]
  have hP : (buildNet D (ks.map (Kind.withPenalty 0 0)) false).P = (buildNet D ks false).parameters.length := by
    rw [Net.P]
    exact congrArg List.length (penalNet_parameters 0 0 D ks false)
  rw [hP, sum_eq_single_of_mem i (mem_range.2 hi) (fun p _ hp => by rw [axis, if_neg hp, mul_zero]), axis, if_pos rfl, mul_one] at hd
  exact hd

/-! ## Linear regression with an L2 penalty -/

/-- Spec: the sum of the squares of the weights (without biases) of a linear model. -/
def weightNorm (D F : ℕ) (u : Vec) : ℝ := ∑ j ∈ range F, ∑ i ∈ range D, u (j * (D + 1) + i) ^ 2

/-- Spec: the objective of ridge regression. -/
def ridge (D F : ℕ) (ds : TrainSet) (b : ℝ) (u : Vec) : ℝ := leastSquares D F ds u + b / 2 * weightNorm D F u

theorem ridge_weights (D F : ℕ) (ce : Bool) (a b : ℝ) (mem : Mem) (u : Vec) :
    sumSquares (stateOf D (linearKinds F) ce a b mem u) (weightsOf D (linearKinds F)) = weightNorm D F u := by
  have e : sumSquares (stateOf D (linearKinds F) ce a b mem u) (weightsOf D (linearKinds F)) =
      ∑ j ∈ range F, ∑ i ∈ range D, stateOf D (linearKinds F) ce a b mem u 1 (.w [j, i]) ^ 2 := by
    rw [sumSquares, weightsOf, linearKinds, sum_weightsFrom]
    show weightSum (fun s => _) (denseSlots D F true) + 0 = _
    rw [weightSum_dense, add_zero]
  rw [e, weightNorm]
  refine sum_congr rfl fun j hj => sum_congr rfl fun i hi => ?_
  have hq := (denseSlots_get (I := D) (mem_range.1 hj)).1 i (mem_range.1 hi)
  have hp : (buildNet D (linearKinds F) ce).parameters[j * (D + 1) + i]? = some (1, .w [j, i]) := by
    show ([] ++ ((denseSlots D F true).map (fun s => (1, s)) ++ []))[j * (D + 1) + i]? = _
    rw [List.nil_append, List.append_nil, List.getElem?_map, hq]
    rfl
  obtain ⟨hlt, hget⟩ := List.getElem?_eq_some_iff.1 hp
  have := stateOf_getElem (linear_unconstrained F) a b mem u hlt
  rw [hget] at this
  rw [this]

/-- `error()` of a linear network with an L2 penalty is the objective of ridge regression. -/
theorem ridge_error (D F : ℕ) {b : ℝ} (hb : 0 ≤ b) (mem : Mem) (ds : TrainSet) (hN : 0 < ds.samples) (u : Vec) :
    penalError D (linearKinds F) false 0 b mem ds u = ridge D F ds b u := by
  rw [penalised_error D _ false le_rfl hb mem ds hN, ridge_weights, zero_mul, add_zero, ridge]
  congr 1
  exact linear_error D F mem ds hN u

/-- The slope of the objective. -/
def ridgeSlope (D F : ℕ) (ds : TrainSet) (b : ℝ) (w v : Vec) : ℝ :=
  leastSquaresSlope D F ds w v + b * ∑ j ∈ range F, ∑ i ∈ range D, w (j * (D + 1) + i) * v (j * (D + 1) + i)

/-- Twice the curvature of the objective. -/
def ridgeCurve (D F : ℕ) (ds : TrainSet) (b : ℝ) (v : Vec) : ℝ :=
  (∑ n ∈ range ds.samples, ∑ j ∈ range F, score D (ds.inst n) v j ^ 2) / ds.samples + b * weightNorm D F v

theorem weightNorm_nonneg (D F : ℕ) (v : Vec) : 0 ≤ weightNorm D F v := sum_nonneg fun _ _ => sum_nonneg fun _ _ => sq_nonneg _

theorem ridgeCurve_nonneg (D F : ℕ) (ds : TrainSet) {b : ℝ} (hb : 0 ≤ b) (v : Vec) : 0 ≤ ridgeCurve D F ds b v :=
  add_nonneg (div_nonneg (sum_nonneg fun _ _ => sum_nonneg fun _ _ => sq_nonneg _) (Nat.cast_nonneg _))
    (mul_nonneg hb (weightNorm_nonneg D F v))

theorem ridge_expand (D F : ℕ) (ds : TrainSet) (b : ℝ) (w v : Vec) (t : ℝ) :
    ridge D F ds b (fun p => w p + t * v p) = ridge D F ds b w + t * ridgeSlope D F ds b w v + t ^ 2 / 2 * ridgeCurve D F ds b v := by
  have e : weightNorm D F (fun p => w p + t * v p) = weightNorm D F w +
      2 * t * (∑ j ∈ range F, ∑ i ∈ range D, w (j * (D + 1) + i) * v (j * (D + 1) + i)) + t ^ 2 * weightNorm D F v := by
    rw [weightNorm, weightNorm, weightNorm, mul_sum, mul_sum, ← sum_add_distrib, ← sum_add_distrib]
    refine sum_congr rfl fun j _ => ?_
    rw [mul_sum, mul_sum, ← sum_add_distrib, ← sum_add_distrib]
    exact sum_congr rfl fun i _ => by ring
  rw [ridge, ridge, leastSquares_expand, e, ridgeSlope, ridgeCurve]
  ring

theorem weightNorm_le (D F : ℕ) (v : Vec) : weightNorm D F v ≤ ∑ p ∈ range (F * (D + 1)), v p ^ 2 := by
  rw [← sum_blocks D F fun p => v p ^ 2, weightNorm]
  refine sum_le_sum fun j _ => ?_
  rw [sum_range_succ]
  linarith [sq_nonneg (v (j * (D + 1) + D))]

/-- Two parameter vectors with the same weights and biases. -/
theorem ridgeCurve_zero {D F : ℕ} {ds : TrainSet} (hN : 0 < ds.samples) {b : ℝ} (hb : 0 < b) {v : Vec}
    (h : ridgeCurve D F ds b v = 0) : ∀ p < F * (D + 1), v p = 0 := by
  have hN' : (0 : ℝ) < ds.samples := by exact_mod_cast hN
  have h1 : 0 ≤ (∑ n ∈ range ds.samples, ∑ j ∈ range F, score D (ds.inst n) v j ^ 2) / ds.samples :=
    div_nonneg (sum_nonneg fun _ _ => sum_nonneg fun _ _ => sq_nonneg _) (Nat.cast_nonneg _)
  have h2 := mul_nonneg hb.le (weightNorm_nonneg D F v)
  rw [ridgeCurve] at h
  have hw : weightNorm D F v = 0 := by
    have : b * weightNorm D F v = 0 := by linarith
    exact (mul_eq_zero.1 this).resolve_left hb.ne'
  have hs : ∑ n ∈ range ds.samples, ∑ j ∈ range F, score D (ds.inst n) v j ^ 2 = 0 := by
    have : (∑ n ∈ range ds.samples, ∑ j ∈ range F, score D (ds.inst n) v j ^ 2) / ds.samples = 0 := by linarith
    exact (div_eq_zero_iff.1 this).resolve_right hN'.ne'
  have hwz : ∀ j < F, ∀ i < D, v (j * (D + 1) + i) = 0 := by
    intro j hj i hi
    have a1 := (sum_eq_zero_iff_of_nonneg fun _ _ => sum_nonneg fun _ _ => sq_nonneg _).1 hw j (mem_range.2 hj)
    have a2 := (sum_eq_zero_iff_of_nonneg fun _ _ => sq_nonneg _).1 a1 i (mem_range.2 hi)
    exact pow_eq_zero_iff (two_ne_zero) |>.1 a2
  have hbz : ∀ j < F, v (j * (D + 1) + D) = 0 := by
    intro j hj
    have a1 := (sum_eq_zero_iff_of_nonneg fun _ _ => sum_nonneg fun _ _ => sq_nonneg _).1 hs 0 (mem_range.2 hN)
    have a2 := (sum_eq_zero_iff_of_nonneg fun _ _ => sq_nonneg _).1 a1 j (mem_range.2 hj)
    have a3 : score D (ds.inst 0) v j = 0 := pow_eq_zero_iff (two_ne_zero) |>.1 a2
    rw [score, sum_eq_zero fun i hi => by rw [hwz j hj i (mem_range.1 hi), zero_mul], zero_add] at a3
    exact a3
  have hall : ∑ p ∈ range (F * (D + 1)), v p ^ 2 = 0 := by
    rw [← sum_blocks D F fun p => v p ^ 2]
    refine sum_eq_zero fun j hj => sum_eq_zero fun i hi => ?_
    have hi' := mem_range.1 hi
    rcases Nat.lt_or_ge i D with hlt | hge
    · rw [hwz j (mem_range.1 hj) i hlt]; norm_num
    · obtain rfl : i = D := by omega
      rw [hbz j (mem_range.1 hj)]; norm_num
  intro p hp
  have := (sum_eq_zero_iff_of_nonneg fun _ _ => sq_nonneg _).1 hall p (mem_range.2 hp)
  exact pow_eq_zero_iff (two_ne_zero) |>.1 this

/-- **C122 (uniqueness)**: with an L2 penalty there is only one linear network with the smallest error, even if the inputs are
linearly dependent. -/
theorem ridge_unique {D F : ℕ} {ds : TrainSet} (hN : 0 < ds.samples) {b : ℝ} (hb : 0 < b) {mem : Mem} {u w : Vec}
    (hu : Best D (linearKinds F) false 0 b mem ds u) (hw : Best D (linearKinds F) false 0 b mem ds w) :
    ∀ p < F * (D + 1), u p = w p := by
  have h1 := hu w
  have h2 := hw u
  have h3 := hw fun p => w p + 1 / 2 * change u w p
  have h4 := hu fun p => w p + 1 / 2 * change u w p
  simp only [ridge_error D F hb.le mem ds hN] at h1 h2 h3 h4
  have e1 := ridge_expand D F ds b w (change u w) 1
  rw [add_change] at e1
  rw [ridge_expand] at h3 h4
  have h5 := ridgeCurve_nonneg D F ds hb.le (change u w)
  have h0 : ridgeCurve D F ds b (change u w) = 0 := by nlinarith
  intro p hp
  have := ridgeCurve_zero hN hb h0 p hp
  rw [change] at this
  linarith

/-! ### The smallest error is attained -/

/-- The bilinear form of the objective. -/
def ridgeForm (D F : ℕ) (ds : TrainSet) (b : ℝ) (w v : Vec) : ℝ :=
  (∑ n ∈ range ds.samples, ∑ j ∈ range F, score D (ds.inst n) w j * score D (ds.inst n) v j) / ds.samples +
    b * ∑ j ∈ range F, ∑ i ∈ range D, w (j * (D + 1) + i) * v (j * (D + 1) + i)

/-- The linear form of the objective. -/
def targetForm (D F : ℕ) (ds : TrainSet) (v : Vec) : ℝ :=
  (∑ n ∈ range ds.samples, ∑ j ∈ range F, ds.tgt n j * score D (ds.inst n) v j) / ds.samples

theorem ridgeSlope_eq (D F : ℕ) (ds : TrainSet) (b : ℝ) (w v : Vec) :
    ridgeSlope D F ds b w v = ridgeForm D F ds b w v - targetForm D F ds v := by
  rw [ridgeSlope, leastSquaresSlope, ridgeForm, targetForm]
  have e : ∑ n ∈ range ds.samples, ∑ j ∈ range F, (score D (ds.inst n) w j - ds.tgt n j) * score D (ds.inst n) v j =
      ∑ n ∈ range ds.samples, ∑ j ∈ range F, score D (ds.inst n) w j * score D (ds.inst n) v j -
        ∑ n ∈ range ds.samples, ∑ j ∈ range F, ds.tgt n j * score D (ds.inst n) v j := by
    rw [← sum_sub_distrib]
    refine sum_congr rfl fun n _ => ?_
    rw [← sum_sub_distrib]
    exact sum_congr rfl fun j _ => by ring
  rw [e, sub_div]
  ring

theorem ridgeForm_comm (D F : ℕ) (ds : TrainSet) (b : ℝ) (w v : Vec) : ridgeForm D F ds b w v = ridgeForm D F ds b v w := by
  rw [ridgeForm, ridgeForm]
  congr 2
  · exact sum_congr rfl fun n _ => sum_congr rfl fun j _ => mul_comm _ _
  · exact sum_congr rfl fun n _ => sum_congr rfl fun j _ => mul_comm _ _

theorem ridgeForm_add (D F : ℕ) (ds : TrainSet) (b : ℝ) (w v u : Vec) (c : ℝ) :
    ridgeForm D F ds b w (fun p => v p + c * u p) = ridgeForm D F ds b w v + c * ridgeForm D F ds b w u := by
  have e1 : ∑ n ∈ range ds.samples, ∑ j ∈ range F, score D (ds.inst n) w j * score D (ds.inst n) (fun p => v p + c * u p) j =
      ∑ n ∈ range ds.samples, ∑ j ∈ range F, score D (ds.inst n) w j * score D (ds.inst n) v j +
        c * ∑ n ∈ range ds.samples, ∑ j ∈ range F, score D (ds.inst n) w j * score D (ds.inst n) u j := by
    rw [mul_sum, ← sum_add_distrib]
    refine sum_congr rfl fun n _ => ?_
    rw [mul_sum, ← sum_add_distrib]
    refine sum_congr rfl fun j _ => ?_
    rw [score_add]
    ring
  have e2 : ∑ j ∈ range F, ∑ i ∈ range D, w (j * (D + 1) + i) * (v (j * (D + 1) + i) + c * u (j * (D + 1) + i)) =
      ∑ j ∈ range F, ∑ i ∈ range D, w (j * (D + 1) + i) * v (j * (D + 1) + i) +
        c * ∑ j ∈ range F, ∑ i ∈ range D, w (j * (D + 1) + i) * u (j * (D + 1) + i) := by
    rw [mul_sum, ← sum_add_distrib]
    refine sum_congr rfl fun n _ => ?_
    rw [mul_sum, ← sum_add_distrib]
    exact sum_congr rfl fun j _ => by ring
  rw [ridgeForm, ridgeForm, ridgeForm, e1, e2]
  ring

theorem targetForm_add (D F : ℕ) (ds : TrainSet) (v u : Vec) (c : ℝ) :
    targetForm D F ds (fun p => v p + c * u p) = targetForm D F ds v + c * targetForm D F ds u := by
  have e1 : ∑ n ∈ range ds.samples, ∑ j ∈ range F, ds.tgt n j * score D (ds.inst n) (fun p => v p + c * u p) j =
      ∑ n ∈ range ds.samples, ∑ j ∈ range F, ds.tgt n j * score D (ds.inst n) v j +
        c * ∑ n ∈ range ds.samples, ∑ j ∈ range F, ds.tgt n j * score D (ds.inst n) u j := by
    rw [mul_sum, ← sum_add_distrib]
    refine sum_congr rfl fun n _ => ?_
    rw [mul_sum, ← sum_add_distrib]
    refine sum_congr rfl fun j _ => ?_
    rw [score_add]
    ring
  rw [targetForm, targetForm, targetForm, e1]
  ring

theorem ridgeForm_zero (D F : ℕ) (ds : TrainSet) (b : ℝ) (w : Vec) : ridgeForm D F ds b w (fun _ => 0) = 0 := by
  simp [ridgeForm, score]

theorem targetForm_zero (D F : ℕ) (ds : TrainSet) : targetForm D F ds (fun _ => 0) = 0 := by
  simp [targetForm, score]

theorem ridgeForm_self (D F : ℕ) (ds : TrainSet) (b : ℝ) (v : Vec) : ridgeForm D F ds b v v = ridgeCurve D F ds b v := by
  rw [ridgeForm, ridgeCurve, weightNorm]
  congr 2
  · exact sum_congr rfl fun n _ => sum_congr rfl fun j _ => (sq _).symm
  · exact sum_congr rfl fun n _ => sum_congr rfl fun j _ => (sq _).symm

theorem score_congr {D F : ℕ} {u v : Vec} (h : ∀ p < F * (D + 1), u p = v p) (x : ℕ → ℝ) {j : ℕ} (hj : j < F) :
    score D x u j = score D x v j := by
  rw [score, score, h _ (block_lt hj (Nat.lt_succ_self D))]
  congr 1
  exact sum_congr rfl fun i hi => by rw [h _ (block_lt hj (Nat.lt_succ_of_lt (mem_range.1 hi)))]

theorem ridgeForm_congr {D F : ℕ} {u v : Vec} (h : ∀ p < F * (D + 1), u p = v p) (ds : TrainSet) (b : ℝ) (w : Vec) :
    ridgeForm D F ds b w u = ridgeForm D F ds b w v := by
  rw [ridgeForm, ridgeForm]
  congr 2
  · exact sum_congr rfl fun n _ => sum_congr rfl fun j hj => by rw [score_congr h _ (mem_range.1 hj)]
  · exact sum_congr rfl fun j hj => sum_congr rfl fun i hi => by
      rw [h _ (block_lt (mem_range.1 hj) (Nat.lt_succ_of_lt (mem_range.1 hi)))]

theorem targetForm_congr {D F : ℕ} {u v : Vec} (h : ∀ p < F * (D + 1), u p = v p) (ds : TrainSet) :
    targetForm D F ds u = targetForm D F ds v := by
  rw [targetForm, targetForm]
  congr 1
  exact sum_congr rfl fun n _ => sum_congr rfl fun j hj => by rw [score_congr h _ (mem_range.1 hj)]

/-- A vector with finitely many entries as parameters. -/
def extend {P : ℕ} (v : Fin P → ℝ) : Vec := fun p => if h : p < P then v ⟨p, h⟩ else 0

theorem extend_add {P : ℕ} (v u : Fin P → ℝ) : extend (v + u) = fun p => extend v p + 1 * extend u p := by
  funext p
  by_cases h : p < P
  · simp [extend, h]
  · simp [extend, h]

theorem extend_smul {P : ℕ} (c : ℝ) (v : Fin P → ℝ) : extend (c • v) = fun p => (fun _ => (0 : ℝ)) p + c * extend v p := by
  funext p
  by_cases h : p < P
  · simp [extend, h]
  · simp [extend, h]

/-- **C122 (existence)**: with an L2 penalty there is a linear network with the smallest error. -/
theorem ridge_exists (D F : ℕ) {ds : TrainSet} (hN : 0 < ds.samples) {b : ℝ} (hb : 0 < b) (mem : Mem) :
    ∃ w, Best D (linearKinds F) false 0 b mem ds w := by
  let V := Fin (F * (D + 1)) → ℝ
  let T : V →ₗ[ℝ] V →ₗ[ℝ] ℝ := LinearMap.mk₂ ℝ (fun w v => ridgeForm D F ds b (extend w) (extend v))
    (fun w w' v => by
      rw [ridgeForm_comm, extend_add, ridgeForm_add, one_mul, ridgeForm_comm, ridgeForm_comm D F ds b (extend v) (extend w')])
    (fun c w v => by
      rw [ridgeForm_comm, extend_smul, ridgeForm_add, ridgeForm_zero, zero_add, ridgeForm_comm, smul_eq_mul])
    (fun w v v' => by rw [extend_add, ridgeForm_add, one_mul])
    (fun c w v => by rw [extend_smul, ridgeForm_add, ridgeForm_zero, zero_add, smul_eq_mul])
  let ℓ : V →ₗ[ℝ] ℝ :=
    { toFun := fun v => targetForm D F ds (extend v)
      map_add' := fun v v' => by rw [extend_add, targetForm_add, one_mul]
      map_smul' := fun c v => by
        rw [extend_smul, targetForm_add, targetForm_zero, zero_add]
        rfl }
  have hinj : Function.Injective T := by
    rw [injective_iff_map_eq_zero]
    intro v hv
    have h0 : ridgeForm D F ds b (extend v) (extend v) = 0 := by
      have := LinearMap.congr_fun hv v
      exact this
    rw [ridgeForm_self] at h0
    funext p
    have := ridgeCurve_zero hN hb h0 p.1 p.2
    rw [extend, dif_pos p.2] at this
    exact this
  have hsurj : Function.Surjective T := by
    refine (LinearMap.injective_iff_surjective_of_finrank_eq_finrank ?_).1 hinj
    exact (Subspace.dual_finrank_eq (K := ℝ) (V := V)).symm
  obtain ⟨w, hw⟩ := hsurj ℓ
  have hzero : ∀ v, ridgeSlope D F ds b (extend w) v = 0 := by
    intro v
    have hv : ∀ p < F * (D + 1), v p = extend (fun q : Fin (F * (D + 1)) => v q) p := by
      intro p hp
      rw [extend, dif_pos hp]
    rw [ridgeSlope_eq, ridgeForm_congr hv, targetForm_congr hv, sub_eq_zero]
    exact LinearMap.congr_fun hw _
  refine ⟨extend w, fun u => ?_⟩
  rw [ridge_error D F hb.le mem ds hN, ridge_error D F hb.le mem ds hN]
  have e := ridge_expand D F ds b (extend w) (change u (extend w)) 1
  rw [add_change, hzero] at e
  have := ridgeCurve_nonneg D F ds hb.le (change u (extend w))
  linarith

/-! ### Training -/

/-- The gradient of the network for the whole training set. -/
def ridgeGradient (D F : ℕ) (b : ℝ) (mem : Mem) (ds : TrainSet) (w : Vec) : Vec := fun p =>
  ((penalNet D (linearKinds F) false 0 b).errorGradientAll (stateOf D (linearKinds F) false 0 b mem w)
    ⟨fun _ _ => 0, fun _ _ _ => 0⟩ ds).2.getD p 0

theorem ridge_rowWise (F : ℕ) (b : ℝ) : ∀ k ∈ (linearKinds F).map (Kind.withPenalty 0 b), k.RowWise := by
  intro k hk
  cases List.mem_singleton.1 hk
  trivial

theorem ridge_P (D F : ℕ) (b : ℝ) : (penalNet D (linearKinds F) false 0 b).P = F * (D + 1) := by
  rw [Net.P, penalNet_parameters]
  exact linear_P D F false

theorem ridge_fullGradient (D F : ℕ) (b : ℝ) (mem : Mem) (sc : ℕ → Scratch) (ds : TrainSet) (hN : 0 < ds.samples) :
    (netProblem (penalNet D (linearKinds F) false 0 b) mem sc ds).FullGradient (ridgeGradient D F b mem ds) := by
  intro k w bt hb
  funext p
  show (Net.errorGradient _ _ _ _ _).2.getD p 0 = (Net.errorGradient _ _ _ _ _).2.getD p 0
  rw [penalNet, batch_order (D := D) (ce := false) (ridge_rowWise F b) _ ds (sc k) ⟨fun _ _ => 0, fun _ _ _ => 0⟩ hb
    (ne_nil_of_perm hN hb)]
  rfl

/-- The gradient belongs to a penalty that is divided by the number of examples. -/
theorem ridge_gradientAt (D F : ℕ) {b : ℝ} (hb : 0 ≤ b) (mem : Mem) (ds : TrainSet) (hN : 0 < ds.samples) (w : Vec) :
    GradientAt (F * (D + 1)) (ridge D F ds (b / ds.samples)) w (ridgeGradient D F b mem ds w) := by
  intro v
  have hd := directional (D := D) (ks := (linearKinds F).map (Kind.withPenalty 0 b)) (ce := false) ⟨trivial, trivial⟩
    (unconstrained_withPenalty (linear_unconstrained F) 0 b) mem ⟨fun _ _ => 0, fun _ _ _ => 0⟩ ds
    (idx := List.range ds.samples) (ne_nil_of_perm hN (.refl _)) (by intro h; cases h) w v
    (linear_smooth _ _ _ _ _ _)
  have e : ∀ u, trainObjective (penalNet D (linearKinds F) false 0 b) (stateOf D (linearKinds F) false 0 b mem u) ds
      (List.range ds.samples) = ridge D F ds (b / ds.samples) u := by
    intro u
    rw [trainObjective, ridge, List.length_range]
    have e1 : dataError (penalNet D (linearKinds F) false 0 b) (stateOf D (linearKinds F) false 0 b mem u) ds
        (List.range ds.samples) = leastSquares D F ds u := linear_dataError D F mem ds u
    have e2 : penalty (penalNet D (linearKinds F) false 0 b) (stateOf D (linearKinds F) false 0 b mem u) =
        b / 2 * weightNorm D F u := by
      show 0 + regFrom _ 1 (layersFrom D ((linearKinds F).map (Kind.withPenalty 0 b))) = _
      have e3 := penalty_zero (D := D) (ks := (linearKinds F).map (Kind.withPenalty 0 0)) (ce := false)
        (linear_unregularised F) (stateOf D (linearKinds F) false 0 b mem u)
      have e4 : regFrom (stateOf D (linearKinds F) false 0 b mem u) 1 (layersFrom D ((linearKinds F).map (Kind.withPenalty 0 0))) =
          0 := by
        have e5 : (0 : ℝ) + regFrom (stateOf D (linearKinds F) false 0 b mem u) 1
          (layersFrom D ((linearKinds F).map (Kind.withPenalty 0 0))) = 0 := e3
        rwa [zero_add] at e5
      rw [regFrom_split le_rfl hb, e4, zero_mul]
      show 0 + (0 + (0 + b / 2 * sumSquares _ (weightsOf D (linearKinds F)))) = _
      rw [ridge_weights]
      ring
    rw [e1, e2]
    ring
  have e' : (fun t => ridge D F ds (b / ds.samples) fun p => w p + t * v p) = fun t =>
      trainObjective (penalNet D (linearKinds F) false 0 b) (stateOf D (linearKinds F) false 0 b mem fun p => w p + t * v p) ds
      (List.range ds.samples) := funext fun t => (e _).symm
  rw [e', ← ridge_P D F b]
  exact hd

theorem ridge_curvature (D F : ℕ) {b : ℝ} (hb : 0 ≤ b) (mem : Mem) (ds : TrainSet) (hN : 0 < ds.samples) :
    ConvexWith (F * (D + 1)) (ridge D F ds (b / ds.samples)) (ridgeGradient D F b mem ds) ∧
    CurvatureAtMost (F * (D + 1)) (meanSquare D ds + b / ds.samples) (ridge D F ds (b / ds.samples))
      (ridgeGradient D F b mem ds) := by
  have hb' : 0 ≤ b / ds.samples := div_nonneg hb (Nat.cast_nonneg _)
  have h := curvature_of_slope (P := F * (D + 1)) (J := ridge D F ds (b / ds.samples))
    (slope := ridgeSlope D F ds (b / ds.samples)) (S := ridgeCurve D F ds (b / ds.samples)) (c := 1 / 2)
    (M := meanSquare D ds + b / ds.samples)
    (ridge_gradientAt D F hb mem ds hN) (fun w v t => ?_) (fun w v t => ?_) (by norm_num) (fun v => ?_)
  · have e : 2 * (1 / 2) * (meanSquare D ds + b / ds.samples) = meanSquare D ds + b / ds.samples := by ring
    rwa [e] at h
  · rw [ridge_expand]
    have := mul_nonneg (show 0 ≤ t ^ 2 / 2 by positivity) (ridgeCurve_nonneg D F ds hb' v)
    linarith
  · rw [ridge_expand]
    exact le_of_eq (by ring)
  · rw [ridgeCurve, add_mul]
    exact add_le_add (scores_le D F ds v) (mul_le_mul_of_nonneg_left (weightNorm_le D F v) hb')

/-- **C122 (training, partial)**: training a linear network with an L2 penalty `b` on full batches for `m` epochs approaches the
smallest value of the objective of ridge regression with the penalty `b / N` for `N` examples.  Missing: `b` itself, which
is the penalty of `error()`. -/
theorem ridge_training_partial {D F : ℕ} (hF : 0 < F) {b : ℝ} (hb : 0 ≤ b) (mem : Mem) (sc : ℕ → Scratch) (ds : TrainSet)
    (hN : 0 < ds.samples) {o0 : MBSGD} (ho : Suitable o0 ds (meanSquare D ds + b / ds.samples)) {m : ℕ} (hm : 1 ≤ m)
    (hmax : o0.stop.maximalIterations = m) (hstep : o0.stop.minimalSearchSpaceStep = 0) (w : Vec) (calls : ℕ) (log : List Event) :
    ∃ o obj, o0.optimize (fun _ => false) m ⟨netProblem (penalNet D (linearKinds F) false 0 b) mem sc ds, w, calls, log⟩ =
        .ok (some (o, obj)) ∧ ∀ u,
      ridge D F ds (b / ds.samples) (o.result obj).1 ≤ ridge D F ds (b / ds.samples) u +
        distSq (F * (D + 1)) w u / (2 * ∑ t ∈ range m, rate o0.alpha o0.alphaDecay o0.minAlpha t) := by
  obtain ⟨hc, hL⟩ := ridge_curvature D F hb mem ds hN
  rw [← ridge_P D F b] at hc hL
  obtain ⟨o, obj, h, hb⟩ := optimize_converges ho.valid ho.fair ho.fresh ho.plain
    (obj0 := ⟨netProblem (penalNet D (linearKinds F) false 0 b) mem sc ds, w, calls, log⟩)
    ⟨by show 0 < (penalNet D (linearKinds F) false 0 b).P; rw [ridge_P]; positivity, hN⟩ ho.batch ho.alpha ho.floor
    (ridge_fullGradient D F b mem sc ds hN) hL hc ho.small hm hmax hstep
  refine ⟨o, obj, h, fun u => ?_⟩
  rw [← ridge_P D F b]
  exact hb u

/-- Two examples on the line `y = x`. -/
def diagonal : TrainSet := ⟨2, fun n _ => if n = 0 then 1 else -1, fun n _ => if n = 0 then 1 else -1⟩

theorem diagonal_meanSquare : meanSquare 1 diagonal = 2 := by
  simp [meanSquare, diagonal]

theorem diagonal_ridge (b : ℝ) (u : Vec) : ridge 1 1 diagonal b u = ((u 0 - 1) ^ 2 + u 1 ^ 2) / 2 + b / 2 * u 0 ^ 2 := by
  simp [ridge, leastSquares, weightNorm, score, diagonal, sum_range_succ]
  ring

/-- **C122 (training fails)**: for two examples, the penalty 2 and every suitable optimiser, training approaches a network whose
`error()` is larger than the smallest possible by at least 1/50, from every start and however long training lasts; the reason
is that gradients contain penalties divided by the number of examples. -/
theorem ridge_training_fails (mem : Mem) (sc : ℕ → Scratch) {o0 : MBSGD} (ho : Suitable o0 diagonal 3)
    (hr : 0 < o0.minAlpha ∨ o0.alphaDecay = 1) (w : Vec) (calls : ℕ) (log : List Event) :
    ∃ m0, 1 ≤ m0 ∧ ∀ m : ℕ, m0 ≤ m → ∃ o obj, (o0.setStopCriteria ⟨m, 0⟩).optimize (fun _ => false) m
        ⟨netProblem (penalNet 1 (linearKinds 1) false 0 2) mem sc diagonal, w, calls, log⟩ = .ok (some (o, obj)) ∧
      penalError 1 (linearKinds 1) false 0 2 mem diagonal (fun p => if p = 0 then 1 / 3 else 0) + 1 / 50 ≤
        penalError 1 (linearKinds 1) false 0 2 mem diagonal (o.result obj).1 := by
  obtain ⟨m0, h1, hb⟩ := bound_vanishes ho.valid ho.alpha ho.floor hr
    (d := distSq (1 * (1 + 1)) w fun p => if p = 0 then 1 / 2 else 0) (e := 1 / 400) (by norm_num)
  refine ⟨m0, h1, fun m hm => ?_⟩
  have hL : meanSquare 1 diagonal + 2 / (diagonal.samples : ℝ) = 3 := by
    rw [diagonal_meanSquare]
    show (2 : ℝ) + 2 / ((2 : ℕ) : ℝ) = 3
    norm_num
  have ho' : Suitable (o0.setStopCriteria ⟨m, 0⟩) diagonal (meanSquare 1 diagonal + 2 / (diagonal.samples : ℝ)) := by
    rw [hL]
    exact ⟨⟨ho.valid.1, ho.valid.2, ho.valid.3, ho.valid.4, ho.valid.5⟩, ho.fair, ho.fresh,
      ⟨ho.plain.1, ho.plain.2, ho.plain.3, ho.plain.4, ho.plain.5⟩, ho.batch, ho.alpha, ho.floor, ho.small⟩
  obtain ⟨o, obj, h, hbound⟩ := ridge_training_partial one_pos (by norm_num) mem sc diagonal (show 0 < 2 by norm_num) ho'
    (h1.trans hm) rfl rfl w calls log
  refine ⟨o, obj, h, ?_⟩
  have h2 := hbound fun p => if p = 0 then 1 / 2 else 0
  have h3 : distSq (1 * (1 + 1)) w (fun p => if p = 0 then 1 / 2 else 0) / (2 * ∑ t ∈ range m, rate
      (o0.setStopCriteria ⟨m, 0⟩).alpha (o0.setStopCriteria ⟨m, 0⟩).alphaDecay (o0.setStopCriteria ⟨m, 0⟩).minAlpha t) ≤ 1 / 400 :=
    hb m hm
  rw [ridge_error 1 1 (by norm_num) mem diagonal (show 0 < 2 by norm_num),
    ridge_error 1 1 (by norm_num) mem diagonal (show 0 < 2 by norm_num), diagonal_ridge, diagonal_ridge]
  rw [diagonal_ridge, diagonal_ridge, show (2 : ℝ) / (diagonal.samples : ℝ) = 1 by
    show (2 : ℝ) / ((2 : ℕ) : ℝ) = 1
    norm_num] at h2
  generalize (o.result obj).1 = u at h2 ⊢
  norm_num at h2 ⊢
  have h4 : (u 0 - 1 / 2) ^ 2 + u 1 ^ 2 / 2 ≤ 1 / 400 := by nlinarith
  have h5 : (1 / 2 - u 0) ^ 2 ≤ (1 / 20) ^ 2 := by nlinarith [sq_nonneg (u 1)]
  have h6 := abs_le_of_sq_le_sq' h5 (by norm_num)
  nlinarith [sq_nonneg (u 1), sq_nonneg (u 0 - 1 / 3), mul_nonneg (show 0 ≤ u 0 - 9 / 20 by linarith [h6.2]) (show 0 ≤ u 0 - 9 / 20 by linarith [h6.2])]

/-! ## Examples -/

/-- The hypotheses of `ridge_training_fails` are met by an optimiser with the learning rate 1/4. -/
example : Suitable { example1 false 1 5 with batchSize := 10, alpha := 1 / 4 } diagonal 3 := by
  refine ⟨⟨?_, ?_, ?_, ?_, ?_⟩, fun _ _ => List.Perm.refl _, ?_, ⟨rfl, rfl, rfl, rfl, ?_⟩, ?_, ?_, ?_, ?_⟩
  · show 1 ≤ 10; norm_num
  · exact one_pos
  · exact le_rfl
  · exact le_rfl
  · exact le_rfl
  · show (-1 : ℤ) < 0; norm_num
  · exact zero_le_one
  · show 2 ≤ 10; norm_num
  · show (0 : ℝ) < 1 / 4; norm_num
  · show (0 : ℝ) ≤ 1 / 4; norm_num
  · show (1 / 4 : ℝ) * 3 ≤ 1; norm_num

/-- The best networks for the examples on the diagonal: the weight is `1 / (1 + b)`. -/
theorem diagonal_best (mem : Mem) {b : ℝ} (hb : 0 ≤ b) :
    Best 1 (linearKinds 1) false 0 b mem diagonal fun p => if p = 0 then 1 / (1 + b) else 0 := by
  intro u
  rw [ridge_error 1 1 hb mem diagonal (show 0 < 2 by norm_num), ridge_error 1 1 hb mem diagonal (show 0 < 2 by norm_num),
    diagonal_ridge, diagonal_ridge, if_pos rfl, if_neg one_ne_zero]
  have hpos : 0 < 1 + b := by linarith
  have e : (1 / (1 + b)) * (1 + b) = 1 := by field_simp
  generalize 1 / (1 + b) = c at e ⊢
  have := mul_nonneg hpos.le (sq_nonneg (u 0 - c))
  nlinarith [sq_nonneg (u 1)]

/-- The hypotheses of `stronger_l2`, `best_weights_small` and `ridge_unique` are met; without and with penalty. -/
example (mem : Mem) : Best 1 (linearKinds 1) false 0 0 mem diagonal (fun p => if p = 0 then 1 / (1 + 0) else 0) ∧
    Best 1 (linearKinds 1) false 0 3 mem diagonal (fun p => if p = 0 then 1 / (1 + 3) else 0) :=
  ⟨diagonal_best mem le_rfl, diagonal_best mem (by norm_num)⟩

/-- With an L1 penalty of at least 1 the best weight is exactly 0. -/
theorem diagonal_sparse (mem : Mem) {a : ℝ} (ha : 1 ≤ a) : Best 1 (linearKinds 1) false a 0 mem diagonal fun _ => 0 := by
  intro u
  have hs : ∀ u : Vec, sumAbs (stateOf 1 (linearKinds 1) false 0 0 mem u) (weightsOf 1 (linearKinds 1)) = |u 0| := by
    intro u
    have hlt : 0 < (buildNet 1 (linearKinds 1) false).parameters.length := by decide
    have := stateOf_getElem (linear_unconstrained 1) 0 0 mem u hlt
    have e : sumAbs (stateOf 1 (linearKinds 1) false 0 0 mem u) (weightsOf 1 (linearKinds 1)) =
        |stateOf 1 (linearKinds 1) false 0 0 mem u 1 (.w [0, 0])| + 0 := rfl
    rw [e, add_zero]
    exact congrArg abs this
  have h0 : ∀ u : Vec, penalError 1 (linearKinds 1) false 0 0 mem diagonal u = ((u 0 - 1) ^ 2 + u 1 ^ 2) / 2 := by
    intro u
    rw [ridge_error 1 1 le_rfl mem diagonal (show 0 < 2 by norm_num), diagonal_ridge]
    ring
  have hp := penalised_error 1 (linearKinds 1) false (a := a) (by linarith) le_rfl mem diagonal (show 0 < 2 by norm_num)
  rw [hp fun _ => 0, hp u, hs, hs, h0, h0, abs_zero]
  have h1 := le_abs_self (u 0)
  have h2 := abs_nonneg (u 0)
  have h3 := mul_le_mul_of_nonneg_right ha h2
  nlinarith [sq_nonneg (u 0), sq_nonneg (u 1)]

/-- The hypotheses of `l1_zero` are met by this network and its weight. -/
example : (buildNet 1 (linearKinds 1) false).parameters[0]? = some (1, .w [0, 0]) ∧
    (1, Slot.w [0, 0]) ∈ weightsOf 1 (linearKinds 1) ∧ (1, Slot.b [0]) ∉ weightsOf 1 (linearKinds 1) := by
  refine ⟨rfl, ?_, ?_⟩
  · show _ ∈ [(1, Slot.w [0, 0])]
    simp
  · show _ ∉ [(1, Slot.w [0, 0])]
    simp

end

end Verif.NN
