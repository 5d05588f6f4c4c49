import Mathlib.LinearAlgebra.FiniteDimensional.Lemmas
import Mathlib.LinearAlgebra.Matrix.ToLin
import Mathlib.LinearAlgebra.Matrix.NonsingularInverse
import Verif.Model.Whitening
import Verif.Props.Frozen
import Verif.Props.Penalties
import Verif.Props.Preprocessing

/-!
# C129: weights absorb affine maps

A fully connected layer computes an affine map before its activation function, and affine maps can be composed.  Whatever a network can
compute behind `Normalization`, `PCA` or `ZCAWhitening`, it can compute without; if the transformation is invertible (`Normalization`
always is), the same holds the other way round, and the errors that can be reached are the same.  In the same way a linear hidden layer
adds nothing; it takes nothing away if it is at least as wide as its input or the layer behind it, and a first layer that is narrower than the
input always confuses some inputs.
-/

namespace Verif.NN

open Finset

noncomputable section

/-- Spec: there is a parameter vector, after setting which the network computes `f`, whatever its weights were before. -/
def Represents (D : ℕ) (ks : List Kind) (ce : Bool) (f : (ℕ → ℝ) → ℕ → ℝ) : Prop :=
  ∃ θ : List ℝ, θ.length = (buildNet D ks ce).P ∧ ∀ s, ∃ s', (buildNet D ks ce).set s θ = .ok s' ∧
    ∀ x, ∀ j < (buildNet D ks ce).outputs, (buildNet D ks ce).predict s'.mem x j = f x j

/-- Spec: `T` is affine, from `D` to `I` numbers. -/
def IsAffine (D I : ℕ) (T : (ℕ → ℝ) → ℕ → ℝ) (A : Batch) (c : ℕ → ℝ) : Prop :=
  ∀ x, ∀ i < I, T x i = ∑ d ∈ range D, A i d * x d + c i

/-- Spec: a fully connected layer without a bound on the norm of the weights, and layers behind it for which the outputs depend on parameters
only (all but an RBM without backpropagation) and that fit together. -/
structure Usual (J : ℕ) (reg : Reg) (ks : List Kind) : Prop where
  unbounded : reg.maxNorm ≤ 0
  rest : Unconstrained ks
  fits : FitsFrom J ks
  visible : ∀ k ∈ ks, k.Visible

section

variable {D I J H : ℕ} {bias : Bool} {act : Act} {reg : Reg} {ks : List Kind} {ce : Bool} {f : (ℕ → ℝ) → ℕ → ℝ}

theorem Usual.unconstrained (u : Usual J reg ks) : Unconstrained (.fullyConnected J bias act reg :: ks) := by
  intro k hk J' b' a' r' e
  rcases List.mem_cons.1 hk with rfl | hk
  · cases e; exact u.unbounded
  · exact u.rest k hk J' b' a' r' e

theorem Usual.fitsFrom (u : Usual J reg ks) (D : ℕ) : FitsFrom D (.fullyConnected J bias act reg :: ks) := ⟨trivial, u.fits⟩

theorem Usual.isVisible (u : Usual J reg ks) : ∀ k ∈ (Kind.fullyConnected J bias act reg :: ks), k.Visible := by
  intro k hk
  rcases List.mem_cons.1 hk with rfl | hk
  · trivial
  · exact u.visible k hk

/-- Every content of the weights can be set. -/
theorem represents_of_mem {D : ℕ} {ks : List Kind} {ce : Bool} (hu : Unconstrained ks) (hf : FitsFrom D ks) (hv : ∀ k ∈ ks, k.Visible)
    {mem : Mem} (h : ∀ x, ∀ j < (buildNet D ks ce).outputs, (buildNet D ks ce).predict mem x j = f x j) : Represents D ks ce f := by
  obtain ⟨θ, h1, h2⟩ := Expressive.realize ce hu hf hv mem
  refine ⟨θ, h1, fun s => ?_⟩
  obtain ⟨s', h3, _, h4⟩ := h2 s
  exact ⟨s', h3, fun x j hj => (h4 x j hj).trans (h x j hj)⟩

theorem Represents.mem {D : ℕ} {ks : List Kind} (h : Represents D ks ce f) :
    ∃ mem, ∀ x, ∀ j < (buildNet D ks ce).outputs, (buildNet D ks ce).predict mem x j = f x j := by
  obtain ⟨θ, _, h2⟩ := h
  obtain ⟨s', _, h3⟩ := h2 ⟨fun _ _ => 0, []⟩
  exact ⟨s'.mem, h3⟩

/-! ## One layer -/

/-- The weights of the layer with the affine map in front of it. -/
def absorbed (I : ℕ) (A : Batch) (c : ℕ → ℝ) (w : Weights) : Weights :=
  Expressive.buffer (fun j d => ∑ i ∈ range I, w.mat j i * A i d) fun j => w (.b [j]) + ∑ i ∈ range I, w.mat j i * c i

theorem dense_absorbed {T : (ℕ → ℝ) → ℕ → ℝ} {A : Batch} {c : ℕ → ℝ} (hT : IsAffine D I T A c) (hb : bias = true ∨ ∀ i < I, c i = 0)
    (w : Weights) (x : Batch) :
    dense D (absorbed I A c w).mat ((absorbed I A c w).vec bias) x = dense I w.mat (w.vec bias) fun n => T (x n) := by
  funext n j
  have hm : ∀ d, (absorbed I A c w).mat j d = ∑ i ∈ range I, w.mat j i * A i d := fun _ => rfl
  have h1 : ∑ i ∈ range I, T (x n) i * w.mat j i =
      ∑ d ∈ range D, x n d * (absorbed I A c w).mat j d + ∑ i ∈ range I, w.mat j i * c i := by
    calc ∑ i ∈ range I, T (x n) i * w.mat j i
        = ∑ i ∈ range I, (∑ d ∈ range D, x n d * (w.mat j i * A i d) + w.mat j i * c i) := by
          refine sum_congr rfl fun i hi => ?_
          rw [hT _ i (mem_range.1 hi), add_mul, sum_mul]
          congr 1
          · exact sum_congr rfl fun d _ => by ring
          · ring
      _ = _ := by
          rw [sum_add_distrib, sum_comm]
          congr 1
          exact sum_congr rfl fun d _ => by rw [hm, mul_sum]
  rw [dense, dense, h1, add_assoc]
  congr 1
  rcases hb with rfl | hb
  · show w (.b [j]) + _ = _ + w (.b [j])
    ring
  · have h0 : ∑ i ∈ range I, w.mat j i * c i = 0 := sum_eq_zero fun i hi => by rw [hb i (mem_range.1 hi), mul_zero]
    rw [h0, zero_add]
    cases bias
    · rfl
    · show w (.b [j]) + _ = w (.b [j])
      rw [h0, add_zero]

/-- The layers behind the first one. -/
def tail (J : ℕ) (ks : List Kind) (ce : Bool) (m : ℕ) (mem : Mem) (y : Batch) : ℕ → ℝ :=
  if ce then softmax 1 (outFrom J (layersFrom J ks)) (forwardFrom mem 1 m (layersFrom J ks) y) 0
  else forwardFrom mem 1 m (layersFrom J ks) y 0

theorem outputs_cons (D : ℕ) : (buildNet D (.fullyConnected J bias act reg :: ks) ce).outputs = outFrom J (layersFrom J ks) := by
  rw [outputs_buildNet]
  rfl

theorem predict_cons (mem : Mem) (x : ℕ → ℝ) : (buildNet D (.fullyConnected J bias act reg :: ks) ce).predict mem x =
    tail J ks ce 2 mem (act.map (dense D (mem 1).mat ((mem 1).vec bias) fun _ => x)) := by
  rw [Net.predict, Net.output, outputs_cons, tail]
  cases ce <;> rfl

theorem tail_update (J : ℕ) (ks : List Kind) (ce : Bool) (mem : Mem) (w : Weights) (y : Batch) :
    tail J ks ce 2 (Function.update mem 1 w) y = tail J ks ce 2 mem y := by
  have h : forwardFrom (Function.update mem 1 w) 1 2 (layersFrom J ks) y = forwardFrom mem 1 2 (layersFrom J ks) y :=
    Expressive.forwardFrom_agree 1 _ _ _ _ _ fun i hi => Function.update_of_ne (by omega) _ _
  rw [tail, tail, h]

/-! ## Transformations in front of the network -/

/-- **C129.**  A network on raw data computes whatever it can compute on data that was transformed by an affine map. -/
theorem absorbs {T : (ℕ → ℝ) → ℕ → ℝ} {A : Batch} {c : ℕ → ℝ} (hT : IsAffine D I T A c) (hb : bias = true ∨ ∀ i < I, c i = 0)
    (u : Usual J reg ks) (h : Represents I (.fullyConnected J bias act reg :: ks) ce f) :
    Represents D (.fullyConnected J bias act reg :: ks) ce fun x => f (T x) := by
  obtain ⟨mem, hm⟩ := h.mem
  refine represents_of_mem u.unconstrained (u.fitsFrom D) u.isVisible (mem := Function.update mem 1 (absorbed I A c (mem 1))) ?_
  intro x j hj
  rw [outputs_cons] at hj
  rw [← hm (T x) j (by rw [outputs_cons]; exact hj), predict_cons, predict_cons, tail_update, Function.update_self,
    dense_absorbed hT hb]

/-- **C129.**  If the transformation can be undone, both can compute the same. -/
theorem absorbs_iff {T T' : (ℕ → ℝ) → ℕ → ℝ} {A A' : Batch} {c c' : ℕ → ℝ} (hT : IsAffine D D T A c) (hT' : IsAffine D D T' A' c')
    (hinv : ∀ x, ∀ i < D, T (T' x) i = x i) (hf : ∀ x y, (∀ i < D, x i = y i) → f x = f y)
    (hb : bias = true ∨ (∀ i < D, c i = 0) ∧ ∀ i < D, c' i = 0) (u : Usual J reg ks) :
    (Represents D (.fullyConnected J bias act reg :: ks) ce fun x => f (T x)) ↔ Represents D (.fullyConnected J bias act reg :: ks) ce f := by
  refine ⟨fun h => ?_, absorbs hT (hb.imp id And.left) u⟩
  have := absorbs (T := T') hT' (hb.imp id And.right) u h
  have e : (fun x => f (T (T' x))) = f := funext fun x => hf _ _ (hinv x)
  rwa [e] at this

/-- Spec: the values that `error()` can take on a training set. -/
def Reachable (D : ℕ) (ks : List Kind) (ce : Bool) (ds : TrainSet) : Set ℝ :=
  {e | ∃ θ : List ℝ, θ.length = (buildNet D ks ce).P ∧ ∀ s, ∃ s', (buildNet D ks ce).set s θ = .ok s' ∧
    (buildNet D ks ce).error s'.mem ds = e}

/-- Spec: a training set whose instances are transformed. -/
def transformed (T : (ℕ → ℝ) → ℕ → ℝ) (ds : TrainSet) : TrainSet := ⟨ds.samples, fun n => T (ds.inst n), ds.tgt⟩

/-- The error of a function -/
def lossOf (net : Net) (f : (ℕ → ℝ) → ℕ → ℝ) (ds : TrainSet) : ℝ :=
  (∑ n ∈ range ds.samples, net.loss 1 (fun _ => f (ds.inst n)) fun _ => ds.tgt n) / ds.samples

theorem error_lossOf {D : ℕ} {ks : List Kind} (hr : ∀ k ∈ ks, k.Unregularised) {mem : Mem}
    (h : ∀ x, ∀ j < (buildNet D ks ce).outputs, (buildNet D ks ce).predict mem x j = f x j) (ds : TrainSet) :
    (buildNet D ks ce).error mem ds = lossOf (buildNet D ks ce) f ds := by
  rw [error_sum, lossOf]
  congr 1
  refine sum_congr rfl fun n _ => ?_
  have h0 : regFrom mem 0 (buildNet D ks ce).layers = 0 := penalty_zero hr mem
  rw [Net.errorAt, h0, add_zero]
  refine loss_congr (fun m hm j hj => ?_) fun _ _ _ _ => rfl
  obtain rfl : m = 0 := by omega
  exact h (ds.inst n) j hj

/-- `f` looks at the first `D` numbers only. -/
def Looks (D : ℕ) (f : (ℕ → ℝ) → ℕ → ℝ) : Prop := ∀ x y, (∀ i < D, x i = y i) → f x = f y

theorem reachable_iff {D : ℕ} {ks : List Kind} (hu : Unconstrained ks) (hf : FitsFrom D ks) (hv : ∀ k ∈ ks, k.Visible)
    (hr : ∀ k ∈ ks, k.Unregularised) {ds : TrainSet} {e : ℝ} :
    e ∈ Reachable D ks ce ds ↔ ∃ f, Represents D ks ce f ∧ Looks D f ∧ lossOf (buildNet D ks ce) f ds = e := by
  constructor
  · rintro ⟨θ, _, h⟩
    obtain ⟨s', _, he⟩ := h ⟨fun _ _ => 0, []⟩
    have hg : ∀ x, ∀ j < (buildNet D ks ce).outputs, (buildNet D ks ce).predict s'.mem x j =
        (fun x j => if j < (buildNet D ks ce).outputs then (buildNet D ks ce).predict s'.mem x j else 0) x j := by
      intro x j hj
      simp only [if_pos hj]
    refine ⟨_, represents_of_mem hu hf hv hg, fun x y hxy => ?_, (error_lossOf hr hg ds).symm.trans he⟩
    funext j
    by_cases hj : j < (buildNet D ks ce).outputs
    · simp only [if_pos hj]
      exact predictAll_congr ce hf hv (fun _ _ _ => rfl) 1 (X := fun _ => x) (X' := fun _ => y) (n := 0) hxy hj
    · simp only [if_neg hj]
  · rintro ⟨f, ⟨θ, h1, h2⟩, _, he⟩
    refine ⟨θ, h1, fun s => ?_⟩
    obtain ⟨s', h3, h4⟩ := h2 s
    exact ⟨s', h3, (error_lossOf hr h4 ds).trans he⟩

theorem IsAffine.looks {T : (ℕ → ℝ) → ℕ → ℝ} {A : Batch} {c : ℕ → ℝ} (hT : IsAffine D I T A c) (hf : Looks I f) : Looks D fun x => f (T x) := by
  intro x y h
  refine hf _ _ fun i hi => ?_
  rw [hT x i hi, hT y i hi]
  congr 1
  exact sum_congr rfl fun d hd => by rw [h d (mem_range.1 hd)]

theorem lossOf_outputs {D' : ℕ} (f : (ℕ → ℝ) → ℕ → ℝ) (ds : TrainSet) :
    lossOf (buildNet D (.fullyConnected J bias act reg :: ks) ce) f ds = lossOf (buildNet D' (.fullyConnected J bias act reg :: ks) ce) f ds := by
  have h : ∀ Y T, (buildNet D (.fullyConnected J bias act reg :: ks) ce).loss 1 Y T =
      (buildNet D' (.fullyConnected J bias act reg :: ks) ce).loss 1 Y T := by
    intro Y T
    rw [Net.loss, Net.loss, outputs_cons, outputs_cons]
    rfl
  simp only [lossOf, h]

/-- **C129.**  Every error on transformed data can be reached on raw data. -/
theorem reaches {T : (ℕ → ℝ) → ℕ → ℝ} {A : Batch} {c : ℕ → ℝ} (hT : IsAffine D I T A c) (hb : bias = true ∨ ∀ i < I, c i = 0)
    (u : Usual J reg ks) (hr : ∀ k ∈ (Kind.fullyConnected J bias act reg :: ks), k.Unregularised) (ds : TrainSet) :
    Reachable I (.fullyConnected J bias act reg :: ks) ce (transformed T ds) ⊆ Reachable D (.fullyConnected J bias act reg :: ks) ce ds := by
  intro e he
  obtain ⟨f, h1, h2, h3⟩ := (reachable_iff u.unconstrained (u.fitsFrom I) u.isVisible hr).1 he
  refine (reachable_iff u.unconstrained (u.fitsFrom D) u.isVisible hr).2 ⟨_, absorbs hT hb u h1, hT.looks h2, ?_⟩
  rw [← h3, lossOf_outputs (D' := I)]
  rfl

/-- **C129.**  If the transformation can be undone the errors that can be reached are the same. -/
theorem reaches_same {T T' : (ℕ → ℝ) → ℕ → ℝ} {A A' : Batch} {c c' : ℕ → ℝ} (hT : IsAffine D I T A c) (hT' : IsAffine I D T' A' c')
    (hinv : ∀ x, ∀ i < D, T' (T x) i = x i)
    (hb : bias = true ∨ (∀ i < I, c i = 0) ∧ ∀ i < D, c' i = 0) (u : Usual J reg ks)
    (hr : ∀ k ∈ (Kind.fullyConnected J bias act reg :: ks), k.Unregularised) (ds : TrainSet) :
    Reachable I (.fullyConnected J bias act reg :: ks) ce (transformed T ds) = Reachable D (.fullyConnected J bias act reg :: ks) ce ds := by
  refine Set.Subset.antisymm (reaches hT (hb.imp id And.left) u hr ds) fun e he => ?_
  obtain ⟨f, h1, h2, h3⟩ := (reachable_iff u.unconstrained (u.fitsFrom D) u.isVisible hr).1 he
  refine (reachable_iff u.unconstrained (u.fitsFrom I) u.isVisible hr).2
    ⟨_, absorbs hT' (hb.imp id And.right) u h1, hT'.looks h2, ?_⟩
  rw [← h3, lossOf_outputs (D' := D)]
  have : ∀ n, f (T' (T (ds.inst n))) = f (ds.inst n) := fun n => h2 _ _ (hinv _)
  simp only [lossOf, transformed, this]

/-! ## Normalization -/

/-- Spec: one instance, normalised. -/
def normalised (N : Pre.Normalization) (x : ℕ → ℝ) : ℕ → ℝ := fun i => (x i - N.mean i) * (N.std i)⁻¹

theorem transform_normalised {N : Pre.Normalization} {X Y : Mat} (h : N.transform X = .ok Y) (n : ℕ) : Y.val n = normalised N (X.val n) := by
  unfold Pre.Normalization.transform at h
  simp only [Outcome.bind_eq_ok] at h
  obtain ⟨_, _, _, _, h⟩ := h
  cases h
  rfl

theorem fit_std {N N' : Pre.Normalization} {X : Mat} (h : N.fit X = .ok N') (d : ℕ) : N'.std d ≠ 0 := by
  unfold Pre.Normalization.fit at h
  simp only [Outcome.bind_eq_ok] at h
  obtain ⟨_, _, h⟩ := h
  cases h
  show Pre.avoidZero _ ≠ 0
  unfold Pre.avoidZero
  split
  · exact one_ne_zero
  · assumption

theorem normalised_affine (D : ℕ) (N : Pre.Normalization) :
    IsAffine D D (normalised N) (fun i d => if d = i then (N.std i)⁻¹ else 0) fun i => -N.mean i * (N.std i)⁻¹ := by
  intro x i hi
  simp only [ite_mul, zero_mul, sum_ite_eq', mem_range, if_pos hi, normalised]
  ring

theorem denormalised_affine (D : ℕ) (N : Pre.Normalization) :
    IsAffine D D (fun x i => x i * N.std i + N.mean i) (fun i d => if d = i then N.std i else 0) fun i => N.mean i := by
  intro x i hi
  simp only [ite_mul, zero_mul, sum_ite_eq', mem_range, if_pos hi]
  ring

/-- **C129.**  Normalisation loses nothing and wins nothing: what a network with bias can compute on normalised instances it can compute on
raw ones and vice versa (`fit` of a matrix without rows divides by zero). -/
theorem normalization_same {N N' : Pre.Normalization} {X : Mat} (_hX : 0 < X.rows) (hN : N.fit X = .ok N') (hf : Looks D f) (u : Usual J reg ks) :
    (Represents D (.fullyConnected J true act reg :: ks) ce fun x => f (normalised N' x)) ↔
      Represents D (.fullyConnected J true act reg :: ks) ce f := by
  refine absorbs_iff (normalised_affine D N') (denormalised_affine D N') (fun x i _ => ?_) hf (Or.inl rfl) u
  have := fit_std hN i
  simp only [normalised]
  field_simp
  ring

/-- **C129.**  The errors that can be reached are the same, for every training set. -/
theorem normalization_errors {N N' : Pre.Normalization} {X : Mat} (_hX : 0 < X.rows) (hN : N.fit X = .ok N') (u : Usual J reg ks)
    (hr : ∀ k ∈ (Kind.fullyConnected J true act reg :: ks), k.Unregularised) (ds : TrainSet) :
    Reachable D (.fullyConnected J true act reg :: ks) ce (transformed (normalised N') ds) =
      Reachable D (.fullyConnected J true act reg :: ks) ce ds := by
  refine reaches_same (normalised_affine D N') (denormalised_affine D N') (fun x i _ => ?_) (Or.inl rfl) u hr ds
  have := fit_std hN i
  simp only [normalised]
  field_simp
  ring

/-! ## Whitening -/

/-- Spec: `W (x - m)` for one instance. -/
def projected {C D : ℕ} (W : Matrix (Fin C) (Fin D) ℝ) (m : Fin D → ℝ) (x : ℕ → ℝ) : ℕ → ℝ := fun i =>
  if h : i < C then ∑ d : Fin D, (x d - m d) * W ⟨i, h⟩ d else 0

/-- A row of a matrix as an instance. -/
def rowOf {M D : ℕ} (X : Matrix (Fin M) (Fin D) ℝ) (n : Fin M) : ℕ → ℝ := fun d => if h : d < D then X n ⟨d, h⟩ else 0

theorem pca_projected {C D M : ℕ} {p : White.Fitted D} {X : Matrix (Fin M) (Fin D) ℝ} {Y : Matrix (Fin M) (Fin C) ℝ}
    (h : White.pcaTransform C (some p) X = .ok Y) (hc : C ≤ D) (n : Fin M) (i : Fin C) :
    Y n i = projected (p.W.submatrix (Fin.castLE hc) id) p.mean (rowOf X n) i := by
  unfold White.pcaTransform at h
  simp only [dif_pos hc, dif_pos] at h
  split at h
  · cases h
    simp [projected, Matrix.mul_apply, White.align, rowOf]
  · cases h

theorem zca_projected {D M : ℕ} {p : White.Zca D} {X : Matrix (Fin M) (Fin D) ℝ} {Y : Matrix (Fin M) (Fin D) ℝ}
    (h : White.zcaTransform (some p) X = .ok Y) (n : Fin M) (i : Fin D) : Y n i = projected p.W p.mean (rowOf X n) i := by
  unfold White.zcaTransform at h
  simp only [dif_pos] at h
  split at h
  · cases h
    simp [projected, Matrix.mul_apply, White.align, rowOf]
  · cases h

theorem projected_affine {C D : ℕ} (W : Matrix (Fin C) (Fin D) ℝ) (m : Fin D → ℝ) :
    IsAffine D C (projected W m) (fun i d => if h : i < C ∧ d < D then W ⟨i, h.1⟩ ⟨d, h.2⟩ else 0)
      fun i => if h : i < C then -∑ d : Fin D, m d * W ⟨i, h⟩ d else 0 := by
  intro x i hi
  simp only [projected, dif_pos hi]
  rw [← Fin.sum_univ_eq_sum_range (fun d => (if h : i < C ∧ d < D then W ⟨i, h.1⟩ ⟨d, h.2⟩ else 0) * x d), ← sub_eq_add_neg,
    ← sum_sub_distrib]
  refine sum_congr rfl fun d _ => ?_
  rw [dif_pos ⟨hi, d.2⟩]
  simp only [Fin.eta]
  ring

/-- Undoing it. -/
def unprojected {D : ℕ} (W : Matrix (Fin D) (Fin D) ℝ) (m : Fin D → ℝ) (y : ℕ → ℝ) : ℕ → ℝ := fun d =>
  if h : d < D then ∑ i : Fin D, W⁻¹ ⟨d, h⟩ i * y i + m ⟨d, h⟩ else 0

theorem unprojected_affine {D : ℕ} (W : Matrix (Fin D) (Fin D) ℝ) (m : Fin D → ℝ) :
    IsAffine D D (unprojected W m) (fun d i => if h : d < D ∧ i < D then W⁻¹ ⟨d, h.1⟩ ⟨i, h.2⟩ else 0)
      fun d => if h : d < D then m ⟨d, h⟩ else 0 := by
  intro y d hd
  simp only [unprojected, dif_pos hd]
  rw [← Fin.sum_univ_eq_sum_range (fun i => (if h : d < D ∧ i < D then W⁻¹ ⟨d, h.1⟩ ⟨i, h.2⟩ else 0) * y i)]
  congr 1
  refine sum_congr rfl fun i _ => ?_
  rw [dif_pos ⟨hd, i.2⟩]

theorem projected_as_mulVec {D : ℕ} (W : Matrix (Fin D) (Fin D) ℝ) (m : Fin D → ℝ) (x : ℕ → ℝ) (i : Fin D) :
    projected W m x i = W.mulVec (fun d : Fin D => x d - m d) i := by
  simp only [projected, dif_pos i.2, Fin.eta, Matrix.mulVec, dotProduct]
  exact sum_congr rfl fun d _ => by ring

theorem unprojected_projected {D : ℕ} {W : Matrix (Fin D) (Fin D) ℝ} (hW : IsUnit W.det) (m : Fin D → ℝ) (x : ℕ → ℝ) {d : ℕ} (hd : d < D) :
    unprojected W m (projected W m x) d = x d := by
  simp only [unprojected, dif_pos hd, projected_as_mulVec]
  have : ∑ i : Fin D, W⁻¹ ⟨d, hd⟩ i * W.mulVec (fun d : Fin D => x d - m d) i =
      W⁻¹.mulVec (W.mulVec fun d : Fin D => x d - m d) ⟨d, hd⟩ := rfl
  rw [this, Matrix.mulVec_mulVec, Matrix.nonsing_inv_mul W hW, Matrix.one_mulVec]
  ring

theorem projected_unprojected {D : ℕ} {W : Matrix (Fin D) (Fin D) ℝ} (hW : IsUnit W.det) (m : Fin D → ℝ) (y : ℕ → ℝ) {d : ℕ} (hd : d < D) :
    projected W m (unprojected W m y) d = y d := by
  have h1 : (fun e : Fin D => unprojected W m y e - m e) = W⁻¹.mulVec fun i : Fin D => y i := by
    funext e
    simp only [unprojected, dif_pos e.2, Fin.eta, Matrix.mulVec, dotProduct]
    ring
  rw [projected_as_mulVec W m _ ⟨d, hd⟩, h1, Matrix.mulVec_mulVec, Matrix.mul_nonsing_inv W hW, Matrix.one_mulVec]

/-- **C129.**  Projections and whitening with fewer or as many components win nothing. -/
theorem projection_absorbed {C : ℕ} (W : Matrix (Fin C) (Fin D) ℝ) (m : Fin D → ℝ) (u : Usual J reg ks)
    (h : Represents C (.fullyConnected J true act reg :: ks) ce f) :
    Represents D (.fullyConnected J true act reg :: ks) ce fun x => f (projected W m x) :=
  absorbs (projected_affine W m) (Or.inl rfl) u h

/-- **C129.**  With an invertible matrix nothing is lost either. -/
theorem whitening_same {W : Matrix (Fin D) (Fin D) ℝ} (hW : IsUnit W.det) (m : Fin D → ℝ) (hf : Looks D f) (u : Usual J reg ks) :
    (Represents D (.fullyConnected J true act reg :: ks) ce fun x => f (projected W m x)) ↔
      Represents D (.fullyConnected J true act reg :: ks) ce f :=
  absorbs_iff (projected_affine W m) (unprojected_affine W m) (fun x _ hi => projected_unprojected hW m x hi) hf (Or.inl rfl) u

/-- **C129.**  And the errors that can be reached are the same. -/
theorem whitening_errors {W : Matrix (Fin D) (Fin D) ℝ} (hW : IsUnit W.det) (m : Fin D → ℝ) (u : Usual J reg ks)
    (hr : ∀ k ∈ (Kind.fullyConnected J true act reg :: ks), k.Unregularised) (ds : TrainSet) :
    Reachable D (.fullyConnected J true act reg :: ks) ce (transformed (projected W m) ds) =
      Reachable D (.fullyConnected J true act reg :: ks) ce ds :=
  reaches_same (projected_affine W m) (unprojected_affine W m) (fun x _ hi => unprojected_projected hW m x hi) (Or.inl rfl) u hr ds

/-- **C129.**  `ZCAWhitening` is invertible for every right result of the singular value decomposition. -/
theorem zca_invertible {N D : ℕ} {svd : Matrix (Fin D) (Fin D) ℝ → White.SVD D} {X : Matrix (Fin N) (Fin D) ℝ} (_hN : 2 ≤ N)
    (hV : (svd (White.zcaCov X)).V * (svd (White.zcaCov X)).V.transpose = 1) (hS : ∀ d : Fin D, 0 ≤ (svd (White.zcaCov X)).S d) :
    IsUnit (White.zcaFit svd X).W.det := by
  have hd : (White.zcaFit svd X).W = (svd (White.zcaCov X)).V * Matrix.diagonal (fun d : Fin D =>
      1 / Real.sqrt ((svd (White.zcaCov X)).S d + 1e-5)) * (svd (White.zcaCov X)).V.transpose := by
    simp only [White.zcaFit]
    congr 1
    ext i d
    rw [Matrix.mul_diagonal]
    simp [div_eq_mul_inv]
  have h1 : IsUnit (svd (White.zcaCov X)).V.det := by
    have := congrArg Matrix.det hV
    rw [Matrix.det_mul, Matrix.det_one] at this
    exact IsUnit.of_mul_eq_one _ this
  rw [hd, Matrix.det_mul, Matrix.det_mul, Matrix.det_transpose, Matrix.det_diagonal]
  refine (h1.mul ?_).mul h1
  rw [isUnit_iff_ne_zero]
  refine prod_ne_zero_iff.2 fun d _ => ?_
  have := hS d
  positivity

/-! ## Linear hidden layers -/

theorem tail_cons {r : Reg} (m : ℕ) (mem : Mem) (y : Batch) : tail H (.fullyConnected J bias act r :: ks) ce m mem y =
    tail J ks ce (m + 1) mem (act.map (dense H (mem m).mat ((mem m).vec bias) y)) := by
  rw [tail, tail]
  cases ce <;> rfl

theorem tail_behind (mem : Mem) (y : Batch) : tail J ks ce 3 mem y = tail J ks ce 2 (behind 1 mem) y := by
  rw [tail, tail, forward_behind 1 mem 1 _ 2]

theorem linear_map (a : Batch) : Act.linear.map a = a := rfl

/-- **C129.**  A linear hidden layer adds nothing. -/
theorem linear_hidden_absorbed {b : Bool} {r : Reg} (hb : bias = true ∨ b = false) (u : Usual J reg ks)
    (h : Represents D (.fullyConnected H b .linear r :: .fullyConnected J bias act reg :: ks) ce f) :
    Represents D (.fullyConnected J bias act reg :: ks) ce f := by
  obtain ⟨mem, hm⟩ := h.mem
  have hT : IsAffine D H (fun x i => dense D (mem 1).mat ((mem 1).vec b) (fun _ => x) 0 i) (mem 1).mat ((mem 1).vec b) := by
    intro x i _
    simp only [dense]
    congr 1
    exact sum_congr rfl fun d _ => mul_comm _ _
  refine represents_of_mem u.unconstrained (u.fitsFrom D) u.isVisible
    (mem := Function.update (behind 1 mem) 1 (absorbed H (mem 1).mat ((mem 1).vec b) (mem 2))) ?_
  intro x j hj
  rw [← hm x j (by rw [outputs_cons] at hj ⊢; exact hj), predict_cons, predict_cons, tail_update, Function.update_self,
    dense_absorbed hT (hb.imp id fun e i _ => by subst e; rfl), tail_cons, tail_behind, linear_map]
  rfl

/-- Weights of the network with the hidden layer. -/
def withLayer (w1 w2 : Weights) (mem : Mem) : Mem := fun l => if l = 1 then w1 else if l = 2 then w2 else mem (l - 1)

theorem behind_withLayer (w1 w2 : Weights) (mem : Mem) (y : Batch) :
    tail J ks ce 2 (behind 1 (withLayer w1 w2 mem)) y = tail J ks ce 2 mem y := by
  have h : forwardFrom (behind 1 (withLayer w1 w2 mem)) 1 2 (layersFrom J ks) y = forwardFrom mem 1 2 (layersFrom J ks) y :=
    Expressive.forwardFrom_agree 1 _ _ _ _ _ fun i hi => by
      show withLayer w1 w2 mem (i + 1) = mem i
      rw [withLayer, if_neg (by omega), if_neg (by omega)]
      rfl
  rw [tail, tail, h]

/-- The hidden layer copies the inputs. -/
theorem wide_input {b : Bool} {r : Reg} (hr : r.maxNorm ≤ 0) (hH : D ≤ H) (u : Usual J reg ks)
    (h : Represents D (.fullyConnected J bias act reg :: ks) ce f) :
    Represents D (.fullyConnected H b .linear r :: .fullyConnected J bias act reg :: ks) ce f := by
  obtain ⟨mem, hm⟩ := h.mem
  have u' : Usual H r (.fullyConnected J bias act reg :: ks) := ⟨hr, u.unconstrained, u.fitsFrom H, u.isVisible⟩
  refine represents_of_mem u'.unconstrained (u'.fitsFrom D) u'.isVisible (mem := withLayer
    (Expressive.buffer (fun j i => if i = j then 1 else 0) fun _ => 0)
    (Expressive.buffer (fun j i => if i < D then (mem 1).mat j i else 0) fun j => mem 1 (.b [j])) mem) ?_
  intro x j hj
  rw [← hm x j (by rw [outputs_cons] at hj ⊢; exact hj), predict_cons, predict_cons, tail_cons, tail_behind, linear_map, behind_withLayer]
  congr 2
  funext n j
  rw [dense, dense]
  have h1 : ∀ i < D, dense D (withLayer (Expressive.buffer (fun j i => if i = j then 1 else 0) fun _ => 0)
      (Expressive.buffer (fun j i => if i < D then (mem 1).mat j i else 0) fun j => mem 1 (.b [j])) mem 1).mat
      ((withLayer (Expressive.buffer (fun j i => if i = j then 1 else 0) fun _ => 0)
      (Expressive.buffer (fun j i => if i < D then (mem 1).mat j i else 0) fun j => mem 1 (.b [j])) mem 1).vec b) (fun _ => x) n i = x i := by
    intro i hi
    show ∑ d ∈ range D, x d * (if d = i then (1 : ℝ) else 0) + (if b then (0 : ℝ) else 0) = x i
    simp [hi]
  congr 1
  show ∑ i ∈ range H, _ * (if i < D then (mem 1).mat j i else 0) = _
  rw [← Nat.add_sub_cancel' hH, sum_range_add]
  have h2 : ∑ i ∈ range (H - D), dense D (withLayer (Expressive.buffer (fun j i => if i = j then 1 else 0) fun _ => 0)
      (Expressive.buffer (fun j i => if i < D then (mem 1).mat j i else 0) fun j => mem 1 (.b [j])) mem 1).mat
      ((withLayer (Expressive.buffer (fun j i => if i = j then 1 else 0) fun _ => 0)
      (Expressive.buffer (fun j i => if i < D then (mem 1).mat j i else 0) fun j => mem 1 (.b [j])) mem 1).vec b) (fun _ => x) n (D + i) *
      (if D + i < D then (mem 1).mat j (D + i) else 0) = 0 := sum_eq_zero fun i _ => by rw [if_neg (by omega), mul_zero]
  rw [h2, add_zero]
  exact sum_congr rfl fun i hi => by rw [h1 i (mem_range.1 hi), if_pos (mem_range.1 hi)]

theorem tail_congr (u : Usual J reg ks) {m : ℕ} (mem : Mem) {y y' : Batch} (h : ∀ j < J, y 0 j = y' 0 j) {j : ℕ}
    (hj : j < outFrom J (layersFrom J ks)) : tail J ks ce m mem y j = tail J ks ce m mem y' j := by
  have key : ∀ j < outFrom J (layersFrom J ks), forwardFrom mem 1 m (layersFrom J ks) y 0 j = forwardFrom mem 1 m (layersFrom J ks) y' 0 j :=
    forwardFrom_congr ks J m u.fits u.visible (fun _ _ _ => rfl) y y' h
  rw [tail, tail]
  cases ce with
  | false => exact key j hj
  | true =>
    show softmax 1 _ _ 0 j = softmax 1 _ _ 0 j
    rw [softmax_eq, softmax_eq, key j hj]
    congr 1
    exact sum_congr rfl fun i hi => by rw [key i (mem_range.1 hi)]

/-- The hidden layer computes what the units behind it add up. -/
theorem wide_output {b : Bool} {r : Reg} (hr : r.maxNorm ≤ 0) (hH : J ≤ H) (u : Usual J reg ks)
    (h : Represents D (.fullyConnected J bias act reg :: ks) ce f) :
    Represents D (.fullyConnected H b .linear r :: .fullyConnected J bias act reg :: ks) ce f := by
  obtain ⟨mem, hm⟩ := h.mem
  have u' : Usual H r (.fullyConnected J bias act reg :: ks) := ⟨hr, u.unconstrained, u.fitsFrom H, u.isVisible⟩
  refine represents_of_mem u'.unconstrained (u'.fitsFrom D) u'.isVisible (mem := withLayer
    (Expressive.buffer (fun j i => (mem 1).mat j i) fun _ => 0)
    (Expressive.buffer (fun j i => if i = j then 1 else 0) fun j => mem 1 (.b [j])) mem) ?_
  intro x j hj
  have ho : j < outFrom J (layersFrom J ks) := by rw [outputs_cons] at hj; exact hj
  rw [← hm x j (by rw [outputs_cons]; exact ho), predict_cons, predict_cons, tail_cons, tail_behind, linear_map, behind_withLayer]
  refine tail_congr u mem (fun j hj => ?_) ho
  show act.apply _ = act.apply _
  congr 1
  show ∑ i ∈ range H, (∑ d ∈ range D, x d * (mem 1).mat i d + (if b then (0 : ℝ) else 0)) * (if i = j then 1 else 0) + (mem 1).vec bias j =
    ∑ d ∈ range D, x d * (mem 1).mat j d + (mem 1).vec bias j
  simp [Nat.lt_of_lt_of_le hj hH]

/-- **C129.**  A linear hidden layer that is at least as wide as its input or the layer behind it makes no difference. -/
theorem linear_hidden_same {b : Bool} {r : Reg} (hr : r.maxNorm ≤ 0) (hb : bias = true ∨ b = false) (hH : D ≤ H ∨ J ≤ H) (u : Usual J reg ks) :
    Represents D (.fullyConnected H b .linear r :: .fullyConnected J bias act reg :: ks) ce f ↔
      Represents D (.fullyConnected J bias act reg :: ks) ce f :=
  ⟨linear_hidden_absorbed hb u, fun h => hH.elim (fun h' => wide_input hr h' u h) fun h' => wide_output hr h' u h⟩

/-! ## Narrow layers -/

/-- **C129.**  Whatever its weights and its activation function are: a first layer with fewer units than inputs confuses two inputs. -/
theorem narrow_confuses (hJ : J < D) (u : Usual J reg ks) (mem : Mem) : ∃ x y : ℕ → ℝ, (∃ d < D, x d ≠ y d) ∧
    ∀ j < (buildNet D (.fullyConnected J bias act reg :: ks) ce).outputs,
      (buildNet D (.fullyConnected J bias act reg :: ks) ce).predict mem x j =
        (buildNet D (.fullyConnected J bias act reg :: ks) ce).predict mem y j := by
  have hk := LinearMap.ker_ne_bot_of_finrank_lt
    (f := Matrix.mulVecLin (Matrix.of fun (j : Fin J) (d : Fin D) => (mem 1).mat j d)) (by simpa using hJ)
  obtain ⟨v, hv, hv0⟩ := Submodule.exists_mem_ne_zero_of_ne_bot hk
  rw [LinearMap.mem_ker] at hv
  obtain ⟨d, hd⟩ := Function.ne_iff.1 hv0
  refine ⟨fun i => if h : i < D then v ⟨i, h⟩ else 0, fun _ => 0, ⟨d, d.2, by simpa using hd⟩, fun j hj => ?_⟩
  rw [predict_cons, predict_cons]
  refine tail_congr u mem (fun j hj => ?_) (by rw [outputs_cons] at hj; exact hj)
  show act.apply _ = act.apply _
  congr 1
  simp only [dense, zero_mul, sum_const_zero]
  congr 1
  rw [← Fin.sum_univ_eq_sum_range (fun i => (if h : i < D then v ⟨i, h⟩ else 0) * (mem 1).mat j i)]
  refine Eq.trans ?_ (congrFun hv ⟨j, hj⟩)
  simp only [Matrix.mulVecLin_apply, Matrix.mulVec, dotProduct, Matrix.of_apply]
  exact sum_congr rfl fun i _ => by rw [dif_pos i.2, mul_comm]

/-- **C129.**  An autoencoder with fewer hidden units than inputs cannot copy every input. -/
theorem bottleneck_fails (hJ : J < D) (u : Usual J reg ks) (hD : (buildNet D (.fullyConnected J bias act reg :: ks) ce).outputs = D) :
    ¬ Represents D (.fullyConnected J bias act reg :: ks) ce fun x => x := by
  intro h
  obtain ⟨mem, hm⟩ := h.mem
  obtain ⟨x, y, ⟨d, hd, hne⟩, heq⟩ := narrow_confuses (ce := ce) (bias := bias) (act := act) hJ u mem
  have := heq d (hD.symm ▸ hd)
  rw [hm x d (hD.symm ▸ hd), hm y d (hD.symm ▸ hd)] at this
  exact hne this

/-! ## Examples -/

/-- Layers without penalties and bounds -/
def plain : Reg := ⟨0, 0, 0⟩

theorem plain_usual (J : ℕ) (act : Act) : Usual 3 plain [.fullyConnected J true act plain] where
  unbounded := le_refl _
  rest := by
    intro k hk J' b' a' r' e
    obtain rfl := List.mem_singleton.1 hk
    cases e
    exact le_refl _
  fits := ⟨trivial, trivial⟩
  visible := by
    intro k hk
    obtain rfl := List.mem_singleton.1 hk
    trivial

theorem plain_unregularised (a1 a2 : Act) (J : ℕ) : ∀ k ∈ [Kind.fullyConnected 3 true a1 plain, .fullyConnected J true a2 plain], k.Unregularised := by
  intro k hk
  simp only [List.mem_cons, List.not_mem_nil, or_false] at hk
  rcases hk with rfl | rfl <;> exact ⟨le_refl _, le_refl _⟩

/-- A data set whose second column is constant: the fitted normalisation divides by 1 there, and the theorem applies. -/
example : ∃ N' : Pre.Normalization, Pre.Normalization.new.fit ⟨2, 2, fun n d => if d = 0 then n else 5⟩ = .ok N' ∧
    N'.mean 1 = 5 ∧ N'.mean 0 = 1 / 2 ∧
    ∀ ds, Reachable 2 [.fullyConnected 3 true .tanh plain, .fullyConnected 1 true .linear plain] false (transformed (normalised N') ds) =
      Reachable 2 [.fullyConnected 3 true .tanh plain, .fullyConnected 1 true .linear plain] false ds := by
  obtain ⟨N', h, _, hm⟩ := Pre.fit_eq Pre.Normalization.new ⟨2, 2, fun n d => if d = 0 then n else 5⟩
  refine ⟨N', h, ?_, ?_, normalization_errors (by norm_num) h (plain_usual 1 .linear) (plain_unregularised _ _ _)⟩
  · rw [(hm 1 (by norm_num)).1]
    norm_num [Pre.mean, sum_range_succ]
  · rw [(hm 0 (by norm_num)).1]
    norm_num [Pre.mean, sum_range_succ]

/-- Three hidden units cannot hold four numbers. -/
example : ¬ Represents 4 [.fullyConnected 3 true .tanh plain, .fullyConnected 4 true .linear plain] false fun x => x :=
  bottleneck_fails (by norm_num) (plain_usual 4 .linear) rfl

/-- Three linear hidden units between seven inputs and a network of three tanh units -/
example (f : (ℕ → ℝ) → ℕ → ℝ) :
    Represents 7 [.fullyConnected 3 false .linear plain, .fullyConnected 3 true .tanh plain, .fullyConnected 1 true .linear plain] false f ↔
      Represents 7 [.fullyConnected 3 true .tanh plain, .fullyConnected 1 true .linear plain] false f :=
  linear_hidden_same (le_refl _) (Or.inl rfl) (Or.inr (le_refl _)) (plain_usual 1 .linear)

/-- With an orthogonal matrix and nonnegative singular values whitening can be undone. -/
example (X : Matrix (Fin 3) (Fin 2) ℝ) : IsUnit (White.zcaFit (fun _ => ⟨fun i => i, !![0, 1; 1, 0]⟩) X).W.det :=
  zca_invertible (by norm_num) (by ext i j; fin_cases i <;> fin_cases j <;> simp [Matrix.mul_apply, Matrix.transpose])
    fun d => Nat.cast_nonneg _

end

end

end Verif.NN
