import Verif.Props.Boosting

/-!
# C93: what averaging achieves

The prediction of `Bagging` is the mean of the predictions of its models (C57).  A user combines models because the error of
the mean is smaller than the mean of the errors.
-/

namespace Verif.Ens

open Outcome Verif.Eval

noncomputable section

/-! ## Specification -/

/-- Spec: sum of squared differences of two tables with `N` rows and `F` columns. -/
def squares (N F : ℕ) (A B : ℕ → ℕ → ℝ) : ℝ := ∑ i ∈ Finset.range N, ∑ j ∈ Finset.range F, (A i j - B i j) ^ 2

/-- Spec: mean over the models. -/
def meanOver (models : List (Mat → Mat)) (f : (Mat → Mat) → ℝ) : ℝ := (models.map f).sum / models.length

/-- Spec: number of models that vote for class `c` in row `i`. -/
def votesFor (models : List (Mat → Mat)) (X : Mat) (i c : ℕ) : ℕ := models.countP fun m => label (rowOf (m X) i) = c

/-! ## The error of the mean -/

theorem list_decomposition (l : List ℝ) (hne : l ≠ []) (t : ℝ) :
    (l.sum / l.length - t) ^ 2 = (l.map fun x => (x - t) ^ 2).sum / l.length - (l.map fun x => (x - l.sum / l.length) ^ 2).sum / l.length := by
  have hM : (l.length : ℝ) ≠ 0 := by
    have : l.length ≠ 0 := by simpa using hne
    exact_mod_cast this
  have key : ∀ c : ℝ, (l.map fun x => (x - c) ^ 2).sum = (l.map fun x => x ^ 2).sum - 2 * c * l.sum + l.length * c ^ 2 := fun c => by
    clear hM hne
    induction l with
    | nil => simp
    | cons a l ih =>
      simp only [List.map_cons, List.sum_cons, ih, List.length_cons]
      push_cast
      ring
  rw [key, key]
  field_simp
  ring

theorem sum_list_comm {α : Type*} (l : List α) (s : Finset ℕ) (f : α → ℕ → ℝ) :
    (l.map fun a => ∑ i ∈ s, f a i).sum = ∑ i ∈ s, (l.map fun a => f a i).sum := by
  induction l with
  | nil => simp
  | cons a l ih => simp only [List.map_cons, List.sum_cons, ih, Finset.sum_add_distrib]

theorem meanOver_squares (models : List (Mat → Mat)) (X : Mat) (N F : ℕ) (T : ℕ → ℕ → ℝ) :
    meanOver models (fun m => squares N F (m X).val T) =
      ∑ i ∈ Finset.range N, ∑ j ∈ Finset.range F, (models.map fun m => ((m X).val i j - T i j) ^ 2).sum / (models.length : ℝ) := by
  unfold meanOver squares
  rw [sum_list_comm, Finset.sum_div]
  refine Finset.sum_congr rfl fun i _ => ?_
  rw [sum_list_comm, Finset.sum_div]

/-- **C93 (error)**: the squared error of the ensemble is the mean of the squared errors of its models, less the mean of their
squared distances to the ensemble. -/
theorem bagging_error_partial (F : ℕ) (models : List (Mat → Mat)) (X : Mat) (h : Fitting F X models) (hne : models ≠ [])
    (T : ℕ → ℕ → ℝ) : ∃ Y, bagPredict F models X = ok Y ∧
      squares X.rows F Y.val T = meanOver models (fun m => squares X.rows F (m X).val T) -
        meanOver models fun m => squares X.rows F (m X).val Y.val := by
  obtain ⟨Y, e, -, -, h3⟩ := bagging_mean_partial F models X h
  refine ⟨Y, e, ?_⟩
  rw [meanOver_squares, meanOver_squares, ← Finset.sum_sub_distrib]
  unfold squares
  refine Finset.sum_congr rfl fun i _ => ?_
  rw [← Finset.sum_sub_distrib]
  refine Finset.sum_congr rfl fun j _ => ?_
  have := list_decomposition (models.map fun m => (m X).val i j) (by simpa using hne) (T i j)
  simp only [List.length_map, List.map_map, ← h3 i j] at this
  exact this

theorem squares_nonneg (N F : ℕ) (A B : ℕ → ℕ → ℝ) : 0 ≤ squares N F A B :=
  Finset.sum_nonneg fun _ _ => Finset.sum_nonneg fun _ _ => sq_nonneg _

theorem squares_zero {N F : ℕ} {A B : ℕ → ℕ → ℝ} (h : squares N F A B = 0) : ∀ i < N, ∀ j < F, A i j = B i j := by
  intro i hi j hj
  have h1 := (Finset.sum_eq_zero_iff_of_nonneg fun _ _ => Finset.sum_nonneg fun _ _ => sq_nonneg _).1 h i (Finset.mem_range.2 hi)
  have h2 := (Finset.sum_eq_zero_iff_of_nonneg fun _ _ => sq_nonneg _).1 h1 j (Finset.mem_range.2 hj)
  exact sub_eq_zero.1 (pow_eq_zero_iff (by norm_num) |>.1 h2)

/-- **C93 (mean)**: the squared error of the ensemble is at most the mean of the squared errors of its models, and smaller unless all
of them agree. -/
theorem bagging_better_partial (F : ℕ) (models : List (Mat → Mat)) (X : Mat) (h : Fitting F X models) (hne : models ≠ [])
    (T : ℕ → ℕ → ℝ) : ∃ Y, bagPredict F models X = ok Y ∧
      squares X.rows F Y.val T ≤ meanOver models (fun m => squares X.rows F (m X).val T) ∧
      ((∃ m ∈ models, ∃ m' ∈ models, ∃ i < X.rows, ∃ j < F, (m X).val i j ≠ (m' X).val i j) →
        squares X.rows F Y.val T < meanOver models fun m => squares X.rows F (m X).val T) := by
  obtain ⟨Y, e, hY⟩ := bagging_error_partial F models X h hne T
  have hM : (0 : ℝ) < models.length := by exact_mod_cast List.length_pos_iff.2 hne
  have h0 : 0 ≤ meanOver models fun m => squares X.rows F (m X).val Y.val :=
    div_nonneg (List.sum_nonneg fun x hx => by
      obtain ⟨m, -, rfl⟩ := List.mem_map.1 hx
      exact squares_nonneg ..) hM.le
  refine ⟨Y, e, by linarith, fun ⟨m, hm, m', hm', i, hi, j, hj, hdiff⟩ => ?_⟩
  rcases h0.lt_or_eq with h1 | h1
  · linarith
  · exfalso
    have hall : ∀ m ∈ models, squares X.rows F (m X).val Y.val = 0 := by
      have hs : (models.map fun m => squares X.rows F (m X).val Y.val).sum = 0 := by
        have := h1.symm
        unfold meanOver at this
        exact (div_eq_zero_iff.1 this).resolve_right hM.ne'
      intro m hm
      have hle := List.single_le_sum (l := models.map fun m => squares X.rows F (m X).val Y.val) (fun x hx => by
        obtain ⟨m, -, rfl⟩ := List.mem_map.1 hx
        exact squares_nonneg ..) _ (List.mem_map_of_mem hm)
      exact le_antisymm (hle.trans hs.le) (squares_nonneg ..)
    exact hdiff ((squares_zero (hall m hm) i hi j hj).trans (squares_zero (hall m' hm') i hi j hj).symm)

/-- **C93 (worst)**: the ensemble is never worse than its worst model. -/
theorem bagging_worst_partial (F : ℕ) (models : List (Mat → Mat)) (X : Mat) (h : Fitting F X models) (hne : models ≠ [])
    (T : ℕ → ℕ → ℝ) : ∃ Y, bagPredict F models X = ok Y ∧
      ∃ m ∈ models, squares X.rows F Y.val T ≤ squares X.rows F (m X).val T := by
  obtain ⟨Y, e, hY, -⟩ := bagging_better_partial F models X h hne T
  refine ⟨Y, e, ?_⟩
  by_contra hc
  push Not at hc
  have hM : (0 : ℝ) < models.length := by exact_mod_cast List.length_pos_iff.2 hne
  unfold meanOver at hY
  rw [le_div_iff₀ hM] at hY
  have := List.sum_lt_sum_of_ne_nil hne (f := fun m : Mat → Mat => squares X.rows F (m X).val T) (fun _ => squares X.rows F Y.val T) hc
  rw [List.map_const', List.sum_replicate, nsmul_eq_mul] at this
  linarith

/-! ## Votes -/

theorem votes_sum {models : List (Mat → Mat)} {X : Mat} {F : ℕ} (h2 : 2 ≤ F) (h : Fitting F X models) {i : ℕ}
    (hh : ∀ m ∈ models, Hard (rowOf (m X) i)) {c : ℕ} (hc : c < F) :
    (models.map fun m => (m X).val i c).sum = votesFor models X i c := by
  unfold votesFor
  induction models with
  | nil => simp
  | cons m l ih =>
    have hm := h m (List.mem_cons_self ..)
    have hlen : (rowOf (m X) i).length = F := by
      unfold rowOf
      rw [List.length_map, List.length_range, hm.2]
    have := hard_label (hh m (List.mem_cons_self ..)) (by omega) (j := c) (by omega)
    rw [rowOf_getD (by rw [hm.2]; exact hc)] at this
    rw [List.map_cons, List.sum_cons, ih (fun m' h' => h m' (List.mem_cons_of_mem _ h')) (fun m' h' => hh m' (List.mem_cons_of_mem _ h')),
      List.countP_cons, this]
    by_cases hl : label (rowOf (m X) i) = c
    · simp [hl, add_comm]
    · simp [hl]

/-- **C93 (votes)**: an ensemble of models that name a class predicts the class with the most votes, the first of them in a tie. -/
theorem bagging_plurality_partial (F : ℕ) (h2 : 2 ≤ F) (models : List (Mat → Mat)) (X : Mat) (h : Fitting F X models) (hne : models ≠ [])
    (hh : ∀ m ∈ models, ∀ i < X.rows, Hard (rowOf (m X) i)) : ∃ Y, bagPredict F models X = ok Y ∧ ∀ i < X.rows,
      label (rowOf Y i) < F ∧ (∀ c < F, votesFor models X i c ≤ votesFor models X i (label (rowOf Y i))) ∧
      ∀ c < label (rowOf Y i), votesFor models X i c < votesFor models X i (label (rowOf Y i)) := by
  obtain ⟨Y, e, h1, hc, h3⟩ := bagging_mean_partial F models X h
  refine ⟨Y, e, fun i hi => ?_⟩
  have hM : (0 : ℝ) < models.length := by exact_mod_cast List.length_pos_iff.2 hne
  have hlen : (rowOf Y i).length = F := by
    unfold rowOf
    rw [List.length_map, List.length_range, hc]
  have hval : ∀ c < F, (rowOf Y i).getD c 0 = votesFor models X i c / models.length := fun c hc' => by
    rw [rowOf_getD (by rw [hc]; exact hc'), h3, votes_sum h2 h (fun m hm => hh m hm i hi) hc']
  rcases label_isLabel (v := rowOf Y i) (by omega) with ⟨g, _⟩ | ⟨_, g1, g2, g3⟩
  · omega
  · rw [hlen] at g1 g2
    refine ⟨g1, fun c hc' => ?_, fun c hc' => ?_⟩
    · have := g2 c hc'
      rw [hval c hc', hval _ g1, div_le_div_iff_of_pos_right hM] at this
      exact_mod_cast this
    · have := g3 c hc'
      rw [hval c (hc'.trans g1), hval _ g1, div_lt_div_iff_of_pos_right hM] at this
      exact_mod_cast this

/-- **C93 (majority)**: hence it is right about every instance that more than half of the models are right about. -/
theorem bagging_majority_partial (F : ℕ) (h2 : 2 ≤ F) (models : List (Mat → Mat)) (X : Mat) (h : Fitting F X models)
    (hh : ∀ m ∈ models, ∀ i < X.rows, Hard (rowOf (m X) i)) (c : ℕ → ℕ) : ∃ Y, bagPredict F models X = ok Y ∧ ∀ i < X.rows,
      models.length < 2 * votesFor models X i (c i) → label (rowOf Y i) = c i := by
  by_cases hne : models = []
  · obtain ⟨Y, e, -⟩ := bagging_mean_partial F models X h
    refine ⟨Y, e, fun i _ hi => ?_⟩
    rw [hne] at hi
    exact absurd hi (by simp [votesFor])
  · obtain ⟨Y, e, hY⟩ := bagging_plurality_partial F h2 models X h hne hh
    refine ⟨Y, e, fun i hi hmaj => ?_⟩
    obtain ⟨g1, g2, -⟩ := hY i hi
    by_contra hdiff
    have hex : ∃ m ∈ models, label (rowOf (m X) i) = c i := by
      have : 0 < votesFor models X i (c i) := by omega
      obtain ⟨m, hm, hp⟩ := List.countP_pos_iff.1 this
      exact ⟨m, hm, by simpa using hp⟩
    obtain ⟨m, hm, hc⟩ := hex
    have hcF : c i < F := by
      have hlen : (rowOf (m X) i).length = F := by
        unfold rowOf
        rw [List.length_map, List.length_range, (h m hm).2]
      rw [← hc, ← hlen]
      exact label_lt (by omega)
    have hle := g2 (c i) hcF
    have hsum : ∀ l : List (Mat → Mat), votesFor l X i (c i) + votesFor l X i (label (rowOf Y i)) ≤ l.length := by
      intro l
      unfold votesFor
      induction l with
      | nil => simp
      | cons m l ih =>
        rw [List.countP_cons, List.countP_cons, List.length_cons]
        have : ¬(label (rowOf (m X) i) = c i ∧ label (rowOf (m X) i) = label (rowOf Y i)) := fun ⟨a, b⟩ => hdiff (b.symm.trans a)
        generalize (l.countP fun m => label (rowOf (m X) i) = c i) = x at *
        generalize (l.countP fun m => label (rowOf (m X) i) = label (rowOf Y i)) = y at *
        split <;> split <;> first | omega | skip
        rename_i ha hb
        exact absurd ⟨of_decide_eq_true ha, of_decide_eq_true hb⟩ this
    have := hsum models
    omega

/-! ## Examples and limits -/

/-- a model with a constant prediction -/
def constMat (v : List ℝ) : Mat → Mat := fun X => ⟨X.rows, v.length, fun _ j => v.getD j 0⟩

/-- The hypotheses of the theorems about the error are satisfiable by models that disagree. -/
example : Fitting 1 ⟨1, 1, fun _ _ => 0⟩ [constMat [1], constMat [3]] ∧
    ∃ m ∈ [constMat [1], constMat [3]], ∃ m' ∈ [constMat [1], constMat [3]], ∃ i < 1, ∃ j < 1,
      (m ⟨1, 1, fun _ _ => 0⟩).val i j ≠ (m' ⟨1, 1, fun _ _ => 0⟩).val i j := by
  refine ⟨fun m hm => ?_, constMat [1], by simp, constMat [3], by simp, 0, by norm_num, 0, by norm_num, by norm_num [constMat]⟩
  simp only [List.mem_cons, List.not_mem_nil, or_false] at hm
  rcases hm with rfl | rfl <;> exact ⟨rfl, rfl⟩

/-- The hypotheses of the theorems about votes are satisfiable with a majority of two to one. -/
example : Fitting 2 ⟨1, 1, fun _ _ => 0⟩ [constMat [1, 0], constMat [0, 1], constMat [0, 1]] ∧
    (∀ m ∈ [constMat [1, 0], constMat [0, 1], constMat [0, 1]], ∀ i < 1, Hard (rowOf (m ⟨1, 1, fun _ _ => 0⟩) i)) ∧
    3 < 2 * votesFor [constMat [1, 0], constMat [0, 1], constMat [0, 1]] ⟨1, 1, fun _ _ => 0⟩ 0 1 := by
  have r1 : ∀ i, rowOf (constMat [1, 0] ⟨1, 1, fun _ _ => 0⟩) i = [1, 0] := fun i => rfl
  have r2 : ∀ i, rowOf (constMat [0, 1] ⟨1, 1, fun _ _ => 0⟩) i = [0, 1] := fun i => rfl
  refine ⟨fun m hm => ?_, fun m hm i _ => ?_, ?_⟩
  · simp only [List.mem_cons, List.not_mem_nil, or_false] at hm
    rcases hm with rfl | rfl | rfl <;> exact ⟨rfl, rfl⟩
  · simp only [List.mem_cons, List.not_mem_nil, or_false] at hm
    rcases hm with rfl | rfl | rfl
    · rw [r1]; exact hard_first
    · rw [r2]; exact hard_second
    · rw [r2]; exact hard_second
  · unfold votesFor
    simp [r1, r2, label_first, label_second]

/-- **C93 is false** for models that do not name a class: the outputs are averaged, not the votes.  Two of three models are right,
the ensemble is not. -/
theorem majority_fails : ∃ Y, bagPredict 2 [constMat [0, 1], constMat [3 / 5, 2 / 5], constMat [3 / 5, 2 / 5]] ⟨1, 1, fun _ _ => 0⟩ = ok Y ∧
    votesFor [constMat [0, 1], constMat [3 / 5, 2 / 5], constMat [3 / 5, 2 / 5]] ⟨1, 1, fun _ _ => 0⟩ 0 0 = 2 ∧ label (rowOf Y 0) = 1 := by
  obtain ⟨Y, e, -, hc, hv⟩ := bagging_mean_partial 2 [constMat [0, 1], constMat [3 / 5, 2 / 5], constMat [3 / 5, 2 / 5]]
    ⟨1, 1, fun _ _ => 0⟩ (fun m hm => by
      simp only [List.mem_cons, List.not_mem_nil, or_false] at hm
      rcases hm with rfl | rfl | rfl <;> exact ⟨rfl, rfl⟩)
  refine ⟨Y, e, ?_, ?_⟩
  · have r1 : ∀ i, rowOf (constMat [0, 1] ⟨1, 1, fun _ _ => 0⟩) i = [0, 1] := fun i => rfl
    have r2 : ∀ i, rowOf (constMat [3 / 5, 2 / 5] ⟨1, 1, fun _ _ => 0⟩) i = [3 / 5, 2 / 5] := fun i => rfl
    unfold votesFor
    norm_num [List.countP_cons, r1, r2, label_two]
  · have : rowOf Y 0 = [Y.val 0 0, Y.val 0 1] := by
      unfold rowOf
      rw [hc]
      rfl
    rw [this, label_two, hv, hv, if_pos]
    norm_num [constMat]

end

end Verif.Ens
