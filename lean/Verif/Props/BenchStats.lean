import Verif.Model.BenchStats
import Mathlib.Algebra.Order.BigOperators.Group.List
import Mathlib.Algebra.Order.Chebyshev
import Mathlib.Data.List.Sort

/-!
# The benchmark programs report the statistics of their runs (C114)
-/

namespace Verif.BenchStats

open Classical

/-! ## Two spirals -/

theorem count_fold (l : List (ℝ × ℝ)) (r : Result) :
    (l.foldl Result.count r).tp = r.tp + l.countP (fun p => decide (0 < p.1 ∧ 0 < p.2)) ∧
    (l.foldl Result.count r).fp = r.fp + l.countP (fun p => decide (0 < p.1 ∧ p.2 < 0)) ∧
    (l.foldl Result.count r).fn = r.fn + l.countP (fun p => decide (p.1 < 0 ∧ 0 < p.2)) ∧
    (l.foldl Result.count r).tp + (l.foldl Result.count r).fp + (l.foldl Result.count r).fn + (l.foldl Result.count r).tn =
      r.tp + r.fp + r.fn + r.tn + l.length := by
  induction l generalizing r with
  | nil => simp
  | cons p l ih =>
    obtain ⟨h1, h2, h3, h4⟩ := ih (r.count p)
    simp only [List.foldl_cons, List.countP_cons, List.length_cons]
    have pos : ∀ (q : Prop) [Decidable q], q → (if decide q = true then 1 else 0 : ℕ) = 1 := fun q _ h => if_pos (decide_eq_true h)
    have neg : ∀ (q : Prop) [Decidable q], ¬ q → (if decide q = true then 1 else 0 : ℕ) = 0 := fun q _ h => if_neg (by simpa using h)
    by_cases a : 0 < p.1 ∧ 0 < p.2
    · have b : ¬ (0 < p.1 ∧ p.2 < 0) := fun h => absurd a.2 (not_lt.2 h.2.le)
      have c : ¬ (p.1 < 0 ∧ 0 < p.2) := fun h => absurd a.1 (not_lt.2 h.1.le)
      rw [pos _ a, neg _ b, neg _ c]
      have hc : r.count p = { r with tp := r.tp + 1 } := by unfold Result.count; rw [if_pos a]
      simp only [hc] at h1 h2 h3 h4 ⊢
      exact ⟨by omega, by omega, by omega, by omega⟩
    · by_cases b : 0 < p.1 ∧ p.2 < 0
      · have c : ¬ (p.1 < 0 ∧ 0 < p.2) := fun h => absurd b.1 (not_lt.2 h.1.le)
        rw [neg _ a, pos _ b, neg _ c]
        have hc : r.count p = { r with fp := r.fp + 1 } := by unfold Result.count; rw [if_neg a, if_pos b]
        simp only [hc] at h1 h2 h3 h4 ⊢
        exact ⟨by omega, by omega, by omega, by omega⟩
      · by_cases c : p.1 < 0 ∧ 0 < p.2
        · rw [neg _ a, neg _ b, pos _ c]
          have hc : r.count p = { r with fn := r.fn + 1 } := by unfold Result.count; rw [if_neg a, if_neg b, if_pos c]
          simp only [hc] at h1 h2 h3 h4 ⊢
          exact ⟨by omega, by omega, by omega, by omega⟩
        · rw [neg _ a, neg _ b, neg _ c]
          have hc : r.count p = { r with tn := r.tn + 1 } := by unfold Result.count; rw [if_neg a, if_neg b, if_neg c]
          simp only [hc] at h1 h2 h3 h4 ⊢
          exact ⟨by omega, by omega, by omega, by omega⟩

/-- Spec: output and target are on the same side. -/
def Right (p : ℝ × ℝ) : Prop := (0 < p.1 ∧ 0 < p.2) ∨ (p.1 < 0 ∧ p.2 < 0)

/-- The four counters add up to the size of the test set, and the accuracy is the share of the correct ones. -/
theorem evaluate_counts (l : List (ℝ × ℝ)) (n : ℕ) :
    (evaluate l n).correct + (evaluate l n).wrong = l.length ∧
    (evaluate l n).wrong = l.countP (fun p => decide (p.1 * p.2 < 0)) ∧
    (evaluate l n).accuracy = ((evaluate l n).correct : ℝ) / (l.length : ℝ) ∧ (evaluate l n).iterations = n := by
  obtain ⟨h1, h2, h3, h4⟩ := count_fold l {}
  refine ⟨?_, ?_, rfl, rfl⟩
  · show (l.foldl Result.count {}).tn + (l.foldl Result.count {}).tp + ((l.foldl Result.count {}).fn + (l.foldl Result.count {}).fp) = _
    have : ({} : Result).tp + ({} : Result).fp + ({} : Result).fn + ({} : Result).tn = 0 := rfl
    omega
  · show (l.foldl Result.count {}).fn + (l.foldl Result.count {}).fp = _
    rw [h2, h3]
    show 0 + _ + (0 + _) = _
    simp only [Nat.zero_add]
    clear h1 h2 h3 h4
    induction l with
    | nil => rfl
    | cons p l ih =>
      simp only [List.countP_cons]
      have : (decide (p.1 * p.2 < 0)) = (decide (p.1 < 0 ∧ 0 < p.2) || decide (0 < p.1 ∧ p.2 < 0)) := by
        rw [Bool.eq_iff_iff, Bool.or_eq_true, decide_eq_true_iff, decide_eq_true_iff, decide_eq_true_iff, mul_neg_iff, or_comm]
      rw [this, ← ih]
      by_cases a : 0 < p.1 ∧ p.2 < 0
      · have b : ¬ (p.1 < 0 ∧ 0 < p.2) := fun h => absurd a.1 (not_lt.2 h.1.le)
        simp [a, b]
        omega
      · by_cases b : p.1 < 0 ∧ 0 < p.2
        · simp [a, b]
          omega
        · simp [a, b]

/-- If no output and no target is zero the instances are counted correctly. -/
theorem evaluate_correct (l : List (ℝ × ℝ)) (n : ℕ) (h : ∀ p ∈ l, p.1 ≠ 0 ∧ p.2 ≠ 0) :
    (evaluate l n).correct = l.countP (fun p => decide (Right p)) := by
  obtain ⟨h1, h2, -, -⟩ := evaluate_counts l n
  have : l.countP (fun p => decide (p.1 * p.2 < 0)) + l.countP (fun p => decide (Right p)) = l.length := by
    clear h1 h2
    induction l with
    | nil => rfl
    | cons p l ih =>
      simp only [List.countP_cons, List.length_cons]
      have ih := ih fun q hq => h q (List.mem_cons_of_mem _ hq)
      obtain ⟨n1, n2⟩ := h p (List.mem_cons_self ..)
      have hx : (p.1 * p.2 < 0) ↔ ¬ Right p := by
        unfold Right
        rw [mul_neg_iff]
        rcases lt_or_gt_of_ne n1 with a | a <;> rcases lt_or_gt_of_ne n2 with b | b <;>
          simp [a, b, not_lt.2 a.le, not_lt.2 b.le]
      by_cases hr : Right p <;> simp [hx, hr] <;> omega
  omega

/-- False of the code: an output of zero counts as correct, whatever the target is.  A network that always answers zero gets an
accuracy of 100%. -/
theorem zero_output_fails (targets : List ℝ) (h : targets ≠ []) (n : ℕ) :
    (evaluate (targets.map fun t => (0, t)) n).correct = targets.length ∧
    (evaluate (targets.map fun t => (0, t)) n).accuracy = 1 ∧
    (targets.map fun t => ((0 : ℝ), t)).countP (fun p => decide (Right p)) = 0 := by
  obtain ⟨h1, h2, h3, -⟩ := evaluate_counts (targets.map fun t => ((0 : ℝ), t)) n
  have hw : (targets.map fun t => ((0 : ℝ), t)).countP (fun p => decide (p.1 * p.2 < 0)) = 0 := by
    rw [List.countP_eq_zero]
    simp
  have hc : (evaluate (targets.map fun t => (0, t)) n).correct = targets.length := by
    rw [h2, hw] at h1
    simpa using h1
  refine ⟨hc, ?_, ?_⟩
  · rw [h3, hc, List.length_map]
    have : (targets.length : ℝ) ≠ 0 := by
      have := List.length_pos_iff.2 h
      positivity
    exact div_self this
  · rw [List.countP_eq_zero]
    simp [Right]

/-- Spec: the standard deviation of a list of numbers. -/
noncomputable def deviation (v : List ℝ) : ℝ := Real.sqrt (mean (v.map fun x => (x - mean v) ^ 2))

theorem foldl_min (l : List ℝ) (a : ℝ) : IsLeast {x | x = a ∨ x ∈ l} (l.foldl min a) := by
  induction l generalizing a with
  | nil => exact ⟨Or.inl rfl, by rintro x (rfl | h) <;> [exact le_refl _; cases h]⟩
  | cons b l ih =>
    obtain ⟨h1, h2⟩ := ih (min a b)
    constructor
    · rcases h1 with h1 | h1
      · rw [List.foldl_cons, h1]
        rcases min_choice a b with h | h
        · exact Or.inl h
        · exact Or.inr (by rw [h]; exact List.mem_cons_self ..)
      · exact Or.inr (List.mem_cons_of_mem _ h1)
    · have hm : (List.foldl min a (b :: l)) ≤ min a b := h2 (Or.inl rfl)
      rintro x (rfl | h)
      · exact hm.trans (min_le_left ..)
      · rcases List.mem_cons.1 h with rfl | h
        · exact hm.trans (min_le_right ..)
        · exact h2 (Or.inr h)

theorem foldl_max (l : List ℝ) (a : ℝ) : IsGreatest {x | x = a ∨ x ∈ l} (l.foldl max a) := by
  induction l generalizing a with
  | nil => exact ⟨Or.inl rfl, by rintro x (rfl | h) <;> [exact le_refl _; cases h]⟩
  | cons b l ih =>
    obtain ⟨h1, h2⟩ := ih (max a b)
    constructor
    · rcases h1 with h1 | h1
      · rw [List.foldl_cons, h1]
        rcases max_choice a b with h | h
        · exact Or.inl h
        · exact Or.inr (by rw [h]; exact List.mem_cons_self ..)
      · exact Or.inr (List.mem_cons_of_mem _ h1)
    · have hm : max a b ≤ (List.foldl max a (b :: l)) := h2 (Or.inl rfl)
      rintro x (rfl | h)
      · exact (le_max_left ..).trans hm
      · rcases List.mem_cons.1 h with rfl | h
        · exact (le_max_right ..).trans hm
        · exact h2 (Or.inr h)

theorem sum_shift (v : List ℝ) (m : ℝ) :
    (v.map fun x => (|x| - m) ^ 2).sum = (v.map fun x => x ^ 2).sum - 2 * m * (v.map fun x => |x|).sum + v.length * m ^ 2 := by
  induction v with
  | nil => simp
  | cons a v ih =>
    simp only [List.map_cons, List.sum_cons, List.length_cons, ih]
    push_cast
    have := sq_abs a
    linear_combination this

/-- Mean absolute value and root of the mean square. -/
theorem mean_abs_le (v : List ℝ) (h : v ≠ []) : mean (v.map fun x => |x|) ≤ Real.sqrt (mean (v.map fun x => x ^ 2)) := by
  have hn : (0 : ℝ) < v.length := by exact_mod_cast List.length_pos_iff.2 h
  have h0 : 0 ≤ mean (v.map fun x => |x|) := by
    unfold mean
    refine div_nonneg (List.sum_nonneg ?_) (by positivity)
    intro x hx
    obtain ⟨y, -, rfl⟩ := List.mem_map.1 hx
    exact abs_nonneg y
  have h1 := sum_shift v (mean (v.map fun x => |x|))
  have h2 : 0 ≤ (v.map fun x => (|x| - mean (v.map fun x => |x|)) ^ 2).sum := by
    refine List.sum_nonneg ?_
    intro x hx
    obtain ⟨y, -, rfl⟩ := List.mem_map.1 hx
    positivity
  have h3 : (v.map fun x => |x|).sum = v.length * mean (v.map fun x => |x|) := by
    unfold mean
    rw [List.length_map]
    field_simp
  refine Real.le_sqrt_of_sq_le ?_
  have h4 : mean (v.map fun x => x ^ 2) = (v.map fun x => x ^ 2).sum / v.length := by unfold mean; rw [List.length_map]
  rw [h4, le_div_iff₀ hn]
  rw [h1, h3] at h2
  nlinarith [h2]

/-- Mean, minimum and maximum of each column are those of the runs; what is called standard deviation is the square root of the
mean absolute deviation, and its square is at most the standard deviation. -/
theorem column_partial (v : List ℝ) (h : v ≠ []) :
    (column v).mean * v.length = v.sum ∧ IsLeast {x | x ∈ v} (column v).min ∧ IsGreatest {x | x ∈ v} (column v).max ∧
    (column v).stdDev ^ 2 * v.length = (v.map fun x => |x - (column v).mean|).sum ∧
    (column v).stdDev ^ 2 ≤ deviation v := by
  have hn : (0 : ℝ) < v.length := by exact_mod_cast List.length_pos_iff.2 h
  have habs : 0 ≤ mean ((v.map fun x => x - mean v).map fun x => |x|) := by
    unfold mean
    refine div_nonneg (List.sum_nonneg ?_) (by positivity)
    intro x hx
    obtain ⟨y, -, rfl⟩ := List.mem_map.1 hx
    exact abs_nonneg y
  have hdev : (column v).stdDev ^ 2 = mean ((v.map fun x => x - mean v).map fun x => |x|) := Real.sq_sqrt habs
  refine ⟨div_mul_cancel₀ _ hn.ne', ?_, ?_, ?_, ?_⟩
  · cases v with
    | nil => exact absurd rfl h
    | cons a l =>
      have := foldl_min l a
      simp only [List.mem_cons]
      exact this
  · cases v with
    | nil => exact absurd rfl h
    | cons a l =>
      have := foldl_max l a
      simp only [List.mem_cons]
      exact this
  · rw [hdev]
    show mean _ * (v.length : ℝ) = _
    unfold mean
    simp only [List.length_map, List.map_map]
    rw [div_mul_cancel₀ _ hn.ne']
    rfl
  · rw [hdev]
    have := mean_abs_le (v.map fun x => x - mean v) (by simpa using h)
    simpa only [List.map_map, Function.comp_def, deviation] using this

/-- False of the code: the reported deviation is not the standard deviation; witness: 0 and 8 correct instances. -/
theorem stdDev_fails : (column [0, 8]).stdDev = 2 ∧ deviation [0, 8] = 4 := by
  constructor
  · show Real.sqrt (mean (([0, 8].map fun x => x - mean [0, 8]).map fun x => |x|)) = 2
    rw [show mean (([0, 8].map fun x => x - mean [0, 8]).map fun x => |x|) = 2 ^ 2 by
      norm_num [mean]]
    exact Real.sqrt_sq (by norm_num)
  · unfold deviation
    rw [show mean ([0, 8].map fun x => (x - mean [0, 8]) ^ 2) = 4 ^ 2 by norm_num [mean]]
    exact Real.sqrt_sq (by norm_num)

/-- The report of an architecture is that of all its runs, in all columns; the time is the mean in milliseconds, at most two
milliseconds too short. -/
theorem spirals_report (runs : List SpiralRun) (h : runs ≠ []) :
    (spirals runs).correct = column (runs.map fun r => ((r.pairs.length - r.pairs.countP fun p => decide (p.1 * p.2 < 0) : ℕ) : ℝ)) ∧
    (spirals runs).iterations = column (runs.map fun r => (r.iterations : ℝ)) ∧
    (spirals runs).accuracy = column (runs.map fun r =>
      ((r.pairs.length - r.pairs.countP fun p => decide (p.1 * p.2 < 0) : ℕ) : ℝ) / (r.pairs.length : ℝ)) ∧
    ((spirals runs).time : ℝ) ≤ mean (runs.map fun r => (r.micros : ℝ) / 1000) ∧
    mean (runs.map fun r => (r.micros : ℝ) / 1000) < (spirals runs).time + 2 := by
  have hcor : ∀ r : SpiralRun, (evaluate r.pairs r.iterations).correct =
      r.pairs.length - r.pairs.countP fun p => decide (p.1 * p.2 < 0) := by
    intro r
    obtain ⟨h1, h2, -, -⟩ := evaluate_counts r.pairs r.iterations
    omega
  have hn : (0 : ℝ) < runs.length := by exact_mod_cast List.length_pos_iff.2 h
  have hsum : ∀ l : List SpiralRun, (((l.map fun r => stopwatch r.micros .millisecond).sum : ℕ) : ℝ) ≤
      (l.map fun r => (r.micros : ℝ) / 1000).sum ∧
      (l.map fun r => (r.micros : ℝ) / 1000).sum ≤ (((l.map fun r => stopwatch r.micros .millisecond).sum : ℕ) : ℝ) + l.length := by
    intro l
    induction l with
    | nil => simp
    | cons r l ih =>
      simp only [List.map_cons, List.sum_cons, List.length_cons]
      rw [Nat.cast_add, Nat.cast_add, Nat.cast_one]
      have h1 : ((stopwatch r.micros .millisecond : ℕ) : ℝ) ≤ (r.micros : ℝ) / 1000 := by
        show ((r.micros / 1000 : ℕ) : ℝ) ≤ _
        exact_mod_cast Nat.cast_div_le (α := ℝ) (m := r.micros) (n := 1000)
      have h2 : (r.micros : ℝ) / 1000 ≤ ((stopwatch r.micros .millisecond : ℕ) : ℝ) + 1 := by
        show _ ≤ ((r.micros / 1000 : ℕ) : ℝ) + 1
        rw [div_le_iff₀ (by norm_num)]
        have : r.micros ≤ (r.micros / 1000 + 1) * 1000 := by omega
        exact_mod_cast this
      constructor <;> linarith [ih.1, ih.2]
  obtain ⟨s1, s2⟩ := hsum runs
  have hmean : mean (runs.map fun r => (r.micros : ℝ) / 1000) = (runs.map fun r => (r.micros : ℝ) / 1000).sum / runs.length := by
    unfold mean
    rw [List.length_map]
  have htime : (spirals runs).time =
      ⌊(((runs.map fun r => stopwatch r.micros .millisecond).sum : ℕ) : ℝ) / (runs.length : ℝ)⌋₊ := by
    show ⌊_ / (((runs.map fun r => evaluate r.pairs r.iterations).length : ℕ) : ℝ)⌋₊ = _
    rw [List.length_map]
  refine ⟨?_, ?_, ?_, ?_, ?_⟩
  · simp only [spirals, logResults, List.map_map, Function.comp_def, hcor]
  · simp only [spirals, logResults, List.map_map, Function.comp_def]
    rfl
  · simp only [spirals, logResults, List.map_map, Function.comp_def, (evaluate_counts _ _).2.2.1, hcor]
  · rw [htime, hmean]
    refine (Nat.floor_le (by positivity)).trans ?_
    exact div_le_div_of_nonneg_right s1 hn.le
  · rw [htime, hmean]
    have h1 := Nat.lt_floor_add_one ((((runs.map fun r => stopwatch r.micros .millisecond).sum : ℕ) : ℝ) / (runs.length : ℝ))
    have h2 : (runs.map fun r => (r.micros : ℝ) / 1000).sum / runs.length ≤
        (((runs.map fun r => stopwatch r.micros .millisecond).sum : ℕ) : ℝ) / (runs.length : ℝ) + 1 := by
      rw [div_le_iff₀ hn, add_mul, div_mul_cancel₀ _ hn.ne', one_mul]
      exact s2
    linarith

/-! ## Pole balancing -/

theorem search_spec (required : ℕ) (steps : ℕ → ℕ) (n i e : ℕ) :
    search required steps n i = some e ↔ i ≤ e ∧ e < i + n ∧ required ≤ steps e ∧ ∀ j, i ≤ j → j < e → steps j < required := by
  induction n generalizing i with
  | zero => simp [search]; omega
  | succ n ih =>
    unfold search
    split
    · next h =>
      constructor
      · intro he
        injection he with he
        subst he
        exact ⟨le_refl _, by omega, h, fun j h1 h2 => by omega⟩
      · rintro ⟨h1, h2, h3, h4⟩
        by_contra hne
        have : i ≠ e := fun h => hne (by rw [h])
        have := h4 i (le_refl _) (by omega)
        omega
    · next h =>
      rw [ih]
      constructor
      · rintro ⟨h1, h2, h3, h4⟩
        refine ⟨by omega, by omega, h3, fun j hj1 hj2 => ?_⟩
        by_cases hij : j = i
        · subst hij; omega
        · exact h4 j (by omega) hj2
      · rintro ⟨h1, h2, h3, h4⟩
        have : i ≠ e := fun hh => h (by rw [hh]; exact h3)
        exact ⟨by omega, by omega, h3, fun j hj1 hj2 => h4 j (by omega) hj2⟩

/-- A run is successful exactly when one of the episodes is long enough, and the number of episodes is that of the first one. -/
theorem run_first (maximal required : ℕ) (steps : ℕ → ℕ) (micros e : ℕ) :
    (singleRun maximal required steps micros).episodes = some e ↔
      1 ≤ e ∧ e ≤ maximal ∧ required ≤ steps e ∧ ∀ j, 1 ≤ j → j < e → steps j < required := by
  unfold singleRun
  rw [search_spec]
  constructor <;> rintro ⟨h1, h2, h3, h4⟩ <;> exact ⟨h1, by omega, h3, h4⟩

theorem run_success (maximal required : ℕ) (steps : ℕ → ℕ) (micros : ℕ) :
    (singleRun maximal required steps micros).success = true ↔ ∃ e, 1 ≤ e ∧ e ≤ maximal ∧ required ≤ steps e := by
  show (search required steps maximal 1).isSome = true ↔ _
  rw [Option.isSome_iff_exists]
  constructor
  · rintro ⟨e, he⟩
    obtain ⟨h1, h2, h3, -⟩ := (search_spec ..).1 he
    exact ⟨e, h1, by omega, h3⟩
  · intro h
    obtain ⟨h1, h2, h3⟩ := Nat.find_spec h
    refine ⟨Nat.find h, (search_spec ..).2 ⟨h1, by omega, h3, fun j hj1 hj2 => ?_⟩⟩
    have := Nat.find_min h hj2
    by_contra hc
    exact this ⟨hj1, by omega, by omega⟩

/-- The time of a run is in whole milliseconds. -/
theorem run_time (maximal required : ℕ) (steps : ℕ → ℕ) (micros : ℕ) :
    (singleRun maximal required steps micros).time * 1000 ≤ micros ∧ micros < ((singleRun maximal required steps micros).time + 1) * 1000 := by
  show micros / 1000 * 1000 ≤ micros ∧ micros < (micros / 1000 + 1) * 1000
  omega

/-- The runs with their numbers of episodes. -/
def Succeeded (runs : List PoleRun) (episodes : List ℕ) : Prop :=
  runs.map (fun r => (r.success, r.episodes)) = episodes.map fun e => (true, some e)

theorem collect (runs : List PoleRun) (episodes : List ℕ) (c : Collected) (h : Succeeded runs episodes) :
    runs.foldlM Collected.add c =
      .ok ⟨c.failures, c.episodes ++ episodes, c.time + (runs.map fun r => r.time).sum⟩ := by
  induction runs generalizing episodes c with
  | nil =>
    cases episodes with
    | nil => simp
    | cons => simp [Succeeded] at h
  | cons r runs ih =>
    cases episodes with
    | nil => simp [Succeeded] at h
    | cons e episodes =>
      simp only [Succeeded, List.map_cons, List.cons.injEq, Prod.mk.injEq] at h
      obtain ⟨⟨h1, h2⟩, h3⟩ := h
      rw [List.foldlM_cons]
      have : c.add r = .ok ⟨c.failures, c.episodes ++ [e], c.time + r.time⟩ := by simp [Collected.add, h1, h2]
      rw [this, Outcome.ok_bind, ih episodes _ h3]
      simp [Nat.add_assoc]

theorem natFoldl_min (l : List ℕ) (a : ℕ) : IsLeast {x | x ∈ a :: l} (l.foldl min a) := by
  induction l generalizing a with
  | nil => exact ⟨by simp, by intro x hx; simp at hx; simp [hx]⟩
  | cons b l ih =>
    obtain ⟨h1, h2⟩ := ih (min a b)
    simp only [Set.mem_ofPred_eq, List.mem_cons] at h1
    constructor
    · simp only [Set.mem_ofPred_eq, List.mem_cons, List.foldl_cons]
      rcases h1 with h1 | h1
      · rw [h1]; rcases min_choice a b with h | h <;> simp [h]
      · exact Or.inr (Or.inr h1)
    · have hm : (List.foldl min a (b :: l)) ≤ min a b := h2 (List.mem_cons_self ..)
      intro x hx
      simp only [Set.mem_ofPred_eq, List.mem_cons] at hx
      rcases hx with rfl | rfl | h
      · exact hm.trans (min_le_left ..)
      · exact hm.trans (min_le_right ..)
      · exact h2 (List.mem_cons_of_mem _ h)

theorem natFoldl_max (l : List ℕ) (a : ℕ) : IsGreatest {x | x ∈ a :: l} (l.foldl max a) := by
  induction l generalizing a with
  | nil => exact ⟨by simp, by intro x hx; simp at hx; simp [hx]⟩
  | cons b l ih =>
    obtain ⟨h1, h2⟩ := ih (max a b)
    simp only [Set.mem_ofPred_eq, List.mem_cons] at h1
    constructor
    · simp only [Set.mem_ofPred_eq, List.mem_cons, List.foldl_cons]
      rcases h1 with h1 | h1
      · rw [h1]; rcases max_choice a b with h | h <;> simp [h]
      · exact Or.inr (Or.inr h1)
    · have hm : max a b ≤ (List.foldl max a (b :: l)) := h2 (List.mem_cons_self ..)
      intro x hx
      simp only [Set.mem_ofPred_eq, List.mem_cons] at hx
      rcases hx with rfl | rfl | h
      · exact (le_max_left ..).trans hm
      · exact (le_max_right ..).trans hm
      · exact h2 (List.mem_cons_of_mem _ h)

/-- Spec: at least half of the numbers are at most `m` and at least half are at least `m`. -/
def IsMedian (l : List ℕ) (m : ℕ) : Prop :=
  m ∈ l ∧ l.length ≤ 2 * l.countP (fun x => decide (x ≤ m)) ∧ l.length ≤ 2 * l.countP (fun x => decide (m ≤ x))

theorem median_sorted {l : List ℕ} (hs : l.Pairwise (· ≤ ·)) (h : l ≠ []) : IsMedian l (l.getD (l.length / 2) 0) := by
  have hlt : l.length / 2 < l.length := by
    have := List.length_pos_iff.2 h
    omega
  rw [show l.getD (l.length / 2) 0 = l[l.length / 2] by simp [List.getD, hlt]]
  have hle : ∀ i j (hi : i < l.length) (hj : j < l.length), i ≤ j → l[i] ≤ l[j] := by
    intro i j hi hj hij
    rcases Nat.lt_or_eq_of_le hij with h | h
    · exact List.pairwise_iff_getElem.1 hs i j hi hj h
    · subst h; exact le_refl _
  refine ⟨List.getElem_mem hlt, ?_, ?_⟩
  · have h1 : (l.take (l.length / 2 + 1)).countP (fun x => decide (x ≤ l[l.length / 2])) = (l.take (l.length / 2 + 1)).length := by
      rw [List.countP_eq_length]
      intro x hx
      obtain ⟨i, hi, rfl⟩ := List.mem_iff_getElem.1 hx
      rw [List.length_take] at hi
      rw [List.getElem_take]
      exact decide_eq_true (hle _ _ _ _ (by omega))
    have h2 := (List.take_sublist (l.length / 2 + 1) l).countP_le (p := fun x => decide (x ≤ l[l.length / 2]))
    rw [h1, List.length_take] at h2
    omega
  · have h1 : (l.drop (l.length / 2)).countP (fun x => decide (l[l.length / 2] ≤ x)) = (l.drop (l.length / 2)).length := by
      rw [List.countP_eq_length]
      intro x hx
      obtain ⟨i, hi, rfl⟩ := List.mem_iff_getElem.1 hx
      rw [List.getElem_drop]
      exact decide_eq_true (hle _ _ _ _ (by omega))
    have h2 := (List.drop_sublist (l.length / 2) l).countP_le (p := fun x => decide (l[l.length / 2] ≤ x))
    rw [h1, List.length_drop] at h2
    omega

/-- If all runs are successful every reported number is the statistic it is called: no failures, mean, standard deviation,
minimum, maximum and median of the numbers of episodes, and the mean time. -/
theorem pole_statistics (runs : List PoleRun) (episodes : List ℕ) (h : Succeeded runs episodes) (hne : episodes ≠ []) :
    ∃ r, configuration runs = .ok r ∧ r.runs = episodes.length ∧ r.failures = 0 ∧ IsMedian episodes r.median ∧
      IsLeast {x | x ∈ episodes} r.min ∧ IsGreatest {x | x ∈ episodes} r.max ∧
      r.mean = mean (episodes.map fun (e : ℕ) => (e : ℝ)) ∧ r.stdDev = deviation (episodes.map fun (e : ℕ) => (e : ℝ)) ∧
      r.time = mean (runs.map fun x => (x.time : ℝ)) := by
  have hlen : runs.length = episodes.length := by
    have := congrArg List.length h
    simpa using this
  cases episodes with
  | nil => exact absurd rfl hne
  | cons a l =>
    have hperm := List.mergeSort_perm (a :: l) (fun a b => decide (a ≤ b))
    have hsort : ((a :: l).mergeSort (fun a b => decide (a ≤ b))).Pairwise (· ≤ ·) := by
      have := List.pairwise_mergeSort (le := fun a b : ℕ => decide (a ≤ b)) (by simp; omega) (by simp; omega) (a :: l)
      simpa using this
    have hn : (0 : ℝ) < ((a :: l).length : ℝ) := by exact_mod_cast List.length_pos_iff.2 hne
    have hconf : configuration runs = (Collected.finish ⟨0, a :: l, (runs.map fun r => r.time).sum⟩ runs.length) := by
      unfold configuration
      rw [collect runs (a :: l) {} h, Outcome.ok_bind]
      simp
    have hmean : ((a :: l).map fun (e : ℕ) => (e : ℝ)).sum / (runs.length : ℝ) = mean ((a :: l).map fun (e : ℕ) => (e : ℝ)) := by
      unfold mean
      rw [List.length_map, hlen]
    refine ⟨_, hconf, hlen, rfl, ?_, natFoldl_min l a, natFoldl_max l a, hmean, ?_, ?_⟩
    · have h1 := median_sorted hsort (by
        intro h0
        have := hperm.length_eq
        rw [h0] at this
        simp at this)
      rw [hperm.length_eq] at h1
      obtain ⟨m1, m2, m3⟩ := h1
      refine ⟨hperm.mem_iff.1 m1, ?_, ?_⟩
      · rw [hperm.length_eq, hperm.countP_eq] at m2
        exact m2
      · rw [hperm.length_eq, hperm.countP_eq] at m3
        exact m3
    · show Real.sqrt (_ / (runs.length : ℝ)) = Real.sqrt _
      congr 1
      rw [hmean, (hperm.map _).sum_eq]
      unfold mean
      rw [List.length_map, List.length_map, hlen, List.map_map]
      congr 2
      · refine List.map_congr_left fun x _ => ?_
        simp only [Function.comp_apply]
        ring
      · simp
    · show (((runs.map fun r => r.time).sum : ℕ) : ℝ) / (runs.length : ℝ) = _
      unfold mean
      rw [List.length_map, Nat.cast_list_sum, List.map_map]
      rfl

/-- False of the code: as soon as one run fails the number of its episodes, which was never assigned, is used. -/
theorem failed_run_ub (runs : List PoleRun) (r : PoleRun) (hr : r ∈ runs) (h : r.episodes = none) : configuration runs = .ub := by
  have : ∀ (l : List PoleRun) (c : Collected), r ∈ l → l.foldlM Collected.add c = .ub := by
    intro l
    induction l with
    | nil => intro c hc; cases hc
    | cons x l ih =>
      intro c hc
      rw [List.foldlM_cons]
      cases hx : x.episodes with
      | none => simp [Collected.add, hx]
      | some e =>
        have hne : r ≠ x := by rintro rfl; rw [h] at hx; cases hx
        simp only [Collected.add, hx, Outcome.ok_bind]
        exact ih _ ((List.mem_cons.1 hc).resolve_left hne)
  unfold configuration
  rw [this runs {} hr]
  rfl

/-- A run fails, with the limits of the program: no episode has 100000 steps. -/
example (steps : ℕ → ℕ) (h : ∀ i, steps i < 100000) (micros : ℕ) (runs : List PoleRun) :
    configuration (runs ++ [singleRun 100000 100000 steps micros]) = .ub := by
  refine failed_run_ub _ (singleRun 100000 100000 steps micros) (by simp) ?_
  rw [Option.eq_none_iff_forall_ne_some]
  intro e he
  have := ((run_first ..).1 he).2.2.1
  have := h e
  omega

/-- Two successful runs with 3 and 1 episodes. -/
example : ∃ r, configuration [⟨true, some 3, 7⟩, ⟨true, some 1, 9⟩] = .ok r ∧ r.failures = 0 ∧ r.mean = 2 ∧ r.time = 8 := by
  obtain ⟨r, h1, -, h3, -, -, -, h7, -, h9⟩ := pole_statistics [⟨true, some 3, 7⟩, ⟨true, some 1, 9⟩] [3, 1] rfl (by simp)
  exact ⟨r, h1, h3, by rw [h7]; norm_num [mean], by rw [h9]; norm_num [mean]⟩

/-! ## P300 speller -/

theorem runTest_sums (s : Sums) (runs : List SpellerRun) :
    runTest s runs =
      ⟨s.duration + (runs.map fun r => ((r.micros / 1000000 : ℕ) : ℝ)).sum, s.iterations + (runs.map fun r => (r.iterations : ℝ)).sum,
        s.correct5 + (runs.map fun r => (r.correct5 : ℝ)).sum, s.correct15 + (runs.map fun r => (r.correct15 : ℝ)).sum⟩ := by
  unfold runTest
  induction runs generalizing s with
  | nil => simp
  | cons r runs ih =>
    rw [List.foldl_cons, ih]
    simp [Sums.add, stopwatch, add_assoc]

/-- Each configuration reports the means over its own runs with both data sets; the time is at most one second too short. -/
theorem speller_report (runs : ℕ) (configs : List (List SpellerRun × List SpellerRun))
    (h : ∀ c ∈ configs, c.1.length = runs ∧ c.2.length = runs) :
    List.Forall₂ (fun c (s : Sums) =>
      s.iterations = mean ((c.1 ++ c.2).map fun r => (r.iterations : ℝ)) ∧
      s.correct5 = mean ((c.1 ++ c.2).map fun r => (r.correct5 : ℝ)) ∧
      s.correct15 = mean ((c.1 ++ c.2).map fun r => (r.correct15 : ℝ)) ∧
      s.duration ≤ mean ((c.1 ++ c.2).map fun r => (r.micros : ℝ) / 1000000) ∧
      mean ((c.1 ++ c.2).map fun r => (r.micros : ℝ) / 1000000) ≤ s.duration + 1) configs (speller runs {} configs) := by
  induction configs with
  | nil => exact .nil
  | cons c l ih =>
    have hl : (c.1 ++ c.2).length = 2 * runs := by
      obtain ⟨h1, h2⟩ := h c (List.mem_cons_self ..)
      rw [List.length_append, h1, h2]; omega
    refine .cons ?_ (ih fun c hc => h c (List.mem_cons_of_mem _ hc))
    have hs : runTest (runTest {} c.1) c.2 = runTest {} (c.1 ++ c.2) := by
      unfold runTest
      rw [List.foldl_append]
    rw [hs, runTest_sums]
    generalize c.1 ++ c.2 = rs at hl ⊢
    have hm : ∀ f : SpellerRun → ℝ, (0 + (rs.map f).sum) / ((2 * runs : ℕ) : ℝ) = mean (rs.map f) := by
      intro f
      unfold mean
      rw [zero_add, List.length_map, hl]
    have hsum : ∀ l : List SpellerRun, (l.map fun r => ((r.micros / 1000000 : ℕ) : ℝ)).sum ≤ (l.map fun r => (r.micros : ℝ) / 1000000).sum ∧
        (l.map fun r => (r.micros : ℝ) / 1000000).sum ≤ (l.map fun r => ((r.micros / 1000000 : ℕ) : ℝ)).sum + l.length := by
      intro l
      induction l with
      | nil => simp
      | cons r l ih =>
        simp only [List.map_cons, List.sum_cons, List.length_cons]
        rw [Nat.cast_add, Nat.cast_one]
        have h1 : ((r.micros / 1000000 : ℕ) : ℝ) ≤ (r.micros : ℝ) / 1000000 := by
          exact_mod_cast Nat.cast_div_le (α := ℝ) (m := r.micros) (n := 1000000)
        have h2 : (r.micros : ℝ) / 1000000 ≤ ((r.micros / 1000000 : ℕ) : ℝ) + 1 := by
          rw [div_le_iff₀ (by norm_num)]
          have : r.micros ≤ (r.micros / 1000000 + 1) * 1000000 := by omega
          exact_mod_cast this
        constructor <;> linarith [ih.1, ih.2]
    obtain ⟨s1, s2⟩ := hsum rs
    refine ⟨hm _, hm _, hm _, ?_, ?_⟩
    · refine (hm fun r => ((r.micros / 1000000 : ℕ) : ℝ)).le.trans ?_
      unfold mean
      rw [List.length_map, List.length_map]
      exact div_le_div_of_nonneg_right s1 (by positivity)
    · have h1 := hm fun r => ((r.micros / 1000000 : ℕ) : ℝ)
      show _ ≤ (0 + _) / _ + 1
      rw [h1]
      unfold mean
      rw [List.length_map, List.length_map]
      rcases Nat.eq_zero_or_pos rs.length with h0 | h0
      · simp [h0]
      · have hp : (0 : ℝ) < rs.length := by exact_mod_cast h0
        rw [div_le_iff₀ hp, add_mul, div_mul_cancel₀ _ hp.ne', one_mul]
        exact s2

/-- Two configurations with one run for each data set. -/
example : ∃ a b, speller 1 {} [([⟨1500000, 10, 60, 90⟩], [⟨2500000, 20, 70, 100⟩]), ([⟨0, 4, 0, 0⟩], [⟨0, 6, 0, 0⟩])] = [a, b] ∧
    a.iterations = 15 ∧ b.iterations = 5 ∧ a.duration = 1.5 := by
  refine ⟨_, _, rfl, ?_, ?_, ?_⟩ <;> norm_num [printResult, runTest, Sums.add, stopwatch]

end Verif.BenchStats
