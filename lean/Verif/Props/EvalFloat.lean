import Verif.Model.EvalFloat
import Verif.Model.Evaluation
import Verif.Props.Float

/-!
# What the measures say about broken learners (C146)
-/

namespace Verif.EvalFp

open Outcome Fp Fp.Fpu Finset

noncomputable section

variable {A : Fpu} {learner : Learner} {d : Data}

theorem sub_nan_left (y : Dbl) : A.sub .nan y = .nan := add_nan_left _

/-- A distance to a vector with NaN is NaN. -/
theorem squaredDistance_nan {a b : List Dbl} {s : Dbl} (h : SquaredDistance A a b s) (ha : Dbl.nan ∈ a) : s = .nan := by
  refine Sums.nan h.2 ?_
  have hl := h.1
  clear h
  induction a generalizing b with
  | nil => cases ha
  | cons x a ih =>
    cases b with
    | nil => cases hl
    | cons y b =>
      rw [List.zipWith_cons_cons]
      rcases List.mem_cons.1 ha with h | h
      · rw [← h, sub_nan_left, mul_nan_left]
        exact List.mem_cons_self
      · exact List.mem_cons_of_mem _ (ih h (by simpa using hl))

theorem sseLoop_nan {n k : ℕ} (hk : k < n) (hn : Dbl.nan ∈ learner (d.getInstance k)) {s : Dbl} (h : SSELoop A learner d n s) :
    s = .nan := by
  induction n generalizing s with
  | zero => omega
  | succ n ih =>
    obtain ⟨t, e, h1, h2, rfl⟩ := h
    by_cases hkn : k < n
    · rw [ih hkn h1, add_nan_left]
    · have : k = n := by omega
      rw [← this] at h2
      rw [squaredDistance_nan h2 hn, add_nan_right]

theorem ceLoop_nan {n k : ℕ} (hk : k < n) (hn : Dbl.nan ∈ learner (d.getInstance k)) {s : Dbl} (h : CELoop A learner d n s) :
    s = .nan := by
  induction n generalizing s with
  | zero => omega
  | succ n ih =>
    obtain ⟨t, e, h1, hl, h2, rfl⟩ := h
    by_cases hkn : k < n
    · rw [ih hkn h1, add_nan_left]
    · have : k = n := by omega
      rw [← this] at h2 hl
      obtain ⟨j, hj, hv⟩ := List.mem_iff_getElem.1 hn
      rw [crossEntropy_nan Nat.one_pos (j := j) (by omega) (by
        show (learner (d.getInstance k)).getD j _ = _
        rw [List.getD_eq_getElem?_getD, List.getElem?_eq_getElem hj, hv]
        rfl) h2, add_nan_right]

/-- **C146 (cross entropy)**: if one prediction contains NaN, then the cross entropy is NaN. -/
theorem ce_nan {k : ℕ} (hk : k < d.samples) (hn : Dbl.nan ∈ learner (d.getInstance k)) {s : Dbl} (h : CE A learner d s) :
    s = .nan := ceLoop_nan hk hn h

/-- The error measures have a value for all vectors of matching sizes, so that the two theorems are not about nothing. -/
theorem errors_exist (A : Fpu) (hl : ∀ n < d.samples, (learner (d.getInstance n)).length = (d.getTarget n).length) :
    (∃ s, SSE A learner d s) ∧ (∃ s, MSE A learner d s) ∧ (∃ s, RMSE A learner d s) ∧ ∃ s, CE A learner d s := by
  have h1 : ∀ n ≤ d.samples, ∃ s, SSELoop A learner d n s := by
    intro n
    induction n with
    | zero => exact fun _ => ⟨_, rfl⟩
    | succ n ih =>
      intro hn
      obtain ⟨t, ht⟩ := ih (by omega)
      obtain ⟨e, he⟩ := Sums.exists (A := A) (List.zipWith (fun x y => A.mul (A.sub x y) (A.sub x y)) (learner (d.getInstance n))
        (d.getTarget n))
      exact ⟨_, t, e, ht, ⟨hl n (by omega), he⟩, rfl⟩
  have h2 : ∀ n ≤ d.samples, ∃ s, CELoop A learner d n s := by
    intro n
    induction n with
    | zero => exact fun _ => ⟨_, rfl⟩
    | succ n ih =>
      intro hn
      obtain ⟨t, ht⟩ := ih (by omega)
      obtain ⟨e, he⟩ : ∃ e, CrossEntropy A 1 (d.getTarget n).length (row (learner (d.getInstance n))) (row (d.getTarget n)) e := by
        obtain ⟨s, hs⟩ := Sums.exists (A := A) _
        exact ⟨_, s, hs, rfl⟩
      exact ⟨_, t, e, ht, hl n (by omega), he, rfl⟩
  obtain ⟨s, hs⟩ := h1 _ le_rfl
  exact ⟨⟨s, hs⟩, ⟨_, s, hs, rfl⟩, ⟨_, _, ⟨s, hs, rfl⟩, rfl⟩, h2 _ le_rfl⟩

/-- **C146 (regression)**: if one prediction contains NaN, then SSE, MSE and RMSE are NaN. -/
theorem regression_nan {k : ℕ} (hk : k < d.samples) (hn : Dbl.nan ∈ learner (d.getInstance k)) :
    (∀ s, SSE A learner d s → s = .nan) ∧ (∀ s, MSE A learner d s → s = .nan) ∧ (∀ s, RMSE A learner d s → s = .nan) := by
  have h1 : ∀ s, SSE A learner d s → s = .nan := fun s h => sseLoop_nan hk hn h
  have h2 : ∀ s, MSE A learner d s → s = .nan := by
    rintro s ⟨t, ht, rfl⟩
    rw [h1 t ht, div_nan_left]
  refine ⟨h1, h2, ?_⟩
  rintro s ⟨t, ht, rfl⟩
  rw [h2 t ht]
  rfl

theorem not_lt_nan_left (x : Dbl) : ¬ Lt .nan x := fun h => by
  cases x <;> exact h.1

theorem not_lt_nan_right (x : Dbl) : ¬ Lt x .nan := fun h => by
  cases x <;> exact h.1

open Classical in
theorem maxLoop_nan (l : List Dbl) (pos i : ℕ) : maxLoop l pos .nan i = i := by
  induction l generalizing pos with
  | nil => rfl
  | cons x l ih =>
    show (if Lt .nan x then _ else _) = _
    rw [if_neg (not_lt_nan_left x), ih]

open Classical in
/-- **C146 (classification)**: a prediction whose first coefficient is NaN is taken for class 0, whatever its other
coefficients are. -/
theorem nan_class_fails (l : List Dbl) : oneOfCDecoding (.nan :: l) = ok 0 ∧ maxCoeff (.nan :: l) = ok 0 := by
  refine ⟨?_, congrArg ok (maxLoop_nan l 1 0)⟩
  cases l with
  | nil =>
    show ok (if Le (.num (1 / 2)) .nan then 1 else 0) = ok 0
    rw [if_neg (fun h : Le (.num (1 / 2)) .nan => h)]
  | cons y l => exact congrArg ok (maxLoop_nan (y :: l) 1 0)

open Classical in
/-- Other NaNs are ignored: they are like negative infinities. -/
theorem nan_ignored (l : List Dbl) {x : Dbl} (hx : x ≠ .nan) :
    maxCoeff (x :: l) = maxCoeff (x :: l.map fun y => match y with | .nan => .ninf | y => y) := by
  have hninf : ∀ m : Dbl, ¬ Lt m .ninf := by
    rintro m ⟨h1, h2⟩
    cases m
    · exact h1
    · exact h1
    · exact h2 h1
    · exact h1
  have key : ∀ (l : List Dbl) (pos : ℕ) (m : Dbl) (i : ℕ), m ≠ .nan → maxLoop l pos m i =
      maxLoop (l.map fun y => match y with | .nan => .ninf | y => y) pos m i := by
    intro l
    induction l with
    | nil => intro _ _ _ _; rfl
    | cons y l ih =>
      intro pos m i hm
      cases y with
      | nan =>
        show (if Lt m .nan then _ else _) = if Lt m .ninf then _ else _
        rw [if_neg (not_lt_nan_right m), if_neg (hninf m), ih _ _ _ hm]
      | num z =>
        show (if Lt m (.num z) then _ else _) = if Lt m (.num z) then _ else _
        rw [ih _ _ _ hm, ih _ _ _ (by intro h; cases h)]
      | pinf =>
        show (if Lt m .pinf then _ else _) = if Lt m .pinf then _ else _
        rw [ih _ _ _ hm, ih _ _ _ (by intro h; cases h)]
      | ninf =>
        show (if Lt m .ninf then _ else _) = if Lt m .ninf then _ else _
        rw [ih _ _ _ hm, ih _ _ _ (by intro h; cases h)]
  exact congrArg ok (key l 1 x 0 hx)

open Classical in
/-- `accuracy` is the rounded quotient of the number of instances with the same decoded class and the number of instances. -/
theorem accuracy_value {p t : ℕ → ℕ} (hp : ∀ n < d.samples, oneOfCDecoding (learner (d.getInstance n)) = ok (p n))
    (ht : ∀ n < d.samples, oneOfCDecoding (d.getTarget n) = ok (t n)) (h0 : 0 < d.samples) (hN : d.samples ≤ 2 ^ 53) :
    accuracy A learner d = ok (A.rnd ((((range d.samples).filter fun n => p n = t n).card : ℝ) / d.samples)) := by
  have hnat : ∀ k : ℕ, k ≤ 2 ^ 53 → A.rnd (k : ℝ) = .num k := by
    intro k hk
    have := A.rnd_int (k : ℤ) (by rw [abs_of_nonneg (by positivity)]; exact_mod_cast hk)
    simpa using this
  have hloop := forLoop_eq (n := d.samples) (body := fun n s => do
      let c ← correct learner d n
      ok (A.add s (.num (if c then 1 else 0))))
    (fun k => Dbl.num (((range k).filter fun n => p n = t n).card : ℝ)) (by
      intro i hi
      have hc : correct learner d i = ok (decide (p i = t i)) := by
        unfold correct
        rw [hp i hi, ht i hi]
        rfl
      have hcard : (((range (i + 1)).filter fun n => p n = t n).card) = ((range i).filter fun n => p n = t n).card +
          (if p i = t i then 1 else 0) := by
        rw [Finset.range_add_one, Finset.filter_insert]
        split_ifs
        · rw [Finset.card_insert_of_notMem (by simp)]
        · rfl
      have hle : ((range (i + 1)).filter fun n => p n = t n).card ≤ 2 ^ 53 :=
        le_trans (le_trans (Finset.card_filter_le _ _) (by rw [card_range]; omega)) hN
      rw [← hnat _ hle, hcard]
      show (correct learner d i >>= fun c => ok (A.add _ (.num (if c then 1 else 0)))) = _
      rw [hc]
      show ok (A.rnd _) = ok (A.rnd _)
      push_cast
      by_cases h : p i = t i <;> simp [h])
  have hz : Dbl.num (((range 0).filter fun n => p n = t n).card : ℝ) = .num 0 := by simp
  rw [hz] at hloop
  unfold accuracy
  rw [hloop]
  show ok (A.div (.num _) (A.rnd d.samples)) = _
  rw [hnat _ hN]
  exact congrArg ok (if_neg (by exact_mod_cast h0.ne'))

open Classical in
/-- **C146 is false of the code**: the accuracy of a learner that predicts nothing but NaN is the share of class 0. -/
theorem broken_accuracy_fails {t : ℕ → ℕ} (hb : ∀ n < d.samples, ∃ l, learner (d.getInstance n) = .nan :: l)
    (ht : ∀ n < d.samples, oneOfCDecoding (d.getTarget n) = ok (t n)) (h0 : 0 < d.samples) (hN : d.samples ≤ 2 ^ 53) :
    accuracy A learner d = ok (A.rnd ((((range d.samples).filter fun n => t n = 0).card : ℝ) / d.samples)) := by
  have h := accuracy_value (A := A) (learner := learner) (d := d) (p := fun _ => 0) (t := t) (fun n hn => by
    obtain ⟨l, hl⟩ := hb n hn
    rw [hl]
    exact (nan_class_fails l).1) ht h0 hN
  rw [h]
  congr 5
  refine Finset.filter_congr fun n _ => ?_
  exact ⟨fun h => h.symm, fun h => h.symm⟩

/-- In particular a learner that only predicts NaN has the accuracy 1 on instances of class 0. -/
theorem broken_perfect_fails (hb : ∀ n < d.samples, ∃ l, learner (d.getInstance n) = .nan :: l)
    (ht : ∀ n < d.samples, oneOfCDecoding (d.getTarget n) = ok 0) (h0 : 0 < d.samples) (hN : d.samples ≤ 2 ^ 53) :
    accuracy A learner d = ok (.num 1) := by
  classical
  rw [broken_accuracy_fails (A := A) hb (t := fun _ => 0) ht h0 hN]
  have : ((range d.samples).filter fun _ => (0 : ℕ) = 0).card = d.samples := by simp
  rw [this, div_self (by exact_mod_cast h0.ne')]
  refine congrArg ok ?_
  simpa using A.rnd_int 1 (by norm_num)

/-- `confusionMatrix` counts the instances of each class and each decoded prediction. -/
theorem confusion_value {p t : ℕ → ℕ} (hp : ∀ n < d.samples, oneOfCDecoding (learner (d.getInstance n)) = ok (p n))
    (ht : ∀ n < d.samples, oneOfCDecoding (d.getTarget n) = ok (t n))
    (hC : ∀ n < d.samples, t n < d.outputs ∧ p n < d.outputs) :
    confusionMatrix learner d = ok (fun a b => (((range d.samples).filter fun n => t n = a ∧ p n = b).card : ℤ)) := by
  have hloop := forLoop_eq (n := d.samples) (body := fun n M => do
      let t ← oneOfCDecoding (d.getTarget n)
      let p ← oneOfCDecoding (learner (d.getInstance n))
      if t < d.outputs ∧ p < d.outputs then ok (fun a b => if a = t ∧ b = p then M a b + 1 else M a b) else ub)
    (fun k => (fun a b => (((range k).filter fun n => t n = a ∧ p n = b).card : ℤ))) (by
      intro i hi
      show (oneOfCDecoding (d.getTarget i) >>= fun t => oneOfCDecoding (learner (d.getInstance i)) >>= fun p => _) = _
      rw [hp i hi, ht i hi]
      refine (if_pos (hC i hi)).trans (congrArg ok ?_)
      funext a b
      rw [Finset.range_add_one, Finset.filter_insert]
      by_cases h : a = t i ∧ b = p i
      · rw [if_pos h, if_pos ⟨h.1.symm, h.2.symm⟩, Finset.card_insert_of_notMem (by simp)]
        push_cast
        rfl
      · rw [if_neg h, if_neg fun h' => h ⟨h'.1.symm, h'.2.symm⟩])
  have hz : (fun a b => (((range 0).filter fun n => t n = a ∧ p n = b).card : ℤ)) = fun _ _ => 0 := by
    funext a b
    simp
  rw [hz] at hloop
  exact hloop

/-- **C146 is false of the code**: the confusion matrix of a learner that predicts nothing but NaN looks like that of a learner
that always predicts class 0. -/
theorem broken_confusion_fails {t : ℕ → ℕ} (hb : ∀ n < d.samples, ∃ l, learner (d.getInstance n) = .nan :: l)
    (ht : ∀ n < d.samples, oneOfCDecoding (d.getTarget n) = ok (t n)) (hC : ∀ n < d.samples, t n < d.outputs) (a b : ℕ) :
    ∃ M, confusionMatrix learner d = ok M ∧ M a b = if b = 0 then (((range d.samples).filter fun n => t n = a).card : ℤ) else 0 := by
  refine ⟨_, confusion_value (p := fun _ => 0) (t := t) (fun n hn => ?_) ht fun n hn => ⟨hC n hn, ?_⟩, ?_⟩
  · obtain ⟨l, hl⟩ := hb n hn
    rw [hl]
    exact (nan_class_fails l).1
  · have := hC n hn
    omega
  · by_cases h : b = 0
    · rw [if_pos h]
      subst h
      simp
    · rw [if_neg h]
      have : ((range d.samples).filter fun n => t n = a ∧ (0 : ℕ) = b) = ∅ :=
        Finset.filter_eq_empty_iff.2 fun n _ h' => h h'.2.symm
      rw [this]
      rfl

/-- The sum of the weights of some instances in the order of the instances. -/
def weightSum (A : Fpu) (w : ℕ → Dbl) (good : ℕ → Bool) : ℕ → Dbl
  | 0 => .num 0
  | n + 1 => if good n then A.add (weightSum A w good n) (w n) else weightSum A w good n

/-- `weightedAccuracy` is the sum of the weights of the instances with the same decoded class. -/
theorem weighted_value {weights : List Dbl} {p t : ℕ → ℕ}
    (hp : ∀ n < d.samples, oneOfCDecoding (learner (d.getInstance n)) = ok (p n))
    (ht : ∀ n < d.samples, oneOfCDecoding (d.getTarget n) = ok (t n)) (hw : d.samples ≤ weights.length) :
    weightedAccuracy A learner d weights = ok (weightSum A (fun n => weights.getD n .nan) (fun n => decide (p n = t n)) d.samples) := by
  refine forLoop_eq (n := d.samples) (fun k => weightSum A (fun n => weights.getD n .nan) (fun n => decide (p n = t n)) k) ?_
  intro i hi
  have hc : correct learner d i = ok (decide (p i = t i)) := by
    unfold correct
    rw [hp i hi, ht i hi]
    rfl
  have hr : Outcome.read weights i = ok (weights.getD i .nan) := by
    unfold Outcome.read
    rw [List.getD_eq_getElem?_getD, List.getElem?_eq_getElem (by omega)]
    rfl
  show (correct learner d i >>= _) = ok (if decide (p i = t i) then _ else _)
  rw [hc]
  show (if decide (p i = t i) then _ else _) = _
  by_cases h : p i = t i
  · rw [if_pos (decide_eq_true h), if_pos (decide_eq_true h), hr]
    rfl
  · rw [if_neg (fun h' => h (of_decide_eq_true h')), if_neg (fun h' => h (of_decide_eq_true h'))]

/-- **C146 is false of the code**: a learner that predicts nothing but NaN gets the weights of all instances of class 0. -/
theorem broken_weighted_fails {weights : List Dbl} {t : ℕ → ℕ} (hb : ∀ n < d.samples, ∃ l, learner (d.getInstance n) = .nan :: l)
    (ht : ∀ n < d.samples, oneOfCDecoding (d.getTarget n) = ok (t n)) (hw : d.samples ≤ weights.length) :
    weightedAccuracy A learner d weights = ok (weightSum A (fun n => weights.getD n .nan) (fun n => decide (0 = t n)) d.samples) :=
  weighted_value (p := fun _ => 0) (fun n hn => by
    obtain ⟨l, hl⟩ := hb n hn
    rw [hl]
    exact (nan_class_fails l).1) ht hw

/-- **C146 (`MulticlassEvaluator`)**: the reported error is the mean squared error, so that it is NaN if a prediction is NaN. -/
theorem report_error {r : Dbl × ℕ × ℕ} (h : Report A learner d r) :
    MSE A learner d r.1 ∧ ((∃ k < d.samples, Dbl.nan ∈ learner (d.getInstance k)) → r.1 = .nan) := by
  have key : ∀ n q, EvaluateLoop A learner d n q → SSELoop A learner d n q.1 := by
    intro n
    induction n with
    | zero =>
      intro q hq
      rw [show q = _ from hq]
      rfl
    | succ n ih =>
      rintro q ⟨u, err, j1, j2, hu, herr, -, -, rfl⟩
      exact ⟨u.1, err, ih u hu, herr, rfl⟩
  obtain ⟨q, hq, rfl⟩ := h
  have hm : MSE A learner d (A.div q.1 (A.rnd d.samples)) := ⟨q.1, key _ q hq, rfl⟩
  refine ⟨hm, ?_⟩
  rintro ⟨k, hk, hn⟩
  exact (regression_nan hk hn).2.1 _ hm

/-- The report counts the instances with the same decoded class; all others are wrong. -/
theorem report_counts {r : Dbl × ℕ × ℕ} (h : Report A learner d r) {p t : ℕ → ℕ}
    (hp : ∀ n < d.samples, oneOfCDecoding (learner (d.getInstance n)) = ok (p n))
    (ht : ∀ n < d.samples, oneOfCDecoding (d.getTarget n) = ok (t n)) :
    r.2.1 = ((range d.samples).filter fun n => p n = t n).card ∧ r.2.1 + r.2.2 = d.samples := by
  have key : ∀ n ≤ d.samples, ∀ q, EvaluateLoop A learner d n q →
      q.2.1 = ((range n).filter fun n => p n = t n).card ∧ q.2.1 + q.2.2 = n := by
    intro n
    induction n with
    | zero =>
      intro _ q hq
      rw [show q = _ from hq]
      simp
    | succ n ih =>
      rintro hn q ⟨u, err, j1, j2, hu, -, h1, h2, rfl⟩
      obtain ⟨ih1, ih2⟩ := ih (by omega) u hu
      rw [ht n (by omega)] at h1
      rw [hp n (by omega)] at h2
      injection h1 with h1
      injection h2 with h2
      subst h1 h2
      rw [Finset.range_add_one, Finset.filter_insert]
      by_cases h : p n = t n
      · rw [if_pos h, if_pos h.symm, Finset.card_insert_of_notMem (by simp), ← ih1]
        exact ⟨rfl, by show u.2.1 + 1 + u.2.2 = n + 1; omega⟩
      · rw [if_neg h, if_neg fun h' => h h'.symm, ← ih1]
        exact ⟨rfl, by show u.2.1 + (u.2.2 + 1) = n + 1; omega⟩
  obtain ⟨q, hq, rfl⟩ := h
  exact key _ le_rfl q hq

/-- **C146 is false of the code**: the report about a learner that predicts nothing but NaN has the error NaN, and beside it the
instances of class 0 are counted as correct. -/
theorem broken_report_fails {r : Dbl × ℕ × ℕ} (h : Report A learner d r) {t : ℕ → ℕ} (h0 : 0 < d.samples)
    (hb : ∀ n < d.samples, ∃ l, learner (d.getInstance n) = .nan :: l)
    (ht : ∀ n < d.samples, oneOfCDecoding (d.getTarget n) = ok (t n)) :
    r.1 = .nan ∧ r.2.1 = ((range d.samples).filter fun n => 0 = t n).card := by
  refine ⟨(report_error h).2 ⟨0, h0, ?_⟩, (report_counts h (p := fun _ => 0) (fun n hn => ?_) ht).1⟩
  · obtain ⟨l, hl⟩ := hb 0 h0
    rw [hl]
    exact List.mem_cons_self
  · obtain ⟨l, hl⟩ := hb n hn
    rw [hl]
    exact (nan_class_fails l).1

/-- **C146 (`classificationHits`)**: with one output, a prediction that is not a number is undefined behaviour. -/
theorem hits_ub {i : ℕ} (hi : i < d.samples) (h1 : d.outputs = 1) (hfirst : ∀ k < i, ∃ b, hit A learner d k = ok b)
    {l' : List Dbl} (hx : ∃ z, rounded A (d.getTarget i) = ok z)
    {y : Dbl} (hy : learner (d.getInstance i) = y :: l') (hn : ∀ z, y ≠ .num z) : classificationHits A learner d = ub := by
  have hhit : hit A learner d i = ub := by
    obtain ⟨z, hz⟩ := hx
    have hr : rounded A (y :: l') = ub := by
      cases y with
      | num z => exact absurd rfl (hn z)
      | pinf => rfl
      | ninf => rfl
      | nan => rfl
    unfold hit
    rw [if_neg (by omega), hz, hy, hr]
    rfl
  have key : ∀ k ≤ i, ∃ h, forLoop k (fun i h => do
      let b ← hit A learner d i
      ok (if b then h + 1 else h)) 0 = ok h := by
    intro k
    induction k with
    | zero => intro _; exact ⟨0, rfl⟩
    | succ k ih =>
      intro hk
      obtain ⟨h, hh⟩ := ih (by omega)
      obtain ⟨b, hb⟩ := hfirst k (by omega)
      refine ⟨if b then h + 1 else h, ?_⟩
      show (forLoop k _ 0 >>= _) = _
      rw [hh]
      show (hit A learner d k >>= fun b => ok (if b then h + 1 else h)) = _
      rw [hb]
      rfl
  have hlast : ∀ m, forLoop (i + 1 + m) (fun i h => do
      let b ← hit A learner d i
      ok (if b then h + 1 else h)) 0 = ub := by
    intro m
    induction m with
    | zero =>
      obtain ⟨h, hh⟩ := key i le_rfl
      show (forLoop i _ 0 >>= _) = ub
      rw [hh]
      show (hit A learner d i >>= fun b => ok (if b then h + 1 else h)) = _
      rw [hhit]
      rfl
    | succ m ih =>
      show (forLoop (i + 1 + m) _ 0 >>= _) = ub
      rw [ih]
      rfl
  unfold classificationHits
  have := hlast (d.samples - (i + 1))
  rwa [show i + 1 + (d.samples - (i + 1)) = d.samples by omega] at this

open Classical in
theorem maxLoop_exact (l : List ℝ) (pos : ℕ) (m : ℝ) (i : ℕ) : maxLoop (l.map .num) pos (.num m) i = Eval.maxLoop l pos m i := by
  induction l generalizing pos m i with
  | nil => rfl
  | cons x l ih =>
    show (if Lt (.num m) (.num x) then _ else _) = if m < x then _ else _
    by_cases h : m < x
    · rw [if_pos h, if_pos (show Lt (.num m) (.num x) from ⟨h.le, not_le.2 h⟩), ih]
    · rw [if_neg h, if_neg (fun h' : Lt (.num m) (.num x) => h (not_le.1 h'.2)), ih]

open Classical in
/-- For numbers, the decoding is that of the model with real numbers. -/
theorem decoding_exact (l : List ℝ) : oneOfCDecoding (l.map .num) = Eval.oneOfCDecoding l := by
  match l with
  | [] => rfl
  | [x] =>
    show ok (if Le (.num (1 / 2)) (.num x) then 1 else 0) = ok (if x ≥ 1 / 2 then 1 else 0)
    by_cases h : 1 / 2 ≤ x
    · rw [if_pos h, if_pos (show Le (.num (1 / 2)) (.num x) from h)]
    · rw [if_neg h, if_neg (fun h' : Le (.num (1 / 2)) (.num x) => h h')]
  | x :: y :: l => exact congrArg ok (maxLoop_exact (y :: l) 1 x 0)

/-- The hypotheses are met: two instances of class 0, a learner that always predicts NaN. -/
example : ∃ (learner : Learner) (d : Data), (∀ n < d.samples, ∃ l, learner (d.getInstance n) = .nan :: l) ∧
    (∀ n < d.samples, oneOfCDecoding (d.getTarget n) = ok 0) ∧ d.samples = 2 ∧ Dbl.nan ∈ learner (d.getInstance 0) := by
  refine ⟨fun _ => [.nan, .nan], ⟨2, 2, fun _ => [], fun _ => [1, 0].map .num⟩, fun _ _ => ⟨[.nan], rfl⟩, fun _ _ => ?_, rfl, List.mem_cons_self⟩
  show oneOfCDecoding ([1, 0].map .num) = _
  rw [decoding_exact]
  show ok (if (1 : ℝ) < 0 then 1 else 0) = ok 0
  rw [if_neg (by norm_num)]

/-- The hypotheses of `hits_ub` are met: one instance, one output, the target 0 and an infinite prediction. -/
example : ∃ (learner : Learner) (d : Data), 0 < d.samples ∧ d.outputs = 1 ∧ d.getTarget 0 = [.num 0] ∧
    (∃ z, rounded gridFpu (d.getTarget 0) = ok z) ∧ learner (d.getInstance 0) = [.pinf] := by
  refine ⟨fun _ => [.pinf], ⟨1, 1, fun _ => [], fun _ => [.num 0]⟩, Nat.one_pos, rfl, rfl, ⟨0, ?_⟩, rfl⟩
  have h : gridFpu.add (.num 0) (.num (1 / 2)) = .num (1 / 2) := by
    show gridFpu.rnd (0 + 1 / 2) = _
    have := gridFpu.rnd_pow 1 (by norm_num)
    rw [zero_add, one_div]
    simpa using this
  show (match gridFpu.add (.num 0) (.num (1 / 2)) with
    | .num y => if -2 ^ 31 ≤ ⌊y⌋ ∧ ⌊y⌋ < 2 ^ 31 then ok ⌊y⌋ else ub
    | _ => ub) = ok 0
  rw [h]
  have hf : ⌊(1 / 2 : ℝ)⌋ = 0 := by
    rw [Int.floor_eq_zero_iff]
    exact ⟨by norm_num, by norm_num⟩
  show (if -2 ^ 31 ≤ ⌊(1 / 2 : ℝ)⌋ ∧ ⌊(1 / 2 : ℝ)⌋ < 2 ^ 31 then ok ⌊(1 / 2 : ℝ)⌋ else ub) = ok 0
  rw [hf, if_pos (by norm_num)]

end

end Verif.EvalFp
