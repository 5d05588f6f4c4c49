import Verif.Model.Boltzmann
import Verif.Props.Draw
import Mathlib.Analysis.SpecialFunctions.ExpDeriv
import Mathlib.Algebra.BigOperators.Ring.Finset
import Mathlib.Algebra.Order.BigOperators.Group.Finset

/-!
# Restricted Boltzmann machines sample from their Boltzmann distribution: C79
-/

namespace Verif.Boltz

open Finset Verif.NN Verif.Unsup

noncomputable section

/-! ## Spec: the Boltzmann distribution -/

/-- The state in which exactly the units of `S` are on. -/
def on (S : Finset ℕ) : ℕ → ℝ := fun j => if j ∈ S then 1 else 0

/-- The energy of visible units `v` and hidden units `h`. -/
def Machine.energy (m : Machine) (v h : ℕ → ℝ) : ℝ :=
  -(∑ j ∈ range m.H, ∑ i ∈ range m.D, h j * m.W j i * v i) - ∑ i ∈ range m.D, m.bv i * v i - ∑ j ∈ range m.H, m.bh j * h j

/-- The Boltzmann factor; probabilities are proportional to it. -/
def Machine.factor (m : Machine) (v h : ℕ → ℝ) : ℝ := Real.exp (-m.energy v h)

/-- All states of `K` binary units. -/
def states (K : ℕ) : Finset (Finset ℕ) := (range K).powerset

/-- The probability of the hidden units `S`, given the visible units. -/
def Machine.hiddenGiven (m : Machine) (v : ℕ → ℝ) (S : Finset ℕ) : ℝ :=
  m.factor v (on S) / ∑ S' ∈ states m.H, m.factor v (on S')

/-- The probability of the visible units `V`, given the hidden units. -/
def Machine.visibleGiven (m : Machine) (h : ℕ → ℝ) (V : Finset ℕ) : ℝ :=
  m.factor (on V) h / ∑ V' ∈ states m.D, m.factor (on V') h

/-- The normalisation of the joint distribution. -/
def Machine.partition (m : Machine) : ℝ := ∑ V ∈ states m.D, ∑ S ∈ states m.H, m.factor (on V) (on S)

/-- The joint probability of visible and hidden units. -/
def Machine.joint (m : Machine) (V S : Finset ℕ) : ℝ := m.factor (on V) (on S) / m.partition

/-- No unit leaves the range in which the code computes the logistic function without clipping (src/ActivationFunctions.cpp
lines 42-49). -/
def Machine.Moderate (m : Machine) : Prop :=
  (∀ j < m.H, ∑ i ∈ range m.D, |m.W j i| + |m.bh j| ≤ 45) ∧ ∀ i < m.D, ∑ j ∈ range m.H, |m.W j i| + |m.bv i| ≤ 45

/-- The units are between 0 and 1. -/
def Units (K : ℕ) (x : ℕ → ℝ) : Prop := ∀ k < K, 0 ≤ x k ∧ x k ≤ 1

/-- `F` looks only at the first `K` entries. -/
def Local (K : ℕ) (F : (ℕ → ℝ) → ℝ) : Prop := ∀ x y, (∀ k < K, x k = y k) → F x = F y

/-! ## Independent units -/

theorem on_units (K : ℕ) (S : Finset ℕ) : Units K (on S) := fun k _ => by
  unfold on
  split <;> norm_num

/-- The expected value of `F` if the units are on with the probabilities `p`, independent of each other. -/
def bernoulli (K : ℕ) (p : ℕ → ℝ) (F : (ℕ → ℝ) → ℝ) : ℝ :=
  ∑ S ∈ states K, (∏ j ∈ range K, if j ∈ S then p j else 1 - p j) * F (on S)

theorem sum_states_succ (K : ℕ) (G : Finset ℕ → ℝ) :
    ∑ S ∈ states (K + 1), G S = ∑ S ∈ states K, (G S + G (insert K S)) := by
  rw [states, range_add_one, sum_powerset_insert notMem_range_self, sum_add_distrib, states]

theorem not_mem_states {K : ℕ} {S : Finset ℕ} (hS : S ∈ states K) : K ∉ S := fun h =>
  absurd (mem_range.1 (mem_powerset.1 hS h)) (lt_irrefl _)

theorem mem_insert_lt {K j : ℕ} {S : Finset ℕ} (hj : j < K) : j ∈ insert K S ↔ j ∈ S := by
  rw [mem_insert]
  constructor
  · rintro (h | h)
    · omega
    · exact h
  · exact Or.inr

theorem prod_states (K : ℕ) (a b : ℕ → ℝ) :
    ∑ S ∈ states K, ∏ j ∈ range K, (if j ∈ S then a j else b j) = ∏ j ∈ range K, (a j + b j) := by
  induction K with
  | zero => simp [states]
  | succ K ih =>
    rw [sum_states_succ, prod_range_succ, ← ih, Finset.sum_mul]
    refine Finset.sum_congr rfl fun S hS => ?_
    rw [prod_range_succ, prod_range_succ, if_neg (not_mem_states hS), if_pos (mem_insert_self _ _)]
    have : ∏ j ∈ range K, (if j ∈ insert K S then a j else b j) = ∏ j ∈ range K, (if j ∈ S then a j else b j) :=
      Finset.prod_congr rfl fun j hj => by simp only [mem_insert_lt (mem_range.1 hj)]
    rw [this]
    ring

theorem bernoulli_succ (K : ℕ) (p : ℕ → ℝ) {F : (ℕ → ℝ) → ℝ} (hF : Local (K + 1) F) :
    bernoulli (K + 1) p F = bernoulli K p fun x =>
      p K * F (fun k => if k = K then 1 else x k) + (1 - p K) * F fun k => if k = K then 0 else x k := by
  rw [bernoulli, sum_states_succ, bernoulli]
  refine Finset.sum_congr rfl fun S hS => ?_
  have hK := not_mem_states hS
  rw [prod_range_succ, prod_range_succ, if_neg hK, if_pos (mem_insert_self _ _)]
  have h1 : ∏ j ∈ range K, (if j ∈ insert K S then p j else 1 - p j) = ∏ j ∈ range K, (if j ∈ S then p j else 1 - p j) :=
    Finset.prod_congr rfl fun j hj => by simp only [mem_insert_lt (mem_range.1 hj)]
  have h2 : F (on (insert K S)) = F fun k => if k = K then 1 else on S k := by
    refine hF _ _ fun k _ => ?_
    unfold on
    by_cases h : k = K
    · simp [h]
    · simp [h]
  have h3 : F (on S) = F fun k => if k = K then 0 else on S k := by
    refine hF _ _ fun k _ => ?_
    unfold on
    by_cases h : k = K
    · rw [if_pos h, h, if_neg hK]
    · rw [if_neg h]
  rw [h1, h2, h3]
  ring

theorem bernoulli_const (K : ℕ) (p : ℕ → ℝ) (c : ℝ) : bernoulli K p (fun _ => c) = c := by
  rw [bernoulli, ← Finset.sum_mul, prod_states]
  simp

theorem bernoulli_congr {K : ℕ} {p p' : ℕ → ℝ} (hp : ∀ j < K, p j = p' j) {F F' : (ℕ → ℝ) → ℝ}
    (hF : ∀ S ∈ states K, F (on S) = F' (on S)) : bernoulli K p F = bernoulli K p' F' := by
  refine Finset.sum_congr rfl fun S hS => ?_
  rw [hF S hS]
  congr 1
  exact Finset.prod_congr rfl fun j hj => by rw [hp j (mem_range.1 hj)]

/-- The probability that one unit is on. -/
theorem bernoulli_unit {K : ℕ} (p : ℕ → ℝ) {k : ℕ} (hk : k < K) : bernoulli K p (fun x => x k) = p k := by
  induction K with
  | zero => omega
  | succ K ih =>
    rw [bernoulli_succ K p (F := fun x => x k) (fun x y h => h k hk)]
    by_cases h : k = K
    · subst h
      simp only [if_true]
      rw [bernoulli_const]
      ring
    · simp only [if_neg h]
      have e : bernoulli K p (fun x => p K * x k + (1 - p K) * x k) = bernoulli K p fun x => x k :=
        bernoulli_congr (fun _ _ => rfl) fun S _ => by ring
      rw [e, ih (by omega)]

/-! ## What the loops sample -/

theorem sampleCells_append (q : ℝ → ℝ) (p : Batch) (A B : List (ℕ × ℕ)) (m : Batch) (f : Batch → ℝ) :
    (sampleCells p (A ++ B) m).expect q f = (sampleCells p A m).expect q fun h => (sampleCells p B h).expect q f := by
  induction A generalizing m with
  | nil => rfl
  | cons c A ih => simp only [List.cons_append, sampleCells, Draw.expect, ih]

/-- Sampling in row `n` leaves the other rows as they are. -/
theorem expect_congr_rows (q : ℝ → ℝ) (p : Batch) (n : ℕ) {f g : Batch → ℝ} :
    ∀ (cs : List (ℕ × ℕ)) (m : Batch), (∀ c ∈ cs, c.1 = n) → (∀ h : Batch, (∀ r, r ≠ n → h r = m r) → f h = g h) →
      (sampleCells p cs m).expect q f = (sampleCells p cs m).expect q g := by
  intro cs
  induction cs with
  | nil => intro m _ h; exact h m fun _ _ => rfl
  | cons c cs ih =>
    intro m hc h
    have step : ∀ x, (sampleCells p cs (setEntry m c.1 c.2 x)).expect q f = (sampleCells p cs (setEntry m c.1 c.2 x)).expect q g := by
      intro x
      refine ih _ (fun c' h' => hc c' (List.mem_cons_of_mem _ h')) fun h' hh => h h' fun r hr => ?_
      rw [hh r hr]
      funext o
      have : c.1 = n := hc c List.mem_cons_self
      rw [setEntry, if_neg (by rintro ⟨h1, _⟩; exact hr (h1.trans this))]
    simp only [sampleCells, Draw.expect, step]

/-- Sampling one row. -/
theorem sampleCells_row (q : ℝ → ℝ) (p : Batch) (n : ℕ) : ∀ (K : ℕ) (m : Batch) {F : (ℕ → ℝ) → ℝ}, Local K F →
    (sampleCells p ((List.range K).map fun j => (n, j)) m).expect q (fun h => F (h n)) =
      bernoulli K (fun j => q (p n j)) F := by
  intro K
  induction K with
  | zero =>
    intro m F hF
    show F (m n) = _
    rw [bernoulli]
    simp only [states, range_zero, powerset_empty, sum_singleton, prod_empty, one_mul]
    exact hF _ _ fun k hk => absurd hk (by omega)
  | succ K ih =>
    intro m F hF
    have hset : ∀ (h : Batch) (x : ℝ), setEntry h n K x n = fun k => if k = K then x else h n k := by
      intro h x
      funext k
      simp [setEntry]
    rw [List.range_succ, List.map_append, sampleCells_append, bernoulli_succ K _ hF]
    have e : ∀ h : Batch, (sampleCells p ([K].map fun j => (n, j)) h).expect q (fun h => F (h n)) =
        q (p n K) * F (fun k => if k = K then 1 else h n k) + (1 - q (p n K)) * F fun k => if k = K then 0 else h n k := by
      intro h
      show q (p n K) * F (setEntry h n K 1 n) + (1 - q (p n K)) * F (setEntry h n K 0 n) = _
      rw [hset, hset]
    simp only [e]
    refine ih m (F := fun x => q (p n K) * F (fun k => if k = K then 1 else x k) +
      (1 - q (p n K)) * F fun k => if k = K then 0 else x k) fun x y hxy => ?_
    have h1 : ∀ c : ℝ, F (fun k => if k = K then c else x k) = F fun k => if k = K then c else y k := by
      intro c
      refine hF _ _ fun k hk => ?_
      by_cases h : k = K
      · rw [if_pos h, if_pos h]
      · rw [if_neg h, if_neg h, hxy k (by omega)]
    simp only [h1]

theorem cells_succ (N K : ℕ) : cells (N + 1) K = cells N K ++ (List.range K).map fun j => (N, j) := by
  rw [cells, List.range_succ, List.flatMap_append]
  simp [cells]

/-- **Rows are sampled independently**: the expected value of a product of functions of the rows is the product of the expected
values. -/
theorem sampleCells_rows (q : ℝ → ℝ) (p : Batch) (K : ℕ) {F : ℕ → (ℕ → ℝ) → ℝ} (hF : ∀ n, Local K (F n)) :
    ∀ (N : ℕ) (m : Batch), (sampleCells p (cells N K) m).expect q (fun h => ∏ n ∈ range N, F n (h n)) =
      ∏ n ∈ range N, bernoulli K (fun j => q (p n j)) (F n) := by
  intro N
  induction N with
  | zero => intro m; rfl
  | succ N ih =>
    intro m
    rw [cells_succ, sampleCells_append, prod_range_succ, ← ih m]
    have e : ∀ h : Batch, (sampleCells p ((List.range K).map fun j => (N, j)) h).expect q (fun h => ∏ n ∈ range (N + 1), F n (h n)) =
        (bernoulli K (fun j => q (p N j)) (F N)) * ∏ n ∈ range N, F n (h n) := by
      intro h
      rw [expect_congr_rows q p N (g := fun h' => (∏ n ∈ range N, F n (h n)) * F N (h' N)) _ h, Draw.expect_mul,
        sampleCells_row q p N K h (hF N), mul_comm]
      · intro c hc
        obtain ⟨j, _, rfl⟩ := List.mem_map.1 hc
        rfl
      · intro h' hh
        rw [prod_range_succ]
        congr 1
        refine Finset.prod_congr rfl fun n hn => ?_
        rw [hh n (ne_of_lt (mem_range.1 hn))]
    simp only [e]
    rw [Draw.expect_mul, mul_comm]

/-- One row of a sample. -/
theorem sampleCells_cells (q : ℝ → ℝ) (p : Batch) {K N n : ℕ} (hn : n < N) (m : Batch) {F : (ℕ → ℝ) → ℝ} (hF : Local K F) :
    (sampleCells p (cells N K) m).expect q (fun h => F (h n)) = bernoulli K (fun j => q (p n j)) F := by
  have h := sampleCells_rows q p K (F := fun r => if r = n then F else fun _ => 1)
    (fun r => by
      by_cases h : r = n
      · simp only [if_pos h]; exact hF
      · simp only [if_neg h]; exact fun _ _ _ => rfl) N m
  have e1 : ∀ h : Batch, ∏ r ∈ range N, (if r = n then F else fun _ => 1) (h r) = F (h n) := by
    intro h
    rw [Finset.prod_eq_single n]
    · rw [if_pos rfl]
    · intro r _ hr
      rw [if_neg hr]
    · intro hnot
      exact absurd (mem_range.2 hn) hnot
  have e2 : ∏ r ∈ range N, bernoulli K (fun j => q (p r j)) (if r = n then F else fun _ => 1) =
      bernoulli K (fun j => q (p n j)) F := by
    rw [Finset.prod_eq_single n]
    · rw [if_pos rfl]
    · intro r _ hr
      rw [if_neg hr, bernoulli_const]
    · intro hnot
      exact absurd (mem_range.2 hn) hnot
  simp only [e1, e2] at h
  exact h

/-! ## The conditional distributions -/

/-- `ph` for one visible vector -/
def Machine.hp (m : Machine) (v : ℕ → ℝ) (j : ℕ) : ℝ := m.hiddenProb (fun _ => v) 0 j

/-- `pv` for one hidden vector -/
def Machine.vp (m : Machine) (h : ℕ → ℝ) (i : ℕ) : ℝ := m.visibleProb (fun _ => h) 0 i

theorem hiddenProb_row (m : Machine) (v : Batch) (n : ℕ) : m.hiddenProb v n = m.hp (v n) := rfl

theorem visibleProb_row (m : Machine) (h : Batch) (n : ℕ) : m.visibleProb h n = m.vp (h n) := rfl

theorem hp_local (m : Machine) (j : ℕ) : Local m.D fun v => m.hp v j := by
  intro x y h
  show Act.logistic.apply (∑ i ∈ range m.D, x i * m.W j i + m.bh j) = Act.logistic.apply (∑ i ∈ range m.D, y i * m.W j i + m.bh j)
  rw [Finset.sum_congr rfl fun i hi => by rw [h i (mem_range.1 hi)]]

theorem vp_local (m : Machine) (i : ℕ) : Local m.H fun h => m.vp h i := by
  intro x y h
  show Act.logistic.apply (∑ j ∈ range m.H, x j * m.W j i + m.bv i) = Act.logistic.apply (∑ j ∈ range m.H, y j * m.W j i + m.bv i)
  rw [Finset.sum_congr rfl fun j hj => by rw [h j (mem_range.1 hj)]]

theorem logistic_exact {a : ℝ} (h : |a| ≤ 45) : Act.logistic.apply a = Real.exp a / (Real.exp a + 1) := by
  have := abs_le.1 h
  rw [Act.apply, if_neg (by linarith [this.1]), if_neg (by linarith [this.2]), Real.exp_neg]
  have := Real.exp_pos a
  field_simp

theorem sum_abs_le {K : ℕ} {x w : ℕ → ℝ} (hx : Units K x) (b : ℝ) (h : ∑ k ∈ range K, |w k| + |b| ≤ 45) :
    |∑ k ∈ range K, x k * w k + b| ≤ 45 := by
  refine (abs_add_le _ _).trans (le_trans (add_le_add ?_ le_rfl) h)
  refine (Finset.abs_sum_le_sum_abs _ _).trans (Finset.sum_le_sum fun k hk => ?_)
  obtain ⟨h0, h1⟩ := hx k (mem_range.1 hk)
  rw [abs_mul, abs_of_nonneg h0]
  nlinarith [abs_nonneg (w k)]

theorem on_mul (S : Finset ℕ) (j : ℕ) (c : ℝ) : on S j * c = if j ∈ S then c else 0 := by
  unfold on
  split <;> simp

/-- The Boltzmann factor as a product over the hidden units. -/
theorem factor_hidden (m : Machine) (v : ℕ → ℝ) (S : Finset ℕ) : m.factor v (on S) =
    Real.exp (∑ i ∈ range m.D, m.bv i * v i) *
      ∏ j ∈ range m.H, if j ∈ S then Real.exp (∑ i ∈ range m.D, v i * m.W j i + m.bh j) else 1 := by
  have e : -m.energy v (on S) = ∑ i ∈ range m.D, m.bv i * v i +
      ∑ j ∈ range m.H, if j ∈ S then ∑ i ∈ range m.D, v i * m.W j i + m.bh j else 0 := by
    have h1 : ∑ j ∈ range m.H, (if j ∈ S then ∑ i ∈ range m.D, v i * m.W j i + m.bh j else 0) =
        ∑ j ∈ range m.H, ∑ i ∈ range m.D, on S j * m.W j i * v i + ∑ j ∈ range m.H, m.bh j * on S j := by
      rw [← sum_add_distrib]
      refine Finset.sum_congr rfl fun j _ => ?_
      rw [← on_mul, mul_add, Finset.mul_sum, mul_comm (m.bh j)]
      congr 1
      exact Finset.sum_congr rfl fun i _ => by ring
    rw [h1, Machine.energy]
    ring
  rw [Machine.factor, e, Real.exp_add, Real.exp_sum (range m.H)]
  refine congrArg (Real.exp (∑ i ∈ range m.D, m.bv i * v i) * ·) (Finset.prod_congr rfl fun j _ => ?_)
  split
  · rfl
  · exact Real.exp_zero

/-- The Boltzmann factor as a product over the visible units. -/
theorem factor_visible (m : Machine) (h : ℕ → ℝ) (V : Finset ℕ) : m.factor (on V) h =
    Real.exp (∑ j ∈ range m.H, m.bh j * h j) *
      ∏ i ∈ range m.D, if i ∈ V then Real.exp (∑ j ∈ range m.H, h j * m.W j i + m.bv i) else 1 := by
  have e : -m.energy (on V) h = ∑ j ∈ range m.H, m.bh j * h j +
      ∑ i ∈ range m.D, if i ∈ V then ∑ j ∈ range m.H, h j * m.W j i + m.bv i else 0 := by
    have h1 : ∑ i ∈ range m.D, (if i ∈ V then ∑ j ∈ range m.H, h j * m.W j i + m.bv i else 0) =
        ∑ j ∈ range m.H, ∑ i ∈ range m.D, h j * m.W j i * on V i + ∑ i ∈ range m.D, m.bv i * on V i := by
      rw [Finset.sum_comm, ← sum_add_distrib]
      refine Finset.sum_congr rfl fun i _ => ?_
      rw [← on_mul, mul_add, Finset.mul_sum, mul_comm (m.bv i)]
      congr 1
      exact Finset.sum_congr rfl fun j _ => by ring
    rw [h1, Machine.energy]
    ring
  rw [Machine.factor, e, Real.exp_add, Real.exp_sum (range m.D)]
  refine congrArg (Real.exp (∑ j ∈ range m.H, m.bh j * h j) * ·) (Finset.prod_congr rfl fun j _ => ?_)
  split
  · rfl
  · exact Real.exp_zero

theorem product_law (K : ℕ) (c : ℝ) (hc : c ≠ 0) (a p : ℕ → ℝ) (hp : ∀ j < K, p j = Real.exp (a j) / (Real.exp (a j) + 1))
    {S : Finset ℕ} : (∏ j ∈ range K, if j ∈ S then p j else 1 - p j) =
      (c * ∏ j ∈ range K, if j ∈ S then Real.exp (a j) else 1) /
        ∑ S' ∈ states K, c * ∏ j ∈ range K, if j ∈ S' then Real.exp (a j) else 1 := by
  rw [← Finset.mul_sum, prod_states, mul_div_mul_left _ _ hc, ← Finset.prod_div_distrib]
  refine Finset.prod_congr rfl fun j hj => ?_
  have := Real.exp_pos (a j)
  rw [hp j (mem_range.1 hj)]
  split
  · rfl
  · field_simp
    ring

theorem hp_exact {m : Machine} (hm : m.Moderate) {v : ℕ → ℝ} (hv : Units m.D v) {j : ℕ} (hj : j < m.H) :
    m.hp v j = Real.exp (∑ i ∈ range m.D, v i * m.W j i + m.bh j) / (Real.exp (∑ i ∈ range m.D, v i * m.W j i + m.bh j) + 1) :=
  logistic_exact (sum_abs_le hv _ (hm.1 j hj))

theorem vp_exact {m : Machine} (hm : m.Moderate) {h : ℕ → ℝ} (hh : Units m.H h) {i : ℕ} (hi : i < m.D) :
    m.vp h i = Real.exp (∑ j ∈ range m.H, h j * m.W j i + m.bv i) / (Real.exp (∑ j ∈ range m.H, h j * m.W j i + m.bv i) + 1) :=
  logistic_exact (sum_abs_le hh _ (hm.2 i hi))

/-- The hidden units are independent given the visible units, with the probabilities that the code computes. -/
theorem hiddenGiven_eq {m : Machine} (hm : m.Moderate) {v : ℕ → ℝ} (hv : Units m.D v) (S : Finset ℕ) :
    m.hiddenGiven v S = ∏ j ∈ range m.H, if j ∈ S then m.hp v j else 1 - m.hp v j := by
  rw [product_law m.H _ (Real.exp_ne_zero (∑ i ∈ range m.D, m.bv i * v i)) _ _ fun j hj => hp_exact hm hv hj, Machine.hiddenGiven]
  simp only [factor_hidden]

theorem visibleGiven_eq {m : Machine} (hm : m.Moderate) {h : ℕ → ℝ} (hh : Units m.H h) (V : Finset ℕ) :
    m.visibleGiven h V = ∏ i ∈ range m.D, if i ∈ V then m.vp h i else 1 - m.vp h i := by
  rw [product_law m.D _ (Real.exp_ne_zero (∑ j ∈ range m.H, m.bh j * h j)) _ _ fun i hi => vp_exact hm hh hi, Machine.visibleGiven]
  simp only [factor_visible]

theorem bernoulli_hidden {m : Machine} (hm : m.Moderate) {v : ℕ → ℝ} (hv : Units m.D v) (F : (ℕ → ℝ) → ℝ) :
    bernoulli m.H (m.hp v) F = ∑ S ∈ states m.H, m.hiddenGiven v S * F (on S) :=
  Finset.sum_congr rfl fun S _ => by rw [hiddenGiven_eq hm hv]

theorem bernoulli_visible {m : Machine} (hm : m.Moderate) {h : ℕ → ℝ} (hh : Units m.H h) (F : (ℕ → ℝ) → ℝ) :
    bernoulli m.D (m.vp h) F = ∑ V ∈ states m.D, m.visibleGiven h V * F (on V) :=
  Finset.sum_congr rfl fun V _ => by rw [visibleGiven_eq hm hh]

/-- **C79 (hidden units)**: `sampleHgivenV` samples every row from the conditional distribution of the Boltzmann distribution,
and independently of the other rows. -/
theorem hidden_sampled {m : Machine} (hm : m.Moderate) (s : Chain) (hv : ∀ n < s.rows, Units m.D (s.v n))
    {F : ℕ → (ℕ → ℝ) → ℝ} (hF : ∀ n, Local m.H (F n)) :
    (m.sampleHgivenV s).expect id (fun t => ∏ n ∈ range s.rows, F n (t.h n)) =
      ∏ n ∈ range s.rows, ∑ S ∈ states m.H, m.hiddenGiven (s.v n) S * F n (on S) := by
  rw [Machine.sampleHgivenV, Draw.bind_expect]
  refine (sampleCells_rows id _ m.H hF s.rows s.h).trans ?_
  exact Finset.prod_congr rfl fun n hn => bernoulli_hidden hm (hv n (mem_range.1 hn)) (F n)

/-- **C79 (visible units)** -/
theorem visible_sampled {m : Machine} (hm : m.Moderate) (s : Chain) (hh : ∀ n < s.rows, Units m.H (s.h n))
    {F : ℕ → (ℕ → ℝ) → ℝ} (hF : ∀ n, Local m.D (F n)) :
    (m.sampleVgivenH s).expect id (fun t => ∏ n ∈ range s.rows, F n (t.v n)) =
      ∏ n ∈ range s.rows, ∑ V ∈ states m.D, m.visibleGiven (s.h n) V * F n (on V) := by
  rw [Machine.sampleVgivenH, Draw.bind_expect]
  refine (sampleCells_rows id _ m.D hF s.rows s.v).trans ?_
  exact Finset.prod_congr rfl fun n hn => bernoulli_visible hm (hh n (mem_range.1 hn)) (F n)

/-- **C79 (probabilities)**: `ph` holds the probabilities that the hidden units are on, given the visible units. -/
theorem hidden_probability {m : Machine} (hm : m.Moderate) (v : Batch) {n : ℕ} (hv : Units m.D (v n)) {j : ℕ} (hj : j < m.H) :
    m.hiddenProb v n j = ∑ S ∈ (states m.H).filter fun S => j ∈ S, m.hiddenGiven (v n) S := by
  have h := bernoulli_unit (m.hp (v n)) hj
  rw [bernoulli_hidden hm hv] at h
  rw [hiddenProb_row, ← h, Finset.sum_filter]
  refine Finset.sum_congr rfl fun S _ => ?_
  rw [on]
  split <;> simp

theorem visible_probability {m : Machine} (hm : m.Moderate) (h : Batch) {n : ℕ} (hh : Units m.H (h n)) {i : ℕ} (hi : i < m.D) :
    m.visibleProb h n i = ∑ V ∈ (states m.D).filter fun V => i ∈ V, m.visibleGiven (h n) V := by
  have e := bernoulli_unit (m.vp (h n)) hi
  rw [bernoulli_visible hm hh] at e
  rw [visibleProb_row, ← e, Finset.sum_filter]
  refine Finset.sum_congr rfl fun V _ => ?_
  rw [on]
  split <;> simp

end

end Verif.Boltz
