import Verif.Model.Draw
import Mathlib.Algebra.BigOperators.Fin
import Mathlib.Algebra.BigOperators.Pi
import Mathlib.Algebra.Order.Floor.Ring
import Mathlib.Tactic.Ring
import Mathlib.Tactic.Linarith
import Mathlib.Tactic.FieldSimp
import Mathlib.Tactic.NormNum
import Mathlib.Algebra.Order.Archimedean.Real.Basic
import Mathlib.Algebra.BigOperators.Field

/-!
# Expected values of programs with random comparisons
-/

namespace Verif.Draw

open Finset

noncomputable section

variable {α β : Type}

/-! ## Algebra -/

theorem bind_expect (q : ℝ → ℝ) (d : Draw α) (k : α → Draw β) (f : β → ℝ) :
    (d.bind k).expect q f = d.expect q fun a => (k a).expect q f := by
  induction d with
  | ret a => rfl
  | compare p k' ih => simp only [bind, expect, ih]

theorem expect_const (q : ℝ → ℝ) (d : Draw α) (c : ℝ) : d.expect q (fun _ => c) = c := by
  induction d with
  | ret a => rfl
  | compare p k ih => rw [expect, ih, ih]; ring

theorem expect_add (q : ℝ → ℝ) (d : Draw α) (f g : α → ℝ) :
    d.expect q (fun a => f a + g a) = d.expect q f + d.expect q g := by
  induction d with
  | ret a => rfl
  | compare p k ih => simp only [expect, ih]; ring

theorem expect_mul (q : ℝ → ℝ) (d : Draw α) (c : ℝ) (f : α → ℝ) :
    d.expect q (fun a => c * f a) = c * d.expect q f := by
  induction d with
  | ret a => rfl
  | compare p k ih => simp only [expect, ih]; ring

theorem expect_sum (q : ℝ → ℝ) (d : Draw α) (n : ℕ) (f : ℕ → α → ℝ) :
    d.expect q (fun a => ∑ k ∈ range n, f k a) = ∑ k ∈ range n, d.expect q (f k) := by
  induction n with
  | zero => simpa using expect_const q d 0
  | succ n ih => simp only [sum_range_succ, expect_add, ih]

/-! ## The generator -/

theorem fires_eq {M : ℕ} (r : ℕ) (p : ℝ) : fires M r p = .ok (decide (p > (r : ℝ) / M)) := by
  unfold fires Rng.generate
  rw [Outcome.check_true (by norm_num : (1 : ℝ) ≥ 0)]
  simp

/-- How often a comparison with `rand()` is true: for how many of the `RAND_MAX + 1` values. -/
def rate (M : ℕ) (p : ℝ) : ℝ := (((range (M + 1)).filter fun r : ℕ => (r : ℝ) / M < p).card : ℝ) / (M + 1 : ℝ)

/-- The average over the values of `rand()` is the expected value with these rates. -/
theorem average_eq (M : ℕ) (d : Draw α) (f : α → ℝ) : d.average M f = d.expect (rate M) f := by
  induction d with
  | ret a => rfl
  | compare p k ih =>
    have hM : (M + 1 : ℝ) ≠ 0 := by positivity
    have e : ∀ r : ℕ, (match fires M r p with
        | .ok b => (k b).average M f
        | _ => 0) = if (r : ℝ) / M < p then (k true).expect (rate M) f else (k false).expect (rate M) f := by
      intro r
      rw [fires_eq]
      by_cases h : (r : ℝ) / M < p
      · simp only [h, decide_true, if_true, ih]
      · simp only [h, decide_false, if_false, ih]
    rw [average, expect]
    refine (congrArg (· / (M + 1 : ℝ)) (Finset.sum_congr rfl fun r _ => e r)).trans ?_
    rw [sum_ite, sum_const, sum_const, nsmul_eq_mul, nsmul_eq_mul]
    have hc := card_filter_add_card_filter_not (s := range (M + 1)) (p := fun r : ℕ => (r : ℝ) / M < p)
    rw [card_range] at hc
    have hc' : (((range (M + 1)).filter fun r : ℕ => ¬ (r : ℝ) / M < p).card : ℝ) = (M + 1 : ℝ) * (1 - rate M p) := by
      rw [rate, mul_sub, mul_one, mul_div_cancel₀ _ hM, eq_sub_iff_add_eq]
      have : ((((range (M + 1)).filter fun r : ℕ => (r : ℝ) / M < p).card + ((range (M + 1)).filter fun r : ℕ => ¬ (r : ℝ) / M < p).card : ℕ) : ℝ) = ((M + 1 : ℕ) : ℝ) := by
        rw [hc]
      push_cast at this
      linarith
    have hc2 : (((range (M + 1)).filter fun r : ℕ => (r : ℝ) / M < p).card : ℝ) = (M + 1 : ℝ) * rate M p := by
      rw [rate, mul_div_cancel₀ _ hM]
    rw [hc', hc2]
    field_simp

/-- Spec: the values of `rand()` in one execution with `n` calls. -/
def sequence {M n : ℕ} (r : Fin n → Fin (M + 1)) (t : ℕ) : ℕ := if h : t < n then r ⟨t, h⟩ else 0

/-- `average` is the mean over all sequences of values of `rand()`, each counted once. -/
theorem average_sequences (M : ℕ) (f : α → ℝ) : ∀ (n : ℕ) (d : Draw α), d.AtMost n →
    d.average M f = (∑ r : Fin n → Fin (M + 1), match d.run M (sequence r) with
      | .ok a => f a
      | _ => 0) / (M + 1 : ℝ) ^ n := by
  intro n
  induction n with
  | zero =>
    intro d hd
    cases d with
    | ret a => simp [average, run]
    | compare p k => exact absurd hd (by simp [AtMost])
  | succ n ih =>
    intro d hd
    have hM : (M + 1 : ℝ) ≠ 0 := by positivity
    cases d with
    | ret a =>
      simp only [average, run, sum_const, card_univ, Fintype.card_fun, Fintype.card_fin, nsmul_eq_mul]
      push_cast
      field_simp
    | compare p k =>
      have hd' : ∀ b, AtMost n (k b) := hd
      rw [← (Fin.consEquiv fun _ : Fin (n + 1) => Fin (M + 1)).sum_comp, Fintype.sum_prod_type]
      rw [average, Finset.sum_range, pow_succ, ← div_div]
      refine congrArg (· / (M + 1 : ℝ)) ?_
      rw [Finset.sum_div]
      refine Finset.sum_congr rfl fun r0 _ => ?_
      rw [fires_eq]
      simp only
      rw [ih _ (hd' _)]
      refine congrArg (· / (M + 1 : ℝ) ^ n) (Finset.sum_congr rfl fun r _ => ?_)
      have e0 : sequence ((Fin.consEquiv fun _ : Fin (n + 1) => Fin (M + 1)) (r0, r)) 0 = (r0 : ℕ) := by
        simp [sequence, Fin.consEquiv]
      have e1 : (fun t => sequence ((Fin.consEquiv fun _ : Fin (n + 1) => Fin (M + 1)) (r0, r)) (t + 1)) = sequence r := by
        funext t
        unfold sequence
        by_cases h : t < n
        · rw [dif_pos (by omega), dif_pos h]
          congr 1
        · rw [dif_neg (by omega), dif_neg h]
      rw [run, e0, e1, fires_eq, Outcome.ok_bind]

/-- The rate is the probability up to `1 / (RAND_MAX + 1)`. -/
theorem rate_close {M : ℕ} (hM : 0 < M) {p : ℝ} (h0 : 0 ≤ p) (h1 : p ≤ 1) :
    |rate M p - p| ≤ 1 / (M + 1 : ℝ) ∧ 0 ≤ rate M p ∧ rate M p ≤ 1 := by
  have hM' : (0 : ℝ) < M := by exact_mod_cast hM
  have hM1 : (0 : ℝ) < (M + 1 : ℝ) := by linarith
  have e : ((range (M + 1)).filter fun r : ℕ => (r : ℝ) / M < p) = range ⌈p * M⌉₊ := by
    ext r
    rw [mem_filter, mem_range, mem_range, Nat.lt_ceil, div_lt_iff₀ hM']
    constructor
    · exact fun h => h.2
    · intro h
      refine ⟨?_, h⟩
      have : (r : ℝ) < M := lt_of_lt_of_le h (by nlinarith)
      have : r < M := by exact_mod_cast this
      omega
  have hpM : 0 ≤ p * M := mul_nonneg h0 hM'.le
  have hup : (⌈p * M⌉₊ : ℝ) < p * M + 1 := Nat.ceil_lt_add_one hpM
  have hlo : p * M ≤ ⌈p * M⌉₊ := Nat.le_ceil _
  have hr : rate M p = (⌈p * M⌉₊ : ℝ) / (M + 1 : ℝ) := by rw [rate, e, card_range]
  have hle : (⌈p * M⌉₊ : ℝ) ≤ M := by
    have : ⌈p * M⌉₊ ≤ M := Nat.ceil_le.2 (by nlinarith)
    exact_mod_cast this
  refine ⟨?_, ?_, ?_⟩
  · rw [hr, abs_le]
    have : (⌈p * M⌉₊ : ℝ) / (M + 1 : ℝ) - p = ((⌈p * M⌉₊ : ℝ) - p * M - p) / (M + 1 : ℝ) := by
      field_simp
      ring
    rw [this]
    constructor
    · rw [neg_div' , div_le_div_iff_of_pos_right hM1]
      linarith
    · rw [div_le_div_iff_of_pos_right hM1]
      linarith
  · rw [hr]
    positivity
  · rw [hr, div_le_one hM1]
    linarith

/-! ## Other probabilities -/

/-- Spec: `q` maps probabilities to probabilities. -/
def Probability (q : ℝ → ℝ) : Prop := ∀ p, 0 ≤ p → p ≤ 1 → 0 ≤ q p ∧ q p ≤ 1

theorem expect_bounds {q : ℝ → ℝ} (hq : Probability q) {d : Draw α} (hd : d.Proper) {f : α → ℝ} {lo hi : ℝ}
    (hf : ∀ a, lo ≤ f a ∧ f a ≤ hi) : lo ≤ d.expect q f ∧ d.expect q f ≤ hi := by
  induction d with
  | ret a => exact hf a
  | compare p k ih =>
    obtain ⟨h0, h1, hk⟩ := hd
    obtain ⟨q0, q1⟩ := hq p h0 h1
    obtain ⟨a1, a2⟩ := ih true (hk true)
    obtain ⟨b1, b2⟩ := ih false (hk false)
    rw [expect]
    constructor <;> nlinarith

/-- If two generators differ by at most `ε` for every probability, the expected values of a program with at most `n`
comparisons differ by at most `n * ε * (hi - lo)`. -/
theorem expect_close {q q' : ℝ → ℝ} (hq : Probability q) (hq' : Probability q') {ε : ℝ}
    (hε : ∀ p, 0 ≤ p → p ≤ 1 → |q p - q' p| ≤ ε) {f : α → ℝ} {lo hi : ℝ} (hf : ∀ a, lo ≤ f a ∧ f a ≤ hi) :
    ∀ (n : ℕ) (d : Draw α), d.AtMost n → d.Proper → |d.expect q f - d.expect q' f| ≤ n * ε * (hi - lo) := by
  have hε0 : 0 ≤ ε := le_trans (abs_nonneg _) (hε 0 le_rfl zero_le_one)
  intro n
  induction n with
  | zero =>
    intro d hd _
    cases d with
    | ret a => simp [expect]
    | compare p k => exact absurd hd (by simp [AtMost])
  | succ n ih =>
    intro d hd hp
    cases d with
    | ret a =>
      have := hf a
      simp only [expect, sub_self, abs_zero]
      exact mul_nonneg (mul_nonneg (by positivity) hε0) (by linarith [this.1, this.2])
    | compare p k =>
      obtain ⟨h0, h1, hk⟩ := hp
      obtain ⟨q0, q1⟩ := hq p h0 h1
      have e1 := ih (k true) (hd true) (hk true)
      have e0 := ih (k false) (hd false) (hk false)
      obtain ⟨a1, a2⟩ := expect_bounds hq' (hk true) hf
      obtain ⟨b1, b2⟩ := expect_bounds hq' (hk false) hf
      rw [expect, expect]
      set A := (k true).expect q f
      set B := (k false).expect q f
      set A' := (k true).expect q' f
      set B' := (k false).expect q' f
      have hd1 : |A' - B'| ≤ hi - lo := abs_le.2 ⟨by linarith, by linarith⟩
      have heq : q p * A + (1 - q p) * B - (q' p * A' + (1 - q' p) * B') =
          q p * (A - A') + (1 - q p) * (B - B') + (q p - q' p) * (A' - B') := by ring
      rw [heq]
      refine (abs_add_three _ _ _).trans ?_
      rw [abs_mul, abs_mul, abs_mul, abs_of_nonneg q0, abs_of_nonneg (sub_nonneg.2 q1)]
      have h3 : |q p - q' p| * |A' - B'| ≤ ε * (hi - lo) :=
        mul_le_mul (hε p h0 h1) hd1 (abs_nonneg _) hε0
      push_cast
      nlinarith

/-- The generator of the library in place of an exact one. -/
theorem average_close {M : ℕ} (hM : 0 < M) {f : α → ℝ} {lo hi : ℝ} (hf : ∀ a, lo ≤ f a ∧ f a ≤ hi) {n : ℕ} {d : Draw α}
    (hn : d.AtMost n) (hd : d.Proper) : |d.average M f - d.expect id f| ≤ n / (M + 1 : ℝ) * (hi - lo) := by
  rw [average_eq]
  have := expect_close (q := rate M) (q' := id) (fun p h0 h1 => (rate_close hM h0 h1).2) (fun p h0 h1 => ⟨h0, h1⟩)
    (fun p h0 h1 => (rate_close hM h0 h1).1) hf n d hn hd
  rwa [mul_one_div] at this

end

end Verif.Draw
