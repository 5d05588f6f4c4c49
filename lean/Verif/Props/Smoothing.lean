import Verif.Model.Smoothing
import Mathlib.Analysis.SpecificLimits.Basic
import Mathlib.Analysis.SpecialFunctions.Pow.Real
import Mathlib.Tactic.Linarith
import Mathlib.Tactic.Ring
import Mathlib.Tactic.NormNum

/-!
# Double exponential smoothing (C88)
-/

namespace Verif.Smoothing

open Filter Topology

noncomputable section

/-! ## Spec -/

/-- Spec: the signal is a straight line from sample `m` on. -/
def LineFrom (m : ℕ) (x : ℕ → ℝ) (a b : ℝ) : Prop := ∀ n : ℕ, m ≤ n → x n = a + b * n

/-- Spec: errors of the estimates after the samples `x 0, ..., x n`, for the line `a + b * t`. -/
def errors (d : Smoother) (a b : ℝ) (n : ℕ) : ℝ × ℝ := (d.sn - (a + b * n), d.bn - b)

/-- A measure of the errors. -/
def size (e : ℝ × ℝ) : ℝ := 0.81 * e.1 ^ 2 - 0.09 * e.1 * e.2 + 0.1 * e.2 ^ 2

/-! ## Counter and constants -/

theorem next_t (d : Smoother) (x : ℝ) : (d.next x).t = d.t + 1 := by
  unfold Smoother.next
  split
  · rfl
  · split <;> rfl

theorem next_const (d : Smoother) (x : ℝ) : (d.next x).alpha = d.alpha ∧ (d.next x).beta = d.beta ∧ (d.next x).xn = x := by
  unfold Smoother.next
  split
  · exact ⟨rfl, rfl, rfl⟩
  · split <;> exact ⟨rfl, rfl, rfl⟩

theorem after_t (d : Smoother) (x : ℕ → ℝ) : ∀ n, (d.after x n).t = d.t + n
  | 0 => rfl
  | n + 1 => by rw [Smoother.after, next_t, after_t d x n, add_assoc]

theorem after_const (d : Smoother) (x : ℕ → ℝ) : ∀ n, (d.after x n).alpha = d.alpha ∧ (d.after x n).beta = d.beta
  | 0 => ⟨rfl, rfl⟩
  | n + 1 => ⟨(next_const _ _).1.trans (after_const d x n).1, (next_const _ _).2.1.trans (after_const d x n).2⟩

theorem after_xn (d : Smoother) (x : ℕ → ℝ) (n : ℕ) : (d.after x (n + 1)).xn = x n := (next_const _ _).2.2

/-! ## Restart -/

theorem next_first (d : Smoother) (h : d.t = 0) (x : ℝ) : (d.next x).sn = x ∧ (d.next x).bn = 0 := by
  unfold Smoother.next
  rw [if_pos h]
  exact ⟨rfl, rfl⟩

theorem next_second (d : Smoother) (h : d.t = 1) (x : ℝ) : (d.next x).sn = d.xn ∧ (d.next x).bn = x - d.xn := by
  unfold Smoother.next
  rw [if_neg (by omega), if_pos h]
  exact ⟨rfl, rfl⟩

theorem next_later (d : Smoother) (h : 2 ≤ d.t) (x : ℝ) : (d.next x).sn = d.alpha * x + (1 - d.alpha) * (d.sn + d.bn) ∧
    (d.next x).bn = d.beta * ((d.alpha * x + (1 - d.alpha) * (d.sn + d.bn)) - d.sn) + (1 - d.beta) * d.bn := by
  unfold Smoother.next
  rw [if_neg (by omega), if_neg (by omega)]
  exact ⟨rfl, rfl⟩

/-- **C88 (restart)**: the outputs after `restart` do not depend on anything that happened before. -/
theorem restart_forgets (d d' : Smoother) (ha : d.alpha = d'.alpha) (hb : d.beta = d'.beta) (x : ℕ → ℝ) (n : ℕ) :
    (d.restart.after x (n + 1)).output = (d'.restart.after x (n + 1)).output := by
  have key : ∀ n, (d.restart.after x (n + 1)).sn = (d'.restart.after x (n + 1)).sn ∧
      (d.restart.after x (n + 1)).bn = (d'.restart.after x (n + 1)).bn := by
    intro n
    induction n with
    | zero =>
      have h1 := next_first d.restart rfl (x 0)
      have h2 := next_first d'.restart rfl (x 0)
      exact ⟨h1.1.trans h2.1.symm, h1.2.trans h2.2.symm⟩
    | succ n ih =>
      have t1 : (d.restart.after x (n + 1)).t = n + 1 := by rw [after_t]; show 0 + (n + 1) = _; omega
      have t2 : (d'.restart.after x (n + 1)).t = n + 1 := by rw [after_t]; show 0 + (n + 1) = _; omega
      rw [Smoother.after, Smoother.after.eq_2 d'.restart]
      cases n with
      | zero =>
        have h1 := next_second _ t1 (x 1)
        have h2 := next_second _ t2 (x 1)
        rw [after_xn] at h1 h2
        exact ⟨h1.1.trans h2.1.symm, h1.2.trans h2.2.symm⟩
      | succ n =>
        have h1 := next_later _ (by rw [t1]; omega) (x (n + 1 + 1))
        have h2 := next_later _ (by rw [t2]; omega) (x (n + 1 + 1))
        have c1 := after_const d.restart x (n + 1 + 1)
        have c2 := after_const d'.restart x (n + 1 + 1)
        have e1 : d.restart.alpha = d'.restart.alpha := ha
        have e2 : d.restart.beta = d'.restart.beta := hb
        rw [h1.1, h2.1, h1.2, h2.2, c1.1, c1.2, c2.1, c2.2, ih.1, ih.2, e1, e2]
        exact ⟨rfl, rfl⟩
  unfold Smoother.output
  rw [(key n).1, (key n).2]

/-! ## Lines -/

theorem size_nonneg (e : ℝ × ℝ) : 0 ≤ size e := by
  unfold size
  nlinarith [sq_nonneg (e.1 - e.2 / 18), sq_nonneg e.2]

/-- Both errors are bounded by the measure. -/
theorem errors_le (e : ℝ × ℝ) : e.1 ^ 2 ≤ 2 * size e ∧ e.2 ^ 2 ≤ 11 * size e ∧ (e.1 + e.2) ^ 2 ≤ 16 * size e := by
  unfold size
  refine ⟨?_, ?_, ?_⟩
  · nlinarith [sq_nonneg (e.1 - e.2 / 18), sq_nonneg (e.1 - e.2), sq_nonneg (e.1 * 9 - e.2 * 3), sq_nonneg (e.1 * 0.45 - e.2 * 0.2)]
  · nlinarith [sq_nonneg (e.1 - e.2 / 18), sq_nonneg (e.2)]
  · nlinarith [sq_nonneg (e.1 - e.2 / 7), sq_nonneg e.2, sq_nonneg (e.1 * 11.96 - 1.72 * e.2)]

/-- One sample on the line makes the measure exactly ten times smaller. -/
theorem size_next {d : Smoother} (ha : d.alpha = 0.9) (hb : d.beta = 0.9) (h : 2 ≤ d.t) {a b : ℝ} {n : ℕ} {x : ℝ}
    (hx : x = a + b * ((n + 1 : ℕ) : ℝ)) : size (errors (d.next x) a b (n + 1)) = size (errors d a b n) / 10 := by
  obtain ⟨h1, h2⟩ := next_later d h x
  unfold errors size
  rw [h1, h2, ha, hb, hx]
  push_cast
  ring

/-- **C88 (lines)**: if the signal is a straight line from some sample on, whatever it was before, then the measure of the errors
of position and velocity is exactly ten times smaller after each further sample. -/
theorem line_errors {d : Smoother} (ha : d.alpha = 0.9) (hb : d.beta = 0.9) {x : ℕ → ℝ} {a b : ℝ} {m : ℕ} (hm : 1 ≤ m)
    (hx : LineFrom (m + 1) x a b) (k : ℕ) :
    size (errors (d.restart.after x (m + 1 + k)) a b (m + k)) = size (errors (d.restart.after x (m + 1)) a b m) / 10 ^ k := by
  induction k with
  | zero => simp
  | succ k ih =>
    have ht : (d.restart.after x (m + 1 + k)).t = m + 1 + k := by rw [after_t]; show 0 + (m + 1 + k) = _; omega
    have hc := after_const d.restart x (m + 1 + k)
    have := size_next (hc.1.trans ha) (hc.2.trans hb) (by rw [ht]; omega) (n := m + k) (a := a) (b := b)
      (x := x (m + 1 + k)) (by rw [hx _ (by omega)]; congr 2; push_cast; ring)
    rw [show m + 1 + (k + 1) = m + 1 + k + 1 by omega, show m + (k + 1) = m + k + 1 by omega, Smoother.after, this, ih,
      pow_succ]
    field_simp

/-- **C88 (tracking)**: the forecast then approaches the next sample, and the velocity the slope of the line. -/
theorem line_tracked {d : Smoother} (ha : d.alpha = 0.9) (hb : d.beta = 0.9) {x : ℕ → ℝ} {a b : ℝ} {m : ℕ} (hm : 1 ≤ m)
    (hx : LineFrom (m + 1) x a b) :
    Tendsto (fun k : ℕ => (d.restart.after x (m + 1 + k)).output.1 - x (m + 1 + k)) atTop (𝓝 0) ∧
      Tendsto (fun k : ℕ => (d.restart.after x (m + 1 + k)).output.2) atTop (𝓝 b) := by
  set S := size (errors (d.restart.after x (m + 1)) a b m) with hS
  have hlim : Tendsto (fun k : ℕ => S / 10 ^ k) atTop (𝓝 0) := by
    have : Tendsto (fun k : ℕ => S * (1 / 10 : ℝ) ^ k) atTop (𝓝 (S * 0)) :=
      (tendsto_pow_atTop_nhds_zero_of_lt_one (by norm_num) (by norm_num)).const_mul S
    rw [mul_zero] at this
    refine this.congr fun k => ?_
    rw [one_div, inv_pow, div_eq_mul_inv]
  have sq0 : ∀ f : ℕ → ℝ, (∀ k, f k ^ 2 ≤ 16 * (S / 10 ^ k)) → Tendsto f atTop (𝓝 0) := by
    intro f hf
    have h2 : Tendsto (fun k => f k ^ 2) atTop (𝓝 0) := by
      refine squeeze_zero (fun k => sq_nonneg _) hf ?_
      simpa using hlim.const_mul 16
    have h3 := (Real.continuous_sqrt.tendsto 0).comp h2
    rw [Real.sqrt_zero] at h3
    refine (tendsto_zero_iff_abs_tendsto_zero f).2 (h3.congr fun k => ?_)
    exact Real.sqrt_sq_eq_abs _
  constructor
  · refine sq0 _ fun k => ?_
    have he := (errors_le (errors (d.restart.after x (m + 1 + k)) a b (m + k))).2.2
    rw [line_errors ha hb hm hx k] at he
    refine le_trans (le_of_eq ?_) he
    congr 1
    unfold Smoother.output errors
    rw [hx (m + 1 + k) (by omega)]
    push_cast
    ring
  · have := sq0 (fun k => (d.restart.after x (m + 1 + k)).output.2 - b) fun k => by
      have he := (errors_le (errors (d.restart.after x (m + 1 + k)) a b (m + k))).2.1
      rw [line_errors ha hb hm hx k] at he
      have h0 : 0 ≤ S / 10 ^ k := div_nonneg (size_nonneg _) (by positivity)
      exact he.trans (by linarith)
    have h := this.add_const b
    simpa using h

/-- **C88 (constants)**: a constant signal is reproduced exactly from the first sample on, with velocity 0. -/
theorem constant_exact (d : Smoother) (v : ℝ) (n : ℕ) : (d.restart.after (fun _ => v) (n + 1)).output = (v, 0) := by
  have key : ∀ n, (d.restart.after (fun _ => v) (n + 1)).sn = v ∧ (d.restart.after (fun _ => v) (n + 1)).bn = 0 := by
    intro n
    induction n with
    | zero => exact next_first d.restart rfl v
    | succ n ih =>
      have t1 : (d.restart.after (fun _ => v) (n + 1)).t = n + 1 := by rw [after_t]; show 0 + (n + 1) = _; omega
      rw [Smoother.after]
      cases n with
      | zero =>
        have h1 := next_second _ t1 v
        rw [after_xn] at h1
        exact ⟨h1.1, by rw [h1.2, sub_self]⟩
      | succ n =>
        have h1 := next_later _ (by rw [t1]; omega) v
        rw [h1.1, h1.2, ih.1, ih.2]
        constructor <;> ring
  unfold Smoother.output
  rw [(key n).1, (key n).2, add_zero]

/-- **C88 (bounded)**: for bounded signals forecast and velocity are bounded, however long the signal is. -/
theorem bounded {d : Smoother} (ha : d.alpha = 0.9) (hb : d.beta = 0.9) {x : ℕ → ℝ} {M : ℝ} (hx : ∀ n, |x n| ≤ M) (n : ℕ) :
    |(d.restart.after x (n + 1)).output.1| ≤ 6 * M ∧ |(d.restart.after x (n + 1)).output.2| ≤ 5 * M := by
  have hM : 0 ≤ M := (abs_nonneg _).trans (hx 0)
  have hsq : ∀ n, x n ^ 2 ≤ M ^ 2 := fun n => by
    rw [← sq_abs]
    exact pow_le_pow_left₀ (abs_nonneg _) (hx n) 2
  have key : ∀ n, size ((d.restart.after x (n + 1)).sn, (d.restart.after x (n + 1)).bn) ≤ 2 * M ^ 2 := by
    intro n
    induction n with
    | zero =>
      have h := next_first d.restart rfl (x 0)
      rw [Smoother.after, Smoother.after, h.1, h.2]
      unfold size
      nlinarith [hsq 0]
    | succ n ih =>
      have t1 : (d.restart.after x (n + 1)).t = n + 1 := by rw [after_t]; show 0 + (n + 1) = _; omega
      rw [Smoother.after]
      cases n with
      | zero =>
        have h := next_second _ t1 (x 1)
        rw [after_xn] at h
        rw [h.1, h.2]
        unfold size
        nlinarith [hsq 0, hsq 1, sq_nonneg (x 0 + x 1), sq_nonneg (x 0 - x 1)]
      | succ n =>
        have h := next_later _ (by rw [t1]; omega) (x (n + 1 + 1))
        have c := after_const d.restart x (n + 1 + 1)
        have ca : (d.restart.after x (n + 1 + 1)).alpha = 0.9 := c.1.trans ha
        have cb : (d.restart.after x (n + 1 + 1)).beta = 0.9 := c.2.trans hb
        rw [ca, cb] at h
        rw [h.1, h.2]
        revert ih
        generalize (d.restart.after x (n + 1 + 1)).sn = s
        generalize (d.restart.after x (n + 1 + 1)).bn = b
        intro ih
        have hx2 := hsq (n + 1 + 1)
        generalize x (n + 1 + 1) = z at hx2 ⊢
        have hpar := size_nonneg (0.1 * (s + b) - 0.9 * z, 0.9 * (0.1 * (s + b) - s) + 0.1 * b - 0.81 * z)
        have e : size (0.9 * z + (1 - 0.9) * (s + b), 0.9 * (0.9 * z + (1 - 0.9) * (s + b) - s) + (1 - 0.9) * b) +
            size (0.1 * (s + b) - 0.9 * z, 0.9 * (0.1 * (s + b) - s) + 0.1 * b - 0.81 * z) =
            0.2 * size (s, b) + 1.3122 * z ^ 2 := by
          unfold size
          ring
        nlinarith
  have hn := key n
  have he := errors_le ((d.restart.after x (n + 1)).sn, (d.restart.after x (n + 1)).bn)
  unfold Smoother.output
  refine ⟨abs_le_of_sq_le_sq ?_ (by linarith), abs_le_of_sq_le_sq ?_ (by linarith)⟩
  · have := he.2.2
    dsimp only at this ⊢
    nlinarith [sq_nonneg M]
  · have := he.2.1
    dsimp only at this ⊢
    nlinarith [sq_nonneg M]

/-- **C88 is false at the start**: the forecast after the second sample of a line is the second sample and not the third one,
because the position estimate is set to the first sample (line 54); after the third sample the velocity is 81 percent too
high. -/
theorem second_forecast_fails (a b : ℝ) :
    (Smoother.new.after (fun n => a + b * n) 2).output = (a + b, b) ∧
      (Smoother.new.after (fun n => a + b * n) 3).output = (a + 3 * b + 0.71 * b, b + 0.81 * b) := by
  constructor
  · norm_num [Smoother.after, Smoother.new, Smoother.restart, Smoother.next, Smoother.output]
  · norm_num [Smoother.after, Smoother.new, Smoother.restart, Smoother.next, Smoother.output, Smoother.position]
    constructor <;> ring

/-- The hypotheses of `line_errors` and `line_tracked` are met: a jump, then a line. -/
example : Smoother.new.alpha = 0.9 ∧ Smoother.new.beta = 0.9 ∧
    LineFrom (1 + 1) (fun n : ℕ => if n < 2 then 7 else 1 + 2 * (n : ℝ)) 1 2 ∧
    size (errors (Smoother.new.restart.after (fun n : ℕ => if n < 2 then 7 else 1 + 2 * (n : ℝ)) (1 + 1)) 1 2 1) ≠ 0 := by
  refine ⟨rfl, rfl, fun n hn => if_neg (by omega), ?_⟩
  norm_num [Smoother.after, Smoother.new, Smoother.restart, Smoother.next, errors, size]

end

end Verif.Smoothing
