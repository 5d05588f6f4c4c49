import Verif.Props.InputRotation
import Verif.Props.Momentum
import Mathlib.Analysis.SpecificLimits.Basic

/-!
# Individual learning rates: C141
-/

namespace Verif.Opt

open Finset

/-! ## Specification (OpenANN/optimization/MBSGD.h lines 83-97) -/

/-- A gain within its limits -/
noncomputable def limited (lo hi gain : ℝ) : ℝ := min hi (max lo gain)

/-- The documented gain: it grows if two consecutive steps `d`, `d'` of a weight have the same direction and shrinks if they have
opposite directions. -/
noncomputable def documentedGain (lo hi d d' gain : ℝ) : ℝ := limited lo hi (if 0 ≤ d' * d then gain + 0.05 else gain * 0.95)

theorem limited_ge {lo hi : ℝ} (h : lo ≤ hi) (x : ℝ) : lo ≤ limited lo hi x := le_min h (le_max_left _ _)

theorem limited_le (lo hi x : ℝ) : limited lo hi x ≤ hi := min_le_left _ _

/-! ## One update -/

section Update

variable {o : MBSGD} (hu : o.useGain)
include hu

theorem update_gains (obj : Obj) (b : List ℕ) (p : ℕ) :
    (o.update obj b).1.gains p = limited o.minGain o.maxGain
      (if 0 ≤ o.momentum p * ((o.lookAhead obj).result b).2 p then o.gains p + 0.05 else o.gains p * 0.95) := by
  classical
  show o.newGains ((o.lookAhead obj).result b).2 p = _
  rw [MBSGD.newGains, if_pos hu]
  rfl

theorem update_step (obj : Obj) (b : List ℕ) (p : ℕ) :
    (o.update obj b).1.momentum p = o.eta * o.momentum p -
      o.alpha * (((o.lookAhead obj).result b).2 p * (o.update obj b).1.gains p) := by
  classical
  show o.eta * o.momentum p - o.alpha * o.scaled ((o.lookAhead obj).result b).2 p = _
  rw [MBSGD.scaled, if_pos hu]
  rfl

theorem update_gains_pos (hlo : 0 < o.minGain) (hle : o.minGain ≤ o.maxGain) (obj : Obj) (b : List ℕ) (p : ℕ) :
    0 < (o.update obj b).1.gains p := by
  rw [update_gains hu]
  exact lt_of_lt_of_le hlo (limited_ge hle _)

/-- **C141 (false)** (src/MBSGD.cpp lines 110-113 multiply the last step with the gradient, which points into the opposite direction of the
new step): whenever the direction of the steps of a weight is reversed, its gain grows. -/
theorem reversal_grows (ha : 0 < o.alpha) (he : 0 ≤ o.eta) (hlo : 0 < o.minGain) (hle : o.minGain ≤ o.maxGain) (obj : Obj)
    (b : List ℕ) (p : ℕ) (h : (o.update obj b).1.momentum p * o.momentum p < 0) :
    (o.update obj b).1.gains p = limited o.minGain o.maxGain (o.gains p + 0.05) := by
  have hpos := update_gains_pos hu hlo hle obj b p
  rw [update_gains hu, if_pos]
  rw [update_step hu] at h
  by_contra hc
  push Not at hc
  set g := ((o.lookAhead obj).result b).2 p
  set γ := (o.update obj b).1.gains p
  have h1 : 0 ≤ o.eta * (o.momentum p * o.momentum p) := mul_nonneg he (mul_self_nonneg _)
  have h2 : 0 < o.alpha * γ * -(o.momentum p * g) := mul_pos (mul_pos ha hpos) (by linarith)
  have e : (o.eta * o.momentum p - o.alpha * (g * γ)) * o.momentum p =
      o.eta * (o.momentum p * o.momentum p) + o.alpha * γ * -(o.momentum p * g) := by ring
  linarith

/-- **C141 (false)**: whenever a weight goes on downhill, its gain shrinks. -/
theorem downhill_shrinks (ha : 0 < o.alpha) (he : 0 ≤ o.eta) (hlo : 0 < o.minGain) (hle : o.minGain ≤ o.maxGain) (obj : Obj)
    (b : List ℕ) (p : ℕ) (h : o.momentum p * ((o.lookAhead obj).result b).2 p < 0) :
    0 < (o.update obj b).1.momentum p * o.momentum p ∧
      (o.update obj b).1.gains p = limited o.minGain o.maxGain (o.gains p * 0.95) := by
  have hpos := update_gains_pos hu hlo hle obj b p
  refine ⟨?_, by rw [update_gains hu, if_neg (not_le.2 h)]⟩
  rw [update_step hu]
  set g := ((o.lookAhead obj).result b).2 p
  set γ := (o.update obj b).1.gains p
  have h1 : 0 ≤ o.eta * (o.momentum p * o.momentum p) := mul_nonneg he (mul_self_nonneg _)
  have h2 : 0 < o.alpha * γ * -(o.momentum p * g) := mul_pos (mul_pos ha hpos) (by linarith)
  have e : (o.eta * o.momentum p - o.alpha * (g * γ)) * o.momentum p =
      o.eta * (o.momentum p * o.momentum p) + o.alpha * γ * -(o.momentum p * g) := by ring
  linarith

/-- Without momentum the gain is always the contrary of the documented one, unless the last step or the gradient is zero. -/
theorem kept_shrinks (ha : 0 < o.alpha) (he : o.eta = 0) (hlo : 0 < o.minGain) (hle : o.minGain ≤ o.maxGain) (obj : Obj)
    (b : List ℕ) (p : ℕ) (h : 0 < (o.update obj b).1.momentum p * o.momentum p) :
    (o.update obj b).1.gains p = limited o.minGain o.maxGain (o.gains p * 0.95) := by
  have hpos := update_gains_pos hu hlo hle obj b p
  refine (downhill_shrinks hu ha he.ge hlo hle obj b p ?_).2
  rw [update_step hu, he, zero_mul, zero_sub] at h
  set g := ((o.lookAhead obj).result b).2 p
  set γ := (o.update obj b).1.gains p
  by_contra hc
  push Not at hc
  have h2 : 0 ≤ o.alpha * γ * (o.momentum p * g) := mul_nonneg (mul_nonneg ha.le hpos.le) hc
  have e : -(o.alpha * (g * γ)) * o.momentum p = -(o.alpha * γ * (o.momentum p * g)) := by ring
  linarith

/-- **C141 (partial)**: the documented rule holds if the last step or the gradient is zero, in particular for the first update of
a run. -/
theorem gain_rule_partial (obj : Obj) (b : List ℕ) (p : ℕ) (he : 0 ≤ o.eta)
    (h : o.momentum p = 0 ∨ ((o.lookAhead obj).result b).2 p = 0) :
    (o.update obj b).1.gains p = documentedGain o.minGain o.maxGain (o.momentum p) ((o.update obj b).1.momentum p) (o.gains p) := by
  have h0 : o.momentum p * ((o.lookAhead obj).result b).2 p = 0 := by
    rcases h with h | h <;> rw [h] <;> simp
  have h1 : 0 ≤ (o.update obj b).1.momentum p * o.momentum p := by
    rw [update_step hu]
    rcases h with h | h
    · rw [h, mul_zero]
    · rw [h, zero_mul, mul_zero, sub_zero, mul_assoc]
      exact mul_nonneg he (mul_self_nonneg _)
  rw [update_gains hu, h0, if_pos le_rfl, documentedGain, if_pos h1]

end Update

/-! ## Straight slopes -/

section Slope

variable {D : Descent} {p : ℕ}

theorem gainNext_pos (hlo : 0 < D.minGain) (hle : D.minGain ≤ D.maxGain) (t : ℕ) (x : Point) : 0 < D.gainNext t x p :=
  lt_of_lt_of_le hlo (limited_ge hle _)

theorem slope_at {c : ℝ} (ha : ∀ t, 0 < D.alpha t) (he : ∀ t, 0 ≤ D.eta t) (hlo : 0 < D.minGain) (h1 : D.minGain ≤ 1)
    (h2 : 1 ≤ D.maxGain) (hc : c ≠ 0) (hg : ∀ t w, D.grad t w p = c) (t : ℕ) :
    (D.at_ (t + 1)).d p * c < 0 ∧ (D.at_ (t + 1)).gain p = max D.minGain (min D.maxGain 1.05 * 0.95 ^ t) := by
  have hcc : 0 < c * c := mul_self_pos.2 hc
  have hstep : ∀ t, (D.at_ t).d p * c ≤ 0 → (D.at_ (t + 1)).d p * c < 0 := fun t h => by
    show (D.eta t * (D.at_ t).d p - D.alpha t * (D.grad t (D.eval t (D.at_ t)) p * D.gainNext t (D.at_ t) p)) * c < 0
    rw [hg]
    have hγ := gainNext_pos (p := p) hlo (h1.trans h2) t (D.at_ t)
    have a1 : 0 < D.alpha t * D.gainNext t (D.at_ t) p * (c * c) := mul_pos (mul_pos (ha t) hγ) hcc
    have a2 := mul_nonneg (he t) (neg_nonneg.2 h)
    nlinarith
  induction t with
  | zero =>
    refine ⟨hstep 0 (by show (0 : ℝ) * c ≤ 0; rw [zero_mul]), ?_⟩
    show gainRule _ _ (0 : ℝ) _ (1 : ℝ) = _
    rw [gainRule, zero_mul, if_pos le_rfl, pow_zero, mul_one, max_eq_right (show D.minGain ≤ 1 + 0.05 by linarith),
      max_eq_right (le_min (h1.trans h2) (by linarith))]
    norm_num
  | succ t ih =>
    refine ⟨hstep _ ih.1.le, ?_⟩
    show gainRule D.minGain D.maxGain ((D.at_ (t + 1)).d p) (D.grad (t + 1) _ p) ((D.at_ (t + 1)).gain p) = _
    rw [hg, gainRule, if_neg (not_le.2 ih.1), ih.2, max_mul_of_nonneg _ _ (by norm_num), ← max_assoc,
      max_eq_left (show D.minGain * 0.95 ≤ D.minGain by nlinarith), mul_assoc, ← pow_succ]
    refine min_eq_right (max_le (h1.trans h2) ?_)
    have : min D.maxGain 1.05 * 0.95 ^ (t + 1) ≤ min D.maxGain 1.05 * 1 :=
      mul_le_mul_of_nonneg_left (pow_le_one₀ (by norm_num) (by norm_num)) (le_min (by linarith) (by norm_num))
    rw [mul_one] at this
    exact this.trans (min_le_left _ _)

end Slope

/-- Configurations with individual learning rates as the constructor accepts them -/
structure MBSGD.Individual (o : MBSGD) : Prop where
  alpha : 0 < o.alpha
  eta : 0 ≤ o.eta
  maxEta : 0 ≤ o.maxEta
  pos : 0 < o.minGain
  low : o.minGain ≤ 1
  high : 1 ≤ o.maxGain

theorem rate_pos {a decay minimum : ℝ} (ha : 0 < a) (hd : 0 < decay) (t : ℕ) : 0 < rate a decay minimum t := by
  cases t with
  | zero => exact ha
  | succ t => exact lt_of_lt_of_le (mul_pos ha (pow_pos hd _)) (le_max_left _ _)

theorem momentumAt_nonneg {e gain maximum : ℝ} (he : 0 ≤ e) (hg : 0 ≤ gain) (hm : 0 ≤ maximum) (t : ℕ) :
    0 ≤ momentumAt e gain maximum t := by
  cases t with
  | zero => exact he
  | succ t => exact le_min (add_nonneg he (mul_nonneg (by positivity) hg)) hm

/-- **C141 (false, straight slopes)**: if the gradient of a weight never changes, its gain shrinks with every update but the first,
until it has reached `minGain`. -/
theorem slope_gains {o0 : MBSGD} (hv : o0.Valid) (hi : o0.Individual) (hn : o0.iteration < 0) {obj0 : Obj} {p : ℕ} {s : ℝ}
    (hs : s ≠ 0) (hg : ∀ k w b, (obj0.problem.errorGradient k w b).2 p = s) {n : ℕ} {c : Bool} {o : MBSGD} {obj : Obj}
    (h : Steps o0 obj0 (n + 1) c o obj) :
    o.gains p = max o0.minGain (min o0.maxGain 1.05 * 0.95 ^ ((n + 1) * max (obj0.problem.examples / o0.batchSize) 1 - 1)) := by
  rcases steps_runInv hv hn h with ⟨h0, _⟩ | ⟨_, hinv, _⟩
  · omega
  have hpos : 0 < (n + 1) * max (obj0.problem.examples / o0.batchSize) 1 :=
    Nat.mul_pos (Nat.succ_pos n) (lt_of_lt_of_le Nat.zero_lt_one (le_max_right _ _))
  obtain ⟨t, ht⟩ : ∃ t, (n + 1) * max (obj0.problem.examples / o0.batchSize) 1 = t + 1 :=
    ⟨(n + 1) * max (obj0.problem.examples / o0.batchSize) 1 - 1, by omega⟩
  rw [hinv.follows.gains, ht, Nat.add_sub_cancel]
  exact (slope_at (D := descent o0 obj0 _) (fun t => rate_pos hi.alpha hv.decay_pos t)
    (fun t => momentumAt_nonneg hi.eta hv.gain_nonneg hi.maxEta t) hi.pos hi.low hi.high hs (fun t w => hg _ _ _) t).2

/-- After enough updates the gain is as small as allowed; by documentation it would be as large as allowed. -/
theorem slope_fails {o0 : MBSGD} (hv : o0.Valid) (hi : o0.Individual) (hn : o0.iteration < 0) {obj0 : Obj} {p : ℕ} {s : ℝ}
    (hs : s ≠ 0) (hg : ∀ k w b, (obj0.problem.errorGradient k w b).2 p = s) :
    ∃ n0, ∀ n, n0 ≤ n → ∀ c o obj, Steps o0 obj0 n c o obj → o.gains p = o0.minGain := by
  obtain ⟨m, hm⟩ := exists_pow_lt_of_lt_one (show 0 < o0.minGain / 1.05 from div_pos hi.pos (by norm_num))
    (show (0.95 : ℝ) < 1 by norm_num)
  refine ⟨m + 1, fun n hmn c o obj h => ?_⟩
  obtain ⟨n, rfl⟩ : ∃ n', n = n' + 1 := ⟨n - 1, by omega⟩
  rw [slope_gains hv hi hn hs hg h]
  refine max_eq_left ?_
  have hk : 1 ≤ max (obj0.problem.examples / o0.batchSize) 1 := le_max_right _ _
  have hexp : m ≤ (n + 1) * max (obj0.problem.examples / o0.batchSize) 1 - 1 := by
    have : (n + 1) * 1 ≤ (n + 1) * max (obj0.problem.examples / o0.batchSize) 1 := Nat.mul_le_mul_left _ hk
    omega
  have h1 : (0.95 : ℝ) ^ ((n + 1) * max (obj0.problem.examples / o0.batchSize) 1 - 1) ≤ 0.95 ^ m :=
    pow_le_pow_of_le_one (by norm_num) (by norm_num) hexp
  have h2 : (0 : ℝ) ≤ 0.95 ^ ((n + 1) * max (obj0.problem.examples / o0.batchSize) 1 - 1) := by positivity
  rw [lt_div_iff₀ (by norm_num)] at hm
  calc min o0.maxGain 1.05 * 0.95 ^ _ ≤ 1.05 * 0.95 ^ ((n + 1) * max (obj0.problem.examples / o0.batchSize) 1 - 1) :=
        mul_le_mul_of_nonneg_right (min_le_right _ _) h2
    _ ≤ 1.05 * 0.95 ^ m := mul_le_mul_of_nonneg_left h1 (by norm_num)
    _ ≤ o0.minGain := by linarith

/-! ## Overshooting -/

section Overshoot

variable {D : Descent} {p : ℕ} {a l m : ℝ} (ha : ∀ t, D.alpha t = a) (he : ∀ t, D.eta t = 0) (hd : D.nesterov = false)
  (hg : ∀ t, D.grad t (D.at_ t).w p = l * ((D.at_ t).w p - m))
include ha he hd hg

theorem parabola_step (t : ℕ) :
    (D.at_ (t + 1)).d p = -(a * l * (D.at_ (t + 1)).gain p * ((D.at_ t).w p - m)) ∧
    (D.at_ (t + 1)).w p - m = (1 - a * l * (D.at_ (t + 1)).gain p) * ((D.at_ t).w p - m) := by
  have hev : D.eval t (D.at_ t) = (D.at_ t).w := by
    unfold Descent.eval
    rw [hd]
    rfl
  have e1 : (D.at_ (t + 1)).d p = -(a * l * (D.at_ (t + 1)).gain p * ((D.at_ t).w p - m)) := by
    show D.eta t * (D.at_ t).d p - D.alpha t * (D.grad t (D.eval t (D.at_ t)) p * D.gainNext t (D.at_ t) p) = _
    rw [hev, hg, ha, he]
    show _ = -(a * l * D.gainNext t (D.at_ t) p * ((D.at_ t).w p - m))
    ring
  refine ⟨e1, ?_⟩
  have e2 : (D.at_ (t + 1)).w p = (D.at_ t).w p + (D.at_ (t + 1)).d p := rfl
  rw [e2, e1]
  ring

theorem overshoot_at (h1 : D.minGain ≤ 1) (h2 : 1 ≤ D.maxGain) (hl : 0 < l) (hal : 1 ≤ a * l) (t : ℕ) :
    (D.at_ t).gain p = min D.maxGain (1 + 0.05 * t) ∧ 0 ≤ (D.at_ t).d p * ((D.at_ t).w p - m) := by
  induction t with
  | zero =>
    refine ⟨?_, by show (0 : ℝ) ≤ 0 * _; rw [zero_mul]⟩
    show (1 : ℝ) = _
    rw [Nat.cast_zero, mul_zero, add_zero, min_eq_right h2]
  | succ t ih =>
    have hev : D.eval t (D.at_ t) = (D.at_ t).w := by
      unfold Descent.eval
      rw [hd]
      rfl
    have hgain : (D.at_ (t + 1)).gain p = min D.maxGain (1 + 0.05 * (t + 1 : ℕ)) := by
      show gainRule D.minGain D.maxGain ((D.at_ t).d p) (D.grad t (D.eval t (D.at_ t)) p) ((D.at_ t).gain p) = _
      have hp : 0 ≤ (D.at_ t).d p * (l * ((D.at_ t).w p - m)) := by
        have := mul_nonneg hl.le ih.2
        linarith
      have ht : (0 : ℝ) ≤ 0.05 * t := by positivity
      rw [hev, hg, gainRule, if_pos hp, ih.1, max_eq_right
        (h1.trans (by
          have : (1 : ℝ) ≤ min D.maxGain (1 + 0.05 * t) := le_min h2 (by linarith)
          linarith)), ← min_add_add_right, ← min_assoc, min_eq_left (show D.maxGain ≤ D.maxGain + 0.05 by linarith)]
      congr 1
      push_cast
      ring
    refine ⟨hgain, ?_⟩
    obtain ⟨e1, e2⟩ := parabola_step ha he hd hg t
    have hge : 1 ≤ (D.at_ (t + 1)).gain p := by
      rw [hgain]
      refine le_min h2 ?_
      have : (0 : ℝ) ≤ 0.05 * (t + 1 : ℕ) := by positivity
      linarith
    have h3 : 1 ≤ a * l * (D.at_ (t + 1)).gain p := by nlinarith
    rw [e1, e2]
    have e : -(a * l * (D.at_ (t + 1)).gain p * ((D.at_ t).w p - m)) *
        ((1 - a * l * (D.at_ (t + 1)).gain p) * ((D.at_ t).w p - m)) =
        a * l * (D.at_ (t + 1)).gain p * (a * l * (D.at_ (t + 1)).gain p - 1) * (((D.at_ t).w p - m) * ((D.at_ t).w p - m)) := by
      ring
    rw [e]
    exact mul_nonneg (mul_nonneg (by linarith) (by linarith)) (mul_self_nonneg _)

theorem overshoot_distance (h1 : D.minGain ≤ 1) (h2 : 1 ≤ D.maxGain) (hl : 0 < l) (hal : 1 ≤ a * l) (t : ℕ) :
    |(D.at_ t).w p - m| = |D.start p - m| * ∏ i ∈ range t, (a * l * min D.maxGain (1 + 0.05 * (i + 1 : ℕ)) - 1) := by
  induction t with
  | zero =>
    rw [range_zero, prod_empty, mul_one]
    rfl
  | succ t ih =>
    obtain ⟨_, e2⟩ := parabola_step ha he hd hg t
    have hgain := (overshoot_at ha he hd hg h1 h2 hl hal (t + 1)).1
    have hge : (1 : ℝ) ≤ min D.maxGain (1 + 0.05 * (t + 1 : ℕ)) := by
      refine le_min h2 ?_
      have : (0 : ℝ) ≤ 0.05 * (t + 1 : ℕ) := by positivity
      linarith
    rw [e2, abs_mul, ih, hgain, prod_range_succ, abs_sub_comm, abs_of_nonneg (show 0 ≤ a * l * min D.maxGain (1 + 0.05 * (t + 1 : ℕ)) - 1 by nlinarith)]
    ring

theorem overshoot_unbounded (h1 : D.minGain ≤ 1) (h2 : 1 ≤ D.maxGain) (hl : 0 < l) (hal : 1 < a * l) (hhi : 2 < a * l * D.maxGain)
    (hm : D.start p ≠ m) (B : ℝ) : ∃ t0, ∀ t, t0 ≤ t → B < |(D.at_ t).w p - m| := by
  obtain ⟨T, hT⟩ : ∃ T : ℕ, D.maxGain ≤ 1 + 0.05 * (T : ℝ) := by
    obtain ⟨T, hT⟩ := exists_nat_ge (D.maxGain * 20)
    exact ⟨T, by linarith⟩
  have hfac : ∀ i : ℕ, 0 < a * l * min D.maxGain (1 + 0.05 * (i + 1 : ℕ)) - 1 := fun i => by
    have hge : (1 : ℝ) ≤ min D.maxGain (1 + 0.05 * (i + 1 : ℕ)) := by
      refine le_min h2 ?_
      have : (0 : ℝ) ≤ 0.05 * (i + 1 : ℕ) := by positivity
      linarith
    nlinarith
  have hK : 0 < |D.start p - m| * ∏ i ∈ range T, (a * l * min D.maxGain (1 + 0.05 * (i + 1 : ℕ)) - 1) :=
    mul_pos (abs_pos.2 (sub_ne_zero.2 hm)) (prod_pos fun i _ => hfac i)
  have hlong : ∀ s, |(D.at_ (T + s)).w p - m| =
      (|D.start p - m| * ∏ i ∈ range T, (a * l * min D.maxGain (1 + 0.05 * (i + 1 : ℕ)) - 1)) * (a * l * D.maxGain - 1) ^ s := fun s => by
    rw [overshoot_distance ha he hd hg h1 h2 hl hal.le, prod_range_add, mul_assoc]
    congr 2
    rw [prod_congr rfl fun i _ => ?_, prod_const, card_range]
    rw [min_eq_left]
    refine hT.trans ?_
    push_cast
    have : (0 : ℝ) ≤ i := Nat.cast_nonneg i
    linarith
  obtain ⟨s, hs⟩ := pow_unbounded_of_one_lt (B / (|D.start p - m| * ∏ i ∈ range T, (a * l * min D.maxGain (1 + 0.05 * (i + 1 : ℕ)) - 1)))
    (show 1 < a * l * D.maxGain - 1 by linarith)
  refine ⟨T + s, fun t ht => ?_⟩
  obtain ⟨r, rfl⟩ : ∃ r, t = T + (s + r) := ⟨t - T - s, by omega⟩
  rw [hlong, pow_add]
  rw [div_lt_iff₀ hK] at hs
  have h3 : 1 ≤ (a * l * D.maxGain - 1) ^ r := one_le_pow₀ (by linarith)
  have h4 : 0 < (a * l * D.maxGain - 1) ^ s := pow_pos (by linarith) s
  have h5 := mul_le_mul_of_nonneg_left h3 (mul_pos hK h4).le
  nlinarith

end Overshoot

/-- Batch descent with constant learning rate and without momentum -/
structure MBSGD.Steady (o : MBSGD) : Prop where
  classical : o.nesterov = false
  decay : o.alphaDecay = 1
  least : o.minAlpha ≤ o.alpha
  eta : o.eta = 0
  etaGain : o.etaGain = 0
  maxEta : 0 ≤ o.maxEta

theorem steady_rate {o : MBSGD} (h : o.Steady) (t : ℕ) : rate o.alpha o.alphaDecay o.minAlpha t = o.alpha := by
  cases t with
  | zero => rfl
  | succ t =>
    rw [rate, h.decay, one_pow, mul_one]
    exact max_eq_left h.least

theorem steady_momentum {o : MBSGD} (h : o.Steady) (t : ℕ) : momentumAt o.eta o.etaGain o.maxEta t = 0 := by
  cases t with
  | zero => exact h.eta
  | succ t =>
    rw [momentumAt, h.eta, h.etaGain, mul_zero, add_zero]
    exact min_eq_left h.maxEta

/-- In batch descent the gradient of the whole training set is used. -/
theorem full_gradient_at {o0 : MBSGD} (hf : o0.Fair) {obj0 : Obj}
    (hs : obj0.problem.examples ≤ o0.batchSize) {G : Vec → Vec} (hG : obj0.problem.FullGradient G) (t : ℕ) (w : Vec) :
    (descent o0 obj0 (batchAt o0 obj0.problem.examples 1)).grad t w = G w := by
  refine hG _ _ _ ?_
  have hperm := indicesAt_perm hf obj0.problem.examples t
  rw [batchAt, Nat.div_one, Nat.mod_one, batchOf, Nat.zero_mul, List.drop_zero, List.take_of_length_le]
  · exact hperm
  · rw [hperm.length_eq, List.length_range]
    exact hs

theorem full_follows {o0 : MBSGD} (hv : o0.Valid) (hn : o0.iteration < 0) {obj0 : Obj}
    (hs : obj0.problem.examples ≤ o0.batchSize) {n : ℕ} {c : Bool} {o : MBSGD} {obj : Obj} (h : Steps o0 obj0 (n + 1) c o obj) :
    Follows (descent o0 obj0 (batchAt o0 obj0.problem.examples 1)) obj0 (batchAt o0 obj0.problem.examples 1) (n + 1) o obj := by
  rcases steps_runInv hv hn h with ⟨h0, _⟩ | ⟨_, hinv, _⟩
  · omega
  have := hinv.follows
  have hk : max (obj0.problem.examples / o0.batchSize) 1 = 1 := batchCount_full hv hs
  rw [hk, Nat.mul_one] at this
  exact this

/-- **C141 (false, oscillation)**: if the error is a parabola in a weight and gradient descent jumps over the minimum, gains grow until
they have reached `maxGain`; the distance from the minimum exceeds every bound if `maxGain` is large enough. -/
theorem overshoot_grows {o0 : MBSGD} (hv : o0.Valid) (hf : o0.Fair) (hi : o0.Individual) (hst : o0.Steady) (hn : o0.iteration < 0)
    {obj0 : Obj} (hs : obj0.problem.examples ≤ o0.batchSize) {G : Vec → Vec} (hG : obj0.problem.FullGradient G) {p : ℕ} {l m : ℝ}
    (hl : 0 < l) (hp : ∀ w, G w p = l * (w p - m)) (hal : 1 ≤ o0.alpha * l) {n : ℕ} {c : Bool} {o : MBSGD} {obj : Obj}
    (h : Steps o0 obj0 (n + 1) c o obj) :
    o.gains p = min o0.maxGain (1 + 0.05 * (n + 1)) ∧
    |o.parameters p - m| = |obj0.w p - m| * ∏ i ∈ range (n + 1), (o0.alpha * l * min o0.maxGain (1 + 0.05 * (i + 1)) - 1) := by
  have hfol := full_follows hv hn hs h
  have hgr : ∀ t, (descent o0 obj0 (batchAt o0 obj0.problem.examples 1)).grad t
      ((descent o0 obj0 (batchAt o0 obj0.problem.examples 1)).at_ t).w p =
      l * (((descent o0 obj0 (batchAt o0 obj0.problem.examples 1)).at_ t).w p - m) := fun t => by
    rw [full_gradient_at hf hs hG, hp]
  rw [hfol.gains, hfol.parameters]
  refine ⟨?_, ?_⟩
  · have := (overshoot_at (steady_rate hst) (steady_momentum hst) hst.classical hgr hi.low hi.high hl hal (n + 1)).1
    push_cast at this
    exact this
  · have := overshoot_distance (steady_rate hst) (steady_momentum hst) hst.classical hgr hi.low hi.high hl hal (n + 1)
    push_cast at this
    exact this

theorem overshoot_diverges {o0 : MBSGD} (hv : o0.Valid) (hf : o0.Fair) (hi : o0.Individual) (hst : o0.Steady) (hn : o0.iteration < 0)
    {obj0 : Obj} (hs : obj0.problem.examples ≤ o0.batchSize) {G : Vec → Vec} (hG : obj0.problem.FullGradient G) {p : ℕ} {l m : ℝ}
    (hl : 0 < l) (hp : ∀ w, G w p = l * (w p - m)) (hal : 1 < o0.alpha * l) (hhi : 2 < o0.alpha * l * o0.maxGain)
    (hm : obj0.w p ≠ m) (B : ℝ) : ∃ n0, ∀ n, n0 ≤ n → ∀ c o obj, Steps o0 obj0 n c o obj → B < |o.parameters p - m| := by
  have hgr : ∀ t, (descent o0 obj0 (batchAt o0 obj0.problem.examples 1)).grad t
      ((descent o0 obj0 (batchAt o0 obj0.problem.examples 1)).at_ t).w p =
      l * (((descent o0 obj0 (batchAt o0 obj0.problem.examples 1)).at_ t).w p - m) := fun t => by
    rw [full_gradient_at hf hs hG, hp]
  obtain ⟨t0, ht0⟩ := overshoot_unbounded (steady_rate hst) (steady_momentum hst) hst.classical hgr hi.low hi.high hl hal hhi hm B
  refine ⟨t0 + 1, fun n hle c o obj h => ?_⟩
  obtain ⟨n, rfl⟩ : ∃ n', n = n' + 1 := ⟨n - 1, by omega⟩
  rw [(full_follows hv hn hs h).parameters]
  exact ht0 _ (by omega)

/-- The same descent without gains approaches the minimum. -/
theorem even_converges {o0 : MBSGD} (hv : o0.Valid) (hf : o0.Fair) (hst : o0.Steady) (h1 : o0.minGain = 1) (h2 : o0.maxGain = 1)
    (hn : o0.iteration < 0) {obj0 : Obj} (hs : obj0.problem.examples ≤ o0.batchSize) {G : Vec → Vec}
    (hG : obj0.problem.FullGradient G) {p : ℕ} {l m : ℝ} (hp : ∀ w, G w p = l * (w p - m)) {n : ℕ} {c : Bool}
    {o : MBSGD} {obj : Obj} (h : Steps o0 obj0 (n + 1) c o obj) :
    |o.parameters p - m| = |1 - o0.alpha * l| ^ (n + 1) * |obj0.w p - m| := by
  have hgr : ∀ t, (descent o0 obj0 (batchAt o0 obj0.problem.examples 1)).grad t
      ((descent o0 obj0 (batchAt o0 obj0.problem.examples 1)).at_ t).w p =
      l * (((descent o0 obj0 (batchAt o0 obj0.problem.examples 1)).at_ t).w p - m) := fun t => by
    rw [full_gradient_at hf hs hG, hp]
  rw [(full_follows hv hn hs h).parameters]
  obtain ⟨D, hD⟩ : ∃ D, D = descent o0 obj0 (batchAt o0 obj0.problem.examples 1) := ⟨_, rfl⟩
  have e1 : D.minGain = 1 := by rw [hD]; exact h1
  have e2 : D.maxGain = 1 := by rw [hD]; exact h2
  have hone : ∀ t, (D.at_ (t + 1)).gain p = 1 := fun t => by
    show gainRule _ _ _ _ _ = 1
    rw [gainRule, e1, e2]
    exact min_eq_left (le_max_left _ _)
  rw [← hD] at hgr ⊢
  have hr : ∀ t, D.alpha t = o0.alpha := by rw [hD]; exact steady_rate hst
  have he : ∀ t, D.eta t = 0 := by rw [hD]; exact steady_momentum hst
  have hnes : D.nesterov = false := by rw [hD]; exact hst.classical
  have key : ∀ t, |(D.at_ t).w p - m| = |1 - o0.alpha * l| ^ t * |D.start p - m| := fun t => by
    induction t with
    | zero => rw [pow_zero, one_mul]; rfl
    | succ t ih =>
      rw [(parabola_step hr he hnes hgr t).2, hone, mul_one, abs_mul, ih, pow_succ]
      ring
  rw [key, hD]
  rfl

/-! ## What the documented rule would do -/

/-- **C141 (what is missed)**: on the same parabolas, gradient descent with documented gains reaches the minimum whenever gradient
descent without gains does (`a l < 2`), whatever the limits are. -/
theorem documented_converges {a l m lo hi : ℝ} (ha : 0 < a) (hl : 0 < l) (hal : a * l < 2) (hlo : 0 < lo) (h1 : lo ≤ 1) (h2 : 1 ≤ hi)
    {w d γ : ℕ → ℝ} (hd0 : d 0 = 0) (hγ0 : γ 0 = 1) (hw : ∀ t, w (t + 1) = w t + d (t + 1))
    (hd : ∀ t, d (t + 1) = -(a * (l * (w t - m) * γ (t + 1))))
    (hγ : ∀ t, γ (t + 1) = documentedGain lo hi (d t) (d (t + 1)) (γ t)) :
    Filter.Tendsto w Filter.atTop (nhds m) := by
  obtain ⟨b, hb⟩ : ∃ b, b = a * l := ⟨_, rfl⟩
  have hb0 : 0 < b := by rw [hb]; exact mul_pos ha hl
  have hb2 : b < 2 := by rw [hb]; exact hal
  have hpos : ∀ t, lo ≤ γ (t + 1) := fun t => by
    rw [hγ]
    exact limited_ge (h1.trans h2) _
  have hstep : ∀ t, w (t + 1) - m = (1 - b * γ (t + 1)) * (w t - m) := fun t => by
    rw [hw, hd, hb]
    ring
  obtain ⟨M, hM⟩ : ∃ M, M = max b 1.9 := ⟨_, rfl⟩
  have hMb : b ≤ M := by rw [hM]; exact le_max_left _ _
  have hM9 : 1.9 ≤ M := by rw [hM]; exact le_max_right _ _
  have hM2 : M < 2 := by rw [hM]; exact max_lt hb2 (by norm_num)
  have hupper : ∀ x, limited lo hi x ≤ max lo x := fun x => min_le_right _ _
  have hbound : ∀ t, w t ≠ m → b * γ (t + 1) ≤ max M (2.1 * 0.95 ^ t) := by
    intro t
    induction t with
    | zero =>
      intro _
      refine le_trans ?_ (le_max_right _ _)
      rw [hγ, documentedGain, hd0, mul_zero, if_pos le_rfl, hγ0, pow_zero, mul_one]
      have := hupper (1 + 0.05)
      rw [max_eq_right (by linarith)] at this
      nlinarith
    | succ t ih =>
      intro hne
      have hne0 : w t ≠ m := fun h => hne (by
        have := hstep t
        rw [h, sub_self, mul_zero] at this
        linarith)
      have hub := ih hne0
      rw [hγ, documentedGain]
      split
      · next hc =>
        have hle : b * γ (t + 1) ≤ 1 := by
          by_contra hgt
          push Not at hgt
          have hsq : 0 < (w t - m) * (w t - m) := mul_self_pos.2 (sub_ne_zero.2 hne0)
          have g1 : 0 < γ (t + 1) := lt_of_lt_of_le hlo (hpos t)
          have g2 : 0 < γ (t + 1 + 1) := lt_of_lt_of_le hlo (hpos (t + 1))
          have e : d (t + 1 + 1) * d (t + 1) =
              -(b * γ (t + 1 + 1) * (b * γ (t + 1)) * (b * γ (t + 1) - 1) * ((w t - m) * (w t - m))) := by
            have e1 : d (t + 1 + 1) = -(b * γ (t + 1 + 1) * (w (t + 1) - m)) := by rw [hd, hb]; ring
            have e2 : d (t + 1) = -(b * γ (t + 1) * (w t - m)) := by rw [hd, hb]; ring
            rw [e1, e2, hstep]
            ring
          have : 0 < b * γ (t + 1 + 1) * (b * γ (t + 1)) * (b * γ (t + 1) - 1) * ((w t - m) * (w t - m)) :=
            mul_pos (mul_pos (mul_pos (mul_pos hb0 g2) (mul_pos hb0 g1)) (by linarith)) hsq
          linarith
        refine le_trans ?_ (le_max_left _ _)
        have hx := mul_le_mul_of_nonneg_left (hupper (γ (t + 1) + 0.05)) hb0.le
        rw [mul_max_of_nonneg _ _ hb0.le] at hx
        refine hx.trans (max_le ?_ ?_)
        · nlinarith
        · nlinarith
      · have hx := mul_le_mul_of_nonneg_left (hupper (γ (t + 1) * 0.95)) hb0.le
        rw [mul_max_of_nonneg _ _ hb0.le] at hx
        refine hx.trans (max_le ?_ ?_)
        · exact le_trans (by nlinarith) (le_max_left _ _)
        · have : b * (γ (t + 1) * 0.95) ≤ max M (2.1 * 0.95 ^ t) * 0.95 := by nlinarith
          refine this.trans ?_
          rw [max_mul_of_nonneg _ _ (by norm_num)]
          refine max_le_max (by nlinarith) (le_of_eq ?_)
          rw [pow_succ]
          ring
  obtain ⟨q, hq⟩ : ∃ q, q = max (1 - b * lo) (M - 1) := ⟨_, rfl⟩
  have hq1 : q < 1 := by
    rw [hq]
    exact max_lt (by nlinarith [mul_pos hb0 hlo]) (by linarith)
  have hq0 : 0 ≤ q := by rw [hq]; exact le_trans (by linarith) (le_max_right _ _)
  have hcontr : ∀ t, 2 ≤ t → |w (t + 1) - m| ≤ q * |w t - m| := fun t ht => by
    by_cases hne : w t = m
    · rw [hstep, hne, sub_self, mul_zero, abs_zero, mul_zero]
    · rw [hstep, abs_mul]
      refine mul_le_mul_of_nonneg_right ?_ (abs_nonneg _)
      have hle : b * γ (t + 1) ≤ M := by
        refine (hbound t hne).trans (max_le le_rfl ?_)
        have : (0.95 : ℝ) ^ t ≤ 0.95 ^ 2 := pow_le_pow_of_le_one (by norm_num) (by norm_num) ht
        norm_num at this ⊢
        linarith
      rw [hq]
      refine abs_le.2 ⟨?_, ?_⟩
      · have := le_max_right (1 - b * lo) (M - 1)
        linarith
      · have := le_max_left (1 - b * lo) (M - 1)
        have := mul_le_mul_of_nonneg_left (hpos t) hb0.le
        linarith
  have hall : ∀ s, |w (s + 2) - m| ≤ q ^ s * |w 2 - m| := fun s => by
    induction s with
    | zero => rw [pow_zero, one_mul]
    | succ s ih =>
      refine (hcontr (s + 2) (by omega)).trans ?_
      rw [pow_succ, mul_comm (q ^ s), mul_assoc]
      exact mul_le_mul_of_nonneg_left ih hq0
  have hlim : Filter.Tendsto (fun s => q ^ s * |w 2 - m|) Filter.atTop (nhds 0) := by
    have := (tendsto_pow_atTop_nhds_zero_of_lt_one hq0 hq1).mul_const |w 2 - m|
    rwa [zero_mul] at this
  have h3 : Filter.Tendsto (fun s => w (s + 2) - m) Filter.atTop (nhds 0) := squeeze_zero_norm hall hlim
  have h4 := h3.add_const m
  simp only [sub_add_cancel, zero_add] at h4
  exact (Filter.tendsto_add_atTop_iff_nat 2).1 h4

/-! ## A network -/

open Verif.NN

/-- One linear unit with one input and without bias -/
noncomputable def unit1 : Net := buildNet 1 [.fullyConnected 1 false .linear ⟨0, 0, 0⟩] false

/-- One example: input 2, desired output 0 -/
noncomputable def one2 : TrainSet := ⟨1, fun _ _ => 2, fun _ _ => 0⟩

theorem unit1_weight (mem : Mem) (w : Vec) :
    unit1.setParameters mem ((List.range unit1.P).map w) 1 (.w [0, 0]) = w 0 := by
  have hnd : unit1.parameters.Nodup := parameters_nodup 1 _ false
  have hp : unit1.parameters = [(1, .w [0, 0])] := rfl
  have e : ∀ m : Mem, updatedFrom 0 unit1.layers m 1 = m 1 := fun m => by
    have := updatedFrom_getElem (ls := unit1.layers) (k := 0) (n := 1) (mem := m) (by show 1 < 2; norm_num)
    rw [Nat.zero_add] at this
    rw [this]
    exact constraint_free (reg := ⟨0, 0, 0⟩) le_rfl _
  rw [Net.setParameters, e, writeAll_at (q := (1, .w [0, 0])) hnd mem w (by rw [hp]; simp)]
  rfl

theorem unit1_output (mem : Mem) (N : ℕ) (X : Batch) (n : ℕ) : unit1.output mem N X n 0 = X n 0 * mem 1 (.w [0, 0]) := by
  show ∑ i ∈ range 1, X n i * mem 1 (.w [0, i]) + 0 = _
  simp

theorem unit1_gradient (mem : Mem) (sc : Scratch) (p : ℕ) :
    (unit1.errorGradient mem sc one2 [0]).2.getD p 0 = if p = 0 then 4 * mem 1 (.w [0, 0]) else 0 := by
  by_cases hp : p = 0
  · subst hp
    have hq : unit1.derivatives[0]? = some (1, .w [0, 0]) := rfl
    rw [grad_entry unit1 mem sc one2 [0] hq, if_pos rfl]
    show (∑ n ∈ range 1, 1 * (unit1.output mem 1 (selectRows one2.inst [0]) n 0 - selectRows one2.tgt [0] n 0) *
      selectRows one2.inst [0] n 0 + (⟨0, 0, 0⟩ : Reg).deriv _) / ((1 : ℕ) : ℝ) = _
    simp [unit1_output, Reg.deriv, selectRows, one2]
    ring
  · rw [if_neg hp, List.getD_eq_getElem?_getD, List.getElem?_eq_none]
    · rfl
    · show 1 ≤ p
      omega

theorem unit1_full (mem : Mem) (sc : ℕ → Scratch) :
    (netProblem unit1 mem sc one2).FullGradient fun w p => if p = 0 then 4 * w 0 else 0 := by
  intro k w b hb
  have hb0 : b = [0] := List.perm_singleton.1 hb
  subst hb0
  funext p
  show (unit1.errorGradient (unit1.setParameters mem ((List.range unit1.P).map w)) (sc k) one2 [0]).2.getD p 0 = _
  rw [unit1_gradient, unit1_weight]

theorem unit1_error (mem : Mem) (w : Vec) : unit1.error (unit1.setParameters mem ((List.range unit1.P).map w)) one2 = 2 * w 0 ^ 2 := by
  show 0 + ((∑ n ∈ range 1, ∑ j ∈ range 1, (unit1.output _ 1 (fun _ => one2.inst 0) n j - one2.tgt 0 j) ^ 2) / (2 * ((1 : ℕ) : ℝ)) +
    regFrom _ 0 unit1.layers) / ((1 : ℕ) : ℝ) = _
  have hr : ∀ m, regFrom m 0 unit1.layers = 0 := fun m => by
    show 0 + (Reg.error ⟨0, 0, 0⟩ _ _ + 0) = 0
    simp [Reg.error]
  rw [hr]
  simp [unit1_output, unit1_weight, one2]
  ring

/-- The optimiser `MBSGD(3/8, 0, 1, false, 1, 0, 0, 0, lo, hi)` -/
noncomputable def tuned (lo hi : ℝ) : MBSGD where
  nesterov := false
  alpha := 3 / 8
  alphaDecay := 1
  minAlpha := 0
  eta := 0
  etaGain := 0
  maxEta := 0
  batchSize := 1
  minGain := lo
  maxGain := hi
  stop := {}
  iteration := -1
  P := 0
  N := 0
  batches := 0
  gains := fun _ => 0
  parameters := fun _ => 0
  momentum := fun _ => 0
  accumulatedError := 0
  randomIndices := []
  rng := fun _ l => l

theorem tuned_created (lo hi : ℝ) : MBSGD.new (3 / 8) 0 1 false 1 0 0 0 lo hi (fun _ l => l) = .ok (tuned lo hi) := by
  unfold MBSGD.new
  norm_num [tuned]

theorem tuned_valid (lo hi : ℝ) : (tuned lo hi).Valid := ⟨le_rfl, one_pos, le_rfl, le_rfl, le_rfl⟩

theorem tuned_fair (lo hi : ℝ) : (tuned lo hi).Fair := fun _ _ => List.Perm.refl _

theorem tuned_steady (lo hi : ℝ) : (tuned lo hi).Steady :=
  ⟨rfl, rfl, by show (0 : ℝ) ≤ 3 / 8; norm_num, rfl, rfl, le_rfl⟩

theorem tuned_individual {lo hi : ℝ} (h0 : 0 < lo) (h1 : lo ≤ 1) (h2 : 1 ≤ hi) : (tuned lo hi).Individual :=
  ⟨by show (0 : ℝ) < 3 / 8; norm_num, le_rfl, le_rfl, h0, h1, h2⟩

/-- Without stopping criteria a run goes on for ever. -/
theorem tuned_runs (lo hi : ℝ) {obj0 : Obj} (hne : obj0.Nonempty) (n : ℕ) : ∃ o obj, Steps (tuned lo hi) obj0 n true o obj := by
  induction n with
  | zero => exact ⟨_, _, .zero⟩
  | succ n ih =>
    obtain ⟨o, obj, h⟩ := ih
    obtain ⟨c, o', obj', _, h'⟩ := steps_progress (tuned_valid lo hi) (tuned_fair lo hi) (by show (-1 : ℤ) < 0; norm_num) hne h
    have hc : c = true := (steps_answer (tuned_valid lo hi) (by show (-1 : ℤ) < 0; norm_num) h').2 ⟨Or.inl rfl, Or.inl rfl⟩
    subst hc
    exact ⟨o', obj', h'⟩

/-- **C141 (false)**: one linear unit and one example.  With limits of the gains that are documented as usual, 0.1 and 10, the error
of the network exceeds every bound, whatever weight except for the best one training starts with; without gains the error is divided
by 4 in every iteration. -/
theorem gains_diverge (mem : Mem) (sc : ℕ → Scratch) (w : Vec) (hw : w 0 ≠ 0) :
    let obj0 : Obj := ⟨netProblem unit1 mem sc one2, w, 0, []⟩
    let err := fun v : Vec => unit1.error (unit1.setParameters mem ((List.range unit1.P).map v)) one2
    (∀ B, ∃ n0, ∀ n, n0 ≤ n → ∃ o obj, Steps (tuned 0.1 10) obj0 n true o obj ∧ B < err (o.result obj).1) ∧
    ∀ n, ∃ o obj, Steps (tuned 1 1) obj0 (n + 1) true o obj ∧ err (o.result obj).1 = err w / 4 ^ (n + 1) := by
  intro obj0 err
  have hne : obj0.Nonempty := ⟨by show 0 < 1; norm_num, by show 0 < 1; norm_num⟩
  have hG : obj0.problem.FullGradient fun w p => if p = 0 then 4 * w 0 else 0 := unit1_full mem sc
  have hp : ∀ v : Vec, (fun (w : Vec) (p : ℕ) => if p = 0 then 4 * w 0 else (0 : ℝ)) v 0 = 4 * (v 0 - 0) := fun v => by
    show (if (0 : ℕ) = 0 then 4 * v 0 else (0 : ℝ)) = _
    rw [if_pos rfl, sub_zero]
  refine ⟨fun B => ?_, fun n => ?_⟩
  · obtain ⟨n0, hn0⟩ := overshoot_diverges (tuned_valid 0.1 10) (tuned_fair 0.1 10)
      (tuned_individual (by norm_num) (by norm_num) (by norm_num)) (tuned_steady 0.1 10) (by show (-1 : ℤ) < 0; norm_num)
      (obj0 := obj0) (by show 1 ≤ 1; norm_num) hG (p := 0) (l := 4) (m := 0) (by norm_num) hp
      (by show (1 : ℝ) < 3 / 8 * 4; norm_num) (by show (2 : ℝ) < 3 / 8 * 4 * 10; norm_num) hw (max B 1)
    refine ⟨n0, fun n hn => ?_⟩
    obtain ⟨o, obj, h⟩ := tuned_runs 0.1 10 hne n
    refine ⟨o, obj, h, ?_⟩
    have hb := hn0 n hn true o obj h
    show B < unit1.error _ one2
    rw [unit1_error]
    show B < 2 * o.parameters 0 ^ 2
    rw [sub_zero] at hb
    have h1 : 1 < |o.parameters 0| := lt_of_le_of_lt (le_max_right _ _) hb
    have h2 : B < |o.parameters 0| := lt_of_le_of_lt (le_max_left _ _) hb
    rw [← sq_abs]
    nlinarith
  · obtain ⟨o, obj, h⟩ := tuned_runs 1 1 hne (n + 1)
    refine ⟨o, obj, h, ?_⟩
    have he := even_converges (tuned_valid 1 1) (tuned_fair 1 1) (tuned_steady 1 1) rfl rfl (by show (-1 : ℤ) < 0; norm_num)
      (obj0 := obj0) (by show 1 ≤ 1; norm_num) hG (p := 0) (l := 4) (m := 0) hp h
    rw [sub_zero, sub_zero] at he
    show unit1.error _ one2 = unit1.error _ one2 / _
    rw [unit1_error, unit1_error]
    show 2 * o.parameters 0 ^ 2 = _
    rw [← sq_abs, he]
    show 2 * (|1 - 3 / 8 * 4| ^ (n + 1) * |w 0|) ^ 2 = _
    have e : |(1 : ℝ) - 3 / 8 * 4| = 1 / 2 := by norm_num [abs_of_neg]
    rw [e, mul_pow, sq_abs, ← pow_mul, mul_comm (n + 1) 2, pow_mul, show ((1 : ℝ) / 2) ^ 2 = 1 / 4 by norm_num, one_div_pow]
    ring

/-- A straight slope: the gain of the only parameter is 0.1 after some updates. -/
example : ∃ n0, ∀ n, n0 ≤ n → ∃ o obj,
    Steps (tuned 0.1 10) ⟨⟨1, 1, fun _ w _ => (w 0, fun _ => 1)⟩, fun _ => 0, 0, []⟩ n true o obj ∧ o.gains 0 = 0.1 := by
  obtain ⟨n0, hn0⟩ := slope_fails (tuned_valid 0.1 10) (tuned_individual (by norm_num) (by norm_num) (by norm_num))
    (by show (-1 : ℤ) < 0; norm_num) (obj0 := ⟨⟨1, 1, fun _ w _ => (w 0, fun _ => 1)⟩, fun _ => 0, 0, []⟩) (p := 0) (s := 1) one_ne_zero
    (fun _ _ _ => rfl)
  refine ⟨n0, fun n hn => ?_⟩
  obtain ⟨o, obj, h⟩ := tuned_runs 0.1 10 (obj0 := ⟨⟨1, 1, fun _ w _ => (w 0, fun _ => 1)⟩, fun _ => 0, 0, []⟩) ⟨Nat.one_pos, Nat.one_pos⟩ n
  exact ⟨o, obj, h, hn0 n hn _ _ _ h⟩

/-- A step uphill is reversed, and the gain grows from 1 to 1.05. -/
example : let o : MBSGD := { tuned 0.1 10 with momentum := fun _ => 1, gains := fun _ => 1 }
    let obj : Obj := ⟨⟨1, 1, fun _ w _ => (w 0, fun _ => 1)⟩, fun _ => 0, 0, []⟩
    (o.update obj [0]).1.momentum 0 * o.momentum 0 < 0 ∧ (o.update obj [0]).1.gains 0 = 1.05 := by
  intro o obj
  have hu : o.useGain := Or.inl (by show (0.1 : ℝ) ≠ 1; norm_num)
  have hg : (o.update obj [0]).1.gains 0 = 1.05 := by
    rw [update_gains hu]
    show limited 0.1 10 (if (0 : ℝ) ≤ 1 * 1 then 1 + 0.05 else 1 * 0.95) = 1.05
    norm_num [limited]
  refine ⟨?_, hg⟩
  rw [update_step hu, hg]
  show ((0 : ℝ) * 1 - 3 / 8 * (1 * 1.05)) * 1 < 0
  norm_num

/-- A step downhill is continued, and the gain shrinks from 1 to 0.95. -/
example : let o : MBSGD := { tuned 0.1 10 with momentum := fun _ => -1, gains := fun _ => 1 }
    let obj : Obj := ⟨⟨1, 1, fun _ w _ => (w 0, fun _ => 1)⟩, fun _ => 0, 0, []⟩
    0 < (o.update obj [0]).1.momentum 0 * o.momentum 0 ∧ (o.update obj [0]).1.gains 0 = 0.95 := by
  intro o obj
  have hu : o.useGain := Or.inl (by show (0.1 : ℝ) ≠ 1; norm_num)
  obtain ⟨h1, h2⟩ := downhill_shrinks hu (by show (0 : ℝ) < 3 / 8; norm_num) le_rfl (by show (0 : ℝ) < 0.1; norm_num)
    (by show (0.1 : ℝ) ≤ 10; norm_num) obj [0] 0 (by show (-1 : ℝ) * 1 < 0; norm_num)
  refine ⟨h1, h2.trans ?_⟩
  show limited 0.1 10 ((1 : ℝ) * 0.95) = 0.95
  norm_num [limited]

end Verif.Opt
