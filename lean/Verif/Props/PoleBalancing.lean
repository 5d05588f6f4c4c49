import Verif.Model.PoleBalancing
import Mathlib.Analysis.SpecialFunctions.Trigonometric.Bounds
import Mathlib.Tactic.Linarith
import Mathlib.Tactic.Ring
import Mathlib.Tactic.NormNum
import Mathlib.Tactic.FieldSimp
import Mathlib.Tactic.IntervalCases

/-!
# The pole balancing environments (C87)
-/

namespace Verif.Poles

open Finset

noncomputable section

/-! ## Spec -/

/-- Spec: one step of the classical Runge-Kutta method with step size `h` for `y' = f y`. -/
def rungeKutta (f : State → State) (h : ℝ) (y : State) : State :=
  let k1 := f y
  let k2 := f fun k => y k + h / 2 * k1 k
  let k3 := f fun k => y k + h / 2 * k2 k
  let k4 := f fun k => y k + h * k3 k
  fun k => y k + h / 6 * (k1 k + 2 * k2 k + 2 * k3 k + k4 k)

/-- Spec: the mirrored situation. -/
def mirrored (s : State) : State := fun k => -s k

/-- Spec: torque balance of a rod of half length `l` on an accelerated hinge (`a`: acceleration of the cart, `α`: angular
acceleration). -/
def TorqueBalance (e : Setup) (i : ℕ) (s : State) (a α : ℝ) : Prop :=
  4 / 3 * e.length i * α + a * Real.cos (s (2 + 2 * i)) + e.gravity * Real.sin (s (2 + 2 * i)) +
    e.mup * s (3 + 2 * i) / (e.mass i * e.length i) = 0

/-- Spec: balance of the horizontal forces on cart and poles: mass times acceleration of the centres of mass. -/
def ForceBalance (e : Setup) (s : State) (force a : ℝ) (α : ℕ → ℝ) : Prop :=
  e.cartMass * a + ∑ i ∈ range e.poles, e.mass i *
    (a + e.length i * (α i * Real.cos (s (2 + 2 * i)) - s (3 + 2 * i) ^ 2 * Real.sin (s (2 + 2 * i)))) =
      force - e.muc * direction (s 1)

/-- Spec: the constants make sense. -/
structure Setup.Valid (e : Setup) : Prop where
  mass : ∀ i, 0 < e.mass i
  length : ∀ i, 0 < e.length i

theorem single_valid : single.Valid := ⟨fun _ => by norm_num [single], fun _ => by norm_num [single]⟩

theorem double_valid : double.Valid :=
  ⟨fun i => by by_cases h : i = 0 <;> norm_num [double, h], fun i => by by_cases h : i = 0 <;> norm_num [double, h]⟩

/-! ## No division by zero -/

theorem cos_mul_sin_le (t : ℝ) : |Real.cos t * Real.sin t| ≤ 1 / 2 := by
  have h := Real.sin_sq_add_cos_sq t
  rw [abs_le]
  constructor <;> nlinarith [sq_nonneg (Real.cos t + Real.sin t), sq_nonneg (Real.cos t - Real.sin t)]

theorem mi_ge {e : Setup} (hg : e.gravity = -9.8) {i : ℕ} (hm : 0 < e.mass i) (s : State) : -2.675 * e.mass i ≤ e.mi i s := by
  unfold Setup.mi Setup.gsin
  have h := (abs_le.1 (cos_mul_sin_le (s (2 + 2 * i)))).1
  rw [hg]
  have : -2.675 ≤ 1 - 0.75 * Real.cos (s (2 + 2 * i)) * (-9.8 * Real.sin (s (2 + 2 * i))) := by nlinarith
  nlinarith

/-- **C87 (no division by zero)**: the denominator of the acceleration is positive in every state, also far outside of the track
and for poles that have fallen over. -/
theorem effectiveMass_pos (s : State) : 0.7 ≤ single.effectiveMass s ∧ 0.7 ≤ double.effectiveMass s := by
  constructor
  · have h0 := mi_ge (e := single) rfl (i := 0) (single_valid.mass 0) s
    have : single.effectiveMass s = single.mi 0 s + 1 := by simp [Setup.effectiveMass, single]
    rw [this]
    have : single.mass 0 = 0.1 := rfl
    rw [this] at h0
    linarith
  · have h0 := mi_ge (e := double) rfl (i := 0) (double_valid.mass 0) s
    have h1 := mi_ge (e := double) rfl (i := 1) (double_valid.mass 1) s
    have : double.effectiveMass s = double.mi 0 s + double.mi 1 s + 1 := by simp [Setup.effectiveMass, double, sum_range_succ]
    rw [this]
    have m0 : double.mass 0 = 0.1 := rfl
    have m1 : double.mass 1 = 0.01 := rfl
    rw [m0] at h0
    rw [m1] at h1
    linarith

/-! ## Integration -/

theorem velocities_derivative (e : Setup) (y : State) (force : ℝ) :
    e.velocities y (e.derivative y force) = e.derivative y force := by
  funext k
  unfold Setup.velocities
  split
  · next h =>
    unfold Setup.derivative
    by_cases h0 : k = 0
    · rw [if_pos h0, h0]
    · rw [if_neg h0, if_neg (by omega), if_neg (by omega), if_pos h.2]
  · rfl

/-- **C87 (integration)**: an iteration of the loop in `stateTransition` is a step of the classical Runge-Kutta method of step
size 0.01 for the differential equation `derivative`. -/
theorem integrate_rungeKutta (e : Setup) (s : State) (force : ℝ) :
    e.integrate s force = rungeKutta (fun y => e.derivative y force) 0.01 s := by
  unfold Setup.integrate Setup.rk4 rungeKutta
  simp only [velocities_derivative]
  funext k
  have e1 : timeDelta * 0.5 = (0.01 : ℝ) / 2 := by norm_num [timeDelta]
  have e2 : timeDelta = (0.01 : ℝ) := rfl
  rw [e1, e2]
  ring

/-- **C87 (time)**: a transition is two such steps with the limited force, together the time `deltaT()`. -/
theorem transition_eq (v : Env) {s : State} (hs : v.state = some s) (a : ℝ) :
    ∃ v', v.stateTransition a = .ok v' ∧ v'.step = v.step + 1 ∧ v'.action = a ∧ v'.setup = v.setup ∧
      v'.fullyObservable = v.fullyObservable ∧
      v'.state = some (rungeKutta (fun y => v.setup.derivative y (v.setup.applied a)) 0.01
        (rungeKutta (fun y => v.setup.derivative y (v.setup.applied a)) 0.01 s)) ∧
      v'.getState = .ok (v.setup.observation v.fullyObservable (rungeKutta (fun y => v.setup.derivative y (v.setup.applied a)) 0.01
        (rungeKutta (fun y => v.setup.derivative y (v.setup.applied a)) 0.01 s))) ∧ (0.01 : ℝ) + 0.01 = deltaT := by
  unfold Env.stateTransition
  rw [hs]
  refine ⟨_, rfl, rfl, rfl, rfl, rfl, ?_, ?_, by norm_num [deltaT]⟩
  · show some _ = some _
    rw [integrate_rungeKutta, integrate_rungeKutta]
  · show Outcome.ok _ = Outcome.ok _
    rw [integrate_rungeKutta, integrate_rungeKutta]

/-- **C87 (force)**: the force that is applied is the action limited to the action space. -/
theorem applied_eq {e : Setup} (h : 0 ≤ e.maxForce) (f : ℝ) : e.applied f = max (-e.maxForce) (min e.maxForce f) := by
  unfold Setup.applied
  split
  · next hf =>
    have h0 : f ≠ 0 := by
      rintro rfl
      rw [abs_zero] at hf
      linarith
    rcases lt_or_gt_of_ne h0 with hn | hp
    · rw [abs_of_neg hn] at hf ⊢
      rw [min_eq_right (by linarith), max_eq_left (by linarith), div_neg, div_self h0]
      ring
    · rw [abs_of_pos hp] at hf ⊢
      rw [min_eq_left (by linarith), max_eq_right (by linarith), div_self h0, one_mul]
  · next hf =>
    obtain ⟨h1, h2⟩ := abs_le.1 (not_lt.1 hf)
    rw [min_eq_right h2, max_eq_right h1]

/-! ## Physics -/

/-- **C87 (poles)**: the accelerations that `derivative` computes satisfy the torque balance of each pole, in all states. -/
theorem torque_balance {e : Setup} (hv : e.Valid) (i : ℕ) (s : State) (force : ℝ) :
    TorqueBalance e i s (e.cartAcc s force) (e.poleAcc i s force) := by
  unfold TorqueBalance Setup.poleAcc Setup.gsin Setup.temp
  have h1 := (hv.length i).ne'
  generalize e.mup * s (3 + 2 * i) / (e.mass i * e.length i) = t
  field_simp
  ring

/-- **C87 (cart), exact**: the force balance holds up to a wrong term in the effective mass (`cos * g * sin` instead of
`cos^2`). -/
theorem force_balance_partial {e : Setup} (hv : e.Valid) {s : State} (hm : e.effectiveMass s ≠ 0) (force : ℝ) :
    ForceBalance e s (force + 0.75 * e.cartAcc s force * ∑ i ∈ range e.poles, e.mass i * Real.cos (s (2 + 2 * i)) *
      (e.gravity * Real.sin (s (2 + 2 * i)) - Real.cos (s (2 + 2 * i)))) (e.cartAcc s force) fun i => e.poleAcc i s force := by
  have hacc : e.cartAcc s force * e.effectiveMass s =
      force - e.muc * direction (s 1) + ∑ i ∈ range e.poles, e.fi i s := div_mul_cancel₀ _ hm
  unfold ForceBalance
  unfold Setup.effectiveMass at hacc
  rw [mul_add, mul_sum] at hacc
  have hsum : ∑ i ∈ range e.poles, e.mass i * (e.cartAcc s force + e.length i *
        (e.poleAcc i s force * Real.cos (s (2 + 2 * i)) - s (3 + 2 * i) ^ 2 * Real.sin (s (2 + 2 * i)))) =
      ∑ i ∈ range e.poles, (e.cartAcc s force * e.mi i s - e.fi i s + 0.75 * e.cartAcc s force * (e.mass i *
        Real.cos (s (2 + 2 * i)) * (e.gravity * Real.sin (s (2 + 2 * i)) - Real.cos (s (2 + 2 * i))))) := by
    refine sum_congr rfl fun i _ => ?_
    have hl := (hv.length i).ne'
    have hp : e.length i * e.poleAcc i s force = -0.75 * (e.cartAcc s force * Real.cos (s (2 + 2 * i)) + e.gsin i s + e.temp i s) := by
      unfold Setup.poleAcc
      field_simp
    have : e.mass i * (e.cartAcc s force + e.length i *
        (e.poleAcc i s force * Real.cos (s (2 + 2 * i)) - s (3 + 2 * i) ^ 2 * Real.sin (s (2 + 2 * i)))) =
        e.mass i * (e.cartAcc s force + (e.length i * e.poleAcc i s force) * Real.cos (s (2 + 2 * i)) -
          e.length i * s (3 + 2 * i) ^ 2 * Real.sin (s (2 + 2 * i))) := by ring
    rw [this, hp]
    unfold Setup.mi Setup.fi Setup.gsin
    ring
  rw [hsum, sum_add_distrib, sum_sub_distrib, ← mul_sum, ← mul_sum]
  rw [← mul_sum] at hacc
  linarith

/-- What the state with upright poles at rest gives. -/
theorem cartAcc_upright (force : ℝ) : single.cartAcc (fun _ => 0) force = force / 1.1 := by
  simp [Setup.cartAcc, Setup.effectiveMass, Setup.fi, Setup.mi, Setup.gsin, Setup.temp, single, direction]
  norm_num

/-- **C87 is false: force balance**.  With the pole upright and at rest, the force on the cart does not equal mass times
acceleration of cart and pole. -/
theorem force_balance_fails : ¬ ForceBalance single (fun _ => 0) 10 (single.cartAcc (fun _ => 0) 10)
    fun i => single.poleAcc i (fun _ => 0) 10 := by
  unfold ForceBalance Setup.poleAcc
  rw [cartAcc_upright]
  simp [Setup.gsin, Setup.temp, single, direction]
  norm_num

/-- **C87 is false: left and right**.  A mirrored state does not have the mirrored acceleration: without force, a pole at 45
degrees pushes the cart twice as hard to one side as at -45 degrees to the other one. -/
theorem mirror_fails : ∃ s : State, single.derivative (mirrored s) (-0) ≠ mirrored (single.derivative s 0) ∧
    single.cartAcc s 0 < 0 ∧ 2 * |single.cartAcc s 0| < |single.cartAcc (mirrored s) 0| := by
  have hs : Real.sqrt 2 ^ 2 = 2 := Real.sq_sqrt (by norm_num)
  let s : State := fun k => if k = 2 then Real.pi / 4 else 0
  have h1 : single.cartAcc s 0 = -0.3675 / 1.4675 := by
    have hn : single.fi 0 s = -0.3675 := by
      simp only [Setup.fi, Setup.temp, Setup.gsin, single, s]
      norm_num
      linear_combination (147 / 800 : ℝ) * hs
    have hd : single.effectiveMass s = 1.4675 := by
      have : single.effectiveMass s = single.mi 0 s + 1 := by simp [Setup.effectiveMass, single]
      rw [this]
      simp only [Setup.mi, Setup.gsin, single, s]
      norm_num
      linear_combination (147 / 800 : ℝ) * hs
    have : single.cartAcc s 0 = (0 - single.muc * direction (s 1) + single.fi 0 s) / single.effectiveMass s := by
      simp [Setup.cartAcc, single]
    rw [this, hn, hd]
    simp [direction, s]
  have h2 : single.cartAcc (mirrored s) 0 = 0.3675 / 0.7325 := by
    have hn : single.fi 0 (mirrored s) = 0.3675 := by
      simp only [Setup.fi, Setup.temp, Setup.gsin, single, s, mirrored]
      norm_num
      linear_combination (147 / 800 : ℝ) * hs
    have hd : single.effectiveMass (mirrored s) = 0.7325 := by
      have : single.effectiveMass (mirrored s) = single.mi 0 (mirrored s) + 1 := by simp [Setup.effectiveMass, single]
      rw [this]
      simp only [Setup.mi, Setup.gsin, single, s, mirrored]
      norm_num
      linear_combination (-147 / 800 : ℝ) * hs
    have : single.cartAcc (mirrored s) 0 =
        (0 - single.muc * direction (mirrored s 1) + single.fi 0 (mirrored s)) / single.effectiveMass (mirrored s) := by
      simp [Setup.cartAcc, single]
    rw [this, hn, hd]
    simp [direction, mirrored, s]
  refine ⟨s, fun e => ?_, ?_, ?_⟩
  · have := congrFun e 1
    have a1 : single.derivative (mirrored s) (-0) 1 = single.cartAcc (mirrored s) 0 := by
      rw [neg_zero]
      rfl
    have a2 : mirrored (single.derivative s 0) 1 = -single.cartAcc s 0 := rfl
    rw [a1, a2, h1, h2] at this
    norm_num at this
  · rw [h1]
    norm_num
  · rw [h1, h2, abs_of_neg (by norm_num), abs_of_pos (by norm_num)]
    norm_num

/-- **C87 (falling)**: without force, a pole at rest accelerates away from the upright position, to either side. -/
theorem pole_falls (t : ℝ) (h0 : 0 < t) (h1 : t < Real.pi / 2) (x : ℝ) (side : Bool) :
    0 < (if side then 1 else -1) *
      single.poleAcc 0 (fun k => if k = 0 then x else if k = 2 then (if side then 1 else -1) * t else 0) 0 := by
  have hs : 0 < Real.sin t := Real.sin_pos_of_pos_of_lt_pi h0 (by linarith)
  have hc : 0 < Real.cos t := Real.cos_pos_of_mem_Ioo ⟨by linarith, h1⟩
  generalize hS : (fun k : ℕ => if k = 0 then x else if k = 2 then (if side then 1 else -1) * t else 0 : State) = S
  have hm := (effectiveMass_pos S).1
  have h2 : S 2 = (if side then 1 else -1) * t := by rw [← hS]; rfl
  have h3 : S 3 = 0 := by rw [← hS]; rfl
  have hv : S 1 = 0 := by rw [← hS]; rfl
  have hacc : single.cartAcc S 0 = 0.75 * 0.1 * Real.cos (S 2) * (-9.8 * Real.sin (S 2)) / single.effectiveMass S := by
    have : single.cartAcc S 0 = (0 - single.muc * direction (S 1) + single.fi 0 S) / single.effectiveMass S := by
      simp [Setup.cartAcc, single]
    rw [this]
    congr 1
    simp only [Setup.fi, Setup.temp, Setup.gsin, single, direction, hv, h3, Nat.mul_zero, Nat.add_zero]
    norm_num
  have hp : single.poleAcc 0 S 0 = -0.75 * (single.cartAcc S 0 * Real.cos (S 2) + -9.8 * Real.sin (S 2)) / 0.5 := by
    simp only [Setup.poleAcc, Setup.temp, Setup.gsin, single, h3, Nat.mul_zero, Nat.add_zero]
    norm_num
  rw [hp, hacc, h2]
  set m := single.effectiveMass S
  have hm0 : 0 < m := by linarith
  have hpos : 0 < 0.75 * 0.1 * Real.cos t * (9.8 * Real.sin t) / m * Real.cos t := by positivity
  cases side with
  | true =>
    simp only [if_true, one_mul]
    have : 0.75 * 0.1 * Real.cos t * (-9.8 * Real.sin t) / m * Real.cos t =
        -(0.75 * 0.1 * Real.cos t * (9.8 * Real.sin t) / m * Real.cos t) := by ring
    rw [this]
    generalize 0.75 * 0.1 * Real.cos t * (9.8 * Real.sin t) / m * Real.cos t = q at hpos
    norm_num
    linarith
  | false =>
    simp only [Bool.false_eq_true, if_false, neg_one_mul, Real.cos_neg, Real.sin_neg]
    have : 0.75 * 0.1 * Real.cos t * (-9.8 * -Real.sin t) / m * Real.cos t =
        0.75 * 0.1 * Real.cos t * (9.8 * Real.sin t) / m * Real.cos t := by ring
    rw [this]
    generalize 0.75 * 0.1 * Real.cos t * (9.8 * Real.sin t) / m * Real.cos t = q at hpos
    norm_num
    linarith

/-! ## Cart position -/

/-- the state with the cart at another place -/
def moved (c : ℝ) (s : State) : State := fun k => if k = 0 then s 0 + c else s k

theorem derivative_moved (e : Setup) (c : ℝ) (s : State) (force : ℝ) :
    e.derivative (moved c s) force = e.derivative s force := by
  have hk : ∀ k, k ≠ 0 → moved c s k = s k := fun k hk => if_neg hk
  have hf : ∀ i, e.fi i (moved c s) = e.fi i s := fun i => by
    unfold Setup.fi Setup.temp Setup.gsin
    rw [hk _ (by omega), hk _ (by omega)]
  have hm : ∀ i, e.mi i (moved c s) = e.mi i s := fun i => by
    unfold Setup.mi Setup.gsin
    rw [hk _ (by omega)]
  have ha : e.cartAcc (moved c s) force = e.cartAcc s force := by
    unfold Setup.cartAcc Setup.effectiveMass
    simp only [hf, hm, hk 1 (by omega)]
  have hp : ∀ i, e.poleAcc i (moved c s) force = e.poleAcc i s force := fun i => by
    unfold Setup.poleAcc Setup.gsin Setup.temp
    rw [ha, hk _ (by omega), hk _ (by omega)]
  funext k
  unfold Setup.derivative
  rw [ha, hp, hk 1 (by omega), hk (k + 1) (by omega)]

/-- **C87 (track)**: the motion does not depend on where on the track the cart is. -/
theorem integrate_moved (e : Setup) (c : ℝ) (s : State) (force : ℝ) :
    e.integrate (moved c s) force = moved c (e.integrate s force) := by
  have hadd : ∀ (h : ℝ) (d : State), (fun k => moved c s k + h * d k) = moved c fun k => s k + h * d k := by
    intro h d
    funext k
    unfold moved
    split
    · next hk => rw [hk]; ring
    · rfl
  rw [integrate_rungeKutta, integrate_rungeKutta]
  unfold rungeKutta
  simp only [derivative_moved, hadd]

/-! ## Equilibrium -/

theorem derivative_zero (e : Setup) : e.derivative (fun _ => 0) 0 = fun _ => 0 := by
  have ha : e.cartAcc (fun _ => 0) 0 = 0 := by
    simp [Setup.cartAcc, Setup.fi, Setup.temp, Setup.gsin, direction]
  funext k
  unfold Setup.derivative Setup.poleAcc
  rw [ha]
  simp [Setup.gsin, Setup.temp]

theorem equilibrium (e : Setup) : e.integrate (fun _ => 0) 0 = fun _ => 0 := by
  rw [integrate_rungeKutta]
  unfold rungeKutta
  simp [derivative_zero]

theorem applied_zero {e : Setup} (h : 0 ≤ e.maxForce) : e.applied 0 = 0 := if_neg (by rw [abs_zero]; exact not_lt.2 h)

/-- **C87 (equilibrium)**: with upright poles at rest, at any place of the track and without force nothing moves, however
long. -/
theorem equilibrium_forever (c : ℝ) : ∀ (n : ℕ) (v : Env), 0 ≤ v.setup.maxForce → v.state = some (moved c fun _ => 0) →
    ∃ w, v.run (List.replicate n 0) = .ok w ∧ w.state = some (moved c fun _ => 0)
  | 0, v, _, hv => ⟨v, rfl, hv⟩
  | n + 1, v, hf, hv => by
    have hstep : ∃ v', v.stateTransition 0 = .ok v' ∧ v'.setup = v.setup ∧ v'.state = some (moved c fun _ => 0) := by
      unfold Env.stateTransition
      rw [hv]
      refine ⟨_, rfl, rfl, ?_⟩
      show some _ = some _
      rw [applied_zero hf, integrate_moved, equilibrium, integrate_moved, equilibrium]
    obtain ⟨v', h1, h2, h3⟩ := hstep
    obtain ⟨w, g1, g2⟩ := equilibrium_forever c n v' (h2 ▸ hf) h3
    refine ⟨w, ?_, g2⟩
    rw [List.replicate_succ]
    show (v.stateTransition 0 >>= fun v' => v'.run (List.replicate n 0)) = _
    rw [h1]
    exact g1

/-! ## Episodes -/

theorem run_append (v : Env) (as bs : List ℝ) : v.run (as ++ bs) = v.run as >>= fun w => w.run bs := by
  induction as generalizing v with
  | nil => rfl
  | cons a as ih =>
    show (v.stateTransition a >>= fun v' => v'.run (as ++ bs)) = (v.stateTransition a >>= fun v' => v'.run as) >>= _
    cases v.stateTransition a with
    | ok v' => exact ih v'
    | throws => rfl
    | checkFailed => rfl
    | ub => rfl

/-- Every sequence of transitions after a state exists. -/
theorem run_ok : ∀ (as : List ℝ) (v : Env), v.state.isSome → ∃ w, v.run as = .ok w ∧ w.state.isSome ∧ w.step = v.step + as.length ∧
    w.setup = v.setup ∧ w.fullyObservable = v.fullyObservable ∧
    (v.normalizedState = v.state.map (v.setup.observation v.fullyObservable) →
      w.normalizedState = w.state.map (w.setup.observation w.fullyObservable))
  | [], v, h => ⟨v, rfl, h, rfl, rfl, rfl, id⟩
  | a :: as, v, h => by
    obtain ⟨s, hs⟩ := Option.isSome_iff_exists.1 h
    have hstep : ∃ v', v.stateTransition a = .ok v' ∧ v'.state.isSome ∧ v'.step = v.step + 1 ∧ v'.setup = v.setup ∧
        v'.fullyObservable = v.fullyObservable ∧ v'.normalizedState = v'.state.map (v'.setup.observation v'.fullyObservable) := by
      unfold Env.stateTransition
      rw [hs]
      exact ⟨_, rfl, rfl, rfl, rfl, rfl, rfl⟩
    obtain ⟨v', h1, h2, h3, h4, h5, h6⟩ := hstep
    obtain ⟨w, g1, g2, g3, g4, g5, g6⟩ := run_ok as v' h2
    refine ⟨w, ?_, g2, by rw [g3, h3, List.length_cons]; omega, g4.trans h4, g5.trans h5, fun _ => g6 h6⟩
    show (v.stateTransition a >>= fun v' => v'.run as) = _
    rw [h1]
    exact g1

/-- **C87 (episodes)**: after `restart` every sequence of actions can be executed; the number of steps is the number of actions,
the episode is successful after `maxSteps` actions, and it ends then or when the cart leaves the track or a pole falls; as
long as it has not ended, position and angles in the observation lie in [-1, 1]. -/
theorem episode {e : Setup} (hc : 0 < e.maxCartPosition) (ha : 0 < e.maxAngle) (v : Env) (hv : v.setup = e) (as : List ℝ) :
    ∃ w s o, v.restart.run as = .ok w ∧ w.state = some s ∧ w.getState = .ok o ∧ w.step = as.length ∧
      (w.successful ↔ e.maxSteps ≤ as.length) ∧
      (∃ t, w.terminalState = .ok t ∧
        (t ↔ e.maxSteps ≤ as.length ∨ e.maxCartPosition < |s 0| ∨ ∃ i < e.poles, e.maxAngle < |s (2 + 2 * i)|) ∧
        (¬t → |o 0| ≤ 1 ∧ ∀ i < e.poles, |o (if v.fullyObservable then 2 + 2 * i else 1 + i)| ≤ 1)) := by
  obtain ⟨w, h1, h2, h3, h4, h5, h6⟩ := run_ok as v.restart rfl
  obtain ⟨s, hs⟩ := Option.isSome_iff_exists.1 h2
  have hn := h6 rfl
  rw [hs] at hn
  have hset : w.setup = e := h4.trans hv
  have hstep : w.step = as.length := by rw [h3]; show 0 + _ = _; omega
  have hfo : w.fullyObservable = v.fullyObservable := h5
  refine ⟨w, s, w.setup.observation w.fullyObservable s, h1, hs, by unfold Env.getState; rw [hn]; rfl, hstep, ?_, ?_⟩
  · unfold Env.successful
    rw [hset, hstep]
  · have hobs : ¬(e.maxCartPosition < |s 0| ∨ ∃ i < e.poles, e.maxAngle < |s (2 + 2 * i)|) →
        |w.setup.observation w.fullyObservable s 0| ≤ 1 ∧
        ∀ i < e.poles, |w.setup.observation w.fullyObservable s (if v.fullyObservable then 2 + 2 * i else 1 + i)| ≤ 1 := by
      intro ht
      have k1 : |s 0| ≤ e.maxCartPosition := le_of_not_gt fun h => ht (Or.inl h)
      have k2 : ∀ i < e.poles, |s (2 + 2 * i)| ≤ e.maxAngle := fun i hi => le_of_not_gt fun h => ht (Or.inr ⟨i, hi, h⟩)
      have scale : ∀ x m : ℝ, 0 < m → |x| ≤ m → |x * (1 / m)| ≤ 1 := fun x m hm hx => by
        rw [mul_one_div, abs_div, abs_of_pos hm, div_le_one hm]
        exact hx
      rw [hset, hfo]
      cases v.fullyObservable with
      | true =>
        refine ⟨scale _ _ hc k1, fun i hi => ?_⟩
        show |s (2 + 2 * i) * e.normalization (2 + 2 * i)| ≤ 1
        have : e.normalization (2 + 2 * i) = 1 / e.maxAngle := by
          unfold Setup.normalization
          rw [if_neg (by omega), if_neg (by omega), if_pos (by omega)]
        rw [this]
        exact scale _ _ ha (k2 i hi)
      | false =>
        refine ⟨scale _ _ hc k1, fun i hi => ?_⟩
        show |s (2 * (1 + i)) * e.normalization (2 * (1 + i))| ≤ 1
        have : e.normalization (2 * (1 + i)) = 1 / e.maxAngle := by
          unfold Setup.normalization
          rw [if_neg (by omega), if_neg (by omega), if_pos (by omega)]
        rw [this, show 2 * (1 + i) = 2 + 2 * i by ring]
        exact scale _ _ ha (k2 i hi)
    rw [hset] at hobs ⊢
    unfold Env.terminalState
    rw [hset, hstep, hs]
    by_cases hmax : e.maxSteps ≤ as.length
    · rw [if_pos hmax]
      exact ⟨True, rfl, ⟨fun _ => Or.inl hmax, fun _ => trivial⟩, fun h => (h trivial).elim⟩
    · rw [if_neg hmax]
      exact ⟨_, rfl, ⟨Or.inr, fun h => h.resolve_left hmax⟩, hobs⟩

/-- **C87 (restart)**: episodes do not depend on what happened before `restart`. -/
theorem restart_forgets (v w : Env) (hs : v.setup = w.setup) (ho : v.fullyObservable = w.fullyObservable) (a : ℝ) (as : List ℝ) :
    v.restart.run (a :: as) = w.restart.run (a :: as) := by
  have : v.restart.stateTransition a = w.restart.stateTransition a := by
    obtain ⟨vs, vf, v3, v4, v5, v6⟩ := v
    obtain ⟨ws, wf, w3, w4, w5, w6⟩ := w
    dsimp only at hs ho
    subst hs ho
    rfl
  show (v.restart.stateTransition a >>= _) = (w.restart.stateTransition a >>= _)
  rw [this]

/-- **C87 is false before `restart`**: the constructor leaves the state uninitialised, so that every query and the first
transition read undefined values. -/
theorem unstarted_ub {e : Setup} (h : 0 < e.maxSteps) (o : Bool) (a : ℝ) : (Env.new e o).stateTransition a = .ub ∧
    (Env.new e o).terminalState = .ub ∧ (Env.new e o).getState = .ub := by
  refine ⟨rfl, ?_, rfl⟩
  unfold Env.terminalState
  rw [if_neg (show ¬(Env.new e o).setup.maxSteps ≤ (Env.new e o).step from not_le.2 h)]
  rfl

/-- **C87 is false for the bounds of the state space**: without velocities, the bounds of the environment with one pole have four
entries for two state variables, so that the bound of the second variable, the angle, is the one of the cart velocity: it is
exceeded at the start of each episode. -/
theorem bounds_fails : (Env.new single false).boundsSingle.length ≠ (Env.new single false).stateSpaceDimension ∧
    ∃ o, (Env.new single false).restart.getState = .ok o ∧ (Env.new single false).boundsSingle.getD 1 0 < o 1 := by
  refine ⟨by simp [Env.boundsSingle, Env.stateSpaceDimension, Env.new, single], _, rfl, ?_⟩
  show (0.1 : ℝ) < single.start (2 * 1) * single.normalization (2 * 1)
  norm_num [Setup.start, Setup.normalization, single]

/-- **C87 (bounds)**: in all other cases there is one bound for each state variable, and the start is within the bounds. -/
theorem bounds_partial (o : Bool) :
    (Env.new single true).boundsSingle.length = (Env.new single true).stateSpaceDimension ∧
    (Env.new double o).boundsDouble.length = (Env.new double o).stateSpaceDimension ∧
    (∃ s, (Env.new single true).restart.getState = .ok s ∧ ∀ k < 4, |s k| ≤ (Env.new single true).boundsSingle.getD k 0) ∧
    ∃ s, (Env.new double o).restart.getState = .ok s ∧
      ∀ k < (Env.new double o).stateSpaceDimension, |s k| ≤ (Env.new double o).boundsDouble.getD k 0 := by
  refine ⟨rfl, by cases o <;> rfl, ⟨_, rfl, fun k hk => ?_⟩, _, rfl, fun k hk => ?_⟩
  · show |single.start k * single.normalization k| ≤ [1, 0.1, 1, 0.5].getD k 0
    interval_cases k <;> norm_num [Setup.start, Setup.normalization, single]
  · cases o with
    | true =>
      have hk' : k < 6 := hk
      show |double.start k * double.normalization k| ≤ [1, 0.1, 1, 0.5, 1, 0.5].getD k 0
      interval_cases k <;> norm_num [Setup.start, Setup.normalization, double]
    | false =>
      have hk' : k < 3 := hk
      show |double.start (2 * k) * double.normalization (2 * k)| ≤ [1, 1, 1].getD k 0
      interval_cases k <;> norm_num [Setup.start, Setup.normalization, double]

/-- The hypotheses of `episode`, `force_balance_partial`, `torque_balance` and `applied_eq` are met. -/
example : 0 < single.maxCartPosition ∧ 0 < single.maxAngle ∧ 0 ≤ single.maxForce ∧ single.Valid ∧ double.Valid ∧
    single.effectiveMass single.start ≠ 0 ∧ single.applied 25 = 10 ∧ 0 < single.maxSteps := by
  refine ⟨by norm_num [single], by norm_num [single], by norm_num [single], single_valid, double_valid, ?_, ?_, ?_⟩
  · have := (effectiveMass_pos single.start).1
    linarith
  · rw [applied_eq (by norm_num [single])]
    norm_num [single]
  · show 0 < 100000
    norm_num

end

end Verif.Poles
