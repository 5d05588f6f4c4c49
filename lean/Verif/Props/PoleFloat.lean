import Verif.Model.PoleFloat
import Verif.Props.Float

/-!
# Episodes of pole balancing with broken numbers (C145)
-/

namespace Verif.PoleFp

open Outcome Fp Poles Fp.Fpu

noncomputable section

variable {A : Fpu} {L : Libm} {e : Setup}

/-- Spec: one of the two environments. -/
def Known (e : Setup) : Prop := e = single ∨ e = double

theorem Known.force (h : Known e) : A.rnd e.maxForce = .num 10 := by
  have : e.maxForce = ((10 : ℤ) : ℝ) := by
    rcases h with rfl | rfl <;> norm_num [single, double]
  rw [this, A.rnd_int 10 (by norm_num)]
  norm_num

/-- **C145 (finite actions)**: a finite action is limited to the action space. -/
theorem applied_number (h : Known e) (x : ℝ) : ∃ y, applied A e (.num x) = .num y ∧ |y| ≤ 10 ∧ (|x| ≤ 10 → y = x) ∧
    (10 < |x| → y = 10 * SignType.sign x) := by
  unfold applied
  rw [h.force]
  by_cases hx : 10 < |x|
  · have hlt : Lt (.num 10) (fabs (.num x)) := ⟨hx.le, not_le.2 hx⟩
    have hx0 : x ≠ 0 := by
      rintro rfl
      rw [abs_zero] at hx
      norm_num at hx
    rw [if_pos hlt]
    have habs : |x| ≠ 0 := abs_ne_zero.2 hx0
    have hdiv : A.div (.num x) (fabs (.num x)) = A.rnd (x / |x|) := if_neg habs
    rw [hdiv]
    rcases lt_or_gt_of_ne hx0 with hneg | hpos
    · have h1 : x / |x| = ((-1 : ℤ) : ℝ) := by
        rw [abs_of_neg hneg, div_neg, div_self hx0]
        norm_num
      have h2 : ((-1 : ℤ) : ℝ) * 10 = ((-10 : ℤ) : ℝ) := by norm_num
      refine ⟨-10, ?_, by norm_num, fun h' => absurd hx (not_lt.2 h'), fun _ => ?_⟩
      · rw [h1, A.rnd_int (-1) (by norm_num)]
        show A.rnd (((-1 : ℤ) : ℝ) * 10) = _
        rw [h2, A.rnd_int (-10) (by norm_num)]
        norm_num
      · rw [sign_neg hneg]
        norm_num
    · have h1 : x / |x| = ((1 : ℤ) : ℝ) := by
        rw [abs_of_pos hpos, div_self hx0]
        norm_num
      have h2 : ((1 : ℤ) : ℝ) * 10 = ((10 : ℤ) : ℝ) := by norm_num
      refine ⟨10, ?_, by norm_num, fun h' => absurd hx (not_lt.2 h'), fun _ => ?_⟩
      · rw [h1, A.rnd_int 1 (by norm_num)]
        show A.rnd (((1 : ℤ) : ℝ) * 10) = _
        rw [h2, A.rnd_int 10 (by norm_num)]
        norm_num
      · rw [sign_pos hpos]
        norm_num
  · have hlt : ¬ Lt (.num 10) (fabs (.num x)) := fun h' => hx (not_le.1 h'.2)
    rw [if_neg hlt]
    exact ⟨x, rfl, not_lt.1 hx, fun _ => rfl, fun h' => absurd h' hx⟩

/-- **C145 (infinite actions)**: the limited force of an infinite action is not the largest force but NaN. -/
theorem applied_broken_fails (h : Known e) {a : Dbl} (ha : ¬ IsNumber a) : applied A e a = .nan := by
  unfold applied
  rw [h.force]
  cases a with
  | num x => exact absurd ⟨x, rfl⟩ ha
  | pinf =>
    rw [if_pos (show Lt (.num 10) (fabs .pinf) from ⟨trivial, fun h => h⟩)]
    rfl
  | ninf =>
    rw [if_pos (show Lt (.num 10) (fabs .ninf) from ⟨trivial, fun h => h⟩)]
    rfl
  | nan =>
    rw [if_neg (fun h' : Lt (.num 10) (fabs .nan) => h'.1)]

theorem foldl_nan (f : ℕ → Dbl) (l : List ℕ) : l.foldl (fun x i => A.add x (f i)) .nan = .nan := by
  induction l with
  | nil => rfl
  | cons i l ih =>
    show l.foldl _ (A.add .nan (f i)) = _
    rw [add_nan_left, ih]

theorem cartAcc_nan (s : Vec) : cartAcc A L e s .nan = .nan := by
  unfold cartAcc
  rw [show A.sub .nan (A.mul (A.rnd e.muc) (direction A (s 1))) = .nan from add_nan_left _, foldl_nan, div_nan_left]

theorem poleAcc_nan (i : ℕ) (s : Vec) : poleAcc A L e i s .nan = .nan := by
  unfold poleAcc
  rw [cartAcc_nan, mul_nan_left, add_nan_left, add_nan_left, mul_nan_right, div_nan_left]

/-- Velocities change by NaN. -/
theorem derivative_nan (s : Vec) {k : ℕ} (hk : k < e.dim) (hodd : k % 2 = 1) : derivative A L e s .nan k = .nan := by
  unfold derivative
  by_cases h1 : k = 1
  · rw [if_neg (by omega), if_pos h1, cartAcc_nan]
  · rw [if_neg (by omega), if_neg h1, if_neg (by omega), if_neg (by omega), poleAcc_nan]

/-- One step with the force NaN breaks all entries of the state. -/
theorem integrate_nan (s : Vec) {k : ℕ} (hk : k < e.dim) : integrate A L e s .nan k = .nan := by
  have hodd : ∀ {y d : Vec} {k : ℕ}, k % 2 = 1 → velocities e y d k = d k := by
    intro y d k h
    unfold velocities
    rw [if_neg (by omega)]
  have heven : ∀ {y d : Vec} {k : ℕ}, k < e.dim → k % 2 = 0 → velocities e y d k = y (k + 1) := by
    intro y d k h h'
    unfold velocities
    rw [if_pos ⟨h, h'⟩]
  unfold integrate rk4
  simp only
  by_cases h : k % 2 = 1
  · rw [derivative_nan s hk h, add_nan_left, add_nan_left, mul_nan_right, add_nan_right]
  · have h0 : k % 2 = 0 := by omega
    have hk1 : k + 1 < e.dim := by
      unfold Setup.dim at hk ⊢
      omega
    have h1 : (k + 1) % 2 = 1 := by omega
    rw [heven (k := k) hk h0, heven (k := k) hk h0, heven (k := k) hk h0]
    rw [hodd h1, derivative_nan _ hk1 h1, mul_nan_right, add_nan_right, add_nan_right, add_nan_left, mul_nan_right, add_nan_right]

/-- A broken state stays broken. -/
theorem integrate_broken {s : Vec} (force : Dbl) {k : ℕ} (hs : s k = .nan) : integrate A L e s force k = .nan := by
  unfold integrate rk4
  simp only
  rw [hs, add_nan_left]

/-- All entries of the state are NaN. -/
def Broken (e : Setup) (v : Env) : Prop := ∃ s, v.state = some s ∧ ∀ k < e.dim, s k = .nan

theorem broken_not_terminal {v : Env} (hv : Broken e v) (hstep : v.step < e.maxSteps) : terminalState A e v = .ok false := by
  obtain ⟨s, hs, hk⟩ := hv
  unfold terminalState
  rw [if_neg (by omega), hs]
  have h0 : s 0 = .nan := hk 0 (by unfold Setup.dim; omega)
  have hlt : ∀ c : Dbl, ¬ Lt c .nan := by
    intro c h
    cases c <;> exact h.1
  refine congrArg Outcome.ok (decide_eq_false_iff_not.2 ?_)
  rw [h0]
  rintro (h | ⟨i, hi, h⟩)
  · exact hlt _ h
  · rw [hk (2 + 2 * i) (by unfold Setup.dim; omega)] at h
    exact hlt _ h

/-- Spec: no check ends an episode with these actions: it is compiled out, or there is only one pole, or all actions from
number `n` on are numbers. -/
def Unchecked (debug : Bool) (e : Setup) (acts : ℕ → Dbl) (n : ℕ) : Prop :=
  debug = false ∨ e.poles ≠ 2 ∨ ∀ k, n ≤ k → IsNumber (acts k)

theorem transition_ok {debug : Bool} {acts : ℕ → Dbl} {v : Env} (hu : Unchecked debug e acts v.step) {s : Vec} (hs : v.state = some s) :
    stateTransition A L e debug v (acts v.step) =
      .ok ⟨some (integrate A L e (integrate A L e s (applied A e (acts v.step))) (applied A e (acts v.step))), v.step + 1⟩ := by
  unfold stateTransition
  rw [if_neg, hs]
  rintro ⟨h1, h2, h3⟩
  rcases hu with h | h | h
  · rw [h] at h1
    cases h1
  · exact h h2
  · exact h3 (h _ le_rfl)

theorem Unchecked.later {debug : Bool} {acts : ℕ → Dbl} {n : ℕ} (h : Unchecked debug e acts n) : Unchecked debug e acts (n + 1) := by
  rcases h with h | h | h
  · exact .inl h
  · exact .inr (.inl h)
  · exact .inr (.inr fun k hk => h k (by omega))

/-- **C145 (end)**: every episode ends, after at most the maximal number of steps, whatever the agent does. -/
theorem play_ends {debug : Bool} {acts : ℕ → Dbl} : ∀ {fuel : ℕ} {v : Env}, v.state ≠ none → v.step ≤ e.maxSteps →
    e.maxSteps < v.step + fuel → Unchecked debug e acts v.step →
    ∃ v', play A L e debug acts fuel v = .ok (some v') ∧ v.step ≤ v'.step ∧ v'.step ≤ e.maxSteps ∧ terminalState A e v' = .ok true := by
  intro fuel
  induction fuel with
  | zero => intro v _ h1 h2 _; omega
  | succ fuel ih =>
    intro v hv h1 h2 hu
    obtain ⟨s, hs⟩ := Option.ne_none_iff_exists'.1 hv
    by_cases hmax : e.maxSteps ≤ v.step
    · have ht : terminalState A e v = .ok true := if_pos hmax
      refine ⟨v, ?_, le_rfl, h1, ht⟩
      unfold play
      rw [ht]
      rfl
    · have ht : ∃ b, terminalState A e v = .ok b := by
        unfold terminalState
        rw [if_neg hmax, hs]
        exact ⟨_, rfl⟩
      obtain ⟨b, hb⟩ := ht
      cases b with
      | true =>
        refine ⟨v, ?_, le_rfl, h1, hb⟩
        unfold play
        rw [hb]
        rfl
      | false =>
        have htr := transition_ok (A := A) (L := L) hu hs
        obtain ⟨v', g1, g2, g3, g4⟩ := ih (v := ⟨some _, v.step + 1⟩) (by intro h; cases h) (show v.step + 1 ≤ _ by omega)
          (show _ < v.step + 1 + fuel by omega) hu.later
        refine ⟨v', ?_, le_trans (Nat.le_succ _) g2, g3, g4⟩
        unfold play
        rw [hb]
        show (stateTransition A L e debug v (acts v.step) >>= fun v' => play A L e debug acts fuel v') = _
        rw [htr]
        exact g1

theorem broken_plays {debug : Bool} {acts : ℕ → Dbl} : ∀ {fuel : ℕ} {v : Env}, Broken e v → v.step ≤ e.maxSteps →
    e.maxSteps < v.step + fuel → Unchecked debug e acts v.step →
    ∃ v', play A L e debug acts fuel v = .ok (some v') ∧ v'.step = e.maxSteps ∧ Broken e v' := by
  intro fuel
  induction fuel with
  | zero => intro v _ h1 h2 _; omega
  | succ fuel ih =>
    intro v hv h1 h2 hu
    by_cases hmax : e.maxSteps ≤ v.step
    · have ht : terminalState A e v = .ok true := if_pos hmax
      refine ⟨v, ?_, by omega, hv⟩
      unfold play
      rw [ht]
      rfl
    · have ht := broken_not_terminal (A := A) hv (by omega)
      obtain ⟨s, hs, hk⟩ := hv
      have htr := transition_ok (A := A) (L := L) hu hs
      obtain ⟨v', g1, g2, g3⟩ := ih (v := ⟨some _, v.step + 1⟩)
        ⟨_, rfl, fun k hk' => integrate_broken (A := A) (L := L) (applied A e (acts v.step))
          (integrate_broken (A := A) (L := L) (applied A e (acts v.step)) (hk k hk'))⟩ (show v.step + 1 ≤ _ by omega)
        (show _ < v.step + 1 + fuel by omega) hu.later
      refine ⟨v', ?_, g2, g3⟩
      unfold play
      rw [ht]
      show (stateTransition A L e debug v (acts v.step) >>= fun v' => play A L e debug acts fuel v') = _
      rw [htr]
      exact g1

/-- **C145 is false of the code**: whenever an agent chooses an infinite action or NaN before the end of an episode, and no check
ends it, then the episode is reported as successful after the maximal number of steps, whatever the agent does afterwards. -/
theorem broken_action_succeeds_fails (h : Known e) {debug : Bool} {acts : ℕ → Dbl} {v : Env} (hv : v.state ≠ none)
    (hnt : terminalState A e v = .ok false) (hu : Unchecked debug e acts v.step) (ha : ¬ IsNumber (acts v.step)) :
    ∃ v', play A L e debug acts (e.maxSteps + 1) v = .ok (some v') ∧ successful e v' ∧ v'.step = e.maxSteps ∧ Broken e v' := by
  obtain ⟨s, hs⟩ := Option.ne_none_iff_exists'.1 hv
  have hstep : v.step < e.maxSteps := by
    by_contra hc
    have : terminalState A e v = .ok true := if_pos (not_lt.1 hc)
    rw [this] at hnt
    cases hnt
  have htr := transition_ok (A := A) (L := L) hu hs
  obtain ⟨v', g1, g2, g3⟩ := broken_plays (A := A) (L := L) (fuel := e.maxSteps)
    (v := ⟨some (integrate A L e (integrate A L e s (applied A e (acts v.step))) (applied A e (acts v.step))), v.step + 1⟩)
    ⟨_, rfl, fun k hk' => by
      rw [applied_broken_fails h ha]
      exact integrate_nan (A := A) (L := L) (integrate A L e s .nan) hk'⟩ (show v.step + 1 ≤ _ by omega)
    (show _ < v.step + 1 + e.maxSteps by omega) (hu.later (e := e) (debug := debug) (acts := acts))
  refine ⟨v', ?_, ?_, g2, g3⟩
  · unfold play
    rw [hnt]
    show (stateTransition A L e debug v (acts v.step) >>= fun v' => play A L e debug acts e.maxSteps v') = _
    rw [htr]
    exact g1
  · unfold successful
    omega

/-- With the check, the environment with two poles ends the program. -/
theorem broken_action_checked {acts : ℕ → Dbl} {v : Env} (fuel : ℕ) (hnt : terminalState A double v = .ok false)
    (ha : ¬ IsNumber (acts v.step)) : play A L double true acts (fuel + 1) v = .checkFailed := by
  unfold play
  rw [hnt]
  show (stateTransition A L double true v (acts v.step) >>= fun v' => play A L double true acts fuel v') = _
  unfold stateTransition
  rw [if_pos ⟨rfl, rfl, ha⟩]
  rfl

/-- Rounding keeps numbers between 0 and 1. -/
theorem rnd_unit {x : ℝ} (h0 : 0 ≤ x) (h1 : x ≤ 1) : ∃ y, A.rnd x = .num y ∧ 0 ≤ y := by
  have e0 : A.rnd 0 = .num 0 := by simpa using A.rnd_int 0 (by norm_num)
  have e1 : A.rnd 1 = .num 1 := by simpa using A.rnd_int 1 (by norm_num)
  have m0 := A.rnd_mono 0 x h0
  have m1 := A.rnd_mono x 1 h1
  rw [e0] at m0
  rw [e1] at m1
  cases hx : A.rnd x with
  | num y =>
    rw [hx] at m0
    exact ⟨y, rfl, m0⟩
  | pinf => rw [hx] at m1; exact m1.elim
  | ninf => rw [hx] at m0; exact m0.elim
  | nan => rw [hx] at m0; exact m0.elim

/-- The start of an episode is not its end. -/
theorem restart_not_terminal (h : Known e) : terminalState A e (restart A e) = .ok false := by
  have hsteps : ¬ e.maxSteps ≤ (restart A e).step := by
    show ¬ e.maxSteps ≤ 0
    rcases h with rfl | rfl <;> decide
  have hcart : A.rnd 0 = .num 0 := by simpa using A.rnd_int 0 (by norm_num)
  have habs0 : fabs (.num 0) = A.rnd 0 := by
    rw [hcart]
    show Dbl.num |0| = _
    rw [abs_zero]
  have hpos : ∀ x : ℝ, 0 ≤ x → ¬ Lt (A.rnd x) (fabs (.num 0)) := by
    intro x hx hlt
    rw [habs0] at hlt
    exact hlt.2 (A.rnd_mono 0 x hx)
  have hc : 0 ≤ e.maxCartPosition := by rcases h with rfl | rfl <;> norm_num [single, double]
  have ha : e.maxAngle = 0.62 := by rcases h with rfl | rfl <;> rfl
  have hi : e.initialAngle = 0.07 := by rcases h with rfl | rfl <;> rfl
  unfold terminalState
  rw [if_neg hsteps]
  refine congrArg Outcome.ok (decide_eq_false_iff_not.2 ?_)
  rintro (hlt | ⟨i, _, hlt⟩)
  · exact hpos _ hc hlt
  · rw [ha] at hlt
    by_cases h2 : 2 + 2 * i = 2
    · obtain ⟨y, hy, hy0⟩ := rnd_unit (A := A) (x := 0.07) (by norm_num) (by norm_num)
      have hlt' : Lt (A.rnd 0.62) (fabs (if 2 + 2 * i = 2 then A.rnd e.initialAngle else .num 0)) := hlt
      rw [if_pos h2, hi, hy, show fabs (.num y) = .num y by show Dbl.num |y| = _; rw [abs_of_nonneg hy0], ← hy] at hlt'
      exact hlt'.2 (A.rnd_mono _ _ (by norm_num))
    · have hlt' : Lt (A.rnd 0.62) (fabs (if 2 + 2 * i = 2 then A.rnd e.initialAngle else .num 0)) := hlt
      rw [if_neg h2] at hlt'
      exact hpos _ (by norm_num) hlt'

/-- **C145, the simplest case**: an agent with one pole that chooses an infinite force in the first step is successful, with or without
checks, and no other agent has more steps. -/
theorem infinite_force_wins_fails {debug : Bool} {acts : ℕ → Dbl} (ha : ¬ IsNumber (acts 0)) :
    ∃ v', play A L single debug acts 100001 (restart A single) = .ok (some v') ∧ successful single v' ∧ v'.step = 100000 ∧
      ∀ acts' : ℕ → Dbl, ∃ v'', play A L single debug acts' 100001 (restart A single) = .ok (some v'') ∧ v''.step ≤ v'.step := by
  have hu : ∀ acts : ℕ → Dbl, Unchecked debug single acts 0 := fun _ => .inr (.inl (by decide))
  obtain ⟨v', g1, g2, g3, _⟩ := broken_action_succeeds_fails (A := A) (L := L) (.inl rfl) (debug := debug) (acts := acts)
    (v := restart A single) (by intro h; cases h) (restart_not_terminal (.inl rfl)) (hu acts) ha
  refine ⟨v', g1, g2, g3, fun acts' => ?_⟩
  obtain ⟨v'', k1, _, k2, _⟩ := play_ends (A := A) (L := L) (e := single) (debug := debug) (acts := acts') (fuel := 100001)
    (v := restart A single) (by intro h; cases h) (Nat.zero_le _) (by show 100000 < 0 + 100001; norm_num) (hu acts')
  exact ⟨v'', k1, by rw [g3]; exact k2⟩

/-- Spec: cart and poles are where they should be, or their places are not numbers. -/
def Balanced (A : Fpu) (e : Setup) (v : Env) : Prop := ∃ s, v.state = some s ∧
  (s 0 = .nan ∨ Le (fabs (s 0)) (A.rnd e.maxCartPosition)) ∧
  ∀ i < e.poles, s (2 + 2 * i) = .nan ∨ Le (fabs (s (2 + 2 * i))) (A.rnd e.maxAngle)

/-- Spec: the environment after `n` transitions. -/
def after (A : Fpu) (L : Libm) (e : Setup) (acts : ℕ → Dbl) (v : Env) : ℕ → Env
  | 0 => v
  | n + 1 => after A L e acts ⟨v.state.map fun s => integrate A L e (integrate A L e s (applied A e (acts v.step))) (applied A e (acts v.step)),
      v.step + 1⟩ n

theorem not_lt_or {c a : Dbl} (hc : c ≠ .nan) (h : ¬ Lt c (fabs a)) : a = .nan ∨ Le (fabs a) c := by
  cases a with
  | nan => exact .inl rfl
  | num x =>
    right
    cases c with
    | num y =>
      by_contra h'
      exact h ⟨le_of_lt (not_le.1 h'), h'⟩
    | pinf => trivial
    | ninf => exact absurd ⟨trivial, fun h => h⟩ h
    | nan => exact absurd rfl hc
  | pinf =>
    right
    cases c with
    | num y => exact absurd ⟨trivial, fun h => h⟩ h
    | pinf => trivial
    | ninf => exact absurd ⟨trivial, fun h => h⟩ h
    | nan => exact absurd rfl hc
  | ninf =>
    right
    cases c with
    | num y => exact absurd ⟨trivial, fun h => h⟩ h
    | pinf => trivial
    | ninf => exact absurd ⟨trivial, fun h => h⟩ h
    | nan => exact absurd rfl hc

theorem rnd_ne_nan (x : ℝ) : A.rnd x ≠ .nan := by
  intro h
  have := A.rnd_mono x x le_rfl
  rw [h] at this
  exact this

theorem balanced_of_not_terminal {v : Env} (h : terminalState A e v = .ok false) : Balanced A e v := by
  unfold terminalState at h
  by_cases hm : e.maxSteps ≤ v.step
  · rw [if_pos hm] at h
    cases h
  · rw [if_neg hm] at h
    cases hs : v.state with
    | none =>
      rw [hs] at h
      cases h
    | some s =>
      rw [hs] at h
      have h' := decide_eq_false_iff_not.1 (Outcome.ok.inj h)
      refine ⟨s, hs, not_lt_or (rnd_ne_nan _) fun hl => h' (.inl hl), fun i hi => not_lt_or (rnd_ne_nan _) fun hl => h' (.inr ⟨i, hi, hl⟩)⟩

/-- **C145 (success)**: an episode that ends with success had cart and poles in their limits after every transition but the last, unless
their places were not numbers. -/
theorem success_partial {debug : Bool} {acts : ℕ → Dbl} : ∀ {fuel : ℕ} {v v' : Env},
    play A L e debug acts fuel v = .ok (some v') → v.step ≤ v'.step ∧ v' = after A L e acts v (v'.step - v.step) ∧
      ∀ n < v'.step - v.step, Balanced A e (after A L e acts v n) := by
  intro fuel
  induction fuel with
  | zero => intro v v' h; cases h
  | succ fuel ih =>
    intro v v' h
    unfold play at h
    obtain ⟨t, ht, h⟩ := bind_eq_ok.1 h
    cases t with
    | true =>
      obtain rfl := Option.some.inj (Outcome.ok.inj h)
      refine ⟨le_rfl, ?_, ?_⟩
      · rw [Nat.sub_self]
        rfl
      · intro n hn
        omega
    | false =>
      obtain ⟨w, hw, h⟩ := bind_eq_ok.1 (show (stateTransition A L e debug v (acts v.step) >>= fun v' => play A L e debug acts fuel v') =
        .ok (some v') from h)
      obtain ⟨h1, h2, h3⟩ := ih h
      have hw' : w = ⟨v.state.map fun s => integrate A L e (integrate A L e s (applied A e (acts v.step))) (applied A e (acts v.step)),
          v.step + 1⟩ := by
        unfold stateTransition at hw
        split at hw
        · cases hw
        · cases hs : v.state with
          | none =>
            rw [hs] at hw
            cases hw
          | some s =>
            rw [hs] at hw
            exact (Outcome.ok.inj hw).symm
      have hws : w.step = v.step + 1 := by rw [hw']
      have e1 : v'.step - v.step = (v'.step - w.step) + 1 := by omega
      refine ⟨by omega, ?_, ?_⟩
      · rw [e1]
        show v' = after A L e acts ⟨_, v.step + 1⟩ _
        rw [← hw']
        exact h2
      · intro n hn
        cases n with
        | zero => exact balanced_of_not_terminal ht
        | succ n =>
          show Balanced A e (after A L e acts ⟨_, v.step + 1⟩ n)
          rw [← hw']
          exact h3 n (by omega)

/-- Sine and cosine of the numbers are rounded. -/
def roundedLibm (A : Fpu) : Libm where
  sin | .num x => A.rnd (Real.sin x)
      | _ => .nan
  cos := A.fcos
  sq a := A.mul a a
  sin_nan := rfl
  cos_nan := rfl
  sq_nan := rfl

/-- The hypotheses of `broken_action_succeeds_fails` and `infinite_force_wins_fails` are met: one pole, with checks, the force is always
infinite. -/
example : Known single ∧ (restart gridFpu single).state ≠ none ∧ terminalState gridFpu single (restart gridFpu single) = .ok false ∧
    Unchecked true single (fun _ => .pinf) 0 ∧ ¬ IsNumber .pinf :=
  ⟨.inl rfl, Option.some_ne_none _, restart_not_terminal (.inl rfl), .inr (.inl (by decide)), fun ⟨_, hx⟩ => nomatch hx⟩

/-- The hypothesis of `success_partial` is met: every episode without force ends. -/
example : ∃ v', play gridFpu (roundedLibm gridFpu) double true (fun _ => .num 0) 100001 (restart gridFpu double) = .ok (some v') := by
  obtain ⟨v', h, _⟩ := play_ends (A := gridFpu) (L := roundedLibm gridFpu) (e := double) (debug := true) (acts := fun _ => .num 0) (fuel := 100001)
    (v := restart gridFpu double) (by intro h; cases h) (Nat.zero_le _) (by show 100000 < 0 + 100001; norm_num)
    (.inr (.inr fun _ _ => ⟨0, rfl⟩))
  exact ⟨v', h⟩

end

end Verif.PoleFp
