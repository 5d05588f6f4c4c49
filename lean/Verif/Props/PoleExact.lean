import Verif.Props.PoleFloat
import Verif.Props.PoleBalancing

/-!
# The floating point model of pole balancing with exact arithmetic is the model with real numbers

`Model/PoleFloat.lean` and `Model/PoleBalancing.lean` describe the same source code.  If nothing is rounded they agree, so that the
theorems about each of them are about the same formulas.
-/

namespace Verif.PoleFp

open Outcome Fp Poles Fp.Fpu

noncomputable section

/-- An arithmetic without rounding; its cosine is not used here. -/
def exactFpu : Fpu :=
  { gridFpu with
    rnd := .num
    cos := fun _ => .num 1
    rnd_mono := fun _ _ h => h
    rnd_rnd := fun _ _ _ => rfl
    rnd_int := fun _ _ => rfl
    rnd_pow := fun _ _ => rfl
    exp_rnd := fun _ _ _ => rfl
    log_rnd := fun _ _ _ => rfl
    sqrt_rnd := fun _ _ _ => rfl
    cos_num := fun _ => ⟨1, rfl, by norm_num, le_rfl, rfl⟩
    cos_ne := fun _ _ h => by
      injection h with h
      norm_num at h }

/-- The functions without rounding. -/
def exactLibm : Libm where
  sin | .num x => .num (Real.sin x)
      | _ => .nan
  cos | .num x => .num (Real.cos x)
      | _ => .nan
  sq | .num x => .num (x ^ 2)
     | .nan => .nan
     | _ => .pinf
  sin_nan := rfl
  cos_nan := rfl
  sq_nan := rfl

/-- A vector of numbers. -/
def nums (s : State) : Vec := fun k => .num (s k)

theorem exact_div (x : ℝ) {y : ℝ} (h : y ≠ 0) : exactFpu.div (.num x) (.num y) = .num (x / y) := if_neg h

variable {e : Setup}

theorem Known.mass_ne (h : Known e) (i : ℕ) : e.mass i ≠ 0 := by
  rcases h with rfl | rfl
  · norm_num [single]
  · simp only [double]
    split <;> norm_num

theorem Known.length_ne (h : Known e) (i : ℕ) : e.length i ≠ 0 := by
  rcases h with rfl | rfl
  · norm_num [single]
  · simp only [double]
    split <;> norm_num

theorem gsin_exact (i : ℕ) (s : State) : gsin exactFpu exactLibm e i (nums s) = .num (e.gsin i s) := rfl

theorem temp_exact (h : Known e) (i : ℕ) (s : State) : temp exactFpu e i (nums s) = .num (e.temp i s) :=
  exact_div _ (mul_ne_zero (h.mass_ne i) (h.length_ne i))

theorem fi_exact (h : Known e) (i : ℕ) (s : State) : fi exactFpu exactLibm e i (nums s) = .num (e.fi i s) := by
  unfold fi
  rw [temp_exact h, gsin_exact]
  rfl

theorem mi_exact (i : ℕ) (s : State) : mi exactFpu exactLibm e i (nums s) = .num (e.mi i s) := by
  unfold mi
  rw [gsin_exact]
  show Dbl.num (e.mass i * (1 + -(0.75 * Real.cos (s (2 + 2 * i)) * e.gsin i s))) = _
  rw [← sub_eq_add_neg]
  rfl

theorem direction_exact (v : ℝ) : direction exactFpu (.num v) = .num (Poles.direction v) := by
  unfold direction Poles.direction
  by_cases h : v = 0
  · rw [if_pos (by rw [h]), if_pos h]
  · rw [if_neg (fun h' => h (by injection h')), if_neg h]
    exact exact_div _ (abs_ne_zero.2 h)

theorem effectiveMass_exact (h : Known e) (s : State) :
    effectiveMass exactFpu exactLibm e (nums s) = .num (e.effectiveMass s) := by
  unfold effectiveMass
  rcases h with rfl | rfl
  · show exactFpu.add (mi exactFpu exactLibm single 0 (nums s)) _ = _
    rw [mi_exact]
    show Dbl.num (single.mi 0 s + single.cartMass) = _
    simp [Setup.effectiveMass, single]
  · show exactFpu.add (exactFpu.add (mi exactFpu exactLibm double 0 (nums s)) (mi exactFpu exactLibm double 1 (nums s))) _ = _
    rw [mi_exact, mi_exact]
    show Dbl.num (double.mi 0 s + double.mi 1 s + double.cartMass) = _
    simp [Setup.effectiveMass, double, Finset.sum_range_succ]

theorem cartAcc_exact (h : Known e) (s : State) (f : ℝ) :
    cartAcc exactFpu exactLibm e (nums s) (.num f) = .num (e.cartAcc s f) := by
  have hm : e.effectiveMass s ≠ 0 := by
    have := Poles.effectiveMass_pos s
    rcases h with rfl | rfl
    · exact ne_of_gt (lt_of_lt_of_le (by norm_num) this.1)
    · exact ne_of_gt (lt_of_lt_of_le (by norm_num) this.2)
  unfold cartAcc
  rw [effectiveMass_exact h, show nums s 1 = .num (s 1) from rfl, direction_exact]
  have hsum : (List.range e.poles).foldl (fun x i => exactFpu.add x (fi exactFpu exactLibm e i (nums s)))
      (exactFpu.sub (.num f) (exactFpu.mul (exactFpu.rnd e.muc) (.num (Poles.direction (s 1))))) =
      .num (f - e.muc * Poles.direction (s 1) + ∑ i ∈ Finset.range e.poles, e.fi i s) := by
    have hstart : exactFpu.sub (.num f) (exactFpu.mul (exactFpu.rnd e.muc) (.num (Poles.direction (s 1)))) =
        .num (f - e.muc * Poles.direction (s 1)) := by
      show Dbl.num (f + -(e.muc * Poles.direction (s 1))) = _
      rw [← sub_eq_add_neg]
    rw [hstart]
    have hfi := fi_exact h
    generalize f - e.muc * Poles.direction (s 1) = a
    have hgen : ∀ n : ℕ, (List.range n).foldl (fun x i => exactFpu.add x (fi exactFpu exactLibm e i (nums s))) (.num a) =
        .num (a + ∑ i ∈ Finset.range n, e.fi i s) := by
      intro n
      induction n with
      | zero => simp
      | succ n ih =>
        rw [List.range_succ, List.foldl_append, ih, Finset.sum_range_succ, ← add_assoc]
        show exactFpu.add _ (fi exactFpu exactLibm e n (nums s)) = _
        rw [hfi]
        rfl
    exact hgen _
  rw [hsum]
  exact exact_div _ hm

theorem poleAcc_exact (h : Known e) (i : ℕ) (s : State) (f : ℝ) :
    poleAcc exactFpu exactLibm e i (nums s) (.num f) = .num (e.poleAcc i s f) := by
  unfold poleAcc
  rw [cartAcc_exact h, gsin_exact, temp_exact h]
  exact exact_div _ (h.length_ne i)

theorem derivative_exact (h : Known e) (s : State) (f : ℝ) :
    derivative exactFpu exactLibm e (nums s) (.num f) = nums (e.derivative s f) := by
  funext k
  unfold derivative nums Setup.derivative
  split_ifs
  · rfl
  · exact cartAcc_exact h s f
  · rfl
  · rfl
  · exact poleAcc_exact h _ s f

theorem velocities_exact (y d : State) : velocities e (nums y) (nums d) = nums (e.velocities y d) := by
  funext k
  unfold velocities nums Setup.velocities
  split_ifs <;> rfl

theorem integrate_exact (h : Known e) (s : State) (f : ℝ) :
    integrate exactFpu exactLibm e (nums s) (.num f) = nums (e.integrate s f) := by
  unfold integrate Setup.integrate
  rw [derivative_exact h]
  generalize e.derivative s f = der
  unfold rk4 Setup.rk4
  have h6 : exactFpu.div (exactFpu.rnd 0.01) (.num 6) = .num (timeDelta / 6) := exact_div _ (by norm_num)
  simp only [h6]
  have e1 : (fun k => exactFpu.add (nums s k) (exactFpu.mul (exactFpu.mul (exactFpu.rnd 0.01) (exactFpu.rnd 0.5)) (nums der k))) =
      nums fun k => s k + timeDelta * 0.5 * der k := rfl
  have e2 : ∀ d : State, (fun k => exactFpu.add (nums s k) (exactFpu.mul (exactFpu.mul (exactFpu.rnd 0.01) (exactFpu.rnd 0.5)) (nums d k))) =
      nums fun k => s k + timeDelta * 0.5 * d k := fun _ => rfl
  have e3 : ∀ d : State, (fun k => exactFpu.add (nums s k) (exactFpu.mul (exactFpu.rnd 0.01) (nums d k))) =
      nums fun k => s k + timeDelta * d k := fun _ => rfl
  simp only [e1, e2, e3, derivative_exact h, velocities_exact]
  rfl

theorem applied_exact (h : Known e) (f : ℝ) : applied exactFpu e (.num f) = .num (e.applied f) := by
  unfold applied Setup.applied
  by_cases hf : e.maxForce < |f|
  · have hlt : Lt (exactFpu.rnd e.maxForce) (fabs (.num f)) := ⟨hf.le, not_le.2 hf⟩
    rw [if_pos hlt, if_pos hf]
    have h0 : 0 < e.maxForce := by rcases h with rfl | rfl <;> norm_num [single, double]
    rw [show fabs (.num f) = .num |f| from rfl, exact_div _ (ne_of_gt (lt_trans h0 hf))]
    rfl
  · have hlt : ¬ Lt (exactFpu.rnd e.maxForce) (fabs (.num f)) := fun h => hf (not_le.1 h.2)
    rw [if_neg hlt, if_neg hf]

/-- **C145 and C87 are about the same program**: without rounding, a transition of the floating point model is the transition of the
model with real numbers. -/
theorem exact_transition (h : Known e) (debug : Bool) (v : Poles.Env) (hv : v.setup = e) (f : ℝ) :
    stateTransition exactFpu exactLibm e debug ⟨v.state.map nums, v.step⟩ (.num f) =
      (v.stateTransition f >>= fun v' => .ok ⟨v'.state.map nums, v'.step⟩) := by
  unfold stateTransition Poles.Env.stateTransition
  rw [if_neg (fun h' => h'.2.2 ⟨f, rfl⟩), hv]
  cases v.state with
  | none => rfl
  | some s =>
    show Outcome.ok (Env.mk (some (integrate _ _ _ (integrate _ _ _ (nums s) _) _)) _) = _
    rw [applied_exact h, integrate_exact h, integrate_exact h]
    rfl

open Classical in
/-- The same for the end of an episode. -/
theorem exact_terminal (v : Poles.Env) (hv : v.setup = e) (b : Bool) :
    terminalState exactFpu e ⟨v.state.map nums, v.step⟩ = .ok b ↔ ∃ p, v.terminalState = .ok p ∧ (p ↔ b = true) := by
  unfold terminalState Poles.Env.terminalState
  rw [hv]
  by_cases hm : e.maxSteps ≤ v.step
  · rw [if_pos hm, if_pos hm]
    constructor
    · intro h
      obtain rfl := Outcome.ok.inj h
      exact ⟨True, rfl, by simp⟩
    · rintro ⟨p, hp, hb⟩
      obtain rfl := Outcome.ok.inj hp
      rw [hb.1 trivial]
  · rw [if_neg hm, if_neg hm]
    cases v.state with
    | none =>
      constructor
      · intro h; cases h
      · rintro ⟨p, hp, _⟩; cases hp
    | some s =>
      have hlt : ∀ x y : ℝ, Lt (exactFpu.rnd x) (fabs (nums (fun _ => y) 0)) ↔ x < |y| := fun x y =>
        ⟨fun h => not_le.1 h.2, fun h => ⟨h.le, not_le.2 h⟩⟩
      have hiff : (Lt (exactFpu.rnd e.maxCartPosition) (fabs (nums s 0)) ∨
          ∃ i < e.poles, Lt (exactFpu.rnd e.maxAngle) (fabs (nums s (2 + 2 * i)))) ↔
          (e.maxCartPosition < |s 0| ∨ ∃ i < e.poles, e.maxAngle < |s (2 + 2 * i)|) :=
        or_congr (hlt _ _) (exists_congr fun i => and_congr_right fun _ => hlt _ _)
      constructor
      · intro h
        have h' := Outcome.ok.inj h
        refine ⟨_, rfl, ?_⟩
        rw [← h', decide_eq_true_iff]
        exact hiff.symm
      · rintro ⟨p, hp, hb⟩
        have hp' := Outcome.ok.inj hp
        refine congrArg Outcome.ok ?_
        rw [← hp'] at hb
        cases b with
        | true => exact decide_eq_true (hiff.2 (hb.2 rfl))
        | false => exact decide_eq_false fun h => by cases hb.1 (hiff.1 h)

/-- And for the start. -/
theorem exact_restart (v : Poles.Env) (hv : v.setup = e) :
    restart exactFpu e = ⟨v.restart.state.map nums, v.restart.step⟩ := by
  unfold restart Poles.Env.restart
  rw [hv]
  refine congrArg (fun s => Env.mk (some s) 0) (funext fun k => ?_)
  unfold nums Setup.start
  split_ifs <;> rfl

/-- The hypotheses are met by new environments. -/
example (b : Bool) : Known double ∧ (Poles.Env.new double b).restart.setup = double := ⟨.inr rfl, rfl⟩

end

end Verif.PoleFp
