import Verif.Model.Thrown
import Verif.Props.CMAES

/-!
# C112: exceptions of the optimised object in the evolution strategy
-/

namespace Verif.Thrown

noncomputable section

open Verif.Opt Verif.ES

variable {C : Core}

/-- No evaluation throws. -/
def calm : ℕ → Bool := fun _ => false

/-! ## Without exceptions -/

theorem individual_calm (err : Vec → ℝ) (s : Es C) :
    individual err calm s = s.individual err >>= fun s' => .ok (true, s') := by
  unfold individual Es.individual
  rcases s.getNext with r | _ | _ | _
  · simp only [Outcome.ok_bind, calm, Bool.false_eq_true, if_false]
    rcases r.2.setError (err r.1) <;> rfl
  all_goals rfl

theorem generation_calm (err : Vec → ℝ) (n : ℕ) (s : Es C) :
    generation err calm n s = forLoop n (fun _ => Es.individual err) s >>= fun s' => .ok (true, s') := by
  unfold generation
  induction n with
  | zero => rfl
  | succ n ih =>
    rw [forLoop, forLoop, ih]
    rcases forLoop n (fun _ => Es.individual err) s with s' | _ | _ | _
    · simp only [Outcome.ok_bind, if_true]
      exact individual_calm err s'
    all_goals rfl

theorem runCore_calm (err : Vec → ℝ) : ∀ (fuel : ℕ) (s : Es C),
    runCore err calm fuel s = Es.runCore err fuel s >>= fun r => .ok (r.map fun s' => (true, s'))
  | 0, _ => rfl
  | fuel + 1, s => by
    unfold runCore Es.runCore
    rcases s.cmaes with _ | c
    · rfl
    dsimp only
    split
    · rfl
    · rw [generation_calm]
      rcases forLoop c.popSize (fun _ => Es.individual err) s with s' | _ | _ | _
      · simp only [Outcome.ok_bind, if_true]
        exact runCore_calm err fuel s'
      all_goals rfl

theorem runCore_cmaes (err : Vec → ℝ) : ∀ (fuel : ℕ) {s s' : Es C}, Es.runCore err fuel s = .ok (some s') → ∃ c, s'.cmaes = some c
  | 0, _, _, h => by cases h
  | fuel + 1, s, s', h => by
    unfold Es.runCore at h
    split at h
    · cases h
    · rename_i c hc
      split at h
      · cases h
        exact ⟨c, hc⟩
      · obtain ⟨s₁, _, h⟩ := Outcome.bind_eq_ok.1 h
        exact runCore_cmaes err fuel h

theorem takeBest_calm (err : Vec → ℝ) (s : Es C) (c : Cma C) : takeBest err calm s c = (true, s.takeBest err c) := by
  unfold takeBest Es.takeBest
  rcases best c.reported with _ | b
  · rfl
  · dsimp only
    by_cases h : b.2 < s.optimumValue
    · rw [if_pos h, if_pos h]
      rfl
    · rw [if_neg h, if_neg h]

/-- **C112**: without exceptions `optimize()` is that of the model of C44. -/
theorem optimize_calm (err : Vec → ℝ) (x0 : ℕ → Vec) (fuel : ℕ) : ∀ (n : ℕ) (s : Es C),
    optimize err calm x0 fuel n s = Es.optimize err x0 fuel n s >>= fun r => .ok (r.map fun s' => (true, s'))
  | 0, _ => rfl
  | n + 1, s => by
    unfold optimize Es.optimize
    split
    · rw [runCore_calm]
      cases hr : Es.runCore err fuel (s.restart (x0 (s.restarts + 1).toNat)).2 with
      | ok r =>
        simp only [Outcome.ok_bind]
        cases r with
        | none => rfl
        | some s' =>
          obtain ⟨c, hc⟩ := runCore_cmaes err fuel hr
          simp only [Option.map_some, hc, takeBest_calm, if_true, Es.endRun, decide_eq_true_eq]
          split
          · rfl
          · exact optimize_calm err x0 fuel n _
      | throws => rfl
      | checkFailed => rfl
      | ub => rfl
    · rfl

/-! ## Programs that evaluate the individuals themselves -/

/-- **C112**: if the evaluation of an individual throws, the next call of `getNext` gives the same individual again, and everything goes
on as if the exception had not happened.  (The first individual of a generation is left out because the library samples a new
population for it.) -/
theorem ask_again {err : Vec → ℝ} {fails : ℕ → Bool} {s s' : Es C} (_h0 : 0 < s.currentIndividual)
    (h : individual err fails s = .ok (false, s')) :
    (∃ x s₁, s.getNext = .ok (x, s₁) ∧ s'.getNext = .ok (x, s')) ∧
    s'.individual err = s.individual err >>= fun u => .ok { u with errorCalls := u.errorCalls + 1 } := by
  unfold individual at h
  obtain ⟨r, hr, h⟩ := Outcome.bind_eq_ok.1 h
  split at h
  swap
  · obtain ⟨_, _, h⟩ := Outcome.bind_eq_ok.1 h
    cases h
  cases h
  obtain ⟨x, s₁⟩ := r
  have hn : ({ s₁ with errorCalls := s₁.errorCalls + 1 } : Es C).getNext =
      .ok (x, { s₁ with errorCalls := s₁.errorCalls + 1 }) := by
    unfold Es.getNext at hr ⊢
    split at hr
    · cases hr
    · rename_i c hc
      split at hr
      swap
      · cases hr
      rename_i hlt
      split at hr
      · rename_i h0
        cases hr
        simp only [hc, if_pos hlt, if_pos h0]
      · rename_i h0
        split at hr
        · cases hr
        · rename_i p hp
          cases hr
          simp only [hc, if_pos hlt, if_neg h0, hp]
  refine ⟨⟨x, s₁, hr, hn⟩, ?_⟩
  unfold Es.individual
  rw [hr, Outcome.ok_bind]
  dsimp only
  rw [hn, Outcome.ok_bind]
  unfold Es.setError
  dsimp only
  rcases hc : s₁.cmaes with _ | c
  · rfl
  dsimp only
  by_cases h1 : s₁.currentIndividual < c.popSize
  · rw [if_pos h1, if_pos h1]
    by_cases h2 : s₁.currentIndividual + 1 = c.popSize
    · rw [if_pos h2, if_pos h2]
      rfl
    · rw [if_neg h2, if_neg h2]
      simp only [Es.store, hc, Outcome.ok_bind, Outcome.pure_eq]
  · rw [if_neg h1, if_neg h1]
    rfl

/-! ## The state after an exception in `optimize()` -/

/-- A state from which `getNext` is defined. -/
def Live (s : Es C) : Prop :=
  ∃ c, s.cmaes = some c ∧ c.popSize = s.lambda ∧ s.currentIndividual < c.popSize ∧
    (s.currentIndividual ≠ 0 → ∃ p, s.population = some p)

/-- Members that the evaluation of individuals does not change. -/
structure Fixed (s s' : Es C) : Prop where
  stop : s'.stop = s.stop
  restarts : s'.restarts = s.restarts
  lambda : s'.lambda = s.lambda
  optimum : s'.optimum = s.optimum
  optimumValue : s'.optimumValue = s.optimumValue

theorem Fixed.refl (s : Es C) : Fixed s s := ⟨rfl, rfl, rfl, rfl, rfl⟩

theorem Fixed.trans {a b c : Es C} (h : Fixed a b) (h' : Fixed b c) : Fixed a c :=
  ⟨h'.1.trans h.1, h'.2.trans h.2, h'.3.trans h.3, h'.4.trans h.4, h'.5.trans h.5⟩

theorem individual_live (err : Vec → ℝ) (fails : ℕ → Bool) {s : Es C} (h : Live s) :
    ∃ b s', individual err fails s = .ok (b, s') ∧ Live s' ∧ Fixed s s' := by
  obtain ⟨c, hc, hl, hlt, hp⟩ := h
  have key : ∃ x s₁, s.getNext = .ok (x, s₁) ∧ (∃ p, s₁.population = some p) ∧ s₁.cmaes = some c ∧
      s₁.currentIndividual = s.currentIndividual ∧ Fixed s s₁ := by
    unfold Es.getNext
    simp only [hc, if_pos hlt]
    by_cases h0 : s.currentIndividual = 0
    · rw [if_pos h0]
      exact ⟨_, _, rfl, ⟨_, rfl⟩, rfl, rfl, ⟨rfl, rfl, rfl, rfl, rfl⟩⟩
    · rw [if_neg h0]
      obtain ⟨p, hp⟩ := hp h0
      rw [hp]
      exact ⟨_, _, rfl, ⟨p, hp⟩, hc, rfl, Fixed.refl s⟩
  obtain ⟨x, s₁, hn, hp₁, hc₁, hi₁, hf⟩ := key
  unfold individual
  rw [hn, Outcome.ok_bind]
  dsimp only
  split
  · exact ⟨_, _, rfl, ⟨c, hc₁, hl.trans hf.lambda.symm, by show s₁.currentIndividual < _; omega, fun _ => hp₁⟩,
      hf.trans ⟨rfl, rfl, rfl, rfl, rfl⟩⟩
  · unfold Es.setError
    simp only [hc₁, hi₁, if_pos hlt]
    by_cases h2 : s.currentIndividual + 1 = c.popSize
    · rw [if_pos h2, Outcome.ok_bind]
      exact ⟨_, _, rfl, ⟨_, rfl, hl.trans hf.lambda.symm, by show 0 < c.popSize; omega, fun hx => absurd rfl hx⟩,
        hf.trans ⟨rfl, rfl, rfl, rfl, rfl⟩⟩
    · rw [if_neg h2, Outcome.ok_bind]
      exact ⟨_, _, rfl, ⟨c, hc₁, hl.trans hf.lambda.symm, by show s₁.currentIndividual + 1 < _; omega, fun _ => hp₁⟩,
        hf.trans ⟨rfl, rfl, rfl, rfl, rfl⟩⟩

theorem generation_live (err : Vec → ℝ) (fails : ℕ → Bool) (n : ℕ) {s : Es C} (h : Live s) :
    ∃ b s', generation err fails n s = .ok (b, s') ∧ Live s' ∧ Fixed s s' := by
  unfold generation
  induction n with
  | zero => exact ⟨true, s, rfl, h, Fixed.refl s⟩
  | succ n ih =>
    obtain ⟨b, s₁, h1, h2, h3⟩ := ih
    rw [forLoop, h1, Outcome.ok_bind]
    cases b with
    | false => exact ⟨false, s₁, rfl, h2, h3⟩
    | true =>
      obtain ⟨b, s₂, h4, h5, h6⟩ := individual_live err fails h2
      exact ⟨b, s₂, h4, h5, h3.trans h6⟩

theorem runCore_live (err : Vec → ℝ) (fails : ℕ → Bool) : ∀ (fuel : ℕ) {s : Es C}, Live s →
    ∃ r, runCore err fails fuel s = .ok r ∧ ∀ b s', r = some (b, s') → Live s' ∧ Fixed s s' ∧
      (b = true → s'.currentIndividual = 0)
  | 0, s, _ => ⟨none, rfl, fun _ _ h => by cases h⟩
  | fuel + 1, s, h => by
    obtain ⟨c, hc, _⟩ := id h
    unfold runCore
    simp only [hc]
    by_cases ht : s.terminated c = true
    · rw [if_pos ht]
      refine ⟨_, rfl, fun b s' he => ?_⟩
      cases he
      refine ⟨h, Fixed.refl s, fun _ => ?_⟩
      unfold Es.terminated at ht
      simp only [Bool.and_eq_true, decide_eq_true_eq] at ht
      exact ht.1
    · rw [if_neg ht]
      obtain ⟨b, s₁, h1, h2, h3⟩ := generation_live err fails c.popSize h
      rw [h1, Outcome.ok_bind]
      cases b with
      | false =>
        refine ⟨_, rfl, fun b s' he => ?_⟩
        cases he
        exact ⟨h2, h3, fun hx => by cases hx⟩
      | true =>
        obtain ⟨r, h4, h5⟩ := runCore_live err fails fuel h2
        refine ⟨r, h4, fun b s' he => ?_⟩
        obtain ⟨h6, h7, h8⟩ := h5 b s' he
        exact ⟨h6, h3.trans h7, h8⟩

/-- An optimiser from which `optimize()` can be called. -/
structure Sane (s : Es C) : Prop where
  current : s.currentIndividual = 0
  lambda : 0 < s.lambda

theorem new_sane (stop : ES.Stop) {lambda : ℕ} (hl : 0 < lambda) : Sane (Es.new C stop lambda) := ⟨rfl, hl⟩

theorem restarted_live {s : Es C} (h : Sane s) (x0 : Vec) : Live (s.restarted x0) ∧ 0 < (s.restarted x0).lambda := by
  have hpos : 0 < s.nextLambda := by
    have := h.lambda
    unfold Es.nextLambda
    split <;> omega
  refine ⟨⟨_, rfl, rfl, ?_, fun hx => absurd h.current hx⟩, hpos⟩
  show s.currentIndividual < s.nextLambda
  rw [h.current]
  exact hpos

theorem takeBest_fixed (err : Vec → ℝ) (fails : ℕ → Bool) (s : Es C) (c : Cma C) :
    (takeBest err fails s c).2.stop = s.stop ∧ (takeBest err fails s c).2.restarts = s.restarts ∧
    (takeBest err fails s c).2.lambda = s.lambda ∧ (takeBest err fails s c).2.currentIndividual = s.currentIndividual ∧
    (takeBest err fails s c).2.cmaes = s.cmaes ∧ (takeBest err fails s c).2.population = s.population := by
  unfold takeBest
  split
  · exact ⟨rfl, rfl, rfl, rfl, rfl, rfl⟩
  · split
    · split <;> exact ⟨rfl, rfl, rfl, rfl, rfl, rfl⟩
    · exact ⟨rfl, rfl, rfl, rfl, rfl, rfl⟩

/-- `optimize()` of a sane optimiser: no check fails and nothing is accessed out of bounds, whichever evaluations throw.  After an
exception the next individual is defined; without one the optimiser is sane again. -/
theorem optimize_live (err : Vec → ℝ) (fails : ℕ → Bool) (x0 : ℕ → Vec) (fuel : ℕ) : ∀ (n : ℕ) {s : Es C}, Sane s →
    ∃ r, optimize err fails x0 fuel n s = .ok r ∧ ∀ b s', r = some (b, s') → s'.stop = s.stop ∧ 0 < s'.lambda ∧
      (b = true → Sane s') ∧ (b = false → Live s' ∧ s'.restarts ≤ s'.stop.maximalRestarts)
  | 0, s, _ => ⟨none, rfl, fun _ _ h => by cases h⟩
  | n + 1, s, h => by
    unfold optimize
    by_cases hgt : s.stop.maximalRestarts < s.restarts + 1
    · have he : s.restart (x0 (s.restarts + 1).toNat) = (false, { s with restarts := s.restarts + 1 }) := if_pos hgt
      rw [he]
      refine ⟨_, rfl, fun b s' he => ?_⟩
      cases he
      exact ⟨rfl, h.lambda, fun _ => ⟨h.current, h.lambda⟩, fun hx => by cases hx⟩
    · have he : s.restart (x0 (s.restarts + 1).toNat) = (true, s.restarted (x0 (s.restarts + 1).toNat)) := if_neg hgt
      rw [he]
      simp only [if_true]
      obtain ⟨hlive, hpos⟩ := restarted_live h (x0 (s.restarts + 1).toNat)
      obtain ⟨r, h1, h2⟩ := runCore_live err fails fuel hlive
      rw [h1, Outcome.ok_bind]
      rcases r with _ | ⟨b, s₁⟩
      · exact ⟨none, rfl, fun _ _ h => by cases h⟩
      obtain ⟨h3, h4, h5⟩ := h2 b s₁ rfl
      have hst : s₁.stop = s.stop := h4.stop
      have hre : s₁.restarts = s.restarts + 1 := h4.restarts
      have hla : 0 < s₁.lambda := by rw [h4.lambda]; exact hpos
      cases b with
      | false =>
        refine ⟨_, rfl, fun b s' he => ?_⟩
        cases he
        exact ⟨hst, hla, fun hx => (by cases hx), fun _ => ⟨h3, by rw [hre, hst]; omega⟩⟩
      | true =>
        obtain ⟨c, hc, hc2, hc3, hc4⟩ := id h3
        obtain ⟨t1, t2, t3, t4, t5, t6⟩ := takeBest_fixed err fails s₁ c
        simp only [hc]
        by_cases hb : (takeBest err fails s₁ c).1 = true
        · rw [if_pos hb]
          have hsane : Sane (takeBest err fails s₁ c).2 := ⟨t4.trans (h5 rfl), by rw [t3]; exact hla⟩
          by_cases hmin : fBest c < s₁.stop.minimalValue
          · rw [if_pos hmin]
            refine ⟨_, rfl, fun b s' he => ?_⟩
            have he' := Option.some.inj he
            rw [he'] at hsane t1 hb
            cases hb
            exact ⟨t1.trans hst, hsane.lambda, fun _ => hsane, fun hx => by cases hx⟩
          · rw [if_neg hmin]
            obtain ⟨r, h6, h7⟩ := optimize_live err fails x0 fuel n hsane
            refine ⟨r, h6, fun b s' he => ?_⟩
            obtain ⟨h8, h9⟩ := h7 b s' he
            exact ⟨h8.trans (t1.trans hst), h9⟩
        · rw [if_neg hb]
          refine ⟨_, rfl, fun b s' he => ?_⟩
          have he' := Option.some.inj he
          rw [he'] at t1 t2 t3 t4 t5 t6 hb
          dsimp only at t1 t2 t3 t4 t5 t6 hb
          refine ⟨t1.trans hst, by rw [t3]; exact hla, fun hx => absurd hx hb, fun _ => ⟨⟨c, ?_, ?_, ?_, ?_⟩, ?_⟩⟩
          · rw [t5, hc]
          · rw [t3, hc2]
          · rw [t4]; exact hc3
          · rw [t4, t6]; exact hc4
          · rw [t1, t2, hre, hst]; omega

/-! ## Calling `optimize()` again -/

/-- **C112 is false**: as soon as all restarts are used (without configuration: after the first exception), `optimize()` does nothing
any more; neither the evaluation that failed nor those that were still to come are made. -/
theorem retry_nothing_fails {s : Es C} (h : s.stop.maximalRestarts ≤ s.restarts) (err : Vec → ℝ) (fails : ℕ → Bool)
    (x0 : ℕ → Vec) (fuel n : ℕ) :
    optimize err fails x0 fuel (n + 1) s = .ok (some (true, { s with restarts := s.restarts + 1 })) := by
  have hgt : s.stop.maximalRestarts < s.restarts + 1 := by omega
  have he : s.restart (x0 (s.restarts + 1).toNat) = (false, { s with restarts := s.restarts + 1 }) := if_pos hgt
  unfold optimize
  rw [he]
  rfl

theorem generation_ub {err : Vec → ℝ} {fails : ℕ → Bool} {s : Es C} (h : s.getNext = .ub) {n : ℕ} (hn : 0 < n) :
    generation err fails n s = .ub := by
  unfold generation
  induction n with
  | zero => omega
  | succ n ih =>
    rw [forLoop]
    rcases Nat.eq_zero_or_pos n with rfl | h0
    · rw [forLoop, Outcome.ok_bind]
      simp only [if_true, individual, h, Outcome.ub_bind]
    · rw [ih h0]
      rfl

/-- **C112 is false**: with restarts left, an exception in the middle of a generation makes the next call of `optimize()` read the
population that was freed together with the old instance. -/
theorem retry_ub {s : Es C} (hlive : Live s) (h0 : 0 < s.currentIndividual) (hr : s.restarts < s.stop.maximalRestarts)
    (err : Vec → ℝ) (fails : ℕ → Bool) (x0 : ℕ → Vec) (fuel n : ℕ) :
    optimize err fails x0 (fuel + 1) (n + 1) s = .ub := by
  obtain ⟨c, hc, hl, hlt, _⟩ := hlive
  have hgt : ¬ s.stop.maximalRestarts < s.restarts + 1 := by omega
  have hnl : s.currentIndividual < s.nextLambda := by
    unfold Es.nextLambda
    split <;> omega
  have hub := restart_mid_generation_ub s (by omega) h0 hnl (x0 (s.restarts + 1).toNat)
  have he : s.restart (x0 (s.restarts + 1).toNat) = (true, s.restarted (x0 (s.restarts + 1).toNat)) := if_neg hgt
  unfold optimize
  rw [he] at hub ⊢
  simp only [if_true]
  unfold runCore
  have ht : ∀ c', ¬ (s.restarted (x0 (s.restarts + 1).toNat)).terminated c' = true := by
    intro c' hx
    unfold Es.terminated at hx
    simp only [Bool.and_eq_true, decide_eq_true_eq] at hx
    have : s.currentIndividual = 0 := hx.1
    omega
  have hcm : (s.restarted (x0 (s.restarts + 1).toNat)).cmaes =
    some ⟨C.start (s.restarts + 1).toNat s.nextLambda (x0 (s.restarts + 1).toNat), s.nextLambda, s.countOld, []⟩ := rfl
  rw [hcm]
  dsimp only
  rw [if_neg (ht _), generation_ub hub (by omega)]
  rfl

/-- **C112**: an exception in the first individual of a generation or in the evaluation of the best one, with restarts left: the next
call of `optimize()` is again defined, however often this happens. -/
theorem retry_defined {s s' : Es C} (h : Sane s) {err : Vec → ℝ} {fails : ℕ → Bool} {x0 : ℕ → Vec} {fuel n : ℕ}
    (ht : optimize err fails x0 fuel n s = .ok (some (false, s'))) (h0 : s'.currentIndividual = 0) (err' : Vec → ℝ)
    (fails' : ℕ → Bool) (x0' : ℕ → Vec) (fuel' n' : ℕ) :
    Sane s' ∧ ∃ r, optimize err' fails' x0' fuel' n' s' = .ok r := by
  obtain ⟨r, h1, h2⟩ := optimize_live err fails x0 fuel n h
  rw [ht] at h1
  cases h1
  obtain ⟨_, h4, _⟩ := h2 false s' rfl
  have hs : Sane s' := ⟨h0, h4⟩
  obtain ⟨r, h5, _⟩ := optimize_live err' fails' x0' fuel' n' hs
  exact ⟨hs, r, h5⟩

/-- All cases together: what `optimize()` does after an exception of an earlier call. -/
theorem retry_cases {s s' : Es C} (h : Sane s) {err : Vec → ℝ} {fails : ℕ → Bool} {x0 : ℕ → Vec} {fuel n : ℕ}
    (ht : optimize err fails x0 fuel n s = .ok (some (false, s'))) (err' : Vec → ℝ) (fails' : ℕ → Bool) (x0' : ℕ → Vec)
    (fuel' n' : ℕ) :
    (s.stop.maximalRestarts = s'.restarts →
      optimize err' fails' x0' (fuel' + 1) (n' + 1) s' = .ok (some (true, { s' with restarts := s'.restarts + 1 }))) ∧
    (s'.restarts < s.stop.maximalRestarts →
      (optimize err' fails' x0' (fuel' + 1) (n' + 1) s' = .ub ↔ 0 < s'.currentIndividual)) := by
  obtain ⟨r, h1, h2⟩ := optimize_live err fails x0 fuel n h
  rw [ht] at h1
  cases h1
  obtain ⟨h3, h4, _, h6⟩ := h2 false s' rfl
  obtain ⟨h7, h8⟩ := h6 rfl
  refine ⟨fun he => retry_nothing_fails (by rw [h3, he]) err' fails' x0' _ n', fun hlt => ⟨fun hub => ?_, fun h0 => ?_⟩⟩
  · by_contra hx
    obtain ⟨_, r, hr⟩ := retry_defined h ht (by omega) err' fails' x0' (fuel' + 1) (n' + 1)
    rw [hr] at hub
    cases hub
  · exact retry_ub h7 h0 (by rw [h3]; exact hlt) err' fails' x0' fuel' n'

/-- **C112 is false**: an exception in the evaluation of the best individual leaves optimum and value of the optimum inconsistent, so
that the next start replaces the optimum by any individual that is better than the old value, even by a worse one. -/
theorem best_lost_fails {err err' : Vec → ℝ} {fails : ℕ → Bool} {s : Es C} {c c' : Cma C} {b b' : Vec × ℝ}
    (hb : best c.reported = some b) (hlt : b.2 < s.optimumValue) (hf : fails s.errorCalls = true)
    (hb' : best c'.reported = some b') (hlt' : b'.2 < s.optimumValue) :
    (takeBest err fails s c).1 = false ∧ (takeBest err fails s c).2.optimum = some b.1 ∧
    (takeBest err' calm (takeBest err fails s c).2 c').2.optimum = some b'.1 := by
  have h1 : takeBest err fails s c = (false, { s with optimum := some b.1, errorCalls := s.errorCalls + 1 }) := by
    unfold takeBest
    simp only [hb, if_pos hlt, hf, if_true]
  rw [h1]
  refine ⟨rfl, rfl, ?_⟩
  unfold takeBest
  simp only [hb', if_pos hlt', calm, Bool.false_eq_true, if_false]

/-- An exception in the second of two individuals, with one restart left. -/
example : ∃ s', optimize (fun _ => 0) (fun n => n == 1) (fun _ _ => 0) 1 1 (Es.new endless { maximalRestarts := 1 } 2) =
    .ok (some (false, s')) ∧ s'.currentIndividual = 1 ∧ s'.restarts = 0 ∧ Sane (Es.new endless { maximalRestarts := 1 } 2) := by
  have hs : Sane (Es.new endless { maximalRestarts := 1 } 2) := new_sane _ (by norm_num)
  simp only [hs, and_true]
  simp [optimize, Es.new, Es.restart, Es.restarted, runCore, Es.terminated, endless, generation, forLoop, Es.nextLambda, individual,
    Es.getNext, Es.setError, Es.store]

end

end Verif.Thrown
