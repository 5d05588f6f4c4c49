import Verif.Model.CMAES
import Mathlib.Tactic.Linarith
import Mathlib.Tactic.Common

/-!
# C44 (and a part of C42): evolution strategy with restarts

The sampling core is arbitrary.  The objective is an arbitrary function of the parameters whose values are smaller than the
largest number.
-/

namespace Verif.ES

open Verif.Opt

noncomputable section

variable {C : Core}

/-- `x` is a best one of the individuals `l`. -/
def IsBest (l : List (Vec × ℝ)) (x : Vec × ℝ) : Prop := x ∈ l ∧ ∀ y ∈ l, x.2 ≤ y.2

theorem best_isBest : ∀ {l : List (Vec × ℝ)} {x : Vec × ℝ}, best l = some x → IsBest l x
  | [], _, h => by cases h
  | a :: l, x, h => by
    unfold best at h
    split at h
    · rename_i hn
      cases h
      have : l = [] := by
        cases l with
        | nil => rfl
        | cons b l => unfold best at hn; split at hn <;> (try split at hn) <;> cases hn
      subst this
      exact ⟨List.mem_cons_self, fun y hy => by simp at hy; rw [hy]⟩
    · rename_i b hb
      obtain ⟨hm, hall⟩ := best_isBest hb
      split at h
      · cases h
        rename_i hlt
        refine ⟨List.mem_cons_of_mem _ hm, fun y hy => ?_⟩
        rcases List.mem_cons.1 hy with rfl | hy
        · exact le_of_lt hlt
        · exact hall y hy
      · cases h
        rename_i hlt
        refine ⟨List.mem_cons_self, fun y hy => ?_⟩
        rcases List.mem_cons.1 hy with rfl | hy
        · exact le_refl _
        · exact le_trans (not_lt.1 hlt) (hall y hy)

theorem best_none {l : List (Vec × ℝ)} (h : best l = none) : l = [] := by
  cases l with
  | nil => rfl
  | cons b l => unfold best at h; split at h <;> (try split at h) <;> cases h

/-- The individuals of a population of `n` and their errors. -/
def evaluatedPopulation (err : Vec → ℝ) (p : ℕ → Vec) (n : ℕ) : List (Vec × ℝ) := (List.range n).map fun i => (p i, err (p i))

/-- The array of fitness values after `k` individuals. -/
def fit (err : Vec → ℝ) (p : ℕ → Vec) (l : List ℝ) : ℕ → List ℝ
  | 0 => l
  | k + 1 => (fit err p l k).set k (err (p k))

theorem fit_length (err : Vec → ℝ) (p : ℕ → Vec) (l : List ℝ) (k : ℕ) : (fit err p l k).length = l.length := by
  induction k with
  | zero => rfl
  | succ k ih => simp [fit, ih]

theorem fit_getD (err : Vec → ℝ) (p : ℕ → Vec) (l : List ℝ) (k i : ℕ) (hi : i < k) (hl : i < l.length) :
    (fit err p l k).getD i 0 = err (p i) := by
  induction k with
  | zero => omega
  | succ k ih =>
    rw [fit, List.getD_eq_getElem?_getD, List.getElem?_set]
    by_cases hk : k = i
    · subst hk
      simp [fit_length, hl]
    · rw [if_neg hk, ← List.getD_eq_getElem?_getD]
      exact ih (by omega)

theorem fit_full (err : Vec → ℝ) (p : ℕ → Vec) (l : List ℝ) : fit err p l l.length = (List.range l.length).map (err ∘ p) := by
  apply List.ext_getElem
  · simp [fit_length]
  · intro i h1 h2
    have h3 : i < l.length := by simpa [fit_length] using h1
    have := fit_getD err p l l.length i h3 h3
    rw [List.getD_eq_getElem?_getD, List.getElem?_eq_getElem h1] at this
    simpa using this

/-- The state inside of a generation, after `k` individuals. -/
def Es.mid (err : Vec → ℝ) (p : ℕ → Vec) (s : Es C) (k : ℕ) : Es C :=
  { s with
    population := some p
    fitnessValues := fit err p s.fitnessValues k
    currentIndividual := k
    evaluationsAfterRestart := s.evaluationsAfterRestart + k
    evaluated := s.evaluated ++ evaluatedPopulation err p k
    errorCalls := s.errorCalls + k }

/-- The state after a generation. -/
def Es.after (err : Vec → ℝ) (s : Es C) (c : Cma C) : Es C :=
  { s with
    cmaes := some { c with
      state := C.update c.state ((List.range c.popSize).map (err ∘ C.sample c.state))
      countevals := c.countevals + c.popSize
      reported := c.reported ++ evaluatedPopulation err (C.sample c.state) c.popSize }
    population := some (C.sample c.state)
    fitnessValues := (List.range c.popSize).map (err ∘ C.sample c.state)
    currentIndividual := 0
    evaluationsAfterRestart := s.evaluationsAfterRestart + c.popSize
    evaluated := s.evaluated ++ evaluatedPopulation err (C.sample c.state) c.popSize
    errorCalls := s.errorCalls + c.popSize
    generations := s.generations ++ [evaluatedPopulation err (C.sample c.state) c.popSize]
    finished := s.finished + 1 }

theorem evaluatedPopulation_succ (err : Vec → ℝ) (p : ℕ → Vec) (k : ℕ) :
    evaluatedPopulation err p (k + 1) = evaluatedPopulation err p k ++ [(p k, err (p k))] := by
  simp [evaluatedPopulation, List.range_succ]

/-- A state at the beginning of a generation. -/
structure Es.Ready (s : Es C) (c : Cma C) : Prop where
  cmaes : s.cmaes = some c
  current : s.currentIndividual = 0
  length : s.fitnessValues.length = c.popSize
  pos : 0 < c.popSize

theorem individual_mid (err : Vec → ℝ) {s : Es C} {c : Cma C} (h : s.Ready c) {k : ℕ} (h0 : 0 < k) (hk : k + 1 < c.popSize) :
    (s.mid err (C.sample c.state) k).individual err = .ok (s.mid err (C.sample c.state) (k + 1)) := by
  have hk' : k < c.popSize := by omega
  have hk0 : k ≠ 0 := by omega
  have hke : k + 1 ≠ c.popSize := by omega
  simp only [Es.individual, Es.getNext, Es.mid, h.cmaes, if_pos hk', if_neg hk0, Outcome.ok_bind, Es.setError, if_neg hke,
    Es.store, Outcome.pure_eq, evaluatedPopulation_succ, fit, List.append_assoc, Nat.add_assoc]

theorem individual_last (err : Vec → ℝ) {s : Es C} {c : Cma C} (h : s.Ready c) {k : ℕ} (h0 : 0 < k) (hk : k + 1 = c.popSize) :
    (s.mid err (C.sample c.state) k).individual err = .ok (s.after err c) := by
  have hk' : k < c.popSize := by omega
  have hk0 : k ≠ 0 := by omega
  have hfull : fit err (C.sample c.state) s.fitnessValues (k + 1) = (List.range c.popSize).map (err ∘ C.sample c.state) := by
    rw [hk, ← h.length, fit_full]
  have hgen : ((List.range c.popSize).map fun i => (C.sample c.state i,
      ((List.range c.popSize).map (err ∘ C.sample c.state)).getD i 0)) =
      evaluatedPopulation err (C.sample c.state) c.popSize := by
    unfold evaluatedPopulation
    refine List.map_congr_left fun i hi => ?_
    have hi' := List.mem_range.1 hi
    simp [List.getD_eq_getElem?_getD, hi']
  have hfull' : (fit err (C.sample c.state) s.fitnessValues k).set k (err (C.sample c.state k)) =
      (List.range c.popSize).map (err ∘ C.sample c.state) := hfull
  simp only [Es.individual, Es.getNext, Es.mid, h.cmaes, if_pos hk', if_neg hk0, Outcome.ok_bind, Es.setError, if_pos hk,
    Es.store, Outcome.pure_eq, Es.endGeneration, Es.generation, hfull', Option.getD_some, hgen, Es.after]
  rw [← hk, evaluatedPopulation_succ]
  simp only [List.append_assoc, Nat.add_assoc]

theorem individual_first (err : Vec → ℝ) {s : Es C} {c : Cma C} (h : s.Ready c) (hk : 1 < c.popSize) :
    s.individual err = .ok (s.mid err (C.sample c.state) 1) := by
  have hne : (1 : ℕ) ≠ c.popSize := by omega
  simp only [Es.individual, Es.getNext, h.cmaes, h.current, if_pos h.pos, if_true, Outcome.ok_bind, Es.setError, Nat.zero_add,
    if_neg hne, Es.store, Outcome.pure_eq, Es.mid, fit, evaluatedPopulation]
  rfl

theorem individual_only (err : Vec → ℝ) {s : Es C} {c : Cma C} (h : s.Ready c) (hk : c.popSize = 1) :
    s.individual err = .ok (s.after err c) := by
  obtain ⟨v, hv⟩ : ∃ v, s.fitnessValues = [v] := List.length_eq_one_iff.1 (by rw [h.length, hk])
  simp only [Es.individual, Es.getNext, h.cmaes, h.current, hk, Nat.zero_lt_one, if_true, Outcome.ok_bind, Es.setError,
    Nat.zero_add, Es.store, Outcome.pure_eq, Es.endGeneration, Es.generation, Es.after, evaluatedPopulation, hv]
  rfl

/-- One generation of `optimize`: no check fails, every individual of the population is evaluated once and the distribution is
updated with the errors of this population. -/
theorem generation_ok (err : Vec → ℝ) {s : Es C} {c : Cma C} (h : s.Ready c) :
    forLoop c.popSize (fun _ => Es.individual err) s = .ok (s.after err c) := by
  rcases Nat.lt_or_ge 1 c.popSize with hk | hk
  · have := forLoop_eq (n := c.popSize) (body := fun _ => Es.individual err)
      (fun k => if k = 0 then s else if k = c.popSize then s.after err c else s.mid err (C.sample c.state) k) (fun i hi => by
        rcases Nat.eq_zero_or_pos i with rfl | hi0
        · have h1 : (1 : ℕ) ≠ c.popSize := by omega
          simp only [if_true, Nat.zero_add, Nat.one_ne_zero, if_false, if_neg h1]
          exact individual_first err h hk
        · have h1 : i ≠ 0 := by omega
          have h2 : i ≠ c.popSize := by omega
          have h3 : i + 1 ≠ 0 := by omega
          simp only [if_neg h1, if_neg h2, if_neg h3]
          by_cases h4 : i + 1 = c.popSize
          · simp only [if_pos h4]
            exact individual_last err h hi0 h4
          · simp only [if_neg h4]
            exact individual_mid err h hi0 (by omega))
    have hne : c.popSize ≠ 0 := by omega
    simpa [hne] using this
  · have h1 : c.popSize = 1 := by have := h.pos; omega
    rw [h1, forLoop, forLoop, Outcome.ok_bind]
    exact individual_only err h h1

theorem after_ready (err : Vec → ℝ) {s : Es C} {c : Cma C} (h : s.Ready c) :
    ∃ c', (s.after err c).Ready c' ∧ c'.popSize = c.popSize ∧
      c'.reported = c.reported ++ evaluatedPopulation err (C.sample c.state) c.popSize :=
  ⟨_, ⟨rfl, rfl, by simp [Es.after], h.pos⟩, rfl, rfl⟩

/-- What one instance of the core did (`runCore`) from the state `s` with the instance `c` to `s'`. -/
structure CoreRun (err : Vec → ℝ) (s : Es C) (c : Cma C) (s' : Es C) (c' : Cma C) : Prop where
  ready : s'.Ready c'
  popSize : c'.popSize = c.popSize
  /-- the generations of this instance -/
  run : ∃ gens : List (List (Vec × ℝ)), s'.generations = s.generations ++ gens ∧
    s'.evaluated = s.evaluated ++ gens.flatten ∧ c'.reported = c.reported ++ gens.flatten ∧
    s'.evaluationsAfterRestart = s.evaluationsAfterRestart + gens.flatten.length ∧
    s'.errorCalls = s.errorCalls + gens.flatten.length ∧ s'.finished = s.finished + gens.length ∧
    ∀ g ∈ gens, ∃ st : C.State, g = evaluatedPopulation err (C.sample st) c.popSize
  rest : s'.stop = s.stop ∧ s'.restarts = s.restarts ∧ s'.starts = s.starts ∧ s'.lambda = s.lambda ∧
    s'.optimum = s.optimum ∧ s'.optimumValue = s.optimumValue
  terminated : s'.terminated c' = true
  /-- the budget of the instance -/
  budget : s.stop.maximalFunctionEvaluations ≠ -1 → 0 < s.stop.maximalFunctionEvaluations →
    (s.evaluationsAfterRestart : ℤ) < s.stop.maximalFunctionEvaluations + c.popSize →
    (s'.evaluationsAfterRestart : ℤ) < s.stop.maximalFunctionEvaluations + c.popSize

theorem runCore_run (err : Vec → ℝ) : ∀ (fuel : ℕ) {s : Es C} {c : Cma C} (_ : s.Ready c) {r : Option (Es C)}
    (_ : Es.runCore err fuel s = .ok r), r = none ∨ ∃ s' c', r = some s' ∧ CoreRun err s c s' c'
  | 0, s, c, _, r, hr => by
    cases hr
    exact Or.inl rfl
  | fuel + 1, s, c, h, r, hr => by
    unfold Es.runCore at hr
    rw [h.cmaes] at hr
    simp only at hr
    split at hr
    · rename_i ht
      cases hr
      exact Or.inr ⟨s, c, rfl, h, rfl, ⟨[], by simp⟩, by simp, ht, fun _ _ hb => hb⟩
    · rename_i ht
      rw [generation_ok err h, Outcome.ok_bind] at hr
      obtain ⟨c1, h1, hp1, hr1⟩ := after_ready err h
      rcases runCore_run err fuel h1 hr with hn | ⟨s', c', rfl, hrun⟩
      · exact Or.inl hn
      · refine Or.inr ⟨s', c', rfl, hrun.ready, by rw [hrun.popSize, hp1], ?_, hrun.rest, hrun.terminated, ?_⟩
        · obtain ⟨gens, e1, e2, e3, e4, e5, e6, e7⟩ := hrun.run
          have hlen : (evaluatedPopulation err (C.sample c.state) c.popSize).length = c.popSize := by
            simp [evaluatedPopulation]
          refine ⟨evaluatedPopulation err (C.sample c.state) c.popSize :: gens, ?_, ?_, ?_, ?_, ?_, ?_, ?_⟩
          · rw [e1]; simp [Es.after]
          · rw [e2]; simp [Es.after]
          · rw [e3, hr1]; simp
          · rw [e4]; simp only [Es.after, List.flatten_cons, List.length_append, hlen]; omega
          · rw [e5]; simp only [Es.after, List.flatten_cons, List.length_append, hlen]; omega
          · rw [e6]; simp only [Es.after, List.length_cons]; omega
          · intro g hg
            rcases List.mem_cons.1 hg with rfl | hg
            · exact ⟨c.state, rfl⟩
            · obtain ⟨st, hst⟩ := e7 g hg
              exact ⟨st, by rw [hst, hp1]⟩
        · intro hne hpos hb
          rw [← hp1]
          refine hrun.budget hne hpos ?_
          have hnot : ¬ s.stop.maximalFunctionEvaluations ≤ (s.evaluationsAfterRestart : ℤ) := by
            intro hle
            apply ht
            simp [Es.terminated, h.current, hne, hle]
          simp only [Es.after, hp1]
          push_cast
          omega

/-- The runs of the instances: between two starts of the core. -/
structure Good (err : Vec → ℝ) (lambda : ℕ) (s : Es C) : Prop where
  current : s.currentIndividual = 0
  /-- the starts: one for each value of `restarts`, with doubled populations -/
  starts : ((s.starts.length : ℤ) = s.restarts + 1 ∧ s.restarts ≤ s.stop.maximalRestarts) ∨
    ((s.starts.length : ℤ) = s.restarts ∧ s.restarts = s.stop.maximalRestarts + 1)
  lower : -1 ≤ s.restarts
  doubling : s.starts = (List.range s.starts.length).map fun i => lambda * 2 ^ i
  lambda : s.lambda = if s.starts.length = 0 then lambda else lambda * 2 ^ (s.starts.length - 1)
  /-- the individuals are reported back in their own generation -/
  reported : s.generations.flatten = s.evaluated
  errors : ∀ e ∈ s.evaluated, e.2 = err e.1
  iterations : s.finished = s.generations.length
  /-- the optimum -/
  optimum : (s.evaluated = [] ∧ s.optimum = none ∧ s.optimumValue = big) ∨
    (∃ x, s.optimum = some x ∧ s.optimumValue = err x ∧ IsBest s.evaluated (x, err x))
  started : s.evaluated ≠ [] → s.cmaes.isSome = true
  calls : s.errorCalls ≤ s.evaluated.length + s.starts.length ∧ s.evaluated.length ≤ s.errorCalls
  /-- the budget: less than the maximum and one population for each start -/
  budget : 0 < s.stop.maximalFunctionEvaluations →
    (s.evaluated.length : ℤ) + s.starts.length ≤ s.starts.length * s.stop.maximalFunctionEvaluations + (s.starts.sum : ℕ)

theorem new_good (err : Vec → ℝ) (stop : Stop) (lambda : ℕ) (hr : -1 ≤ stop.maximalRestarts) :
    Good err lambda (Es.new C stop lambda) where
  current := rfl
  starts := Or.inl ⟨by simp [Es.new], hr⟩
  lower := le_refl _
  doubling := rfl
  lambda := rfl
  reported := rfl
  errors := fun e he => by simp [Es.new] at he
  iterations := rfl
  optimum := Or.inl ⟨rfl, rfl, rfl⟩
  started := fun h => absurd rfl h
  calls := ⟨le_refl _, le_refl _⟩
  budget := fun _ => by simp [Es.new]

theorem restarted_ready {err : Vec → ℝ} {lambda : ℕ} (hl : 0 < lambda) {s : Es C} (h : Good err lambda s)
    (hle : s.restarts + 1 ≤ s.stop.maximalRestarts) (x0 : Vec) :
    ∃ c, (s.restarted x0).Ready c ∧ c.popSize = lambda * 2 ^ s.starts.length ∧ c.reported = [] ∧
      s.nextLambda = lambda * 2 ^ s.starts.length := by
  have hs : (s.starts.length : ℤ) = s.restarts + 1 := by
    rcases h.starts with h1 | h1
    · exact h1.1
    · omega
  have hn : s.nextLambda = lambda * 2 ^ s.starts.length := by
    unfold Es.nextLambda
    rw [h.lambda]
    by_cases h0 : s.starts.length = 0
    · have : ¬ 0 < s.restarts + 1 := by omega
      rw [if_neg this, if_pos h0, h0]
      simp
    · have : 0 < s.restarts + 1 := by omega
      rw [if_pos this, if_neg h0]
      obtain ⟨m, hm⟩ : ∃ m, s.starts.length = m + 1 := ⟨s.starts.length - 1, by omega⟩
      rw [hm, Nat.add_sub_cancel, pow_succ]
      ring
  refine ⟨_, ⟨rfl, h.current, by simp [Es.restarted], ?_⟩, hn, rfl, hn⟩
  simp only [hn]
  positivity

theorem endRun_good {err : Vec → ℝ} (hbig : ∀ x, err x < big) {lambda : ℕ} {s : Es C}
    (h : Good err lambda s) (hle : s.restarts + 1 ≤ s.stop.maximalRestarts) (x0 : Vec) {c : Cma C} {s' : Es C} {c' : Cma C}
    (hpop : c.popSize = lambda * 2 ^ s.starts.length) (hrep : c.reported = [])
    (hnl : s.nextLambda = lambda * 2 ^ s.starts.length)
    (hrun : CoreRun err (s.restarted x0) c s' c') : Good err lambda (s'.endRun err).2 ∧
      (s'.endRun err).2.stop = s.stop ∧ (s'.endRun err).2.restarts = s.restarts + 1 := by
  obtain ⟨gens, e1, e2, e3, e4, e5, e6, e7⟩ := hrun.run
  obtain ⟨r1, r2, r3, r4, r5, r6⟩ := hrun.rest
  rw [hrep, List.nil_append] at e3
  simp only [Es.restarted] at e1 e2 e4 e5 e6 r1 r2 r3 r4 r5 r6
  have hs : (s.starts.length : ℤ) = s.restarts + 1 := by
    rcases h.starts with h1 | h1
    · exact h1.1
    · omega
  have herr : ∀ e ∈ gens.flatten, e.2 = err e.1 := by
    intro e he
    obtain ⟨g, hg, heg⟩ := List.mem_flatten.1 he
    obtain ⟨st, rfl⟩ := e7 g hg
    simp only [evaluatedPopulation, List.mem_map] at heg
    obtain ⟨i, _, rfl⟩ := heg
    rfl
  have herr' : ∀ e ∈ s'.evaluated, e.2 = err e.1 := by
    intro e he
    rw [e2] at he
    rcases List.mem_append.1 he with he | he
    · exact h.errors e he
    · exact herr e he
  have hb0 : 0 < s.stop.maximalFunctionEvaluations →
      (gens.flatten.length : ℤ) + 1 ≤ s.stop.maximalFunctionEvaluations + s.nextLambda := by
    intro hpos
    have := hrun.budget (by simp only [Es.restarted]; omega) (by simpa [Es.restarted] using hpos)
      (by simp only [Es.restarted]; push_cast; omega)
    rw [e4, hpop, ← hnl] at this
    simp only [Es.restarted, Nat.zero_add] at this
    omega
  have hend : s'.endRun err = (decide (fBest c' < s'.stop.minimalValue), s'.takeBest err c') := by
    unfold Es.endRun
    rw [hrun.ready.cmaes]
  rw [hend]
  simp only
  -- the members that `takeBest` changes
  have key : ∃ o v n, s'.takeBest err c' = { s' with optimum := o, optimumValue := v, errorCalls := n } ∧
      s'.errorCalls ≤ n ∧ n ≤ s'.errorCalls + 1 ∧ ((s'.evaluated = [] ∧ o = none ∧ v = big) ∨
        (∃ x, o = some x ∧ v = err x ∧ IsBest s'.evaluated (x, err x))) := by
    unfold Es.takeBest
    cases hb : best c'.reported with
    | none =>
      have h0 := best_none hb
      rw [e3] at h0
      rw [h0, List.append_nil] at e2
      refine ⟨s'.optimum, s'.optimumValue, s'.errorCalls, rfl, le_refl _, Nat.le_succ _, ?_⟩
      rw [r5, r6, e2]
      exact h.optimum
    | some b =>
      have hbest := best_isBest hb
      rw [e3] at hbest
      have hbe := herr b hbest.1
      have hb' : b = (b.1, err b.1) := by rw [← hbe]
      simp only
      split
      · rename_i hlt
        refine ⟨some b.1, err b.1, s'.errorCalls + 1, rfl, Nat.le_succ _, le_refl _, Or.inr ⟨b.1, rfl, rfl, ?_⟩⟩
        rw [← hb', e2]
        refine ⟨List.mem_append_right _ hbest.1, fun y hy => ?_⟩
        rcases List.mem_append.1 hy with hy | hy
        · rcases h.optimum with ⟨h0, _, _⟩ | ⟨x, _, hv, _, hall⟩
          · rw [h0] at hy; simp at hy
          · have := hall y hy
            rw [r6, hv] at hlt
            simp only at this
            linarith
        · exact hbest.2 y hy
      · rename_i hlt
        refine ⟨s'.optimum, s'.optimumValue, s'.errorCalls, rfl, le_refl _, Nat.le_succ _, Or.inr ?_⟩
        rcases h.optimum with ⟨_, _, hv⟩ | ⟨x, hx, hv, hm, hall⟩
        · rw [r6, hv, hbe] at hlt
          exact absurd (hbig b.1) hlt
        · refine ⟨x, by rw [r5, hx], by rw [r6, hv], ?_⟩
          rw [e2]
          refine ⟨List.mem_append_left _ hm, fun y hy => ?_⟩
          rcases List.mem_append.1 hy with hy | hy
          · exact hall y hy
          · have h1 := hbest.2 y hy
            rw [r6, hv] at hlt
            simp only
            linarith [not_lt.1 hlt]
  obtain ⟨o, v, n, he, hn1, hn2, hopt⟩ := key
  rw [he]
  refine ⟨⟨?_, ?_, ?_, ?_, ?_, ?_, ?_, ?_, ?_, ?_, ?_, ?_⟩, ?_, ?_⟩
  · exact hrun.ready.current
  · left
    simp only [r3, r2, r1, List.length_append, List.length_singleton]
    push_cast
    omega
  · simp only [r2]
    have := h.lower
    omega
  · simp only [r3, List.length_append, List.length_singleton, List.range_succ, List.map_append, List.map_singleton]
    rw [← h.doubling, hnl]
  · simp only [r4, r3, List.length_append, List.length_singleton, Nat.add_sub_cancel]
    rw [if_neg (Nat.succ_ne_zero _), hnl]
  · simp only [e1, e2, List.flatten_append, h.reported]
  · exact herr'
  · simp only [e1, e6, List.length_append, h.iterations]
  · exact hopt
  · intro _
    simp only [hrun.ready.cmaes, Option.isSome_some]
  · obtain ⟨k1, k2⟩ := h.calls
    simp only [e2, r3, List.length_append, List.length_singleton]
    omega
  · intro hpos
    simp only [r1] at hpos
    have hb1 := h.budget hpos
    have hb2 := hb0 hpos
    simp only [e2, r3, r1, List.length_append, List.length_singleton, List.sum_append, List.sum_singleton,
      Nat.cast_add, Nat.cast_one]
    have : ((s.starts.length : ℤ) + 1) * s.stop.maximalFunctionEvaluations =
      s.starts.length * s.stop.maximalFunctionEvaluations + s.stop.maximalFunctionEvaluations := by ring
    rw [this]
    omega
  · exact r1
  · exact r2

/-- Every state that `optimize` leaves is good. -/
theorem optimize_good {err : Vec → ℝ} (hbig : ∀ x, err x < big) {lambda : ℕ} (hl : 0 < lambda) (x0 : ℕ → Vec) (fuel : ℕ) :
    ∀ (n : ℕ) {s : Es C} (_ : Good err lambda s) {r : Option (Es C)} (_ : Es.optimize err x0 fuel n s = .ok r),
      r = none ∨ ∃ s', r = some s' ∧ s'.stop = s.stop ∧ (s.restarts ≤ s.stop.maximalRestarts → Good err lambda s')
  | 0, s, _, r, hr => by
    cases hr
    exact Or.inl rfl
  | n + 1, s, h, r, hr => by
    unfold Es.optimize at hr
    by_cases hgt : s.stop.maximalRestarts < s.restarts + 1
    · have he : s.restart (x0 (s.restarts + 1).toNat) = (false, { s with restarts := s.restarts + 1 }) := if_pos hgt
      rw [he] at hr
      simp only [Bool.false_eq_true, if_false] at hr
      cases hr
      refine Or.inr ⟨_, rfl, rfl, fun hle => ?_⟩
      have hs : (s.starts.length : ℤ) = s.restarts + 1 := by
        rcases h.starts with h1 | h1
        · exact h1.1
        · omega
      exact { h with starts := Or.inr ⟨hs, by simp only; omega⟩, lower := by have := h.lower; simp only; omega }
    · have he : s.restart (x0 (s.restarts + 1).toNat) = (true, s.restarted (x0 (s.restarts + 1).toNat)) := if_neg hgt
      rw [he] at hr
      simp only [if_true] at hr
      have hle : s.restarts + 1 ≤ s.stop.maximalRestarts := by omega
      obtain ⟨c, hc, hpop, hrep, hnl⟩ := restarted_ready hl h hle (x0 (s.restarts + 1).toNat)
      obtain ⟨r1, hr1, hr2⟩ := Outcome.bind_eq_ok.1 hr
      rcases runCore_run err fuel hc hr1 with rfl | ⟨s', c', rfl, hrun⟩
      · cases hr2
        exact Or.inl rfl
      · obtain ⟨hg, hst, hre⟩ := endRun_good hbig h hle _ hpop hrep hnl hrun
        simp only at hr2
        split at hr2
        · cases hr2
          exact Or.inr ⟨_, rfl, hst, fun _ => hg⟩
        · rcases optimize_good hbig hl x0 fuel n hg hr2 with hn | ⟨s2, h2, h3, h4⟩
          · exact Or.inl hn
          · exact Or.inr ⟨s2, h2, by rw [h3, hst], fun _ => h4 (by rw [hre, hst]; exact hle)⟩

/-- A finished optimisation with a new optimiser. -/
def Finished (err : Vec → ℝ) (stop : Stop) (lambda : ℕ) (s : Es C) : Prop :=
  ∃ (x0 : ℕ → Vec) (fuel n : ℕ), Es.optimize err x0 fuel n (Es.new C stop lambda) = .ok (some s)

theorem finished_good {err : Vec → ℝ} (hbig : ∀ x, err x < big) {lambda : ℕ} (hl : 0 < lambda) {stop : Stop}
    (hr : 0 ≤ stop.maximalRestarts) {s : Es C} (h : Finished err stop lambda s) : Good err lambda s ∧ s.stop = stop := by
  obtain ⟨x0, fuel, n, h⟩ := h
  rcases optimize_good hbig hl x0 fuel n (new_good err stop lambda (by omega)) h with h | ⟨s', h1, h2, h3⟩
  · cases h
  · cases h1
    exact ⟨h3 (by simp only [Es.new]; omega), h2⟩

/-- **C44**: the result is an individual with the smallest error among all that were evaluated. -/
theorem result_best {err : Vec → ℝ} (hbig : ∀ x, err x < big) {lambda : ℕ} (hl : 0 < lambda) {stop : Stop}
    (hr : 0 ≤ stop.maximalRestarts) {s : Es C} (h : Finished err stop lambda s) (hne : s.evaluated ≠ []) :
    ∃ x, s.result = .ok (some x) ∧ IsBest s.evaluated (x, err x) := by
  obtain ⟨hg, _⟩ := finished_good hbig hl hr h
  rcases hg.optimum with ⟨h0, _⟩ | ⟨x, hx, _, hb⟩
  · exact absurd h0 hne
  · obtain ⟨c, hc⟩ := Option.isSome_iff_exists.1 (hg.started hne)
    exact ⟨x, by simp [Es.result, hc, hx], hb⟩

/-- **C44**: at most `maximalRestarts` restarts, and the population doubles with every restart. -/
theorem restarts_doubling {err : Vec → ℝ} (hbig : ∀ x, err x < big) {lambda : ℕ} (hl : 0 < lambda) {stop : Stop}
    (hr : 0 ≤ stop.maximalRestarts) {s : Es C} (h : Finished err stop lambda s) :
    (s.starts.length : ℤ) ≤ stop.maximalRestarts + 1 ∧
    s.starts = (List.range s.starts.length).map fun i => lambda * 2 ^ i := by
  obtain ⟨hg, hs⟩ := finished_good hbig hl hr h
  refine ⟨?_, hg.doubling⟩
  rw [← hs]
  rcases hg.starts with ⟨h1, h2⟩ | ⟨h1, h2⟩ <;> omega

/-- **C44**: every evaluated individual is reported back exactly once, in the generation it was sampled for and with its own
error, and every generation is reported to the optimised object as one iteration. -/
theorem reported_once {err : Vec → ℝ} (hbig : ∀ x, err x < big) {lambda : ℕ} (hl : 0 < lambda) {stop : Stop}
    (hr : 0 ≤ stop.maximalRestarts) {s : Es C} (h : Finished err stop lambda s) :
    s.generations.flatten = s.evaluated ∧ (∀ e ∈ s.evaluated, e.2 = err e.1) ∧ s.finished = s.generations.length := by
  obtain ⟨hg, _⟩ := finished_good hbig hl hr h
  exact ⟨hg.reported, hg.errors, hg.iterations⟩

/-- **C44 (partial)**: without restarts the evaluated individuals exceed the maximum by less than one population; in general
this holds for every start of the core, so the sum of the excesses is bounded by the sum of the populations.  Missing: the
bound for all starts together (`budget_restarts_fails`) and for all calls of the objective (`budget_calls_fails`). -/
theorem budget_partial {err : Vec → ℝ} (hbig : ∀ x, err x < big) {lambda : ℕ} (hl : 0 < lambda) {stop : Stop}
    (hr : 0 ≤ stop.maximalRestarts) (hmax : 0 < stop.maximalFunctionEvaluations) {s : Es C} (h : Finished err stop lambda s) :
    (s.evaluated.length : ℤ) ≤ s.starts.length * (stop.maximalFunctionEvaluations - 1) + (s.starts.sum : ℕ) ∧
    (stop.maximalRestarts = 0 → (s.evaluated.length : ℤ) < stop.maximalFunctionEvaluations + lambda) ∧
    s.errorCalls ≤ s.evaluated.length + s.starts.length := by
  obtain ⟨hg, hs⟩ := finished_good hbig hl hr h
  obtain ⟨hlen, hdoub⟩ := restarts_doubling hbig hl hr h
  have hb := hg.budget (by rw [hs]; exact hmax)
  rw [hs] at hb
  have h1 : (s.starts.length : ℤ) * (stop.maximalFunctionEvaluations - 1) =
      s.starts.length * stop.maximalFunctionEvaluations - s.starts.length := by ring
  refine ⟨by rw [h1]; omega, fun h0 => ?_, hg.calls.1⟩
  have : s.starts.length = 0 ∨ s.starts.length = 1 := by omega
  rcases this with h2 | h2
  · rw [h2] at hb hdoub
    rw [hdoub] at hb
    simp at hb
    rw [hb]
    simp
    omega
  · rw [h2] at hb hdoub
    rw [hdoub] at hb
    simp at hb
    omega

theorem runCore_terminates (err : Vec → ℝ) : ∀ (fuel : ℕ) {s : Es C} {c : Cma C} (_ : s.Ready c)
    (_ : s.stop.maximalFunctionEvaluations ≠ -1)
    (_ : s.stop.maximalFunctionEvaluations < s.evaluationsAfterRestart + (fuel : ℤ)),
    ∃ s', Es.runCore err fuel s = .ok (some s') ∨ fuel = 0
  | 0, s, c, _, _, _ => ⟨s, Or.inr rfl⟩
  | fuel + 1, s, c, h, hne, hf => by
    rw [Es.runCore, h.cmaes]
    simp only
    by_cases ht : s.terminated c = true
    · exact ⟨s, Or.inl (by rw [if_pos ht])⟩
    · rw [if_neg ht, generation_ok err h, Outcome.ok_bind]
      obtain ⟨c1, h1, hp1, _⟩ := after_ready err h
      have hpos := h.pos
      have hle : ¬ s.stop.maximalFunctionEvaluations ≤ (s.evaluationsAfterRestart : ℤ) := by
        intro hle
        exact ht (by simp [Es.terminated, h.current, hne, hle])
      obtain ⟨s', h2⟩ := runCore_terminates err fuel h1 (by simpa [Es.after] using hne) (by
        simp only [Es.after]
        push_cast at hf ⊢
        omega)
      rcases h2 with h2 | h2
      · exact ⟨s', Or.inl h2⟩
      · subst h2
        push_cast at hf
        omega

/-- With a limit of evaluations `optimize` returns, whatever the core and the objective do, and no check fails. -/
theorem optimize_terminates {err : Vec → ℝ} (hbig : ∀ x, err x < big) {lambda : ℕ} (hl : 0 < lambda) {stop : Stop}
    (hr : 0 ≤ stop.maximalRestarts) (hmax : stop.maximalFunctionEvaluations ≠ -1) (x0 : ℕ → Vec) :
    ∃ fuel n s, Es.optimize err x0 fuel n (Es.new C stop lambda) = .ok (some s) := by
  have key : ∀ (n : ℕ) {s : Es C}, Good err lambda s → s.stop = stop → s.stop.maximalRestarts < s.restarts + n →
      s.restarts ≤ s.stop.maximalRestarts →
      ∃ s', Es.optimize err x0 (stop.maximalFunctionEvaluations.toNat + 1) n s = .ok (some s') := by
    intro n
    induction n with
    | zero =>
      intro s h _ hlt hle
      simp at hlt
      omega
    | succ n ih =>
      intro s h hst hlt hle
      rw [Es.optimize]
      by_cases hgt : s.stop.maximalRestarts < s.restarts + 1
      · have he : s.restart (x0 (s.restarts + 1).toNat) = (false, { s with restarts := s.restarts + 1 }) := if_pos hgt
        rw [he]
        exact ⟨_, rfl⟩
      · have he : s.restart (x0 (s.restarts + 1).toNat) = (true, s.restarted (x0 (s.restarts + 1).toNat)) := if_neg hgt
        rw [he]
        simp only [if_true]
        have hle' : s.restarts + 1 ≤ s.stop.maximalRestarts := by omega
        obtain ⟨c, hc, hpop, hrep, hnl⟩ := restarted_ready hl h hle' (x0 (s.restarts + 1).toNat)
        obtain ⟨s1, h1⟩ := runCore_terminates err (stop.maximalFunctionEvaluations.toNat + 1) hc
          (by simpa [Es.restarted, hst] using hmax) (by simp only [Es.restarted, hst]; push_cast; omega)
        rcases h1 with h1 | h1
        · rw [h1, Outcome.ok_bind]
          rcases runCore_run err _ hc h1 with hno | ⟨s', c', he', hrun⟩
          · cases hno
          cases he'
          obtain ⟨hg, hst', hre⟩ := endRun_good hbig h hle' _ hpop hrep hnl hrun
          simp only
          split
          · exact ⟨_, rfl⟩
          · exact ih hg (by rw [hst', hst]) (by rw [hst', hre]; push_cast at hlt; omega) (by rw [hst', hre]; exact hle')
        · omega
  obtain ⟨s, hs⟩ := key (stop.maximalRestarts.toNat + 2) (new_good (C := C) err stop lambda (by omega)) rfl
    (by simp only [Es.new]; push_cast; omega) (by simp only [Es.new]; omega)
  exact ⟨_, _, s, hs⟩

/-- A core that never terminates by itself. -/
def endless : Core where
  State := Unit
  start := fun _ _ _ => ()
  sample := fun _ i _ => i
  update := fun _ _ => ()
  testForTermination := fun _ => false

/-- With a limit of one evaluation an instance stops after one generation. -/
theorem endless_one {err : Vec → ℝ} {s : Es endless} {c : Cma endless} (h : s.Ready c)
    (h0 : s.evaluationsAfterRestart = 0) (h1 : s.stop.maximalFunctionEvaluations = 1) (fuel : ℕ) :
    Es.runCore err (fuel + 2) s = .ok (some (s.after err c)) := by
  have hp := h.pos
  rw [Es.runCore, h.cmaes]
  have hn : s.terminated c = false := by simp [Es.terminated, endless, h0, h1]
  simp only [hn, Bool.false_eq_true, if_false]
  rw [generation_ok err h, Outcome.ok_bind, Es.runCore]
  have hc : (s.after err c).cmaes = some _ := rfl
  rw [hc]
  simp only
  rw [if_pos]
  simp [Es.terminated, Es.after, h0, h1]
  omega

theorem big_pos : (0 : ℝ) < big := by
  unfold big
  have : (2 : ℝ) ^ 971 < 2 ^ 1024 := pow_lt_pow_right₀ (by norm_num) (by norm_num)
  exact sub_pos.2 this

/-- A start of `endless` with a limit of one evaluation: the whole population is evaluated, and the best of it once more if there
was no optimum before. -/
theorem endless_start {err : Vec → ℝ} (hbig : ∀ x, err x < big) {lambda : ℕ} (hl : 0 < lambda) {s : Es endless}
    (h : Good err lambda s) (hle : s.restarts + 1 ≤ s.stop.maximalRestarts) (h1 : s.stop.maximalFunctionEvaluations = 1)
    (hmin : s.stop.minimalValue = -big) (hpos : ∀ x, -big ≤ err x) (x0 : ℕ → Vec) (fuel n : ℕ) :
    ∃ s2, Es.optimize err x0 (fuel + 2) (n + 1) s = Es.optimize err x0 (fuel + 2) n s2 ∧ Good err lambda s2 ∧
      s2.stop = s.stop ∧ s2.restarts = s.restarts + 1 ∧
      s2.evaluated.length = s.evaluated.length + lambda * 2 ^ s.starts.length ∧
      s2.starts.length = s.starts.length + 1 ∧
      (s.optimumValue = big → s2.errorCalls = s.errorCalls + lambda * 2 ^ s.starts.length + 1) := by
  obtain ⟨c, hc, hpop, hrep, hnl⟩ := restarted_ready hl h hle (x0 (s.restarts + 1).toNat)
  have hrunc := endless_one (err := err) hc rfl h1 fuel
  rcases runCore_run err _ hc hrunc with hno | ⟨s', c', he', hrun⟩
  · cases hno
  cases he'
  obtain ⟨hg, hst, hre⟩ := endRun_good hbig h hle _ hpop hrep hnl hrun
  have hgt : ¬ s.stop.maximalRestarts < s.restarts + 1 := by omega
  have he : s.restart (x0 (s.restarts + 1).toNat) = (true, s.restarted (x0 (s.restarts + 1).toNat)) := if_neg hgt
  have hbest : ∃ b, best ([] ++ evaluatedPopulation err (endless.sample c.state) c.popSize) = some b := by
    cases hb : best ([] ++ evaluatedPopulation err (endless.sample c.state) c.popSize) with
    | some b => exact ⟨b, rfl⟩
    | none =>
      have := congrArg List.length (best_none hb)
      have hp := hc.pos
      simp [evaluatedPopulation] at this
      omega
  obtain ⟨b, hb⟩ := hbest
  have hberr : b.2 = err b.1 := by
    obtain ⟨hm, _⟩ := best_isBest hb
    simp only [List.nil_append, evaluatedPopulation, List.mem_map] at hm
    obtain ⟨i, _, rfl⟩ := hm
    rfl
  refine ⟨_, ?_, hg, hst, hre, ?_, ?_, ?_⟩
  · rw [Es.optimize, he]
    simp only [if_true]
    rw [hrunc, Outcome.ok_bind]
    simp only
    rw [if_neg]
    simp only [Es.endRun, Es.after, Es.restarted, decide_eq_true_eq, not_lt, hmin, fBest, hrep, hb, hberr]
    exact hpos _
  · simp only [Es.endRun, Es.takeBest, Es.after, Es.restarted, hrep, hb]
    split <;> simp [evaluatedPopulation, hpop]
  · simp only [Es.endRun, Es.takeBest, Es.after, Es.restarted, hrep, hb]
    split <;> simp
  · intro ho
    simp only [Es.endRun, Es.takeBest, Es.after, Es.restarted, hrep, hb, ho, hberr, if_pos (hbig b.1)]
    rw [hpop]

/-- **C44 is false** for the calls of the objective: the best individual is evaluated again (line 163).  For every size of the
population the limit of one evaluation is exceeded by a whole population, also without restarts. -/
theorem budget_calls_fails (lambda : ℕ) (hl : 0 < lambda) :
    ∃ s : Es endless, Finished (fun _ => 0) { maximalFunctionEvaluations := 1 } lambda s ∧
      ¬ (s.errorCalls : ℤ) < s.stop.maximalFunctionEvaluations + lambda := by
  obtain ⟨s2, h1, hg, hst, hre, _, _, hcalls⟩ := endless_start (err := fun _ => 0) (fun _ => big_pos) hl
    (new_good (fun _ => 0) { maximalFunctionEvaluations := 1 } lambda (by norm_num)) (by simp [Es.new]) rfl rfl
    (fun _ => by have := big_pos; linarith) (fun _ _ => 0) 0 1
  refine ⟨{ s2 with restarts := s2.restarts + 1 }, ⟨fun _ _ => 0, 2, 2, ?_⟩, ?_⟩
  · rw [h1, Es.optimize]
    have : s2.stop.maximalRestarts < s2.restarts + 1 := by rw [hst, hre]; simp [Es.new]
    simp only [Es.restart, if_pos this, Bool.false_eq_true, if_false]
  · have := hcalls rfl
    simp only [this, hst]
    simp [Es.new]
    omega

/-- **C44 is false** with restarts: the limit holds for each start separately.  For every size of the population one restart
evaluates more than the limit and the larger population. -/
theorem budget_restarts_fails (lambda : ℕ) (hl : 0 < lambda) :
    ∃ s : Es endless, Finished (fun _ => 0) { maximalFunctionEvaluations := 1, maximalRestarts := 1 } lambda s ∧
      ¬ (s.evaluated.length : ℤ) < s.stop.maximalFunctionEvaluations + (2 * lambda : ℕ) := by
  obtain ⟨s2, h1, hg, hst, hre, hev, hsl, _⟩ := endless_start (err := fun _ => 0) (fun _ => big_pos) hl
    (new_good (fun _ => 0) { maximalFunctionEvaluations := 1, maximalRestarts := 1 } lambda (by norm_num)) (by simp [Es.new])
    rfl rfl (fun _ => by have := big_pos; linarith) (fun _ _ => 0) 0 2
  obtain ⟨s3, h3, hg3, hst3, hre3, hev3, _, _⟩ := endless_start (err := fun _ => 0) (fun _ => big_pos) hl hg
    (by rw [hst, hre]; simp [Es.new]) (by rw [hst]; rfl) (by rw [hst]; rfl) (fun _ => by have := big_pos; linarith)
    (fun _ _ => 0) 0 1
  refine ⟨{ s3 with restarts := s3.restarts + 1 }, ⟨fun _ _ => 0, 2, 3, ?_⟩, ?_⟩
  · rw [h1, h3, Es.optimize]
    have : s3.stop.maximalRestarts < s3.restarts + 1 := by rw [hst3, hst, hre3, hre]; simp [Es.new]
    simp only [Es.restart, if_pos this, Bool.false_eq_true, if_false]
  · simp only [hev3, hev, hsl, hst3, hst]
    simp [Es.new]
    omega

/-- The hypotheses of the theorems above are met by every positive population size, e.g. with one restart. -/
example : ∃ s : Es endless, Finished (fun _ => 0) { maximalFunctionEvaluations := 1, maximalRestarts := 1 } 4 s :=
  (budget_restarts_fails 4 (by norm_num)).imp fun _ h => h.1

/-- **C42 is false** for this optimiser: as soon as all restarts are used, optimising does nothing, for any objective (the one
that is set now included), and the result stays the one of the old problem. -/
theorem second_optimize_fails (s : Es C) (h : s.stop.maximalRestarts ≤ s.restarts) (err : Vec → ℝ) (x0 : ℕ → Vec)
    (fuel n : ℕ) :
    Es.optimize err x0 fuel (n + 1) s = .ok (some { s with restarts := s.restarts + 1 }) := by
  rw [Es.optimize]
  have : s.stop.maximalRestarts < s.restarts + 1 := by omega
  simp only [Es.restart, if_pos this, Bool.false_eq_true, if_false]

/-- Calls of a program that evaluates the individuals itself (as examples/polebalancing does). -/
inductive Call where
  | restart (x0 : Vec)
  | getNext
  | setError (fitness : ℝ)

def Es.call (s : Es C) : Call → Outcome (Es C)
  | .restart x0 => .ok (s.restart x0).2
  | .getNext => s.getNext >>= fun r => .ok r.2
  | .setError f => s.setError f

def Es.calls : List Call → Es C → Outcome (Es C)
  | [], s => .ok s
  | k :: l, s => s.call k >>= Es.calls l

theorem call_optimum {s s' : Es C} {k : Call} (h : s.call k = .ok s') : s'.optimum = s.optimum := by
  cases k with
  | restart x0 =>
    simp only [Es.call, Outcome.ok.injEq] at h
    subst h
    unfold Es.restart
    split <;> rfl
  | getNext =>
    obtain ⟨r, hr, h⟩ := Outcome.bind_eq_ok.1 h
    simp only [Outcome.ok.injEq] at h
    subst h
    unfold Es.getNext at hr
    split at hr
    · cases hr
    · split at hr
      · split at hr
        · cases hr; rfl
        · split at hr
          · cases hr
          · cases hr; rfl
      · cases hr
  | setError f =>
    simp only [Es.call, Es.setError] at h
    split at h
    · cases h
    · split at h
      · split at h <;> (cases h; rfl)
      · cases h

/-- **C44 is false** for programs that evaluate the individuals themselves: whatever they report, the result is the empty
vector. -/
theorem manual_result_fails (stop : Stop) (lambda : ℕ) (l : List Call) {s : Es C}
    (h : Es.calls l (Es.new C stop lambda) = .ok s) (hc : s.cmaes.isSome = true) : s.result = .ok none := by
  have key : ∀ (l : List Call) {a b : Es C}, Es.calls l a = .ok b → b.optimum = a.optimum := by
    intro l
    induction l with
    | nil => intro a b hab; cases hab; rfl
    | cons k l ih =>
      intro a b hab
      obtain ⟨m, h1, h2⟩ := Outcome.bind_eq_ok.1 hab
      rw [ih h2, call_optimum h1]
  obtain ⟨c, hc⟩ := Option.isSome_iff_exists.1 hc
  simp only [Es.result, hc, key l h, Es.new]

/-- Starting again in the middle of a generation: the next individual is read from the freed population. -/
theorem restart_mid_generation_ub (s : Es C) (hr : s.restarts + 1 ≤ s.stop.maximalRestarts) (h0 : 0 < s.currentIndividual)
    (h1 : s.currentIndividual < s.nextLambda) (x0 : Vec) : (s.restart x0).2.getNext = .ub := by
  have hgt : ¬ s.stop.maximalRestarts < s.restarts + 1 := by omega
  have hne : s.currentIndividual ≠ 0 := by omega
  simp only [Es.restart, if_neg hgt, Es.restarted, Es.getNext, if_pos h1, if_neg hne]

/-- Such a state: two individuals per generation, one is evaluated. -/
example : ∃ s, Es.calls [.restart (fun _ => 0), .getNext, .setError 3] (Es.new endless { maximalRestarts := 1 } 2) = .ok s ∧
    s.restarts + 1 ≤ s.stop.maximalRestarts ∧ 0 < s.currentIndividual ∧ s.currentIndividual < s.nextLambda ∧
    s.cmaes.isSome = true := by
  refine ⟨_, rfl, ?_, ?_, ?_, ?_⟩ <;> simp [Es.new, Es.restart, Es.restarted, Es.nextLambda, Es.store]

end

end Verif.ES

namespace Verif.ES
open Verif.Opt
variable {C : Core}

/-- `result()` of an optimiser that was never started fails its check. -/
theorem result_early (stop : Stop) (lambda : ℕ) : (Es.new C stop lambda).result = .checkFailed := rfl

end Verif.ES
