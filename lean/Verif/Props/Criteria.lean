import Verif.Model.Criteria
import Verif.Props.CMAES
import Verif.Props.MBSGD
import Verif.Props.AlglibRuns
import Verif.Props.ThrownAlglib

/-!
# The stopping criteria that were set last hold (C113)
-/

namespace Verif.Criteria

open Verif.Alglib (Stop)
open Verif.Opt (Vec MBSGD Obj)

/-! ## The evolution strategy -/

open Classical in
/-- Spec: the last value of a history that is not the default. -/
noncomputable def lastOther {α : Type} (d : α) (l : List α) : Option α := (l.filter fun a => decide (a ≠ d)).getLast?

theorem lastOther_append {α : Type} (d : α) (l : List α) (a : α) :
    lastOther d (l ++ [a]) = open Classical in if a ≠ d then some a else lastOther d l := by
  classical
  unfold lastOther
  by_cases h : a = d <;> simp [List.filter_append, h]

theorem lastOther_none {α : Type} {d : α} {l : List α} : lastOther d l = none ↔ ∀ a ∈ l, a = d := by
  classical
  unfold lastOther
  simp

theorem configured_append (default : Stop) (hist : List Stop) (s : Stop) :
    configured default (hist ++ [s]) = (configured default hist).assign default s := by
  simp [configured, List.foldl_append]

/-- Every history of `setStopCriteria`: the criteria that `IPOPCMAES` uses itself are the last ones, but whether the number of
evaluations is limited and the four criteria of the library come from the last call that set each of them. -/
theorem es_history (default : Stop) (hist : List Stop) :
    (configured default hist).stop = hist.getLast?.getD default ∧
    ((configured default hist).maxFunEvalsActive = true ↔
      ∃ s ∈ hist, s.maximalFunctionEvaluations ≠ default.maximalFunctionEvaluations) ∧
    (configured default hist).parameters.stopMaxIter = lastOther default.maximalIterations (hist.map (·.maximalIterations)) ∧
    (configured default hist).parameters.stopFitness = lastOther default.minimalValue (hist.map (·.minimalValue)) ∧
    (configured default hist).parameters.stopTolFun =
      lastOther default.minimalValueDifferences (hist.map (·.minimalValueDifferences)) ∧
    (configured default hist).parameters.stopTolX =
      lastOther default.minimalSearchSpaceStep (hist.map (·.minimalSearchSpaceStep)) := by
  induction hist using List.reverseRecOn with
  | nil => simp [configured, Config.new, lastOther]
  | append_singleton hist s ih =>
    obtain ⟨-, i2, i3, i4, i5, i6⟩ := ih
    rw [configured_append]
    refine ⟨by simp [Config.assign], ?_, ?_, ?_, ?_, ?_⟩
    · by_cases h : s.maximalFunctionEvaluations = default.maximalFunctionEvaluations
      · simp only [Config.assign, h, ne_eq, not_true_eq_false, if_false, i2, List.mem_append, List.mem_singleton]
        constructor
        · rintro ⟨x, hx, hn⟩; exact ⟨x, Or.inl hx, hn⟩
        · rintro ⟨x, hx | rfl, hn⟩
          · exact ⟨x, hx, hn⟩
          · exact absurd h hn
      · simp only [Config.assign, ne_eq, h, not_false_eq_true, if_true, true_iff]
        exact ⟨s, by simp, h⟩
    all_goals
      rw [List.map_append, List.map_singleton, lastOther_append]
      simp only [Config.assign]
      split_ifs <;> first | rfl | assumption

/-- Spec: a criterion is set by the last call, or by none. -/
def Settled {α : Type} (f : Stop → α) (default : Stop) (hist : List Stop) (s : Stop) : Prop :=
  f s ≠ f default ∨ ∀ x ∈ hist, f x = f default

theorem lastOther_settled {α : Type} (f : Stop → α) (default : Stop) (hist : List Stop) (s : Stop) :
    lastOther (f default) ((hist ++ [s]).map f) = lastOther (f default) ([s].map f) ↔ Settled f default hist s := by
  classical
  have h1 := lastOther_append (f default) (hist.map f) (f s)
  have h2 := lastOther_append (f default) [] (f s)
  rw [List.nil_append] at h2
  rw [List.map_append, List.map_singleton, h1, h2]
  by_cases h : f s = f default
  · simp only [h, ne_eq, not_true_eq_false, if_false]
    have h0 : lastOther (f default) ([] : List α) = none := lastOther_none.2 (by simp)
    rw [h0, lastOther_none]
    simp [Settled, h]
  · simp [Settled, h]

/-- After a history of calls the optimiser is configured as if only the last call had been made exactly when each of the five
criteria is set by the last call or was never set. -/
theorem es_last_iff (default : Stop) (hist : List Stop) (s : Stop) :
    configured default (hist ++ [s]) = configured default [s] ↔
      Settled (·.maximalFunctionEvaluations) default hist s ∧ Settled (·.maximalIterations) default hist s ∧
      Settled (·.minimalValue) default hist s ∧ Settled (·.minimalValueDifferences) default hist s ∧
      Settled (·.minimalSearchSpaceStep) default hist s := by
  obtain ⟨a1, a2, a3, a4, a5, a6⟩ := es_history default (hist ++ [s])
  obtain ⟨b1, b2, b3, b4, b5, b6⟩ := es_history default [s]
  have hact : ((configured default (hist ++ [s])).maxFunEvalsActive = (configured default [s]).maxFunEvalsActive) ↔
      Settled (·.maximalFunctionEvaluations) default hist s := by
    rw [Bool.eq_iff_iff, a2, b2]
    by_cases h : s.maximalFunctionEvaluations = default.maximalFunctionEvaluations
    · constructor
      · intro hh
        refine Or.inr fun x hx => ?_
        by_contra hne
        obtain ⟨y, hy, hn⟩ := hh.1 ⟨x, by simp [hx], hne⟩
        rw [List.mem_singleton.1 hy] at hn
        exact hn h
      · rintro (hh | hh)
        · exact absurd h hh
        · constructor
          · rintro ⟨x, hx, hn⟩
            rcases List.mem_append.1 hx with hx | hx
            · exact absurd (hh x hx) hn
            · exact ⟨x, hx, hn⟩
          · rintro ⟨x, hx, hn⟩; exact ⟨x, by simp [List.mem_singleton.1 hx], hn⟩
    · exact ⟨fun _ => Or.inl h, fun _ => ⟨fun _ => ⟨s, by simp, h⟩, fun _ => ⟨s, by simp, h⟩⟩⟩
  rw [Config.ext_iff, Params.ext_iff, a1, b1, a3, a4, a5, a6, b3, b4, b5, b6, hact,
    lastOther_settled (·.maximalIterations), lastOther_settled (·.minimalValue),
    lastOther_settled (·.minimalValueDifferences), lastOther_settled (·.minimalSearchSpaceStep)]
  simp

/-- The translation of the criteria to the form of Model/CMAES.lean keeps the test of every generation. -/
theorem terminated_effective {C : ES.Core} (s : ES.Es C) (c : ES.Cma C) (cfg : Config) (h : s.stop = cfg.effective) :
    s.terminated c = cfg.terminated (C.testForTermination c.state) s.currentIndividual s.evaluationsAfterRestart := by
  unfold ES.Es.terminated Config.terminated
  rw [h]
  cases ha : cfg.maxFunEvalsActive with
  | false => simp [Config.effective, ha]
  | true =>
    have h1 : max cfg.stop.maximalFunctionEvaluations 0 ≠ -1 := by
      have := le_max_right cfg.stop.maximalFunctionEvaluations 0
      omega
    have h2 : (max cfg.stop.maximalFunctionEvaluations 0 ≤ (s.evaluationsAfterRestart : ℤ)) ↔
        cfg.stop.maximalFunctionEvaluations ≤ (s.evaluationsAfterRestart : ℤ) := by
      rw [max_le_iff]
      exact ⟨fun h => h.1, fun h => ⟨h, by omega⟩⟩
    simp [Config.effective, ha, h1, h2]

/-- A strategy whose limit of evaluations is 0 evaluates nothing in any start. -/
theorem zero_limit {C : ES.Core} (err : Vec → ℝ) (x0 : ℕ → Vec) (fuel : ℕ) : ∀ (starts : ℕ) (s : ES.Es C),
    s.stop.maximalFunctionEvaluations = 0 → s.currentIndividual = 0 → s.evaluated = [] → s.errorCalls = 0 → s.optimum = none →
    (s.stop.maximalRestarts - s.restarts).toNat < starts →
    ∃ s', s.optimize err x0 (fuel + 1) starts = .ok (some s') ∧ s'.evaluated = [] ∧ s'.errorCalls = 0 ∧ s'.optimum = none := by
  intro starts
  induction starts with
  | zero => intro s _ _ _ _ _ h; omega
  | succ n ih =>
    intro s h0 hc he hcalls ho hn
    by_cases hr : s.stop.maximalRestarts < s.restarts + 1
    · refine ⟨{ s with restarts := s.restarts + 1 }, ?_, he, hcalls, ho⟩
      simp [ES.Es.optimize, ES.Es.restart, hr]
    · have hrun : ∀ y, ES.Es.runCore err (fuel + 1) (s.restarted y) = .ok (some (s.restarted y)) := by
        intro y
        simp [ES.Es.runCore, ES.Es.restarted, ES.Es.terminated, h0, hc]
      have hend : ∀ y, ((s.restarted y).endRun err).2 = s.restarted y := by
        intro y
        simp [ES.Es.endRun, ES.Es.restarted, ES.Es.takeBest, ES.best]
      have hstep : s.optimize err x0 (fuel + 1) (n + 1) =
          if ((s.restarted (x0 (s.restarts + 1).toNat)).endRun err).1 then
            .ok (some (s.restarted (x0 (s.restarts + 1).toNat)))
          else ES.Es.optimize err x0 (fuel + 1) n (s.restarted (x0 (s.restarts + 1).toNat)) := by
        rw [ES.Es.optimize]
        simp only [ES.Es.restart, hr, if_false, if_true, hrun, Outcome.ok_bind, hend]
      rw [hstep]
      split_ifs
      · exact ⟨_, rfl, he, hcalls, ho⟩
      · refine ih _ h0 hc he hcalls ho ?_
        simp only [ES.Es.restarted]
        omega

/-- False of the code: a limit of the number of evaluations cannot be taken back.  Once it was set, criteria without it (the
default -1) make every start of every optimisation end before the first evaluation: nothing is evaluated and the result is
empty, for every library, objective and number of restarts. -/
theorem es_nothing_fails (L : Params → ES.Core) (default : Stop) (hd : default.maximalFunctionEvaluations = -1)
    (hist : List Stop) (s : Stop) (hs : s.maximalFunctionEvaluations = -1) (x : Stop) (hx : x ∈ hist)
    (hx1 : x.maximalFunctionEvaluations ≠ -1) (lambda : ℕ) (err : Vec → ℝ) (x0 : ℕ → Vec) (fuel : ℕ) :
    ∃ s', (strategy L (configured default (hist ++ [s])) lambda).optimize err x0 (fuel + 1) (s.maximalRestarts.toNat + 2) =
        .ok (some s') ∧ s'.evaluated = [] ∧ s'.errorCalls = 0 ∧ s'.optimum = none := by
  have hstop : (configured default (hist ++ [s])).stop = s := by
    rw [(es_history default (hist ++ [s])).1]; simp
  have hact : (configured default (hist ++ [s])).maxFunEvalsActive = true :=
    (es_history default (hist ++ [s])).2.1.2 ⟨x, by simp [hx], by rw [hd]; exact hx1⟩
  refine zero_limit err x0 fuel _ _ ?_ rfl rfl rfl rfl ?_
  · simp [strategy, ES.Es.new, Config.effective, hact, hstop, hs]
  · simp only [strategy, ES.Es.new, Config.effective, hstop]
    omega

/-- The other criteria stay in the library when they are taken back. -/
theorem es_stale_fails (default : Stop) (n : ℤ) (v f t : ℝ) (hn : n ≠ default.maximalIterations) (hv : v ≠ default.minimalValue)
    (hf : f ≠ default.minimalValueDifferences) (ht : t ≠ default.minimalSearchSpaceStep) :
    let s : Stop := { default with maximalIterations := n, minimalValue := v, minimalValueDifferences := f,
                                   minimalSearchSpaceStep := t }
    (configured default [s, default]).parameters = ⟨some n, some v, some f, some t⟩ ∧
      (configured default [default]).parameters = {} := by
  constructor <;> simp [configured, Config.assign, Config.new, hn, hv, hf, ht]

/-- A history of calls through `setStopCriteria` itself: before the first run all calls are accepted; after a run the first call
fails in a build with checks, and in a build without checks the criteria change for the next restarts. -/
theorem es_set (checks started : Bool) (default : Stop) (c : Config) (hist : List Stop) :
    hist.foldlM (Config.set checks started default) c =
      if checks = true ∧ started = true ∧ hist ≠ [] then .checkFailed else .ok (hist.foldl (Config.assign default) c) := by
  induction hist generalizing c with
  | nil => simp
  | cons s hist ih =>
    rw [List.foldlM_cons]
    cases hc : checks && started with
    | true =>
      simp only [Bool.and_eq_true] at hc
      simp [Config.set, hc.1, hc.2]
    | false =>
      have hn : ¬ (checks = true ∧ started = true) := by rw [← Bool.and_eq_true, hc]; simp
      have h1 : c.set checks started default s = .ok (c.assign default s) := by simp [Config.set, hc]
      rw [h1, Outcome.ok_bind, ih, if_neg (fun h => hn ⟨h.1, h.2.1⟩), if_neg (fun h => hn ⟨h.1, h.2.1⟩)]
      rfl

/-- All six criteria are set by both calls: the hypotheses of `es_last_iff` are met. -/
example : configured (Stop.default (-1000)) [⟨10, 10, 1, 1, 1, 1⟩, ⟨20, 20, 2, 2, 2, 2⟩] =
    configured (Stop.default (-1000)) [⟨20, 20, 2, 2, 2, 2⟩] :=
  (es_last_iff (Stop.default (-1000)) [⟨10, 10, 1, 1, 1, 1⟩] ⟨20, 20, 2, 2, 2, 2⟩).2
    ⟨Or.inl (by simp [Stop.default]), Or.inl (by simp [Stop.default]), Or.inl (by norm_num [Stop.default]),
      Or.inl (by simp [Stop.default]), Or.inl (by simp [Stop.default])⟩

/-- First 100 evaluations, then 50 iterations. -/
example (L : Params → ES.Core) (err : Vec → ℝ) (x0 : ℕ → Vec) (fuel : ℕ) :
    ∃ s', (strategy L (configured (Stop.default (-1000)) [⟨100, -1, 0, -1000, 0, 0⟩, ⟨-1, 50, 0, -1000, 0, 0⟩]) 4).optimize err x0
        (fuel + 1) 2 = .ok (some s') ∧ s'.evaluated = [] ∧ s'.errorCalls = 0 ∧ s'.optimum = none :=
  es_nothing_fails L (Stop.default (-1000)) rfl [⟨100, -1, 0, -1000, 0, 0⟩] ⟨-1, 50, 0, -1000, 0, 0⟩ rfl _ (List.mem_singleton.2 rfl)
    (by norm_num) 4 err x0 fuel

/-! ## Stochastic gradient descent -/

/-- Histories of steps on any objects and of calls of `setStopCriteria`; the first index are the criteria that were set last. -/
inductive Told (o0 : MBSGD) : Opt.Stop → MBSGD → Prop
  | start : Told o0 o0.stop o0
  | step {last o obj c o' obj'} : Told o0 last o → o.step obj = .ok (c, o', obj') → Told o0 last o'
  | set {last o} (s : Opt.Stop) : Told o0 last o → Told o0 s (o.setStopCriteria s)

theorem step_stop {o o' : MBSGD} {obj obj' : Obj} {c : Bool} (h : o.step obj = .ok (c, o', obj')) : o'.stop = o.stop := by
  obtain ⟨-, -, -, -, -, -, h7, -⟩ := Opt.step_eq h
  rw [h7, (Opt.finish_same _).2.1, (Opt.updates_same _ _ _).stop]
  exact (Opt.ready_same o obj).2.1

theorem told_stop {o0 o : MBSGD} {last : Opt.Stop} (h : Told o0 last o) : o.stop = last := by
  induction h with
  | start => rfl
  | step _ h ih => rw [step_stop h, ih]
  | set s _ _ => rfl

/-- Each step answers by the criteria that were set last: it goes on exactly when the limit of the iterations is not reached and
the last update was long enough, also when the criteria are changed in the middle of a run. -/
theorem sgd_last {o0 o o' : MBSGD} {last : Opt.Stop} (h : Told o0 last o) {obj obj' : Obj} {c : Bool}
    (hs : o.step obj = .ok (c, o', obj')) :
    c = true ↔
      (last.maximalIterations = -1 ∨ (if o.iteration < 0 then 0 else o.iteration) + 1 < last.maximalIterations) ∧
      (last.minimalSearchSpaceStep = 0 ∨
        last.minimalSearchSpaceStep ≤ Real.sqrt (∑ p ∈ Finset.range o'.P, o'.momentum p ^ 2)) := by
  obtain ⟨-, -, -, -, -, h6, h7, -⟩ := Opt.step_eq hs
  generalize hu : ((o.ready obj).reshuffle.updates obj (o.ready obj).batches).1 = u at h6 h7
  have hsame := Opt.updates_same (o.ready obj).reshuffle obj (o.ready obj).batches
  rw [hu] at hsame
  have hstop : u.stop = last := by
    rw [hsame.stop]
    exact ((Opt.ready_same o obj).2.1).trans (told_stop h)
  have hit : u.iteration = if o.iteration < 0 then 0 else o.iteration := by
    rw [hsame.iteration]
    show (o.ready obj).iteration = _
    unfold MBSGD.ready
    split <;> rfl
  have hfin := Opt.finish_same u
  have hm : Real.sqrt (∑ p ∈ Finset.range o'.P, o'.momentum p ^ 2) = u.momentumNorm := by
    rw [h7, hfin.2.2.2.2.2.2.1, hfin.2.2.2.2.2.2.2.1]
    rfl
  rw [h6, hm, ← hit, ← hstop]
  unfold MBSGD.finish
  split
  · next hr => exact ⟨fun _ => hr, fun _ => rfl⟩
  · next hr => exact ⟨fun h => (by cases h), fun h => absurd h hr⟩

/-- Criteria that are changed between two steps are used by the next step. -/
example (o0 : MBSGD) (obj obj' : Obj) (c : Bool) (o1 o2 : MBSGD) (h : o0.step obj = .ok (c, o1, obj')) (c2 : Bool) (obj2 : Obj)
    (h2 : (o1.setStopCriteria { maximalIterations := 1 }).step obj' = .ok (c2, o2, obj2)) (hi : 0 ≤ o1.iteration) : c2 = false := by
  rw [← Bool.not_eq_true, sgd_last (.set { maximalIterations := 1 } (.step .start h)) h2]
  rintro ⟨h1 | h1, -⟩
  · exact absurd h1 (by norm_num)
  · rw [if_neg (by simpa [MBSGD.setStopCriteria] using hi)] at h1
    have : (o1.setStopCriteria { maximalIterations := 1 }).iteration = o1.iteration := rfl
    rw [this] at h1
    dsimp only at h1
    omega

/-! ## The ALGLIB optimisers -/

section

open Verif.Alglib (Method Object Opt Step prepare create Optimize Library)

variable {σ τ V J : Type}

/-- src/LBFGS.cpp lines 18-21, src/CG.cpp lines 30-33, src/LMA.cpp lines 29-32 are `{ o with stop := q }`.  An optimiser without a
run in progress gives the library the criteria that were set last: the state of the library is created with them. -/
theorem alglib_idle {M : Method σ τ V J} {O : Object τ} {lowest : ℝ} {o o' : Opt σ} {q : Stop} {t : τ}
    (hi : o.iteration < 0) (h : prepare M O (Stop.default lowest) { o with stop := q } t = .ok o') :
    ∃ arg x s, M.lib.create arg x
        { epsg := q.minimalSearchSpaceStep, epsf := q.minimalValueDifferences, epsx := 0,
          maxits := if q.maximalIterations = -1 then 0 else q.maximalIterations } = some s ∧ o'.state = some s := by
  have hc : q.cond (Stop.default lowest) = Alglib.Cond.mk q.minimalSearchSpaceStep q.minimalValueDifferences 0
      (if q.maximalIterations = -1 then 0 else q.maximalIterations) := by
    unfold Stop.cond Stop.default
    congr 1
    · split_ifs with h
      · rfl
      · exact (not_not.1 h).symm
    · split_ifs with h
      · rfl
      · exact (not_not.1 h).symm
    · by_cases h1 : q.maximalIterations = -1 <;> simp [h1]
  unfold prepare at h
  rw [if_pos (show ({ o with stop := q } : Opt σ).iteration < 0 from hi)] at h
  obtain ⟨y, h1, h2⟩ := Outcome.bind_eq_ok.1 h
  obtain ⟨_, _, h3⟩ := Outcome.bind_eq_ok.1 h2
  cases h3
  unfold create at h1
  obtain ⟨x, _, h4⟩ := Outcome.bind_eq_ok.1 h1
  dsimp only at h4
  rw [hc] at h4
  split at h4
  · cases h4
  · next s hs =>
    cases h4
    exact ⟨_, x, s, hs, rfl⟩

/-- False of the code: criteria that are set while a run is in progress (between two calls of `step`) are ignored until the run
has ended.  The step gives the same answer, the same object and the same result for all criteria. -/
theorem alglib_running_fails {M : Method σ τ V J} {O : Object τ} (hM : M.Plain O) {default : Stop} {o o' : Opt σ} {t t' : τ}
    {b : Bool} (hi : 0 ≤ o.iteration) (hn : 0 < o.n) (h : Step M O default o t (.ok (b, o', t'))) (q : Stop) :
    ∃ o'', Step M O default { o with stop := q } t (.ok (b, o'', t')) ∧ o''.state = o'.state ∧
      o''.iteration = o'.iteration ∧ (b = false → o''.optimum = o'.optimum) := by
  have hp : prepare M O default { o with stop := q } t = Alglib.Opt.upd o.optimum q <$> prepare M O default o t := by
    rw [Thrown.prepare_running t hi hn,
      Thrown.prepare_running (o := { o with stop := q }) t hi hn]
    rfl
  have h1 := h.upd hM hp
  cases b with
  | true => exact ⟨_, h1, rfl, rfl, fun h => (by cases h)⟩
  | false => exact ⟨_, h1, rfl, rfl, fun _ => rfl⟩

open Verif.Alglib in
/-- A run in progress: the descent from 4 with the values of `quarter`; the step ends after one more iteration. -/
example (lowest : ℝ) (q : Stop) :
    let o : Opt Toy := { start 1 lowest with n := 1, state := some ⟨[4], 1, 0, 1, true⟩, iteration := 0 }
    ∃ o'', Step (lbfgs descent quarter) quarter (Stop.default lowest) { o with stop := q } [4] (.ok (true, o'', [4])) ∧
      o''.iteration = 1 := by
  intro o
  obtain ⟨o'', h1, -, h3, -⟩ := alglib_running_fails (lbfgs_plain descent quarter) (default := Stop.default lowest) (o := o)
    (o' := { o with state := some ⟨[2], 1, 1, 1, true⟩, iteration := 1 }) (t := [4]) (t' := [4]) (b := true) (le_refl 0)
    (by norm_num [o]) (.looped (o' := o) (Thrown.prepare_running [4] (le_refl 0) (by norm_num [o]))
      (.returned (s := ⟨[4], 1, 0, 1, true⟩) rfl (by
        simp [pass, toy, o, start, Opt.new, firstEntries, vecObject, scalarAccess, afterAnswer, descent, quarter, lbfgs]
        norm_num))) q
  exact ⟨o'', h1, h3⟩

/-- Without criteria the optimiser starts once and is not restarted. -/
theorem es_default (L : Params → ES.Core) (lowest : ℝ) (lambda : ℕ) (x0 x1 : Opt.Vec) :
    ((strategy L (configured (Verif.Alglib.Stop.default lowest) []) lambda).restart x0).1 = true ∧
    (((strategy L (configured (Verif.Alglib.Stop.default lowest) []) lambda).restart x0).2.restart x1).1 = false := by
  constructor <;> simp [strategy, configured, Config.new, Config.effective, Verif.Alglib.Stop.default, ES.Es.restart, ES.Es.new, ES.Es.restarted]

end

end Verif.Criteria
