import Verif.Model.Thrown
import Verif.Props.MBSGD
import Verif.Props.CMAES
import Mathlib.Tactic.NormNum

/-!
# C112: exceptions of the optimised object
-/

namespace Verif.Thrown

noncomputable section

/-! ## Mini-batch stochastic gradient descent: specification -/

section sgd

open Verif.Opt

/-- What the documented rule of gradient descent with momentum works on. -/
structure Motion where
  parameters : Vec
  momentum : Vec
  gains : Vec
  alpha : ℝ
  eta : ℝ

open Classical in
/-- One update with the gradient `g`; `o` is only used for its configuration. -/
def Motion.next (o : MBSGD) (m : Motion) (g : Vec) : Motion :=
  let gain : Vec := fun p =>
    if o.minGain ≠ 1 ∨ o.maxGain ≠ 1 then
      min o.maxGain (max o.minGain (if 0 ≤ m.momentum p * g p then m.gains p + 0.05 else m.gains p * 0.95))
    else m.gains p
  let used : Vec := fun p => if o.minGain ≠ 1 ∨ o.maxGain ≠ 1 then g p * gain p else g p
  { parameters := fun p => m.parameters p + (m.eta * m.momentum p - m.alpha * used p)
    momentum := fun p => m.eta * m.momentum p - m.alpha * used p
    gains := gain
    alpha := max (m.alpha * o.alphaDecay) o.minAlpha
    eta := min (m.eta + o.etaGain) o.maxEta }

/-- Where the optimiser is. -/
def motion (o : MBSGD) : Motion := ⟨o.parameters, o.momentum, o.gains, o.alpha, o.eta⟩

/-- Where a run begins with the parameters `w`. -/
def begin_ (o : MBSGD) (w : Vec) : Motion := ⟨w, fun _ => 0, fun _ => 1, o.alpha, o.eta⟩

/-- A run with exceptions: calls of `step()` that are repeated whether they throw or not until one returns `false`; if `free` is true the
program may also change the parameters of the object between two calls. -/
inductive Story (h : Hazard) (free : Bool) (v0 : World) : World → Prop
  | first {r v} : v0.opt.iteration < 0 → v0.step h = .ok (r, v) → Story h free v0 v
  | again {v r v'} : Story h free v0 v → 0 ≤ v.opt.iteration → v.step h = .ok (r, v') → Story h free v0 v'
  | moved {v} (w : Vec) : free = true → Story h free v0 v → Story h free v0 { v with obj := { v.obj with w := w } }

/-- A call that does not throw anywhere. -/
def Hazard.none : Hazard := ⟨fun _ => false, fun _ => false, fun _ => false⟩

/-! ## The parts of a step -/

theorem step_parts {h : Hazard} {v : World} {r : Option Bool} {v' : World} (hs : v.step h = .ok (r, v')) :
    0 < (v.opt.ready v.obj).P ∧ 0 < (v.opt.ready v.obj).N ∧ 0 < (v.opt.ready v.obj).batches ∧
    (v.opt.ready v.obj).randomIndices.length = (v.opt.ready v.obj).N ∧ v.obj.problem.dimension = (v.opt.ready v.obj).P ∧
    (r, v') = (if (v.ready.updates h (v.opt.ready v.obj).batches).1 then
        (v.ready.updates h (v.opt.ready v.obj).batches).2.finish h
      else (none, (v.ready.updates h (v.opt.ready v.obj).batches).2)) := by
  unfold World.step at hs
  by_cases h1 : 0 < (v.opt.ready v.obj).P
  swap
  · simp only [Outcome.check_false h1, Outcome.checkFailed_bind] at hs; cases hs
  by_cases h2 : 0 < (v.opt.ready v.obj).N
  swap
  · simp only [Outcome.check_true h1, Outcome.check_false h2, Outcome.checkFailed_bind, Outcome.ok_bind] at hs; cases hs
  by_cases h3 : 0 < (v.opt.ready v.obj).batches
  swap
  · simp only [Outcome.check_true h1, Outcome.check_true h2, Outcome.check_false h3, Outcome.checkFailed_bind,
      Outcome.ok_bind] at hs
    cases hs
  by_cases h4 : (v.opt.ready v.obj).randomIndices.length = (v.opt.ready v.obj).N
  swap
  · simp only [Outcome.check_true h1, Outcome.check_true h2, Outcome.check_true h3, Outcome.check_false h4,
      Outcome.checkFailed_bind, Outcome.ok_bind] at hs
    cases hs
  simp only [Outcome.check_true h1, Outcome.check_true h2, Outcome.check_true h3, Outcome.check_true h4,
    Outcome.ok_bind] at hs
  by_cases h5 : v.obj.problem.dimension ≠ (v.opt.ready v.obj).P
  · rw [if_pos h5] at hs; cases hs
  rw [if_neg h5] at hs
  injection hs with hs
  exact ⟨h1, h2, h3, h4, not_not.1 h5, hs.symm⟩

theorem step_eq {h : Hazard} {v : World} (h1 : 0 < (v.opt.ready v.obj).P) (h2 : 0 < (v.opt.ready v.obj).N)
    (h3 : 0 < (v.opt.ready v.obj).batches) (h4 : (v.opt.ready v.obj).randomIndices.length = (v.opt.ready v.obj).N)
    (h5 : v.obj.problem.dimension = (v.opt.ready v.obj).P) :
    v.step h = .ok (if (v.ready.updates h (v.opt.ready v.obj).batches).1 then
        (v.ready.updates h (v.opt.ready v.obj).batches).2.finish h
      else (none, (v.ready.updates h (v.opt.ready v.obj).batches).2)) := by
  unfold World.step
  simp only [Outcome.check_true h1, Outcome.check_true h2, Outcome.check_true h3, Outcome.check_true h4,
    Outcome.ok_bind]
  rw [if_neg (not_not.2 h5)]

/-! ## Without exceptions -/

theorem update_none (v : World) (batch : List ℕ) :
    (v.update Hazard.none batch).1 = true ∧ (v.update Hazard.none batch).2.opt = (v.opt.update v.obj batch).1 ∧
    (v.update Hazard.none batch).2.obj = (v.opt.update v.obj batch).2 := by
  cases hn : v.opt.nesterov <;>
    simp [World.update, andThen, World.lookAhead, World.evaluate, World.assign, World.schedule, Hazard.none, hn, MBSGD.update,
      MBSGD.lookAhead, MBSGD.move, MBSGD.schedule]

theorem updates_none (v : World) (b : ℕ) :
    (v.updates Hazard.none b).1 = true ∧ (v.updates Hazard.none b).2.opt = (v.opt.updates v.obj b).1 ∧
    (v.updates Hazard.none b).2.obj = (v.opt.updates v.obj b).2 := by
  induction b with
  | zero => exact ⟨rfl, rfl, rfl⟩
  | succ b ih =>
    have h := update_none (v.updates Hazard.none b).2 (batchOf v.opt.randomIndices v.opt.batchSize b)
    simp only [World.updates, andThen, ih.1, if_true]
    rw [h.2.1, h.2.2, ih.2.1, ih.2.2]
    exact ⟨h.1, rfl, rfl⟩

/-- Without exceptions a step is the step of the model of C38 - C42. -/
theorem step_none (v : World) {c : Bool} {o' : MBSGD} {obj' : Obj} (hs : v.opt.step v.obj = .ok (c, o', obj')) :
    ∃ v', v.step Hazard.none = .ok (some c, v') ∧ v'.opt = o' ∧ v'.obj = obj' := by
  obtain ⟨h1, h2, h3, h4, h5, rfl, rfl, rfl⟩ := Opt.step_eq hs
  have hu := updates_none v.ready (v.opt.ready v.obj).batches
  refine ⟨((v.ready.updates Hazard.none (v.opt.ready v.obj).batches).2.finish Hazard.none).2, ?_, ?_, ?_⟩
  · rw [step_eq h1 h2 h3 h4 h5, if_pos hu.1]
    refine congrArg Outcome.ok (Prod.ext ?_ rfl)
    show some _ = _
    rw [hu.2.1]
    rfl
  · show (v.ready.updates Hazard.none (v.opt.ready v.obj).batches).2.opt.finish.2 = _
    rw [hu.2.1]
    rfl
  · show (v.ready.updates Hazard.none (v.opt.ready v.obj).batches).2.obj.finishedIteration = _
    rw [hu.2.2]
    rfl

/-! ## Every gradient is used exactly once -/

/-- The optimiser is where the rule leads with the gradients that were returned. -/
structure Follows (o0 : MBSGD) (m0 : Motion) (v : World) : Prop where
  config : SameConfig v.opt o0
  place : motion v.opt = v.returned.foldl (Motion.next o0) m0

theorem Follows.of_eq {o0 : MBSGD} {m0 : Motion} {v v' : World} (h : Follows o0 m0 v) (ho : v'.opt = v.opt)
    (hr : v'.returned = v.returned) : Follows o0 m0 v' := ⟨ho ▸ h.config, by rw [ho, hr]; exact h.place⟩

/-- The evaluation and the schedule together are one update. -/
theorem next_motion {o o0 : MBSGD} (hc : SameConfig o o0) (r : ℝ × Vec) :
    motion (MBSGD.schedule { o.move (o.scaled r.2) with
      gains := o.newGains r.2, accumulatedError := o.accumulatedError + r.1 }) = Motion.next o0 (motion o) r.2 := by
  unfold motion MBSGD.schedule MBSGD.move MBSGD.scaled MBSGD.newGains MBSGD.newGain MBSGD.useGain Motion.next
  simp only [hc.minGain, hc.maxGain, hc.alphaDecay, hc.minAlpha, hc.etaGain, hc.maxEta]
  by_cases h : o0.minGain ≠ 1 ∨ o0.maxGain ≠ 1
  · simp only [if_pos h]
  · simp only [if_neg h]

theorem update_follows {h : Hazard} {o0 : MBSGD} {m0 : Motion} {v : World} (hv : Follows o0 m0 v)
    (hs : o0.nesterov = true ∨ ∀ n, h.set n = false) (batch : List ℕ) : Follows o0 m0 (v.update h batch).2 := by
  have hn := hv.config.nesterov
  unfold World.update
  -- the look-ahead
  have h1 : Follows o0 m0 (v.lookAhead h).2 := by
    unfold World.lookAhead
    split
    · split <;> exact hv.of_eq rfl rfl
    · exact hv
  generalize hv1 : v.lookAhead h = r1 at h1 ⊢
  obtain ⟨c1, v1⟩ := r1
  cases c1 with
  | false => simpa [andThen] using h1
  | true =>
    have hn1 : v1.opt.nesterov = o0.nesterov := h1.config.nesterov
    by_cases he : h.evaluate v1.clock
    · have : Follows o0 m0 (v1.evaluate h batch).2 := by
        unfold World.evaluate
        rw [if_pos he]
        exact h1.of_eq rfl rfl
      simpa [andThen, World.evaluate, he] using this
    · -- the evaluation returns
      have hdone : ∀ (clock : ℕ) (obj : Obj), Follows o0 m0
          ⟨MBSGD.schedule { v1.opt.move (v1.opt.scaled (v1.obj.result batch).2) with
            gains := v1.opt.newGains (v1.obj.result batch).2
            accumulatedError := v1.opt.accumulatedError + (v1.obj.result batch).1 }, obj, clock,
            v1.returned ++ [(v1.obj.result batch).2]⟩ := by
        intro clock obj
        refine ⟨?_, ?_⟩
        · exact ⟨h1.config.1, h1.config.2, h1.config.3, h1.config.4, h1.config.5, h1.config.6, h1.config.7, h1.config.8⟩
        · rw [List.foldl_append, ← h1.place]
          exact next_motion h1.config _
      by_cases hnest : v1.opt.nesterov
      · have := hdone (v1.clock + 1) (v1.obj.evaluate batch)
        simpa [andThen, World.evaluate, he, World.assign, World.schedule, MBSGD.move, hnest] using this
      · have hset : h.set (v1.clock + 1) = false := by
          rcases hs with hs | hs
          · exact absurd (hn1.trans hs) hnest
          · exact hs _
        have := hdone (v1.clock + 1 + 1) { v1.obj.evaluate batch with
          w := (v1.opt.move (v1.opt.scaled (v1.obj.result batch).2)).parameters }
        simpa [andThen, World.evaluate, he, World.assign, World.schedule, MBSGD.move, hnest, hset] using this

theorem updates_follows {h : Hazard} {o0 : MBSGD} {m0 : Motion} {v : World} (hv : Follows o0 m0 v)
    (hs : o0.nesterov = true ∨ ∀ n, h.set n = false) (b : ℕ) : Follows o0 m0 (v.updates h b).2 := by
  induction b with
  | zero => exact hv
  | succ b ih =>
    unfold World.updates andThen
    split
    · exact update_follows ih hs _
    · exact ih

theorem finish_follows {h : Hazard} {o0 : MBSGD} {m0 : Motion} {v : World} (hv : Follows o0 m0 v) :
    Follows o0 m0 (v.finish h).2 := by
  unfold World.finish
  split
  · refine ⟨⟨hv.config.1, hv.config.2, hv.config.3, hv.config.4, hv.config.5, hv.config.6, hv.config.7, hv.config.8⟩, ?_⟩
    exact hv.place
  · obtain ⟨f1, _, f3, f4, f5, f6, f7, _⟩ := finish_same v.opt
    refine ⟨f1.trans hv.config, ?_⟩
    rw [← hv.place]
    unfold motion
    simp only [f3, f4, f5, f6, f7]

theorem step_follows {h : Hazard} {o0 : MBSGD} {m0 : Motion} {v v' : World} {r : Option Bool}
    (hv : Follows o0 m0 v.ready) (hs : o0.nesterov = true ∨ ∀ n, h.set n = false) (hr : v.step h = .ok (r, v')) :
    Follows o0 m0 v' := by
  obtain ⟨_, _, _, _, _, he⟩ := step_parts hr
  have hu := updates_follows (h := h) hv hs (v.opt.ready v.obj).batches
  split at he
  · have := finish_follows (h := h) hu
    rw [← he] at this
    exact this
  · cases he
    exact hu

theorem ready_again {o0 : MBSGD} {m0 : Motion} {v : World} (hv : Follows o0 m0 v) (hi : 0 ≤ v.opt.iteration) :
    Follows o0 m0 v.ready := by
  have hn : ¬ v.opt.iteration < 0 := by omega
  unfold World.ready MBSGD.ready
  rw [if_neg hn, if_neg hn]
  exact ⟨⟨hv.config.1, hv.config.2, hv.config.3, hv.config.4, hv.config.5, hv.config.6, hv.config.7, hv.config.8⟩, hv.place⟩

theorem ready_first {v : World} (hi : v.opt.iteration < 0) : Follows v.opt (begin_ v.opt v.obj.w) v.ready := by
  unfold World.ready MBSGD.ready
  rw [if_pos hi, if_pos hi]
  exact ⟨⟨rfl, rfl, rfl, rfl, rfl, rfl, rfl, rfl⟩, rfl⟩

/-- Whenever and how often evaluations throw: the optimiser is always where the documented rule leads with exactly the gradients that
were returned, in their order; no update is lost, doubled or made with a gradient of a failed evaluation. -/
theorem gradients_used_once {h : Hazard} {free : Bool} {v0 v : World}
    (hs : v0.opt.nesterov = true ∨ ∀ n, h.set n = false) (hst : Story h free v0 v) :
    motion v.opt = v.returned.foldl (Motion.next v0.opt) (begin_ v0.opt v0.obj.w) := by
  have : Follows v0.opt (begin_ v0.opt v0.obj.w) v := by
    induction hst with
    | first hi hr => exact step_follows (ready_first hi) hs hr
    | again _ hi hr ih => exact step_follows (ready_again ih hi) hs hr
    | moved w _ _ ih => exact ih.of_eq rfl rfl
  exact this.place

/-- Therefore `result()` gives the parameters of the last completed update. -/
theorem result_last {h : Hazard} {free : Bool} {v0 v : World}
    (hs : v0.opt.nesterov = true ∨ ∀ n, h.set n = false) (hst : Story h free v0 v) :
    (v.opt.result v.obj).1 = (v.returned.foldl (Motion.next v0.opt) (begin_ v0.opt v0.obj.w)).parameters ∧
    (v.opt.result v.obj).2.w = (v.opt.result v.obj).1 :=
  ⟨congrArg Motion.parameters (gradients_used_once hs hst), rfl⟩

/-! ## The object holds the parameters of the optimiser -/

/-- Without Nesterov momentum. -/
structure Held (v : World) : Prop where
  plain : v.opt.nesterov = false
  held : v.obj.w = v.opt.parameters

theorem update_held {h : Hazard} (hs : ∀ n, h.set n = false) {v : World} (hv : Held v) (batch : List ℕ) :
    Held (v.update h batch).2 := by
  obtain ⟨hp, hh⟩ := hv
  by_cases he : h.evaluate v.clock
  · refine ⟨?_, ?_⟩ <;> simp [World.update, andThen, World.lookAhead, hp, World.evaluate, he, hh]
  · refine ⟨?_, ?_⟩ <;>
      simp [World.update, andThen, World.lookAhead, hp, World.evaluate, he, World.assign, World.schedule, MBSGD.move,
        MBSGD.schedule, hs]

theorem updates_held {h : Hazard} (hs : ∀ n, h.set n = false) {v : World} (hv : Held v) (b : ℕ) :
    Held (v.updates h b).2 := by
  induction b with
  | zero => exact hv
  | succ b ih =>
    unfold World.updates andThen
    split
    · exact update_held hs ih _
    · exact ih

theorem step_held {h : Hazard} (hs : ∀ n, h.set n = false) {v v' : World} {r : Option Bool} (hv : Held v.ready)
    (hr : v.step h = .ok (r, v')) : Held v' := by
  obtain ⟨_, _, _, _, _, he⟩ := step_parts hr
  have hu := updates_held hs hv (v.opt.ready v.obj).batches
  generalize v.ready.updates h (v.opt.ready v.obj).batches = q at hu he
  split at he
  · unfold World.finish at he
    split at he
    · cases he
      exact ⟨hu.1, hu.2⟩
    · cases he
      obtain ⟨f1, _, _, _, _, f6, _⟩ := finish_same q.2.opt
      exact ⟨f1.nesterov.trans hu.1, hu.2.trans f6.symm⟩
  · cases he
    exact hu

/-- After an exception the object holds the parameters of the last completed update, even without `result()` (plain momentum; the
program does not change the parameters itself). -/
theorem object_held {h : Hazard} (hs : ∀ n, h.set n = false) {v0 v : World} (hp : v0.opt.nesterov = false)
    (hst : Story h false v0 v) : v.obj.w = v.opt.parameters := by
  have : Held v := by
    induction hst with
    | first hi hr =>
      refine step_held hs ?_ hr
      unfold World.ready MBSGD.ready
      rw [if_pos hi]
      exact ⟨hp, rfl⟩
    | @again v r v' _ hi hr ih =>
      refine step_held hs ?_ hr
      unfold World.ready MBSGD.ready
      rw [if_neg (by omega : ¬ v.opt.iteration < 0)]
      exact ⟨ih.1, ih.2⟩
    | moved w hf _ _ => cases hf
  exact this.held

/-! ## The number of iterations -/

/-- Members that no update changes. -/
structure Still (v v' : World) : Prop where
  iteration : v'.opt.iteration = v.opt.iteration
  stop : v'.opt.stop = v.opt.stop
  finished : finishedCount v'.obj.log = finishedCount v.obj.log

theorem Still.trans {a b c : World} (h : Still a b) (h' : Still b c) : Still a c :=
  ⟨h'.1.trans h.1, h'.2.trans h.2, h'.3.trans h.3⟩

theorem update_still (h : Hazard) (v : World) (batch : List ℕ) : Still v (v.update h batch).2 := by
  have h1 : Still v (v.lookAhead h).2 := by
    unfold World.lookAhead MBSGD.lookAhead
    split
    · split
      · exact ⟨rfl, rfl, rfl⟩
      · exact ⟨rfl, rfl, rfl⟩
    · exact ⟨rfl, rfl, rfl⟩
  have h2 : ∀ u : World, Still u (u.evaluate h batch).2 := by
    intro u
    unfold World.evaluate
    split
    · exact ⟨rfl, rfl, rfl⟩
    · refine ⟨rfl, rfl, ?_⟩
      simp [Obj.evaluate, finishedCount]
  have h3 : ∀ u : World, Still u (u.assign h).2 := by
    intro u
    unfold World.assign
    split
    · exact ⟨rfl, rfl, rfl⟩
    · split <;> exact ⟨rfl, rfl, rfl⟩
  have key : ∀ (r : Bool × World) (f : World → Bool × World), Still v r.2 → (∀ u, Still u (f u).2) → Still v (andThen r f).2 := by
    intro r f hr hf
    unfold andThen
    split
    · exact hr.trans (hf _)
    · exact hr
  exact key _ _ (key _ _ (key _ _ h1 h2) h3) fun u => ⟨rfl, rfl, rfl⟩

theorem updates_still (h : Hazard) (v : World) (b : ℕ) : Still v (v.updates h b).2 := by
  induction b with
  | zero => exact ⟨rfl, rfl, rfl⟩
  | succ b ih =>
    unfold World.updates andThen
    split
    · exact ih.trans (update_still h _ _)
    · exact ih

theorem finishedCount_finished (obj : Obj) : finishedCount obj.finishedIteration.log = finishedCount obj.log + 1 := by
  simp [Obj.finishedIteration, finishedCount]

/-- The counter agrees with the reported iterations, and the run is over exactly after `m` of them. -/
structure Counted (m : ℕ) (n0 : ℕ) (v : World) : Prop where
  stop : v.opt.stop = ⟨m, 0⟩
  running : 0 ≤ v.opt.iteration → v.opt.iteration < m ∧ (finishedCount v.obj.log : ℤ) = n0 + v.opt.iteration
  over : v.opt.iteration < 0 → finishedCount v.obj.log = n0 + m

theorem step_counted {h : Hazard} (hf : ∀ n, h.finish n = false) {m n0 : ℕ} {v v' : World} {r : Option Bool}
    (hstop : v.opt.stop = ⟨m, 0⟩) (hi : 0 ≤ v.ready.opt.iteration) (hlt : v.ready.opt.iteration < m)
    (hc : (finishedCount v.obj.log : ℤ) = n0 + v.ready.opt.iteration) (hr : v.step h = .ok (r, v')) : Counted m n0 v' := by
  obtain ⟨_, _, _, _, _, he⟩ := step_parts hr
  have hu := updates_still h v.ready (v.opt.ready v.obj).batches
  have hst : v.ready.opt.stop = ⟨m, 0⟩ := ((ready_same v.opt v.obj).2.1).trans hstop
  have hobj : v.ready.obj = v.obj := rfl
  generalize v.ready.updates h (v.opt.ready v.obj).batches = q at hu he
  have hq1 := hu.iteration
  have hq2 := hu.stop.trans hst
  have hq3 : finishedCount q.2.obj.log = finishedCount v.obj.log := hu.finished
  split at he
  · unfold World.finish at he
    rw [hf] at he
    simp only [Bool.false_eq_true, if_false] at he
    cases he
    have hrun : ({ q.2.opt with iteration := q.2.opt.iteration + 1 } : MBSGD).run ↔ q.2.opt.iteration + 1 < m := by
      unfold MBSGD.run
      simp only [hq2]
      constructor
      · rintro ⟨h1 | h1, _⟩
        · omega
        · exact h1
      · intro h1
        exact ⟨Or.inr h1, Or.inl trivial⟩
    by_cases hend : q.2.opt.iteration + 1 < m
    · have hfin : q.2.opt.finish = (true, { q.2.opt with iteration := q.2.opt.iteration + 1 }) := by
        unfold MBSGD.finish
        rw [if_pos (hrun.2 hend)]
      refine ⟨?_, ?_, ?_⟩
      · show q.2.opt.finish.2.stop = _
        rw [hfin]
        exact hq2
      · intro _
        show q.2.opt.finish.2.iteration < _ ∧ (finishedCount q.2.obj.finishedIteration.log : ℤ) = _ + q.2.opt.finish.2.iteration
        rw [hfin, finishedCount_finished, hq3]
        refine ⟨hend, ?_⟩
        push_cast
        rw [hc, ← hq1]
        omega
      · intro hneg
        exfalso
        have : q.2.opt.finish.2.iteration < 0 := hneg
        rw [hfin] at this
        dsimp only at this
        omega
    · have hfin : q.2.opt.finish = (false, { q.2.opt with iteration := -1 }) := by
        unfold MBSGD.finish
        rw [if_neg (fun hx => hend (hrun.1 hx))]
      refine ⟨?_, ?_, ?_⟩
      · show q.2.opt.finish.2.stop = _
        rw [hfin]
        exact hq2
      · intro hpos
        exfalso
        have : 0 ≤ q.2.opt.finish.2.iteration := hpos
        rw [hfin] at this
        dsimp only at this
        omega
      · intro _
        show finishedCount q.2.obj.finishedIteration.log = _
        rw [finishedCount_finished, hq3]
        omega
  · cases he
    refine ⟨hq2, ?_, ?_⟩
    · intro _
      rw [hq1, hq3]
      exact ⟨hlt, hc⟩
    · intro hneg
      omega

/-- With an iteration limit `m`, evaluations that throw do not cost iterations: as long as the run is not over there were fewer than `m`
complete iterations, and when it is over there were exactly `m`. -/
theorem limit_exact {h : Hazard} (hf : ∀ n, h.finish n = false) {free : Bool} {v0 v : World} {m : ℕ} (hm : 1 ≤ m)
    (hstop : v0.opt.stop = ⟨m, 0⟩) (hst : Story h free v0 v) :
    (0 ≤ v.opt.iteration → v.opt.iteration < m ∧
      (finishedCount v.obj.log : ℤ) = finishedCount v0.obj.log + v.opt.iteration) ∧
    (v.opt.iteration < 0 → finishedCount v.obj.log = finishedCount v0.obj.log + m) := by
  have : Counted m (finishedCount v0.obj.log) v := by
    induction hst with
    | first hi hr =>
      have hz : v0.ready.opt.iteration = 0 := by
        unfold World.ready MBSGD.ready
        rw [if_pos hi]
        rfl
      exact step_counted hf hstop (by omega) (by omega) (by rw [hz]; omega) hr
    | @again v r v' _ hi hr ih =>
      have hz : v.ready.opt.iteration = v.opt.iteration := by
        unfold World.ready MBSGD.ready
        rw [if_neg (by omega : ¬ v.opt.iteration < 0)]
        rfl
      obtain ⟨h1, h2⟩ := ih.running hi
      exact step_counted hf ih.stop (by omega) (by omega) (by rw [hz]; exact h2) hr
    | moved w _ _ ih => exact ⟨ih.stop, ih.running, ih.over⟩
  exact ⟨this.running, this.over⟩

/-! ## What is false -/

/-- `setParameters` throws (plain momentum): the update is made and the object does not get it, learning rate and momentum are not
adapted. -/
theorem set_throws_fails {h : Hazard} {v : World} (hp : v.opt.nesterov = false) (he : h.evaluate v.clock = false)
    (hs : h.set (v.clock + 1) = true) (batch : List ℕ) :
    (v.update h batch).1 = false ∧ (v.update h batch).2.obj.w = v.obj.w ∧
    (v.update h batch).2.opt.alpha = v.opt.alpha ∧ (v.update h batch).2.opt.eta = v.opt.eta ∧
    (v.update h batch).2.opt.momentum = fun p => v.opt.eta * v.opt.momentum p -
      v.opt.alpha * v.opt.scaled (v.obj.result batch).2 p := by
  simp [World.update, andThen, World.lookAhead, hp, World.evaluate, he, World.assign, hs, MBSGD.move, Obj.evaluate]

theorem update_returned (v : World) (batch : List ℕ) :
    (v.update Hazard.none batch).2.returned.length = v.returned.length + 1 := by
  cases hn : v.opt.nesterov <;>
    simp [World.update, andThen, World.lookAhead, World.evaluate, World.assign, World.schedule, Hazard.none, hn, MBSGD.move]

theorem updates_returned (v : World) (b : ℕ) :
    (v.updates Hazard.none b).2.returned.length = v.returned.length + b := by
  induction b with
  | zero => rfl
  | succ b ih =>
    simp only [World.updates, andThen, (updates_none v b).1, if_true]
    rw [update_returned, ih]
    rfl

/-- The exception of `finishedIteration` in the last iteration: the optimiser does not notice that the limit is reached, and the next
call makes a further iteration with all its updates before it returns `false`. -/
theorem finish_throws_fails {h : Hazard} {v : World} {m : ℕ} (hstop : v.opt.stop = ⟨m, 0⟩) (hlast : v.opt.iteration + 1 = m)
    (hf : h.finish v.clock = true) {r : Option Bool} {v' : World} (hst : (v.finish h).2.step Hazard.none = .ok (r, v')) :
    (v.finish h).1 = none ∧ r = some false ∧ v'.returned.length = v.returned.length + v.opt.batches ∧
    finishedCount v'.obj.log = finishedCount v.obj.log + 1 := by
  have hfin : v.finish h = (none, { v with opt := { v.opt with iteration := v.opt.iteration + 1 }, clock := v.clock + 1 }) := by
    unfold World.finish
    rw [if_pos hf]
  rw [hfin] at hst ⊢
  dsimp only at hst
  generalize hu : ({ v with opt := { v.opt with iteration := v.opt.iteration + 1 }, clock := v.clock + 1 } : World) = u at hst
  have hui : u.opt.iteration = m := by rw [← hu]; exact hlast
  have hus : u.opt.stop = ⟨m, 0⟩ := by rw [← hu]; exact hstop
  have hur : u.returned = v.returned := by rw [← hu]
  have hub : u.opt.batches = v.opt.batches := by rw [← hu]
  have huo : u.obj = v.obj := by rw [← hu]
  have hready : u.opt.ready u.obj = u.opt := by
    unfold MBSGD.ready
    rw [if_neg (by omega : ¬ u.opt.iteration < 0)]
  obtain ⟨_, _, _, _, _, he⟩ := step_parts hst
  have hstill := updates_still Hazard.none u.ready (u.opt.ready u.obj).batches
  have hret := updates_returned u.ready (u.opt.ready u.obj).batches
  rw [if_pos (updates_none u.ready _).1] at he
  generalize u.ready.updates Hazard.none (u.opt.ready u.obj).batches = q at hstill hret he
  have hri : u.ready.opt.iteration = m := by
    unfold World.ready
    rw [hready]
    exact hui
  have hrr : u.ready.returned = v.returned := by
    unfold World.ready
    rw [if_neg (by omega : ¬ u.opt.iteration < 0)]
    exact hur
  have hrs : u.ready.opt.stop = ⟨m, 0⟩ := ((ready_same u.opt u.obj).2.1).trans hus
  have h1 := hstill.iteration.trans hri
  have h2 := hstill.stop.trans hrs
  have h3 : q.2.finish Hazard.none =
    (some q.2.opt.finish.1, { q.2 with opt := q.2.opt.finish.2, obj := q.2.obj.finishedIteration, clock := q.2.clock + 1 }) := rfl
  rw [h3] at he
  cases he
  have h4 : q.2.opt.finish.1 = false := by
    unfold MBSGD.finish
    rw [if_neg]
    rintro ⟨h5 | h5, _⟩
    · rw [show ({ q.2.opt with iteration := q.2.opt.iteration + 1 } : MBSGD).stop = _ from h2] at h5
      dsimp only at h5
      omega
    · rw [show ({ q.2.opt with iteration := q.2.opt.iteration + 1 } : MBSGD).stop = _ from h2] at h5
      dsimp only at h5
      omega
  refine ⟨rfl, by rw [h4], ?_, ?_⟩
  · show q.2.returned.length = _
    rw [hret, hrr, hready, hub]
  · show finishedCount q.2.obj.finishedIteration.log = _
    rw [finishedCount_finished, hstill.finished]
    show finishedCount u.obj.log + 1 = _
    rw [huo]

/-- A run that was ended by an exception is not over: with another object of another dimension the next step accesses vectors out of
bounds. -/
theorem other_object_ub {h : Hazard} {v : World} (hi : 0 ≤ v.opt.iteration) (h1 : 0 < v.opt.P) (h2 : 0 < v.opt.N)
    (h3 : 0 < v.opt.batches) (h4 : v.opt.randomIndices.length = v.opt.N) (obj : Obj) (hd : obj.problem.dimension ≠ v.opt.P) :
    ({ v with obj := obj } : World).step h = .ub := by
  have hr : v.opt.ready obj = v.opt := by
    unfold MBSGD.ready
    rw [if_neg (by omega)]
  unfold World.step
  dsimp only
  rw [hr]
  simp only [Outcome.check_true h1, Outcome.check_true h2, Outcome.check_true h3, Outcome.check_true h4, Outcome.ok_bind]
  rw [if_pos hd]

/-- With another object of the same dimension the run goes on with the parameters of the first object: those of the new object are
lost. -/
theorem other_object_fails {h : Hazard} {v v' : World} (hi : 0 ≤ v.opt.iteration) {m0 : Motion} (hv : Follows v.opt m0 v)
    (hs : v.opt.nesterov = true ∨ ∀ n, h.set n = false) {r : Option Bool} (obj : Obj)
    (hst : ({ v with obj := obj } : World).step h = .ok (r, v')) :
    motion v'.opt = v'.returned.foldl (Motion.next v.opt) m0 := by
  have hf : Follows v.opt m0 ({ v with obj := obj } : World) := hv.of_eq rfl rfl
  exact (step_follows (ready_again hf hi) hs hst).place

/-! ## Examples -/

/-- Plain gradient descent, mini-batches of one example, one iteration. -/
def demoOpt (nesterov : Bool) : MBSGD where
  nesterov := nesterov
  alpha := 1 / 2
  alphaDecay := 1
  minAlpha := 0
  eta := 0
  etaGain := 0
  maxEta := 0
  batchSize := 1
  minGain := 1
  maxGain := 1
  stop := ⟨1, 0⟩
  iteration := -1
  P := 0
  N := 0
  batches := 0
  gains := fun _ => 0
  parameters := fun _ => 0
  momentum := fun _ => 0
  accumulatedError := 0
  randomIndices := []
  rng := fun _ l => l

/-- `x² / 2` with two examples. -/
def demoObj : Obj := ⟨⟨1, 2, fun _ w _ => (w 0 ^ 2 / 2, w)⟩, fun _ => 1, 0, []⟩

/-- The second evaluation throws (calls 0, 2, ... are evaluations with plain momentum). -/
def secondThrows : Hazard := ⟨fun n => n == 2, fun _ => false, fun _ => false⟩

theorem demo_step (nesterov : Bool) (h : Hazard) : (⟨demoOpt nesterov, demoObj, 0, []⟩ : World).step h =
    .ok (if ((⟨demoOpt nesterov, demoObj, 0, []⟩ : World).ready.updates h 2).1 then
        ((⟨demoOpt nesterov, demoObj, 0, []⟩ : World).ready.updates h 2).2.finish h
      else (none, ((⟨demoOpt nesterov, demoObj, 0, []⟩ : World).ready.updates h 2).2)) := by
  rw [step_eq (by simp [MBSGD.ready, demoOpt, MBSGD.init, demoObj]) (by simp [MBSGD.ready, demoOpt, MBSGD.init, demoObj])
    (by simp [MBSGD.ready, demoOpt, MBSGD.init, demoObj]) (by simp [MBSGD.ready, demoOpt, MBSGD.init, demoObj])
    (by simp [MBSGD.ready, demoOpt, MBSGD.init, demoObj])]
  have hb : ((demoOpt nesterov).ready demoObj).batches = 2 := by simp [MBSGD.ready, demoOpt, MBSGD.init, demoObj]
  dsimp only
  rw [hb]

/-- A story with an exception: the first update is made, the second evaluation throws. -/
example : ∃ v, (⟨demoOpt false, demoObj, 0, []⟩ : World).step secondThrows = .ok (none, v) ∧ v.returned.length = 1 ∧
    v.opt.iteration = 0 ∧ v.obj.w 0 = 1 / 2 ∧ Story secondThrows false ⟨demoOpt false, demoObj, 0, []⟩ v := by
  have hs := demo_step false secondThrows
  have hu : ∃ v, (⟨demoOpt false, demoObj, 0, []⟩ : World).ready.updates secondThrows 2 = (false, v) ∧ v.returned.length = 1 ∧
      v.opt.iteration = 0 ∧ v.obj.w 0 = 1 / 2 := by
    refine ⟨_, Prod.ext ?_ rfl, ?_, ?_, ?_⟩ <;>
      simp [World.updates, World.update, andThen, World.lookAhead, World.evaluate, World.assign, World.schedule, World.ready,
        MBSGD.ready, MBSGD.init, MBSGD.reshuffle, demoOpt, demoObj, secondThrows, MBSGD.move, MBSGD.scaled, MBSGD.useGain,
        MBSGD.newGains, Obj.result, Obj.evaluate, MBSGD.schedule]
    norm_num
  obtain ⟨v, h1, h2, h3, h4⟩ := hu
  rw [h1] at hs
  exact ⟨v, hs, h2, h3, h4, .first (by simp [demoOpt]) hs⟩

/-- `setParameters` throws in the first update, `finishedIteration` at the end of the only iteration. -/
example : (demoOpt false).nesterov = false ∧ (⟨fun _ => false, fun n => n == 1, fun _ => false⟩ : Hazard).set (0 + 1) = true ∧
    (⟨{ demoOpt true with iteration := 0 }, demoObj, 4, []⟩ : World).opt.iteration + 1 = (1 : ℕ) ∧
    (⟨fun _ => false, fun _ => false, fun n => n == 4⟩ : Hazard).finish 4 = true := by
  simp [demoOpt]

end sgd

end

end Verif.Thrown

namespace Verif.Thrown
open Verif.Opt

/-- **C112 (early exceptions)**: if `setParameters` throws before the evaluation (Nesterov momentum) or if the evaluation throws, then the
exception reaches the caller, nothing of the optimiser has changed, and no further function of the object has been called. -/
theorem early_exception {h : Hazard} {v : World} (batch : List ℕ) :
    (v.opt.nesterov = true → h.set v.clock = true →
      (v.update h batch).1 = false ∧ (v.update h batch).2.opt = v.opt ∧ (v.update h batch).2.obj = v.obj ∧
      (v.update h batch).2.clock = v.clock + 1) ∧
    (v.opt.nesterov = false → h.evaluate v.clock = true →
      (v.update h batch).1 = false ∧ (v.update h batch).2.opt = v.opt ∧ (v.update h batch).2.obj.w = v.obj.w ∧
      (v.update h batch).2.clock = v.clock + 1) := by
  constructor <;> intro hn hs <;>
    simp [World.update, andThen, World.lookAhead, hn, hs, World.evaluate]

example : (⟨demoOpt true, demoObj, 0, []⟩ : World).opt.nesterov = true ∧
    (⟨fun _ => false, fun n => n == 0, fun _ => false⟩ : Hazard).set 0 = true ∧
    (⟨demoOpt false, demoObj, 0, []⟩ : World).opt.nesterov = false ∧
    (⟨fun n => n == 0, fun _ => false, fun _ => false⟩ : Hazard).evaluate 0 = true := by
  simp [demoOpt]

end Verif.Thrown
