import Verif.Model.MBSGD
import Mathlib.Tactic.Ring
import Mathlib.Tactic.Linarith

/-!
# Mini-batch stochastic gradient descent: C38 - C42
-/

namespace Verif.Opt

open Finset

/-! ## Specification -/

/-- A configuration that the constructor accepts (documented ranges of OpenANN/optimization/MBSGD.h lines 94-110). -/
structure MBSGD.Valid (o : MBSGD) : Prop where
  batch : 1 ≤ o.batchSize
  decay_pos : 0 < o.alphaDecay
  decay_le : o.alphaDecay ≤ 1
  min_nonneg : 0 ≤ o.minAlpha
  gain_nonneg : 0 ≤ o.etaGain

/-- A generator whose shuffles permute. -/
def MBSGD.Fair (o : MBSGD) : Prop := ∀ k l, (o.rng k l).Perm l

/-- The indices and parameters for which the gradient was requested. -/
def evaluations (log : List Event) : List (Vec × List ℕ) :=
  log.filterMap fun e => match e with
    | .evaluate w b => some (w, b)
    | .finished _ => none

/-- The number of iterations that were reported to the optimised object. -/
def finishedCount (log : List Event) : ℕ :=
  (log.filterMap fun e => match e with
    | .evaluate _ _ => none
    | .finished w => some w).length

/-- What C38 demands of the mini-batches of one epoch: `N` examples, batches of `b`. -/
structure FairEpoch (N b : ℕ) (epoch : List (List ℕ)) : Prop where
  /-- disjoint batches, nothing twice -/
  nodup : epoch.flatten.Nodup
  valid : ∀ i ∈ epoch.flatten, i < N
  full : b ≤ N → ∀ batch ∈ epoch, batch.length = b
  used : b ≤ N → epoch.flatten.length = N - N % b
  small : N < b → epoch.flatten.length = N

/-- If the batch size divides the number of examples (or is larger), every example is used. -/
theorem FairEpoch.all {N b : ℕ} {epoch : List (List ℕ)} (h : FairEpoch N b epoch) (hd : N % b = 0 ∨ N < b) :
    epoch.flatten.Perm (List.range N) := by
  have hlen : epoch.flatten.length = N := by
    by_cases hb : b ≤ N
    · rcases hd with hd | hd
      · rw [h.used hb, hd, Nat.sub_zero]
      · omega
    · exact h.small (by omega)
  have hsub : epoch.flatten.Subperm (List.range N) :=
    List.subperm_of_subset h.nodup fun i hi => List.mem_range.2 (h.valid i hi)
  exact hsub.perm_of_length_le (by rw [List.length_range, hlen])

/-- Documented learning rate after `t` updates. -/
noncomputable def rate (a0 decay minimum : ℝ) : ℕ → ℝ
  | 0 => a0
  | t + 1 => max (a0 * decay ^ (t + 1)) minimum

/-- Documented momentum after `t` updates. -/
noncomputable def momentumAt (e0 gain maximum : ℝ) : ℕ → ℝ
  | 0 => e0
  | t + 1 => min (e0 + (t + 1) * gain) maximum

theorem rate_succ (a0 : ℝ) {decay minimum : ℝ} (h0 : 0 < decay) (h1 : decay ≤ 1) (hm : 0 ≤ minimum) (t : ℕ) :
    max (rate a0 decay minimum t * decay) minimum = rate a0 decay minimum (t + 1) := by
  cases t with
  | zero => simp [rate]
  | succ t =>
    simp only [rate]
    rw [max_mul_of_nonneg _ _ h0.le, max_assoc, max_eq_right (show minimum * decay ≤ minimum by nlinarith), mul_assoc,
      ← pow_succ]

theorem momentumAt_succ (e0 : ℝ) {gain maximum : ℝ} (h0 : 0 ≤ gain) (t : ℕ) :
    min (momentumAt e0 gain maximum t + gain) maximum = momentumAt e0 gain maximum (t + 1) := by
  cases t with
  | zero => simp [momentumAt]
  | succ t =>
    simp only [momentumAt]
    rw [← min_add_add_right, min_assoc, min_eq_right (show maximum ≤ maximum + gain by linarith)]
    congr 1
    push_cast
    ring

/-! ## Constructor -/

theorem new_ok {lr m : ℝ} {bs : ℤ} {nest : Bool} {dec mlr mg mm gmin gmax : ℝ} {rng : ℕ → List ℕ → List ℕ} {o : MBSGD}
    (h : MBSGD.new lr m bs nest dec mlr mg mm gmin gmax rng = .ok o) :
    o.Valid ∧ o.iteration = -1 ∧ o.alpha = lr ∧ o.eta = m ∧ 0 < lr ∧ lr ≤ 1 ∧ 0 ≤ m ∧ m < 1 ∧
    o.alphaDecay = dec ∧ o.minAlpha = mlr ∧ o.etaGain = mg ∧ o.maxEta = mm ∧ 0 ≤ mm ∧ mm ≤ 1 ∧ mlr ≤ 1 ∧
    o.minGain = gmin ∧ o.maxGain = gmax ∧ o.rng = rng ∧ o.nesterov = nest ∧ (o.batchSize : ℤ) = bs ∧ o.stop = {} := by
  unfold MBSGD.new at h
  by_cases h1 : lr ≤ 0 ∨ 1 < lr
  · rw [if_pos h1] at h; cases h
  rw [if_neg h1] at h
  by_cases h2 : m < 0 ∨ 1 ≤ m
  · rw [if_pos h2] at h; cases h
  rw [if_neg h2] at h
  by_cases h3 : bs < 1
  · rw [if_pos h3] at h; cases h
  rw [if_neg h3] at h
  by_cases h4 : dec ≤ 0 ∨ 1 < dec
  · rw [if_pos h4] at h; cases h
  rw [if_neg h4] at h
  by_cases h5 : mlr < 0 ∨ 1 < mlr
  · rw [if_pos h5] at h; cases h
  rw [if_neg h5] at h
  by_cases h6 : mg < 0 ∨ 1 ≤ mg
  · rw [if_pos h6] at h; cases h
  rw [if_neg h6] at h
  by_cases h7 : mm < 0 ∨ 1 < mm
  · rw [if_pos h7] at h; cases h
  rw [if_neg h7] at h
  cases h
  push Not at h1 h2 h3 h4 h5 h6 h7
  refine ⟨⟨by show 1 ≤ bs.toNat; omega, h4.1, h4.2, h5.1, h6.1⟩, rfl, rfl, rfl, h1.1, h1.2, h2.1, h2.2, rfl, rfl, rfl, rfl,
    h7.1, h7.2, h5.2, rfl, rfl, rfl, rfl, by show ((bs.toNat : ℕ) : ℤ) = bs; omega, rfl⟩

/-! ## What does not change -/

/-- Members that no operation of the optimiser changes. -/
structure SameConfig (a b : MBSGD) : Prop where
  nesterov : a.nesterov = b.nesterov
  alphaDecay : a.alphaDecay = b.alphaDecay
  minAlpha : a.minAlpha = b.minAlpha
  etaGain : a.etaGain = b.etaGain
  maxEta : a.maxEta = b.maxEta
  batchSize : a.batchSize = b.batchSize
  minGain : a.minGain = b.minGain
  maxGain : a.maxGain = b.maxGain

theorem SameConfig.refl (a : MBSGD) : SameConfig a a := ⟨rfl, rfl, rfl, rfl, rfl, rfl, rfl, rfl⟩

theorem SameConfig.trans {a b c : MBSGD} (h : SameConfig a b) (h' : SameConfig b c) : SameConfig a c :=
  ⟨h.1.trans h'.1, h.2.trans h'.2, h.3.trans h'.3, h.4.trans h'.4, h.5.trans h'.5, h.6.trans h'.6, h.7.trans h'.7,
    h.8.trans h'.8⟩

theorem SameConfig.valid {a b : MBSGD} (h : SameConfig a b) (hb : b.Valid) : a.Valid := by
  obtain ⟨h1, h2, h3, h4, h5⟩ := hb
  exact ⟨h.batchSize ▸ h1, h.alphaDecay ▸ h2, h.alphaDecay ▸ h3, h.minAlpha ▸ h4, h.etaGain ▸ h5⟩

/-- Members that one mini-batch does not change. -/
structure SameRun (a b : MBSGD) : Prop extends SameConfig a b where
  stop : a.stop = b.stop
  iteration : a.iteration = b.iteration
  P : a.P = b.P
  N : a.N = b.N
  batches : a.batches = b.batches
  randomIndices : a.randomIndices = b.randomIndices
  rng : a.rng = b.rng

theorem update_same (o : MBSGD) (obj : Obj) (batch : List ℕ) : SameRun (o.update obj batch).1 o :=
  ⟨⟨rfl, rfl, rfl, rfl, rfl, rfl, rfl, rfl⟩, rfl, rfl, rfl, rfl, rfl, rfl, rfl⟩

theorem updates_same (o : MBSGD) (obj : Obj) (b : ℕ) : SameRun (o.updates obj b).1 o := by
  induction b with
  | zero => exact ⟨SameConfig.refl o, rfl, rfl, rfl, rfl, rfl, rfl, rfl⟩
  | succ b ih =>
    have h := update_same (o.updates obj b).1 (o.updates obj b).2 (batchOf o.randomIndices o.batchSize b)
    exact ⟨h.toSameConfig.trans ih.toSameConfig, h.stop.trans ih.stop, h.iteration.trans ih.iteration, h.P.trans ih.P,
      h.N.trans ih.N, h.batches.trans ih.batches, h.randomIndices.trans ih.randomIndices, h.rng.trans ih.rng⟩

theorem ready_same (o : MBSGD) (obj : Obj) : SameConfig (o.ready obj) o ∧ (o.ready obj).stop = o.stop ∧
    (o.ready obj).alpha = o.alpha ∧ (o.ready obj).eta = o.eta := by
  unfold MBSGD.ready
  split
  · exact ⟨⟨rfl, rfl, rfl, rfl, rfl, rfl, rfl, rfl⟩, rfl, rfl, rfl⟩
  · exact ⟨SameConfig.refl o, rfl, rfl, rfl⟩

theorem reshuffle_same (o : MBSGD) : SameConfig o.reshuffle o := ⟨rfl, rfl, rfl, rfl, rfl, rfl, rfl, rfl⟩

theorem finish_same (o : MBSGD) : SameConfig o.finish.2 o ∧ o.finish.2.stop = o.stop ∧ o.finish.2.alpha = o.alpha ∧
    o.finish.2.eta = o.eta ∧ o.finish.2.gains = o.gains ∧ o.finish.2.parameters = o.parameters ∧
    o.finish.2.momentum = o.momentum ∧ o.finish.2.P = o.P ∧ o.finish.2.N = o.N ∧ o.finish.2.batches = o.batches ∧
    o.finish.2.randomIndices = o.randomIndices ∧ o.finish.2.rng = o.rng := by
  unfold MBSGD.finish
  split <;> exact ⟨⟨rfl, rfl, rfl, rfl, rfl, rfl, rfl, rfl⟩, rfl, rfl, rfl, rfl, rfl, rfl, rfl, rfl, rfl, rfl, rfl⟩

/-- The parts of a successful step. -/
theorem step_eq {o : MBSGD} {obj : Obj} {c : Bool} {o' : MBSGD} {obj' : Obj} (h : o.step obj = .ok (c, o', obj')) :
    0 < (o.ready obj).P ∧ 0 < (o.ready obj).N ∧ 0 < (o.ready obj).batches ∧
    (o.ready obj).randomIndices.length = (o.ready obj).N ∧ obj.problem.dimension = (o.ready obj).P ∧
    c = ((o.ready obj).reshuffle.updates obj (o.ready obj).batches).1.finish.1 ∧
    o' = ((o.ready obj).reshuffle.updates obj (o.ready obj).batches).1.finish.2 ∧
    obj' = ((o.ready obj).reshuffle.updates obj (o.ready obj).batches).2.finishedIteration := by
  unfold MBSGD.step at h
  by_cases h1 : 0 < (o.ready obj).P
  swap
  · simp only [Outcome.check_false h1, Outcome.checkFailed_bind] at h; cases h
  by_cases h2 : 0 < (o.ready obj).N
  swap
  · simp only [Outcome.check_true h1, Outcome.check_false h2, Outcome.checkFailed_bind, Outcome.ok_bind] at h; cases h
  by_cases h3 : 0 < (o.ready obj).batches
  swap
  · simp only [Outcome.check_true h1, Outcome.check_true h2, Outcome.check_false h3, Outcome.checkFailed_bind,
      Outcome.ok_bind] at h
    cases h
  by_cases h4 : (o.ready obj).randomIndices.length = (o.ready obj).N
  swap
  · simp only [Outcome.check_true h1, Outcome.check_true h2, Outcome.check_true h3, Outcome.check_false h4,
      Outcome.checkFailed_bind, Outcome.ok_bind] at h
    cases h
  simp only [Outcome.check_true h1, Outcome.check_true h2, Outcome.check_true h3, Outcome.check_true h4,
    Outcome.ok_bind] at h
  by_cases h5 : obj.problem.dimension ≠ (o.ready obj).P
  · rw [if_pos h5] at h; cases h
  rw [if_neg h5] at h
  cases h
  exact ⟨h1, h2, h3, h4, not_not.1 h5, rfl, rfl, rfl⟩

theorem step_ok {o : MBSGD} {obj : Obj} (h1 : 0 < (o.ready obj).P) (h2 : 0 < (o.ready obj).N)
    (h3 : 0 < (o.ready obj).batches) (h4 : (o.ready obj).randomIndices.length = (o.ready obj).N)
    (h5 : obj.problem.dimension = (o.ready obj).P) :
    o.step obj = .ok (((o.ready obj).reshuffle.updates obj (o.ready obj).batches).1.finish.1,
      ((o.ready obj).reshuffle.updates obj (o.ready obj).batches).1.finish.2,
      ((o.ready obj).reshuffle.updates obj (o.ready obj).batches).2.finishedIteration) := by
  unfold MBSGD.step
  simp only [Outcome.check_true h1, Outcome.check_true h2, Outcome.check_true h3, Outcome.check_true h4,
    Outcome.ok_bind]
  rw [if_neg (not_not.2 h5)]

/-! ## Reachable states and C39 -/

/-- `Reach o0 t o`: `o` can be reached from `o0` by any calls of `step` (on any objects, so also by `optimize` and after
`setOptimizable`) and `setStopCriteria`, and made `t` updates meanwhile. -/
inductive Reach (o0 : MBSGD) : ℕ → MBSGD → Prop
  | start : Reach o0 0 o0
  | step {t o obj c o' obj'} : Reach o0 t o → o.step obj = .ok (c, o', obj') → Reach o0 (t + (o.ready obj).batches) o'
  | stop {t o} (s : Stop) : Reach o0 t o → Reach o0 t (o.setStopCriteria s)

/-- Learning rate and momentum during the updates. -/
theorem updates_schedule {o : MBSGD} (hv : o.Valid) (obj : Obj) {a0 e0 : ℝ} {t : ℕ}
    (ha : o.alpha = rate a0 o.alphaDecay o.minAlpha t) (he : o.eta = momentumAt e0 o.etaGain o.maxEta t) (b : ℕ) :
    (o.updates obj b).1.alpha = rate a0 o.alphaDecay o.minAlpha (t + b) ∧
    (o.updates obj b).1.eta = momentumAt e0 o.etaGain o.maxEta (t + b) := by
  induction b with
  | zero => exact ⟨ha, he⟩
  | succ b ih =>
    have hs := updates_same o obj b
    constructor
    · show max ((o.updates obj b).1.alpha * (o.updates obj b).1.alphaDecay) (o.updates obj b).1.minAlpha = _
      rw [ih.1, hs.alphaDecay, hs.minAlpha, rate_succ a0 hv.decay_pos hv.decay_le hv.min_nonneg]
      rfl
    · show min ((o.updates obj b).1.eta + (o.updates obj b).1.etaGain) (o.updates obj b).1.maxEta = _
      rw [ih.2, hs.etaGain, hs.maxEta, momentumAt_succ e0 hv.gain_nonneg]
      rfl

theorem reach_config {o0 o : MBSGD} {t : ℕ} (h : Reach o0 t o) : SameConfig o o0 := by
  induction h with
  | start => exact SameConfig.refl o0
  | @step t o obj c o' obj' _ hs ih =>
    obtain ⟨_, _, _, _, _, _, rfl, _⟩ := step_eq hs
    exact ((((finish_same _).1.trans (updates_same _ _ _).toSameConfig).trans (reshuffle_same _)).trans
      (ready_same o obj).1).trans ih
  | stop s _ ih => exact ⟨ih.1, ih.2, ih.3, ih.4, ih.5, ih.6, ih.7, ih.8⟩

theorem reach_schedule {o0 : MBSGD} (hv : o0.Valid) {t : ℕ} {o : MBSGD} (h : Reach o0 t o) :
    o.alpha = rate o0.alpha o0.alphaDecay o0.minAlpha t ∧ o.eta = momentumAt o0.eta o0.etaGain o0.maxEta t := by
  induction h with
  | start => exact ⟨rfl, rfl⟩
  | @step t o obj c o' obj' hr hs ih =>
    have hc := reach_config hr
    have hr' := ready_same o obj
    have hc' := hr'.1.trans hc
    obtain ⟨_, _, _, _, _, _, rfl, _⟩ := step_eq hs
    have hf := finish_same ((o.ready obj).reshuffle.updates obj (o.ready obj).batches).1
    have := updates_schedule (o := (o.ready obj).reshuffle)
      (SameConfig.valid (b := o0) ⟨hc'.1, hc'.2, hc'.3, hc'.4, hc'.5, hc'.6, hc'.7, hc'.8⟩ hv) obj
      (a0 := o0.alpha) (e0 := o0.eta) (t := t)
      (by show (o.ready obj).alpha = _; rw [hr'.2.2.1, ih.1]; rw [show (o.ready obj).reshuffle.alphaDecay = o0.alphaDecay from hc'.alphaDecay, show (o.ready obj).reshuffle.minAlpha = o0.minAlpha from hc'.minAlpha])
      (by show (o.ready obj).eta = _; rw [hr'.2.2.2, ih.2]; rw [show (o.ready obj).reshuffle.etaGain = o0.etaGain from hc'.etaGain, show (o.ready obj).reshuffle.maxEta = o0.maxEta from hc'.maxEta])
      (o.ready obj).batches
    rw [hf.2.2.1, hf.2.2.2.1, this.1, this.2]
    exact ⟨by rw [show (o.ready obj).reshuffle.alphaDecay = o0.alphaDecay from hc'.alphaDecay, show (o.ready obj).reshuffle.minAlpha = o0.minAlpha from hc'.minAlpha],
      by rw [show (o.ready obj).reshuffle.etaGain = o0.etaGain from hc'.etaGain, show (o.ready obj).reshuffle.maxEta = o0.maxEta from hc'.maxEta]⟩
  | stop s _ ih => exact ih

/-- **C39 (closed form)**: after any history with `t` updates and `b` more updates of the current epoch, learning rate and
momentum coefficient are the documented functions of the number of updates. -/
theorem schedule_closed_form {o0 : MBSGD} (hv : o0.Valid) {t : ℕ} {o : MBSGD} (h : Reach o0 t o) (obj : Obj) (b : ℕ) :
    ((o.ready obj).reshuffle.updates obj b).1.alpha = rate o0.alpha o0.alphaDecay o0.minAlpha (t + b) ∧
    ((o.ready obj).reshuffle.updates obj b).1.eta = momentumAt o0.eta o0.etaGain o0.maxEta (t + b) := by
  have ih := reach_schedule hv h
  have hr' := ready_same o obj
  have hc' := hr'.1.trans (reach_config h)
  have e1 : (o.ready obj).reshuffle.alphaDecay = o0.alphaDecay := hc'.alphaDecay
  have e2 : (o.ready obj).reshuffle.minAlpha = o0.minAlpha := hc'.minAlpha
  have e3 : (o.ready obj).reshuffle.etaGain = o0.etaGain := hc'.etaGain
  have e4 : (o.ready obj).reshuffle.maxEta = o0.maxEta := hc'.maxEta
  have := updates_schedule (o := (o.ready obj).reshuffle)
    (SameConfig.valid (b := o0) ⟨hc'.1, hc'.2, hc'.3, hc'.4, hc'.5, hc'.6, hc'.7, hc'.8⟩ hv) obj
    (a0 := o0.alpha) (e0 := o0.eta) (t := t)
    (by show (o.ready obj).alpha = _; rw [hr'.2.2.1, ih.1, e1, e2])
    (by show (o.ready obj).eta = _; rw [hr'.2.2.2, ih.2, e3, e4]) b
  rwa [e1, e2, e3, e4] at this

theorem rate_bounds {a0 decay minimum : ℝ} (ha : 0 < a0) (h0 : 0 < decay) (h1 : decay ≤ 1) (t : ℕ) :
    (0 < t → minimum ≤ rate a0 decay minimum t) ∧ rate a0 decay minimum t ≤ max a0 minimum ∧
    (minimum ≤ a0 → minimum ≤ rate a0 decay minimum t) ∧ 0 < rate a0 decay minimum t := by
  cases t with
  | zero => exact ⟨fun h => absurd h (lt_irrefl 0), le_max_left _ _, fun h => h, ha⟩
  | succ t =>
    simp only [rate]
    have hp : 0 < decay ^ (t + 1) := pow_pos h0 _
    refine ⟨fun _ => le_max_right _ _, ?_, fun _ => le_max_right _ _, lt_max_of_lt_left (mul_pos ha hp)⟩
    refine max_le_max ?_ le_rfl
    have : decay ^ (t + 1) ≤ 1 := pow_le_one₀ h0.le h1
    nlinarith

theorem momentumAt_bounds {e0 gain maximum : ℝ} (h0 : 0 ≤ gain) (t : ℕ) :
    momentumAt e0 gain maximum t ≤ max e0 maximum ∧ min e0 maximum ≤ momentumAt e0 gain maximum t ∧
    (0 < t → momentumAt e0 gain maximum t ≤ maximum) := by
  cases t with
  | zero => exact ⟨le_max_left _ _, min_le_left _ _, fun h => absurd h (lt_irrefl 0)⟩
  | succ t =>
    simp only [momentumAt]
    refine ⟨(min_le_right _ _).trans (le_max_right _ _), min_le_min ?_ le_rfl, fun _ => min_le_right _ _⟩
    have : 0 ≤ ((t : ℝ) + 1) * gain := mul_nonneg (by positivity) h0
    linarith

/-- **C39 (ranges)**: whatever problems were optimised, the learning rate is at least the minimum (from the first update on,
or always if it was at the start) and at most the maximum of initial value and minimum; the momentum coefficient stays
between the minimum and the maximum of its initial and its maximal value. -/
theorem schedule_ranges {o0 : MBSGD} (hv : o0.Valid) (ha : 0 < o0.alpha) {t : ℕ} {o : MBSGD} (h : Reach o0 t o) :
    (0 < t ∨ o0.minAlpha ≤ o0.alpha → o0.minAlpha ≤ o.alpha) ∧ o.alpha ≤ max o0.alpha o0.minAlpha ∧ 0 < o.alpha ∧
    o.eta ≤ max o0.eta o0.maxEta ∧ min o0.eta o0.maxEta ≤ o.eta := by
  obtain ⟨h1, h2⟩ := reach_schedule hv h
  obtain ⟨r1, r2, r3, r4⟩ := rate_bounds (minimum := o0.minAlpha) ha hv.decay_pos hv.decay_le t
  obtain ⟨m1, m2, _⟩ := momentumAt_bounds (e0 := o0.eta) (maximum := o0.maxEta) hv.gain_nonneg t
  rw [h1, h2]
  exact ⟨fun hh => hh.elim r1 r3, r2, r4, m1, m2⟩

/-- The learning rate never increases once it is at least the minimum, the momentum never decreases once it is at most the
maximum. -/
theorem schedule_monotone {o0 : MBSGD} (hv : o0.Valid) (ha : 0 < o0.alpha) (hm : o0.minAlpha ≤ o0.alpha)
    (he : o0.eta ≤ o0.maxEta) {t t' : ℕ} {o o' : MBSGD} (h : Reach o0 t o) (h' : Reach o0 t' o') (htt : t ≤ t') :
    o'.alpha ≤ o.alpha ∧ o.eta ≤ o'.eta := by
  rw [(reach_schedule hv h).1, (reach_schedule hv h').1, (reach_schedule hv h).2, (reach_schedule hv h').2]
  have e1 : ∀ t, rate o0.alpha o0.alphaDecay o0.minAlpha t = max (o0.alpha * o0.alphaDecay ^ t) o0.minAlpha := by
    intro t
    cases t with
    | zero => simp [rate, max_eq_left hm]
    | succ t => rfl
  have e2 : ∀ t : ℕ, momentumAt o0.eta o0.etaGain o0.maxEta t = min (o0.eta + t * o0.etaGain) o0.maxEta := by
    intro t
    cases t with
    | zero => simp [momentumAt, min_eq_left he]
    | succ t => simp [momentumAt]
  rw [e1, e1, e2, e2]
  constructor
  · refine max_le_max (mul_le_mul_of_nonneg_left ?_ ha.le) le_rfl
    exact pow_le_pow_of_le_one hv.decay_pos.le hv.decay_le htt
  · refine min_le_min ?_ le_rfl
    have : (t : ℝ) ≤ t' := by exact_mod_cast htt
    have := mul_le_mul_of_nonneg_right this hv.gain_nonneg
    linarith

theorem newGains_range {o : MBSGD} (h1 : o.minGain ≤ 1) (h2 : 1 ≤ o.maxGain) (g : Vec) (p : ℕ)
    (hg : o.minGain ≤ o.gains p ∧ o.gains p ≤ o.maxGain) :
    o.minGain ≤ o.newGains g p ∧ o.newGains g p ≤ o.maxGain := by
  classical
  unfold MBSGD.newGains
  split
  · exact ⟨le_min (h1.trans h2) (le_max_left _ _), min_le_left _ _⟩
  · exact hg

theorem updates_gains {o : MBSGD} (h1 : o.minGain ≤ 1) (h2 : 1 ≤ o.maxGain) (obj : Obj) (p : ℕ)
    (hg : o.minGain ≤ o.gains p ∧ o.gains p ≤ o.maxGain) (b : ℕ) :
    o.minGain ≤ (o.updates obj b).1.gains p ∧ (o.updates obj b).1.gains p ≤ o.maxGain := by
  induction b with
  | zero => exact hg
  | succ b ih =>
    have hs := updates_same o obj b
    have := newGains_range (o := (o.updates obj b).1) (by rw [hs.minGain]; exact h1) (by rw [hs.maxGain]; exact h2)
      ((((o.updates obj b).1.lookAhead (o.updates obj b).2).result (batchOf o.randomIndices o.batchSize b)).2) p
      (by rw [hs.minGain, hs.maxGain]; exact ih)
    rw [hs.minGain, hs.maxGain] at this
    exact this

/-- **C39 (gains)**: if 1 is in `[minGain, maxGain]`, every gain is in that interval from the first initialisation on. -/
theorem gains_range {o0 : MBSGD} (hn : o0.iteration < 0) (h1 : o0.minGain ≤ 1) (h2 : 1 ≤ o0.maxGain) {t : ℕ} {o : MBSGD}
    (h : Reach o0 t o) (obj : Obj) (b p : ℕ) :
    o0.minGain ≤ ((o.ready obj).reshuffle.updates obj b).1.gains p ∧
    ((o.ready obj).reshuffle.updates obj b).1.gains p ≤ o0.maxGain := by
  have key : o.iteration < 0 ∨ (o0.minGain ≤ o.gains p ∧ o.gains p ≤ o0.maxGain) := by
    induction h with
    | start => exact Or.inl hn
    | @step t o obj c o' obj' hr hs ih =>
      right
      have hc := (ready_same o obj).1.trans (reach_config hr)
      obtain ⟨_, _, _, _, _, _, rfl, _⟩ := step_eq hs
      rw [(finish_same _).2.2.2.2.1, ← hc.minGain, ← hc.maxGain]
      refine updates_gains (o := (o.ready obj).reshuffle) (by show (o.ready obj).minGain ≤ 1; rw [hc.minGain]; exact h1)
        (by show 1 ≤ (o.ready obj).maxGain; rw [hc.maxGain]; exact h2) obj p ?_ _
      show (o.ready obj).minGain ≤ (o.ready obj).gains p ∧ (o.ready obj).gains p ≤ (o.ready obj).maxGain
      rw [hc.minGain, hc.maxGain]
      unfold MBSGD.ready
      split
      · exact ⟨h1, h2⟩
      · next hge => exact ih.resolve_left hge
    | stop s _ ih => exact ih
  have hc := (ready_same o obj).1.trans (reach_config h)
  rw [← hc.minGain, ← hc.maxGain]
  refine updates_gains (o := (o.ready obj).reshuffle) (by show (o.ready obj).minGain ≤ 1; rw [hc.minGain]; exact h1)
    (by show 1 ≤ (o.ready obj).maxGain; rw [hc.maxGain]; exact h2) obj p ?_ _
  show (o.ready obj).minGain ≤ (o.ready obj).gains p ∧ (o.ready obj).gains p ≤ (o.ready obj).maxGain
  rw [hc.minGain, hc.maxGain]
  unfold MBSGD.ready
  split
  · exact ⟨h1, h2⟩
  · next hge => exact key.resolve_left hge

end Verif.Opt
