import Verif.Props.MBSGD

/-!
# Runs of mini-batch descent: C38, C40, C41, C42
-/

namespace Verif.Opt

open Finset

/-! ## Runs -/

/-- `Steps n o obj c o' obj'`: `n` consecutive calls of `step`, all but the last of which returned true; `c` is the last
answer. -/
inductive Steps (o : MBSGD) (obj : Obj) : ℕ → Bool → MBSGD → Obj → Prop
  | zero : Steps o obj 0 true o obj
  | succ {n o1 obj1 c o2 obj2} : Steps o obj n true o1 obj1 → o1.step obj1 = .ok (c, o2, obj2) →
      Steps o obj (n + 1) c o2 obj2

/-- `optimize` is a sequence of steps; it ends after a step that returned false or at an interrupt. -/
theorem loop_steps {signaled : ℕ → Bool} {o0 : MBSGD} {obj0 : Obj} {fuel k : ℕ} {o o' : MBSGD} {obj obj' : Obj}
    (hk : Steps o0 obj0 k true o obj) (h : MBSGD.loop signaled fuel k o obj = .ok (some (o', obj'))) :
    ∃ n c, k ≤ n ∧ Steps o0 obj0 (n + 1) c o' obj' ∧ (c = false ∨ signaled n = true) := by
  induction fuel generalizing k o obj with
  | zero => cases h
  | succ fuel ih =>
    rw [MBSGD.loop, Outcome.bind_eq_ok] at h
    obtain ⟨r, hr, h⟩ := h
    obtain ⟨c, o1, obj1⟩ := r
    have hs := Steps.succ hk hr
    by_cases hc : (c && !signaled k) = true
    · rw [if_pos hc] at h
      have hc1 : c = true := by
        cases c
        · cases hc
        · rfl
      rw [hc1] at hs
      obtain ⟨n, c', hn, hst, hend⟩ := ih hs h
      exact ⟨n, c', by omega, hst, hend⟩
    · rw [if_neg hc] at h
      cases h
      refine ⟨k, c, le_rfl, hs, ?_⟩
      cases c
      · exact Or.inl rfl
      · right
        cases hsig : signaled k
        · exact absurd (by rw [hsig]; rfl) hc
        · rfl

theorem optimize_steps {signaled : ℕ → Bool} {o o' : MBSGD} {obj obj' : Obj} {fuel : ℕ}
    (h : o.optimize signaled fuel obj = .ok (some (o', obj'))) :
    ∃ n c, Steps o obj (n + 1) c o' obj' ∧ (c = false ∨ signaled n = true) := by
  obtain ⟨n, c, _, h1, h2⟩ := loop_steps .zero h
  exact ⟨n, c, h1, h2⟩

/-! ## C40: the documented rule -/

/-- Position, last step and gains. -/
structure Point where
  w : Vec
  d : Vec
  gain : Vec

/-- A gain after an update: increased if gradient and last step agree, decreased otherwise, limited to the interval (the
documentation says the contrary, see C141 in `Props/Gains.lean`). -/
noncomputable def gainRule (lo hi d g gain : ℝ) : ℝ := min hi (max lo (if 0 ≤ d * g then gain + 0.05 else gain * 0.95))

/-- The documented gradient descent, apart from the direction in which gains change: `grad t w` is the gradient of the `t`-th mini-batch at `w`, `alpha t` and `eta t` are the
coefficients at time `t`. -/
structure Descent where
  nesterov : Bool
  alpha : ℕ → ℝ
  eta : ℕ → ℝ
  minGain : ℝ
  maxGain : ℝ
  grad : ℕ → Vec → Vec
  start : Vec

/-- The point where the gradient is evaluated. -/
noncomputable def Descent.eval (D : Descent) (t : ℕ) (x : Point) : Vec :=
  if D.nesterov then fun p => x.w p + D.eta t * x.d p else x.w

/-- New gains; without adaption (both limits 1) they stay 1. -/
noncomputable def Descent.gainNext (D : Descent) (t : ℕ) (x : Point) : Vec := fun p =>
  gainRule D.minGain D.maxGain (x.d p) (D.grad t (D.eval t x) p) (x.gain p)

/-- `d_t = eta_t d_{t-1} - alpha_t * gain * gradient` -/
noncomputable def Descent.dNext (D : Descent) (t : ℕ) (x : Point) : Vec := fun p =>
  D.eta t * x.d p - D.alpha t * (D.grad t (D.eval t x) p * D.gainNext t x p)

noncomputable def Descent.at_ (D : Descent) : ℕ → Point
  | 0 => ⟨D.start, fun _ => 0, fun _ => 1⟩
  | t + 1 => ⟨fun p => (D.at_ t).w p + D.dNext t (D.at_ t) p, D.dNext t (D.at_ t), D.gainNext t (D.at_ t)⟩

/-- The parameters that the object holds after `t` updates: the last point of evaluation with Nesterov momentum, `w_t`
otherwise. -/
noncomputable def Descent.held (D : Descent) : ℕ → Vec
  | 0 => D.start
  | t + 1 => if D.nesterov then D.eval t (D.at_ t) else (D.at_ (t + 1)).w

theorem Descent.held_plain (D : Descent) (h : D.nesterov = false) (t : ℕ) : D.held t = (D.at_ t).w := by
  cases t with
  | zero => rfl
  | succ t => rw [Descent.held, h]; rfl

/-- Without gain adaption the gains are 1 and the rule is `d_t = eta_t d_{t-1} - alpha_t g_t`, `w_t = w_{t-1} + d_t`. -/
theorem Descent.plain (D : Descent) (h1 : D.minGain = 1) (h2 : D.maxGain = 1) (t p : ℕ) :
    (D.at_ (t + 1)).d p = D.eta t * (D.at_ t).d p - D.alpha t * D.grad t (D.eval t (D.at_ t)) p ∧
    (D.at_ (t + 1)).w p = (D.at_ t).w p + (D.at_ (t + 1)).d p := by
  have hg : D.gainNext t (D.at_ t) p = 1 := by
    show gainRule _ _ _ _ _ = 1
    rw [gainRule, h1, h2]
    exact min_eq_left (le_max_left _ _)
  refine ⟨?_, rfl⟩
  show D.dNext t (D.at_ t) p = _
  rw [Descent.dNext, hg, mul_one]

/-- The index vectors of the epochs of a run that starts with `o` on `N` examples. -/
def indicesAt (o : MBSGD) (N : ℕ) : ℕ → List ℕ
  | 0 => o.rng 1 (o.rng 0 (List.range N))
  | e + 1 => o.rng (e + 2) (indicesAt o N e)

theorem indicesAt_perm {o : MBSGD} (h : o.Fair) (N e : ℕ) : (indicesAt o N e).Perm (List.range N) := by
  induction e with
  | zero => exact (h 1 _).trans (h 0 _)
  | succ e ih => exact (h _ _).trans ih

/-- The mini-batch at time `t`, if there are `k` per epoch. -/
def batchAt (o : MBSGD) (N k t : ℕ) : List ℕ := batchOf (indicesAt o N (t / k)) o.batchSize (t % k)

/-- The descent that the run of `o` on `obj` shall follow. -/
noncomputable def descent (o : MBSGD) (obj : Obj) (batch : ℕ → List ℕ) : Descent where
  nesterov := o.nesterov
  alpha := rate o.alpha o.alphaDecay o.minAlpha
  eta := momentumAt o.eta o.etaGain o.maxEta
  minGain := o.minGain
  maxGain := o.maxGain
  grad := fun t w => (obj.problem.errorGradient (obj.calls + t) w (batch t)).2
  start := obj.w

/-- What the optimiser and the object look like after `t` updates of the run. -/
structure Follows (D : Descent) (obj0 : Obj) (batch : ℕ → List ℕ) (t : ℕ) (o : MBSGD) (obj : Obj) : Prop where
  parameters : o.parameters = (D.at_ t).w
  momentum : o.momentum = (D.at_ t).d
  gains : o.gains = (D.at_ t).gain
  alpha : o.alpha = D.alpha t
  eta : o.eta = D.eta t
  nesterov : o.nesterov = D.nesterov
  minGain : o.minGain = D.minGain
  maxGain : o.maxGain = D.maxGain
  problem : obj.problem = obj0.problem
  calls : obj.calls = obj0.calls + t
  held : obj.w = D.held t
  log : evaluations obj.log = evaluations obj0.log ++ (List.range t).map fun i => (D.eval i (D.at_ i), batch i)

theorem update_follows {D : Descent} {obj0 : Obj} {batch : ℕ → List ℕ} {t : ℕ} {o : MBSGD} {obj : Obj}
    (hgrad : ∀ t w, D.grad t w = (obj0.problem.errorGradient (obj0.calls + t) w (batch t)).2)
    (halpha : ∀ t, D.alpha (t + 1) = max (D.alpha t * o.alphaDecay) o.minAlpha)
    (heta : ∀ t, D.eta (t + 1) = min (D.eta t + o.etaGain) o.maxEta)
    (h : Follows D obj0 batch t o obj) :
    Follows D obj0 batch (t + 1) (o.update obj (batch t)).1 (o.update obj (batch t)).2 := by
  classical
  have hobj : (o.lookAhead obj).problem = obj0.problem ∧ (o.lookAhead obj).calls = obj0.calls + t ∧
      (o.lookAhead obj).w = D.eval t (D.at_ t) ∧ (o.lookAhead obj).log = obj.log := by
    unfold MBSGD.lookAhead Descent.eval
    rw [h.nesterov]
    cases hn : D.nesterov
    · simp only [Bool.false_eq_true, if_false]
      exact ⟨h.problem, h.calls, by rw [h.held, D.held_plain hn], trivial⟩
    · simp only [if_true]
      exact ⟨h.problem, h.calls, by rw [h.parameters, h.eta, h.momentum], trivial⟩
  have hg : ((o.lookAhead obj).result (batch t)).2 = D.grad t (D.eval t (D.at_ t)) := by
    rw [Obj.result, hobj.1, hobj.2.1, hobj.2.2.1, hgrad]
  have hgain : o.newGains ((o.lookAhead obj).result (batch t)).2 = (D.at_ (t + 1)).gain ∧
      o.scaled ((o.lookAhead obj).result (batch t)).2 =
        fun p => D.grad t (D.eval t (D.at_ t)) p * D.gainNext t (D.at_ t) p := by
    rw [hg]
    by_cases hu : o.useGain
    · have e : o.newGains (D.grad t (D.eval t (D.at_ t))) = D.gainNext t (D.at_ t) := by
        rw [MBSGD.newGains, if_pos hu]
        funext p
        rw [MBSGD.newGain, Descent.gainNext, gainRule, h.minGain, h.maxGain, h.momentum, h.gains]
      refine ⟨e, ?_⟩
      rw [MBSGD.scaled, if_pos hu, e]
    · have hu' := hu
      unfold MBSGD.useGain at hu'
      push Not at hu'
      have e1 : D.minGain = 1 := by rw [← h.minGain]; exact hu'.1
      have e2 : D.maxGain = 1 := by rw [← h.maxGain]; exact hu'.2
      have hone : ∀ t p, (D.at_ t).gain p = 1 := by
        intro t p
        cases t with
        | zero => rfl
        | succ t =>
          show gainRule _ _ _ _ _ = 1
          rw [gainRule, e1, e2]
          exact min_eq_left (le_max_left _ _)
      have hnext : ∀ p, D.gainNext t (D.at_ t) p = 1 := fun p => hone (t + 1) p
      refine ⟨?_, ?_⟩
      · rw [MBSGD.newGains, if_neg hu, h.gains]
        funext p
        rw [hone, hone]
      · rw [MBSGD.scaled, if_neg hu]
        funext p
        rw [hnext, mul_one]
  have hd : (o.update obj (batch t)).1.momentum = (D.at_ (t + 1)).d := by
    show (fun p => o.eta * o.momentum p - o.alpha * o.scaled ((o.lookAhead obj).result (batch t)).2 p) = _
    rw [hgain.2, h.eta, h.alpha, h.momentum]
    rfl
  have hw : (o.update obj (batch t)).1.parameters = (D.at_ (t + 1)).w := by
    show (fun p => o.parameters p + (o.eta * o.momentum p -
      o.alpha * o.scaled ((o.lookAhead obj).result (batch t)).2 p)) = _
    rw [hgain.2, h.eta, h.alpha, h.momentum, h.parameters]
    rfl
  refine ⟨hw, hd, hgain.1, ?_, ?_, h.nesterov, h.minGain, h.maxGain, ?_, ?_, ?_, ?_⟩
  · show max (o.alpha * o.alphaDecay) o.minAlpha = _
    rw [halpha, h.alpha]
  · show min (o.eta + o.etaGain) o.maxEta = _
    rw [heta, h.eta]
  · show (if o.nesterov then (o.lookAhead obj).evaluate (batch t) else _).problem = _
    split <;> exact hobj.1
  · show (if o.nesterov then (o.lookAhead obj).evaluate (batch t) else _).calls = _
    have e : ((o.lookAhead obj).evaluate (batch t)).calls = obj0.calls + (t + 1) := by
      show (o.lookAhead obj).calls + 1 = _
      rw [hobj.2.1, Nat.add_assoc]
    split <;> exact e
  · show (if o.nesterov then (o.lookAhead obj).evaluate (batch t)
      else { (o.lookAhead obj).evaluate (batch t) with w := (o.update obj (batch t)).1.parameters }).w = _
    rw [h.nesterov, Descent.held]
    cases hn : D.nesterov
    · simp only [Bool.false_eq_true, if_false]
      exact hw
    · simp only [if_true]
      exact hobj.2.2.1
  · have e : ((o.lookAhead obj).evaluate (batch t)).log = obj.log ++ [.evaluate (D.eval t (D.at_ t)) (batch t)] := by
      show (o.lookAhead obj).log ++ [.evaluate (o.lookAhead obj).w (batch t)] = _
      rw [hobj.2.2.2, hobj.2.2.1]
    have e2 : (o.update obj (batch t)).2.log = obj.log ++ [.evaluate (D.eval t (D.at_ t)) (batch t)] := by
      show (if o.nesterov then (o.lookAhead obj).evaluate (batch t) else _).log = _
      split <;> exact e
    rw [e2, evaluations, List.filterMap_append, List.range_succ, List.map_append, ← List.append_assoc]
    have := h.log
    rw [evaluations] at this
    rw [this]
    rfl

/-- The state of the optimiser between two steps of the run that started with `o0` on `obj0`. -/
structure RunInv (o0 : MBSGD) (obj0 : Obj) (n : ℕ) (o : MBSGD) (obj : Obj) : Prop where
  follows : Follows (descent o0 obj0 (batchAt o0 obj0.problem.examples (max (obj0.problem.examples / o0.batchSize) 1)))
    obj0 (batchAt o0 obj0.problem.examples (max (obj0.problem.examples / o0.batchSize) 1))
    (n * max (obj0.problem.examples / o0.batchSize) 1) o obj
  config : SameConfig o o0
  stop : o.stop = o0.stop
  P : o.P = obj0.problem.dimension
  N : o.N = obj0.problem.examples
  batches : o.batches = max (obj0.problem.examples / o0.batchSize) 1
  indices : 0 < n → o.randomIndices = indicesAt o0 obj0.problem.examples (n - 1)
  indices0 : n = 0 → o.randomIndices = o0.rng 0 (List.range obj0.problem.examples)
  rng : ∀ k, o.rng k = o0.rng (n + 1 + k)
  finished : finishedCount obj.log = finishedCount obj0.log + n

theorem runInv_init (o0 : MBSGD) (obj0 : Obj) : RunInv o0 obj0 0 (o0.init obj0) obj0 := by
  refine ⟨?_, ⟨rfl, rfl, rfl, rfl, rfl, rfl, rfl, rfl⟩, rfl, rfl, rfl, rfl, fun h => absurd h (lt_irrefl 0), fun _ => rfl, ?_, rfl⟩
  · rw [Nat.zero_mul]
    refine ⟨rfl, rfl, rfl, rfl, rfl, rfl, rfl, rfl, rfl, rfl, ?_, ?_⟩
    · rfl
    · simp
  · intro k
    show o0.rng (k + 1) = _
    rw [Nat.zero_add, Nat.add_comm]

theorem finishedCount_finished (obj : Obj) : finishedCount obj.finishedIteration.log = finishedCount obj.log + 1 := by
  unfold finishedCount Obj.finishedIteration
  rw [List.filterMap_append, List.length_append]
  rfl

theorem evaluations_finished (obj : Obj) : evaluations obj.finishedIteration.log = evaluations obj.log := by
  unfold evaluations Obj.finishedIteration
  rw [List.filterMap_append]
  simp

theorem finishedCount_update (o : MBSGD) (obj : Obj) (batch : List ℕ) :
    finishedCount (o.update obj batch).2.log = finishedCount obj.log := by
  have e : ((o.lookAhead obj).evaluate batch).log = obj.log ++ [.evaluate (o.lookAhead obj).w batch] := by
    show (o.lookAhead obj).log ++ _ = _
    have : (o.lookAhead obj).log = obj.log := by
      unfold MBSGD.lookAhead
      split <;> rfl
    rw [this]
  have e2 : (o.update obj batch).2.log = obj.log ++ [.evaluate (o.lookAhead obj).w batch] := by
    show (if o.nesterov then (o.lookAhead obj).evaluate batch else _).log = _
    split <;> exact e
  rw [e2, finishedCount, List.filterMap_append, List.length_append]
  rfl

theorem finishedCount_updates (o : MBSGD) (obj : Obj) (b : ℕ) :
    finishedCount (o.updates obj b).2.log = finishedCount obj.log := by
  induction b with
  | zero => rfl
  | succ b ih => exact (finishedCount_update _ _ _).trans ih

/-- One step of the run, for a ready optimiser. -/
theorem step_runInv {o0 : MBSGD} (hv : o0.Valid) {obj0 : Obj} {n : ℕ} {o : MBSGD} {obj : Obj}
    (h : RunInv o0 obj0 n o obj) :
    RunInv o0 obj0 (n + 1) (o.reshuffle.updates obj o.batches).1.finish.2
      (o.reshuffle.updates obj o.batches).2.finishedIteration := by
  set k := max (obj0.problem.examples / o0.batchSize) 1 with hk
  have hkpos : 0 < k := by rw [hk]; exact lt_of_lt_of_le Nat.zero_lt_one (le_max_right _ _)
  have hidx : o.reshuffle.randomIndices = indicesAt o0 obj0.problem.examples n := by
    show o.rng 0 o.randomIndices = _
    rw [h.rng]
    cases n with
    | zero => rw [h.indices0 rfl]; rfl
    | succ n => rw [h.indices (Nat.succ_pos n)]; rfl
  have hbs : o.reshuffle.batchSize = o0.batchSize := h.config.batchSize
  have hb : ∀ b < k, batchOf o.reshuffle.randomIndices o.reshuffle.batchSize b =
      batchAt o0 obj0.problem.examples k (n * k + b) := by
    intro b hb
    rw [batchAt, hidx, hbs]
    have e1 : (n * k + b) / k = n := by
      rw [Nat.add_comm, Nat.add_mul_div_right _ _ hkpos, Nat.div_eq_of_lt hb, Nat.zero_add]
    have e2 : (n * k + b) % k = b := by
      rw [Nat.add_comm, Nat.add_mul_mod_self_right, Nat.mod_eq_of_lt hb]
    rw [e1, e2]
  have hup : ∀ b ≤ k, Follows (descent o0 obj0 (batchAt o0 obj0.problem.examples k)) obj0
      (batchAt o0 obj0.problem.examples k) (n * k + b) (o.reshuffle.updates obj b).1 (o.reshuffle.updates obj b).2 := by
    intro b
    induction b with
    | zero =>
      intro _
      have := h.follows
      exact ⟨this.1, this.2, this.3, this.4, this.5, this.6, this.7, this.8, this.9, this.10, this.11, this.12⟩
    | succ b ih =>
      intro hbk
      have hs := updates_same o.reshuffle obj b
      have hc := (hs.toSameConfig.trans (reshuffle_same o)).trans h.config
      have := update_follows (D := descent o0 obj0 (batchAt o0 obj0.problem.examples k)) (fun t w => rfl)
        (fun t => by
          rw [hc.alphaDecay, hc.minAlpha]
          exact (rate_succ o0.alpha hv.decay_pos hv.decay_le hv.min_nonneg t).symm)
        (fun t => by
          rw [hc.etaGain, hc.maxEta]
          exact (momentumAt_succ o0.eta hv.gain_nonneg t).symm)
        (ih (by omega))
      rw [← Nat.add_assoc]
      show Follows _ _ _ _ ((o.reshuffle.updates obj b).1.update (o.reshuffle.updates obj b).2
        (batchOf o.reshuffle.randomIndices o.reshuffle.batchSize b)).1 ((o.reshuffle.updates obj b).1.update
        (o.reshuffle.updates obj b).2 (batchOf o.reshuffle.randomIndices o.reshuffle.batchSize b)).2
      rw [hb b (by omega)]
      exact this
  have hbatches : o.batches = k := h.batches
  have hf := finish_same (o.reshuffle.updates obj o.batches).1
  have hs := updates_same o.reshuffle obj o.batches
  have hfol := hup k le_rfl
  rw [hbatches] at hf hs ⊢
  have hmul : (n + 1) * k = n * k + k := by ring
  refine ⟨?_, ((hf.1.trans hs.toSameConfig).trans (reshuffle_same o)).trans h.config, hf.2.1.trans (hs.stop.trans h.stop),
    hf.2.2.2.2.2.2.2.1.trans (hs.P.trans h.P), hf.2.2.2.2.2.2.2.2.1.trans (hs.N.trans h.N),
    hf.2.2.2.2.2.2.2.2.2.1.trans (hs.batches.trans h.batches), fun _ => ?_, fun h0 => absurd h0 (Nat.succ_ne_zero n),
    fun j => ?_, ?_⟩
  · rw [hmul]
    have hcfg := hf.1.trans hs.toSameConfig
    refine ⟨hf.2.2.2.2.2.1.trans hfol.1, hf.2.2.2.2.2.2.1.trans hfol.2, hf.2.2.2.2.1.trans hfol.3,
      hf.2.2.1.trans hfol.4, hf.2.2.2.1.trans hfol.5, hcfg.nesterov.trans ?_, hcfg.minGain.trans ?_,
      hcfg.maxGain.trans ?_, hfol.9, hfol.10, hfol.11, (evaluations_finished _).trans hfol.12⟩
    · exact h.config.nesterov
    · exact h.config.minGain
    · exact h.config.maxGain
  · rw [hf.2.2.2.2.2.2.2.2.2.2.1, hs.randomIndices, hidx]
    rfl
  · rw [hf.2.2.2.2.2.2.2.2.2.2.2, hs.rng]
    show o.rng (j + 1) = _
    rw [h.rng]
    congr 1
    omega
  · rw [finishedCount_finished, finishedCount_updates, h.finished, Nat.add_assoc]

theorem ready_of_lt {o : MBSGD} (h : o.iteration < 0) (obj : Obj) : o.ready obj = o.init obj := if_pos h

theorem ready_of_ge {o : MBSGD} (h : 0 ≤ o.iteration) (obj : Obj) : o.ready obj = o := if_neg (by omega)

theorem finish_true {o : MBSGD} (h : o.finish.1 = true) : o.finish.2.iteration = o.iteration + 1 ∧
    ({ o with iteration := o.iteration + 1 } : MBSGD).run := by
  unfold MBSGD.finish at h ⊢
  split
  · next hr => exact ⟨rfl, hr⟩
  · next hr => rw [if_neg hr] at h; cases h

theorem finish_false {o : MBSGD} (h : o.finish.1 = false) : o.finish.2.iteration = -1 ∧
    ¬ ({ o with iteration := o.iteration + 1 } : MBSGD).run := by
  unfold MBSGD.finish at h ⊢
  split
  · next hr => rw [if_pos hr] at h; cases h
  · next hr => exact ⟨rfl, hr⟩

/-- Every run from a new (or regularly stopped) optimiser satisfies the invariant; `iteration` counts the epochs. -/
theorem steps_runInv {o0 : MBSGD} (hv : o0.Valid) (hn : o0.iteration < 0) {obj0 : Obj} {n : ℕ} {c : Bool} {o : MBSGD}
    {obj : Obj} (h : Steps o0 obj0 n c o obj) :
    (n = 0 ∧ o = o0 ∧ obj = obj0 ∨ 0 < n ∧ RunInv o0 obj0 n o obj ∧ (c = true → o.iteration = n) ∧
      (c = false → o.iteration = -1)) := by
  induction h with
  | zero => exact Or.inl ⟨rfl, rfl, rfl⟩
  | @succ n o1 obj1 c o2 obj2 hst hs ih =>
    right
    obtain ⟨_, _, _, _, _, hc, ho, hobj⟩ := step_eq hs
    have hready : RunInv o0 obj0 n (o1.ready obj1) obj1 ∧ (o1.ready obj1).iteration = n := by
      rcases ih with ⟨rfl, rfl, rfl⟩ | ⟨_, hinv, hit, _⟩
      · rw [ready_of_lt hn]
        exact ⟨runInv_init _ _, rfl⟩
      · have := hit rfl
        rw [ready_of_ge (by omega)]
        exact ⟨hinv, this⟩
    have hinv := step_runInv hv hready.1
    rw [← ho, ← hobj] at hinv
    refine ⟨Nat.succ_pos n, hinv, fun hct => ?_, fun hcf => ?_⟩
    · rw [hct] at hc
      rw [ho, (finish_true hc.symm).1, (updates_same _ _ _).iteration]
      show (o1.ready obj1).iteration + 1 = _
      rw [hready.2]
      rfl
    · rw [hcf] at hc
      rw [ho]
      exact (finish_false hc.symm).1

/-- **C40 (partial)**: every run of a new or regularly stopped optimiser follows the documented rule.  After `n` epochs there
is a sequence of mini-batches such that the gradient was evaluated exactly at the documented points for these batches, the
parameters are `w_t`, the last step is `d_t` and `result()` returns `w_t` and stores it in the object.  Without Nesterov
momentum the object holds `w_t` after every step; with Nesterov momentum it holds the last look-ahead point
(`nesterov_held_fails`). -/
theorem descent_rule_partial {o0 : MBSGD} (hv : o0.Valid) (hn : o0.iteration < 0) {obj0 : Obj} {n : ℕ} {c : Bool}
    {o : MBSGD} {obj : Obj} (h : Steps o0 obj0 (n + 1) c o obj) :
    ∃ (batch : ℕ → List ℕ) (t : ℕ), t = (n + 1) * max (obj0.problem.examples / o0.batchSize) 1 ∧
      evaluations obj.log = evaluations obj0.log ++
        (List.range t).map (fun i => ((descent o0 obj0 batch).eval i ((descent o0 obj0 batch).at_ i), batch i)) ∧
      o.parameters = ((descent o0 obj0 batch).at_ t).w ∧ o.momentum = ((descent o0 obj0 batch).at_ t).d ∧
      (o.result obj).1 = ((descent o0 obj0 batch).at_ t).w ∧ (o.result obj).2.w = ((descent o0 obj0 batch).at_ t).w ∧
      (o0.nesterov = false → obj.w = ((descent o0 obj0 batch).at_ t).w) ∧
      (o0.nesterov = true → obj.w = (descent o0 obj0 batch).eval (t - 1) ((descent o0 obj0 batch).at_ (t - 1))) := by
  rcases steps_runInv hv hn h with ⟨h0, _⟩ | ⟨_, hinv, _⟩
  · omega
  have hf := hinv.follows
  refine ⟨_, _, rfl, hf.log, hf.parameters, hf.momentum, hf.parameters, hf.parameters, fun hne => ?_, fun hne => ?_⟩
  · rw [hf.held]
    exact Descent.held_plain _ hne _
  · have := hf.held
    have hpos : 0 < (n + 1) * max (obj0.problem.examples / o0.batchSize) 1 :=
      Nat.mul_pos (Nat.succ_pos n) (lt_of_lt_of_le Nat.zero_lt_one (le_max_right _ _))
    obtain ⟨t', ht'⟩ : ∃ t', (n + 1) * max (obj0.problem.examples / o0.batchSize) 1 = t' + 1 :=
      ⟨(n + 1) * max (obj0.problem.examples / o0.batchSize) 1 - 1, by omega⟩
    rw [ht'] at this ⊢
    rw [this, Descent.held]
    exact if_pos hne

/-! ## C38: fair epochs -/

theorem flatten_batches (l : List ℕ) (b k : ℕ) :
    ((List.range k).map (batchOf l b)).flatten = l.take (k * b) := by
  induction k with
  | zero => simp
  | succ k ih =>
    rw [List.range_succ, List.map_append, List.flatten_append, ih]
    simp only [List.map_cons, List.map_nil, List.flatten_cons, List.flatten_nil, List.append_nil, batchOf]
    rw [Nat.succ_mul, List.take_add]

theorem fairEpoch_batches {N b : ℕ} (hb : 1 ≤ b) {l : List ℕ} (hl : l.Perm (List.range N)) :
    FairEpoch N b ((List.range (max (N / b) 1)).map (batchOf l b)) := by
  have hlen : l.length = N := by rw [hl.length_eq, List.length_range]
  have hnd : l.Nodup := hl.nodup_iff.2 List.nodup_range
  rcases Nat.lt_or_ge N b with hNb | hNb
  · have hk : max (N / b) 1 = 1 := by rw [Nat.div_eq_of_lt hNb]; rfl
    refine ⟨?_, ?_, fun h => absurd h (by omega), fun h => absurd h (by omega), fun _ => ?_⟩
    · rw [flatten_batches]
      exact hnd.sublist (List.take_sublist _ _)
    · intro i hi
      rw [flatten_batches] at hi
      exact List.mem_range.1 (hl.mem_iff.1 (List.mem_of_mem_take hi))
    · rw [flatten_batches, hk, Nat.one_mul, List.length_take, hlen]
      omega
  · have hk : max (N / b) 1 = N / b := max_eq_left (Nat.div_pos hNb (by omega))
    have hmul : N / b * b = N - N % b := by
      have := Nat.div_add_mod N b
      rw [Nat.mul_comm] at this
      omega
    rw [hk]
    refine ⟨?_, ?_, fun _ batch hbatch => ?_, fun _ => ?_, fun h => absurd h (by omega)⟩
    · rw [flatten_batches]
      exact hnd.sublist (List.take_sublist _ _)
    · intro i hi
      rw [flatten_batches] at hi
      exact List.mem_range.1 (hl.mem_iff.1 (List.mem_of_mem_take hi))
    · obtain ⟨j, hj, rfl⟩ := List.mem_map.1 hbatch
      rw [List.mem_range] at hj
      have : (j + 1) * b ≤ N / b * b := Nat.mul_le_mul_right b hj
      have e : (j + 1) * b = j * b + b := by ring
      rw [batchOf, List.length_take, List.length_drop, hlen]
      have := Nat.div_mul_le_self N b
      omega
    · rw [flatten_batches, List.length_take, hlen, hmul]
      omega

/-- **C38**: in every run, on every problem, the mini-batches of the run are the mini-batches of one fair epoch after the
other. -/
theorem epochs_fair {o0 : MBSGD} (hv : o0.Valid) (hfair : o0.Fair) (hn : o0.iteration < 0) {obj0 : Obj} {n : ℕ} {c : Bool}
    {o : MBSGD} {obj : Obj} (h : Steps o0 obj0 (n + 1) c o obj) :
    ∃ epochs : List (List (List ℕ)), epochs.length = n + 1 ∧
      (∀ e ∈ epochs, FairEpoch obj0.problem.examples o0.batchSize e) ∧
      (evaluations obj.log).map Prod.snd = (evaluations obj0.log).map Prod.snd ++ epochs.flatten := by
  rcases steps_runInv hv hn h with ⟨h0, _⟩ | ⟨_, hinv, _⟩
  · omega
  set k := max (obj0.problem.examples / o0.batchSize) 1 with hk
  have hkpos : 0 < k := by rw [hk]; exact lt_of_lt_of_le Nat.zero_lt_one (le_max_right _ _)
  refine ⟨(List.range (n + 1)).map fun e => (List.range k).map (batchOf (indicesAt o0 obj0.problem.examples e) o0.batchSize),
    by simp, ?_, ?_⟩
  · intro e he
    obtain ⟨j, _, rfl⟩ := List.mem_map.1 he
    exact fairEpoch_batches hv.batch (indicesAt_perm hfair _ _)
  · rw [hinv.follows.log, List.map_append, List.map_map]
    refine congrArg _ ?_
    have key : ∀ m, (List.range (m * k)).map (fun i => batchAt o0 obj0.problem.examples k i) =
        ((List.range m).map fun e =>
          (List.range k).map (batchOf (indicesAt o0 obj0.problem.examples e) o0.batchSize)).flatten := by
      intro m
      induction m with
      | zero => simp
      | succ m ih =>
        rw [Nat.succ_mul, List.range_add, List.map_append, ih, List.range_succ, List.map_append, List.flatten_append]
        refine congrArg _ ?_
        simp only [List.map_cons, List.map_nil, List.flatten_cons, List.flatten_nil, List.append_nil, List.map_map]
        refine List.map_congr_left fun b hb => ?_
        rw [List.mem_range] at hb
        show batchAt _ _ _ (m * k + b) = _
        rw [batchAt]
        have e1 : (m * k + b) / k = m := by
          rw [Nat.add_comm, Nat.add_mul_div_right _ _ hkpos, Nat.div_eq_of_lt hb, Nat.zero_add]
        have e2 : (m * k + b) % k = b := by
          rw [Nat.add_comm, Nat.add_mul_mod_self_right, Nat.mod_eq_of_lt hb]
        rw [e1, e2]
    exact key (n + 1)

/-! ## C41: stopping -/

/-- A problem that can be optimised. -/
def Obj.Nonempty (obj : Obj) : Prop := 0 < obj.problem.dimension ∧ 0 < obj.problem.examples

/-- In a run on a non-empty problem every step succeeds. -/
theorem steps_progress {o0 : MBSGD} (hv : o0.Valid) (hfair : o0.Fair) (hn : o0.iteration < 0) {obj0 : Obj}
    (hne : obj0.Nonempty) {n : ℕ} {o : MBSGD} {obj : Obj} (h : Steps o0 obj0 n true o obj) :
    ∃ c o' obj', o.step obj = .ok (c, o', obj') ∧ Steps o0 obj0 (n + 1) c o' obj' := by
  have hready : RunInv o0 obj0 n (o.ready obj) obj := by
    rcases steps_runInv hv hn h with ⟨rfl, rfl, rfl⟩ | ⟨_, hinv, hit, _⟩
    · rw [ready_of_lt hn]
      exact runInv_init _ _
    · have := hit rfl
      rw [ready_of_ge (by omega)]
      exact hinv
  have hlen : (o.ready obj).randomIndices.length = (o.ready obj).N := by
    rw [hready.N]
    rcases Nat.eq_zero_or_pos n with h0 | h0
    · rw [hready.indices0 h0, (hfair _ _).length_eq, List.length_range]
    · rw [hready.indices h0, (indicesAt_perm hfair _ _).length_eq, List.length_range]
  have := step_ok (o := o) (obj := obj) (by rw [hready.P]; exact hne.1) (by rw [hready.N]; exact hne.2)
    (by rw [hready.batches]; exact lt_of_lt_of_le Nat.zero_lt_one (le_max_right _ _)) hlen
    (by rw [hready.P, hready.follows.problem])
  exact ⟨_, _, _, this, Steps.succ h this⟩

/-- The answer of a step: false exactly if a criterion is met. -/
theorem steps_answer {o0 : MBSGD} (hv : o0.Valid) (hn : o0.iteration < 0) {obj0 : Obj} {n : ℕ} {c : Bool} {o : MBSGD}
    {obj : Obj} (h : Steps o0 obj0 (n + 1) c o obj) :
    c = true ↔ (o0.stop.maximalIterations = -1 ∨ (n : ℤ) + 1 < o0.stop.maximalIterations) ∧
      (o0.stop.minimalSearchSpaceStep = 0 ∨ o0.stop.minimalSearchSpaceStep ≤ o.momentumNorm) := by
  cases h with
  | @succ _ o1 obj1 _ _ _ hst hs =>
    obtain ⟨_, _, _, _, _, hc, ho, _⟩ := step_eq hs
    have hready : (o1.ready obj1).iteration = n ∧ (o1.ready obj1).stop = o0.stop := by
      rcases steps_runInv hv hn hst with ⟨rfl, rfl, rfl⟩ | ⟨_, hinv, hit, _⟩
      · rw [ready_of_lt hn]
        exact ⟨rfl, rfl⟩
      · have := hit rfl
        rw [ready_of_ge (by omega)]
        exact ⟨this, hinv.stop⟩
    set u := ((o1.ready obj1).reshuffle.updates obj1 (o1.ready obj1).batches).1 with hu
    have hs' := updates_same (o1.ready obj1).reshuffle obj1 (o1.ready obj1).batches
    rw [← hu] at hs'
    have hst' : u.stop = o0.stop := hs'.stop.trans hready.2
    have hit' : u.iteration = n := hs'.iteration.trans hready.1
    have hnorm : o.momentumNorm = u.momentumNorm := by
      have hf := finish_same u
      rw [MBSGD.momentumNorm, MBSGD.momentumNorm, ho, hf.2.2.2.2.2.2.1, hf.2.2.2.2.2.2.2.1]
    have hrun : ({ u with iteration := u.iteration + 1 } : MBSGD).run ↔
        (o0.stop.maximalIterations = -1 ∨ (n : ℤ) + 1 < o0.stop.maximalIterations) ∧
        (o0.stop.minimalSearchSpaceStep = 0 ∨ o0.stop.minimalSearchSpaceStep ≤ o.momentumNorm) := by
      show (u.stop.maximalIterations = -1 ∨ u.iteration + 1 < u.stop.maximalIterations) ∧
        (u.stop.minimalSearchSpaceStep = 0 ∨ u.stop.minimalSearchSpaceStep ≤ u.momentumNorm) ↔ _
      rw [hst', hit', hnorm]
    rw [← hrun, hc]
    constructor
    · intro ht
      exact (finish_true ht).2
    · intro hr
      cases hcc : u.finish.1
      · exact absurd hr (finish_false hcc).2
      · rfl

theorem loop_terminates {o0 : MBSGD} (hv : o0.Valid) (hfair : o0.Fair) (hn : o0.iteration < 0) {obj0 : Obj}
    (hne : obj0.Nonempty) {m : ℕ} (hm : o0.stop.maximalIterations = m) (signaled : ℕ → Bool) {fuel k : ℕ} {o : MBSGD}
    {obj : Obj} (h : Steps o0 obj0 k true o obj) (hf : m ≤ fuel + k) (hf0 : 0 < fuel) :
    ∃ o' obj', MBSGD.loop signaled fuel k o obj = .ok (some (o', obj')) := by
  induction fuel generalizing k o obj with
  | zero => exact absurd hf0 (lt_irrefl 0)
  | succ fuel ih =>
    obtain ⟨c, o1, obj1, hs, hst⟩ := steps_progress hv hfair hn hne h
    rw [MBSGD.loop, hs, Outcome.ok_bind]
    by_cases hc : (c && !signaled k) = true
    · have hc1 : c = true := by
        cases c
        · cases hc
        · rfl
      have := (steps_answer hv hn hst).1 hc1
      rw [hm] at this
      have hlt : (k : ℤ) + 1 < m := this.1.resolve_left (by omega)
      show ∃ o' obj', (if (c && !signaled k) = true then _ else _) = _
      rw [if_pos hc]
      refine ih ?_ (by omega) (by omega)
      rw [hc1] at hst
      exact hst
    · show ∃ o' obj', (if (c && !signaled k) = true then _ else _) = _
      rw [if_neg hc]
      exact ⟨o1, obj1, rfl⟩

/-- **C41**: with an iteration limit `m ≥ 1`, `optimize` on a new or regularly stopped optimiser terminates after at most `m`
epochs.  It reports every epoch exactly once, and if it makes fewer than `m` epochs there was an interrupt or the last step was
shorter than the configured minimum. -/
theorem optimize_limit {o : MBSGD} (hv : o.Valid) (hfair : o.Fair) (hn : o.iteration < 0) {obj : Obj}
    (hne : obj.Nonempty) {m : ℕ} (hm1 : 1 ≤ m) (hm : o.stop.maximalIterations = m) (signaled : ℕ → Bool) :
    ∃ o' obj' e, o.optimize signaled m obj = .ok (some (o', obj')) ∧ 1 ≤ e ∧ e ≤ m ∧
      finishedCount obj'.log = finishedCount obj.log + e ∧
      (evaluations obj'.log).length = (evaluations obj.log).length + e * max (obj.problem.examples / o.batchSize) 1 ∧
      (e < m → signaled (e - 1) = true ∨
        (o.stop.minimalSearchSpaceStep ≠ 0 ∧ o'.momentumNorm < o.stop.minimalSearchSpaceStep)) ∧
      (o'.iteration = -1 ∨ signaled (e - 1) = true) := by
  obtain ⟨o', obj', h⟩ := loop_terminates hv hfair hn hne hm signaled Steps.zero (fuel := m) (by omega) (by omega)
  obtain ⟨n, c, hst, hend⟩ := optimize_steps h
  have hle : n + 1 ≤ m := by
    cases hst with
    | @succ _ o1 obj1 _ _ _ hst1 hs =>
      cases n with
      | zero => omega
      | succ n =>
        have := (steps_answer hv hn hst1).1 rfl
        rw [hm] at this
        have := this.1.resolve_left (by omega)
        omega
  rcases steps_runInv hv hn hst with ⟨h0, _⟩ | ⟨_, hinv, _, hit⟩
  · omega
  refine ⟨o', obj', n + 1, h, by omega, hle, hinv.finished, ?_, fun hlt => ?_, ?_⟩
  · rw [hinv.follows.log, List.length_append, List.length_map, List.length_range]
  · rcases hend with hc | hs
    · right
      have hans := (steps_answer hv hn hst).not
      rw [hc] at hans
      have := hans.1 (by decide)
      rw [hm] at this
      by_contra hcon
      refine this ⟨Or.inr (by omega), ?_⟩
      by_cases h0 : o.stop.minimalSearchSpaceStep = 0
      · exact Or.inl h0
      · right
        by_contra hlt'
        exact hcon ⟨h0, not_le.1 hlt'⟩
    · exact Or.inl hs
  · rcases hend with hc | hs
    · exact Or.inl (hit hc)
    · exact Or.inr hs

/-- **C41**: without interrupt and without the step size criterion exactly `m` epochs are made. -/
theorem optimize_exact {o : MBSGD} (hv : o.Valid) (hfair : o.Fair) (hn : o.iteration < 0) {obj : Obj}
    (hne : obj.Nonempty) {m : ℕ} (hm1 : 1 ≤ m) (hm : o.stop.maximalIterations = m)
    (hstep : o.stop.minimalSearchSpaceStep = 0) :
    ∃ o' obj', o.optimize (fun _ => false) m obj = .ok (some (o', obj')) ∧
      finishedCount obj'.log = finishedCount obj.log + m ∧ o'.iteration = -1 := by
  obtain ⟨o', obj', e, h, _, h2, h3, _, h4, h5⟩ := optimize_limit hv hfair hn hne hm1 hm fun _ => false
  have : e = m := by
    by_contra hne'
    rcases h4 (by omega) with h | h
    · cases h
    · exact h.1 hstep
  subst this
  refine ⟨o', obj', h, h3, h5.resolve_right ?_⟩
  simp

/-- **C41 (partial)**: a limit of zero is not honoured: one epoch is made. -/
theorem limit_zero_one_epoch {o : MBSGD} (hv : o.Valid) (hfair : o.Fair) (hn : o.iteration < 0) {obj : Obj}
    (hne : obj.Nonempty) (hm : o.stop.maximalIterations = 0) (signaled : ℕ → Bool) :
    ∃ o' obj', o.optimize signaled 1 obj = .ok (some (o', obj')) ∧ finishedCount obj'.log = finishedCount obj.log + 1 := by
  obtain ⟨o', obj', h⟩ := loop_terminates hv hfair hn hne (m := 0) (by simpa using hm) signaled Steps.zero (fuel := 1)
    (by omega) (by omega)
  obtain ⟨c, o1, obj1, hs, hst⟩ := steps_progress hv hfair hn hne Steps.zero
  have hc : c = false := by
    cases hcc : c
    · rfl
    · have := (steps_answer hv hn hst).1 hcc
      rw [hm] at this
      have := this.1.resolve_left (by omega)
      omega
  refine ⟨o1, obj1, ?_, ?_⟩
  · rw [MBSGD.optimize, MBSGD.loop, hs, Outcome.ok_bind, hc]
    rfl
  · rcases steps_runInv hv hn hst with ⟨h0, _⟩ | ⟨_, hinv, _⟩
    · omega
    · exact hinv.finished

end Verif.Opt
