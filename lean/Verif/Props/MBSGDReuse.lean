import Verif.Props.MBSGDRun
import Mathlib.Tactic.NormNum

/-!
# Reuse and interrupts of mini-batch descent: C41, C42, and the clause of C40 that fails
-/

namespace Verif.Opt

open Finset

/-! ## C42 -/

/-- Two optimisers that are about to initialise make the same steps if settings, coefficients and random numbers agree. -/
theorem step_congr {a b : MBSGD} (ha : a.iteration < 0) (hb : b.iteration < 0) (hc : SameConfig a b)
    (hs : a.stop = b.stop) (h1 : a.alpha = b.alpha) (h2 : a.eta = b.eta) (hr : a.rng = b.rng) (obj : Obj) :
    a.step obj = b.step obj := by
  obtain ⟨c1, c2, c3, c4, c5, c6, c7, c8⟩ := hc
  have e : (a.ready obj).reshuffle = (b.ready obj).reshuffle := by
    rw [ready_of_lt ha, ready_of_lt hb]
    simp only [MBSGD.reshuffle, MBSGD.init, c1, c2, c3, c4, c5, c6, c7, c8, hs, h1, h2, hr]
  have eP : (a.ready obj).P = (b.ready obj).P := by rw [ready_of_lt ha, ready_of_lt hb]; rfl
  have eN : (a.ready obj).N = (b.ready obj).N := by rw [ready_of_lt ha, ready_of_lt hb]; rfl
  have eb : (a.ready obj).batches = (b.ready obj).batches := by
    rw [ready_of_lt ha, ready_of_lt hb]
    show max (obj.problem.examples / a.batchSize) 1 = max (obj.problem.examples / b.batchSize) 1
    rw [c6]
  have ei : (a.ready obj).randomIndices = (b.ready obj).randomIndices := by
    rw [ready_of_lt ha, ready_of_lt hb]
    show a.rng 0 _ = b.rng 0 _
    rw [hr]
  unfold MBSGD.step
  simp only [e, eP, eN, eb, ei]

theorem optimize_congr {a b : MBSGD} {obj : Obj} (h : a.step obj = b.step obj) (signaled : ℕ → Bool) (fuel : ℕ) :
    a.optimize signaled fuel obj = b.optimize signaled fuel obj := by
  cases fuel with
  | zero => rfl
  | succ fuel =>
    unfold MBSGD.optimize
    rw [MBSGD.loop, MBSGD.loop, h]

/-- **C42 (partial)**: with a constant learning rate and momentum, an optimiser that was used in any way and has stopped
regularly optimises the next problem exactly like a new one (with the same stop criteria and random numbers).  Missing:
schedules that change the coefficients (`reuse_fails`), and optimisers that were interrupted (`interrupt_resumes`). -/
theorem reuse_partial {o0 : MBSGD} (hv : o0.Valid) (hn : o0.iteration < 0) (hdecay : o0.alphaDecay = 1)
    (hmin : o0.minAlpha ≤ o0.alpha) (hgain : o0.etaGain = 0) (hmax : o0.eta ≤ o0.maxEta) {t : ℕ} {o : MBSGD}
    (h : Reach o0 t o) (hstopped : o.iteration < 0) (obj : Obj) (signaled : ℕ → Bool) (fuel : ℕ) :
    o.optimize signaled fuel obj =
      ({ o0 with stop := o.stop, rng := o.rng } : MBSGD).optimize signaled fuel obj := by
  obtain ⟨ha, he⟩ := reach_schedule hv h
  have hc := reach_config h
  have ha' : o.alpha = o0.alpha := by
    rw [ha, hdecay]
    cases t with
    | zero => rfl
    | succ t => simp only [rate, one_pow, mul_one, max_eq_left hmin]
  have he' : o.eta = o0.eta := by
    rw [he, hgain]
    cases t with
    | zero => rfl
    | succ t => simp only [momentumAt, mul_zero, add_zero, min_eq_left hmax]
  refine optimize_congr (step_congr (b := { o0 with stop := o.stop, rng := o.rng }) hstopped hn ?_ rfl ha' he' rfl obj)
    signaled fuel
  exact ⟨hc.1, hc.2, hc.3, hc.4, hc.5, hc.6, hc.7, hc.8⟩

/-! ## A problem for the counterexamples -/

/-- One parameter, one example, gradient 1. -/
noncomputable def slope : Problem := ⟨1, 1, fun _ _ _ => (0, fun _ => 1)⟩

noncomputable def slopeObj : Obj := ⟨slope, fun _ => 0, 0, []⟩

theorem slopeObj_nonempty : slopeObj.Nonempty := ⟨Nat.one_pos, Nat.one_pos⟩

/-- An optimiser with learning rate 1/2, momentum 0 and batches of one. -/
noncomputable def example1 (nesterov : Bool) (decay : ℝ) (m : ℤ) : MBSGD where
  nesterov := nesterov
  alpha := 1 / 2
  alphaDecay := decay
  minAlpha := 0
  eta := 0
  etaGain := 0
  maxEta := 1
  batchSize := 1
  minGain := 1
  maxGain := 1
  stop := ⟨m, 0⟩
  iteration := -1
  P := 0
  N := 0
  batches := 0
  gains := fun _ => 0
  parameters := fun _ => 0
  momentum := fun _ => 0
  accumulatedError := 0
  randomIndices := []
  rng := fun _ l => l

/-- It is what the constructor and `setStopCriteria` give. -/
theorem example1_new (nesterov : Bool) {decay : ℝ} (h0 : 0 < decay) (h1 : decay ≤ 1) (m : ℤ) :
    ∃ o, MBSGD.new (1 / 2) 0 1 nesterov decay 0 0 1 1 1 (fun _ l => l) = .ok o ∧
      o.setStopCriteria ⟨m, 0⟩ = example1 nesterov decay m := by
  unfold MBSGD.new
  rw [if_neg (by norm_num), if_neg (by norm_num), if_neg (by norm_num),
    if_neg (by push Not; exact ⟨h0, h1⟩), if_neg (by norm_num), if_neg (by norm_num), if_neg (by norm_num)]
  exact ⟨_, rfl, rfl⟩

theorem example1_valid (nesterov : Bool) {decay : ℝ} (h0 : 0 < decay) (h1 : decay ≤ 1) (m : ℤ) :
    (example1 nesterov decay m).Valid := ⟨le_rfl, h0, h1, le_rfl, le_rfl⟩

theorem example1_fair (nesterov : Bool) (decay : ℝ) (m : ℤ) : (example1 nesterov decay m).Fair := fun _ _ => List.Perm.refl _

/-- The first epoch on this problem. -/
theorem slope_first {o : MBSGD} (hv : o.Valid) (hn : o.iteration < 0) (h1 : o.minGain = 1) (h2 : o.maxGain = 1)
    (hb : o.batchSize = 1) {obj : Obj} (hobj : obj.problem = slope) {c : Bool} {o' : MBSGD} {obj' : Obj}
    (h : Steps o obj 1 c o' obj') :
    o'.parameters 0 = obj.w 0 - o.alpha ∧ (o.nesterov = true → obj'.w 0 = obj.w 0) ∧ o'.alpha = max (o.alpha * o.alphaDecay) o.minAlpha := by
  obtain ⟨batch, t, ht, _, hp, _, _, _, _, hnes⟩ := descent_rule_partial hv hn h
  have ht1 : t = 1 := by
    rw [ht, hobj, hb]
    rfl
  subst ht1
  refine ⟨?_, fun hne => ?_, ?_⟩
  · rw [hp, ((descent o obj batch).plain h1 h2 0 0).2, ((descent o obj batch).plain h1 h2 0 0).1]
    show obj.w 0 + (_ * (0 : ℝ) - o.alpha * (obj.problem.errorGradient _ _ _).2 0) = _
    rw [hobj]
    show obj.w 0 + (_ * (0 : ℝ) - o.alpha * 1) = _
    ring
  · rw [hnes hne]
    show (descent o obj batch).eval 0 ((descent o obj batch).at_ 0) 0 = _
    rw [Descent.eval, if_pos (show (descent o obj batch).nesterov = true from hne)]
    show obj.w 0 + _ * (0 : ℝ) = _
    ring
  · rcases steps_runInv hv hn h with ⟨h0, _⟩ | ⟨_, hinv, _⟩
    · omega
    · have := hinv.follows.alpha
      rw [this, hobj, hb]
      show rate _ _ _ 1 = _
      simp [rate]

/-- **C40 fails** for the last clause: with Nesterov momentum the object does not hold `w_t` after a step (and evaluators that
are called at the end of the iteration see other parameters than `result()` returns). -/
theorem nesterov_held_fails : ∃ (o : MBSGD) (obj : Obj) (c : Bool) (o' : MBSGD) (obj' : Obj), o.Valid ∧
    o.iteration < 0 ∧ o.step obj = .ok (c, o', obj') ∧ obj'.w 0 ≠ (o'.result obj').1 0 := by
  have hv := example1_valid true (decay := 1) one_pos le_rfl (-1)
  have hn : (example1 true 1 (-1)).iteration < 0 := by show (-1 : ℤ) < 0; norm_num
  obtain ⟨c, o', obj', hs, hst⟩ := steps_progress hv (example1_fair true 1 (-1)) hn slopeObj_nonempty Steps.zero
  refine ⟨_, _, c, o', obj', hv, hn, hs, ?_⟩
  obtain ⟨h1, h2, _⟩ := slope_first hv hn rfl rfl rfl rfl hst
  show obj'.w 0 ≠ o'.parameters 0
  rw [h1, h2 rfl]
  show (0 : ℝ) ≠ 0 - 1 / 2
  norm_num

/-- **C42 fails** with a learning rate decay: after a run of one epoch, the stopped optimiser makes a smaller first step on the
same problem than a new one with the same settings. -/
theorem reuse_fails : ∃ (o0 o fresh : MBSGD) (obj1 : Obj), o0.Valid ∧ o0.iteration < 0 ∧
    o0.optimize (fun _ => false) 1 slopeObj = .ok (some (o, obj1)) ∧ o.iteration = -1 ∧
    fresh = { o0 with rng := o.rng } ∧
    ∃ (a b : MBSGD) (obja objb : Obj), o.optimize (fun _ => false) 1 slopeObj = .ok (some (a, obja)) ∧
      fresh.optimize (fun _ => false) 1 slopeObj = .ok (some (b, objb)) ∧ (a.result obja).1 0 ≠ (b.result objb).1 0 := by
  have h12 : (0 : ℝ) < 1 / 2 := by norm_num
  have h12' : (1 / 2 : ℝ) ≤ 1 := by norm_num
  have hv := example1_valid false (decay := 1 / 2) h12 h12' 1
  have hn : (example1 false (1 / 2) 1).iteration < 0 := by show (-1 : ℤ) < 0; norm_num
  obtain ⟨o, obj1, hopt, _, hit⟩ := optimize_exact hv (example1_fair false (1 / 2) 1) hn slopeObj_nonempty (m := 1) le_rfl rfl rfl
  obtain ⟨n, c, hst, hend⟩ := optimize_steps hopt
  have hn0 : n = 0 := by
    cases hst with
    | @succ _ o1 obj1 _ _ _ hst1 hs =>
      cases n with
      | zero => rfl
      | succ n =>
        have := (steps_answer hv hn hst1).1 rfl
        have h2 : ((n : ℤ) + 1 < 1) := this.1.resolve_left (by show (1 : ℤ) ≠ -1; norm_num)
        omega
  subst hn0
  rcases steps_runInv hv hn hst with ⟨h0, _⟩ | ⟨_, hinv, _⟩
  · omega
  have hcfg := hinv.config
  have hvo : o.Valid := hcfg.valid hv
  have hfo : o.Fair := by
    intro k l
    rw [hinv.rng]
    exact List.Perm.refl _
  have halpha : o.alpha = 1 / 4 := by
    obtain ⟨_, _, h3⟩ := slope_first hv hn rfl rfl rfl rfl hst
    rw [h3]
    show max ((1 / 2 : ℝ) * (1 / 2)) 0 = 1 / 4
    norm_num
  have hno : o.iteration < 0 := by rw [hit]; norm_num
  -- the first epoch of any stopped optimiser with limit 1
  have key : ∀ x : MBSGD, x.Valid → x.Fair → x.iteration < 0 → x.minGain = 1 → x.maxGain = 1 → x.batchSize = 1 →
      x.stop = ⟨1, 0⟩ → ∃ y objy, x.optimize (fun _ => false) 1 slopeObj = .ok (some (y, objy)) ∧
        y.parameters 0 = 0 - x.alpha := by
    intro x hvx hfx hnx g1 g2 hbx hsx
    obtain ⟨y, objy, hy, _, _⟩ := optimize_exact hvx hfx hnx slopeObj_nonempty (m := 1) le_rfl (by rw [hsx]; rfl)
      (by rw [hsx])
    obtain ⟨n, c, hsty, _⟩ := optimize_steps hy
    have hn0 : n = 0 := by
      cases hsty with
      | @succ _ o1 obj1 _ _ _ hst1 hs =>
        cases n with
        | zero => rfl
        | succ n =>
          have := (steps_answer hvx hnx hst1).1 rfl
          rw [hsx] at this
          have h2 : ((n : ℤ) + 1 < 1) := this.1.resolve_left (by show (1 : ℤ) ≠ -1; norm_num)
          omega
    subst hn0
    exact ⟨y, objy, hy, (slope_first hvx hnx g1 g2 hbx rfl hsty).1⟩
  obtain ⟨a, obja, ha, hpa⟩ := key o hvo hfo hno hcfg.minGain hcfg.maxGain hcfg.batchSize hinv.stop
  obtain ⟨b, objb, hb, hpb⟩ := key { example1 false (1 / 2) 1 with rng := o.rng } ⟨le_rfl, h12, h12', le_rfl, le_rfl⟩ hfo
    hn rfl rfl rfl rfl
  refine ⟨_, o, _, obj1, hv, hn, hopt, hit, rfl, a, b, obja, objb, ha, hb, ?_⟩
  show a.parameters 0 ≠ b.parameters 0
  rw [hpa, hpb, halpha]
  show (0 : ℝ) - 1 / 4 ≠ 0 - 1 / 2
  norm_num

/-! ## C41 after an interrupt -/

theorem loop_const (fuel k k' : ℕ) (o : MBSGD) (obj : Obj) :
    MBSGD.loop (fun _ => false) fuel k o obj = MBSGD.loop (fun _ => false) fuel k' o obj := by
  induction fuel generalizing k k' o obj with
  | zero => rfl
  | succ fuel ih =>
    rw [MBSGD.loop, MBSGD.loop]
    congr 1
    funext r
    rw [ih (k + 1) (k' + 1)]

/-- **C41 (partial)**: an optimiser that was interrupted is not started again from scratch: with the limit `m ≥ 2`, an interrupt
during the first epoch ends `optimize` after one epoch, and the next call of `optimize` makes only the remaining `m - 1`
epochs. -/
theorem interrupt_resumes {o : MBSGD} (hv : o.Valid) (hfair : o.Fair) (hn : o.iteration < 0) {obj : Obj}
    (hne : obj.Nonempty) {m : ℕ} (hm2 : 2 ≤ m) (hm : o.stop.maximalIterations = m)
    (hstep : o.stop.minimalSearchSpaceStep = 0) (signaled : ℕ → Bool) (hsig : signaled 0 = true) :
    ∃ o1 obj1 o2 obj2, o.optimize signaled m obj = .ok (some (o1, obj1)) ∧
      finishedCount obj1.log = finishedCount obj.log + 1 ∧ o1.iteration = 1 ∧
      o1.optimize (fun _ => false) m obj1 = .ok (some (o2, obj2)) ∧
      finishedCount obj2.log = finishedCount obj1.log + (m - 1) := by
  obtain ⟨c, o1, obj1, hs, hst⟩ := steps_progress hv hfair hn hne Steps.zero
  have hc : c = true := by
    refine (steps_answer hv hn hst).2 ⟨Or.inr ?_, Or.inl hstep⟩
    rw [hm]
    omega
  subst hc
  rcases steps_runInv hv hn hst with ⟨h0, _⟩ | ⟨_, hinv, hit, _⟩
  · omega
  have hopt : o.optimize signaled m obj = .ok (some (o1, obj1)) := by
    obtain ⟨m', rfl⟩ : ∃ m', m = m' + 1 := ⟨m - 1, by omega⟩
    rw [MBSGD.optimize, MBSGD.loop, hs, Outcome.ok_bind]
    show (if (true && !signaled 0) = true then _ else _) = _
    rw [hsig]
    rfl
  obtain ⟨o2, obj2, h2⟩ := loop_terminates hv hfair hn hne hm (fun _ => false) hst (fuel := m) (by omega) (by omega)
  obtain ⟨n, c, hn1, hst2, hend⟩ := loop_steps hst h2
  have hcf : c = false := by
    rcases hend with h | h
    · exact h
    · cases h
  subst hcf
  have hcount : n + 1 = m := by
    have hle : n + 1 ≤ m := by
      cases hst2 with
      | @succ _ o1 obj1 _ _ _ hst1 hs =>
        cases n with
        | zero => omega
        | succ n =>
          have := (steps_answer hv hn hst1).1 rfl
          rw [hm] at this
          have := this.1.resolve_left (by omega)
          omega
    have hans := (steps_answer hv hn hst2).not.1 (by decide)
    rw [hm] at hans
    by_contra hcon
    exact hans ⟨Or.inr (by omega), Or.inl hstep⟩
  rcases steps_runInv hv hn hst2 with ⟨h0, _⟩ | ⟨_, hinv2, _⟩
  · omega
  refine ⟨o1, obj1, o2, obj2, hopt, hinv.finished, hit rfl, ?_, ?_⟩
  · rw [MBSGD.optimize, loop_const m 0 1]
    exact h2
  · rw [hinv2.finished, hinv.finished]
    omega

/-- After an interrupted run the optimiser keeps the sizes of the old problem: the first step on a problem with another
number of parameters is undefined. -/
theorem interrupt_other_problem_ub {o : MBSGD} (hit : 0 ≤ o.iteration) (h1 : 0 < o.P) (h2 : 0 < o.N) (h3 : 0 < o.batches)
    (h4 : o.randomIndices.length = o.N) (obj : Obj) (hne : obj.problem.dimension ≠ o.P) : o.step obj = .ub := by
  unfold MBSGD.step
  rw [ready_of_ge hit]
  simp only [Outcome.check_true h1, Outcome.check_true h2, Outcome.check_true h3, Outcome.check_true h4, Outcome.ok_bind]
  rw [if_pos hne]

/-- The settings used above are accepted, the problem is not empty: the theorems of this file speak about something. -/
example : ∃ o' obj', (example1 false 1 3).optimize (fun _ => false) 3 slopeObj = .ok (some (o', obj')) ∧
    finishedCount obj'.log = 0 + 3 ∧ o'.iteration = -1 :=
  optimize_exact (example1_valid false one_pos le_rfl 3) (example1_fair false 1 3) (by show (-1 : ℤ) < 0; norm_num)
    slopeObj_nonempty (by norm_num) rfl rfl

end Verif.Opt
