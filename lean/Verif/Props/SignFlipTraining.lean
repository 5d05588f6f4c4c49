import Verif.Props.SymmetryTraining
import Verif.Props.SignFlip

/-!
# Signs of hidden units (C130): training

Gradient descent treats both signs of a parameter alike: from parameters with other signs it goes to the parameters with the other signs.  A
hidden unit with an odd activation function whose weights are all zero can never be trained.
-/

namespace Verif.Opt

open Finset NN

noncomputable section

/-! ## Optimiser -/

/-- Spec: the signs `τ` of the parameters keep the value and change the signs of the gradient. -/
def Problem.SignEquivariant (A : Problem) (τ : ℕ → ℝ) : Prop :=
  ∀ k w b, (A.errorGradient k (fun p => τ p * w p) b).1 = (A.errorGradient k w b).1 ∧
    ∀ p, (A.errorGradient k (fun p => τ p * w p) b).2 p = τ p * (A.errorGradient k w b).2 p

/-- Spec: an event with other signs. -/
def Event.signed (τ : ℕ → ℝ) : Event → Event
  | .evaluate w b => .evaluate (fun p => τ p * w p) b
  | .finished w => .finished fun p => τ p * w p

/-- Spec: the optimised object with other signs. -/
def Obj.signed (obj : Obj) (τ : ℕ → ℝ) : Obj := { obj with w := fun p => τ p * obj.w p, log := obj.log.map (Event.signed τ) }

/-- Spec: the optimiser with other signs. -/
def MBSGD.signed (o : MBSGD) (τ : ℕ → ℝ) : MBSGD :=
  { o with parameters := fun p => τ p * o.parameters p, momentum := fun p => τ p * o.momentum p }

section

variable {τ : ℕ → ℝ}

theorem lookAhead_signed (o : MBSGD) (obj : Obj) : (o.signed τ).lookAhead (obj.signed τ) = (o.lookAhead obj).signed τ := by
  unfold MBSGD.lookAhead
  show (if o.nesterov = true then _ else _) = _
  cases o.nesterov
  · rfl
  · have e : (fun p => τ p * o.parameters p + o.eta * (τ p * o.momentum p)) = fun p => τ p * (o.parameters p + o.eta * o.momentum p) := by
      funext p
      ring
    show Obj.mk _ (fun p => τ p * o.parameters p + o.eta * (τ p * o.momentum p)) _ _ = _
    rw [e]
    rfl

theorem newGains_signed (hτ : Signs τ) (o : MBSGD) (g : Vec) : (o.signed τ).newGains (fun p => τ p * g p) = o.newGains g := by
  unfold MBSGD.newGains
  by_cases h : o.useGain
  · rw [if_pos h, if_pos (show (o.signed τ).useGain from h)]
    funext p
    have e : τ p * o.momentum p * (τ p * g p) = o.momentum p * g p := by
      calc τ p * o.momentum p * (τ p * g p) = (τ p * τ p) * (o.momentum p * g p) := by ring
        _ = _ := by rw [hτ.sq, one_mul]
    show o.newGain (τ p * o.momentum p) (τ p * g p) (o.gains p) = _
    rw [MBSGD.newGain, MBSGD.newGain, e]
  · rw [if_neg h, if_neg (show ¬(o.signed τ).useGain from h)]
    rfl

theorem scaled_signed (hτ : Signs τ) (o : MBSGD) (g : Vec) : (o.signed τ).scaled (fun p => τ p * g p) = fun p => τ p * o.scaled g p := by
  unfold MBSGD.scaled
  by_cases h : o.useGain
  · rw [if_pos h, if_pos (show (o.signed τ).useGain from h), newGains_signed hτ]
    funext p
    ring
  · rw [if_neg h, if_neg (show ¬(o.signed τ).useGain from h)]

theorem move_signed (o : MBSGD) (g : Vec) : (o.signed τ).move (fun p => τ p * g p) = (o.move g).signed τ := by
  unfold MBSGD.move MBSGD.signed
  congr 1 <;> funext p <;> dsimp only <;> ring

theorem result_signed {obj : Obj} (h : obj.problem.SignEquivariant τ) (b : List ℕ) :
    (obj.signed τ).result b = ((obj.result b).1, fun p => τ p * (obj.result b).2 p) :=
  Prod.ext (h obj.calls obj.w b).1 (funext (h obj.calls obj.w b).2)

theorem update_signed (hτ : Signs τ) (o : MBSGD) {obj : Obj} (h : obj.problem.SignEquivariant τ) (b : List ℕ) :
    (o.signed τ).update (obj.signed τ) b = ((o.update obj b).1.signed τ, (o.update obj b).2.signed τ) := by
  have hres : ((o.lookAhead obj).signed τ).result b =
      (((o.lookAhead obj).result b).1, fun p => τ p * ((o.lookAhead obj).result b).2 p) :=
    result_signed (by rw [lookAhead_problem]; exact h) b
  have hlog : ∀ ob : Obj, (ob.signed τ).evaluate b = (ob.evaluate b).signed τ := by
    intro ob
    unfold Obj.evaluate Obj.signed
    simp [Event.signed]
  unfold MBSGD.update
  simp only [lookAhead_signed, hres, newGains_signed hτ, scaled_signed hτ, move_signed, hlog]
  refine Prod.ext rfl ?_
  show (if o.nesterov = true then _ else _) = _
  cases o.nesterov <;> rfl

theorem updates_signed (hτ : Signs τ) (o : MBSGD) {obj : Obj} (h : obj.problem.SignEquivariant τ) : ∀ n,
    (o.signed τ).updates (obj.signed τ) n = ((o.updates obj n).1.signed τ, (o.updates obj n).2.signed τ)
  | 0 => rfl
  | n + 1 => by
    rw [MBSGD.updates, updates_signed hτ o h n]
    exact update_signed hτ _ (by rw [updates_problem]; exact h) _

theorem ready_signed (o : MBSGD) (obj : Obj) : (o.signed τ).ready (obj.signed τ) = (o.ready obj).signed τ := by
  unfold MBSGD.ready
  by_cases h : o.iteration < 0
  · rw [if_pos h, if_pos (show (o.signed τ).iteration < 0 from h)]
    unfold MBSGD.init MBSGD.signed Obj.signed
    congr 1
    funext p
    exact (mul_zero _).symm
  · rw [if_neg h, if_neg (show ¬(o.signed τ).iteration < 0 from h)]

theorem momentumNorm_signed (hτ : Signs τ) (o : MBSGD) : (o.signed τ).momentumNorm = o.momentumNorm :=
  congrArg Real.sqrt (sum_congr rfl fun p _ => hτ.pow p _)

theorem finish_signed (hτ : Signs τ) (o : MBSGD) : (o.signed τ).finish = (o.finish.1, o.finish.2.signed τ) := by
  have hrun : ({ o.signed τ with iteration := (o.signed τ).iteration + 1 } : MBSGD).run ↔
      ({ o with iteration := o.iteration + 1 } : MBSGD).run := by
    have e : ({ o.signed τ with iteration := (o.signed τ).iteration + 1 } : MBSGD).momentumNorm =
        ({ o with iteration := o.iteration + 1 } : MBSGD).momentumNorm := momentumNorm_signed hτ o
    unfold MBSGD.run
    rw [e]
    rfl
  unfold MBSGD.finish
  by_cases h : ({ o with iteration := o.iteration + 1 } : MBSGD).run
  · rw [if_pos h, if_pos (hrun.2 h)]
    rfl
  · rw [if_neg h, if_neg fun h' => h (hrun.1 h')]
    rfl

theorem step_signed (hτ : Signs τ) {o : MBSGD} {obj : Obj} (h : obj.problem.SignEquivariant τ) {c : Bool} {o1 : MBSGD} {obj1 : Obj}
    (hs : o.step obj = .ok (c, o1, obj1)) :
    (o.signed τ).step (obj.signed τ) = .ok (c, o1.signed τ, obj1.signed τ) ∧ obj1.problem = obj.problem := by
  obtain ⟨h1, h2, h3, h4, h5, rfl, rfl, rfl⟩ := step_eq hs
  have hu := updates_signed hτ (o.ready obj).reshuffle h (o.ready obj).batches
  refine ⟨?_, updates_problem _ _ _⟩
  rw [step_ok (by rw [ready_signed]; exact h1) (by rw [ready_signed]; exact h2) (by rw [ready_signed]; exact h3)
    (by rw [ready_signed]; exact h4) (by rw [ready_signed]; exact h5), ready_signed]
  rw [show ((o.ready obj).signed τ).reshuffle.updates (obj.signed τ) ((o.ready obj).signed τ).batches =
    ((o.ready obj).reshuffle.signed τ).updates (obj.signed τ) (o.ready obj).batches from rfl, hu, finish_signed hτ]
  refine congrArg Outcome.ok (Prod.ext rfl (Prod.ext rfl ?_))
  unfold Obj.finishedIteration Obj.signed
  simp [Event.signed]

/-- **C130 (optimiser)**: if other signs of the parameters change the signs of the gradient only, then every number of steps from the
parameters with the other signs gives the parameters with the other signs, with the same answers of `step()`. -/
theorem steps_signed (hτ : Signs τ) {o : MBSGD} {obj : Obj} (h : obj.problem.SignEquivariant τ) {n : ℕ} {c : Bool} {o1 : MBSGD} {obj1 : Obj}
    (hs : Steps o obj n c o1 obj1) : Steps (o.signed τ) (obj.signed τ) n c (o1.signed τ) (obj1.signed τ) ∧
      obj1.problem = obj.problem := by
  induction hs with
  | zero => exact ⟨.zero, rfl⟩
  | succ _ hstep ih =>
    have := step_signed (τ := τ) hτ (by rw [ih.2]; exact h) hstep
    exact ⟨.succ ih.1 this.1, this.2.trans ih.2⟩

theorem loop_signed (hτ : Signs τ) {signaled : ℕ → Bool} : ∀ (fuel k : ℕ) {o : MBSGD} {obj : Obj}, obj.problem.SignEquivariant τ →
    ∀ {r : Option (MBSGD × Obj)}, MBSGD.loop signaled fuel k o obj = .ok r →
      MBSGD.loop signaled fuel k (o.signed τ) (obj.signed τ) = .ok (r.map fun q => (q.1.signed τ, q.2.signed τ))
  | 0, _, _, _, _, _, hl => by cases hl; rfl
  | fuel + 1, k, o, obj, h, r, hl => by
    rw [MBSGD.loop, Outcome.bind_eq_ok] at hl
    obtain ⟨⟨c, o1, obj1⟩, hs, hl⟩ := hl
    obtain ⟨hs', hp⟩ := step_signed hτ h hs
    rw [MBSGD.loop, hs', Outcome.ok_bind]
    dsimp only at hl ⊢
    split at hl
    · next hc =>
      rw [if_pos hc]
      exact loop_signed hτ fuel (k + 1) (by rw [hp]; exact h) hl
    · next hc =>
      rw [if_neg hc]
      cases hl
      rfl

/-- **C130 (`optimize`)**: the same for a whole call of `optimize`, ended by a stop criterion or by an interrupt. -/
theorem optimize_signed (hτ : Signs τ) {signaled : ℕ → Bool} {fuel : ℕ} {o : MBSGD} {obj : Obj} (h : obj.problem.SignEquivariant τ)
    {r : Option (MBSGD × Obj)} (hr : o.optimize signaled fuel obj = .ok r) :
    (o.signed τ).optimize signaled fuel (obj.signed τ) = .ok (r.map fun q => (q.1.signed τ, q.2.signed τ)) :=
  loop_signed hτ fuel 0 h hr

/-! ## What is zero remains zero -/

/-- The parameters and the momentum do not change under the signs. -/
structure MBSGD.Fixed (o : MBSGD) (τ : ℕ → ℝ) : Prop where
  parameters : ∀ p, τ p * o.parameters p = o.parameters p
  momentum : ∀ p, τ p * o.momentum p = o.momentum p

theorem MBSGD.Fixed.signed {o : MBSGD} (h : o.Fixed τ) : o.signed τ = o := by
  unfold MBSGD.signed
  rw [funext h.parameters, funext h.momentum]

theorem update_fixed (hτ : Signs τ) {o : MBSGD} {obj : Obj} (h : obj.problem.SignEquivariant τ) (ho : o.Fixed τ)
    (hw : ∀ p, τ p * obj.w p = obj.w p) (b : List ℕ) :
    (o.update obj b).1.Fixed τ ∧ ∀ p, τ p * (o.update obj b).2.w p = (o.update obj b).2.w p := by
  have key := update_signed hτ o h b
  have e : obj.signed τ = { obj with log := obj.log.map (Event.signed τ) } := by
    unfold Obj.signed
    rw [funext hw]
  rw [ho.signed, e] at key
  have hl := update_log o obj b (obj.log.map (Event.signed τ))
  rw [key] at hl
  exact ⟨⟨fun p => congrFun (congrArg MBSGD.parameters hl.1) p, fun p => congrFun (congrArg MBSGD.momentum hl.1) p⟩,
    fun p => congrFun hl.2 p⟩

theorem updates_fixed (hτ : Signs τ) {o : MBSGD} {obj : Obj} (h : obj.problem.SignEquivariant τ) (ho : o.Fixed τ)
    (hw : ∀ p, τ p * obj.w p = obj.w p) :
    ∀ n, (o.updates obj n).1.Fixed τ ∧ ∀ p, τ p * (o.updates obj n).2.w p = (o.updates obj n).2.w p
  | 0 => ⟨ho, hw⟩
  | n + 1 => by
    have ih := updates_fixed hτ h ho hw n
    exact update_fixed hτ (by rw [updates_problem]; exact h) ih.1 ih.2 _

theorem steps_fixed (hτ : Signs τ) {o : MBSGD} (hn : o.iteration < 0) {obj : Obj} (h : obj.problem.SignEquivariant τ)
    (hw : ∀ p, τ p * obj.w p = obj.w p) {n : ℕ} {c : Bool} {o1 : MBSGD} {obj1 : Obj} (hs : Steps o obj n c o1 obj1) :
    (∀ p, τ p * obj1.w p = obj1.w p) ∧ (0 < n → ∀ p, τ p * (o1.result obj1).1 p = (o1.result obj1).1 p) := by
  have key : ∀ {n : ℕ} {c : Bool} {o1 : MBSGD} {obj1 : Obj}, Steps o obj n c o1 obj1 →
      obj1.problem = obj.problem ∧ (∀ p, τ p * obj1.w p = obj1.w p) ∧ (0 < n ∨ 0 ≤ o1.iteration → o1.Fixed τ) := by
    intro n c o1 obj1 hs
    induction hs with
    | zero => exact ⟨rfl, hw, fun h => by omega⟩
    | @succ n o1 obj1 c o2 obj2 _ hstep ih =>
      obtain ⟨hp, hw1, ho1⟩ := ih
      have hr : (o1.ready obj1).Fixed τ := by
        by_cases hi : o1.iteration < 0
        · rw [ready_of_lt hi]
          exact ⟨hw1, fun _ => mul_zero _⟩
        · rw [ready_of_ge (by omega)]
          exact ho1 (Or.inr (by omega))
      obtain ⟨_, _, _, _, _, rfl, rfl, rfl⟩ := step_eq hstep
      have hu := updates_fixed hτ (o := (o1.ready obj1).reshuffle) (by rw [hp]; exact h) ⟨hr.parameters, hr.momentum⟩ hw1
        (o1.ready obj1).batches
      refine ⟨(updates_problem _ _ _).trans hp, hu.2, fun _ => ?_⟩
      have := hu.1
      unfold MBSGD.finish
      split <;> exact ⟨this.parameters, this.momentum⟩
  obtain ⟨_, h1, h2⟩ := key hs
  exact ⟨h1, fun hn => (h2 (Or.inl hn)).parameters⟩

end

/-! ## Networks -/

/-- Spec: no penalty for absolute values (its derivative at zero is not a number). -/
def NoL1 : Kind → Prop
  | .fullyConnected _ _ _ r => r.l1 ≤ 0
  | .compressed _ _ _ _ r _ => r.l1 ≤ 0
  | _ => True

section

variable {D K : ℕ} {pre post : List Kind} {h : Kind} {bias : Bool} {act : Act} {reg : Reg} (ce : Bool)
  (hh : h.OddUnits) (hf : FitsFrom D (withHidden pre h K bias act reg post))
  (hv : ∀ k ∈ withHidden pre h K bias act reg post, k.Visible) {net : Net}
  (hn : net = buildNet D (withHidden pre h K bias act reg post) ce)

include hh hf hv hn

theorem net_signEquivariant {ε : ℕ → ℝ} (hε : Signs ε) (mem : Mem) (sc : ℕ → Scratch) (ds : TrainSet) :
    (netProblem net mem sc ds).SignEquivariant (net.signs (pre.length + 1) ε) := by
  intro k w b
  have := errorGradient_flipped ce hh hε hf hv mem (sc k) ds b w hn
  exact ⟨this.1, this.2⟩

omit hh hf hv hn in
/-- A fresh optimiser overwrites all its vectors. -/
theorem steps_fresh_signed {o : MBSGD} (ho : o.iteration < 0) {τ : ℕ → ℝ} {obj : Obj} {n : ℕ} (hpos : 0 < n) {c : Bool} {o1 : MBSGD}
    {obj1 : Obj} (hs : Steps (o.signed τ) obj n c o1 obj1) : Steps o obj n c o1 obj1 := by
  have hstep : o.step obj = (o.signed τ).step obj := by
    have : o.ready obj = (o.signed τ).ready obj := by
      rw [ready_of_lt ho, ready_of_lt (show (o.signed τ).iteration < 0 from ho)]
      rfl
    unfold MBSGD.step
    rw [this]
  induction hs with
  | zero => omega
  | @succ n o2 obj2 c o3 obj3 hs1 hs2 ih =>
    cases n with
    | zero =>
      cases hs1
      exact .succ .zero (hstep.trans hs2)
    | succ n => exact .succ (ih (by omega)) hs2

/-- **C130 (training)**: a network whose hidden units got other signs before the training is, after every number of steps of a fresh
optimiser, the network with the other signs: the answers of `step()` are the same, the parameters differ in the same signs and the
predictions are the same. -/
theorem training_flipped {ε : ℕ → ℝ} (hε : Signs ε) (mem : Mem) (sc : ℕ → Scratch) (ds : TrainSet) {o : MBSGD} (ho : o.iteration < 0)
    (w : Vec) (calls : ℕ) {n : ℕ} (hpos : 0 < n) {c : Bool} {o1 : MBSGD} {obj1 : Obj}
    (hs : Steps o ⟨netProblem net mem sc ds, w, calls, []⟩ n c o1 obj1) :
    ∃ o2 obj2, Steps o ⟨netProblem net mem sc ds, fun p => net.signs (pre.length + 1) ε p * w p, calls, []⟩ n c o2 obj2 ∧
      (∀ p, (o2.result obj2).1 p = net.signs (pre.length + 1) ε p * (o1.result obj1).1 p) ∧
      (∀ p, obj2.w p = net.signs (pre.length + 1) ε p * obj1.w p) ∧
      ∀ N X m, ∀ j < net.outputs,
        net.predictAll (net.setParameters mem ((List.range net.P).map (o2.result obj2).1)) N X m j =
          net.predictAll (net.setParameters mem ((List.range net.P).map (o1.result obj1).1)) N X m j := by
  have hs' := (steps_signed (net.signs_sign hε _) (net_signEquivariant ce hh hf hv hn hε mem sc ds) hs).1
  exact ⟨_, _, steps_fresh_signed ho hpos hs', fun _ => rfl, fun _ => rfl, fun N X m j hj =>
    predictions_flipped ce hh hε hf hv mem o1.parameters hn N X m hj⟩

/-- **C130 (dead units stay dead)**: a hidden unit with an odd activation function whose weights are all zero when the training starts has only
zeros after every number of steps, for all data, batch sizes, shuffles, learning rates, momentum and gains. -/
theorem dead_forever (_h1 : NoL1 h) (_h2 : reg.l1 ≤ 0) (mem : Mem) (sc : ℕ → Scratch) (ds : TrainSet) {o : MBSGD} (ho : o.iteration < 0)
    {a : ℕ} {w : Vec} (hd : net.Dead (pre.length + 1) w a) (calls : ℕ) (log : List Event) {n : ℕ} {c : Bool} {o1 : MBSGD}
    {obj1 : Obj} (hs : Steps o ⟨netProblem net mem sc ds, w, calls, log⟩ n c o1 obj1) :
    net.Dead (pre.length + 1) obj1.w a ∧ (0 < n → net.Dead (pre.length + 1) (o1.result obj1).1 a) := by
  have := steps_fixed (net.signs_sign (only_signs a) (pre.length + 1)) ho (net_signEquivariant ce hh hf hv hn (only_signs a) mem sc ds)
    ((dead_iff w).1 hd) hs
  exact ⟨(dead_iff _).2 this.1, fun h0 => (dead_iff _).2 (this.2 h0)⟩

/-- **C130 (no training from zero)**: if all weights are zero when the training starts, every hidden layer with an odd activation function in
front of a fully connected layer has the output 0 for every input after every number of steps. -/
theorem zero_start (h1 : NoL1 h) (h2 : reg.l1 ≤ 0) (mem : Mem) (sc : ℕ → Scratch) (ds : TrainSet) {o : MBSGD} (ho : o.iteration < 0)
    (calls : ℕ) (log : List Event) {n : ℕ} {c : Bool} {o1 : MBSGD} {obj1 : Obj}
    (hs : Steps o ⟨netProblem net mem sc ds, fun _ => 0, calls, log⟩ n c o1 obj1) (N : ℕ) (x : Batch) (m : ℕ) {a : ℕ}
    (ha : a < (h.layer (outFrom D (layersFrom D pre))).outputs) :
    (h.layer (outFrom D (layersFrom D pre))).forward
        (net.setParameters mem ((List.range net.P).map obj1.w) (pre.length + 1)) N x m a = 0 :=
  dead_silent ce hh hf hv hn ha
    (dead_forever ce hh hf hv hn h1 h2 mem sc ds ho (fun _ _ => ⟨fun _ => rfl, fun _ => rfl, fun _ => rfl⟩) calls log hs).1 mem N x m

end

/-- The hypotheses of `training_flipped`, `dead_forever` and `zero_start` are met: one step for two hidden units and one example. -/
example : ∃ (o : MBSGD) (c : Bool) (o1 : MBSGD) (obj1 : Obj), o.iteration < 0 ∧
    (Kind.fullyConnected 2 true .linear ⟨0, 0, 0⟩).OddUnits ∧ FitsFrom 1 twoUnits ∧ (∀ k ∈ twoUnits, k.Visible) ∧
    (buildNet 1 twoUnits false).Dead 1 (fun _ => 0) 0 ∧
    Steps o ⟨netProblem (buildNet 1 twoUnits false) (fun _ _ => 0) (fun _ => ⟨fun _ _ => 0, fun _ _ _ => 0⟩)
      ⟨1, fun _ _ => 1, fun _ _ => 2⟩, fun _ => 0, 0, []⟩ 1 c o1 obj1 := by
  have hn : (example1 false 1 5).iteration < 0 := by show (-1 : ℤ) < 0; norm_num
  obtain ⟨c, o', obj', _, hst⟩ := steps_progress (example1_valid false one_pos le_rfl 5) (example1_fair false 1 5) hn
    (obj := ⟨netProblem (buildNet 1 twoUnits false) (fun _ _ => 0) (fun _ => ⟨fun _ _ => 0, fun _ _ _ => 0⟩)
      ⟨1, fun _ _ => 1, fun _ _ => 2⟩, fun _ => 0, 0, []⟩) ⟨by show 0 < 7; norm_num, Nat.one_pos⟩ .zero
  refine ⟨_, c, o', obj', hn, trivial, ⟨trivial, trivial, trivial⟩, ?_, fun _ _ => ⟨fun _ => rfl, fun _ => rfl, fun _ => rfl⟩, hst⟩
  intro k hk
  simp only [twoUnits, withHidden, List.nil_append, List.mem_cons, List.not_mem_nil, or_false] at hk
  rcases hk with rfl | rfl <;> trivial

end

end Verif.Opt
