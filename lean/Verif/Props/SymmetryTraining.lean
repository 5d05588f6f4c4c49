import Verif.Props.MBSGDReuse
import Verif.Model.OptimizableNet
import Verif.Props.Symmetry

/-!
# Hidden units can be exchanged (C86): training

Gradient descent treats all parameters alike: from renamed weights it goes to the renamed weights, and what is equal by
symmetry remains equal.
-/

namespace Verif.Opt

open Finset

noncomputable section

/-! ## Optimiser -/

/-- Spec: renaming the parameters by `σ` keeps the value and renames the gradient. -/
def Problem.Equivariant (A : Problem) (σ : Equiv.Perm ℕ) : Prop :=
  (∀ p, σ p < A.dimension ↔ p < A.dimension) ∧
  ∀ k w b, (A.errorGradient k (fun p => w (σ p)) b).1 = (A.errorGradient k w b).1 ∧
    ∀ p, (A.errorGradient k (fun p => w (σ p)) b).2 p = (A.errorGradient k w b).2 (σ p)

/-- Spec: an event with renamed parameters. -/
def Event.renamed (σ : ℕ → ℕ) : Event → Event
  | .evaluate w b => .evaluate (fun p => w (σ p)) b
  | .finished w => .finished fun p => w (σ p)

/-- Spec: the optimised object with renamed parameters. -/
def Obj.renamed (obj : Obj) (σ : ℕ → ℕ) : Obj := { obj with w := fun p => obj.w (σ p), log := obj.log.map (Event.renamed σ) }

/-- Spec: the optimiser with renamed parameters. -/
def MBSGD.renamed (o : MBSGD) (σ : ℕ → ℕ) : MBSGD :=
  { o with gains := fun p => o.gains (σ p), parameters := fun p => o.parameters (σ p), momentum := fun p => o.momentum (σ p) }

theorem lookAhead_renamed (o : MBSGD) (obj : Obj) (σ : ℕ → ℕ) :
    (o.renamed σ).lookAhead (obj.renamed σ) = (o.lookAhead obj).renamed σ := by
  unfold MBSGD.lookAhead
  show (if o.nesterov = true then _ else _) = _
  cases o.nesterov <;> rfl

theorem lookAhead_problem (o : MBSGD) (obj : Obj) : (o.lookAhead obj).problem = obj.problem := by
  unfold MBSGD.lookAhead
  cases o.nesterov <;> rfl

theorem newGains_renamed (o : MBSGD) (g : Vec) (σ : ℕ → ℕ) :
    (o.renamed σ).newGains (fun p => g (σ p)) = fun p => o.newGains g (σ p) := by
  unfold MBSGD.newGains
  by_cases h : o.useGain
  · rw [if_pos h, if_pos (show (o.renamed σ).useGain from h)]
    rfl
  · rw [if_neg h, if_neg (show ¬(o.renamed σ).useGain from h)]
    rfl

theorem scaled_renamed (o : MBSGD) (g : Vec) (σ : ℕ → ℕ) :
    (o.renamed σ).scaled (fun p => g (σ p)) = fun p => o.scaled g (σ p) := by
  unfold MBSGD.scaled
  by_cases h : o.useGain
  · rw [if_pos h, if_pos (show (o.renamed σ).useGain from h), newGains_renamed]
  · rw [if_neg h, if_neg (show ¬(o.renamed σ).useGain from h)]

section

variable {σ : Equiv.Perm ℕ}

theorem result_renamed {obj : Obj} (h : obj.problem.Equivariant σ) (b : List ℕ) :
    (obj.renamed σ).result b = ((obj.result b).1, fun p => (obj.result b).2 (σ p)) :=
  Prod.ext (h.2 obj.calls obj.w b).1 (funext (h.2 obj.calls obj.w b).2)

theorem update_renamed (o : MBSGD) {obj : Obj} (h : obj.problem.Equivariant σ) (b : List ℕ) :
    (o.renamed σ).update (obj.renamed σ) b = ((o.update obj b).1.renamed σ, (o.update obj b).2.renamed σ) := by
  have hres : ((o.lookAhead obj).renamed σ).result b =
      (((o.lookAhead obj).result b).1, fun p => ((o.lookAhead obj).result b).2 (σ p)) :=
    result_renamed (by rw [lookAhead_problem]; exact h) b
  have hlog : ∀ ob : Obj, (ob.renamed σ).evaluate b = (ob.evaluate b).renamed σ := by
    intro ob
    unfold Obj.evaluate Obj.renamed
    simp [Event.renamed]
  unfold MBSGD.update
  simp only [lookAhead_renamed, hres, newGains_renamed, scaled_renamed, hlog]
  refine Prod.ext rfl ?_
  show (if o.nesterov = true then _ else _) = _
  cases o.nesterov <;> rfl

theorem update_problem (o : MBSGD) (obj : Obj) (b : List ℕ) : (o.update obj b).2.problem = obj.problem := by
  unfold MBSGD.update MBSGD.lookAhead Obj.evaluate
  cases o.nesterov <;> rfl

theorem updates_problem (o : MBSGD) (obj : Obj) : ∀ n, (o.updates obj n).2.problem = obj.problem
  | 0 => rfl
  | n + 1 => (update_problem _ _ _).trans (updates_problem o obj n)

theorem updates_renamed (o : MBSGD) {obj : Obj} (h : obj.problem.Equivariant σ) : ∀ n,
    (o.renamed σ).updates (obj.renamed σ) n = ((o.updates obj n).1.renamed σ, (o.updates obj n).2.renamed σ)
  | 0 => rfl
  | n + 1 => by
    rw [MBSGD.updates, updates_renamed o h n]
    exact update_renamed _ (by rw [updates_problem]; exact h) _

theorem ready_renamed (o : MBSGD) (obj : Obj) : (o.renamed σ).ready (obj.renamed σ) = (o.ready obj).renamed σ := by
  unfold MBSGD.ready
  by_cases h : o.iteration < 0
  · rw [if_pos h, if_pos (show (o.renamed σ).iteration < 0 from h)]
    rfl
  · rw [if_neg h, if_neg (show ¬(o.renamed σ).iteration < 0 from h)]

theorem momentumNorm_renamed {o : MBSGD} (hσ : ∀ p, σ p < o.P ↔ p < o.P) : (o.renamed σ).momentumNorm = o.momentumNorm := by
  refine congrArg Real.sqrt ?_
  exact Finset.sum_equiv σ (fun p => by rw [mem_range, mem_range, hσ]; rfl) fun _ _ => rfl

theorem finish_renamed {o : MBSGD} (hσ : ∀ p, σ p < o.P ↔ p < o.P) :
    (o.renamed σ).finish = (o.finish.1, o.finish.2.renamed σ) := by
  have hrun : ({ o.renamed σ with iteration := (o.renamed σ).iteration + 1 } : MBSGD).run ↔
      ({ o with iteration := o.iteration + 1 } : MBSGD).run := by
    have e : ({ o.renamed σ with iteration := (o.renamed σ).iteration + 1 } : MBSGD).momentumNorm =
        ({ o with iteration := o.iteration + 1 } : MBSGD).momentumNorm := momentumNorm_renamed hσ
    unfold MBSGD.run
    rw [e]
    rfl
  unfold MBSGD.finish
  by_cases h : ({ o with iteration := o.iteration + 1 } : MBSGD).run
  · rw [if_pos h, if_pos (hrun.2 h)]
    rfl
  · rw [if_neg h, if_neg fun h' => h (hrun.1 h')]
    rfl

theorem step_renamed {o : MBSGD} {obj : Obj} (h : obj.problem.Equivariant σ) {c : Bool} {o1 : MBSGD} {obj1 : Obj}
    (hs : o.step obj = .ok (c, o1, obj1)) :
    (o.renamed σ).step (obj.renamed σ) = .ok (c, o1.renamed σ, obj1.renamed σ) ∧ obj1.problem = obj.problem := by
  obtain ⟨h1, h2, h3, h4, h5, rfl, rfl, rfl⟩ := step_eq hs
  have hu := updates_renamed (o.ready obj).reshuffle h (o.ready obj).batches
  have hP := (updates_same (o.ready obj).reshuffle obj (o.ready obj).batches).P
  refine ⟨?_, updates_problem _ _ _⟩
  rw [step_ok (by rw [ready_renamed]; exact h1) (by rw [ready_renamed]; exact h2) (by rw [ready_renamed]; exact h3)
    (by rw [ready_renamed]; exact h4) (by rw [ready_renamed]; exact h5), ready_renamed]
  rw [show ((o.ready obj).renamed σ).reshuffle.updates (obj.renamed σ) ((o.ready obj).renamed σ).batches =
    ((o.ready obj).reshuffle.renamed σ).updates (obj.renamed σ) (o.ready obj).batches from rfl, hu, finish_renamed (by
      intro p
      rw [hP]
      show σ p < (o.ready obj).P ↔ p < (o.ready obj).P
      rw [← h5]
      exact h.1 p)]
  refine congrArg Outcome.ok (Prod.ext rfl (Prod.ext rfl ?_))
  unfold Obj.finishedIteration Obj.renamed
  simp [Event.renamed]

/-- **C86 (optimiser)**: if renaming the parameters by `σ` renames the gradient, then every number of steps from the renamed
parameters gives the renamed parameters, with the same answers of `step()`. -/
theorem steps_renamed {o : MBSGD} {obj : Obj} (h : obj.problem.Equivariant σ) {n : ℕ} {c : Bool} {o1 : MBSGD} {obj1 : Obj}
    (hs : Steps o obj n c o1 obj1) : Steps (o.renamed σ) (obj.renamed σ) n c (o1.renamed σ) (obj1.renamed σ) ∧
      obj1.problem = obj.problem := by
  induction hs with
  | zero => exact ⟨.zero, rfl⟩
  | succ _ hstep ih =>
    have := step_renamed (σ := σ) (by rw [ih.2]; exact h) hstep
    exact ⟨.succ ih.1 this.1, this.2.trans ih.2⟩

theorem loop_renamed {signaled : ℕ → Bool} : ∀ (fuel k : ℕ) {o : MBSGD} {obj : Obj}, obj.problem.Equivariant σ →
    ∀ {r : Option (MBSGD × Obj)}, MBSGD.loop signaled fuel k o obj = .ok r →
      MBSGD.loop signaled fuel k (o.renamed σ) (obj.renamed σ) = .ok (r.map fun q => (q.1.renamed σ, q.2.renamed σ))
  | 0, _, _, _, _, _, hl => by cases hl; rfl
  | fuel + 1, k, o, obj, h, r, hl => by
    rw [MBSGD.loop, Outcome.bind_eq_ok] at hl
    obtain ⟨⟨c, o1, obj1⟩, hs, hl⟩ := hl
    obtain ⟨hs', hp⟩ := step_renamed h hs
    rw [MBSGD.loop, hs', Outcome.ok_bind]
    dsimp only at hl ⊢
    split at hl
    · next hc =>
      rw [if_pos hc]
      exact loop_renamed fuel (k + 1) (by rw [hp]; exact h) hl
    · next hc =>
      rw [if_neg hc]
      cases hl
      rfl

/-- **C86 (`optimize`)**: the same for a whole call of `optimize`, ended by a stop criterion or by an interrupt. -/
theorem optimize_renamed {signaled : ℕ → Bool} {fuel : ℕ} {o : MBSGD} {obj : Obj} (h : obj.problem.Equivariant σ)
    {r : Option (MBSGD × Obj)} (hr : o.optimize signaled fuel obj = .ok r) :
    (o.renamed σ).optimize signaled fuel (obj.renamed σ) = .ok (r.map fun q => (q.1.renamed σ, q.2.renamed σ)) :=
  loop_renamed fuel 0 h hr

/-! ## What is equal remains equal -/

/-- The state of an optimiser that does not notice the renaming. -/
structure MBSGD.Sym (o : MBSGD) (σ : ℕ → ℕ) : Prop where
  gains : ∀ p, o.gains (σ p) = o.gains p
  parameters : ∀ p, o.parameters (σ p) = o.parameters p
  momentum : ∀ p, o.momentum (σ p) = o.momentum p

theorem MBSGD.Sym.renamed {o : MBSGD} (h : o.Sym σ) : o.renamed σ = o := by
  unfold MBSGD.renamed
  rw [funext h.gains, funext h.parameters, funext h.momentum]

theorem MBSGD.Sym.of_renamed {o : MBSGD} (h : o.renamed σ = o) : o.Sym σ :=
  ⟨fun p => congrFun (congrArg MBSGD.gains h) p, fun p => congrFun (congrArg MBSGD.parameters h) p,
    fun p => congrFun (congrArg MBSGD.momentum h) p⟩

/-- The log has no influence on the optimiser. -/
theorem update_log (o : MBSGD) (obj : Obj) (b : List ℕ) (log : List Event) :
    (o.update { obj with log := log } b).1 = (o.update obj b).1 ∧
      (o.update { obj with log := log } b).2.w = (o.update obj b).2.w := by
  unfold MBSGD.update MBSGD.lookAhead Obj.evaluate Obj.result
  cases o.nesterov <;> exact ⟨rfl, rfl⟩

theorem update_sym {o : MBSGD} {obj : Obj} (h : obj.problem.Equivariant σ) (ho : o.Sym σ) (hw : ∀ p, obj.w (σ p) = obj.w p)
    (b : List ℕ) : (o.update obj b).1.Sym σ ∧ ∀ p, (o.update obj b).2.w (σ p) = (o.update obj b).2.w p := by
  have key := update_renamed o h b
  have e : obj.renamed σ = { obj with log := obj.log.map (Event.renamed σ) } := by
    unfold Obj.renamed
    rw [funext hw]
  rw [ho.renamed, e] at key
  have hl := update_log o obj b (obj.log.map (Event.renamed σ))
  rw [key] at hl
  exact ⟨.of_renamed hl.1, fun p => congrFun hl.2 p⟩

theorem updates_sym {o : MBSGD} {obj : Obj} (h : obj.problem.Equivariant σ) (ho : o.Sym σ) (hw : ∀ p, obj.w (σ p) = obj.w p) :
    ∀ n, (o.updates obj n).1.Sym σ ∧ ∀ p, (o.updates obj n).2.w (σ p) = (o.updates obj n).2.w p
  | 0 => ⟨ho, hw⟩
  | n + 1 => by
    have ih := updates_sym h ho hw n
    exact update_sym (by rw [updates_problem]; exact h) ih.1 ih.2 _

/-- **C86 (symmetry is never broken)**: if a fresh optimiser starts at parameters that do not change under the renaming, then
after every number of steps the parameters of the object and of the optimiser do not change under the renaming. -/
theorem steps_sym {o : MBSGD} (hn : o.iteration < 0) {obj : Obj} (h : obj.problem.Equivariant σ)
    (hw : ∀ p, obj.w (σ p) = obj.w p) {n : ℕ} {c : Bool} {o1 : MBSGD} {obj1 : Obj} (hs : Steps o obj n c o1 obj1) :
    (∀ p, obj1.w (σ p) = obj1.w p) ∧ (0 < n → ∀ p, (o1.result obj1).1 (σ p) = (o1.result obj1).1 p) := by
  have key : ∀ {n : ℕ} {c : Bool} {o1 : MBSGD} {obj1 : Obj}, Steps o obj n c o1 obj1 →
      obj1.problem = obj.problem ∧ (∀ p, obj1.w (σ p) = obj1.w p) ∧ (0 < n ∨ 0 ≤ o1.iteration → o1.Sym σ) := by
    intro n c o1 obj1 hs
    induction hs with
    | zero => exact ⟨rfl, hw, fun h => by omega⟩
    | @succ n o1 obj1 c o2 obj2 _ hstep ih =>
      obtain ⟨hp, hw1, ho1⟩ := ih
      have hr : (o1.ready obj1).Sym σ := by
        by_cases hi : o1.iteration < 0
        · rw [ready_of_lt hi]
          exact ⟨fun _ => rfl, hw1, fun _ => rfl⟩
        · rw [ready_of_ge (by omega)]
          exact ho1 (Or.inr (by omega))
      obtain ⟨_, _, _, _, _, rfl, rfl, rfl⟩ := step_eq hstep
      have hu := updates_sym (o := (o1.ready obj1).reshuffle) (by rw [hp]; exact h) ⟨hr.gains, hr.parameters, hr.momentum⟩ hw1
        (o1.ready obj1).batches
      refine ⟨(updates_problem _ _ _).trans hp, hu.2, fun _ => ?_⟩
      have := hu.1
      unfold MBSGD.finish
      split <;> exact ⟨this.gains, this.parameters, this.momentum⟩
  obtain ⟨_, h1, h2⟩ := key hs
  exact ⟨h1, fun hn => (h2 (Or.inl hn)).parameters⟩

end

/-! ## Networks -/

section

open NN

variable {D J K : ℕ} {pre post : List Kind} {h : Kind} {bias : Bool} {act : Act} {reg : Reg} (ce : Bool)
  (hh : h.Units J) (hf : FitsFrom D (withHidden pre h K bias act reg post))
  (hv : ∀ k ∈ withHidden pre h K bias act reg post, k.Visible) {net : Net}
  (hn : net = buildNet D (withHidden pre h K bias act reg post) ce)

include hh hf hv hn

theorem net_equivariant {π : Equiv.Perm ℕ} (hπ : ∀ j, π j < J ↔ j < J) {σ : Equiv.Perm ℕ}
    (hσ : net.Exchanges (pre.length + 1) π σ) (mem : Mem) (sc : ℕ → Scratch) (ds : TrainSet) :
    (netProblem net mem sc ds).Equivariant σ := by
  refine ⟨fun p => ?_, fun k w b => ?_⟩
  · show σ p < net.P ↔ p < net.P
    by_cases hp : p < net.P
    · have := hσ.2 p _ (List.getElem?_eq_getElem hp)
      exact ⟨fun _ => hp, fun _ => (List.getElem?_eq_some_iff.1 this).1⟩
    · rw [hσ.1 p (by omega)]
  · have := errorGradient_exchanged ce hh hπ hf hv (by rw [← hn]; exact hσ) mem (sc k) ds b w hn
    exact ⟨this.1, this.2⟩

omit hh hf hv hn in
/-- A fresh optimiser overwrites all its vectors. -/
theorem steps_fresh {o : MBSGD} (ho : o.iteration < 0) {σ : ℕ → ℕ} {obj : Obj} {n : ℕ} (hpos : 0 < n) {c : Bool} {o1 : MBSGD}
    {obj1 : Obj} (hs : Steps (o.renamed σ) obj n c o1 obj1) : Steps o obj n c o1 obj1 := by
  have hstep : o.step obj = (o.renamed σ).step obj := by
    have : o.ready obj = (o.renamed σ).ready obj := by
      rw [ready_of_lt ho, ready_of_lt (show (o.renamed σ).iteration < 0 from ho)]
      rfl
    unfold MBSGD.step
    rw [this]
  induction hs with
  | zero => omega
  | @succ n o2 obj2 c o3 obj3 hs1 hs2 ih =>
    cases n with
    | zero =>
      cases hs1
      exact .succ .zero (hstep.trans hs2)
    | succ n => exact .succ (ih (by omega)) hs2

/-- **C86 (training)**: a network whose hidden units are renamed before the training is, after every number of steps of a fresh
optimiser, the network with renamed hidden units: the answers of `step()` are the same, the parameters are renamed and the
predictions are the same. -/
theorem training_exchanged {π : Equiv.Perm ℕ} (hπ : ∀ j, π j < J ↔ j < J) {σ : Equiv.Perm ℕ}
    (hσ : net.Exchanges (pre.length + 1) π σ) (mem : Mem) (sc : ℕ → Scratch) (ds : TrainSet) {o : MBSGD} (ho : o.iteration < 0)
    (w : Vec) (calls : ℕ) {n : ℕ} (hpos : 0 < n) {c : Bool} {o1 : MBSGD} {obj1 : Obj}
    (hs : Steps o ⟨netProblem net mem sc ds, w, calls, []⟩ n c o1 obj1) :
    ∃ o2 obj2, Steps o ⟨netProblem net mem sc ds, fun p => w (σ p), calls, []⟩ n c o2 obj2 ∧
      (∀ p, (o2.result obj2).1 p = (o1.result obj1).1 (σ p)) ∧ (∀ p, obj2.w p = obj1.w (σ p)) ∧
      ∀ N X m, ∀ j < net.outputs,
        net.predictAll (net.setParameters mem ((List.range net.P).map (o2.result obj2).1)) N X m j =
          net.predictAll (net.setParameters mem ((List.range net.P).map (o1.result obj1).1)) N X m j := by
  have hs' := (steps_renamed (net_equivariant ce hh hf hv hn hπ hσ mem sc ds) hs).1
  exact ⟨_, _, steps_fresh ho hpos hs', fun _ => rfl, fun _ => rfl, fun N X m j hj =>
    predictions_exchanged ce hh hπ hf hv (by rw [← hn]; exact hσ) mem o1.parameters hn N X m hj⟩

/-- **C86 (twins stay twins)**: hidden units that have the same weights when the training starts have the same weights after
every number of steps, for all data, batch sizes, shuffles, learning rates, momentum and gains. -/
theorem twins_forever (mem : Mem) (sc : ℕ → Scratch) (ds : TrainSet) {o : MBSGD} (ho : o.iteration < 0) {a b : ℕ} (ha : a < J)
    (hb : b < J) {w : Vec} (ht : net.Twins (pre.length + 1) w a b) (calls : ℕ) (log : List Event) {n : ℕ} {c : Bool} {o1 : MBSGD}
    {obj1 : Obj} (hs : Steps o ⟨netProblem net mem sc ds, w, calls, log⟩ n c o1 obj1) :
    net.Twins (pre.length + 1) obj1.w a b ∧ (0 < n → net.Twins (pre.length + 1) (o1.result obj1).1 a b) := by
  have hπ := swap_lt_iff ha hb
  obtain ⟨σ, hσ⟩ := exchanges_exists (D := D) (pre := pre) (post := post) (K := K) (bias := bias) (act := act) (reg := reg) ce hh hπ
  rw [← hn] at hσ
  have hnd : net.parameters.Nodup := by rw [hn]; exact parameters_nodup _ _ _
  have := steps_sym ho (net_equivariant ce hh hf hv hn hπ hσ mem sc ds) ((twins_iff hnd hσ w).1 ht) hs
  exact ⟨(twins_iff hnd hσ _).2 this.1, fun h0 => (twins_iff hnd hσ _).2 (this.2 h0)⟩

/-- **C86 (no training without random weights)**: if all weights are equal when the training starts (`initialize` with a
standard deviation of 0), then after every number of steps all units of the hidden layer have the same output for every input:
the layer is as good as one unit. -/
theorem constant_start (mem : Mem) (sc : ℕ → Scratch) (ds : TrainSet) {o : MBSGD} (ho : o.iteration < 0) (v : ℝ) (calls : ℕ)
    (log : List Event) {n : ℕ} {c : Bool} {o1 : MBSGD} {obj1 : Obj}
    (hs : Steps o ⟨netProblem net mem sc ds, fun _ => v, calls, log⟩ n c o1 obj1) (N : ℕ) (x : Batch) (m : ℕ) {a b : ℕ}
    (ha : a < J) (hb : b < J) :
    (h.layer (outFrom D (layersFrom D pre))).forward
        (net.setParameters mem ((List.range net.P).map obj1.w) (pre.length + 1)) N x m a =
      (h.layer (outFrom D (layersFrom D pre))).forward
        (net.setParameters mem ((List.range net.P).map obj1.w) (pre.length + 1)) N x m b :=
  twins_same_output ce hh hf hv hn ha hb
    (twins_forever ce hh hf hv hn mem sc ds ho ha hb (fun _ _ _ => ⟨fun _ _ => rfl, fun _ _ => rfl, fun _ _ => rfl⟩) calls log
      hs).1 mem N x m

end

/-- The hypotheses of `training_exchanged`, `twins_forever` and `constant_start` are met: one step for two hidden units and one
example. -/
example : ∃ (o : MBSGD) (c : Bool) (o1 : MBSGD) (obj1 : Obj), o.iteration < 0 ∧
    (NN.Kind.fullyConnected 2 true .linear ⟨0, 0, 0⟩).Units 2 ∧ NN.FitsFrom 1 NN.twoUnits ∧ (∀ k ∈ NN.twoUnits, k.Visible) ∧
    (NN.buildNet 1 NN.twoUnits false).Twins 1 (fun _ => 0) 0 1 ∧
    Steps o ⟨netProblem (NN.buildNet 1 NN.twoUnits false) (fun _ _ => 0) (fun _ => ⟨fun _ _ => 0, fun _ _ _ => 0⟩)
      ⟨1, fun _ _ => 1, fun _ _ => 2⟩, fun _ => 0, 0, []⟩ 1 c o1 obj1 := by
  have hn : (example1 false 1 5).iteration < 0 := by show (-1 : ℤ) < 0; norm_num
  obtain ⟨c, o', obj', _, hst⟩ := steps_progress (example1_valid false one_pos le_rfl 5) (example1_fair false 1 5) hn
    (obj := ⟨netProblem (NN.buildNet 1 NN.twoUnits false) (fun _ _ => 0) (fun _ => ⟨fun _ _ => 0, fun _ _ _ => 0⟩)
      ⟨1, fun _ _ => 1, fun _ _ => 2⟩, fun _ => 0, 0, []⟩) ⟨by show 0 < 7; norm_num, Nat.one_pos⟩ .zero
  refine ⟨_, c, o', obj', hn, rfl, ⟨trivial, trivial, trivial⟩, ?_, fun _ _ _ => ⟨fun _ _ => rfl, fun _ _ => rfl, fun _ _ => rfl⟩, hst⟩
  intro k hk
  simp only [NN.twoUnits, NN.withHidden, List.nil_append, List.mem_cons, List.not_mem_nil, or_false] at hk
  rcases hk with rfl | rfl <;> trivial

end

end Verif.Opt
