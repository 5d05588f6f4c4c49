import Verif.Props.SignFlipTraining
import Verif.Props.Rescaling

/-!
# C140: the coordinate system of the inputs does not matter for training

Let the inputs of a network that begins with a fully connected layer be turned or mirrored, or mapped into a space with more dimensions without changing
lengths and angles.  If the weights of the first layer are turned in the same way, the network gives the same outputs and errors, its gradient is the turned
gradient, and gradient descent (with momentum, without gains for single parameters) keeps the networks equal forever, for all data, mini-batches and
schedules, with weight decay and with bounded norms.  Neither inputs that are stretched nor gains for single parameters are harmless.
-/

namespace Verif.Opt

open Finset

noncomputable section

/-! ## Specification: two problems that differ by a linear map -/

/-- Spec: `R` is a linear map that keeps lengths; it takes `A` to `B`, that is, parameters to parameters with the same value and gradients to
gradients. -/
structure Problem.TurnsTo (A B : Problem) (R : Vec → Vec) : Prop where
  linear : ∀ (a b : ℝ) (v w : Vec), R (fun p => a * v p + b * w p) = fun p => a * R v p + b * R w p
  examples : B.examples = A.examples
  positive : 0 < A.dimension → 0 < B.dimension
  norm : ∀ w, ∑ p ∈ range B.dimension, R w p ^ 2 = ∑ p ∈ range A.dimension, w p ^ 2
  value : ∀ k w b, (B.errorGradient k (R w) b).1 = (A.errorGradient k w b).1
  gradient : ∀ k w b, (B.errorGradient k (R w) b).2 = R (A.errorGradient k w b).2

/-- Spec: a turned event. -/
def Event.turned (R : Vec → Vec) : Event → Event
  | .evaluate w b => .evaluate (R w) b
  | .finished w => .finished (R w)

/-- Spec: the other problem with turned parameters. -/
def Obj.turned (obj : Obj) (B : Problem) (R : Vec → Vec) : Obj := ⟨B, R obj.w, obj.calls, obj.log.map (Event.turned R)⟩

/-- Spec: the optimiser with turned vectors. -/
def MBSGD.turned (o : MBSGD) (B : Problem) (R : Vec → Vec) : MBSGD :=
  { o with parameters := R o.parameters, momentum := R o.momentum, P := B.dimension }

section

variable {A B : Problem} {R : Vec → Vec}

theorem lookAhead_turned (hT : A.TurnsTo B R) (o : MBSGD) (obj : Obj) :
    (o.turned B R).lookAhead (obj.turned B R) = (o.lookAhead obj).turned B R := by
  unfold MBSGD.lookAhead
  show (if o.nesterov = true then _ else _) = _
  cases o.nesterov
  · rfl
  · have e := hT.linear 1 o.eta o.parameters o.momentum
    simp only [one_mul] at e
    show Obj.mk _ (fun p => R o.parameters p + o.eta * R o.momentum p) _ _ = _
    rw [← e]
    rfl

theorem move_turned (hT : A.TurnsTo B R) (o : MBSGD) (g : Vec) : (o.turned B R).move (R g) = (o.move g).turned B R := by
  have e1 := hT.linear o.eta (-o.alpha) o.momentum g
  have e2 := hT.linear 1 1 o.parameters fun p => o.eta * o.momentum p + -o.alpha * g p
  have s : (fun p => o.eta * o.momentum p - o.alpha * g p) = fun p => o.eta * o.momentum p + -o.alpha * g p := by
    funext p; ring
  have s2 : (fun p => o.parameters p + (o.eta * o.momentum p - o.alpha * g p)) =
      fun p => 1 * o.parameters p + 1 * (o.eta * o.momentum p + -o.alpha * g p) := by
    funext p; ring
  unfold MBSGD.move MBSGD.turned
  congr 1
  · dsimp only
    rw [s2, e2, e1]
    funext p; ring
  · dsimp only
    rw [s, e1]
    funext p; ring

theorem update_turned (hT : A.TurnsTo B R) {o : MBSGD} (hg : ¬o.useGain) {obj : Obj} (h : obj.problem = A) (b : List ℕ) :
    (o.turned B R).update (obj.turned B R) b = ((o.update obj b).1.turned B R, (o.update obj b).2.turned B R) := by
  have hg' : ¬(o.turned B R).useGain := hg
  have hla : (o.lookAhead obj).problem = A := by rw [lookAhead_problem, h]
  have hres : ((o.lookAhead obj).turned B R).result b = (((o.lookAhead obj).result b).1, R ((o.lookAhead obj).result b).2) := by
    unfold Obj.result
    rw [hla]
    exact Prod.ext (hT.value _ _ _) (hT.gradient _ _ _)
  have hlog : ∀ ob : Obj, (ob.turned B R).evaluate b = (ob.evaluate b).turned B R := by
    intro ob
    unfold Obj.evaluate Obj.turned
    simp [Event.turned]
  unfold MBSGD.update
  simp only [lookAhead_turned hT, hres, MBSGD.scaled, MBSGD.newGains, if_neg hg, if_neg hg', move_turned hT, hlog]
  refine Prod.ext rfl ?_
  show (if o.nesterov = true then _ else _) = _
  cases o.nesterov <;> rfl

theorem update_useGain (o : MBSGD) (obj : Obj) (b : List ℕ) : (o.update obj b).1.useGain ↔ o.useGain := Iff.rfl

theorem updates_useGain (o : MBSGD) (obj : Obj) : ∀ n, (o.updates obj n).1.useGain ↔ o.useGain
  | 0 => Iff.rfl
  | n + 1 => (update_useGain _ _ _).trans (updates_useGain o obj n)

theorem updates_turned (hT : A.TurnsTo B R) {o : MBSGD} (hg : ¬o.useGain) {obj : Obj} (h : obj.problem = A) : ∀ n,
    (o.turned B R).updates (obj.turned B R) n = ((o.updates obj n).1.turned B R, (o.updates obj n).2.turned B R)
  | 0 => rfl
  | n + 1 => by
    rw [MBSGD.updates, updates_turned hT hg h n]
    exact update_turned hT (fun h' => hg ((updates_useGain _ _ _).1 h')) (by rw [updates_problem]; exact h) _

theorem TurnsTo.zero (hT : A.TurnsTo B R) : R (fun _ => 0) = fun _ => 0 := by
  have := hT.linear 0 0 (fun _ => 0) (fun _ => 0)
  simpa using this

theorem ready_turned (hT : A.TurnsTo B R) (o : MBSGD) {obj : Obj} (h : obj.problem = A) :
    (o.turned B R).ready (obj.turned B R) = (o.ready obj).turned B R := by
  unfold MBSGD.ready
  by_cases hi : o.iteration < 0
  · rw [if_pos hi, if_pos (show (o.turned B R).iteration < 0 from hi)]
    unfold MBSGD.init MBSGD.turned Obj.turned
    simp only [hT.examples, h, TurnsTo.zero hT]
  · rw [if_neg hi, if_neg (show ¬(o.turned B R).iteration < 0 from hi)]

theorem updates_P (o : MBSGD) (obj : Obj) : ∀ n, (o.updates obj n).1.P = o.P
  | 0 => rfl
  | n + 1 => updates_P o obj n

theorem finish_turned (hT : A.TurnsTo B R) {o : MBSGD} (hP : o.P = A.dimension) :
    (o.turned B R).finish = (o.finish.1, o.finish.2.turned B R) := by
  have e : ({ o.turned B R with iteration := (o.turned B R).iteration + 1 } : MBSGD).momentumNorm =
      ({ o with iteration := o.iteration + 1 } : MBSGD).momentumNorm := by
    show Real.sqrt (∑ p ∈ range B.dimension, R o.momentum p ^ 2) = Real.sqrt (∑ p ∈ range o.P, o.momentum p ^ 2)
    rw [hT.norm, hP]
  have hrun : ({ o.turned B R with iteration := (o.turned B R).iteration + 1 } : MBSGD).run ↔
      ({ o with iteration := o.iteration + 1 } : MBSGD).run := by
    unfold MBSGD.run
    rw [e]
    rfl
  unfold MBSGD.finish
  by_cases h : ({ o with iteration := o.iteration + 1 } : MBSGD).run
  · rw [if_pos h, if_pos (hrun.2 h)]
    rfl
  · rw [if_neg h, if_neg fun h' => h (hrun.1 h')]
    rfl

theorem finish_useGain (o : MBSGD) : o.finish.2.useGain ↔ o.useGain := by
  unfold MBSGD.finish
  split <;> exact Iff.rfl

theorem ready_useGain (o : MBSGD) (obj : Obj) : (o.ready obj).useGain ↔ o.useGain := by
  unfold MBSGD.ready
  split <;> exact Iff.rfl

theorem step_turned (hT : A.TurnsTo B R) {o : MBSGD} (hg : ¬o.useGain) {obj : Obj} (h : obj.problem = A) {c : Bool} {o1 : MBSGD} {obj1 : Obj}
    (hs : o.step obj = .ok (c, o1, obj1)) :
    (o.turned B R).step (obj.turned B R) = .ok (c, o1.turned B R, obj1.turned B R) ∧ obj1.problem = A ∧ ¬o1.useGain := by
  obtain ⟨h1, h2, h3, h4, h5, rfl, rfl, rfl⟩ := step_eq hs
  have hg1 : ¬(o.ready obj).reshuffle.useGain := fun h' => hg ((ready_useGain o obj).1 h')
  have hu := updates_turned hT hg1 h (o.ready obj).batches
  refine ⟨?_, (updates_problem _ _ _).trans h, fun h' => hg1 ((updates_useGain _ _ _).1 ((finish_useGain _).1 h'))⟩
  have hP : (o.ready obj).P = A.dimension := by rw [← h5, h]
  rw [step_ok (by rw [ready_turned hT o h]; exact hT.positive (by rw [← hP]; exact h1)) (by rw [ready_turned hT o h]; exact h2)
    (by rw [ready_turned hT o h]; exact h3) (by rw [ready_turned hT o h]; exact h4) (by rw [ready_turned hT o h]; rfl), ready_turned hT o h]
  rw [show ((o.ready obj).turned B R).reshuffle.updates (obj.turned B R) ((o.ready obj).turned B R).batches =
    ((o.ready obj).reshuffle.turned B R).updates (obj.turned B R) (o.ready obj).batches from rfl, hu,
    finish_turned hT (o := ((o.ready obj).reshuffle.updates obj (o.ready obj).batches).1) ((updates_P _ _ _).trans hP)]
  refine congrArg Outcome.ok (Prod.ext rfl (Prod.ext rfl ?_))
  unfold Obj.finishedIteration Obj.turned
  simp [Event.turned]

/-- **C140 (optimiser)**: gradient descent with momentum commutes with every linear map that keeps lengths, takes parameters to parameters with
the same value and gradients to gradients: after every number of steps the answers of `step()` are the same and all vectors are turned. -/
theorem steps_turned (hT : A.TurnsTo B R) {o : MBSGD} (hg : ¬o.useGain) {obj : Obj} (h : obj.problem = A) {n : ℕ} {c : Bool} {o1 : MBSGD}
    {obj1 : Obj} (hs : Steps o obj n c o1 obj1) : Steps (o.turned B R) (obj.turned B R) n c (o1.turned B R) (obj1.turned B R) ∧
      obj1.problem = A ∧ ¬o1.useGain := by
  induction hs with
  | zero => exact ⟨.zero, h, hg⟩
  | succ _ hstep ih =>
    have := step_turned hT ih.2.2 ih.2.1 hstep
    exact ⟨.succ ih.1 this.1, this.2⟩

theorem loop_turned (hT : A.TurnsTo B R) {signaled : ℕ → Bool} : ∀ (fuel k : ℕ) {o : MBSGD} {obj : Obj}, ¬o.useGain → obj.problem = A →
    ∀ {r : Option (MBSGD × Obj)}, MBSGD.loop signaled fuel k o obj = .ok r →
      MBSGD.loop signaled fuel k (o.turned B R) (obj.turned B R) = .ok (r.map fun q => (q.1.turned B R, q.2.turned B R))
  | 0, _, _, _, _, _, _, hl => by cases hl; rfl
  | fuel + 1, k, o, obj, hg, h, r, hl => by
    rw [MBSGD.loop, Outcome.bind_eq_ok] at hl
    obtain ⟨⟨c, o1, obj1⟩, hs, hl⟩ := hl
    obtain ⟨hs', hp, hg'⟩ := step_turned hT hg h hs
    rw [MBSGD.loop, hs', Outcome.ok_bind]
    dsimp only at hl ⊢
    split at hl
    · next hc =>
      rw [if_pos hc]
      exact loop_turned hT fuel (k + 1) hg' hp hl
    · next hc =>
      rw [if_neg hc]
      cases hl
      rfl

/-- **C140 (`optimize`)**: the same for a whole call of `optimize`, ended by a stop criterion or by an interrupt. -/
theorem optimize_turned (hT : A.TurnsTo B R) {signaled : ℕ → Bool} {fuel : ℕ} {o : MBSGD} (hg : ¬o.useGain) {obj : Obj} (h : obj.problem = A)
    {r : Option (MBSGD × Obj)} (hr : o.optimize signaled fuel obj = .ok r) :
    (o.turned B R).optimize signaled fuel (obj.turned B R) = .ok (r.map fun q => (q.1.turned B R, q.2.turned B R)) :=
  loop_turned hT fuel 0 hg h hr

end

end

end Verif.Opt

namespace Verif.NN

open Finset Verif.Opt

noncomputable section

/-! ## Specification: turned inputs -/

/-- Spec: the columns of `Q` (`D'` rows, `D` columns) have length 1 and are perpendicular. -/
def Isometric (D D' : ℕ) (Q : Batch) : Prop :=
  ∀ d < D, ∀ e < D, ∑ i ∈ range D', Q i d * Q i e = if d = e then 1 else 0

/-- Spec: `Q * x` -/
def turnVec (D : ℕ) (Q : Batch) (x : ℕ → ℝ) : ℕ → ℝ := fun i => ∑ d ∈ range D, Q i d * x d

/-- Spec: the training set with turned inputs. -/
def TrainSet.turned (ds : TrainSet) (D : ℕ) (Q : Batch) : TrainSet := { ds with inst := fun n => turnVec D Q (ds.inst n) }

/-- Spec: the weights of every unit of layer 1 are turned, all other weights remain. -/
def turnMem (D : ℕ) (Q : Batch) (mem : Mem) : Mem
  | 1, .w [j, i] => turnVec D Q (fun d => mem 1 (.w [j, d])) i
  | l, s => mem l s

/-- Spec: the same for parameter vectors of a network `net` and the network `net'` for the turned inputs. -/
def turnParams (net net' : Net) (D : ℕ) (Q : Batch) (w : Vec) : Vec := fun p =>
  (net'.parameters[p]?).elim 0 fun q => turnMem D Q (fun l s => w (net.parameters.idxOf (l, s))) q.1 q.2

/-- Orthogonal matrices turn (or mirror). -/
theorem isometric_of_orthogonal {D : ℕ} (U : Matrix (Fin D) (Fin D) ℝ) (hU : U.transpose * U = 1) :
    Isometric D D fun i d => if h : i < D ∧ d < D then U ⟨i, h.1⟩ ⟨d, h.2⟩ else 0 := by
  intro d hd e he
  have := congrFun (congrFun hU ⟨d, hd⟩) ⟨e, he⟩
  rw [Matrix.mul_apply, Matrix.one_apply] at this
  rw [sum_range]
  simp only [Fin.is_lt, hd, he, and_self, dif_pos]
  simpa [Matrix.transpose_apply] using this

/-- Features that are always zero are harmless. -/
theorem isometric_padding {D D' : ℕ} (h : D ≤ D') : Isometric D D' fun i d => if i = d then 1 else 0 := by
  intro d hd e _
  simp only [ite_mul, one_mul, zero_mul]
  rw [sum_ite_eq' (range D') d fun i => if i = e then (1 : ℝ) else 0, if_pos (mem_range.2 (by omega))]

theorem turnVec_padding (D : ℕ) (x : ℕ → ℝ) (i : ℕ) : turnVec D (fun i d => if i = d then 1 else 0) x i = if i < D then x i else 0 := by
  simp [turnVec]

/-- One feature that is measured twice, each time divided by the root of two. -/
theorem isometric_twice : Isometric 1 2 fun _ _ => (Real.sqrt 2)⁻¹ := by
  intro d hd e he
  have h : (Real.sqrt 2)⁻¹ * (Real.sqrt 2)⁻¹ = (2 : ℝ)⁻¹ := by
    rw [← mul_inv, Real.mul_self_sqrt (by norm_num)]
  rw [if_pos (by omega), sum_const, card_range, h]
  norm_num

/-! ## Layer 1 -/

section

variable {D D' : ℕ} {Q : Batch}

theorem Isometric.inner (hQ : Isometric D D' Q) (x y : ℕ → ℝ) :
    ∑ i ∈ range D', turnVec D Q x i * turnVec D Q y i = ∑ d ∈ range D, x d * y d := by
  calc ∑ i ∈ range D', turnVec D Q x i * turnVec D Q y i
      = ∑ i ∈ range D', ∑ d ∈ range D, ∑ e ∈ range D, x d * y e * (Q i d * Q i e) := by
        refine sum_congr rfl fun i _ => ?_
        rw [turnVec, turnVec, sum_mul_sum]
        exact sum_congr rfl fun d _ => sum_congr rfl fun e _ => by ring
    _ = ∑ d ∈ range D, ∑ e ∈ range D, x d * y e * ∑ i ∈ range D', Q i d * Q i e := by
        rw [sum_comm]
        refine sum_congr rfl fun d _ => ?_
        rw [sum_comm]
        exact sum_congr rfl fun e _ => by rw [mul_sum]
    _ = ∑ d ∈ range D, x d * y d := by
        refine sum_congr rfl fun d hd => ?_
        rw [sum_eq_single d]
        · rw [hQ d (mem_range.1 hd) d (mem_range.1 hd), if_pos rfl, mul_one]
        · intro e he hne
          rw [hQ d (mem_range.1 hd) e (mem_range.1 he), if_neg (Ne.symm hne), mul_zero]
        · exact fun h => absurd hd h

theorem Isometric.sq (hQ : Isometric D D' Q) (x : ℕ → ℝ) : ∑ i ∈ range D', turnVec D Q x i ^ 2 = ∑ d ∈ range D, x d ^ 2 := by
  simp only [pow_two]
  exact hQ.inner x x

/-- The weights `mem'` are the turned weights `mem`, as far as they are used. -/
structure Turned (D D' : ℕ) (Q : Batch) (mem mem' : Mem) : Prop where
  weights : ∀ j, ∀ i < D', mem' 1 (.w [j, i]) = turnVec D Q (fun d => mem 1 (.w [j, d])) i
  biases : ∀ j, mem' 1 (.b [j]) = mem 1 (.b [j])
  other : ∀ l, l ≠ 1 → mem' l = mem l

variable {J : ℕ} {bias : Bool} {act : Act} {reg : Reg} {mem mem' : Mem} (hQ : Isometric D D' Q) (hm : Turned D D' Q mem mem')

include hQ hm

theorem forward_turned (N : ℕ) (X : Batch) :
    (fullyConnected D' J bias act reg).forward (mem' 1) N (fun n => turnVec D Q (X n)) =
      (fullyConnected D J bias act reg).forward (mem 1) N X := by
  funext n j
  show act.apply (∑ i ∈ range D', turnVec D Q (X n) i * mem' 1 (.w [j, i]) + if bias then mem' 1 (.b [j]) else 0) =
    act.apply (∑ i ∈ range D, X n i * mem 1 (.w [j, i]) + if bias then mem 1 (.b [j]) else 0)
  rw [hm.biases, ← hQ.inner (X n) fun d => mem 1 (.w [j, d])]
  congr 2
  exact sum_congr rfl fun i hi => by rw [hm.weights j i (mem_range.1 hi)]

theorem derivs_turned (h1 : reg.l1 ≤ 0) (N : ℕ) (X e : Batch) :
    (∀ j, ∀ i < D', (fullyConnected D' J bias act reg).derivs (mem' 1) N (fun n => turnVec D Q (X n)) e (.w [j, i]) =
      turnVec D Q (fun d => (fullyConnected D J bias act reg).derivs (mem 1) N X e (.w [j, d])) i) ∧
    ∀ j, (fullyConnected D' J bias act reg).derivs (mem' 1) N (fun n => turnVec D Q (X n)) e (.b [j]) =
      (fullyConnected D J bias act reg).derivs (mem 1) N X e (.b [j]) := by
  have hf := forward_turned (J := J) (bias := bias) (act := act) (reg := reg) hQ hm N X
  constructor
  · intro j i hi
    show ∑ n ∈ range N, deltas act ((fullyConnected D' J bias act reg).forward (mem' 1) N fun n => turnVec D Q (X n)) e n j *
        turnVec D Q (X n) i + reg.deriv (mem' 1 (.w [j, i])) =
      ∑ d ∈ range D, Q i d * (∑ n ∈ range N, deltas act ((fullyConnected D J bias act reg).forward (mem 1) N X) e n j * X n d +
        reg.deriv (mem 1 (.w [j, d])))
    rw [hf, hm.weights j i hi]
    simp only [mul_add, sum_add_distrib]
    congr 1
    · simp only [turnVec, mul_sum]
      rw [sum_comm]
      exact sum_congr rfl fun d _ => sum_congr rfl fun n _ => by ring
    · simp only [Reg.deriv, if_neg (not_lt.2 h1), zero_add]
      split
      · simp only [turnVec, mul_sum]
        exact sum_congr rfl fun d _ => by ring
      · simp
  · intro j
    show ∑ n ∈ range N, deltas act ((fullyConnected D' J bias act reg).forward (mem' 1) N fun n => turnVec D Q (X n)) e n j =
      ∑ n ∈ range N, deltas act ((fullyConnected D J bias act reg).forward (mem 1) N X) e n j
    rw [hf]

theorem regError_turned (h1 : reg.l1 ≤ 0) :
    (fullyConnected D' J bias act reg).regError (mem' 1) = (fullyConnected D J bias act reg).regError (mem 1) := by
  show reg.error _ (∑ j ∈ range J, ∑ i ∈ range D', mem' 1 (.w [j, i]) ^ 2) = reg.error _ (∑ j ∈ range J, ∑ i ∈ range D, mem 1 (.w [j, i]) ^ 2)
  have : ∑ j ∈ range J, ∑ i ∈ range D', mem' 1 (.w [j, i]) ^ 2 = ∑ j ∈ range J, ∑ i ∈ range D, mem 1 (.w [j, i]) ^ 2 := by
    refine sum_congr rfl fun j _ => ?_
    rw [← hQ.sq fun d => mem 1 (.w [j, d])]
    exact sum_congr rfl fun i hi => by rw [hm.weights j i (mem_range.1 hi)]
  rw [this, Reg.error, Reg.error, if_neg (not_lt.2 h1), if_neg (not_lt.2 h1)]

/-- The bound of the norm is used for the same units and shortens their weights by the same factors. -/
theorem updated_turned (ls : List Layer) :
    Turned D D' Q (updatedFrom 0 (inputLayer D :: fullyConnected D J bias act reg :: ls) mem)
      (updatedFrom 0 (inputLayer D' :: fullyConnected D' J bias act reg :: ls) mem') := by
  have key : ∀ (L : List Layer) (m : Mem) l, updatedFrom 0 L m l = if h : l < L.length then L[l].updated (m l) else m l := by
    intro L m l
    split
    · next h => simpa using updatedFrom_getElem (k := 0) (mem := m) h
    · next h => exact updatedFrom_ge (by omega)
  have k1 : updatedFrom 0 (inputLayer D :: fullyConnected D J bias act reg :: ls) mem 1 = maxNormUpdate D reg.maxNorm (mem 1) := by
    rw [key, dif_pos (by simp)]
    rfl
  have k1' : updatedFrom 0 (inputLayer D' :: fullyConnected D' J bias act reg :: ls) mem' 1 = maxNormUpdate D' reg.maxNorm (mem' 1) := by
    rw [key, dif_pos (by simp)]
    rfl
  refine ⟨fun j i hi => ?_, fun j => ?_, fun l hl => ?_⟩
  · rw [k1, k1']
    have hs : ∑ i ∈ range D', mem' 1 (.w [j, i]) ^ 2 = ∑ i ∈ range D, mem 1 (.w [j, i]) ^ 2 := by
      rw [← hQ.sq fun d => mem 1 (.w [j, d])]
      exact sum_congr rfl fun i hi => by rw [hm.weights j i (mem_range.1 hi)]
    show (if 0 < reg.maxNorm ∧ reg.maxNorm < ∑ i' ∈ range D', mem' 1 (.w [j, i']) ^ 2 then
        mem' 1 (.w [j, i]) * Real.sqrt (reg.maxNorm / ∑ i' ∈ range D', mem' 1 (.w [j, i']) ^ 2) else mem' 1 (.w [j, i])) =
      ∑ d ∈ range D, Q i d * (if 0 < reg.maxNorm ∧ reg.maxNorm < ∑ i' ∈ range D, mem 1 (.w [j, i']) ^ 2 then
        mem 1 (.w [j, d]) * Real.sqrt (reg.maxNorm / ∑ i' ∈ range D, mem 1 (.w [j, i']) ^ 2) else mem 1 (.w [j, d]))
    rw [hs, hm.weights j i hi]
    split
    · rw [turnVec, sum_mul]
      exact sum_congr rfl fun d _ => by ring
    · rfl
  · rw [k1, k1']
    exact hm.biases j
  · rw [key, key]
    match l with
    | 0 =>
      rw [dif_pos (by simp), dif_pos (by simp)]
      exact hm.other 0 hl
    | 1 => exact absurd rfl hl
    | l + 2 =>
      by_cases h : l < ls.length
      · rw [dif_pos (by simpa using h), dif_pos (by simpa using h), hm.other _ hl]
        rfl
      · rw [dif_neg (by simpa using h), dif_neg (by simpa using h), hm.other _ hl]

end

/-! ## Networks -/

section

variable {D D' J : ℕ} {bias ce : Bool} {act : Act} {reg : Reg} {ks : List Kind} {Q : Batch} {net net' : Net}
  (hn : net = buildNet D (.fullyConnected J bias act reg :: ks) ce)
  (hn' : net' = buildNet D' (.fullyConnected J bias act reg :: ks) ce)

include hn hn'

theorem layers_turned : net.layers = inputLayer D :: fullyConnected D J bias act reg :: layersFrom J ks ∧
    net'.layers = inputLayer D' :: fullyConnected D' J bias act reg :: layersFrom J ks := by
  subst hn hn'
  exact ⟨rfl, rfl⟩

theorem outputs_turned : net'.outputs = net.outputs := by
  rw [hn, hn', outputs_buildNet, outputs_buildNet]
  rfl

theorem params_turned : net.parameters = (denseSlots D J bias).map (fun s => (1, s)) ++ locsFrom 2 (layersFrom J ks) ∧
    net'.parameters = (denseSlots D' J bias).map (fun s => (1, s)) ++ locsFrom 2 (layersFrom J ks) := by
  subst hn hn'
  exact ⟨rfl, rfl⟩

omit hn hn' in
theorem denseSlots_mem {I : ℕ} : ∀ s, s ∈ denseSlots I J bias ↔ (∃ j < J, ∃ i < I, s = .w [j, i]) ∨ (bias = true ∧ ∃ j < J, s = .b [j]) := by
  intro s
  simp only [denseSlots, List.mem_flatMap, List.mem_range, List.mem_append, List.mem_map]
  constructor
  · rintro ⟨j, hj, ⟨i, hi, rfl⟩ | h⟩
    · exact Or.inl ⟨j, hj, i, hi, rfl⟩
    · cases bias
      · simp at h
      · exact Or.inr ⟨rfl, j, hj, by simpa using h⟩
  · rintro (⟨j, hj, i, hi, rfl⟩ | ⟨rfl, j, hj, rfl⟩)
    · exact ⟨j, hj, Or.inl ⟨i, hi, rfl⟩⟩
    · exact ⟨j, hj, Or.inr (by simp)⟩

omit hn hn' in
theorem locs_ge : ∀ (ls : List Layer) (k : ℕ), ∀ q ∈ locsFrom k ls, k ≤ q.1
  | [], _, _, h => by cases h
  | l :: ls, k, q, h => by
    rw [locsFrom, List.mem_append, List.mem_map] at h
    rcases h with ⟨s, _, rfl⟩ | h
    · exact le_rfl
    · have := locs_ge ls (k + 1) q h
      omega

/-- Which numbers are parameters. -/
theorem mem_turned : ∀ q : Loc, (∀ j i, q ≠ (1, .w [j, i])) → (q ∈ net'.parameters ↔ q ∈ net.parameters) := by
  intro q hq
  rw [(params_turned hn hn').1, (params_turned hn hn').2, List.mem_append, List.mem_append, List.mem_map, List.mem_map]
  refine or_congr ⟨?_, ?_⟩ Iff.rfl
  · rintro ⟨s, hs, rfl⟩
    rcases (denseSlots_mem s).1 hs with ⟨j, _, i, _, rfl⟩ | h
    · exact absurd rfl (hq j i)
    · exact ⟨s, (denseSlots_mem s).2 (Or.inr h), rfl⟩
  · rintro ⟨s, hs, rfl⟩
    rcases (denseSlots_mem s).1 hs with ⟨j, _, i, _, rfl⟩ | h
    · exact absurd rfl (hq j i)
    · exact ⟨s, (denseSlots_mem s).2 (Or.inr h), rfl⟩

theorem mem_first (j i : ℕ) : ((1, .w [j, i]) ∈ net.parameters ↔ j < J ∧ i < D) ∧ ((1, .w [j, i]) ∈ net'.parameters ↔ j < J ∧ i < D') := by
  have key : ∀ I, ((1, Slot.w [j, i]) ∈ (denseSlots I J bias).map (fun s => (1, s)) ++ locsFrom 2 (layersFrom J ks)) ↔ j < J ∧ i < I := by
    intro I
    rw [List.mem_append, List.mem_map]
    constructor
    · rintro (⟨s, hs, e⟩ | h)
      · cases e
        rcases (denseSlots_mem _).1 hs with ⟨j', hj, i', hi, e⟩ | ⟨_, j', _, e⟩
        · cases e
          exact ⟨hj, hi⟩
        · cases e
      · have := locs_ge _ _ _ h
        simp at this
    · rintro ⟨hj, hi⟩
      exact Or.inl ⟨_, (denseSlots_mem _).2 (Or.inl ⟨j, hj, i, hi, rfl⟩), rfl⟩
  rw [(params_turned hn hn').1, (params_turned hn hn').2]
  exact ⟨key D, key D'⟩

omit hn hn' in
theorem turnMem_other (mem : Mem) {q : Loc} (hq : ∀ j i, q ≠ (1, .w [j, i])) : turnMem D Q mem q.1 q.2 = mem q.1 q.2 := by
  unfold turnMem
  split
  · next j i h1 h2 => exact absurd (Prod.ext h1 h2) (hq j i)
  · rfl

omit hn hn' in
/-- A parameter after `writeAll` -/
theorem writeAll_at {N : Net} (hnd : N.parameters.Nodup) (mem : Mem) (w : Vec) {q : Loc} (hq : q ∈ N.parameters) :
    mem.writeAll N.parameters ((List.range N.P).map w) q.1 q.2 = w (N.parameters.idxOf q) := by
  have hlt := List.idxOf_lt_length_iff.2 hq
  have := writeAll_getElem (θ := (List.range N.P).map w) (mem := mem) hnd hlt (by simpa [Net.P] using hlt)
  rw [List.getElem_idxOf] at this
  rw [this]
  simp

omit hn hn' in
theorem turnParams_at (w : Vec) {q : Loc} (hq : q ∈ net'.parameters) :
    turnParams net net' D Q w (net'.parameters.idxOf q) = turnMem D Q (fun l s => w (net.parameters.idxOf (l, s))) q.1 q.2 := by
  have hlt := List.idxOf_lt_length_iff.2 hq
  rw [turnParams, List.getElem?_eq_getElem hlt, List.getElem_idxOf]
  rfl

/-- The turned parameters are written to the turned weights. -/
theorem setParameters_turned (hQ : Isometric D D' Q) (mem : Mem) (w : Vec) :
    Turned D D' Q (net.setParameters mem ((List.range net.P).map w))
      (net'.setParameters (turnMem D Q mem) ((List.range net'.P).map (turnParams net net' D Q w))) := by
  rw [Net.setParameters, Net.setParameters, (layers_turned hn hn').1, (layers_turned hn hn').2]
  have hnd : net.parameters.Nodup := by rw [hn]; exact parameters_nodup D _ ce
  have hnd' : net'.parameters.Nodup := by rw [hn']; exact parameters_nodup D' _ ce
  refine updated_turned hQ ?_ _
  have other : ∀ q : Loc, (∀ j i, q ≠ (1, .w [j, i])) →
      (turnMem D Q mem).writeAll net'.parameters ((List.range net'.P).map (turnParams net net' D Q w)) q.1 q.2 =
        mem.writeAll net.parameters ((List.range net.P).map w) q.1 q.2 := by
    intro q hq
    by_cases hp : q ∈ net.parameters
    · have hp' := (mem_turned hn hn' q hq).2 hp
      rw [writeAll_at hnd _ _ hp, writeAll_at hnd' _ _ hp', turnParams_at w hp', turnMem_other _ hq]
    · have hp' := fun h => hp ((mem_turned hn hn' q hq).1 h)
      rw [writeAll_of_notMem hp, writeAll_of_notMem hp', turnMem_other _ hq]
  refine ⟨fun j i hi => ?_, fun j => other (1, .b [j]) (by simp), fun l hl => funext fun s => other (l, s) fun j i e => hl (Prod.ext_iff.1 e).1⟩
  by_cases hj : j < J
  · have hp' := (mem_first hn hn' j i).2.2 ⟨hj, hi⟩
    rw [writeAll_at (q := (1, .w [j, i])) hnd' _ _ hp', turnParams_at w hp']
    show ∑ d ∈ range D, _ = ∑ d ∈ range D, _
    refine sum_congr rfl fun d hd => ?_
    exact congrArg (Q i d * ·) (writeAll_at (q := (1, .w [j, d])) hnd mem w ((mem_first hn hn' j d).1.2 ⟨hj, mem_range.1 hd⟩)).symm
  · rw [writeAll_of_notMem (p := (1, .w [j, i])) fun h => hj ((mem_first hn hn' j i).2.1 h).1]
    show ∑ d ∈ range D, _ = ∑ d ∈ range D, _
    refine sum_congr rfl fun d hd => ?_
    exact congrArg (Q i d * ·) (writeAll_of_notMem (p := (1, .w [j, d])) fun h => hj ((mem_first hn hn' j d).1.1 h).1).symm

section

variable {mem mem' : Mem} (hQ : Isometric D D' Q) (hm : Turned D D' Q mem mem')

include hQ hm

theorem output_turned (N : ℕ) (X : Batch) : net'.output mem' N (fun n => turnVec D Q (X n)) = net.output mem N X := by
  have hce : net'.ce = net.ce := by subst hn hn'; rfl
  have ha : net'.activations mem' N (fun n => turnVec D Q (X n)) = net.activations mem N X := by
    rw [Net.activations, Net.activations, (layers_turned hn hn').1, (layers_turned hn hn').2, forwardFrom, forwardFrom, forwardFrom, forwardFrom]
    show forwardFrom mem' N 2 _ ((fullyConnected D' J bias act reg).forward (mem' 1) N fun n => turnVec D Q (X n)) =
      forwardFrom mem N 2 _ ((fullyConnected D J bias act reg).forward (mem 1) N X)
    rw [forward_turned hQ hm]
    exact forwardFrom_agree _ _ _ fun l h _ => hm.other l (by omega)
  rw [Net.output, Net.output, hce, ha, outputs_turned hn hn']

theorem value_turned (h1 : reg.l1 ≤ 0) (N : ℕ) (X T : Batch) :
    net'.value mem' N (fun n => turnVec D Q (X n)) T = net.value mem N X T ∧ regFrom mem' 0 net'.layers = regFrom mem 0 net.layers := by
  have hr : regFrom mem' 0 net'.layers = regFrom mem 0 net.layers := by
    rw [(layers_turned hn hn').1, (layers_turned hn hn').2, regFrom, regFrom, regFrom, regFrom, regError_turned hQ hm h1,
      regFrom_agree (mem := mem') (mem' := mem) _ _ fun l h _ => hm.other l (by omega)]
    rfl
  refine ⟨?_, hr⟩
  have hce : net'.ce = net.ce := by subst hn hn'; rfl
  rw [Net.value, Net.value, hr, output_turned hn hn' hQ hm, Net.loss, Net.loss, hce, outputs_turned hn hn']

/-- The derivatives behind layer 1 are the same, those of layer 1 are turned. -/
theorem back_turned (h1 : reg.l1 ≤ 0) (N : ℕ) (stale : ℕ → Batch) (X e : Batch) (d : Mem) :
    (∀ j, ∀ i < D', (backFrom mem' N stale 0 net'.layers (fun n => turnVec D Q (X n)) e d).2 1 (.w [j, i]) =
      turnVec D Q (fun d' => (backFrom mem N stale 0 net.layers X e d).2 1 (.w [j, d'])) i) ∧
    (∀ j, (backFrom mem' N stale 0 net'.layers (fun n => turnVec D Q (X n)) e d).2 1 (.b [j]) =
      (backFrom mem N stale 0 net.layers X e d).2 1 (.b [j])) ∧
    ∀ l, 2 ≤ l → (backFrom mem' N stale 0 net'.layers (fun n => turnVec D Q (X n)) e d).2 l = (backFrom mem N stale 0 net.layers X e d).2 l := by
  rw [(layers_turned hn hn').1, (layers_turned hn hn').2, backFrom_cons, backFrom_cons, backFrom_cons, backFrom_cons]
  rw [show (inputLayer D').forward (mem' 0) N (fun n => turnVec D Q (X n)) = fun n => turnVec D Q (X n) from rfl,
    show (inputLayer D).forward (mem 0) N X = X from rfl, forward_turned hQ hm,
    backFrom_agree (mem := mem') (mem' := mem) stale e d _ _ _ fun l h _ => hm.other l (by omega)]
  generalize backFrom mem N stale (0 + 1 + 1) (layersFrom J ks) _ e d = r
  simp only [backStep, Nat.zero_add]
  have hd := derivs_turned (J := J) (bias := bias) (act := act) (reg := reg) hQ hm h1 N X r.1
  refine ⟨fun j i hi => ?_, fun j => ?_, fun l hl => ?_⟩
  · simp only [Function.update_of_ne (show (1 : ℕ) ≠ 0 by omega), Function.update_self]
    exact hd.1 j i hi
  · simp only [Function.update_of_ne (show (1 : ℕ) ≠ 0 by omega), Function.update_self]
    exact hd.2 j
  · simp only [Function.update_of_ne (show l ≠ 0 by omega), Function.update_of_ne (show l ≠ 1 by omega)]

end

/-! ## Parameter vectors -/

omit hn hn' in
theorem turnMem_linear (a b : ℝ) (m m' : Mem) (l : ℕ) (s : Slot) :
    turnMem D Q (fun l s => a * m l s + b * m' l s) l s = a * turnMem D Q m l s + b * turnMem D Q m' l s := by
  unfold turnMem
  split
  · simp only [turnVec, mul_sum, ← sum_add_distrib]
    exact sum_congr rfl fun d _ => by ring
  · rfl

omit hn hn' in
theorem turnParams_linear (a b : ℝ) (v w : Vec) : turnParams net net' D Q (fun p => a * v p + b * w p) =
    fun p => a * turnParams net net' D Q v p + b * turnParams net net' D Q w p := by
  funext p
  unfold turnParams
  cases net'.parameters[p]? with
  | none => simp
  | some q => exact turnMem_linear a b (fun l s => v (net.parameters.idxOf (l, s))) (fun l s => w (net.parameters.idxOf (l, s))) q.1 q.2

omit hn hn' in
theorem sum_range_list (f : ℕ → ℝ) : ∀ n, ∑ p ∈ range n, f p = ((List.range n).map f).sum
  | 0 => rfl
  | n + 1 => by rw [sum_range_succ, List.range_succ, List.map_append, List.sum_append, sum_range_list f n]; simp

omit hn hn' in
/-- A sum over a parameter vector is a sum over the numbers in the layers. -/
theorem sum_places {L : List Loc} (hL : L.Nodup) (f : ℕ → ℝ) : ∑ p ∈ range L.length, f p = (L.map fun q => f (L.idxOf q)).sum := by
  rw [sum_range_list]
  congr 1
  refine List.ext_getElem (by simp) fun p h1 h2 => ?_
  simp only [List.getElem_map, List.getElem_range]
  rw [hL.idxOf_getElem]

omit hn hn' in
theorem sum_denseLocs (I : ℕ) (F : Loc → ℝ) : (((denseSlots I J bias).map fun s => ((1, s) : Loc)).map F).sum =
    ∑ j ∈ range J, (∑ i ∈ range I, F (1, .w [j, i]) + if bias then F (1, .b [j]) else 0) := by
  unfold denseSlots
  induction J with
  | zero => rfl
  | succ J ih =>
    rw [List.range_succ, List.flatMap_append, List.map_append, List.map_append, List.sum_append, ih, sum_range_succ]
    congr 1
    cases bias <;> simp [Function.comp_def, sum_range_list]

theorem norm_turned (hQ : Isometric D D' Q) (w : Vec) :
    ∑ p ∈ range net'.P, turnParams net net' D Q w p ^ 2 = ∑ p ∈ range net.P, w p ^ 2 := by
  have hnd : net.parameters.Nodup := by rw [hn]; exact parameters_nodup D _ ce
  have hnd' : net'.parameters.Nodup := by rw [hn']; exact parameters_nodup D' _ ce
  rw [Net.P, Net.P, sum_places hnd fun p => w p ^ 2, sum_places hnd' fun p => turnParams net net' D Q w p ^ 2]
  rw [List.map_congr_left (l := net'.parameters) (g := fun q => turnMem D Q (fun l s => w (net.parameters.idxOf (l, s))) q.1 q.2 ^ 2)
    fun q hq => by rw [turnParams_at w hq]]
  generalize hF : (fun (l : ℕ) (s : Slot) => w (net.parameters.idxOf (l, s))) = m
  have hw : (fun q => w (net.parameters.idxOf q) ^ 2) = fun q : Loc => m q.1 q.2 ^ 2 := by rw [← hF]
  rw [hw, (params_turned hn hn').1, (params_turned hn hn').2, List.map_append, List.map_append, List.sum_append, List.sum_append,
    sum_denseLocs, sum_denseLocs]
  congr 1
  · refine sum_congr rfl fun j _ => ?_
    congr 1
    exact hQ.sq fun d => m 1 (.w [j, d])
  · congr 1
    refine List.map_congr_left fun q hq => ?_
    rw [turnMem_other]
    intro j i e
    have := locs_ge _ _ _ hq
    rw [e] at this
    simp at this

/-- **C140 (predictions and errors)**: for turned inputs and turned weights the outputs for every batch, the value of `errorGradient`, `error(n)` and
`error()` are the same. -/
theorem predict_turned (hQ : Isometric D D' Q) (mem : Mem) (w : Vec) :
    let m := net.setParameters mem ((List.range net.P).map w)
    let m' := net'.setParameters (turnMem D Q mem) ((List.range net'.P).map (turnParams net net' D Q w))
    (∀ N X, net'.predictAll m' N (fun n => turnVec D Q (X n)) = net.predictAll m N X) ∧
    (reg.l1 ≤ 0 → (∀ ds n, net'.errorAt m' (TrainSet.turned ds D Q) n = net.errorAt m ds n) ∧
      ∀ ds, net'.error m' (TrainSet.turned ds D Q) = net.error m ds) := by
  intro m m'
  have hm : Turned D D' Q m m' := setParameters_turned hn hn' hQ mem w
  refine ⟨fun N X => output_turned hn hn' hQ hm N X, fun h1 => ?_⟩
  have hat : ∀ ds n, net'.errorAt m' (TrainSet.turned ds D Q) n = net.errorAt m ds n := fun ds n => by
    have hce : net'.ce = net.ce := by subst hn hn'; rfl
    have := output_turned hn hn' hQ hm 1 fun _ => ds.inst n
    rw [Net.errorAt, Net.errorAt, (value_turned hn hn' hQ hm h1 0 (fun _ _ => 0) (fun _ _ => 0)).2, Net.loss, Net.loss, hce, outputs_turned hn hn']
    rw [← this]
    rfl
  refine ⟨hat, fun ds => ?_⟩
  rw [Net.error, Net.error]
  simp only [hat]
  rfl

/-- The gradient for the memory `turnMem` -/
theorem gradient_turned (hQ : Isometric D D' Q) (h1 : reg.l1 ≤ 0) (mem : Mem) (sc : Scratch) (ds : TrainSet) (idx : List ℕ) (w : Vec) :
    let g := net.errorGradient (net.setParameters mem ((List.range net.P).map w)) sc ds idx
    let g' := net'.errorGradient (net'.setParameters (turnMem D Q mem) ((List.range net'.P).map (turnParams net net' D Q w))) sc
      (TrainSet.turned ds D Q) idx
    g'.1 = g.1 ∧ (fun p => g'.2.getD p 0) = turnParams net net' D Q fun p => g.2.getD p 0 := by
  intro g g'
  have hm := setParameters_turned hn hn' hQ mem w
  have hder : net.derivatives = net.parameters := by
    rw [hn]
    exact (parameters_one_to_one D _ ce).2.2.2.1
  have hder' : net'.derivatives = net'.parameters := by
    rw [hn']
    exact (parameters_one_to_one D' _ ce).2.2.2.1
  refine ⟨(value_turned hn hn' hQ hm h1 idx.length (selectRows ds.inst idx) (selectRows ds.tgt idx)).1, funext fun p => ?_⟩
  obtain ⟨b1, b2, b3⟩ := back_turned hn hn' hQ hm h1 idx.length sc.stale (selectRows ds.inst idx)
    (fun n j => net.output (net.setParameters mem ((List.range net.P).map w)) idx.length (selectRows ds.inst idx) n j - selectRows ds.tgt idx n j)
    sc.derivs
  set m := net.setParameters mem ((List.range net.P).map w) with hmdef
  set m' := net'.setParameters (turnMem D Q mem) ((List.range net'.P).map (turnParams net net' D Q w)) with hmdef'
  set e : Batch := fun n j => net.output m idx.length (selectRows ds.inst idx) n j - selectRows ds.tgt idx n j with he
  set G := (backFrom m idx.length sc.stale 0 net.layers (selectRows ds.inst idx) e sc.derivs).2 with hG
  set G' := (backFrom m' idx.length sc.stale 0 net'.layers (fun n => turnVec D Q (selectRows ds.inst idx n)) e sc.derivs).2 with hG'
  have hg : g.2 = net.parameters.map fun q => G q.1 q.2 / idx.length := by rw [← hder]; rfl
  have hg' : g'.2 = net'.parameters.map fun q => G' q.1 q.2 / idx.length := by
    have ho := output_turned hn hn' hQ hm idx.length (selectRows ds.inst idx)
    rw [← hder']
    show net'.grad m' sc idx.length (fun n => turnVec D Q (selectRows ds.inst idx n)) (selectRows ds.tgt idx) = _
    rw [Net.grad, ho]
  have at_ : ∀ q ∈ net.parameters, g.2.getD (net.parameters.idxOf q) 0 = G q.1 q.2 / idx.length := by
    intro q hq
    have hlt := List.idxOf_lt_length_iff.2 hq
    rw [hg, List.getD_eq_getElem?_getD, List.getElem?_map, List.getElem?_eq_getElem hlt, List.getElem_idxOf]
    rfl
  rw [hg', turnParams, List.getD_eq_getElem?_getD, List.getElem?_map]
  cases hq : net'.parameters[p]? with
  | none => rfl
  | some q =>
    have hmem : q ∈ net'.parameters := List.mem_of_getElem? hq
    show G' q.1 q.2 / idx.length = turnMem D Q (fun l s => g.2.getD (net.parameters.idxOf (l, s)) 0) q.1 q.2
    by_cases hf : ∃ j i, q = (1, .w [j, i])
    · obtain ⟨j, i, rfl⟩ := hf
      obtain ⟨hj, hi⟩ := (mem_first hn hn' j i).2.1 hmem
      show G' 1 (.w [j, i]) / idx.length = ∑ d ∈ range D, Q i d * g.2.getD (net.parameters.idxOf (1, .w [j, d])) 0
      rw [b1 j i hi, turnVec, sum_div]
      refine sum_congr rfl fun d hd => ?_
      rw [at_ _ ((mem_first hn hn' j d).1.2 ⟨hj, mem_range.1 hd⟩), mul_div_assoc]
    · have hne : ∀ j i, q ≠ (1, .w [j, i]) := fun j i e => hf ⟨j, i, e⟩
      rw [turnMem_other _ hne, at_ q ((mem_turned hn hn' q hne).1 hmem)]
      congr 1
      rw [(params_turned hn hn').2, List.mem_append, List.mem_map] at hmem
      rcases hmem with ⟨s, hs, rfl⟩ | h
      · rcases (denseSlots_mem s).1 hs with ⟨j, _, i, _, rfl⟩ | ⟨_, j, _, rfl⟩
        · exact absurd rfl (hne j i)
        · exact b2 j
      · exact congrFun (b3 q.1 (locs_ge _ _ _ h)) q.2

variable (hf : FitsFrom J ks) (hv : ∀ k ∈ ks, k.Visible)

include hf hv

/-- **C140 (parameter vector)**: the turned parameter vector gives the same outputs for turned inputs, whatever the weights were before. -/
theorem predictions_turned (hQ : Isometric D D' Q) (mem mem' : Mem) (w : Vec) (N : ℕ) (X : Batch) (n : ℕ) {j : ℕ} (hj : j < net.outputs) :
    net'.predictAll (net'.setParameters mem' ((List.range net'.P).map (turnParams net net' D Q w))) N (fun n => turnVec D Q (X n)) n j =
      net.predictAll (net.setParameters mem ((List.range net.P).map w)) N X n j := by
  have hv' : ∀ k ∈ (Kind.fullyConnected J bias act reg :: ks), k.Visible := by
    intro k hk
    rcases List.mem_cons.1 hk with rfl | hk
    · trivial
    · exact hv k hk
  have hdet := parameters_determine (D := D') (ks := .fullyConnected J bias act reg :: ks) ce ⟨trivial, hf⟩ hv' mem' (turnMem D Q mem)
    (θ := (List.range net'.P).map (turnParams net net' D Q w)) (by simp [hn']) N (X := fun n => turnVec D Q (X n))
    (X' := fun n => turnVec D Q (X n)) (n := n) (fun _ _ => rfl) (j := j) (by rw [← hn', outputs_turned hn hn']; exact hj)
  rw [← hn'] at hdet
  rw [hdet, (predict_turned hn hn' hQ mem w).1]

/-- **C140 (gradient)**: the error at the turned parameters is the same and the gradient is the turned gradient. -/
theorem errorGradient_turned (hQ : Isometric D D' Q) (h1 : reg.l1 ≤ 0) (mem mem' : Mem) (sc sc' : Scratch) (ds : TrainSet) (idx : List ℕ)
    (w : Vec) :
    let g := net.errorGradient (net.setParameters mem ((List.range net.P).map w)) sc ds idx
    let g' := net'.errorGradient (net'.setParameters mem' ((List.range net'.P).map (turnParams net net' D Q w))) sc' (TrainSet.turned ds D Q) idx
    g'.1 = g.1 ∧ (fun p => g'.2.getD p 0) = turnParams net net' D Q fun p => g.2.getD p 0 := by
  have hv' : ∀ k ∈ (Kind.fullyConnected J bias act reg :: ks), k.Visible := by
    intro k hk
    rcases List.mem_cons.1 hk with rfl | hk
    · trivial
    · exact hv k hk
  have hdet := errorGradient_determined (D := D') (ks := .fullyConnected J bias act reg :: ks) ce ⟨trivial, hf⟩ hv' mem' (turnMem D Q mem)
    (θ := (List.range net'.P).map (turnParams net net' D Q w)) (by simp [hn']) sc' sc (ds := TrainSet.turned ds D Q)
    (ds' := TrainSet.turned ds D Q) (idx := idx) fun _ _ => ⟨fun _ _ => rfl, fun _ _ => rfl⟩
  rw [← hn'] at hdet
  intro g g'
  have hg' : g' = _ := hdet
  rw [hg']
  exact gradient_turned hn hn' hQ h1 mem sc ds idx w

end

end

end Verif.NN

namespace Verif.Opt

open Finset NN

noncomputable section

/-! ## Training of networks -/

section

variable {D D' J : ℕ} {bias ce : Bool} {act : Act} {reg : Reg} {ks : List Kind} {Q : Batch} {net net' : Net}
  (hn : net = buildNet D (.fullyConnected J bias act reg :: ks) ce)
  (hn' : net' = buildNet D' (.fullyConnected J bias act reg :: ks) ce) (hf : FitsFrom J ks) (hv : ∀ k ∈ ks, k.Visible)

include hn hn' hf hv

theorem net_turnsTo (hQ : Isometric D D' Q) (h1 : reg.l1 ≤ 0) (mem mem' : Mem) (sc sc' : ℕ → Scratch) (ds : TrainSet) :
    (netProblem net mem sc ds).TurnsTo (netProblem net' mem' sc' (TrainSet.turned ds D Q)) (turnParams net net' D Q) where
  linear := turnParams_linear
  examples := rfl
  positive h := by
    have := norm_turned hn hn' hQ fun _ => 1
    by_contra h0
    have h0 : net'.P = 0 := Nat.eq_zero_of_not_pos h0
    rw [h0] at this
    have hp : (0 : ℝ) < net.P := Nat.cast_pos.2 h
    simp at this
    rw [this] at hp
    simp at hp
  norm := norm_turned hn hn' hQ
  value k w b := (errorGradient_turned hn hn' hf hv hQ h1 mem mem' (sc k) (sc' k) ds b w).1
  gradient k w b := (errorGradient_turned hn hn' hf hv hQ h1 mem mem' (sc k) (sc' k) ds b w).2

omit hn hn' hf hv in
/-- A fresh optimiser overwrites all its vectors. -/
theorem steps_fresh_turned {o : MBSGD} (ho : o.iteration < 0) {B : Problem} {R : Vec → Vec} {obj : Obj} {n : ℕ} (hpos : 0 < n) {c : Bool}
    {o1 : MBSGD} {obj1 : Obj} (hs : Steps (o.turned B R) obj n c o1 obj1) : Steps o obj n c o1 obj1 := by
  have hstep : o.step obj = (o.turned B R).step obj := by
    have : o.ready obj = (o.turned B R).ready obj := by
      rw [ready_of_lt ho, ready_of_lt (show (o.turned B R).iteration < 0 from ho)]
      rfl
    unfold MBSGD.step
    rw [this]
  induction hs with
  | zero => omega
  | @succ n o2 obj2 c o3 obj3 hs1 hs2 ih =>
    cases n with
    | zero =>
      cases hs1
      exact .succ .zero (hstep.trans hs2)
    | succ n => exact .succ (ih (by omega)) hs2

/-- **C140 (training)**: with turned inputs and turned initial weights the training of a fresh optimiser takes the same course, whatever the buffers
contain: after every number of epochs the answers of `step()` are the same, the parameters are turned and the outputs for turned inputs are the same. -/
theorem training_turned (hQ : Isometric D D' Q) (h1 : reg.l1 ≤ 0) (mem mem' : Mem) (sc sc' : ℕ → Scratch) (ds : TrainSet) {o : MBSGD}
    (ho : o.iteration < 0) (hg : ¬o.useGain) (w : Vec) (calls : ℕ) {n : ℕ} (hpos : 0 < n) {c : Bool} {o1 : MBSGD} {obj1 : Obj}
    (hs : Steps o ⟨netProblem net mem sc ds, w, calls, []⟩ n c o1 obj1) :
    ∃ o2 obj2, Steps o ⟨netProblem net' mem' sc' (TrainSet.turned ds D Q), turnParams net net' D Q w, calls, []⟩ n c o2 obj2 ∧
      (o2.result obj2).1 = turnParams net net' D Q (o1.result obj1).1 ∧ obj2.w = turnParams net net' D Q obj1.w ∧
      ∀ N X m, ∀ j < net.outputs,
        net'.predictAll (net'.setParameters mem' ((List.range net'.P).map (o2.result obj2).1)) N (fun n => turnVec D Q (X n)) m j =
          net.predictAll (net.setParameters mem ((List.range net.P).map (o1.result obj1).1)) N X m j := by
  have hs' := (steps_turned (net_turnsTo hn hn' hf hv hQ h1 mem mem' sc sc' ds) hg rfl hs).1
  exact ⟨_, _, steps_fresh_turned ho hpos hs', rfl, rfl, fun N X m j hj => predictions_turned hn hn' hf hv hQ mem mem' o1.parameters N X m hj⟩

end

/-! ## What is not harmless -/

/-- One linear unit with two inputs and without bias. -/
def unit2 (reg : Reg) : Net := buildNet 2 [.fullyConnected 1 false .linear reg] false

theorem unit2_weights (reg : Reg) (hm : reg.maxNorm ≤ 0) (mem : Mem) (w : Vec) {i : ℕ} (hi : i < 2) :
    (unit2 reg).setParameters mem ((List.range (unit2 reg).P).map w) 1 (.w [0, i]) = w i := by
  have hnd : (unit2 reg).parameters.Nodup := parameters_nodup 2 _ false
  have hp : (unit2 reg).parameters = [(1, .w [0, 0]), (1, .w [0, 1])] := rfl
  have e : ∀ m : Mem, updatedFrom 0 (unit2 reg).layers m 1 = m 1 := fun m => by
    have := updatedFrom_getElem (ls := (unit2 reg).layers) (k := 0) (n := 1) (mem := m) (by show 1 < 2; norm_num)
    rw [Nat.zero_add] at this
    rw [this]
    exact constraint_free hm _
  rw [Net.setParameters, e]
  match i, hi with
  | 0, _ =>
    rw [writeAll_at (q := (1, .w [0, 0])) hnd mem w (by rw [hp]; simp)]
    rfl
  | 1, _ =>
    rw [writeAll_at (q := (1, .w [0, 1])) hnd mem w (by rw [hp]; simp)]
    rfl

theorem unit2_output (reg : Reg) (mem : Mem) (N : ℕ) (X : Batch) (n : ℕ) :
    (unit2 reg).output mem N X n 0 = X n 0 * mem 1 (.w [0, 0]) + X n 1 * mem 1 (.w [0, 1]) := by
  show ∑ i ∈ range 2, X n i * mem 1 (.w [0, i]) + 0 = _
  simp [sum_range_succ]

/-- Two examples on the axes, with targets 0. -/
def axes : TrainSet := ⟨2, fun n i => if n = i then (if n = 0 then 1 else 2) else 0, fun _ _ => 0⟩

theorem unit2_gradient (mem : Mem) (sc : Scratch) (ds : TrainSet) (ht : ds.tgt = fun _ _ => 0) {i : ℕ} (hi : i < 2) :
    ((unit2 ⟨0, 0, 0⟩).errorGradient mem sc ds [0, 1]).2.getD i 0 =
      ((ds.inst 0 0 * mem 1 (.w [0, 0]) + ds.inst 0 1 * mem 1 (.w [0, 1])) * ds.inst 0 i +
        (ds.inst 1 0 * mem 1 (.w [0, 0]) + ds.inst 1 1 * mem 1 (.w [0, 1])) * ds.inst 1 i) / 2 := by
  have hq : (unit2 ⟨0, 0, 0⟩).derivatives[i]? = some (1, .w [0, i]) := by
    match i, hi with
    | 0, _ => rfl
    | 1, _ => rfl
  have h := grad_entry (unit2 ⟨0, 0, 0⟩) mem sc ds [0, 1] hq
  rw [h]
  show (∑ n ∈ range 2, 1 * ((unit2 ⟨0, 0, 0⟩).output mem 2 (selectRows ds.inst [0, 1]) n 0 - selectRows ds.tgt [0, 1] n 0) *
    selectRows ds.inst [0, 1] n i + (⟨0, 0, 0⟩ : Reg).deriv _) / ((2 : ℕ) : ℝ) = _
  simp [sum_range_succ, unit2_output, ht, Reg.deriv, selectRows]

/-- A rotation with rational numbers. -/
def oblique : Batch := fun i d => if i = d then 3 / 5 else if i = 0 then -4 / 5 else 4 / 5

theorem oblique_isometric : Isometric 2 2 oblique := by
  intro d hd e he
  match d, hd, e, he with
  | 0, _, 0, _ => norm_num [oblique, sum_range_succ]
  | 0, _, 1, _ => norm_num [oblique, sum_range_succ]
  | 1, _, 0, _ => norm_num [oblique, sum_range_succ]
  | 1, _, 1, _ => norm_num [oblique, sum_range_succ]

/-- Outputs of the unit with weights `v`. -/
theorem unit2_predict (reg : Reg) (hm : reg.maxNorm ≤ 0) (mem : Mem) (v : Vec) (N : ℕ) (X : Batch) (n : ℕ) :
    (unit2 reg).predictAll ((unit2 reg).setParameters mem ((List.range (unit2 reg).P).map v)) N X n 0 = X n 0 * v 0 + X n 1 * v 1 := by
  show (unit2 reg).output _ N X n 0 = _
  rw [unit2_output, unit2_weights reg hm mem v (by norm_num), unit2_weights reg hm mem v (by norm_num)]

/-- **C140 (stretched inputs)**: a map that does not keep lengths is not harmless.  If all inputs are doubled and all weights are halved, the outputs are the
same, but not after one step of gradient descent with the same learning rate. -/
theorem stretching_matters : ∃ (mem : Mem) (sc : Scratch) (ds : TrainSet) (w : Vec) (α : ℝ),
    let net := unit2 ⟨0, 0, 0⟩
    let ds' : TrainSet := { ds with inst := fun n i => 2 * ds.inst n i }
    let after : TrainSet → Vec → Vec := fun s v p => v p -
      α * (net.errorGradient (net.setParameters mem ((List.range net.P).map v)) sc s [0, 1]).2.getD p 0
    let predict : Vec → Batch → ℝ := fun v X => net.predictAll (net.setParameters mem ((List.range net.P).map v)) 1 X 0 0
    (∀ X, predict (fun p => w p / 2) (fun n i => 2 * X n i) = predict w X) ∧
      ∃ X, predict (after ds' fun p => w p / 2) (fun n i => 2 * X n i) ≠ predict (after ds w) X := by
  refine ⟨fun _ _ => 0, ⟨fun _ _ => 0, fun _ _ _ => 0⟩, axes, fun _ => 1, 1 / 2, ?_⟩
  intro net ds' after predict
  have hp : ∀ v X, predict v X = X 0 0 * v 0 + X 0 1 * v 1 := fun v X => unit2_predict ⟨0, 0, 0⟩ le_rfl _ v 1 X 0
  refine ⟨fun X => ?_, fun _ i => if i = 0 then 1 else 0, ?_⟩
  · rw [hp, hp]
    ring
  · have ha : ∀ (s : TrainSet) (v : Vec), s.tgt = (fun _ _ => 0) → ∀ i < 2, after s v i = v i - 1 / 2 *
        (((s.inst 0 0 * v 0 + s.inst 0 1 * v 1) * s.inst 0 i + (s.inst 1 0 * v 0 + s.inst 1 1 * v 1) * s.inst 1 i) / 2) := by
      intro s v ht i hi
      have := unit2_gradient (net.setParameters (fun _ _ => 0) ((List.range net.P).map v)) ⟨fun _ _ => 0, fun _ _ _ => 0⟩ s ht hi
      rw [unit2_weights ⟨0, 0, 0⟩ le_rfl _ v (by norm_num), unit2_weights ⟨0, 0, 0⟩ le_rfl _ v (by norm_num)] at this
      exact congrArg (fun z => v i - 1 / 2 * z) this
    have e1 : after ds' (fun _ => (1 : ℝ) / 2) 0 = 0 := (ha ds' (fun _ => (1 : ℝ) / 2) rfl 0 (by norm_num)).trans (by norm_num [ds', axes])
    have e2 : after axes (fun _ => 1) 0 = 3 / 4 := (ha axes (fun _ => 1) rfl 0 (by norm_num)).trans (by norm_num [axes])
    rw [hp, hp]
    norm_num
    rw [e1, e2]
    norm_num

/-- **C140 (penalty for absolute values)**: it depends on the coordinate system. -/
theorem l1_matters : ∃ (mem : Mem) (w : Vec),
    let net := unit2 ⟨1, 0, 0⟩
    net.errorAt (net.setParameters (turnMem 2 oblique mem) ((List.range net.P).map (turnParams net net 2 oblique w)))
      (TrainSet.turned axes 2 oblique) 0 ≠ net.errorAt (net.setParameters mem ((List.range net.P).map w)) axes 0 := by
  refine ⟨fun _ _ => 0, fun p => if p = 0 then 1 else 0, ?_⟩
  intro net
  have hm := setParameters_turned (net := net) (net' := net) (D := 2) (D' := 2) (J := 1) (bias := false) (ce := false) (act := .linear)
    (reg := ⟨1, 0, 0⟩) (ks := []) rfl rfl oblique_isometric (fun _ _ => 0) fun p => if p = 0 then 1 else 0
  have ho := output_turned (net := net) (net' := net) (D := 2) (D' := 2) (J := 1) (bias := false) (ce := false) (act := .linear)
    (reg := ⟨1, 0, 0⟩) (ks := []) rfl rfl oblique_isometric hm 1 fun _ => axes.inst 0
  have hw := fun i (hi : i < 2) => unit2_weights ⟨1, 0, 0⟩ le_rfl (fun _ _ => 0) (fun p => if p = 0 then (1 : ℝ) else 0) hi
  have hw' := fun i (hi : i < 2) => hm.weights 0 i hi
  have hr : ∀ m : Mem, regFrom m 0 net.layers = |m 1 (.w [0, 0])| + |m 1 (.w [0, 1])| := fun m => by
    show (0 : ℝ) + (Reg.error ⟨1, 0, 0⟩ (∑ j ∈ range 1, ∑ i ∈ range 2, |m 1 (.w [j, i])|) _ + 0) = _
    simp [Reg.error, sum_range_succ]
  rw [Net.errorAt, Net.errorAt, show (fun _ : ℕ => (TrainSet.turned axes 2 oblique).inst 0) = fun _ => turnVec 2 oblique (axes.inst 0) from rfl,
    ho, show (TrainSet.turned axes 2 oblique).tgt = axes.tgt from rfl]
  intro h
  have h := add_left_cancel h
  rw [hr, hr, hw' 0 (by norm_num), hw' 1 (by norm_num)] at h
  simp only [turnVec, sum_range_succ, sum_range_zero, zero_add] at h
  rw [hw 0 (by norm_num), hw 1 (by norm_num)] at h
  norm_num [oblique, abs_of_nonneg] at h

/-! ### Gains -/

/-- An optimiser with gains between 1/10 and 10, for two examples at a time. -/
def gainful : MBSGD where
  nesterov := false
  alpha := 1
  alphaDecay := 1
  minAlpha := 0
  eta := 0
  etaGain := 0
  maxEta := 0
  batchSize := 2
  minGain := 1 / 10
  maxGain := 10
  stop := {}
  iteration := -1
  P := 0
  N := 0
  batches := 0
  gains := fun _ => 0
  parameters := fun _ => 0
  momentum := fun _ => 0
  accumulatedError := 0
  randomIndices := []
  rng := fun _ l => l

theorem gainful_created : MBSGD.new 1 0 2 false 1 0 0 0 (1 / 10) 10 (fun _ l => l) = .ok gainful := by
  unfold MBSGD.new
  norm_num [gainful]
  rfl

theorem update_gain {o : MBSGD} (hg : o.useGain) (hn : o.nesterov = false) (obj : Obj) (b : List ℕ) :
    o.update obj b =
      (MBSGD.schedule { o.move (fun p => (obj.result b).2 p * o.newGain (o.momentum p) ((obj.result b).2 p) (o.gains p)) with
          gains := fun p => o.newGain (o.momentum p) ((obj.result b).2 p) (o.gains p), accumulatedError := o.accumulatedError + (obj.result b).1 },
        { obj.evaluate b with w := fun p => o.parameters p + (o.eta * o.momentum p - o.alpha *
          ((obj.result b).2 p * o.newGain (o.momentum p) ((obj.result b).2 p) (o.gains p))) }) := by
  have hl : o.lookAhead obj = obj := by unfold MBSGD.lookAhead; rw [hn]; rfl
  unfold MBSGD.update
  simp only [hl, hn, MBSGD.scaled, MBSGD.newGains, if_pos hg]
  rfl

theorem finish_endless {o : MBSGD} (h : o.stop = {}) : o.finish = (true, { o with iteration := o.iteration + 1 }) := by
  have : ({ o with iteration := o.iteration + 1 } : MBSGD).run := by
    unfold MBSGD.run
    rw [h]
    exact ⟨Or.inl rfl, Or.inl rfl⟩
  unfold MBSGD.finish
  rw [if_pos this]

open Classical in
/-- The parameters after two epochs -/
theorem gainful_run (eg : ℕ → Vec → List ℕ → ℝ × Vec) (w : Vec) : ∃ o1 obj1,
    Steps gainful ⟨⟨2, 2, eg⟩, w, 0, []⟩ 2 true o1 obj1 ∧
    let g1 := (eg 0 w [0, 1]).2
    let w1 : Vec := fun p => w p - 1.05 * g1 p
    let g2 := (eg 1 w1 [0, 1]).2
    ∀ p, (o1.result obj1).1 p = w1 p - (if g1 p * g2 p ≤ 0 then 1.1 else 0.9975) * g2 p := by
  have hg : ∀ o : MBSGD, o.minGain = 1 / 10 → o.useGain := fun o h => Or.inl (by rw [h]; norm_num)
  obtain ⟨obj, hobj⟩ : ∃ obj : Obj, obj = ⟨⟨2, 2, eg⟩, w, 0, []⟩ := ⟨_, rfl⟩
  obtain ⟨oa, hoa⟩ : ∃ oa : MBSGD, oa = (gainful.init obj).reshuffle := ⟨_, rfl⟩
  obtain ⟨r1, hr1⟩ : ∃ r1 : MBSGD × Obj, r1 = oa.update obj [0, 1] := ⟨_, rfl⟩
  have s1 : gainful.step obj = .ok (true, { r1.1 with iteration := r1.1.iteration + 1 }, r1.2.finishedIteration) := by
    have hready : gainful.ready obj = gainful.init obj := ready_of_lt (by show (-1 : ℤ) < 0; norm_num) obj
    have hb : (gainful.init obj).batches = 1 := by
      subst hobj
      show max (2 / 2) 1 = 1
      norm_num
    have hu : (gainful.init obj).reshuffle.updates obj 1 = r1 := by
      subst hobj hoa hr1
      rfl
    rw [step_ok (by rw [hready, hobj]; exact two_pos) (by rw [hready, hobj]; exact two_pos) (by rw [hready, hb]; exact Nat.one_pos)
      (by rw [hready, hobj]; rfl) (by rw [hready, hobj]; rfl), hready, hb, hu, finish_endless]
    subst hr1
    rw [update_gain (hg _ (by subst hoa; rfl)) (by subst hoa; rfl)]
    subst hoa
    rfl
  obtain ⟨ob, hob⟩ : ∃ ob : MBSGD, ob = { r1.1 with iteration := r1.1.iteration + 1 } := ⟨_, rfl⟩
  obtain ⟨obj', hobj'⟩ : ∃ obj' : Obj, obj' = r1.2.finishedIteration := ⟨_, rfl⟩
  rw [← hob, ← hobj'] at s1
  have hga : oa.useGain := hg _ (by subst hoa; rfl)
  have hna : oa.nesterov = false := by subst hoa; rfl
  rw [update_gain hga hna] at hr1
  have hgain : ∀ x : ℝ, oa.newGain 0 x 1 = 1.05 := fun x => by
    subst hoa
    unfold MBSGD.newGain
    rw [zero_mul, if_pos le_rfl]
    show min (10 : ℝ) (max (1 / 10) (1 + 0.05)) = 1.05
    rw [max_eq_right (by norm_num), min_eq_right (by norm_num)]
    norm_num
  obtain ⟨g1, hg1⟩ : ∃ g1 : Vec, g1 = (eg 0 w [0, 1]).2 := ⟨_, rfl⟩
  obtain ⟨w1, hw1⟩ : ∃ w1 : Vec, w1 = fun p => w p - 1.05 * g1 p := ⟨_, rfl⟩
  obtain ⟨g2, hg2⟩ : ∃ g2 : Vec, g2 = (eg 1 w1 [0, 1]).2 := ⟨_, rfl⟩
  have hres : (obj.result [0, 1]).2 = g1 := by subst hobj; exact hg1.symm
  have hpar : ob.parameters = w1 := by
    subst hob hr1 hoa hobj hw1
    funext p
    show w p + ((0 : ℝ) * 0 - 1 * ((eg 0 w [0, 1]).2 p * MBSGD.newGain _ 0 _ 1)) = _
    rw [hgain, ← hg1]
    ring
  have hmom : ob.momentum = fun p => -(1.05 * g1 p) := by
    subst hob hr1 hoa hobj
    funext p
    show (0 : ℝ) * 0 - 1 * ((eg 0 w [0, 1]).2 p * MBSGD.newGain _ 0 _ 1) = _
    rw [hgain, ← hg1]
    ring
  have hgains : ob.gains = fun _ => 1.05 := by
    subst hob hr1 hoa hobj
    funext p
    exact hgain _
  have hw : obj'.w = w1 := by
    rw [← hpar]
    subst hobj' hob hr1
    rfl
  have hready : ob.ready obj' = ob := ready_of_ge (by subst hob hr1 hoa; show (0 : ℤ) ≤ 0 + 1; norm_num) obj'
  have hb : ob.batches = 1 := by
    subst hob hr1 hoa hobj
    show max (2 / 2) 1 = 1
    norm_num
  obtain ⟨oc, hoc⟩ : ∃ oc : MBSGD, oc = ob.reshuffle := ⟨_, rfl⟩
  obtain ⟨r2, hr2⟩ : ∃ r2 : MBSGD × Obj, r2 = oc.update obj' [0, 1] := ⟨_, rfl⟩
  have hgc : oc.useGain := hg _ (by subst hoc hob hr1 hoa; rfl)
  have hnc : oc.nesterov = false := by subst hoc hob hr1 hoa; rfl
  have hu : ob.reshuffle.updates obj' 1 = r2 := by
    subst hr2 hoc hob hr1 hoa hobj
    rfl
  rw [update_gain hgc hnc] at hr2
  have s2 : ob.step obj' = .ok (true, { r2.1 with iteration := r2.1.iteration + 1 }, r2.2.finishedIteration) := by
    rw [step_ok (by rw [hready]; subst hob hr1 hoa hobj; exact two_pos) (by rw [hready]; subst hob hr1 hoa hobj; exact two_pos)
      (by rw [hready, hb]; exact Nat.one_pos) (by rw [hready]; subst hob hr1 hoa hobj; rfl)
      (by rw [hready]; subst hobj' hob hr1 hoa hobj; rfl), hready, hb, hu, finish_endless]
    subst hr2 hoc hob hr1 hoa
    rfl
  refine ⟨_, _, .succ (.succ .zero (by rw [← hobj]; exact s1)) s2, ?_⟩
  intro g1' w1' g2' p
  have e1 : g1' = g1 := hg1.symm
  have e2 : w1' = w1 := by rw [hw1, ← e1]
  have e3 : g2' = g2 := by rw [hg2, ← e2]
  rw [e1, e2, e3]
  have hres2 : (obj'.result [0, 1]).2 = g2 := by
    rw [hg2, Obj.result, hw]
    subst hobj' hr1 hobj
    rfl
  have halpha : oc.alpha = 1 := by
    subst hoc hob hr1 hoa
    show max (1 * 1) 0 = (1 : ℝ)
    norm_num
  have heta : oc.eta = 0 := by
    subst hoc hob hr1 hoa
    show min (0 + 0) 0 = (0 : ℝ)
    norm_num
  have hmin : oc.minGain = 1 / 10 := by subst hoc hob hr1 hoa; rfl
  have hmax : oc.maxGain = 10 := by subst hoc hob hr1 hoa; rfl
  have hp : (({ r2.1 with iteration := r2.1.iteration + 1 } : MBSGD).result r2.2.finishedIteration).1 p =
      oc.parameters p + (oc.eta * oc.momentum p - oc.alpha * (g2 p * oc.newGain (oc.momentum p) (g2 p) (oc.gains p))) := by
    rw [← hres2]
    subst hr2
    rfl
  have hcp : oc.parameters = w1 := by rw [← hpar]; subst hoc; rfl
  have hcm : oc.momentum = fun p => -(1.05 * g1 p) := by rw [← hmom]; subst hoc; rfl
  have hcg : oc.gains = fun _ => 1.05 := by rw [← hgains]; subst hoc; rfl
  rw [hp, hcp, hcm, hcg, halpha, heta, MBSGD.newGain, hmin, hmax]
  have hs : (0 : ℝ) ≤ -(1.05 * g1 p) * g2 p ↔ g1 p * g2 p ≤ 0 := by
    constructor <;> intro h <;> nlinarith
  by_cases h : g1 p * g2 p ≤ 0
  · rw [if_pos h, if_pos (hs.2 h), max_eq_right (by norm_num), min_eq_right (by norm_num)]
    ring
  · rw [if_neg h, if_neg fun h' => h (hs.1 h'), max_eq_right (by norm_num), min_eq_right (by norm_num)]
    ring

/-- **C140 (gains)**: gains for single parameters depend on the coordinate system: after two epochs of an optimiser with gains the parameters for
turned inputs are not the turned parameters. -/
theorem gains_matter : ∃ (o : MBSGD) (mem : Mem) (sc : ℕ → Scratch) (w : Vec) (o1 o2 : MBSGD) (obj1 obj2 : Obj),
    let net := unit2 ⟨0, 0, 0⟩
    o.iteration < 0 ∧ o.useGain ∧ Steps o ⟨netProblem net mem sc axes, w, 0, []⟩ 2 true o1 obj1 ∧
    Steps o ⟨netProblem net mem sc (TrainSet.turned axes 2 oblique), turnParams net net 2 oblique w, 0, []⟩ 2 true o2 obj2 ∧
    (o2.result obj2).1 ≠ turnParams net net 2 oblique (o1.result obj1).1 := by
  classical
  have ht : ∀ v : Vec, turnParams (unit2 ⟨0, 0, 0⟩) (unit2 ⟨0, 0, 0⟩) 2 oblique v 0 = 3 / 5 * v 0 - 4 / 5 * v 1 ∧
      turnParams (unit2 ⟨0, 0, 0⟩) (unit2 ⟨0, 0, 0⟩) 2 oblique v 1 = 4 / 5 * v 0 + 3 / 5 * v 1 := by
    intro v
    constructor
    · show ∑ d ∈ range 2, oblique 0 d * v ((unit2 ⟨0, 0, 0⟩).parameters.idxOf (1, .w [0, d])) = _
      rw [sum_range_succ, sum_range_succ, sum_range_zero]
      show 0 + oblique 0 0 * v 0 + oblique 0 1 * v 1 = _
      norm_num [oblique]
      ring
    · show ∑ d ∈ range 2, oblique 1 d * v ((unit2 ⟨0, 0, 0⟩).parameters.idxOf (1, .w [0, d])) = _
      rw [sum_range_succ, sum_range_succ, sum_range_zero]
      show 0 + oblique 1 0 * v 0 + oblique 1 1 * v 1 = _
      norm_num [oblique]
  obtain ⟨sc, hsc⟩ : ∃ sc : ℕ → Scratch, sc = fun _ => ⟨fun _ _ => 0, fun _ _ _ => 0⟩ := ⟨_, rfl⟩
  have hgr : ∀ (ds : TrainSet), ds.tgt = (fun _ _ => 0) → ∀ k (v : Vec) i, i < 2 →
      ((netProblem (unit2 ⟨0, 0, 0⟩) (fun _ _ => 0) sc ds).errorGradient k v [0, 1]).2 i =
        ((ds.inst 0 0 * v 0 + ds.inst 0 1 * v 1) * ds.inst 0 i + (ds.inst 1 0 * v 0 + ds.inst 1 1 * v 1) * ds.inst 1 i) / 2 := by
    intro ds ht k v i hi
    have := unit2_gradient ((unit2 ⟨0, 0, 0⟩).setParameters (fun _ _ => 0) ((List.range (unit2 ⟨0, 0, 0⟩).P).map v)) (sc k) ds ht hi
    rw [unit2_weights ⟨0, 0, 0⟩ le_rfl _ v (by norm_num), unit2_weights ⟨0, 0, 0⟩ le_rfl _ v (by norm_num)] at this
    exact this
  have hA := hgr axes rfl
  have hB := hgr (TrainSet.turned axes 2 oblique) rfl
  obtain ⟨o1, obj1, hs1, h1⟩ := gainful_run (netProblem (unit2 ⟨0, 0, 0⟩) (fun _ _ => 0) sc axes).errorGradient fun _ => 1
  obtain ⟨o2, obj2, hs2, h2⟩ := gainful_run (netProblem (unit2 ⟨0, 0, 0⟩) (fun _ _ => 0) sc (TrainSet.turned axes 2 oblique)).errorGradient
    (turnParams (unit2 ⟨0, 0, 0⟩) (unit2 ⟨0, 0, 0⟩) 2 oblique fun _ => 1)
  refine ⟨gainful, fun _ _ => 0, sc, fun _ => 1, o1, o2, obj1, obj2, by show (-1 : ℤ) < 0; norm_num, Or.inl (by show (1 / 10 : ℝ) ≠ 1; norm_num),
    hs1, hs2, fun h => ?_⟩
  have h := congrFun h 0
  rw [(ht _).1, h1, h1, h2] at h
  have i00 : (TrainSet.turned axes 2 oblique).inst 0 0 = 3 / 5 := by
    show ∑ d ∈ range 2, oblique 0 d * axes.inst 0 d = _
    norm_num [sum_range_succ, oblique, axes]
  have i01 : (TrainSet.turned axes 2 oblique).inst 0 1 = 4 / 5 := by
    show ∑ d ∈ range 2, oblique 1 d * axes.inst 0 d = _
    norm_num [sum_range_succ, oblique, axes]
  have i10 : (TrainSet.turned axes 2 oblique).inst 1 0 = -8 / 5 := by
    show ∑ d ∈ range 2, oblique 0 d * axes.inst 1 d = _
    norm_num [sum_range_succ, oblique, axes]
  have i11 : (TrainSet.turned axes 2 oblique).inst 1 1 = 6 / 5 := by
    show ∑ d ∈ range 2, oblique 1 d * axes.inst 1 d = _
    norm_num [sum_range_succ, oblique, axes]
  simp only [hA _ _ 0 (by norm_num), hA _ _ 1 (by norm_num), hB _ _ 0 (by norm_num), hB _ _ 1 (by norm_num), (ht _).1, (ht _).2,
    i00, i01, i10, i11] at h
  norm_num [axes] at h

/-- The hypotheses of `training_turned` are met: a rotation, a step of an optimiser without gains for one unit with weight decay and a bounded norm. -/
example : ∃ (o : MBSGD) (c : Bool) (o1 : MBSGD) (obj1 : Obj), o.iteration < 0 ∧ ¬o.useGain ∧ Isometric 2 2 oblique ∧
    (⟨0, 1 / 10, 1⟩ : Reg).l1 ≤ 0 ∧ FitsFrom 1 [] ∧
    Steps o ⟨netProblem (buildNet 2 [.fullyConnected 1 true .tanh ⟨0, 1 / 10, 1⟩] false) (fun _ _ => 0) (fun _ => ⟨fun _ _ => 0, fun _ _ _ => 0⟩)
      ⟨1, fun _ _ => 1, fun _ _ => 2⟩, fun _ => 1, 0, []⟩ 1 c o1 obj1 := by
  have hn : (example1 false 1 5).iteration < 0 := by show (-1 : ℤ) < 0; norm_num
  obtain ⟨c, o', obj', _, hst⟩ := steps_progress (example1_valid false one_pos le_rfl 5) (example1_fair false 1 5) hn
    (obj := ⟨netProblem (buildNet 2 [.fullyConnected 1 true .tanh ⟨0, 1 / 10, 1⟩] false) (fun _ _ => 0)
      (fun _ => ⟨fun _ _ => 0, fun _ _ _ => 0⟩) ⟨1, fun _ _ => 1, fun _ _ => 2⟩, fun _ => 1, 0, []⟩)
    ⟨by show 0 < 3; norm_num, Nat.one_pos⟩ .zero
  refine ⟨_, c, o', obj', hn, ?_, oblique_isometric, le_rfl, trivial, hst⟩
  simp [MBSGD.useGain, example1]

end

end Verif.Opt
