import Verif.Model.Matrix
import Verif.Model.Activation

/-!
# Sigma-pi layers (src/SigmaPi.cpp, OpenANN/layers/SigmaPi.h)

`int` and `size_t` are modelled by natural numbers; upper bounds of loops like `I - 2` are truncated at 0, which makes no difference to
the loops.
-/

namespace Verif.SigmaPi

open Outcome NN

noncomputable section

/-- OpenANN/layers/SigmaPi.h lines 31-35 -/
structure HOUnit where
  position : List ℕ
  weight : ℕ

/-- OpenANN/layers/SigmaPi.h line 37 -/
abbrev Neuron := List HOUnit

/-- A constraint (OpenANN/layers/SigmaPi.h lines 80-104): a function object with a state of its own, called with the positions of a
unit.  `isDefault` is true for `NoConstraint` only (src/SigmaPi.cpp lines 27-39). -/
structure Constraint (τ : Type) where
  isDefault : Bool
  eval : τ → List ℕ → Outcome (ℝ × τ)

/-- The layer (OpenANN/layers/SigmaPi.h lines 39-53); `inputs` is `info.outputs()`. -/
structure Layer where
  inputs : ℕ
  bias : Bool
  act : Act
  w : List ℝ
  wd : List ℝ
  nodes : List Neuron

/-- The variables while a neuron is built. -/
structure Building (τ : Type) where
  w : List ℝ
  wd : List ℝ
  neuron : Neuron
  state : τ

/-- src/SigmaPi.cpp lines 220-227: the weight of the first unit of the neuron whose weight is within 0.001 of the value. -/
def find (w : List ℝ) (ref : ℝ) : Neuron → Outcome (Option ℕ)
  | [] => ok none
  | u :: us => do
    let v ← Outcome.read w u.weight
    if |v - ref| < 0.001 then ok (some u.weight) else find w ref us

/-- src/SigmaPi.cpp lines 231-233 (and 242-245): a unit with a new weight. -/
def ownWeight {τ : Type} (b : Building τ) (position : List ℕ) (ref : ℝ) (state : τ) : Building τ :=
  ⟨b.w ++ [ref], b.wd ++ [ref], b.neuron ++ [⟨position, b.w.length⟩], state⟩

/-- src/SigmaPi.cpp lines 237: a unit with the weight of another one. -/
def sharedWeight {τ : Type} (b : Building τ) (position : List ℕ) (weight : ℕ) (state : τ) : Building τ :=
  ⟨b.w, b.wd, b.neuron ++ [⟨position, weight⟩], state⟩

/-- src/SigmaPi.cpp lines 210-248 (second order), 272-311 (third), 339-379 (fourth): one unit. -/
def addUnit {τ : Type} (c : Constraint τ) (position : List ℕ) (b : Building τ) : Outcome (Building τ) :=
  if c.isDefault then ok (ownWeight b position 0 b.state)
  else do
    let r ← c.eval b.state position
    let found ← find b.w r.1 b.neuron
    match found with
    | none => ok (ownWeight b position r.1 r.2)
    | some weight => ok (sharedWeight b position weight r.2)

/-- src/SigmaPi.cpp lines 206-250 -/
def secondOrderUnits {τ : Type} (c : Constraint τ) (I : ℕ) : Building τ → Outcome (Building τ) :=
  forLoop (I - 1) fun p1 =>
    forLoop (I - (p1 + 1)) fun k2 => addUnit c [p1, p1 + 1 + k2]

/-- src/SigmaPi.cpp lines 266-314 -/
def thirdOrderUnits {τ : Type} (c : Constraint τ) (I : ℕ) : Building τ → Outcome (Building τ) :=
  forLoop (I - 2) fun p1 =>
    forLoop (I - 1 - (p1 + 1)) fun k2 =>
      forLoop (I - (p1 + 1 + k2 + 1)) fun k3 => addUnit c [p1, p1 + 1 + k2, p1 + 1 + k2 + 1 + k3]

/-- src/SigmaPi.cpp lines 331-383 -/
def fourthOrderUnits {τ : Type} (c : Constraint τ) (I : ℕ) : Building τ → Outcome (Building τ) :=
  forLoop (I - 3) fun p1 =>
    forLoop (I - 2 - (p1 + 1)) fun k2 =>
      forLoop (I - 1 - (p1 + 1 + k2 + 1)) fun k3 =>
        forLoop (I - (p1 + 1 + k2 + 1 + k3 + 1)) fun k4 =>
          addUnit c [p1, p1 + 1 + k2, p1 + 1 + k2 + 1 + k3, p1 + 1 + k2 + 1 + k3 + 1 + k4]

/-- The three kinds of nodes. -/
inductive Order where
  | second | third | fourth

def units {τ : Type} (o : Order) (c : Constraint τ) (I : ℕ) : Building τ → Outcome (Building τ) :=
  match o with
  | .second => secondOrderUnits c I
  | .third => thirdOrderUnits c I
  | .fourth => fourthOrderUnits c I

/-- src/SigmaPi.cpp line 200: `info.outputs() + bias`. -/
def Layer.width (l : Layer) : ℕ := l.inputs + if l.bias then 1 else 0

/-- src/SigmaPi.cpp lines 204-252 (260-316, 327-385): one neuron. -/
def addNode {τ : Type} (o : Order) (c : Constraint τ) (s : Layer × τ) : Outcome (Layer × τ) := do
  let b ← units o c s.1.width ⟨s.1.w, s.1.wd, [], s.2⟩
  ok ({ s.1 with w := b.w, wd := b.wd, nodes := s.1.nodes ++ [b.neuron] }, b.state)

/-- src/SigmaPi.cpp lines 178-389: `secondOrderNodes`, `thirdOrderNodes`, `fourthOrderNodes`. -/
def addNodes {τ : Type} (o : Order) (numbers : ℕ) (c : Constraint τ) (s : Layer × τ) : Outcome (Layer × τ) :=
  forLoop numbers (fun _ => addNode o c) s

/-- src/SigmaPi.cpp lines 86-91 and 130-137: the product of the inputs of a unit. -/
def product (x : Mat) (n : ℕ) : List ℕ → ℝ → Outcome ℝ
  | [], k => ok k
  | p :: ps, k => do
    let v ← x.get n p
    product x n ps (k * v)

/-- src/SigmaPi.cpp lines 83-94: the sum over the units. -/
def weightedSum (w : List ℝ) (x : Mat) (n : ℕ) : Neuron → ℝ → Outcome ℝ
  | [], sum => ok sum
  | u :: us, sum => do
    let k ← product x n u.position 1
    let wu ← Outcome.read w u.weight
    weightedSum w x n us (sum + wu * k)

/-- src/SigmaPi.cpp lines 81-96; `&n->front()` of an empty neuron is undefined. -/
def activation (w : List ℝ) (x : Mat) (n : ℕ) (neuron : Neuron) : Outcome ℝ :=
  match neuron with
  | [] => ub
  | us => weightedSum w x n us 0

/-- src/SigmaPi.cpp lines 75-98: the activations of all instances; `&nodes.front()` of an empty vector is undefined.  The order of
the instances (`omp parallel for`) does not matter, see C94. -/
def activations (l : Layer) (x : Mat) (junk : ℕ → ℕ → ℝ) : Outcome Mat :=
  forLoop x.rows (fun n a =>
    if l.nodes = [] then ub
    else forLoop l.nodes.length (fun i a => do
      let v ← activation l.w x n (l.nodes.getD i [])
      a.set n i v) a) ⟨x.rows, l.nodes.length, junk⟩

/-- src/SigmaPi.cpp lines 65-103, `forwardPropagate`.  The assignment in line 73 needs a matrix with `info.outputs()` columns.  The
result has `J + bias` columns (line 165); for layers with bias the pointer loops of the activation functions fill the first columns
only (`LINEAR` replaces the matrix) - the model has the first columns. -/
def forward (l : Layer) (x : Mat) (junk : ℕ → ℕ → ℝ) : Outcome Mat :=
  if x.cols ≠ l.inputs then ub
  else do
    let a ← activations l x junk
    ok ⟨a.rows, a.cols, fun n i => l.act.apply (a.val n i)⟩

/-- The error signals and the derivatives of the weights. -/
structure Grads where
  e : Mat
  wd : List ℝ

/-- src/SigmaPi.cpp lines 130-137: the product of a unit, the error signals of its inputs. -/
def backPositions (x : Mat) (n : ℕ) (wdelta : ℝ) : List ℕ → ℝ → Mat → Outcome (ℝ × Mat)
  | [], k, e => ok (k, e)
  | p :: ps, k, e => do
    let v ← x.get n p
    let old ← e.get n p
    let e' ← e.set n p (old + wdelta)
    backPositions x n wdelta ps (k * v) e'

/-- src/SigmaPi.cpp lines 130-139: one unit. -/
def backUnit (w : List ℝ) (x : Mat) (n : ℕ) (delta : ℝ) (u : HOUnit) (g : Grads) : Outcome Grads := do
  let wu ← Outcome.read w u.weight
  let r ← backPositions x n (wu * delta) u.position 1 g.e
  let old ← Outcome.read g.wd u.weight
  let wd' ← Outcome.write g.wd u.weight (old + delta * r.1)
  ok ⟨r.2, wd'⟩

/-- src/SigmaPi.cpp lines 128-140 -/
def backUnits (w : List ℝ) (x : Mat) (n : ℕ) (delta : ℝ) : Neuron → Grads → Outcome Grads
  | [], g => ok g
  | u :: us, g => backUnit w x n delta u g >>= backUnits w x n delta us

/-- src/SigmaPi.cpp lines 126-142: one neuron. -/
def backNeuron (l : Layer) (x y ein : Mat) (n i : ℕ) (g : Grads) : Outcome Grads := do
  let err ← ein.get n i
  let yv ← y.get n i
  match l.nodes.getD i [] with
  | [] => ub
  | us => backUnits l.w x n (err * l.act.deriv yv) us g

/-- src/SigmaPi.cpp lines 106-147, `backpropagate`.  `x` is the copy of the input that `forwardPropagate` made (for a layer without
bias), `y` the output. -/
def backward (l : Layer) (x y ein : Mat) : Outcome Grads :=
  forLoop x.rows (fun n g =>
    if l.nodes = [] then ub else forLoop l.nodes.length (fun i => backNeuron l x y ein n i) g)
    ⟨⟨x.rows, l.inputs, fun _ _ => 0⟩, List.replicate l.wd.length 0⟩

end

end Verif.SigmaPi
