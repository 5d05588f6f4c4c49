import Verif.Model.SigmaPi

/-!
# A sigma-pi layer in a network (src/SigmaPi.cpp, src/Net.cpp)

A network that consists of the input layer and a sigma-pi layer, which is its output layer.  The weights of a sigma-pi layer are in a
`std::vector<double>`; the network refers to them by pointers, which are invalid as soon as the vector has been moved to another place.
A vector is moved exactly if it becomes larger than its capacity; the new capacity is left open (`alloc`).
Pointers are pairs of the number of the place (`gen`) and an index.

Simplification: the error function is the mean squared error (no softmax) and dropout is not used.
-/

namespace Verif.SigmaPiNet

open Outcome SigmaPi NN

noncomputable section

/-- A `std::vector` of doubles without its elements: capacity and number of the place. -/
structure Place where
  cap : ℕ
  gen : ℕ

/-- `push_back` until the vector has `n` elements (src/SigmaPi.cpp lines 232, 233, 242 and 243, e.g.) -/
def Place.grow (alloc : ℕ → ℕ) (p : Place) (n : ℕ) : Place := if n ≤ p.cap then p else ⟨max n (alloc n), p.gen + 1⟩

/-- The layer and its network; `cols` is the number of columns of `a`, `vec` is `parameterVector`, `τ` the state of the constraints. -/
structure State (τ : Type) where
  layer : Layer
  con : τ
  w : Place
  wd : Place
  cols : ℕ
  params : List (ℕ × ℕ)
  derivs : List (ℕ × ℕ)
  vec : List ℝ

/-- A new layer on `inputs` inputs, src/SigmaPi.cpp lines 43-49 -/
def create {τ : Type} (inputs : ℕ) (bias : Bool) (act : Act) (con : τ) : State τ :=
  ⟨⟨inputs, bias, act, [], [], []⟩, con, ⟨0, 0⟩, ⟨0, 0⟩, 0, [], [], []⟩

/-- `secondOrderNodes`, `thirdOrderNodes`, `fourthOrderNodes` (src/SigmaPi.cpp lines 178-389) -/
def addNodes {τ : Type} (alloc : ℕ → ℕ) (o : Order) (numbers : ℕ) (c : Constraint τ) (s : State τ) : Outcome (State τ) :=
  SigmaPi.addNodes o numbers c (s.layer, s.con) >>= fun r =>
  .ok { s with layer := r.1, con := r.2, w := s.w.grow alloc r.1.w.length, wd := s.wd.grow alloc r.1.wd.length }

/-- src/SigmaPi.cpp lines 52-58, `initializeParameters`: one random number for each unit; `draws k` is the `k`-th random number. -/
def drawWeights (stdDev : ℝ) (draws : ℕ → ℝ) : List HOUnit → ℕ → List ℝ → Outcome (List ℝ)
  | [], _, w => .ok w
  | u :: us, k, w => Outcome.write w u.weight (draws k * stdDev) >>= fun w => drawWeights stdDev draws us (k + 1) w

/-- `*p`; undefined if the vector has been moved since the pointer was made -/
def deref (place : Place) (v : List ℝ) (p : ℕ × ℕ) : Outcome ℝ := if p.1 = place.gen then Outcome.read v p.2 else .ub

/-- `parameterVector(p) = *parameters[p]` for all `p`, src/Net.cpp lines 513, 514, 612 and 613 -/
def derefAll (place : Place) (v : List ℝ) : List (ℕ × ℕ) → Outcome (List ℝ)
  | [] => .ok []
  | p :: ps => deref place v p >>= fun a => derefAll place v ps >>= fun as => .ok (a :: as)

/-- `*parameters[p] = parameters(p)` for all `p`, src/Net.cpp lines 495 and 496; a vector that is too short is read beyond its end -/
def assignAll (place : Place) : List (ℕ × ℕ) → List ℝ → List ℝ → Outcome (List ℝ)
  | [], _, v => .ok v
  | _ :: _, [], _ => .ub
  | p :: ps, a :: as, v => (if p.1 = place.gen then Outcome.write v p.2 a else .ub) >>= fun v => assignAll place ps as v

/-- `addOutputLayer(layer)`: src/Net.cpp lines 144-160 and 604-615, src/SigmaPi.cpp lines 155-175 -/
def addOutputLayer {τ : Type} (stdDev : ℝ) (draws : ℕ → ℝ) (s : State τ) : Outcome (State τ) :=
  let params := s.params ++ (List.range s.layer.w.length).map fun i => (s.w.gen, i)
  let derivs := s.derivs ++ (List.range s.layer.w.length).map fun i => (s.wd.gen, i)
  drawWeights stdDev draws s.layer.nodes.flatten 0 s.layer.w >>= fun w =>
  derefAll s.w w params >>= fun vec =>
  .ok { s with layer := { s.layer with w := w }, cols := s.layer.nodes.length, params := params, derivs := derivs, vec := vec }

/-- `Net::initialize()`, src/Net.cpp lines 507-515 -/
def initNet {τ : Type} (stdDev : ℝ) (draws : ℕ → ℝ) (s : State τ) : Outcome (State τ) :=
  drawWeights stdDev draws s.layer.nodes.flatten 0 s.layer.w >>= fun w =>
  derefAll s.w w s.params >>= fun vec => .ok { s with layer := { s.layer with w := w }, vec := vec }

/-- `Net::dimension()`, src/Net.cpp lines 477-480 and 606 -/
def dimension {τ : Type} (s : State τ) : ℕ := s.params.length

/-- `Net::setParameters`, src/Net.cpp lines 492-500 -/
def setParameters {τ : Type} (p : List ℝ) (s : State τ) : Outcome (State τ) :=
  assignAll s.w s.params p s.layer.w >>= fun w => .ok { s with layer := { s.layer with w := w }, vec := p }

/-- src/SigmaPi.cpp lines 75-98 with a matrix `a` of `cols` columns -/
def activationsIn (cols : ℕ) (l : Layer) (x : Mat) (junk : ℕ → ℕ → ℝ) : Outcome Mat :=
  forLoop x.rows (fun n a =>
    if l.nodes = [] then ub
    else forLoop l.nodes.length (fun i a => do
      let v ← activation l.w x n (l.nodes.getD i [])
      a.set n i v) a) ⟨x.rows, cols, junk⟩

/-- `Net::operator()` (src/Net.cpp lines 463-475), src/SigmaPi.cpp lines 65-103 -/
def predict {τ : Type} (s : State τ) (x : Mat) (junk : ℕ → ℕ → ℝ) : Outcome Mat :=
  if x.cols ≠ s.layer.inputs then ub
  else activationsIn s.cols s.layer x junk >>= fun a => .ok ⟨a.rows, a.cols, fun n i => s.layer.act.apply (a.val n i)⟩

/-- The gradient of `Net::errorGradient` for the error signals `ein`: `backpropagate` (src/SigmaPi.cpp lines 106-147) writes into `wd`, the
network reads the derivatives (src/Net.cpp lines 527-530, e.g.). -/
def gradient {τ : Type} (s : State τ) (x y ein : Mat) : Outcome (List ℝ) :=
  backward s.layer x y ein >>= fun g => derefAll s.wd g.wd s.derivs

/-- Calls while the layer is built. -/
inductive BuildOp (τ : Type) where
  | nodes (o : Order) (numbers : ℕ) (c : Constraint τ)

def build {τ : Type} (alloc : ℕ → ℕ) (s : State τ) : List (BuildOp τ) → Outcome (State τ)
  | [] => .ok s
  | .nodes o numbers c :: ops => addNodes alloc o numbers c s >>= fun s => build alloc s ops

/-- Calls afterwards. -/
inductive UseOp where
  | init (draws : ℕ → ℝ)
  | set (p : List ℝ)

def use {τ : Type} (stdDev : ℝ) (s : State τ) : List UseOp → Outcome (State τ)
  | [] => .ok s
  | .init draws :: ops => initNet stdDev draws s >>= fun s => use stdDev s ops
  | .set p :: ops => setParameters p s >>= fun s => use stdDev s ops

end

end Verif.SigmaPiNet
