import Verif.Model.LayerParameters
import Verif.Model.Train

/-!
# Layers of a network that are trained on their own

`Net::getLayer` (src/Net.cpp lines 190-194) gives access to a layer of a network.  `RBM` and `SparseAutoEncoder` are
learners, so that such a layer can be trained on its own like in benchmarks/mnist/rbm.cpp lines 228-248.  The layer and the
network then work on the same weights, but each of them has a copy of its own parameters: `parameterVector` of the network
(OpenANN/Net.h line 47), `params` of `RBM` (OpenANN/layers/RBM.h) and `parameters` of `SparseAutoEncoder`.

Simplifications: only `W` and `bh` of an RBM and `W1` and `b1` of an autoencoder are described, the numbers that the network
uses.  `initialize` leaves the random matrix of an `Extreme` layer out, which is part of `Kind`.
-/

namespace Verif.Pretrain

open Verif.NN

/-- The network with the copies of the layers: `own l` are the entries of `params` or `parameters` of layer `l`. -/
structure Pre where
  net : NetState
  own : ℕ → Weights

noncomputable section

/-- src/RBM.cpp lines 68-73 and src/SparseAutoEncoder.cpp lines 52-57: `setParameters` of layer `l` with `I` inputs and `H`
hidden units. -/
def Pre.setOwn (s : Pre) (l I H : ℕ) (w : Weights) : Pre :=
  ⟨⟨fun n p => if n = l ∧ p ∈ weightsThenBiases I H then w p else s.net.mem n p, s.net.vector⟩,
    fun n => if n = l then w else s.own n⟩

/-- `initializeParameters` of a layer with the weights `w`; `draw` are the random numbers for its weights.
src/FullyConnected.cpp lines 42-48, src/Compressed.cpp lines 53-58, OpenANN/layers/RBM.h (empty), src/SparseAutoEncoder.cpp
lines 191-205, src/Convolutional.cpp lines 86-98, src/Subsampling.cpp lines 83-92; the other layers have no weights in
`Weights`. -/
def initializeParameters (draw w : Weights) : Kind → Weights
  | .fullyConnected _ bias _ _ => redraw bias
  | .compressed _ _ _ _ _ _ => redraw false
  | .rbm _ _ => w
  | .sparseAutoEncoder _ _ _ => fun
    | .w i => draw (.w i)
    | .b _ => 0
  | .conv g => redraw g.bias
  | .sub _ bias _ _ => redraw bias
  | _ => w
where
  /-- New weights, and new biases if there are any. -/
  redraw (bias : Bool) : Weights
    | .w i => draw (.w i)
    | .b i => if bias then draw (.b i) else w (.b i)

/-- src/Net.cpp lines 510-512: the loop over the layers (the input layer has no parameters). -/
def initializeAll (ks : List Kind) (draw mem : Mem) : Mem
  | 0 => mem 0
  | n + 1 =>
    match ks[n]? with
    | some k => initializeParameters (draw (n + 1)) (mem (n + 1)) k
    | none => mem (n + 1)

/-- What a program does with the network and with its layers. -/
inductive Call where
  /-- `net.getLayer(l)` is cast to an RBM or an autoencoder and trained on its own: at the end the optimiser calls
  `setParameters(w)` of the layer -/
  | learn (l : ℕ) (w : Weights)
  /-- `Net::initialize` -/
  | initializeNet (draw : Mem)
  /-- `Net::setParameters` -/
  | setParameters (θ : List ℝ)

/-- The effect of a call on a network with `D` inputs and the layers `ks` that has its output layer already. -/
def step (D : ℕ) (ks : List Kind) (ce : Bool) : Call → Pre → Outcome Pre
  | .learn l w, s => getLayer D ks l >>= fun r =>
    match r.2 with
    | .known (.rbm H _) => .ok (s.setOwn l r.1 H w)
    | .known (.sparseAutoEncoder H _ _) => .ok (s.setOwn l r.1 H w)
    | _ => .ub
  | .initializeNet draw, s => .ok ⟨(buildNet D ks ce).initialized (initializeAll ks draw s.net.mem), s.own⟩
  | .setParameters θ, s => (buildNet D ks ce).set s.net θ >>= fun t => .ok ⟨t, s.own⟩

/-- Several calls, one after the other. -/
def run (D : ℕ) (ks : List Kind) (ce : Bool) : List Call → Pre → Outcome Pre
  | [], s => .ok s
  | c :: cs, s => step D ks ce c s >>= run D ks ce cs

/-- An optimiser at work on the network, including `setParameters` in `result()` (see `Verif.Model.Train`).  The numbers that
an evaluation returns depend on the weights in the layers. -/
def exec (net : Net) (eval : Mem → ℕ → List ℝ) : Train.Prog → NetState → Outcome (Train.End × NetState)
  | .done θ, s => net.set s θ >>= fun t => .ok (.done θ, t)
  | .raise, s => .ok (.raised, s)
  | .currentParameters next, s => exec net eval (next (Net.currentParameters s)) s
  | .setParameters θ next, s => net.set s θ >>= fun t => exec net eval next t
  | .evaluate q next, s => exec net eval (next (eval s.mem q)) s
  | .finishedIteration next, s => exec net eval next s

/-- The beginning of a run of `MBSGD` without Nesterov momentum (src/MBSGD.cpp lines 100-124, 184): the parameters are those
of `currentParameters`, the first gradient is evaluated without a call of `setParameters` before.  `move` is the change that
lines 107-121 compute from the gradient. -/
def mbsgd (move : List ℝ → List ℝ) (next : List ℝ → Train.Prog) : Train.Prog :=
  .currentParameters fun v => .evaluate 0 fun g =>
    .setParameters (List.zipWith (· + ·) v (move g)) (next (List.zipWith (· + ·) v (move g)))

end

end Verif.Pretrain
