import Verif.Model.AlphaBeta
import Verif.Model.Loop
import Verif.Model.Net

/-!
# Networks with an alpha-beta filter (src/AlphaBetaFilter.cpp, src/Net.cpp)

`Model/AlphaBeta.lean` describes the filter after its first `updatedParameters`.  Here the filter is a layer of a network, from
the constructor on.  The constructor allocates `alpha`, `beta` and `y` and leaves their contents indeterminate; using an
indeterminate number is undefined.

The network has the layers `pre`, the filter and the layers `post`; their memory is that of `Model/Net.lean`, where the filter has
the index `pre.length`.  Simplifications: the filter has at least one input; dropout is not active; `errorGradient` describes the
value and the derivatives of the parameters of the filter only.
-/

namespace Verif.FilterNet

open Verif.NN Verif.AlphaBeta

/-- OpenANN/Net.h lines 37-46, with the constructor arguments of the filter (src/AlphaBetaFilter.cpp lines 7-11). -/
structure FNet where
  pre : List Layer
  post : List Layer
  I : ℕ
  deltaT : ℝ
  ce : Bool

/-- The weights of the other layers, the members of the filter (OpenANN/layers/AlphaBetaFilter.h lines 23-32) and
`parameterVector`.  `none` is indeterminate; `coeffs` are `alpha` and `beta`, `y` are the estimated values and velocities. -/
structure State where
  mem : Mem
  gamma : ℕ → ℝ
  coeffs : Option ((ℕ → ℝ) × (ℕ → ℝ))
  first : Bool
  y : Option ((ℕ → ℝ) × (ℕ → ℝ))
  vector : List ℝ

/-- `Net::parameters` of the layers before the filter. -/
def FNet.preLocs (net : FNet) : List Loc := locsFrom 0 net.pre

/-- `Net::parameters` of the layers behind the filter. -/
def FNet.postLocs (net : FNet) : List Loc := locsFrom (net.pre.length + 1) net.post

/-- src/Net.cpp line 606 with src/AlphaBetaFilter.cpp lines 16-22: `dimension()` -/
def FNet.P (net : FNet) : ℕ := net.preLocs.length + net.I + net.postLocs.length

/-- `infos.back().outputs()` -/
def FNet.outputs (net : FNet) : ℕ := (net.post.getLast?.map Layer.outputs).getD (2 * net.I)

noncomputable section

/-- src/Net.cpp lines 513-514 and 611-612: `parameterVector(p) = *parameters[p]` -/
def FNet.readParameters (net : FNet) (mem : Mem) (gamma : ℕ → ℝ) : List ℝ :=
  net.preLocs.map (fun p => mem p.1 p.2) ++ (List.range net.I).map gamma ++ net.postLocs.map (fun p => mem p.1 p.2)

/-- A new network after `outputLayer`: src/AlphaBetaFilter.cpp lines 7-36 and src/Net.cpp lines 604-615; `mem` and `gamma` are
the random numbers of `initializeParameters`. -/
def FNet.create (net : FNet) (mem : Mem) (gamma : ℕ → ℝ) : State :=
  ⟨mem, gamma, none, true, none, net.readParameters mem gamma⟩

/-- src/Net.cpp lines 507-515, `initialize`; src/AlphaBetaFilter.cpp lines 31-36 write `gamma` and `gammad` only. -/
def FNet.initialize (net : FNet) (s : State) (mem : Mem) (gamma : ℕ → ℝ) : State :=
  { s with mem := mem, gamma := gamma, vector := net.readParameters mem gamma }

/-- The parameters of the filter in a parameter vector. -/
def FNet.gammaOf (net : FNet) (θ : List ℝ) : ℕ → ℝ := fun i => θ.getD (net.preLocs.length + i) 0

/-- src/Net.cpp lines 495-499 for the layers before and behind the filter -/
def FNet.writeWeights (net : FNet) (mem : Mem) (θ : List ℝ) : Mem :=
  updatedFrom (net.pre.length + 1) net.post (updatedFrom 0 net.pre
    ((mem.writeAll net.preLocs θ).writeAll net.postLocs (θ.drop (net.preLocs.length + net.I))))

/-- src/Net.cpp lines 492-500, `setParameters`, with src/AlphaBetaFilter.cpp lines 38-55; a vector with fewer than `P` entries is
read out of bounds. -/
def FNet.set (net : FNet) (s : State) (θ : List ℝ) : Outcome State :=
  if θ.length < net.P then .ub
  else .ok ⟨net.writeWeights s.mem θ, fun i => |net.gammaOf θ i|,
    some (fun i => 1 - root |net.gammaOf θ i| * root |net.gammaOf θ i|,
      fun i => 2 * (1 - root |net.gammaOf θ i|) * (1 - root |net.gammaOf θ i|)),
    true, some (fun _ => 0, fun _ => 0), θ⟩

/-- src/AlphaBetaFilter.cpp lines 51-55, `reset`, which a program can call with the help of `getLayer` -/
def State.reset (s : State) : State := { s with first := true, y := some (fun _ => 0, fun _ => 0) }

/-- The filter, if none of its members is indeterminate. -/
def FNet.filter (net : FNet) (s : State) : Outcome Filter :=
  match s.coeffs, s.y with
  | some c, some y => .ok ⟨net.deltaT, s.gamma, c.1, c.2, s.first, y.1, y.2⟩
  | _, _ => .ub

/-- The output of the filter (src/AlphaBetaFilter.cpp lines 63-77) as matrix with one row. -/
def interleave (f : Filter) : Batch := fun _ j => if j % 2 = 0 then f.value (j / 2) else f.velocity (j / 2)

/-- The network behind the filter with src/Net.cpp lines 623-626: `tempOutput`, which has one row. -/
def FNet.answer (net : FNet) (mem : Mem) (y : Batch) : Batch :=
  if net.ce then softmax 1 net.outputs (forwardFrom mem 1 (net.pre.length + 1) net.post y)
  else forwardFrom mem 1 (net.pre.length + 1) net.post y

/-- src/Net.cpp lines 617-627, `forwardPropagate`, for the `N` rows of `X`: `tempOutput` and the new state.
src/AlphaBetaFilter.cpp lines 57-78 read row 0 of their input. -/
def FNet.forward (net : FNet) (s : State) (N : ℕ) (X : Batch) : Outcome (Batch × State) :=
  if N = 0 then .ub
  else net.filter s >>= fun f =>
    .ok (net.answer s.mem (interleave (f.forward (forwardFrom s.mem N 0 net.pre X 0))),
      { s with
        first := (f.forward (forwardFrom s.mem N 0 net.pre X 0)).first
        y := some ((f.forward (forwardFrom s.mem N 0 net.pre X 0)).value,
          (f.forward (forwardFrom s.mem N 0 net.pre X 0)).velocity) })

/-- The error function for one row. -/
def FNet.loss (net : FNet) (Y : Batch) (t : ℕ → ℝ) : ℝ :=
  if net.ce then crossEntropy 1 net.outputs Y (fun _ => t) else meanSquaredError 1 net.outputs (fun n j => Y n j - t j)

/-- What the layers add to the error; the filter adds nothing. -/
def FNet.reg (net : FNet) (mem : Mem) : ℝ := regFrom mem 0 net.pre + regFrom mem (net.pre.length + 1) net.post

/-- src/Net.cpp lines 517-528, `error(n)` -/
def FNet.errorAt (net : FNet) (ds : TrainSet) (s : State) (n : ℕ) : Outcome (ℝ × State) :=
  net.forward s 1 (fun _ => ds.inst n) >>= fun r => .ok (net.loss r.1 (ds.tgt n) + net.reg s.mem, r.2)

/-- src/Net.cpp lines 530-536, `error()` -/
def FNet.error (net : FNet) (ds : TrainSet) (s : State) : Outcome (ℝ × State) :=
  forLoop ds.samples (fun n p => net.errorAt ds p.2 n >>= fun r => .ok (p.1 + r.1 / (ds.samples : ℝ), r.2)) (0, s)

/-- src/Net.cpp lines 578-602, `errorGradient` for the indices `idx`: `value` and the entries of `grad` for the parameters of the
filter.  `tempOutput` has one row and `T` has one for each index; the difference of line 594 violates an assertion of Eigen if
these numbers differ.  `gammad` is zero (src/AlphaBetaFilter.cpp line 35) and `backpropagate` (lines 80-85) does not change it. -/
def FNet.errorGradient (net : FNet) (ds : TrainSet) (s : State) (idx : List ℕ) : Outcome ((ℝ × List ℝ) × State) :=
  net.forward s idx.length (selectRows ds.inst idx) >>= fun r =>
    if idx.length = 1 then
      .ok ((net.reg s.mem + net.loss r.1 (selectRows ds.tgt idx 0), (List.range net.I).map fun _ => 0 / (idx.length : ℝ)), r.2)
    else .ub

/-- A call of the network by a program. -/
inductive Call where
  /-- src/Net.cpp lines 463-475, `operator()`; a vector is a matrix with one row -/
  | predict (N : ℕ) (X : Batch)
  | errorAt (n : ℕ)
  | error
  | errorGradient (idx : List ℕ)
  | setParameters (θ : List ℝ)
  | initializeNet (mem : Mem) (gamma : ℕ → ℝ)
  | reset
  | currentParameters

/-- What a call returns. -/
inductive Answer where
  | nothing
  | matrix (rows : ℕ) (Y : Batch)
  | number (e : ℝ)
  | gradient (e : ℝ) (g : List ℝ)
  | vector (θ : List ℝ)

def FNet.step (net : FNet) (ds : TrainSet) (s : State) : Call → Outcome (Answer × State)
  | .predict N X => net.forward s N X >>= fun r => .ok (.matrix 1 r.1, r.2)
  | .errorAt n => net.errorAt ds s n >>= fun r => .ok (.number r.1, r.2)
  | .error => net.error ds s >>= fun r => .ok (.number r.1, r.2)
  | .errorGradient idx => net.errorGradient ds s idx >>= fun r => .ok (.gradient r.1.1 r.1.2, r.2)
  | .setParameters θ => net.set s θ >>= fun s => .ok (.nothing, s)
  | .initializeNet mem gamma => .ok (.nothing, net.initialize s mem gamma)
  | .reset => .ok (.nothing, s.reset)
  | .currentParameters => .ok (.vector s.vector, s)

/-- The answers of a sequence of calls and the state after them. -/
def FNet.run (net : FNet) (ds : TrainSet) : List Call → State → Outcome (List Answer × State)
  | [], s => .ok ([], s)
  | c :: cs, s => net.step ds s c >>= fun r => net.run ds cs r.2 >>= fun q => .ok (r.1 :: q.1, q.2)

/-- src/Net.cpp lines 245-426: `load` of a saved network creates the layers (with random weights) and sets the saved
parameters. -/
def FNet.load (net : FNet) (mem : Mem) (gamma : ℕ → ℝ) (saved : List ℝ) : Outcome State := net.set (net.create mem gamma) saved

end

end Verif.FilterNet
