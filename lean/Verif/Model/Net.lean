import Verif.Model.Layer
import Verif.Model.Outcome

/-!
# The network (src/Net.cpp)

`Mem` is the content of the buffers of all layers.
-/

namespace Verif.NN

open Finset

/-- Buffers of the layers by layer index. -/
abbrev Mem := ℕ → Weights

/-- OpenANN/Net.h lines 37-46: the layers and whether the error function is cross entropy. -/
structure Net where
  layers : List Layer
  ce : Bool

/-- A parameter of a network: layer index and place in the layer. -/
abbrev Loc := ℕ × Slot

/-- `Net::parameters` after the layers of `ls` were added with src/Net.cpp lines 144-153 (layer index starts at `k`). -/
def locsFrom : ℕ → List Layer → List Loc
  | _, [] => []
  | k, l :: ls => l.pointers.map (fun s => (k, s)) ++ locsFrom (k + 1) ls

/-- `Net::derivatives`, likewise. -/
def derivLocsFrom : ℕ → List Layer → List Loc
  | _, [] => []
  | k, l :: ls => l.derivPointers.map (fun s => (k, s)) ++ derivLocsFrom (k + 1) ls

def Net.parameters (net : Net) : List Loc := locsFrom 0 net.layers

def Net.derivatives (net : Net) : List Loc := derivLocsFrom 0 net.layers

/-- src/Net.cpp line 606, `P`, returned by `dimension()`. -/
def Net.P (net : Net) : ℕ := net.parameters.length

/-- `infos.back().outputs()`. -/
def Net.outputs (net : Net) : ℕ := (net.layers.getLast?.map Layer.outputs).getD 0

noncomputable section

/-- src/Net.cpp lines 619-622: the loop of `forwardPropagate` over the layers `ls`, the first of which has index `k`. -/
def forwardFrom (mem : Mem) (N : ℕ) : ℕ → List Layer → Batch → Batch
  | _, [], x => x
  | k, l :: ls, x => forwardFrom mem N (k + 1) ls (l.forward (mem k) N x)

/-- What the same loop adds to `*error`. -/
def regFrom (mem : Mem) : ℕ → List Layer → ℝ
  | _, [] => 0
  | k, l :: ls => l.regError (mem k) + regFrom mem (k + 1) ls

/-- The layers with their index and the input that each of them received (and keeps a pointer to). -/
def traceFrom (mem : Mem) (N : ℕ) : ℕ → List Layer → Batch → List (ℕ × Layer × Batch)
  | _, [], _ => []
  | k, l :: ls, x => (k, l, x) :: traceFrom mem N (k + 1) ls (l.forward (mem k) N x)

/-- `*y` at the end of the loop of `forwardPropagate`. -/
def Net.activations (net : Net) (mem : Mem) (N : ℕ) (X : Batch) : Batch := forwardFrom mem N 0 net.layers X

/-- src/Net.cpp lines 617-627: `tempOutput` after `forwardPropagate`. -/
def Net.output (net : Net) (mem : Mem) (N : ℕ) (X : Batch) : Batch :=
  if net.ce then softmax N net.outputs (net.activations mem N X) else net.activations mem N X

/-- src/Net.cpp lines 635-641, one step of the loop of `backpropagate`; the loop variable `l` is the index plus one.  The
state is the error signal and the derivative buffers; `stale` are the contents of the error buffers before the call. -/
def backStep (mem : Mem) (N : ℕ) (stale : ℕ → Batch) (t : ℕ × Layer × Batch) (st : Batch × Mem) : Batch × Mem :=
  (t.2.1.back (mem t.1) N t.2.2 st.1 (decide (t.1 + 1 > 2)) (stale t.1),
    Function.update st.2 t.1 (t.2.1.derivs (mem t.1) N t.2.2 st.1))

/-- src/Net.cpp lines 629-642: `backpropagate`, over the layers in reverse order. -/
def backFrom (mem : Mem) (N : ℕ) (stale : ℕ → Batch) (k : ℕ) (ls : List Layer) (x e : Batch) (d : Mem) : Batch × Mem :=
  (traceFrom mem N k ls x).foldr (backStep mem N stale) (e, d)

/-- The error function of src/Net.cpp lines 594-595 for output `Y` and targets `T`. -/
def Net.loss (net : Net) (N : ℕ) (Y T : Batch) : ℝ :=
  if net.ce then crossEntropy N net.outputs Y T else meanSquaredError N net.outputs (fun n j => Y n j - T n j)

/-- Buffers that are not inputs of a call: the old contents of the derivative and error buffers. -/
structure Scratch where
  derivs : Mem
  stale : ℕ → Batch

/-- src/Net.cpp lines 578-602, `errorGradient`: `value` for the batch with instances `X` and targets `T` (`N` rows). -/
def Net.value (net : Net) (mem : Mem) (N : ℕ) (X T : Batch) : ℝ :=
  regFrom mem 0 net.layers + net.loss N (net.output mem N X) T

/-- src/Net.cpp lines 593, 597-601, `errorGradient`: `grad`. -/
def Net.grad (net : Net) (mem : Mem) (sc : Scratch) (N : ℕ) (X T : Batch) : List ℝ :=
  net.derivatives.map fun p =>
    (backFrom mem N sc.stale 0 net.layers X (fun n j => net.output mem N X n j - T n j) sc.derivs).2 p.1 p.2 / N

/-- `*p = v`. -/
def Mem.write (mem : Mem) (p : Loc) (v : ℝ) : Mem := fun k s => if (k, s) = p then v else mem k s

/-- src/Net.cpp lines 495-496: the loop of `setParameters`. -/
def Mem.writeAll (mem : Mem) (ps : List Loc) (θ : List ℝ) : Mem :=
  (ps.zip θ).foldl (fun m pv => m.write pv.1 pv.2) mem

/-- src/Net.cpp lines 497-499: `updatedParameters` of all layers. -/
def updatedFrom : ℕ → List Layer → Mem → Mem
  | _, [], mem => mem
  | k, l :: ls, mem => updatedFrom (k + 1) ls (Function.update mem k (l.updated (mem k)))

/-- src/Net.cpp lines 494-499: the weights after `setParameters` with a vector that has at least `dimension()` entries. -/
def Net.setParameters (net : Net) (mem : Mem) (θ : List ℝ) : Mem :=
  updatedFrom 0 net.layers (mem.writeAll net.parameters θ)

/-- The training set as far as the optimisation interface of `Net` uses it (OpenANN/io/DataSet.h):
instances and targets by index. -/
structure TrainSet where
  samples : ℕ
  inst : Batch
  tgt : Batch

/-- src/Net.cpp lines 583-590: the rows that an index range selects. -/
def selectRows (m : Batch) (idx : List ℕ) : Batch := fun n => m (idx.getD n 0)

/-- src/Net.cpp lines 578-602, `errorGradient(startN, endN, value, grad)` for the indices `idx`: `value` and `grad`. -/
def Net.errorGradient (net : Net) (mem : Mem) (sc : Scratch) (ds : TrainSet) (idx : List ℕ) : ℝ × List ℝ :=
  (net.value mem idx.length (selectRows ds.inst idx) (selectRows ds.tgt idx),
    net.grad mem sc idx.length (selectRows ds.inst idx) (selectRows ds.tgt idx))

/-- src/Net.cpp lines 569-576, `errorGradient(value, grad)`. -/
def Net.errorGradientAll (net : Net) (mem : Mem) (sc : Scratch) (ds : TrainSet) : ℝ × List ℝ :=
  net.errorGradient mem sc ds (List.range ds.samples)

/-- src/Net.cpp lines 517-528, `error(n)`. -/
def Net.errorAt (net : Net) (mem : Mem) (ds : TrainSet) (n : ℕ) : ℝ :=
  net.loss 1 (net.output mem 1 fun _ => ds.inst n) (fun _ => ds.tgt n) + regFrom mem 0 net.layers

/-- src/Net.cpp lines 530-536, `error()`. -/
def Net.error (net : Net) (mem : Mem) (ds : TrainSet) : ℝ :=
  (List.range ds.samples).foldl (fun e n => e + net.errorAt mem ds n / ds.samples) 0

/-- src/Net.cpp lines 463-468, `operator()` for one vector: row 0 of the result. -/
def Net.predict (net : Net) (mem : Mem) (x : ℕ → ℝ) : ℕ → ℝ := net.output mem 1 (fun _ => x) 0

/-- src/Net.cpp lines 470-475, `operator()` for a matrix with `N` rows. -/
def Net.predictAll (net : Net) (mem : Mem) (N : ℕ) (X : Batch) : Batch := net.output mem N X

/-- The weights and `parameterVector` (OpenANN/Net.h line 47). -/
structure NetState where
  mem : Mem
  vector : List ℝ

/-- src/Net.cpp lines 492-500, `setParameters`; a vector with fewer than `P` entries is read out of bounds. -/
def Net.set (net : Net) (s : NetState) (θ : List ℝ) : Outcome NetState :=
  if θ.length < net.P then .ub else .ok ⟨net.setParameters s.mem θ, θ⟩

/-- src/Net.cpp lines 507-515, `initialize`: `mem` are the weights after `initializeParameters` of all layers (any numbers);
also the end of `initializeNetwork`, lines 611-613. -/
def Net.initialized (net : Net) (mem : Mem) : NetState := ⟨mem, net.parameters.map fun p => mem p.1 p.2⟩

/-- src/Net.cpp lines 487-490. -/
def Net.currentParameters (s : NetState) : List ℝ := s.vector

end

end Verif.NN
