import Verif.Model.NetFile
import Verif.Model.Arch
import Verif.Model.Compression

/-!
# What a network built by a sequence of calls computes

`Verif.Model.NetFile` models a network as far as its file format is concerned (calls, shapes, parameter vector),
`Verif.Model.Arch` the functions that the layers compute.  This file connects the two: `sem` is the network of
`Verif.Model.Arch` that a network of `Verif.Model.NetFile` stands for.

Numbers that a layer keeps and that are not in the parameter vector are arguments (`Hidden`).  Not described are networks
with an `AlphaBetaFilter`, with an input layer that is not the first layer, or with negative input dimensions.
-/

namespace Verif.NetSem

open Verif.NN Verif.NetFile

/-- Numbers of a layer that are not in the parameter vector of the network. -/
structure Hidden where
  /-- `W` of `Extreme`, random (src/Extreme.cpp lines 24-28) -/
  extreme : Batch
  /-- the numbers drawn for the compression matrix (src/CompressionMatrixFactory.cpp lines 38-89) -/
  phi : Batch
  /-- `s` of `IntrinsicPlasticity`, 1 in a new layer (src/IntrinsicPlasticity.cpp line 34), changed by its training -/
  slopes : ℕ → ℝ
  /-- `b` of `IntrinsicPlasticity`, random in a new layer (lines 35-36) -/
  biases : ℕ → ℝ

noncomputable section

/-- src/ActivationFunctions.cpp lines 8-31 with the numbers of OpenANN/ActivationFunctions.h lines 9-69. -/
def actOf (a : ℤ) : Act :=
  if a = 0 then .logistic else if a = 1 then .tanh else if a = 2 then .tanhScaled else if a = 3 then .rectifier else .linear

/-- The regularisation settings that a layer got from its network. -/
def regOf (r : NetFile.Reg ℝ) : NN.Reg := ⟨r.l1, r.l2, r.maxNorm⟩

/-- src/Compressed.cpp lines 17-26. -/
def transformationOf (name : List Char) : Compression.Transformation :=
  if name = "gaussian".toList then .gaussian
  else if name = "dct".toList then .dct
  else if name = "average".toList then .average
  else if name = "edge".toList then .edge
  else .sparseRandom

/-- src/Compressed.cpp lines 27-30: `phi` for `I` inputs and `M` parameters per neuron (zero where the code does not get to
the end of the constructor). -/
def phiOf (t : Compression.Transformation) (I M : ℕ) (draw : Batch) : Batch :=
  match (do
    let f ← Compression.Factory.new (I + 1) M t
    f.create draw ⟨M, I + 1, fun _ _ => 0⟩ : Outcome Compression.Mat) with
  | .ok m => m.at_
  | _ => fun _ _ => 0

/-- src/Net.cpp lines 42-183: the layer object that a call creates on top of outputs of shape `dims`.  A network predicts
with `dropout` switched off (OpenANN/Net.h, `useDropout`). -/
def kindOf (h : Hidden) (dims : List ℤ) (r : NetFile.Reg ℝ) : Cmd ℝ → Option NN.Kind
  | .fullyConnected u a _ b => some (.fullyConnected u.toNat b (actOf a) (regOf r))
  | .output u a _ b => some (.fullyConnected u.toNat b (actOf a) (regOf r))
  | .compressed u p a c _ b => some (.compressed u.toNat p.toNat b (actOf a) (regOf r)
      (phiOf (transformationOf c) (outputs dims).toNat p.toNat h.phi))
  | .compressedOutput u p a c _ b => some (.compressed u.toNat p.toNat b (actOf a) (regOf r)
      (phiOf (transformationOf c) (outputs dims).toNat p.toNat h.phi))
  | .extreme u a _ b => some (.extreme u.toNat b (actOf a) h.extreme)
  | .intrinsicPlasticity _ _ => some (.intrinsicPlasticity h.slopes h.biases)
  | .rbm H _ _ backprop => some (.rbm H.toNat backprop)
  | .sae H _ _ a => some (.sparseAutoEncoder H.toNat (actOf a) r.l2)
  | .dropout p => some (.dropout (dropoutMask false p fun _ _ => 0))
  | .convolutional f kr kc a _ b =>
    match dims with
    | [fm, rows, cols] =>
      some (.conv ⟨fm.toNat, rows.toNat, cols.toNat, f.toNat, kr.toNat, kc.toNat, b, actOf a, regOf r⟩)
    | _ => none
  | .subsampling kr kc a _ b =>
    match dims with
    | [fm, rows, cols] => some (.sub ⟨fm.toNat, rows.toNat, cols.toNat, kr.toNat, kc.toNat⟩ b (actOf a) (regOf r))
    | _ => none
  | .maxPooling kr kc =>
    match dims with
    | [fm, rows, cols] => some (.maxPool ⟨fm.toNat, rows.toNat, cols.toNat, kr.toNat, kc.toNat⟩)
    | _ => none
  | .localResponseNormalization k n alpha beta =>
    match dims with
    | [fm, rows, cols] => some (.lrn ⟨fm.toNat, rows.toNat, cols.toNat, k, n.toNat, alpha, beta⟩)
    | _ => none
  | .input .. => none
  | .alphaBetaFilter .. => none
  | .errorFunction _ => none
  | .regularization .. => none

/-- The layers `ls` on top of outputs of shape `dims`; `infos` are the shapes of their outputs, `hid k` belongs to layer
number `k`. -/
def kindsFrom (hid : ℕ → Hidden) : ℕ → List ℤ → List (Cmd ℝ × NetFile.Reg ℝ) → List (List ℤ) → Option (List NN.Kind)
  | _, _, [], [] => some []
  | k, dims, l :: ls, d :: ds => do
    let a ← kindOf (hid k) dims l.2 l.1
    let as ← kindsFrom hid (k + 1) d ls ds
    return a :: as
  | _, _, _, _ => none

/-- The network of `Verif.Model.Arch`: number of inputs, layers, and whether the error function is cross entropy (`CE` is 2,
OpenANN/Net.h lines 19-24). -/
structure Sem where
  D : ℕ
  kinds : List NN.Kind
  ce : Bool

def Sem.net (S : Sem) : NN.Net := buildNet S.D S.kinds S.ce

/-- What a network stands for. -/
def sem (hid : ℕ → Hidden) (A : NetFile.Net ℝ) : Option Sem :=
  match A.layers, A.infos with
  | (.input a b c, _) :: ls, d :: ds =>
    if 0 ≤ a ∧ 0 ≤ b ∧ 0 ≤ c then
      (kindsFrom hid 1 d ls ds).map fun ks => ⟨(outputs d).toNat, ks, decide (A.errFn = 2)⟩
    else none
  | _, _ => none

/-- src/Net.cpp lines 470-475, 492-500: the outputs for a batch after `setParameters(parameterVector)`, when the buffers of
the layers contained `mem` before. -/
def Sem.predict (S : Sem) (mem : Mem) (params : List ℝ) (N : ℕ) (X : Batch) : Batch :=
  S.net.predictAll (S.net.setParameters mem params) N X

end

end Verif.NetSem
