import Verif.Model.Net
import Verif.Model.Conv
import Verif.Model.Pool
import Verif.Model.LRN

/-!
# Architectures (src/Net.cpp lines 42-183)

The layers that the functions of `Net` create, with the number of inputs that `infos.back().outputs()` gives.  Not
included are `AlphaBetaFilter` (which keeps a state between calls) and `SigmaPi`.
-/

namespace Verif.NN

/-- One call of a function that adds a layer.  `conv`, `maxPool`, `sub` and `lrn` carry the dimensions of the images, which
`infos.back()` gives in the code; random numbers that a layer draws once (`W` of `Extreme`, `phi` of `Compressed`, the
state of `IntrinsicPlasticity`) or in each forward pass (the mask of `Dropout`) are arguments. -/
inductive Kind where
  /-- src/Net.cpp lines 53-60, 163-171 -/
  | fullyConnected (J : ℕ) (bias : Bool) (act : Act) (reg : Reg)
  /-- src/Net.cpp lines 80-88, 173-183 -/
  | compressed (J M : ℕ) (bias : Bool) (act : Act) (reg : Reg) (phi : Batch)
  /-- src/Net.cpp lines 90-96 -/
  | extreme (J : ℕ) (bias : Bool) (act : Act) (W : Batch)
  /-- src/Net.cpp lines 98-103 -/
  | intrinsicPlasticity (s b : ℕ → ℝ)
  /-- src/Net.cpp lines 62-69 -/
  | rbm (H : ℕ) (backprop : Bool)
  /-- src/Net.cpp lines 71-78 -/
  | sparseAutoEncoder (H : ℕ) (act : Act) (lambda : ℝ)
  /-- src/Net.cpp lines 138-142 -/
  | dropout (mask : Batch)
  /-- src/Net.cpp lines 105-112 -/
  | conv (g : Conv)
  /-- src/Net.cpp lines 123-127 -/
  | maxPool (g : Pool)
  /-- src/Net.cpp lines 114-121 -/
  | sub (g : Pool) (bias : Bool) (act : Act) (reg : Reg)
  /-- src/Net.cpp lines 129-136 -/
  | lrn (g : LRN)

noncomputable section

/-- The layer object for `I` inputs. -/
def Kind.layer (I : ℕ) : Kind → Layer
  | .fullyConnected J bias act reg => NN.fullyConnected I J bias act reg
  | .compressed J M bias act reg phi => NN.compressed I J M bias act reg phi
  | .extreme J bias act W => NN.extreme I J bias act W
  | .intrinsicPlasticity s b => NN.intrinsicPlasticity I s b
  | .rbm H backprop => NN.rbm I H backprop
  | .sparseAutoEncoder H act lambda => NN.sparseAutoEncoder I H act lambda
  | .dropout mask => NN.dropout I mask
  | .conv g => g.layer
  | .maxPool g => g.maxLayer
  | .sub g bias act reg => g.subLayer bias act reg
  | .lrn g => g.layer

/-- src/Net.cpp lines 144-153, repeated: the layers after the calls `ks`, when the last info says `I` outputs. -/
def layersFrom : ℕ → List Kind → List Layer
  | _, [] => []
  | I, k :: ks => k.layer I :: layersFrom (k.layer I).outputs ks

/-- A network with `D` inputs and the layers `ks` (src/Net.cpp lines 41-45 and the calls above). -/
def buildNet (D : ℕ) (ks : List Kind) (ce : Bool) : Net := ⟨inputLayer D :: layersFrom D ks, ce⟩

end

end Verif.NN
