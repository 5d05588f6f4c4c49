import Verif.Model.Arch
import Verif.Model.Boltzmann

/-!
# Networks with dropout (src/Dropout.cpp lines 19-43)

The masks do not depend on the data.  In the model of a forward pass they are drawn before it, layer by layer, which gives
them the same random numbers: no other layer uses the generator in its forward pass, except RBMs, whose samples do not
change the output (src/RBM.cpp lines 160-166).
-/

namespace Verif.NN

open Verif.Boltz

noncomputable section

/-- A layer whose mask is not yet drawn, or any other layer. -/
inductive Plan where
  | fixed (k : Kind)
  /-- src/Net.cpp lines 138-142 -/
  | dropout (probability : ℝ)

/-- src/Dropout.cpp lines 29-34: `if(rng.generate<double>(0.0, 1.0) < dropoutProbability) dropoutMask(n, i) = 0.0` for the listed
elements. -/
def dropCells (p : ℝ) : List (ℕ × ℕ) → Batch → Draw Batch
  | [], m => .ret m
  | c :: cs, m => .compare p fun b => dropCells p cs (if b then setEntry m c.1 c.2 0 else m)

/-- src/Dropout.cpp lines 22-40: the mask for `N` rows and `I` columns. -/
def drawMask (on : Bool) (p : ℝ) (N I : ℕ) : Draw Batch :=
  if on then dropCells p (cells N I) (fun _ _ => 1) else .ret (dropoutMask false p fun _ _ => 0)

/-- The layers in one forward pass of `N` examples, `I` is the number of inputs of the first. -/
def drawKinds (on : Bool) (N : ℕ) : ℕ → List Plan → Draw (List Kind)
  | _, [] => .ret []
  | I, .fixed k :: ps => (drawKinds on N (k.layer I).outputs ps).bind fun ks => .ret (k :: ks)
  | I, .dropout p :: ps => (drawMask on p N I).bind fun m => (drawKinds on N I ps).bind fun ks => .ret (.dropout m :: ks)

end

end Verif.NN
