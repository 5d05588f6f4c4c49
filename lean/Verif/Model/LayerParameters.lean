import Verif.Model.Arch

/-!
# Asking a layer for its parameters (`Layer::getParameters`, OpenANN/layers/Layer.h lines 79-83)

Each layer allocates a vector and fills it with `p(idx++) = ...` in nested loops.  The model lists the assigned values in the
order of the loops and then executes the assignments.
-/

namespace Verif.NN

noncomputable section

/-- `p(idx++) = v`; `none` is an entry of a new `VectorXd` that was not assigned yet. -/
def assignNext (s : List (Option ℝ) × ℕ) (v : ℝ) : Outcome (List (Option ℝ) × ℕ) := do
  let p ← Outcome.write s.1 s.2 (some v)
  pure (p, s.2 + 1)

/-- Reading all entries of a vector: an entry that was never assigned is indeterminate. -/
def readVector : List (Option ℝ) → Outcome (List ℝ)
  | [] => .ok []
  | none :: _ => .ub
  | some v :: p => do
    let q ← readVector p
    pure (v :: q)

/-- `VectorXd p(size); int idx = 0;` followed by the assignments of `vals` and the use of the result. -/
def fillVector (size : ℕ) (vals : List ℝ) : Outcome (List ℝ) := do
  let s ← vals.foldlM assignNext (List.replicate size none, 0)
  readVector s.1

/-- The layers that have no model in `Kind`, as far as their parameters are concerned. -/
inductive AnyLayer where
  | known (k : Kind)
  /-- src/Input.cpp -/
  | input
  /-- src/AlphaBetaFilter.cpp: `.w [i]` is `gamma(i)` -/
  | alphaBeta
  /-- src/SigmaPi.cpp with `n` weights: `.w [i]` is `w[i]` -/
  | sigmaPi (n : ℕ)

/-- What `initialize` appends to `parameterPointers`; src/AlphaBetaFilter.cpp lines 17-21, src/SigmaPi.cpp lines 159-163. -/
def AnyLayer.pointers (I : ℕ) : AnyLayer → List Slot
  | .known k => (k.layer I).pointers
  | .input => []
  | .alphaBeta => (List.range I).map fun i => .w [i]
  | .sigmaPi n => (List.range n).map fun i => .w [i]

/-- `getParameters` of a layer with `I` inputs and the weights `w`.  `saved` is the member `params` of an RBM, the other
layers do not have such a copy. -/
def Kind.getParameters (I : ℕ) (saved : List ℝ) (w : Weights) : Kind → Outcome (List ℝ)
  /- src/FullyConnected.cpp lines 111-122 -/
  | .fullyConnected J bias _ _ => fillVector (J * (I + bias.toNat))
      (((List.range J).flatMap fun j => (List.range I).map fun i => w (.w [j, i])) ++
        if bias then (List.range J).map fun j => w (.b [j]) else [])
  /- src/Compressed.cpp lines 116-124 -/
  | .compressed _ M _ _ _ phi => fillVector (M * I)
      ((List.range M).flatMap fun m => (List.range I).map fun i => phi m i)
  /- src/Extreme.cpp lines 62-65 -/
  | .extreme _ _ _ _ => .ok []
  /- src/IntrinsicPlasticity.cpp lines 163-166 and 60-68 -/
  | .intrinsicPlasticity s b => fillVector (2 * I) ((List.range I).map s ++ (List.range I).map b)
  /- src/RBM.cpp lines 192-195 and 75-78 -/
  | .rbm _ _ => .ok saved
  /- src/SparseAutoEncoder.cpp lines 160-169: there is no `return` -/
  | .sparseAutoEncoder H _ _ => do
    let _ ← fillVector (H * I + H)
      (((List.range H).flatMap fun h => (List.range I).map fun d => w (.w [h, d])) ++ (List.range H).map fun h => w (.b [h]))
    .ub
  /- src/Dropout.cpp lines 57-60 -/
  | .dropout _ => .ok []
  /- src/Convolutional.cpp lines 232-250 -/
  | .conv g => fillVector (g.fmout * g.fmin * g.kernelRows * g.kernelCols + g.bias.toNat * g.fmout * g.fmin)
      (((List.range g.fmout).flatMap fun fmo => (List.range g.fmin).flatMap fun fmi =>
          (List.range g.kernelRows).flatMap fun kr => (List.range g.kernelCols).map fun kc => w (.w [fmo, fmi, kr, kc])) ++
        if g.bias then (List.range g.fmout).flatMap fun fmo => (List.range g.fmin).map fun fmi => w (.b [fmo, fmi]) else [])
  /- src/MaxPooling.cpp lines 132-135 -/
  | .maxPool _ => .ok []
  /- src/Subsampling.cpp lines 206-220: both loops read `W` -/
  | .sub g bias _ _ => fillVector ((1 + bias.toNat) * g.fm * g.outRows * g.outCols)
      (((List.range g.fm).flatMap fun fmo => (List.range g.outRows).flatMap fun r =>
          (List.range g.outCols).map fun c => w (.w [fmo, r, c])) ++
        if bias then (List.range g.fm).flatMap fun fmo => (List.range g.outRows).flatMap fun r =>
          (List.range g.outCols).map fun c => w (.w [fmo, r, c])
        else [])
  /- src/LocalResponseNormalization.cpp lines 104-107 -/
  | .lrn _ => .ok []

/-- `getParameters` of any layer. -/
def AnyLayer.getParameters (I : ℕ) (saved : List ℝ) (w : Weights) : AnyLayer → Outcome (List ℝ)
  | .known k => k.getParameters I saved w
  /- src/Input.cpp lines 46-49 -/
  | .input => .ok []
  /- src/AlphaBetaFilter.cpp lines 92-95 -/
  | .alphaBeta => .ok ((List.range I).map fun i => w (.w [i]))
  /- src/SigmaPi.cpp lines 391-394 -/
  | .sigmaPi _ => .throws

/-- src/Net.cpp lines 190-194, `getLayer(l)`, for a network made of an input layer and the layers `ks`: what kind of layer it
is and how many inputs it has. -/
def getLayer (D : ℕ) (ks : List Kind) (l : ℕ) : Outcome (ℕ × AnyLayer) := do
  Outcome.check (l < ks.length + 1)
  Outcome.read ((D, .input) :: go D ks) l
where
  go : ℕ → List Kind → List (ℕ × AnyLayer)
    | _, [] => []
    | I, k :: ks => (I, .known k) :: go (k.layer I).outputs ks

/-- `net.getLayer(l).getParameters()` -/
def layerParameters (D : ℕ) (ks : List Kind) (saved : ℕ → List ℝ) (mem : Mem) (l : ℕ) : Outcome (List ℝ) := do
  let r ← getLayer D ks l
  r.2.getParameters r.1 (saved l) (mem l)

end

end Verif.NN
