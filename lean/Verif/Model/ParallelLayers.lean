import Verif.Model.Parallel
import Verif.Model.Conv
import Verif.Model.Pool
import Verif.Model.LRN
import Verif.Model.SigmaPi
import Verif.Model.Preprocessing

/-!
# The parallel loops of the layers

The bodies of all loops with `#pragma omp parallel for`, access by access: every coefficient of a matrix that is not a local
variable is a cell of the shared memory.  Sizes, indices and other numbers that nobody changes during the loops are constants.
The sequential models of the same loops are in `Verif.Model.Conv`, `Pool`, `LRN`, `SigmaPi` and `Preprocessing`.
-/

namespace Verif.Par

open NN Prog

/-- The shared memory: the matrix `*x` (the images of `sampleRandomPatches`), the weights (`Wd` for the loop in line 173 of
src/Convolutional.cpp), the matrix that the loop computes (`a`, `y`, `e` or the patches), `denoms`, `*ein` and `etmp`. -/
inductive Cell where
  | x (n j : ℕ)
  | w (s : Slot)
  | y (n j : ℕ)
  | z (n j : ℕ)
  | e (n j : ℕ)
  | t (n j : ℕ)
  deriving DecidableEq

noncomputable section

/-! ## Convolution -/

section conv

variable (g : Conv)

/-- src/Convolutional.cpp lines 129-130: the sum over a row of the kernel; the block must lie within the row of `*x` -/
def kernelRow (n fmo fmi kr base : ℕ) : Prog Cell ℝ :=
  if base + g.kernelCols ≤ g.inputs then
    loop g.kernelCols (fun kc s => do
      let w ← get (.w (.w [fmo, fmi, kr, kc]))
      let x ← get (.x n (base + kc))
      pure (s + w * x)) 0
  else lift .ub

/-- lines 126-131: `k` rows of the kernel; `out` is a reference to `a(n, outputIdx)`.  The result is `colBase`. -/
def kernelRows (n fmo fmi idx : ℕ) (k base : ℕ) : Prog Cell ℕ :=
  loop k (fun kr base => do
    let s ← kernelRow g n fmo fmi kr base
    let out ← get (.y n idx)
    Prog.set (.y n idx) (out + s)
    pure (base + g.inCols)) base

/-- lines 122-132; the private variable is `outputIdx` -/
def columns (n fmo fmi fmInBase row : ℕ) : ℕ → Prog Cell ℕ :=
  loop g.maxCol fun col idx => do
    let _ ← lift (Outcome.check (idx < g.outputs))
    let _ ← kernelRows g n fmo fmi idx g.kernelRows (fmInBase + row * g.inCols + col)
    pure (idx + 1)

/-- lines 136-139 -/
def biases (n fmo fmi : ℕ) : ℕ → Prog Cell ℕ :=
  loop g.maxRow fun _ => loop g.maxCol fun _ idx =>
    if idx < g.outputs then do
      let a ← get (.y n idx)
      let b ← get (.w (.b [fmo, fmi]))
      Prog.set (.y n idx) (a + b)
      pure (idx + 1)
    else lift .ub

/-- lines 115-141; the private variable is `fmInBase` -/
def inputMap (n fmo fmi fmInBase : ℕ) : Prog Cell ℕ := do
  let _ ← loop g.maxRow (fun row => columns g n fmo fmi fmInBase row) (fmo * g.fmOutSize)
  if g.bias then
    let _ ← biases g n fmo fmi (fmo * g.fmOutSize)
    pure (fmInBase + g.fmInSize)
  else pure (fmInBase + g.fmInSize)

/-- lines 112-143: the iteration `n` of `forwardPropagate` -/
def convBody (n : ℕ) : Prog Cell Unit :=
  loop g.fmout (fun fmo _ => do
    let _ ← loop g.fmin (inputMap g n fmo) 0
    pure ()) ()

/-- lines 174-176: the iteration `fmo` of the loop that clears the derivatives -/
def clearBody (fmo : ℕ) : Prog Cell Unit :=
  loop g.fmin (fun fmi _ => loop g.kernelRows (fun kr _ => loop g.kernelCols (fun kc _ =>
    Prog.set (.w (.w [fmo, fmi, kr, kc])) 0) ()) ()) ()

end conv

/-! ## Pooling -/

section pool

variable (g : Pool)

/-- The loops over the windows, src/MaxPooling.cpp lines 63-81 and 97-121, src/Subsampling.cpp lines 108-126; all variables of the
loops are private. -/
def windows (body : ℕ → ℕ → ℕ → ℕ → ℕ → Prog Cell Unit) : Prog Cell Unit := do
  let _ ← loop g.fm (fun fmo c =>
    steps g.maxRow g.kernelRows (fun ri c => do
      let c' ← steps g.maxCol g.kernelCols (fun ci (c : Cursor Unit) => do
        let _ ← body fmo c.ro c.co (fmo * g.fmInSize + ri * g.inCols + ci) c.outputIdx
        pure { c with co := c.co + 1, outputIdx := c.outputIdx + 1 }) 0 { c with co := 0 }
      pure { c' with ro := c'.ro + 1 }) 0 { c with ro := 0 }) (⟨(), 0, 0, 0⟩ : Cursor Unit)
  pure ()

/-- `(*x)(n, j)` for a matrix with `I` columns -/
def input (I n j : ℕ) : Prog Cell ℝ := if j < I then get (.x n j) else lift .ub

/-- src/MaxPooling.cpp lines 72-77; `m` is private -/
def windowMax (n base : ℕ) : Prog Cell ℝ :=
  loop g.kernelRows (fun _ m => do
    let r ← loop g.kernelCols (fun _ (s : ℝ × ℕ) => do
      let v ← input g.inputs n s.2
      pure (max s.1 v, s.2 + 1)) (m, base)
    pure r.1) Pool.lowest

/-- src/MaxPooling.cpp lines 62-82: the iteration `n` of `forwardPropagate` -/
def maxBody (n : ℕ) : Prog Cell Unit :=
  windows g fun _ _ _ base outputIdx => do
    let m ← windowMax g n base
    if outputIdx < g.outputs then Prog.set (.y n outputIdx) m else lift .ub

/-- src/MaxPooling.cpp lines 106-117; `m` and `idx` are private.  The second access to `(*x)(n, inputIdx)` follows only if the number
is greater. -/
def windowArg (n base : ℕ) : Prog Cell (ℝ × Option ℕ) :=
  loop g.kernelRows (fun _ m => do
    let r ← loop g.kernelCols (fun _ (s : (ℝ × Option ℕ) × ℕ) => do
      let v ← input g.inputs n s.2
      if s.1.1 < v then
        let v' ← input g.inputs n s.2
        pure ((v', some s.2), s.2 + 1)
      else pure (s.1, s.2 + 1)) (m, base)
    pure r.1) (Pool.lowest, none)

/-- line 118: the assignment -/
def assign (n : ℕ) (v : ℝ) : Option ℕ → Prog Cell Unit
  | some i => if i < g.inputs then Prog.set (.y n i) v else lift .ub
  | none => lift .ub

/-- src/MaxPooling.cpp lines 96-122: the iteration `n` of `backpropagate` -/
def maxBackBody (n : ℕ) : Prog Cell Unit :=
  windows g fun _ _ _ base outputIdx => do
    let r ← windowArg g n base
    if outputIdx < g.outputs then
      let v ← get (.e n outputIdx)
      assign g n v r.2
    else lift .ub

/-- src/Subsampling.cpp lines 117-121: every addition reads and writes `a(n, outputIdx)`. -/
def windowSum (n fmo ro co base outputIdx : ℕ) : Prog Cell Unit :=
  loop g.kernelRows (fun _ _ => do
    let _ ← loop g.kernelCols (fun _ j => do
      let x ← input g.inputs n j
      let w ← get (.w (.w [fmo, ro, co]))
      let a ← get (.y n outputIdx)
      Prog.set (.y n outputIdx) (a + x * w)
      pure (j + 1)) base
    pure ()) ()

/-- src/Subsampling.cpp lines 107-127: the iteration `n` of `forwardPropagate` -/
def subBody (bias : Bool) (n : ℕ) : Prog Cell Unit :=
  windows g fun fmo ro co base outputIdx =>
    if outputIdx < g.outputs ∧ fmo < g.fm ∧ ro < g.outRows ∧ co < g.outCols then do
      let _ ← windowSum g n fmo ro co base outputIdx
      if bias then
        let a ← get (.y n outputIdx)
        let b ← get (.w (.b [fmo, ro, co]))
        Prog.set (.y n outputIdx) (a + b)
      else pure ()
    else lift .ub

end pool

/-! ## Local response normalisation -/

section lrn

variable (g : LRN)

/-- src/LocalResponseNormalization.cpp lines 42-47 and 78-83: the loops over maps, rows and columns; `outputIdx` is private. -/
def places (body : ℕ → ℕ → ℕ → ℕ → Prog Cell Unit) : Prog Cell Unit := do
  let _ ← loop g.fm (fun fmOut => loop g.rows fun r => loop g.cols fun c idx => do
    let _ ← body fmOut r c idx
    pure (idx + 1)) 0
  pure ()

/-- lines 49-50 and 85-86: `fmInMin` and `fmInMax` -/
def mapMin (n fmOut : ℕ) : ℕ := fmOut - n / 2

def mapMax (n fmOut : ℕ) : ℕ := min (g.fm - 1) (fmOut + n / 2)

/-- lines 41-62: the iteration `n` of `forwardPropagate` -/
def lrnBody (n : ℕ) : Prog Cell Unit :=
  places g fun fmOut r c idx => do
    let sum ← loop (mapMax g n fmOut - mapMin n fmOut) (fun i d => do
      let a ← input g.inputs n ((mapMin n fmOut + i) * g.fmSize + r * g.cols + c)
      pure (d + a * a)) 0
    if idx < g.inputs then
      let _ ← Prog.set (.z n idx) (g.k + g.alpha * sum)
      let v ← get (.x n idx)
      Prog.set (.y n idx) (v * (g.k + g.alpha * sum) ^ (-g.beta))
    else lift .ub

/-- lines 77-93: the iteration `n` of `backpropagate` for `N` instances; `etmp(i)` with one index counts through the columns -/
def lrnBackBody (N n : ℕ) : Prog Cell Unit :=
  places g fun fmOut r c idx => do
    let nom ← loop (mapMax g n fmOut - mapMin n fmOut) (fun i s =>
      let j := (mapMin n fmOut + i) * g.fmSize + r * g.cols + c
      if j < N * g.inputs then do
        let v ← get (.t (j % N) (j / N))
        pure (s + v)
      else lift .ub) 0
    if idx < g.inputs then
      let x ← get (.x n idx)
      let ein ← get (.e n idx)
      let d ← get (.z n idx)
      Prog.set (.y n idx) (x * nom + ein * d ^ (-g.beta))
    else lift .ub

end lrn

/-! ## Sigma-pi -/

/-- src/SigmaPi.cpp lines 86-91; `*x` has `I` columns -/
def productOf (I n : ℕ) : List ℕ → ℝ → Prog Cell ℝ
  | [], k => pure k
  | p :: ps, k => do
    let v ← input I n p
    productOf I n ps (k * v)

/-- lines 83-94; `w` has `K` numbers -/
def unitSum (I K n : ℕ) : SigmaPi.Neuron → ℝ → Prog Cell ℝ
  | [], sum => pure sum
  | u :: us, sum => do
    let k ← productOf I n u.position 1
    if u.weight < K then
      let wu ← get (.w (.w [u.weight]))
      unitSum I K n us (sum + wu * k)
    else lift .ub

/-- lines 77-98: the iteration `instance`; `a` has as many columns as there are nodes -/
def sigmaBody (l : SigmaPi.Layer) (I n : ℕ) : Prog Cell Unit :=
  if l.nodes = [] then lift .ub
  else loop l.nodes.length (fun i _ =>
    (if l.nodes.getD i [] = [] then lift .ub else unitSum I l.w.length n (l.nodes.getD i []) 0) >>= fun v =>
    Prog.set (.y n i) v) ()

/-! ## Random patches -/

/-- src/Preprocessing.cpp lines 81-94: the iteration `m` of `sampleRandomPatches`, for images with `I` columns; `corners` is
`patchIndices`.  The matrix of patches has `P` rows and `C` columns. -/
def patchBody (p : Pre.Patch) (corners : List (ℤ × ℤ)) (I P C m : ℕ) : Prog Cell Unit :=
  loop p.samples (fun n _ => do
    let corner ← lift (Outcome.read corners (m * p.samples + n))
    let _ ← loop p.channels (fun chan => loop p.patchRows fun row => loop p.patchCols fun col pxIdx => do
      let j := ((chan * (p.rows * p.cols) : ℕ) : ℤ) + (corner.1 + row) * p.cols + corner.2 + col
      if 0 ≤ j ∧ j < I then
        let v ← get (.x m j.toNat)
        if m * p.samples + n < P ∧ pxIdx < C then
          let _ ← Prog.set (.y (m * p.samples + n) pxIdx) v
          pure (pxIdx + 1)
        else lift .ub
      else lift .ub) 0
    pure ()) ()

end

end Verif.Par
