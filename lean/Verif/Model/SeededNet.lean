import Verif.Model.NetSem
import Verif.Model.RandomState

/-!
# Random numbers of networks that are built, initialised and loaded

`Verif.Model.NetSem` takes the numbers that a layer keeps and that are not in the parameter vector (`Hidden`) as arguments.
Here they are drawn, in the order of the code, with `rand()` (OpenANN/util/Random.h, src/Random.cpp), whose state is
that of `Verif.Model.RandomState`.

Simplified: which numbers become the initial values of parameters is left open (`init`, they are overwritten by the
parameter vector), only how many numbers are drawn for them is modelled.  The generators that the layers construct are
one object per layer.
-/

namespace Verif.NetSem

open Verif.NN Verif.NetFile

noncomputable section

/-- Where random numbers come from: the library, and what OpenANN/util/Random.h lines 58-66 and 85-90 make of the results
of `rand()`.  `sampleNormalDistribution` calls `rand()` twice (the order of the two calls is not specified by C++, it is part
of `normal`). -/
structure Source where
  lib : Rng.Library
  uniform : ℕ → ℝ
  normal : ℕ → ℕ → ℝ

/-- Result number `k` of `rand()` from now on. -/
def Source.raw (S : Source) (s : Rng.State) (k : ℕ) : ℕ := S.lib.rand s.crand.1 (s.crand.2 + k)

/-- Number `k` that `sampleNormalDistribution` gives from now on. -/
def Source.normalAt (S : Source) (s : Rng.State) (k : ℕ) : ℝ := S.normal (S.raw s (2 * k)) (S.raw s (2 * k + 1))

/-- `rand()` was called `n` times. -/
def advance (n : ℕ) (s : Rng.State) : Rng.State := { s with crand := (s.crand.1, s.crand.2 + n) }

/-- OpenANN/util/Random.h lines 114-120, `fillNormalDistribution`: the matrices of Eigen are stored column by column. -/
def Source.filled (S : Source) (s : Rng.State) (rows : ℕ) (stdDev : ℝ) : Batch := fun j i => S.normalAt s (i * rows + j) * stdDev

/-- src/CompressionMatrixFactory.cpp lines 42-66: the numbers drawn for a compression matrix, column by column. -/
def Source.compression (S : Source) (s : Rng.State) (t : Compression.Transformation) (M : ℕ) : Batch :=
  match t with
  | .gaussian => fun m i => S.normalAt s (i * M + m)
  | .sparseRandom => fun m i => S.uniform (S.raw s (i * M + m))
  | _ => fun _ _ => 0

/-- How often `rand()` is called for a compression matrix. -/
def compressionCalls (t : Compression.Transformation) (I M : ℕ) : ℕ :=
  match t with
  | .gaussian => 2 * ((I + 1) * M)
  | .sparseRandom => (I + 1) * M
  | _ => 0

/-- `bool` in arithmetic. -/
def b2n (b : Bool) : ℕ := if b then 1 else 0

/-- How often `initializeParameters` of a layer on top of outputs of shape `dims` calls `rand()`: src/AlphaBetaFilter.cpp lines
31-36, src/FullyConnected.cpp lines 42-48, src/Compressed.cpp lines 53-58, src/Extreme.cpp lines 24-28,
src/Convolutional.cpp lines 86-98, src/Subsampling.cpp lines 83-92, src/SparseAutoEncoder.cpp lines 191-205; the others
do nothing (OpenANN/RBM.h line 108, OpenANN/IntrinsicPlasticity.h line 65). -/
def initialCalls (dims : List ℤ) : Cmd ℝ → ℕ
  | .alphaBetaFilter .. => 2 * (outputs dims).toNat
  | .fullyConnected u _ _ b => 2 * (u.toNat * ((outputs dims).toNat + b2n b))
  | .output u _ _ b => 2 * (u.toNat * ((outputs dims).toNat + b2n b))
  | .compressed u p _ _ _ _ => 2 * (u.toNat * p.toNat)
  | .compressedOutput u p _ _ _ _ => 2 * (u.toNat * p.toNat)
  | .extreme u _ _ b => 2 * (u.toNat * ((outputs dims).toNat + b2n b))
  | .convolutional f kr kc _ _ b =>
    match dims with
    | fm :: _ => 2 * (f.toNat * fm.toNat * (kr.toNat * kc.toNat + b2n b))
    | _ => 0
  | .subsampling kr kc _ _ b =>
    match dims with
    | fm :: rows :: cols :: _ => 2 * (fm.toNat * ((rows.tdiv kr).toNat * (cols.tdiv kc).toNat) * (1 + b2n b))
    | _ => 0
  | .sae H _ _ _ => 2 * (H.toNat * (outputs dims).toNat)
  | _ => 0

/-- How often the constructor of a layer calls `rand()`: src/Compressed.cpp lines 29-30, src/RBM.cpp lines 21 and 50,
src/SparseAutoEncoder.cpp lines 17 and 42, src/IntrinsicPlasticity.cpp lines 14 and 36. -/
def constructorCalls (dims : List ℤ) : Cmd ℝ → ℕ
  | .compressed _ p _ c _ _ => compressionCalls (transformationOf c) (outputs dims).toNat p.toNat
  | .compressedOutput _ p _ c _ _ => compressionCalls (transformationOf c) (outputs dims).toNat p.toNat
  | .rbm H _ _ _ => 2 * (H.toNat * (outputs dims).toNat)
  | .sae H _ _ _ => 2 * (H.toNat * (outputs dims).toNat)
  | .intrinsicPlasticity .. => 2 * (outputs dims).toNat
  | _ => 0

/-- How often `initialize` of a new layer calls `rand()`; `initialize` of `SparseAutoEncoder` does not call
`initializeParameters` (src/SparseAutoEncoder.cpp lines 171-189). -/
def initializeCalls (dims : List ℤ) : Cmd ℝ → ℕ
  | .sae .. => 0
  | c => initialCalls dims c

/-- Does the layer construct a `RandomNumberGenerator`? -/
def usesGenerator : Cmd ℝ → Bool
  | .input .. | .maxPooling .. | .localResponseNormalization .. | .dropout .. | .errorFunction .. | .regularization .. => false
  | _ => true

/-- The generator that a layer constructs at the given time. -/
def started (time : ℕ) (c : Cmd ℝ) (s : Rng.State) : Rng.State := if usesGenerator c then Rng.construct time s else s

/-- The numbers that a new layer keeps, drawn from the state `s`. -/
def hiddenOf (S : Source) (s : Rng.State) : Cmd ℝ → Hidden
  | .extreme u _ stdDev _ => ⟨S.filled s u.toNat stdDev, fun _ _ => 0, fun _ => 0, fun _ => 0⟩
  | .compressed _ p _ c _ _ => ⟨fun _ _ => 0, S.compression s (transformationOf c) p.toNat, fun _ => 0, fun _ => 0⟩
  | .compressedOutput _ p _ c _ _ => ⟨fun _ _ => 0, S.compression s (transformationOf c) p.toNat, fun _ => 0, fun _ => 0⟩
  | .intrinsicPlasticity _ stdDev => ⟨fun _ _ => 0, fun _ _ => 0, fun _ => 1, fun i => S.normalAt s i * stdDev⟩
  | _ => ⟨fun _ _ => 0, fun _ _ => 0, fun _ => 0, fun _ => 0⟩

/-- Constructor and `initialize` of a layer on top of outputs of shape `dims`. -/
def create (S : Source) (time : ℕ) (dims : List ℤ) (c : Cmd ℝ) (s : Rng.State) : Hidden × Rng.State :=
  (hiddenOf S (started time c s) c, advance (constructorCalls dims c + initializeCalls dims c) (started time c s))

/-- `initializeParameters` of a layer with the numbers `h`: `Extreme` draws new ones (src/Extreme.cpp lines 24-28), the
compression matrix (src/Compressed.cpp lines 53-58) and the numbers of `IntrinsicPlasticity`
(OpenANN/IntrinsicPlasticity.h line 65) stay. -/
def redraw (S : Source) (time : ℕ) (dims : List ℤ) (c : Cmd ℝ) (h : Hidden) (s : Rng.State) : Hidden × Rng.State :=
  (match c with
    | .extreme u _ stdDev _ => { h with extreme := S.filled (started time c s) u.toNat stdDev }
    | _ => h,
  advance (initialCalls dims c) (started time c s))

/-- A network in its process: the network, the numbers that its layers keep (layer by layer), and the state of the
generators. -/
structure Proc where
  net : NetFile.Net ℝ
  hid : List Hidden
  rng : Rng.State

/-- The numbers of layer `k`. -/
def Proc.hidden (p : Proc) (k : ℕ) : Hidden := p.hid.getD k ⟨fun _ _ => 0, fun _ _ => 0, fun _ => 0, fun _ => 0⟩

/-- A new network (src/Net.cpp lines 24-29) draws nothing. -/
def Proc.new (s : Rng.State) : Proc := ⟨empty, [], s⟩

variable (F : Text.NumFormat ℝ) (init : ℕ → ℝ) (S : Source) (clock : ℕ → ℕ)

/-- A call that changes the architecture, with its random numbers (src/Net.cpp lines 41-183, 434-450); `clock k` is the time
when layer `k` is created. -/
def Proc.exec (p : Proc) (c : Cmd ℝ) : Outcome Proc := do
  let net ← NetFile.exec F init p.net c
  match c with
  | .errorFunction _ | .regularization .. => return { p with net := net }
  | _ => do
    let dims ← lastInfo p.net c
    return ⟨net, p.hid ++ [(create S (clock p.hid.length) dims c p.rng).1], (create S (clock p.hid.length) dims c p.rng).2⟩

/-- A sequence of calls. -/
def Proc.run : List (Cmd ℝ) → Proc → Outcome Proc
  | [], p => .ok p
  | c :: cs, p => do
    let p' ← p.exec F init S clock c
    Proc.run cs p'

/-- src/Net.cpp lines 507-515, `initialize`: all layers in turn.  (The new parameters are not modelled.) -/
def redrawAll (S : Source) (clock : ℕ → ℕ) : ℕ → List ℤ → List (Cmd ℝ × NetFile.Reg ℝ) → List (List ℤ) → List Hidden → Rng.State →
    List Hidden × Rng.State
  | k, dims, l :: ls, d :: ds, h :: hs, s =>
    let r := redraw S (clock k) dims l.1 h s
    let rs := redrawAll S clock (k + 1) d ls ds hs r.2
    (r.1 :: rs.1, rs.2)
  | _, _, _, _, hs, s => (hs, s)

/-- src/Net.cpp lines 507-515 -/
def Proc.initialize (p : Proc) : Proc :=
  { p with
    hid := (redrawAll S clock 0 [] p.net.layers p.net.infos p.hid p.rng).1
    rng := (redrawAll S clock 0 [] p.net.layers p.net.infos p.hid p.rng).2 }

/-- src/Net.cpp lines 253-424 with random numbers; only the methods that add layers draw any. -/
def Proc.dispatch (p : Proc) (type : List Char) (s : Text.IStream) : Outcome (Proc × List Char × Text.IStream) :=
  match kinds.find? (fun k => k.word = type) with
  | some k => do
    let cmd ← k.call (readArgs F k.types s).1
    let p' ← p.exec F init S clock cmd
    return (p', type, (readArgs F k.types s).2)
  | none =>
    if type = "parameters".toList then do
      let r ← loadParameters F p.net s
      return ({ p with net := r.1 }, type, r.2)
    else .throws

/-- src/Net.cpp lines 250-424: one pass of the loop of `load`. -/
def Proc.loadStep (p : Proc) (type : List Char) (s : Text.IStream) : Outcome (Proc × List Char × Text.IStream) :=
  p.dispatch F init S clock ((Text.extractWord s).1.getD type) (Text.extractWord s).2

/-- src/Net.cpp lines 245-426, `load` with random numbers. -/
def Proc.loadLoop : ℕ → Proc → List Char → Text.IStream → Option (Outcome Proc)
  | 0, p, _, s => if s.eof then some (.ok p) else none
  | fuel + 1, p, type, s =>
    if s.eof then some (.ok p)
    else
      match p.loadStep F init S clock type s with
      | .ok (p', type', s') => Proc.loadLoop fuel p' type' s'
      | .throws => some .throws
      | .checkFailed => some .checkFailed
      | .ub => some .ub

/-- `load` ends with the given outcome. -/
def Proc.Loads (p : Proc) (s : Text.IStream) (r : Outcome Proc) : Prop := ∃ fuel, p.loadLoop F init S clock fuel [] s = some r

end

end Verif.NetSem
