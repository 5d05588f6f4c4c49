import Verif.Model.DataSet
import Verif.Model.DirectStorage
import Verif.Model.FANN
import Verif.Model.LibSVM
import Verif.Model.KMeans
import Verif.Model.Preprocessing
import Verif.Model.Whitening
import Verif.Model.Random
import Verif.Model.MBSGD
import Verif.Model.LayerParameters
import Verif.Model.Logger
import Verif.Model.DataStream
import Verif.Model.SigmaPiConstraints
import Verif.Model.Conv
import Verif.Model.Pool
import Verif.Model.ImageLoader

/-!
# The two builds

The macros of OpenANN/util/AssertionMacros.h are empty if `NDEBUG` is defined (lines 74-82), and CMakeLists.txt lines 41-43 choose the
build type "Release", for which CMake defines `NDEBUG`, if the user does not choose another one.  All other models describe the checked
build; here the functions with checks are modelled for both builds.  `debug = false` is the default build.

Where a check has failed, the default build goes on: access outside of an array or of an Eigen object, operations on Eigen objects of
different size, integer division by zero and calls through null pointers are undefined behaviour.
-/

namespace Verif.Release

open Outcome

/-- OpenANN/util/AssertionMacros.h lines 33-48 (`debug`) and 74-79 -/
def require (debug : Bool) (c : Prop) [Decidable c] : Outcome Unit := if debug then check c else ok ()

/-- What follows a check that has failed. -/
def failed {α : Type} (debug : Bool) (rest : Outcome α) : Outcome α := if debug then checkFailed else rest

/-! ## Data sets -/

section

variable {X T : Type}

/-- `indices.at(i)`: throws `std::out_of_range`; a negative `int` is converted to a number above all sizes. -/
def at_ {α : Type} (l : List α) (i : ℤ) : Outcome α :=
  if i < 0 then throws
  else match l[i.toNat]? with
    | some a => ok a
    | none => throws

/-- src/DirectStorageDataSet.cpp lines 20-25, src/DataSetView.cpp lines 38-42, src/WeightedDataSet.cpp lines 35-38 -/
def getInstance (debug : Bool) (s : Data.Store X T) (a : ℕ) (i : ℤ) : Outcome X :=
  match s[a]? with
  | some (.direct ins _) => do
      require debug (0 ≤ i ∧ i ≤ (ins.length : ℤ) - 1)
      readZ ins i
  | some (.view b indices) =>
      if b < a then do
        require debug (0 ≤ i ∧ i ≤ (indices.length : ℤ) - 1)
        let j ← at_ indices i
        getInstance debug s b j
      else ub
  | some (.weighted b orig) =>
      if b < a then do
        let j ← readZ orig i
        getInstance debug s b j
      else ub
  | none => ub
termination_by a

/-- src/DirectStorageDataSet.cpp lines 27-33 (`out` may be null), src/DataSetView.cpp lines 44-48, src/WeightedDataSet.cpp lines 40-43 -/
def getTarget (debug : Bool) (s : Data.Store X T) (a : ℕ) (i : ℤ) : Outcome T :=
  match s[a]? with
  | some (.direct _ none) => failed debug ub
  | some (.direct _ (some outs)) => do
      require debug (0 ≤ i ∧ i ≤ (outs.length : ℤ) - 1)
      readZ outs i
  | some (.view b indices) =>
      if b < a then do
        require debug (0 ≤ i ∧ i ≤ (indices.length : ℤ) - 1)
        let j ← at_ indices i
        getTarget debug s b j
      else ub
  | some (.weighted b orig) =>
      if b < a then do
        let j ← readZ orig i
        getTarget debug s b j
      else ub
  | none => ub
termination_by a

/-- src/DirectStorageDataSet.cpp lines 9-18 -/
def create (debug : Bool) (D : ℕ) (ins : List X) (outs : Option (List T)) (x0 : X) (t0 : T) :
    Outcome (DirectStorage.State X T) := do
  require debug (D > 0)
  require debug (∀ o ∈ outs, ins.length = o.length)
  ok ⟨ins, outs, x0, t0⟩

/-- src/DataSetView.cpp lines 61-88.  `groups.reserve` in line 68 throws for a negative number, the division in line 73 is undefined
for 0. -/
def split (debug : Bool) (σ : List ℤ → List ℤ) (s : Data.Store X T) (groups : List ℕ) (a : ℕ)
    (numberOfGroups : ℤ) (shuffling : Bool) : Outcome (Data.Store X T × List ℕ) := do
  require debug (numberOfGroups > 1)
  if numberOfGroups < 0 then throws
  else if numberOfGroups = 0 then ub
  else
    let n := Data.samples s a
    let samplesPerGroup : ℤ := ⌊((Int.tdiv n numberOfGroups : ℤ) : ℚ) + 1 / 2⌋
    let indices := if shuffling then σ (Data.iota n) else Data.iota n
    (List.range numberOfGroups.toNat).foldlM (fun (acc : Data.Store X T × List ℕ) (i : ℕ) => do
        let it : ℤ := i * samplesPerGroup
        let part ← (if (i : ℤ) < numberOfGroups - 1 then slice indices it (it + samplesPerGroup)
          else slice indices it indices.length)
        ok (acc.1 ++ [.view a part], acc.2 ++ [acc.1.length])) (s, groups)

/-- src/DataSetView.cpp lines 90-110 -/
def splitRatio {K : Type} [Field K] [LinearOrder K] [FloorRing K] (debug : Bool)
    (σ : List ℤ → List ℤ) (s : Data.Store X T) (groups : List ℕ) (a : ℕ)
    (ratio : K) (shuffling : Bool) : Outcome (Data.Store X T × List ℕ) := do
  require debug (0 ≤ ratio ∧ ratio ≤ 1)
  let n := Data.samples s a
  let m : ℤ := ⌈ratio * (n : K)⌉
  let indices := if shuffling then σ (Data.iota n) else Data.iota n
  let first ← slice indices 0 m
  let second ← slice indices m indices.length
  ok (s ++ [.view a first, .view a second], groups ++ [s.length, s.length + 1])

/-- src/DataSetView.cpp lines 116-122: one group -/
def mergeOne (debug : Bool) (merging : ℕ) (s : Data.Store X T) (g : ℕ) : Outcome (Data.Store X T) :=
  if g = merging then ub else
  match s[merging]?, s[g]? with
  | some (.view b idx), some (.view b' idx') => do
      require debug (b = b')
      ok (s.set merging (.view b (idx ++ idx')))
  | _, _ => ub

/-- src/DataSetView.cpp lines 112-123 -/
def merge (debug : Bool) (s : Data.Store X T) (merging : ℕ) (groups : List ℕ) : Outcome (Data.Store X T) := do
  require debug (groups ≠ [])
  groups.foldlM (mergeOne debug merging) s

end

/-! ## Random numbers -/

/-- src/Random.cpp lines 24-31 -/
def generateInt (debug : Bool) (r : ℕ) (min range : ℤ) : Outcome ℤ := do
  require debug (range ≥ 0)
  if range = 0 then ok min else ok (Int.tmod r range + min)

/-- OpenANN/util/Random.h lines 62-70 -/
def generate {K : Type} [Field K] [LinearOrder K] (debug : Bool) (randMax r : ℕ) (min range : K) : Outcome K := do
  require debug (range ≥ 0)
  if range = 0 then ok min else ok ((r : K) / (randMax : K) * range + min)

/-- OpenANN/util/Random.h lines 101-115 -/
def generateIndices (debug : Bool) (σ : List ℤ → List ℤ) (n : ℕ) (result : List ℤ) (initialized : Bool) : Outcome (List ℤ) :=
  (if initialized = false then do
      require debug (result.length = 0)
      ok (result ++ (List.range n).map (fun i : ℕ => (i : ℤ)))
    else do
      require debug (result.length = n)
      ok result) >>= fun r => ok (σ r)

/-! ## Files -/

section

open Verif.Text

variable {K : Type} [IntCast K] [Zero K]

/-- src/FANN.cpp lines 58-62: the loop over the rows of `in` -/
def fannRows (F : NumFormat K) : List (List K) → List (List K) → Outcome (List Char)
  | [], _ => ok []
  | _ :: _, [] => ub
  | x :: xs, t :: ts => do
    let more ← fannRows F xs ts
    ok (printRow (x.map F.fmt) ++ ['\n'] ++ printRow (t.map F.fmt) ++ ['\n'] ++ more)

/-- src/FANN.cpp lines 49-63 -/
def fannSave (debug : Bool) (F : NumFormat K) (input output : Text.Mat K) : Outcome (List Char) := do
  require debug (input.rows.length = output.rows.length)
  let rows ← fannRows F input.rows output.rows
  ok (printInt input.rows.length ++ [' '] ++ printInt input.cols ++ [' '] ++ printInt output.cols ++ ['\n'] ++ rows)

variable [One K] [LinearOrder K]

/-- src/LibSVM.cpp lines 134-152: the loop over the rows of `in` -/
def svmRows (F : NumFormat K) (outCols : ℕ) : List (List K) → List (List K) → Outcome (List Char)
  | [], _ => ok []
  | _ :: _, [] => ub
  | x :: xs, t :: ts => do
    let label ← LibSVM.saveLabel F outCols t
    let more ← svmRows F outCols xs ts
    ok (label ++ LibSVM.saveFeatures F 0 x ++ '\n' :: more)

/-- src/LibSVM.cpp lines 130-153 -/
def svmSave (debug : Bool) (F : NumFormat K) (input output : Text.Mat K) : Outcome (List Char) := do
  require debug (input.rows.length = output.rows.length)
  svmRows F output.cols input.rows output.rows

end

/-- benchmarks/mnist/IDXLoader.h lines 57-64, 115-122 -/
def magic (debug : Bool) (s : List Img.Byte) (dimension : Img.Byte) : Outcome (List Img.Byte) := do
  let z1 := Img.readRaw s 0
  require debug (z1.2 = 0)
  let z2 := Img.readRaw z1.1 z1.2
  require debug (z2.2 = 0)
  let e := Img.readRaw z2.1 0
  require debug (e.2 = 8)
  let d := Img.readRaw e.1 0
  require debug (d.2 = dimension)
  ok d.1

/-- benchmarks/mnist/IDXLoader.h lines 38-134 -/
noncomputable def idxLoad (debug : Bool) (padToX padToY : ℕ) (maxN : ℤ) (imageFile labelFile : List Img.Byte)
    (junk1 junk2 : ℕ → ℕ → ℝ) : Outcome (Mat × Mat) := do
  let s ← magic debug imageFile 3
  let n := Img.readInt s
  let c := Img.readInt n.1
  let r := Img.readInt c.1
  let input ← Img.images padToX padToY maxN n.2 c.2 r.2 r.1 junk1
  let l ← magic debug labelFile 1
  let i := Img.readInt l
  require debug (n.2 = i.2)
  let output ← Img.labels (Img.sizeN n.2 maxN).toNat i.1 input.tmp junk2
  ok (input.m, output.m)

/-! ## Learning -/

noncomputable section

/-- src/KMeans.cpp lines 41-48; rows of different length violate an assertion of Eigen -/
def kmeansInit (debug : Bool) (m : KM.KMeans) (σ : List ℤ → List ℤ) (X : Mat) : Outcome KM.KMeans := do
  let idx ← generateIndices debug σ X.rows m.clusterIndices false
  let C ← forLoop m.K (fun k C => do
    let i ← Outcome.read idx k
    let r ← KM.row X i
    if X.cols = m.D then ok (KM.setRow C k r) else ub) m.C
  ok { m with C := C, v := fun _ => 0, initialized := true, clusterIndices := idx }

/-- src/KMeans.cpp lines 50-68: the entries of `clusterIndices` behind the rows of `X` are not changed -/
def kmeansFind (m : KM.KMeans) (huge : ℝ) (X : Mat) : Outcome KM.KMeans :=
  if X.rows ≤ m.clusterIndices.length ∧ (X.cols = m.D ∨ m.K = 0 ∨ X.rows = 0) then
    ok { m with clusterIndices := ((List.range X.rows).map fun n : ℕ =>
      ((KM.findCluster huge (fun k => KM.sqDist m.D (m.C k) (X.val n)) m.K).1 : ℤ)) ++ m.clusterIndices.drop X.rows }
  else ub

/-- src/KMeans.cpp lines 12-24 -/
def kmeansFit (debug : Bool) (huge : ℝ) (σ : List ℤ → List ℤ) (m : KM.KMeans) (X : Mat) : Outcome KM.KMeans := do
  require debug (X.cols = m.D)
  let m ← (if m.initialized then ok m else kmeansInit debug m σ X)
  require debug (X.rows = m.clusterIndices.length)
  let m ← kmeansFind m huge X
  m.updateCenters X

/-- src/Normalization.cpp lines 37-46; rows of different length violate an assertion of Eigen -/
def normTransform (debug : Bool) (N : Pre.Normalization) (X : Mat) : Outcome Mat := do
  require debug (0 < N.cols)
  require debug (X.cols = N.cols)
  if X.rows = 0 ∨ X.cols = N.cols then ok ⟨X.rows, X.cols, fun n d => (X.val n d - N.mean d) * (N.std d)⁻¹⟩ else ub

/-- src/PCA.cpp lines 37-44: before `fit`, `mean` and `W` are empty -/
def pcaTransform (debug : Bool) {D M D' : ℕ} (components : ℕ) (p : Option (White.Fitted D)) (X : Matrix (Fin M) (Fin D') ℝ) :
    Outcome (Matrix (Fin M) (Fin components) ℝ) :=
  match p with
  | none => failed debug (if D' = 0 ∧ components = 0 then ok 0 else ub)
  | some p => do
    require debug (0 < D)
    if h : D' = D then
      if hc : components ≤ D then
        ok ((White.align (X.submatrix id (Fin.cast h.symm)) p.mean) * (p.W.submatrix (Fin.castLE hc) id).transpose)
      else ub
    else failed debug ub

/-- src/ZCAWhitening.cpp lines 28-35; before `fit` nothing fits but a matrix without columns, whose image has none -/
def zcaTransform (debug : Bool) {D M D' : ℕ} (p : Option (White.Zca D)) (X : Matrix (Fin M) (Fin D') ℝ) :
    Outcome (Matrix (Fin M) (Fin D) ℝ) :=
  match p with
  | none => failed debug (if D' = 0 ∧ D = 0 then ok 0 else ub)
  | some p => do
    require debug (0 < D)
    if h : D' = D then ok ((White.align (X.submatrix id (Fin.cast h.symm)) p.mean) * p.W.transpose) else failed debug ub

/-- src/MBSGD.cpp lines 80-153 for an optimiser with an optimised object; without one, line 84 calls through a null pointer -/
def sgdStep (debug : Bool) (o : Opt.MBSGD) (obj : Option Opt.Obj) : Outcome (Bool × Opt.MBSGD × Opt.Obj) :=
  match obj with
  | none => failed debug ub
  | some obj => do
    let o1 := o.ready obj
    require debug (0 < o1.P)
    require debug (0 < o1.N)
    require debug (0 < o1.batches)
    require debug (o1.randomIndices.length = o1.N)
    if obj.problem.dimension ≠ o1.P then .ub
    else
      let r := o1.reshuffle.updates obj o1.batches
      .ok (r.1.finish.1, r.1.finish.2, r.2.finishedIteration)

end

section

variable {K : Type}

open DataStream

/-- `opt->step()` of an optimiser without optimised object (e.g. src/MBSGD.cpp lines 82-84) or with one -/
def streamStep (debug : Bool) (s : State K) (o : ℕ) : Outcome (State K) :=
  match s.optimizes o with
  | none => failed debug ub
  | some l =>
    let seen : Event (List K) :=
      if s.trains l then ⟨o, l, s.X, if s.cache = some true then some s.T else none⟩
      else ⟨o, l, [], none⟩
    ok { s with events := s.events ++ [seen] }

/-- src/DataStream.cpp lines 54-71: lines 68 and 69 call through the pointers -/
def initStream (debug : Bool) (s : State K) (inputs outputs : ℕ) : Outcome (State K) :=
  match s.learner, s.opt with
  | some l, some o =>
    if s.cacheSize < 0 then ub else do
    let rows := s.cacheSize.toNat
    let s := { s with X := List.replicate rows none, D := inputs }
    let s := if outputs > 0 then
        { s with T := List.replicate rows none, F := outputs, cache := some true }
      else { s with cache := some false }
    require debug (inputs > 0)
    ok { s with
      trains := fun k => if k = l then true else s.trains k
      optimizes := fun k => if k = o then some l else s.optimizes k }
  | _, _ => failed debug ub

/-- src/DataStream.cpp lines 37-52; the cache exists only after `initialize` has seen learner and optimiser -/
def addSample (debug : Bool) (s : State K) (x : List K) (t : Option (List K)) : Outcome (State K) :=
  match s.learner, s.opt with
  | some _, some o => do
    let s ← (if s.cache = none then initStream debug s x.length ((t.map List.length).getD 0) else ok s)
    let X ← assignRow s.X s.D s.collected x
    let s := { s with X := X }
    let T ← assignTarget s.T s.F s.collected t
    let s := { s with T := T }
    let s := { s with collected := s.collected + 1 }
    if (s.collected : ℤ) ≥ s.cacheSize then do
      let s ← streamStep debug s o
      ok { s with collected := 0 }
    else ok s
  | _, _ => failed debug ub

/-- A stream of samples. -/
def addSamples (debug : Bool) (s : State K) (samples : List (List K × Option (List K))) : Outcome (State K) :=
  samples.foldlM (fun s p => addSample debug s p.1 p.2) s

end

/-! ## Networks -/

/-- src/Net.cpp lines 190-194 -/
noncomputable def getLayer (debug : Bool) (D : ℕ) (ks : List NN.Kind) (l : ℕ) : Outcome (ℕ × NN.AnyLayer) := do
  require debug (l < ks.length + 1)
  Outcome.read ((D, .input) :: NN.getLayer.go D ks) l

/-- src/Convolutional.cpp lines 20-84 -/
def convInit (debug : Bool) (fmin inRows inCols fmout kernelRows kernelCols : ℤ) : Outcome (ℤ × ℤ × ℤ) :=
  if kernelRows < 0 ∨ kernelCols < 0 then .ub
  else if fmin < 0 ∨ fmout < 0 then .throws
  else if fmout * (inRows - kernelRows.tdiv 2 * 2) * (inCols - kernelCols.tdiv 2 * 2) < 0 then .ub
  else if fmout * (inRows - kernelRows.tdiv 2 * 2) * (inCols - kernelCols.tdiv 2 * 2) < 1 then .throws
  else do
    require debug (inRows * inCols > 0)
    require debug (inRows - kernelRows.tdiv 2 * 2 > 0)
    require debug (inCols - kernelCols.tdiv 2 * 2 > 0)
    require debug ((inRows - kernelRows.tdiv 2 * 2) * (inCols - kernelCols.tdiv 2 * 2) > 0)
    require debug (inRows - kernelRows + kernelRows.tmod 2 > 0)
    require debug (inCols - kernelCols + kernelCols.tmod 2 > 0)
    pure (fmout, inRows - kernelRows.tdiv 2 * 2, inCols - kernelCols.tdiv 2 * 2)

/-- src/MaxPooling.cpp lines 34-44, src/Subsampling.cpp lines 69-80 -/
def poolChecks (debug : Bool) (fm inRows inCols kernelRows kernelCols : ℤ) : Outcome (ℤ × ℤ × ℤ) :=
  if fm * inRows.tdiv kernelRows * inCols.tdiv kernelCols < 1 then .throws
  else do
    require debug (inRows * inCols > 0)
    require debug (inRows.tdiv kernelRows > 0)
    require debug (inCols.tdiv kernelCols > 0)
    require debug (inRows.tdiv kernelRows * inCols.tdiv kernelCols > 0)
    require debug (inRows - kernelRows + 1 > 0)
    require debug (inCols - kernelCols + 1 > 0)
    pure (fm, inRows.tdiv kernelRows, inCols.tdiv kernelCols)

/-- OpenANN/layers/SigmaPiConstraints.h lines 25-31 (56-62) -/
def coordinates (debug : Bool) (width height p : ℕ) : Outcome (ℕ × ℕ) :=
  if width = 0 then ub
  else do
    require debug (p / width < height)
    ok (p % width, p / width)

/-! ## Logging -/

/-- src/Logger.cpp lines 74-103 -/
def emit (debug : Bool) (g : Logging.Global) (l : Logging.Level) (text : String) : Outcome Logging.Global := do
  require debug (l ≠ .disabled)
  ok { g with out := g.out ++ [⟨g.stream, l, text⟩] }

/-- OpenANN/io/Logger.h lines 40-43, `OPENANN_LOG` -/
def log (debug : Bool) (compiled : Logging.Level) (g : Logging.Global) (l : Logging.Level) (text : String) : Outcome Logging.Global :=
  if l.num > compiled.num then ok g
  else if l.num > g.level.num then ok g
  else emit debug g l text

/-- The loggers together with those whose file could not be opened. -/
structure Loggers where
  base : Logging.Loggers
  broken : List ℕ

/-- src/Logger.cpp lines 19-41 -/
def construct (debug : Bool) (s : Loggers) (t : Logging.Target) (opens : Bool) : Outcome Loggers :=
  if s.base.deactivate then ok { s with base := { s.base with targets := s.base.targets ++ [.none] } }
  else if t = .file ∨ t = .appendFile then do
    require debug (opens = true)
    ok { base := { s.base with targets := s.base.targets ++ [t] }
         broken := if opens then s.broken else s.base.targets.length :: s.broken }
  else ok { s with base := { s.base with targets := s.base.targets ++ [t] } }

/-- OpenANN/io/Logger.h lines 156-172 and src/Logger.cpp lines 54-70: a stream without file accepts nothing -/
def write (s : Loggers) (i : ℕ) (text : String) : Outcome Loggers := do
  let b ← Logging.write s.base i text
  ok (if i ∈ s.broken then s else { s with base := b })

end Verif.Release
