import Verif.Model.Text

/-!
# Architecture, `save` and `load` of networks (src/Net.cpp lines 24-183, 222-450, 492-500, 604-615)

A network is modelled as far as it matters for its file format: the sequence of layers with their
hyperparameters and the regularisation that was in force when they were created, the shapes
of their outputs, the number of registered parameters, the regularisation and error function settings, the parameter vector, and the
architecture text that the network keeps.  The values inside of the layers are modelled in other files.
-/

namespace Verif.NetFile

open Verif.Text

/-- Everything that can be told to a network in a file; one constructor per method (src/Net.cpp lines 41-142,
163-183, 434-450).  Enumerations are numbers here, as in the file. -/
inductive Cmd (K : Type) where
  | input (dim1 dim2 dim3 : ℤ)
  | alphaBetaFilter (deltaT stdDev : K)
  | fullyConnected (units act : ℤ) (stdDev : K) (bias : Bool)
  | rbm (H cdN : ℤ) (stdDev : K) (backprop : Bool)
  | sae (H : ℤ) (beta rho : K) (act : ℤ)
  | compressed (units params act : ℤ) (compression : List Char) (stdDev : K) (bias : Bool)
  | extreme (units act : ℤ) (stdDev : K) (bias : Bool)
  | intrinsicPlasticity (targetMean stdDev : K)
  | convolutional (featureMaps kernelRows kernelCols act : ℤ) (stdDev : K) (bias : Bool)
  | subsampling (kernelRows kernelCols act : ℤ) (stdDev : K) (bias : Bool)
  | maxPooling (kernelRows kernelCols : ℤ)
  | localResponseNormalization (k : K) (n : ℤ) (alpha beta : K)
  | dropout (probability : K)
  | output (units act : ℤ) (stdDev : K) (bias : Bool)
  | compressedOutput (units params act : ℤ) (compression : List Char) (stdDev : K) (bias : Bool)
  | errorFunction (e : ℤ)
  | regularization (l1Penalty l2Penalty maxSquaredWeightNorm : K)
  deriving DecidableEq, Repr

/-- OpenANN/Regularization.h. -/
structure Reg (K : Type) where
  l1 : K
  l2 : K
  maxNorm : K
  deriving DecidableEq, Repr

/-- The state of a `Net` (OpenANN/Net.h lines 37-50) as far as modelled.
`P = none` is the initial value -1. -/
structure Net (K : Type) where
  infos : List (List ℤ)
  layers : List (Cmd K × Reg K)
  nParams : ℕ
  P : Option ℕ
  reg : Reg K
  errFn : ℤ
  params : List K
  arch : List Char
  deriving DecidableEq, Repr

variable {K : Type} [IntCast K] [Zero K]

/-- src/Net.cpp lines 24-29: a new network; `MSE` is 1. -/
def empty : Net K :=
  { infos := [], layers := [], nParams := 0, P := none, reg := ⟨0, 0, 0⟩, errFn := 1, params := [], arch := [] }

/-! ## The architecture text -/

/-- The values in the text of a command. -/
inductive Arg (K : Type) where
  | int (z : ℤ)
  | dbl (x : K)
  | bool (b : Bool)
  | word (w : List Char)
  deriving DecidableEq, Repr

/-- `stream << value`. -/
def Arg.text (F : NumFormat K) : Arg K → List Char
  | .int z => printInt z
  | .dbl x => F.fmt x
  | .bool b => printBool b
  | .word w => w

/-- The first word of the command's text. -/
def Cmd.name : Cmd K → List Char
  | .input .. => "input".toList                                                  -- line 43
  | .alphaBetaFilter .. => "alpha_beta_filter".toList                            -- line 49
  | .fullyConnected .. => "fully_connected".toList                               -- line 56
  | .rbm .. => "rbm".toList                                                      -- line 65
  | .sae .. => "sae".toList                                                      -- line 74
  | .compressed .. => "compressed".toList                                        -- line 84
  | .extreme .. => "extreme".toList                                              -- line 93
  | .intrinsicPlasticity .. => "intrinsic_plasticity".toList                     -- line 100
  | .convolutional .. => "convolutional".toList                                  -- line 108
  | .subsampling .. => "subsampling".toList                                      -- line 117
  | .maxPooling .. => "max_pooling".toList                                       -- line 125
  | .localResponseNormalization .. => "local_response_normalization".toList      -- line 132
  | .dropout .. => "dropout".toList                                              -- line 140
  | .output .. => "output".toList                                                -- line 165
  | .compressedOutput .. => "compressed_output".toList                           -- line 177
  | .errorFunction .. => "error_function".toList                                 -- line 447
  | .regularization .. => "regularization".toList                                -- line 437

/-- The values written after the name (same lines as in `Cmd.name`). -/
def Cmd.args : Cmd K → List (Arg K)
  | .input a b c => [.int a, .int b, .int c]
  | .alphaBetaFilter d s => [.dbl d, .dbl s]
  | .fullyConnected u a s b => [.int u, .int a, .dbl s, .bool b]
  | .rbm h c s b => [.int h, .int c, .dbl s, .bool b]
  | .sae h be r a => [.int h, .dbl be, .dbl r, .int a]
  | .compressed u p a c s b => [.int u, .int p, .int a, .word c, .dbl s, .bool b]
  | .extreme u a s b => [.int u, .int a, .dbl s, .bool b]
  | .intrinsicPlasticity t s => [.dbl t, .dbl s]
  | .convolutional f r c a s b => [.int f, .int r, .int c, .int a, .dbl s, .bool b]
  | .subsampling r c a s b => [.int r, .int c, .int a, .dbl s, .bool b]
  | .maxPooling r c => [.int r, .int c]
  | .localResponseNormalization k n a b => [.dbl k, .int n, .dbl a, .dbl b]
  | .dropout p => [.dbl p]
  | .output u a s b => [.int u, .int a, .dbl s, .bool b]
  | .compressedOutput u p a c s b => [.int u, .int p, .int a, .word c, .dbl s, .bool b]
  | .errorFunction e => [.int e]
  | .regularization a b c => [.dbl a, .dbl b, .dbl c]

/-- What a command appends to the architecture text: every word is followed by a blank. -/
def Cmd.text (F : NumFormat K) (c : Cmd K) : List Char :=
  c.name ++ ' ' :: c.args.flatMap (fun a => a.text F ++ [' '])

/-! ## Executing commands -/

/-- src/Layer.cpp lines 7-11, `OutputInfo::outputs`. -/
def outputs (dims : List ℤ) : ℤ := dims.foldl (· * ·) 1

/-- Size of something that is allocated; a negative size violates Eigen's assertions. -/
def alloc (z : ℤ) : Outcome ℕ := if z < 0 then .ub else .ok z.toNat

/-- `bool` in arithmetic. -/
def b2z (b : Bool) : ℤ := if b then 1 else 0

/-- Three dimensions of the previous layer, `info.dimensions[0..2]`. -/
def dims3 : List ℤ → Outcome (ℤ × ℤ × ℤ)
  | a :: b :: c :: _ => .ok (a, b, c)
  | _ => .ub

/-- Constructor and `initialize` of a fully connected layer (src/FullyConnected.cpp lines 7-40): output shape and
number of parameters. -/
def buildFullyConnected (dims : List ℤ) (units : ℤ) (bias : Bool) : Outcome (List ℤ × ℕ) := do
  let I ← alloc (outputs dims)
  let J ← alloc units
  return ([units], J * (I + (if bias then 1 else 0)))

/-- Constructor and `initialize` of a compressed layer (src/Compressed.cpp lines 8-51,
src/CompressionMatrixFactory.cpp lines 14-61). -/
def buildCompressed (dims : List ℤ) (units params : ℤ) (compression : List Char) : Outcome (List ℤ × ℕ) := do
  let I ← alloc (outputs dims)
  let J ← alloc units
  let M ← alloc params
  if M < 1 then .throws
  else if (compression = "average".toList ∨ compression = "edge".toList) ∧ (I + 1) / M = 0 then .ub
  else .ok ([units], J * M)

/-- The size checks shared by src/Convolutional.cpp lines 64-82, src/Subsampling.cpp lines 64-78 and
src/MaxPooling.cpp lines 32-43. -/
def sizeChecks (fm outRows outCols inRows inCols maxRow maxCol : ℤ) : Outcome Unit := do
  let _ ← alloc (outputs [fm, outRows, outCols])
  if outputs [fm, outRows, outCols] < 1 then .throws
  else do
    Outcome.check (inRows * inCols > 0)
    Outcome.check (outRows > 0)
    Outcome.check (outCols > 0)
    Outcome.check (outRows * outCols > 0)
    Outcome.check (maxRow > 0)
    Outcome.check (maxCol > 0)

/-- Constructor and `initialize` of a convolutional layer (src/Convolutional.cpp lines 9-84). -/
def buildConvolutional (dims : List ℤ) (fmout kr kc : ℤ) (bias : Bool) : Outcome (List ℤ × ℕ) := do
  let _ ← alloc (outputs dims)
  let (fmin, inRows, inCols) ← dims3 dims
  let outRows := inRows - Int.tdiv kr 2 * 2
  let outCols := inCols - Int.tdiv kc 2 * 2
  let maxRow := inRows - kr + Int.tmod kr 2
  let maxCol := inCols - kc + Int.tmod kc 2
  let nfo ← alloc fmout
  let nfi ← alloc fmin
  let nkr ← alloc kr
  let nkc ← alloc kc
  sizeChecks fmout outRows outCols inRows inCols maxRow maxCol
  return ([fmout, outRows, outCols], nfo * (nfi * (nkr * nkc + (if bias then 1 else 0))))

/-- Constructor and `initialize` of a subsampling layer (src/Subsampling.cpp lines 9-81). -/
def buildSubsampling (dims : List ℤ) (kr kc : ℤ) (bias : Bool) : Outcome (List ℤ × ℕ) := do
  let _ ← alloc (outputs dims)
  let (fm, inRows, inCols) ← dims3 dims
  if kr = 0 ∨ kc = 0 then .ub
  else do
    let outRows := Int.tdiv inRows kr
    let outCols := Int.tdiv inCols kc
    let nfm ← alloc fm
    let nor ← alloc outRows
    let noc ← alloc outCols
    sizeChecks fm outRows outCols inRows inCols (inRows - kr + 1) (inCols - kc + 1)
    return ([fm, outRows, outCols], nfm * (nor * (noc * (1 + (if bias then 1 else 0)))))

/-- Constructor and `initialize` of a max-pooling layer (src/MaxPooling.cpp lines 10-45). -/
def buildMaxPooling (dims : List ℤ) (kr kc : ℤ) : Outcome (List ℤ × ℕ) := do
  let _ ← alloc (outputs dims)
  let (fm, inRows, inCols) ← dims3 dims
  if kr = 0 ∨ kc = 0 then .ub
  else do
    let outRows := Int.tdiv inRows kr
    let outCols := Int.tdiv inCols kc
    sizeChecks fm outRows outCols inRows inCols (inRows - kr + 1) (inCols - kc + 1)
    return ([fm, outRows, outCols], 0)

/-- Constructor and `initialize` of the layer that a command creates on top of a layer with the given output
shape (`dims`); `none` if the command does not create a layer.

* src/Input.cpp 7-21, src/AlphaBetaFilter.cpp 7-29, src/RBM.cpp 11-22 and 135-158, src/SparseAutoEncoder.cpp 10-18
  and 171-189, src/Extreme.cpp 7-22, src/IntrinsicPlasticity.cpp 10-15 and 125-131,
  src/LocalResponseNormalization.cpp 7-27, src/Dropout.cpp 7-17. -/
def buildOn (dims : List ℤ) : Cmd K → Outcome (List ℤ × ℕ)
  | .input a b c => .ok ([a, b, c], 0)
  | .alphaBetaFilter .. => do
    let I ← alloc (outputs dims)
    return ([2 * (I : ℤ)], I)
  | .fullyConnected u _ _ b => buildFullyConnected dims u b
  | .rbm H _ _ backprop => do
    let D ← alloc (outputs dims)
    let h ← alloc H
    return ([H], if backprop then h * D + h else 0)
  | .sae H _ _ _ => do
    let D ← alloc (outputs dims)
    let h ← alloc H
    return ([H], h * D + h)
  | .compressed u p _ c _ _ => buildCompressed dims u p c
  | .extreme u _ _ _ => do
    let _ ← alloc (outputs dims)
    let _ ← alloc u
    return ([u], 0)
  | .intrinsicPlasticity .. => do
    let n ← alloc (outputs dims)
    return ([(n : ℤ)], 0)
  | .convolutional f r c _ _ b => buildConvolutional dims f r c b
  | .subsampling r c _ _ b => buildSubsampling dims r c b
  | .maxPooling r c => buildMaxPooling dims r c
  | .localResponseNormalization .. => do
    let _ ← alloc (outputs dims)
    let (fm, rows, cols) ← dims3 dims
    Outcome.check (rows * cols > 0)
    return ([fm, rows, cols], 0)
  | .dropout .. => do
    let _ ← alloc (outputs dims)
    return (dims, 0)
  | .output u _ _ b => buildFullyConnected dims u b
  | .compressedOutput u p _ c _ _ => buildCompressed dims u p c
  | .errorFunction _ => .ok ([], 0)
  | .regularization .. => .ok ([], 0)

/-- The shape of the last layer, `infos.back()`; undefined if there is none.  The input layer does not ask for it. -/
def lastInfo (net : Net K) : Cmd K → Outcome (List ℤ)
  | .input .. => .ok []
  | _ =>
    match net.infos.getLast? with
    | some d => .ok d
    | none => .ub

/-- src/Net.cpp lines 144-153, `addLayer`, after the text was appended. -/
def addLayer (net : Net K) (c : Cmd K) : Outcome (Net K) := do
  let d ← lastInfo net c
  let (dims, n) ← buildOn d c
  return { net with
    infos := net.infos ++ [dims]
    layers := net.layers ++ [(c, net.reg)]
    nParams := net.nParams + n }

/-- src/Net.cpp lines 604-615, `initializeNetwork`.  The initial parameters are random numbers, given by `init`. -/
def initializeNetwork (init : ℕ → K) (net : Net K) : Outcome (Net K) := do
  match net.infos.head?, net.infos.getLast? with
  | some f, some l =>
    let _ ← alloc (outputs f)
    let _ ← alloc (outputs l)
    return { net with P := some net.nParams, params := (List.range net.nParams).map init }
  | _, _ => .ub

/-- A method call of src/Net.cpp lines 41-183, 434-450 that is recorded in the architecture text. -/
def exec (F : NumFormat K) (init : ℕ → K) (net : Net K) (c : Cmd K) : Outcome (Net K) :=
  let net := { net with arch := net.arch ++ c.text F }
  match c with
  | .errorFunction e => .ok { net with errFn := e }
  | .regularization l1 l2 m => .ok { net with reg := ⟨l1, l2, m⟩ }
  | .output .. | .compressedOutput .. => do
    let net ← addLayer net c
    initializeNetwork init net
  | _ => addLayer net c

/-- A sequence of calls. -/
def run (F : NumFormat K) (init : ℕ → K) : List (Cmd K) → Net K → Outcome (Net K)
  | [], net => .ok net
  | c :: cs, net => do
    let net' ← exec F init net c
    run F init cs net'

/-- src/Net.cpp lines 492-500, `setParameters`: the vector must provide (at least) `P` numbers. -/
def setParameters (net : Net K) (v : List K) : Outcome (Net K) :=
  match net.P with
  | none => .ok { net with params := v }
  | some p => if p ≤ v.length then .ok { net with params := v } else .ub

/-! ## Saving and loading -/

/-- src/Net.cpp lines 231-234, `save`. -/
def save (F : NumFormat K) (net : Net K) : List Char :=
  net.arch ++ "parameters ".toList ++ printCol (net.params.map F.fmt)

/-- Types of the local variables that a branch of `load` reads. -/
inductive ArgType where
  | int | dbl | bool | word
  deriving DecidableEq, Repr

/-- The type of a value. -/
def Arg.type : Arg K → ArgType
  | .int _ => .int
  | .dbl _ => .dbl
  | .bool _ => .bool
  | .word _ => .word

/-- `stream >> variable`.  `none`: the variable was not assigned.  (A `std::string` is empty then, the others are
uninitialised.) -/
def readArg (F : NumFormat K) (t : ArgType) (s : IStream) : Option (Arg K) × IStream :=
  match t with
  | .int => ((extractInt s).1.map .int, (extractInt s).2)
  | .dbl => ((F.extract s).1.map .dbl, (F.extract s).2)
  | .bool => ((extractBool s).1.map .bool, (extractBool s).2)
  | .word => (some (.word ((extractWord s).1.getD [])), (extractWord s).2)

/-- `stream >> v1 >> v2 >> ...`. -/
def readArgs (F : NumFormat K) : List ArgType → IStream → List (Option (Arg K)) × IStream
  | [], s => ([], s)
  | t :: ts, s =>
    let (a, s₁) := readArg F t s
    let (as, s₂) := readArgs F ts s₁
    (a :: as, s₂)

/-- The branches of `load` (src/Net.cpp lines 251-413) that read values and call a method. -/
inductive Kind where
  | input | alphaBetaFilter | fullyConnected | rbm | sae | compressed | extreme | intrinsicPlasticity
  | convolutional | subsampling | maxPooling | localResponseNormalization | dropout | output | compressedOutput
  | errorFunction | regularization
  deriving DecidableEq, Repr

/-- The order in which the branches are tried. -/
def kinds : List Kind :=
  [.input, .alphaBetaFilter, .fullyConnected, .rbm, .sae, .compressed, .extreme, .intrinsicPlasticity,
   .convolutional, .subsampling, .maxPooling, .localResponseNormalization, .dropout, .output, .compressedOutput,
   .errorFunction, .regularization]

/-- The word that selects a branch. -/
def Kind.word : Kind → List Char
  | .input => "input".toList                                               -- line 251
  | .alphaBetaFilter => "alpha_beta_filter".toList                         -- line 258
  | .fullyConnected => "fully_connected".toList                            -- line 265
  | .rbm => "rbm".toList                                                   -- line 276
  | .sae => "sae".toList                                                   -- line 287
  | .compressed => "compressed".toList                                     -- line 296
  | .extreme => "extreme".toList                                           -- line 310
  | .intrinsicPlasticity => "intrinsic_plasticity".toList                  -- line 321
  | .convolutional => "convolutional".toList                               -- line 329
  | .subsampling => "subsampling".toList                                   -- line 340
  | .maxPooling => "max_pooling".toList                                    -- line 351
  | .localResponseNormalization => "local_response_normalization".toList   -- line 358
  | .dropout => "dropout".toList                                           -- line 367
  | .output => "output".toList                                             -- line 374
  | .compressedOutput => "compressed_output".toList                        -- line 385
  | .errorFunction => "error_function".toList                              -- line 399
  | .regularization => "regularization".toList                             -- line 406

/-- The variables that a branch reads (lines following those in `Kind.word`). -/
def Kind.types : Kind → List ArgType
  | .input => [.int, .int, .int]
  | .alphaBetaFilter => [.dbl, .dbl]
  | .fullyConnected => [.int, .int, .dbl, .bool]
  | .rbm => [.int, .int, .dbl, .bool]
  | .sae => [.int, .dbl, .dbl, .int]
  | .compressed => [.int, .int, .int, .word, .dbl, .bool]
  | .extreme => [.int, .int, .dbl, .bool]
  | .intrinsicPlasticity => [.dbl, .dbl]
  | .convolutional => [.int, .int, .int, .int, .dbl, .bool]
  | .subsampling => [.int, .int, .int, .dbl, .bool]
  | .maxPooling => [.int, .int]
  | .localResponseNormalization => [.dbl, .int, .dbl, .dbl]
  | .dropout => [.dbl]
  | .output => [.int, .int, .dbl, .bool]
  | .compressedOutput => [.int, .int, .int, .word, .dbl, .bool]
  | .errorFunction => [.int]
  | .regularization => [.dbl, .dbl, .dbl]

/-- The call made with the values read; using a variable that was not assigned is undefined. -/
def Kind.call : Kind → List (Option (Arg K)) → Outcome (Cmd K)
  | .input, [some (.int a), some (.int b), some (.int c)] => .ok (.input a b c)
  | .alphaBetaFilter, [some (.dbl d), some (.dbl s)] => .ok (.alphaBetaFilter d s)
  | .fullyConnected, [some (.int u), some (.int a), some (.dbl s), some (.bool b)] => .ok (.fullyConnected u a s b)
  | .rbm, [some (.int h), some (.int c), some (.dbl s), some (.bool b)] => .ok (.rbm h c s b)
  | .sae, [some (.int h), some (.dbl be), some (.dbl r), some (.int a)] => .ok (.sae h be r a)
  | .compressed, [some (.int u), some (.int p), some (.int a), some (.word c), some (.dbl s), some (.bool b)] =>
    .ok (.compressed u p a c s b)
  | .extreme, [some (.int u), some (.int a), some (.dbl s), some (.bool b)] => .ok (.extreme u a s b)
  | .intrinsicPlasticity, [some (.dbl t), some (.dbl s)] => .ok (.intrinsicPlasticity t s)
  | .convolutional, [some (.int f), some (.int r), some (.int c), some (.int a), some (.dbl s), some (.bool b)] =>
    .ok (.convolutional f r c a s b)
  | .subsampling, [some (.int r), some (.int c), some (.int a), some (.dbl s), some (.bool b)] =>
    .ok (.subsampling r c a s b)
  | .maxPooling, [some (.int r), some (.int c)] => .ok (.maxPooling r c)
  | .localResponseNormalization, [some (.dbl k), some (.int n), some (.dbl a), some (.dbl b)] =>
    .ok (.localResponseNormalization k n a b)
  | .dropout, [some (.dbl p)] => .ok (.dropout p)
  | .output, [some (.int u), some (.int a), some (.dbl s), some (.bool b)] => .ok (.output u a s b)
  | .compressedOutput, [some (.int u), some (.int p), some (.int a), some (.word c), some (.dbl s), some (.bool b)] =>
    .ok (.compressedOutput u p a c s b)
  | .errorFunction, [some (.int e)] => .ok (.errorFunction e)
  | .regularization, [some (.dbl a), some (.dbl b), some (.dbl c)] => .ok (.regularization a b c)
  | _, _ => .ub

/-- Lines 417-418: `stream >> parameterVector(i)` for all elements; an element that is not assigned keeps its value. -/
def readParams (F : NumFormat K) : List K → IStream → List K × IStream
  | [], s => ([], s)
  | x :: xs, s =>
    let (v, s₁) := F.extract s
    let (vs, s₂) := readParams F xs s₁
    (v.getD x :: vs, s₂)

/-- Lines 414-420, the branch `parameters`.  Without an output layer `dimension()` is `(unsigned) -1` and the first
access to the empty vector is out of range. -/
def loadParameters (F : NumFormat K) (net : Net K) (s : IStream) : Outcome (Net K × IStream) :=
  match net.P with
  | none => .ub
  | some p =>
    if p ≤ net.params.length then
      .ok ({ net with params := (readParams F (net.params.take p) s).1 ++ net.params.drop p },
        (readParams F (net.params.take p) s).2)
    else .ub

/-- src/Net.cpp lines 253-424: the chain of comparisons of `type` with the known words. -/
def dispatch (F : NumFormat K) (init : ℕ → K) (net : Net K) (type : List Char) (s : IStream) :
    Outcome (Net K × List Char × IStream) :=
  match kinds.find? (fun k => k.word = type) with
  | some k => do
    let cmd ← k.call (readArgs F k.types s).1
    let net' ← exec F init net cmd
    return (net', type, (readArgs F k.types s).2)
  | none =>
    if type = "parameters".toList then do
      let r ← loadParameters F net s
      return (r.1, type, r.2)
    else .throws

/-- src/Net.cpp lines 250-424: one pass of the loop of `load`.  If no word can be read, `type` keeps its value. -/
def loadStep (F : NumFormat K) (init : ℕ → K) (net : Net K) (type : List Char) (s : IStream) :
    Outcome (Net K × List Char × IStream) :=
  dispatch F init net ((extractWord s).1.getD type) (extractWord s).2

/-- src/Net.cpp lines 245-426, `load`: `while(!stream.eof())`.  `fuel` bounds the number of passes; `none` means that the
loop is still running then. -/
def loadLoop (F : NumFormat K) (init : ℕ → K) : ℕ → Net K → List Char → IStream → Option (Outcome (Net K))
  | 0, net, _, s => if s.eof then some (.ok net) else none
  | fuel + 1, net, type, s =>
    if s.eof then some (.ok net)
    else
      match loadStep F init net type s with
      | .ok (net', type', s') => loadLoop F init fuel net' type' s'
      | .throws => some .throws
      | .checkFailed => some .checkFailed
      | .ub => some .ub

/-- `load` ends with the given outcome. -/
def Loads (F : NumFormat K) (init : ℕ → K) (net : Net K) (s : IStream) (r : Outcome (Net K)) : Prop :=
  ∃ fuel, loadLoop F init fuel net [] s = some r

/-- `load` runs forever. -/
def Diverges (F : NumFormat K) (init : ℕ → K) (net : Net K) (s : IStream) : Prop :=
  ∀ fuel, loadLoop F init fuel net [] s = none

end Verif.NetFile
