# OpenANN formal model: design

Source: OpenANN at the pinned commit, read as text in `/repo` (never built, never run).
Model and proofs: Lean 4.33.0 + Mathlib, Lake project in `lean/`.

## 1. Layout

| directory | content |
|---|---|
| `lean/Verif/Model/*.lean`  | executable/total definitions, one file per source file or group; each definition cites the file and lines it models |
| `lean/Verif/Spec/*.lean`   | independent specifications of the data set, LibSVM and network file properties; the specifications of the other properties are small definitions at the head of their `Props` file |
| `lean/Verif/Lemmas/*.lean` | helper lemmas of the same modules, no property statements |
| `lean/Verif/Props/*.lean`  | the property theorems, with `example`s that meet the hypotheses |
| `lean/Verif/Audit.lean`    | generated: `#print axioms` for every theorem named in `MANIFEST.json` |

`MANIFEST.json` maps property ids to theorem names.  `seeded/LOG.jsonl` records the mutation experiments.

## 2. Conventions of the model

* **Outcomes.** Code that can go wrong returns `Outcome α` with four constructors:
  `ok a` (normal return), `throws` (an `OpenANNException` or an exception of the standard library), `checkFailed`
  (`OPENANN_CHECK*`/`assert` aborts of OpenANN's own sources - these are compiled out under `NDEBUG`), and `ub`
  (undefined behaviour: out-of-bounds access, violated Eigen assertion, integer division by zero, signed overflow
  where a model says so, use of dangling or uninitialised memory, flowing off the end of a function with a result).
  A theorem that says "= ok ..." therefore also says that none of the others happens.
* **Numbers.** `double` is modelled by an arbitrary (ordered) field, usually `ℝ` (or `ℚ` for
  runnable examples): rounding, overflow, NaN and infinities are outside the model
  unless a definition says otherwise (text formats treat doubles as an abstract type with
  a printer and a parser).  `int` is modelled by `ℤ`/`ℕ` without wrap-around.
* **Randomness and schedules.** Random draws, shuffles, signals, the objective function, the learner's
  predictions and the sampling core of CMA-ES are universally quantified inputs
  (oracles), constrained only by what the library that produces them guarantees
  (e.g. a shuffle returns a permutation; `rand()` is in `[0, RAND_MAX]`).
* **Wrong code is modelled as it is.**  When the documented property is false of the code we prove
  the negation with a concrete witness (`..._fails`, `..._ub`) and the
  strongest true part (`..._partial`).  See section 5.

## 3. Trusted base

* Lean's kernel, and the axioms `propext`, `Classical.choice`, `Quot.sound` (Mathlib's usual ones); no other
  axioms, no `sorry`, no `native_decide`, no `bv_decide`. `Verif/Audit.lean` prints the axioms of every listed theorem
  during the build.
* The correspondence between the C++ text and the Lean definitions, which is by reading; each definition cites its lines.
* Semantics given to Eigen, the C++ standard library (vector, iostream, random_shuffle/`std::shuffle`), `rand()`, alglib and
  CMA-ES as stated in the comments of the model.
* The abstraction of floating-point numbers by exact fields; in C100-C102 and C145-C147 the laws of rounding and of `exp`,
  `log`, `sqrt`, `cos` that are the fields of `Fp.Fpu`, and a single zero.  Eigen adds in some order and with some bracketing
  (`Fp.Fpu.Sums`), and its visitor for the position of the maximum compares with `>`.
* Assumptions about the platform that single models make and name in their comments: little-endian machine and signed `char`
  (`ImageLoader`), `int` arguments read through `va_arg` as the caller passed them (`Packing`), signals with BSD
  semantics, i.e. a handler stays installed (`Interrupt`), `std::map` finds keys up to equivalence of its comparator
  (`SigmaPiConstraints`).
* Libraries as inputs: the singular value decomposition is any triple that satisfies `White.IsSVD`, the core of CMA-ES is any
  function that produces individuals and decides when to stop, a random permutation is any permutation.
* Threads (C94): executions of programs without data races are interleavings of their accesses (C++ memory model); OpenMP
  distributes every iteration of a loop to exactly one thread.

Not modelled at all: the Python bindings beyond the conversion of arrays and the lifetime of objects (`PythonArrays`,
`PythonMemory`, `PythonObjects`), the SVD inside Eigen, alglib's LBFGS/CG/LMA internals, the CMA-ES core, drawing with OpenGL,
the duration of computations, and compiler-specific behaviour.

## 4. Plan per property

| id | modelled | how proved |
|---|---|---|
| C01 | index lists of `DataSetView`, both loops of `split(k)` | list induction; partition = concatenation equals the shuffled list; sizes |
| C02 | `split(ratio)`, `ceil` over an ordered field with floor | same |
| C03 | `merge` | list induction |
| C04 | loop of `crossValidation` building train/test views | permutation reasoning on concatenations |
| C05 | accumulation of the accuracies with C++ integer division | false: witness; characterisation of the value the code computes (`_partial`) |
| C06 | state machine over view operations | invariant by induction over the history |
| C07 | `sample` with a model of `std::vector` size/capacity | without replacement proved; with replacement is UB: proved as negation |
| C08 | loop of `resample` | loop invariant on prefix sums; random draw 0 is UB (negation) |
| C09 | buffers of `DirectStorageDataSet` as state | invariant over access histories |
| C10 | `addSample` state machine | invariant over stream histories |
| C11 | heap with live/freed objects, all six setters and the destructor | invariant over call histories |
| C12 | character-level `istream`/`ostream` model, Eigen row printing with alignment, FANN `save`/`load` | round trip by induction |
| C13, C14 | LibSVM `save`/`load` on lines/tokens | partial round trip for two-class label columns; negations for one class and more than two classes |
| C15 | all 14 architecture commands, writer and reader | round trip by induction over the command list |
| C16 | reader loop with stream state, fuel-indexed | negation: a malformed number makes the loop run for every fuel; termination for all outputs of the writer |
| C17 | pointer lists of every layer kind; memory as a function of pointers | nodup + length + read-after-write |
| C18 | forward/backward pass of arbitrary chains of layers over ℝ | adjoint (vector-Jacobian) lemma per layer, induction over the chain, `HasDerivAt` |
| C19 | penalty terms | negation for N>1; proved for N=1 and for zero penalties |
| C20 | `error(n)`, `error()`, `errorGradient` value | finite sums |
| C21 | forward pass on batches | row-wise lemma per layer, induction over the chain; negation for LRN and alpha-beta |
| C22 | `updatedParameters` | real analysis of one row |
| C23 | the loops of `Convolutional` with checked accesses | loop closed forms |
| C24, C25 | loops of `MaxPooling`, `Subsampling` with checked accesses | true closed form (first row of the window only) + negation of the documented one |
| C26 | loops of LRN incl. the shadowed variable | negation + closed form |
| C27 | `Dropout`, `useDropout`, `finishedIteration` | cases, history induction |
| C28-C30 | activation and error functions over ℝ | analysis |
| C31, C32 | `Compressed`, `CompressionMatrixFactory` | matrix algebra, counting |
| C33 | loop of `propagateDataSet` | negation + what holds |
| C34-C36 | `SigmaPi`, constraints | induction on the enumeration loops; negations |
| C37 | `AlphaBetaFilter` | real analysis, history induction |
| C38-C42 | `MBSGD` state machine | invariants over steps; negation for C42 |
| C43 | `StoppingInterrupt` state machine | invariant over interleavings |
| C44 | `IPOPCMAES` with an abstract core | invariants |
| C45, C46 | `RandomNumberGenerator`, global `rand` state | arithmetic; two-run noninterference; negation for shuffles |
| C47-C49 | `Evaluation`, `Evaluator` | finite sums |
| C50-C53 | `Normalization`, `Preprocessing` | algebra, loop bounds |
| C54 | `KMeans` | invariant over fit histories |
| C55 | `PCA`, `ZCAWhitening` relative to an SVD specification | matrix algebra; the PCA claim fails (row/column mix-up), negation |
| C56, C57 | `AdaBoost`, `Bagging` | invariant over rounds, sums |
| C58, C59 | `pack`/`unpack`, parameter vectors | list lemmas |
| C60 | regularisation part of `RBM` gradient | negation + actual value |
| C61 | `Logger` | history induction, negation for deactivation |
| C62 | `IDXLoader`, `CIFARLoader` | loop closed forms |
| C63, C64 | heap of `Learner`, local data sets of `crossValidation`, implicit copy | negations for all learner states |
| C65 | all layer kinds in one chain, loops of the image layers included | adjoint lemma per layer; negation for LRN |
| C66 | `SparseAutoEncoder::errorGradient` | `HasDerivAt` along every differentiable path of parameters |
| C67 | `IntrinsicPlasticity::error/gradient` | same; negations |
| C68 | `SigmaPi` and the constraints together | bijection between the units of a pattern and of the shifted pattern |
| C69 | `AlphaBetaFilter` | linear recurrence of the prediction error, quadratic Lyapunov function, limit |
| C70 | file format (C15) connected with the layer functions (C65): `sem` | induction over the calls; the parameter vector determines the outputs; negations for layers with other state and for rounding |
| C71 | `LBFGS`, `CG`, `LMA` over an arbitrary library with reverse communication (`Library`) and an arbitrary `Object`; `Net` as an object | invariant over the steps of a run (the state of the library is reached by exchanges with the objective alone); induction over the loop; determinism; negations with a small library |
| C72 | network model of C17-C26, C65 | congruence of the forward and backward pass of every layer, induction over the layers |
| C73 | `Model/Optimizable` (inherited functions over an abstract object), `Model/OptimizableNet` | induction over the list of indices; for networks, row lemmas for the forward and backward pass of every layer and induction over the layers (`Props/BatchGradient`) |
| C74 | network model, MBSGD model of C38-C43 | gradient of a batch as function of the multiset of its examples; simulation between two runs of MBSGD by induction over the steps |
| C75 | `Model/Train`: optimisers as arbitrary interactive programs over the interface | induction over the program |
| C76 | `Model/MLNN` over the network model | index arithmetic of the parameter pointers, induction over the layers |
| C77 | `Model/LayerParameters`: `getParameters` of every layer as the list of assignments, `getLayer` | a filled vector is determined iff the number of assignments is its size; exact characterisation per layer type |
| C78 | `MBSGD.step` on `netProblem` | derivative along lines from the gradient theorem (C19); a negative derivative gives a lower value nearby |
| C79 | `Model/Draw`: programs with comparisons with random numbers as trees; `Model/Boltzmann`: the Markov chain of src/RBM.cpp | energy, partition function and conditionals defined separately; sampled rows have the product law by induction over the loops; stationarity by exchanging sums; distance of two expectations by induction over the tree |
| C80 | `Boltz.gradient` = `reality`, `daydream`, `fillGradient` | expectation of the statistics by induction over sweeps; derivative of the log-likelihood along lines; witness with one weight |
| C81 | `Model/DropoutNet`: masks as programs with random comparisons over the network model | affine functions commute with expectations (induction over the tree); product law of a mask row; derivative of an expectation |
| C82 | the optimiser and network models for full batches | convexity and curvature bounds of least squares (exact expansion) and log-sum-exp (Jensen, Hoeffding's lemma); standard analysis of gradient descent on the sequence of weights of a run |
| C83 | the optimiser and network models, batches as training sets of their own | distance to a perfect fit as potential function; drift within an epoch by Cauchy-Schwarz; summability of the errors |
| C84 | the optimiser model for full batches | error plus kinetic energy as potential function; finite sum of squared steps bounds the number of steps above the limit |
| C85 | benchmarks/mnist/Distorter.h; random numbers as arguments, real numbers, no NaN | all pixels are computed from the old image (loop invariant); weights sum to 1; explicit fields for scaling and rotation |
| C86 | networks (C17, C72), MBSGD (C40); no new model code | layer lemmas for rows and columns, induction over the layers for forward and backward pass, bijection of the parameter vector, simulation of the optimiser step by step |
| C87 | examples/polebalancing: one model for one and two poles (Model/PoleBalancing): accelerations, rk4, transition, restart, observation, termination, bounds | algebra (field_simp, linear_combination) for the balances, bound on cos*sin for the denominator, induction over the actions for episodes and equilibrium; the wrong mass term by two witnesses |
| C88 | DoubleExponentialSmoothing.h (Model/Smoothing) | quadratic Lyapunov function for the error recursion, induction over the samples; the wrong start by computation |
| C89 | CreateTwoSpiralsDataSet.h (Model/TwoSpirals) with arbitrary memory after resize; scaleData (C51) | loop invariant for rows and indices; radius strictly decreasing, hence all points different; affine maps determined by two values |
| C90 | benchmarks/p300speller/BCIDataSet.cpp, Decimator.h (Model/BCIDataSet) as an object with a cache and a sequence of calls | coherence of the cache as an invariant of all calls; scan as two nested folds that yield the list of onsets; value of the filter (C52) |
| C91 | evaluate of BCIDataSet (Model/BCIDataSet) | scores of a list of flashes by induction with the remaining repetitions; first maximum of a fold; loop over epochs with the coherent cache |
| C92 | `adaStart`, `adaRound`, `adaRounds`, `adaFinish`, `adaPredict` (Model/Ensemble.lean); specification: errors of the rounds, learners that name a class, number of mistakes | induction over the rounds with arbitrary weights at the beginning: the weights of the instances times the product of the normalisations bound the instances with a margin that is not positive; a wrong weighted vote has such a margin |
| C93 | `bagPredict` (Model/Ensemble.lean); specification: sums of squares, means over the models, votes | decomposition of the squared error of a mean for every entry, summed over rows and columns; votes are counted by the sums of unit vectors |
| C94 | `Model/Parallel`: programs that access shared cells one at a time, threads that are interleaved between any two accesses, races; `Model/ParallelLayers`: the bodies of all loops with `#pragma omp parallel for` | footprints by recursion over programs; invariant over all executions (the rest of every thread ends like the whole thread alone); simulation of the sequential models by the bodies, loop by loop |
| C95 | the forward passes of convolution, max-pooling, subsampling and normalisation (as for C23-C26) and stacks of them | relation `Moved` between two batches; each layer maps moved inputs to moved outputs (from the closed form of its loops), induction over the stack |
| C96 | `NeuroEvolutionAgent` (abandoneIn, chooseAction, chooseOptimalAction) with the models of the optimiser, the filter and the smoother, `benchmarkSingleRun` | the agent tracks the observations of the current episode only (invariant), so that an episode is the one of the specification `play`; refinement of the training by the optimiser alone (`search`) |
| C97 | The client as programs that read bytes, send bytes and call an arbitrary agent, with a connection that fails or ends anywhere | Every program is regular: with a connection that fails earlier it does a beginning of what it does otherwise (closed under sequencing); each step takes a byte; the conversation itself by induction over turns and episodes |
| C98 | The agent on top of the model of IPOPCMAES | Invariant: what the optimiser was told is the list of played parameters with their errors, across generations and restarts; induction over the episodes |
| C99 | The file system around save: any number of characters arrives (Model/CutFile.lean); load as in C15 | Complete list of the positions at which a file can break off; for each the outcome of load by induction over commands, arguments and parameters, with the exact parameter vector |
| C100 | `double` as numbers, infinities and NaN with an abstract rounding (`Fpu`); `softmax`, `logistic`, `crossEntropy`, `meanSquaredError`, derivatives of the output layer (`Model/Float.lean`) | the maximum contributes `exp(0) = 1`, so the sum lies between 1 and the number of classes; induction over all orders of summation (`Sums`) |
| C101 | `generate`, `sampleNormalDistribution`, `fillNormalDistribution` in the same arithmetic | interval bounds through every operation; case `rand() = 0` separately |
| C102 | the L1 term of `backpropagate` in the same arithmetic | interval bounds; weight zero separately |
| C103 | `FANN.save/load` and `LibSVM.load` on every prefix of a written text | the text of `save` is decomposed into fields (separator, padding, number) with `save_text`; reading a prefix by induction over the fields (`loadRow_cut`); LibSVM: `cut_cases` enumerates all positions, `load_last` reduces each to a complete file; `cut_data`, `cut_header_ub`, `cut_outputs_fails`, `cut_libsvm` |
| C104 | `SAE.error` over the reals (Model/Unsupervised), penalty and gradient in floating point arithmetic (Model/SparseCost) | Gibbs' inequality and strict monotonicity from the logarithm inequalities; sum of non-negative parts is zero iff all are; NaN is traced through the expressions of lines 80-81 and 108-116 |
| C105 | the weights in the layers, `parameterVector` and the copies of the parameters in the layers; `learn`, `initialize`, `setParameters` as calls; optimisers as programs (Model/Pretrain) | induction over histories (frozen RBM, stale copies); non-interference by induction over the program: the first `setParameters` overwrites everything that the layer learned |
| C106 | `Model/FilterNet.lean`: a network with an alpha-beta filter between arbitrary layers, with indeterminate coefficients and memory at first; all calls of the interface | equality of states after `setParameters` from every history; induction over histories without `setParameters` for the undefined behaviour; simulation for the calls after `initialize`; a network with one input for the failures |
| C107 | `Model/TrainingData.lean`: data sets with changing contents, the pointer and the counter of `Learner`, the copy of a sparse autoencoder; `DataStream` with an autoencoder on top of `Model/DataStream.lean` | induction over histories: the pointer is the set that was given last; `visit` in closed form; induction over the samples of a stream with `stream_steps_partial` |
| C108 | `Model/PythonObjects.lean`: the living objects of a Python program, what they refer to, and every statement of the interface that follows or stores a pointer (python/*.pxi); only lifetimes, no numbers; ensembles left out | `Props/PythonObjects.lean`: invariant by induction over all programs: `core_safe` (no object of a core program follows a stored pointer), `held_safe` (all stored pointers stay valid if nothing is given up), `end_safe` (every added layer belongs to one network); concrete programs for the rest |
| C109 | `Model/PythonArrays.lean`: the conversions between NumPy and Eigen with `int` arithmetic, memory bounds and null pointers; `DataSet`, `predict`, `transform`, `set_parameters`, the dictionary of stopping criteria; two semantics of exceptions in C functions of Cython (ignored, raised) - trusted: Cython's documentation | `Props/PythonArrays.lean`: `fill_loop` (a loop that writes into distinct places), `matrix_exact`, `matrix_roundtrip`, `dataSet_exact`, `predict_exact`, `criteria_exact`; `large_ub` for all matrices beyond 2^31 numbers |
| C110 | `Model/SigmaPiNet.lean`: a network of the input layer and a sigma-pi layer: `SigmaPi::initialize`, `initializeParameters`, `Net::addOutputLayer`, `initialize`, `setParameters`, `dimension`, prediction and gradient; pointers into `std::vector` are pairs of a place and an index, a vector moves when it outgrows its capacity, the capacity policy is a parameter; mean squared error only, no dropout | invariant (the pointers are those to all weights at their present place, the parameter vector equals the weights, every weight belongs to a unit) by induction over the calls that build the layer and over the history of the network; prediction and gradient as equations with `SigmaPi.forward` and `SigmaPi.backward` (C34, C35) |
| C111 | The functions with `OPENANN_CHECK`s in both builds (Model/Release.lean): `require debug c` is the macro, what follows a failed check is modelled as written (`std::vector::at` and `reserve` throw, null pointers, division by zero, access outside of arrays and Eigen objects of different sizes are undefined) | For each function, the debug version is the function of the other models, and the two versions satisfy `Same` (a congruence for sequencing, loops and folds); then the default build is computed for the arguments that fail the check |
| C112 | The optimisers of C38-C44 and C71 once more with calls of the object that throw (Model/Thrown.lean): which calls throw is an arbitrary function of the number of earlier calls; members keep the values they have at that point; for ALGLIB an inductive relation for the loop that is left at an evaluation | Bridges to the models without exceptions (step_none, optimize_calm); invariants over all stories of steps that may throw (SGD: position = fold of the documented rule over the returned gradients; counter = finished iterations), over generations (a next individual is always defined) and over the loop of step() (the library has been asked and not answered) |
| C113 | `Model/Criteria.lean`: `IPOPCMAES::setStopCriteria` with the members and library parameters it writes, `terminated` as written, and the translation to the criteria of `Model/CMAES.lean`; `MBSGD.setStopCriteria` and `{ o with stop := q }` of the ALGLIB wrappers from their models; the libraries are arbitrary | induction over the history of calls (`es_history`), characterisation of the histories for which the last call decides (`es_last_iff`), induction over the restarts (`es_nothing_fails`), induction over histories of steps and calls (`sgd_last`) |
| C114 | `Model/BenchStats.lean`: `evaluate`/`logResults` of the two spirals benchmark, `benchmarkSingleRun`/`benchmarkConfiguration` of pole balancing and the accumulated results of the P300 speller, with the stopwatch; a run is given by the outputs, lengths of episodes, counts and times that the programs see, `none` is a number that was never assigned | induction over the runs against independent specs (`IsLeast`, `IsGreatest`, a median by counting, `deviation`); Cauchy-Schwarz for the bound of the wrong deviation; witnesses for the false parts |
| C115 | `Model/Formatter.lean`: settings of a stream (fixed, precision), the three `operator<<` for `FloatingPointFormatter`, the plain ones, the temporary stream of a log message, and the output of `Net::save`, of mini-batch SGD and of the benchmarks; a number in the output is modelled by the value of its text, rounding to nearest with any rule for ties | induction over histories of output (`formatted_everywhere`, `untouched`); error bounds of the two notations; witnesses for the false parts |
| C116 | the networks of `Model/Arch.lean` and the files of `Model/NetSem.lean`, no new model | `Calm` (bounded and Lipschitz up to a jump on related points) is closed under sums, products, maxima, smooth functions and the activation functions; induction over the layers (`calm_forwardFrom`), the max-norm constraint as `w √m (max m S)^(-1/2)` (`calm_updated`), softmax as `1 / Σ exp (y_k - y_j)`; combined with `loaded_predicts_partial` for files; witnesses for the false parts |
| C117 | `Model/FiniteDifferences.lean`: both functions of test/FiniteDifferences.cpp as loops over an abstract objective or learner (with copies of or pointers to the data), the `LayerAdapter`, networks as objectives | loop invariants give the central differences (`parameterGradient_eq`, `inputGradient_eq`); one-sided slopes and the mean value theorem for limit and accuracy; the law of backpropagation (`BackpropAt`) and `regularised_gradient_partial` for layers and networks; witnesses for the false parts |
| C118 | `Model/Viewers.lean`: `keyPressEvent` and `paintGL` of visualize.cpp and viewdata.cpp; a paint is a list of squares with a brightness | invariants over sequences of keys; the nested loops are one list in the order of the units (`paintMaps_eq`, `paintImage_eq`); places as numbers in a mixed radix system for `layers_apart`, `images_apart` |
| C119 | `Model/Viewers.lean`: `keyPressEvent` and `paintGL` of autoencoder.cpp and rbm.cpp; the Markov chain is that of `Model/Boltzmann.lean` | invariants over sequences of keys; executions of the chain with the random numbers that are left (`exec`) for `rbm_dreams`; keys without effect by filtering them out of any sequence |
| C120 | the layers and networks of `Model/Layer.lean`, `Model/Net.lean`, `Model/Arch.lean`; no new definitions of the model | `Props/Ridge.lean`: every continuous function on a compact set is a uniform limit of sums `c * act(a x + b)` (Stone-Weierstrass for exponentials of linear functions, steps for functions of one variable), interpolation matrices have nonzero determinant (gaps for the rectifier, limits for sigmoids); `Props/Expressive.lean`: a direction in which all instances differ, weights for one layer after the other by induction over the hidden layers, `setParameters` of the weights; sums over XOR for the negative part |
| C121 | `Model/Whitening.lean`, as for C55 | traces: what is kept is a combination of the sorted variances with weights between 0 and 1 that sum to k (`diag_bounds`, `kept_eq_sum`), so at most the sum of the first k; orthogonal matrices have entries of at most 1 for ZCA |
| C122 | `Model/Layer.lean`, `Model/Conv.lean`, `Model/Pool.lean` (penalties), `Model/Net.lean`, `Model/MBSGD.lean`, as for C19 and C82 | error() is split into data and penalties for every architecture; comparing the two minima gives the order of the weights; at a minimum the one-sided slopes balance (L1); ridge regression: positive definite quadratic form, existence by injectivity in finite dimension, training by the convergence theorem of C82 |
| C123 | `Model/MBSGD.lean`, `Model/OptimizableNet.lean`; the outcome of a shuffle is any permutation of the places, expectations are means over all of them | expectations of one and of two places of a random permutation by composing with transpositions; sampling without replacement; gradients of batches by C73; Chebyshev's inequality |
| C124 | `Model/SpiralsViewer.lean`: `predictClass`, `finishIteration`, `paintGL` and `keyPressEvent` of TwoSpiralsVisualization.cpp; `repaint` happens inside of `emit` (same thread) | loop invariants for the rows of the grid; induction over the keys of a session; one interval per coordinate by rounding down; the data set is that of C89 |
| C125 | the network model of C20 and C43 and the optimiser of C82 | the derivative buffer of the last layer is written once (the layers below have smaller indices); averages over equal inputs are orthogonal projections; Gibbs' inequality with a quadratic remainder; gradients are small close to the infimum of a function with bounded curvature |
| C126 | the network model of C20 and C43 and the optimiser of C82 | induction over the steps of the optimiser with the invariant that parameters with derivative 0 have momentum 0; derivatives of the first two layers are sums of products of error signal and input; error signals of a network without error are 0 in all layers |
| C127 | the network model of C20 and C43 and the optimiser of C82 | index shift of the layers behind the first ones: parameters, derivatives, forward and backward pass by induction over the layers (the flag of the first trained layer does not influence derivatives); then C82 for the preprocessed training set; linear algebra for independent features; interpolation of C120 for the existence of weights |
| C128 | a heap of blocks (`Model/PythonMemory.lean`), the objects of the Python interface with their pointers, statements with conversions of valid and invalid arrays, `__dealloc__` | invariant: the live blocks are, as a multiset, those that living objects delete and a multiset of lost ones that changes as the specification says; induction over the program |
| C129 | fully connected layer, `setParameters`, `error`, `Normalization`, `PCA`, `ZCAWhitening` as before | composition of affine maps in the weights of one layer, every content of the weights can be set (`Expressive.realize`), inverse matrices; kernel of a matrix with fewer rows than columns |
| C130 | network, backpropagation, `setParameters` and MBSGD as for C86 | invariance of forward pass, penalties, backpropagation and max-norm update under signs of rows and columns; induction over layers, mini-batches and steps; a dead unit is a fixed point of its own sign change |
| C131 | `finishIteration` of the data sets over a store of data sets (views, weighted data sets), `MulticlassEvaluator::evaluate` for any number of evaluators, `Net::finishedIteration` | invariant over iterations: the log of each evaluator is the log of the calls in the specification; relation `Hears` between data sets and evaluators by induction over views |
| C132 | the model of C121 (`Data.buildInstance`, `hasSpace`, `getInstance`, `evaluate`, `decimate`, `compress`, `reset`) | invariant over histories of calls: the cache stores with the size of the present settings or a larger one, keys are different; negative theorem by induction over the instances that are read |
| C133 | networks (`buildNet`) and MBSGD as for C86 | a layer commutes with renamings of its inputs, weights and outputs (`LayerSym`, composition of the lemmas of C86); induction over the layers forwards and backwards for a renaming of every layer; two problems that are renamings of each other keep optimisers in step |
| C134 | `Model/PoleWindow.lean`: a machine with the attributes of the widget, the stack of active calls of `run()` (R is handled inside of `processEvents`), the log and the exit flag; inputs are keys and `go a` (`processEvents` returns, the agent chooses `a`); the environments are those of C87; products of doubles are rounded by any monotone rounding | invariant over all histories (`Inv`); rounding does not change the integer part (`plus_eq`, `minus_eq`); ghost lists of episodes for a run (`Running`, `Finished`); the stack below the active run is untouched (`step_suffix`) |
| C135 | `Model/Stopwatch.lean`: the two attributes of the stopwatch as unsigned numbers of `w` bits, every operation modulo `2 ^ w`, calls with arbitrary readings of `gettimeofday`; the loops of two spirals and P300 that add times; when and with which time `MulticlassEvaluator` reports | induction over histories: `started` is the reading of the last start modulo `2 ^ w`, so that differences are right modulo `2 ^ w`; spec by the instants in microseconds; division with remainder for units and sums |
| C136 | `Model/Scripts.lean`: `run_sarcos` with the `Normalization` of C50 (one object, fitted twice), any function of training inputs, targets and queried inputs as method of training, the printed quotients (`none`: not finite); `run_iris` up to the data sets, slices as lists of rows | normalised columns in closed form (`InUnitsOf`); mean and deviation of affine images; membership in slices by arithmetic; pigeonhole for labels that are refused; witnesses for the false parts |
| C137 | no new model: networks of `Model/Net.lean` whose last layer is fully connected and linear, with cross entropy, and `MBSGD` of `Model/MBSGD.lean` | softmax does not depend on a shift of a row; the error signals of a row add up to 0, so the back-propagated signal ignores the shift; simulation of two optimisers by induction over updates and steps (`moved`); invariant sums of parameters and momentum (`Keeps`) |
| C138 | no new model: networks of `Model/Net.lean` with a fully connected rectifier or linear layer followed by a fully connected layer, and `MBSGD` of `Model/MBSGD.lean` | positive homogeneity of the activation function; rescaling commutes with forward and backward passes layer by layer (`activations_rescaled`, `backFrom_rescaled`); Euler's identity for each unit (`euler_layers`); the run of a plain optimiser is gradient descent on the logged mini-batches (`plain_descent`), then induction over the updates; `training_scale_matters` is a witness with two linear units |
| C139 | `Model/StreamObjects.lean`: stream objects with their implicit copy constructor and assignment operator, caches on the heap that point to the matrices of the stream that created them, destructor, training sets of learners; deleted or outlived memory is `ub` | refinement of streams that are values (`Next`, `Runs`) by induction over programs, with the invariant `Refines`; `benchmark_epochs` for the statements of mnist.cpp; counterexamples for every earlier history |
| C140 | nothing new: networks (`Model/Net.lean`, `Model/Arch.lean`) and MBSGD (`Model/MBSGD.lean`) | `turnVec`, `turnMem`, `turnParams` specify the turned inputs, weights and parameter vectors of two networks with different numbers of inputs; layer 1 has the same output, the gradient is turned (`errorGradient_turned`), the norm of parameter vectors is kept (`norm_turned`); MBSGD commutes with all linear maps that keep lengths (`steps_turned`, induction over epochs); counterexamples for stretched inputs, L1 penalty and gains |
| C141 | nothing new: `MBSGD` (`Model/MBSGD.lean`) | `documentedGain` specifies the rule of the header file by the last two steps; one update: case distinction on the signs (`reversal_grows`, `downhill_shrinks`); runs: induction over updates for constant gradients (`slope_gains`: closed form of the gain) and for parabolas (`overshoot_grows`: closed forms of gain and distance); convergence of the documented rule by an invariant for learning rate times gain (`documented_converges`); a network with one weight (`gains_diverge`) |
| C142 | which random numbers every layer draws, in which order, when it is created, initialised again or loaded (`Model/SeededNet.lean`), on top of the file format (`Model/NetFile.lean`), the meaning of networks (`Model/NetSem.lean`) and the state of the generators (`Model/RandomState.lean`) | invariant of constructing and loading: the kept numbers are a function of layers, shapes and seed (`exec_lift`, `loads_lift`); induction over the layers: rounding of the file does not change how much is drawn (`createAll_same`); induction over the events between construction and saving; then C15 and C70. Counterexamples: one extreme unit |
| C143 | nothing new: networks (`Model/Net.lean`), gradient descent (`Model/MBSGD.lean`) and measures (`Model/Evaluation.lean`); the spec is a margin of linear functions (`HasMargin`) | the convergence bound of C82 compared with a scaled separator, whose cross entropy vanishes exponentially; a cross entropy below `log 2 / N` classifies correctly; ties are broken by tilting the biases (`Props/Separable.lean`) |
| C144 | nothing new: networks (`Model/Net.lean`) and gradient descent (`Model/MBSGD.lean`); the spec is a list of rows that contains every row `m` times (`Repeated`) | means over a permuted multiple list; induction over the steps of two runs with different numbers of examples (`Props/Copies.lean`) |
| C145 | transitions, end of an episode and the loop of the benchmark with `double`s (`Model/PoleFloat.lean`); processor and mathematical library are parameters | induction over the steps of an episode; NaN is propagated through the formulas of the Runge-Kutta method (`Props/PoleFloat.lean`); without rounding the model is that of C87 (`Props/PoleExact.lean`) |
| C146 | the measures of src/Evaluation.cpp and the reports of src/Evaluator.cpp for predictions and targets of the type `double` (`Model/EvalFloat.lean`); sums of squares in an unknown order are relations | NaN is propagated through the sums by induction over the instances; induction over the coefficients for the position of the maximum; the decoding refines that of `Model/Evaluation.lean` (`Props/EvalFloat.lean`, `Props/EvalExact.lean`) |
| C147 | mini-batch gradient descent with `double`s (`Model/SgdFloat.lean`); the problem is an arbitrary function, checks are a parameter, the norm of the momentum is a relation because the order of its sum is unknown | invariant of the updates for builds with checks, propagation of NaN and infinities by induction over the mini-batches without; refinement of `Model/MBSGD.lean` (`Props/SgdFloat.lean`) |

No property is excluded as inexpressible at this point.

## 5. Disagreements between code and property (each proved as a theorem)

The right column names the theorem(s), without the prefix `Verif.`.  Undefined behaviour means that the model reaches `ub`.

| id | what the code does | theorem |
|---|---|---|
| C05 | the mean accuracy is computed with an integer division: it is the fraction of folds that are perfect; fewer instances than folds divide by zero | `Data.crossValidation_mean_fails`, `Data.crossValidation_ub` |
| C07 | sampling with replacement writes through a vector that was only reserved; without replacement a fraction above 1 reads past the end | `Data.sample_with_replacement_ub`, `Data.sample_too_many_ub` |
| C08 | random resampling stores the index -1 when `rand()` returns 0 | `Data.weighted_random_zero_fails` |
| C10 | a target after a first sample without target is written to a matrix that was never allocated; a missing target is replaced by an old one; an exchanged optimiser never gets the learner; cache size below 1 | `DataStream.stream_late_target_ub`, `stream_stale_target_fails`, `stream_exchanged_optimizer_fails`, `stream_cacheSize_ub` |
| C12 | a missing or empty FANN file is undefined behaviour instead of an exception | `FANN.fann_missing_file_ub`, `FANN.fann_empty_file_ub` |
| C13, C14 | one-class files, 1-of-c outputs (written from 0, read from 1) and labels beyond the number of classes are written outside of the output matrix; two output columns come back as one | `LibSVM.libsvm_one_class_ub`, `libsvm_one_of_c_ub`, `libsvm_one_of_two_fails`, `reader_one_class_ub`, `reader_many_classes_ub` |
| C15 | the file of a network without output layer cannot be loaded (undefined behaviour) | `NetFile.net_without_output_ub` |
| C16 | a malformed number in the parameter section makes `load` loop forever | `NetFile.load_malformed_parameter_diverges` |
| C17 | `setParameters` with a short vector reads out of bounds | `NN.setParameters_short_ub` |
| C19 | the gradient of the penalties is divided by the batch size, the value is not | `NN.regularised_gradient_fails` |
| C20, C21, C26, C65 | in local response normalisation the loop variable hides the neighbourhood size: outputs depend on the position in the batch, backward pass wrong from the third row | `NN.error_eq_value_fails`, `NN.batch_prediction_fails`, `NN.LRN.lrn_formula_fails`, `NN.LRN.lrn_backprop_fails` |
| C24, C25 | pooling reads the first row of each window only | `NN.Pool.maxPool_fails`, `maxPool_error_fails`, `sub_fails` |
| C27 | an exception in a callback leaves dropout switched off | `NN.dropout_not_restored_after_exception` |
| C28 | the logistic function jumps at its cut-offs | `NN.logistic_not_continuous` |
| C32 | more outputs than inputs: division by zero; an oversized matrix changes the block size | `Compression.average_ub`, `average_oversized_fails` |
| C33 | `propagateDataSet` returns a data set over dead locals, ignores its layer argument and mixes up the row length | `NN.propagateDataSet_dangling_ub`, `propagateDataSet_rows_fails`, `propagateDataSet_width_ub` |
| C34 | weight sharing compares with a tolerance, which is not transitive | `SigmaPi.sharing_fails` |
| C35 | the error signal of sigma-pi layers lacks the other factors of the products; with bias, too few inputs or no nodes out of bounds | `SigmaPi.error_signal_fails`, `bias_ub`, `few_inputs_ub`, `no_nodes_ub` |
| C36 | a triangle with three equal angles makes other triangles collide; turning the image may change the number | `SigmaPi.triangle_fails`, `turned_fails` |
| C40 | with Nesterov momentum the optimised object holds the look-ahead point between the steps | `Opt.nesterov_held_fails` |
| C41 | an interrupted optimisation is resumed by the next call, with another problem out of bounds | `Opt.interrupt_resumes`, `interrupt_other_problem_ub` |
| C42 | learning rate and momentum are not reset for a new problem; the evolution strategy does nothing the second time | `Opt.reuse_fails`, `ES.second_optimize_fails` |
| C43 | a nested observer created after the signal aborts the process; destroying a copy ends the observation | `Interrupt.nested_after_signal_fails`, `copy_fails` |
| C44 | the budget holds per start and without the re-evaluations; manual use has an empty result; restart in the middle of a generation | `ES.budget_restarts_fails`, `budget_calls_fails`, `manual_result_fails`, `restart_mid_generation_ub` |
| C45 | intervals wider than `int` overflow; containers with 2^31 elements | `Rng.generateInt_overflow_ub`, `generateIndex_large_fails` |
| C46 | permutations of objects created later depend on the time; shuffles of views are not seeded | `Rng.seed_other_object_fails`, `seed_view_fails` |
| C47 | one output: confusion matrix out of bounds, hits rounded differently, undefined for predictions outside of `int`; too few weights | `Eval.confusionMatrix_single_ub`, `classificationHits_fails`, `hit_large_ub`, `weightedAccuracy_short_ub` |
| C48, C49 | predictions of another shape; interval 0 | `Eval.sse_shape_ub`, `Eval.evaluator_zero_ub` |
| C51 | constant data is divided by zero, empty data is undefined behaviour | `Pre.scale_constant_fails`, `scale_empty_ub` |
| C52 | feedback coefficients are applied to the input and with the wrong sign; filters longer than the signal read out of bounds | `Pre.filter_feedback_fails`, `filter_long_ub` |
| C53 | a patch one row higher than the image is accepted and read out of bounds | `Pre.patches_too_high_ub` |
| C54 | a first batch smaller than the number of centres is read out of bounds | `KM.kmeans_small_batch_ub` |
| C55 | PCA projects on the rows of V; ZCA adds 1e-5 to the variances | `White.pca_whiten_fails`, `pca_first_component_fails`, `pca_short_ub`, `zca_identity_fails` |
| C56, C57 | training functions without `return`; the vector version of the prediction reads an uninitialised matrix; gain just below 1/2; infinite model weights | `Ens.adaboost_train_ub`, `bag_train_ub`, `predict_vector_ub`, `adaboost_gain_fails`, `adaboost_weights_fails` |
| C58 | `pack` does not resize its vector | `Pack.pack_long`, `pack_short_ub` |
| C60 | both weight decay terms have the wrong sign; zero weights with L1 penalty give NaN | `Unsup.rbm_l2_fails`, `rbm_l1_fails`, `rbm_l1_zero_fails` |
| C61 | loggers that exist already ignore `deactivate` | `Logging.logger_deactivated_fails` |
| C62 | IDX padding exchanges rows and columns or leaves the matrix; truncated files and unknown labels are accepted; CIFAR accepts a missing last record; more than 2^31 - 1 images are a negative number | `Img.idx_padding_fails`, `idx_many_images_fails`, `idx_one_direction_fails`, `idx_label_fails`, `idx_short_file_fails`, `cifar_last_record_fails` |
| C63 | after cross-validation the learner points to a destroyed data set | `Learner.crossValidation_dangling_ub` |
| C64 | copies of a learner free the same data set twice | `Learner.learner_copy_ub` |
| C67 | the reported error is not the objective; only the first slope is checked for zero | `Unsup.ip_error_fails`, `ip_zero_slope_fails` |
| C70 | weights of `Extreme`, random compression matrices, `IntrinsicPlasticity` and of an RBM without `backprop` are not in the file; numbers are written with six digits | `NetSem.extreme_fails`, `compressed_fails`, `intrinsicPlasticity_fails`, `frozen_rbm_fails`, `rounding_fails` |
| C71 | limits of evaluations and restarts and the minimal value are never used; a limit of zero iterations is no limit; LMA makes one step more; L-BFGS keeps a reduced number of corrections; the optimum is not set until `result()`; `result()` before a run and another object during a run read out of bounds; LMA minimises the sum of squared errors | `Alglib.criteria_ignored`, `zero_iterations_fails`, `lma_budget_fails`, `lbfgs_reuse_fails`, `lbfgs_reuse_witness_fails`, `optimum_not_held_fails`, `result_before_ub`, `other_object_ub`, `lma_objective_fails` |
| C72 | an RBM without `backprop` keeps its weights outside of the parameter vector | `NN.frozen_rbm_not_determined` |
| C73 | `errorGradient` of a network gives means, the interface documents (and the inherited functions compute) sums | `Opt.net_accumulated_fails`, `Opt.net_gradient` |
| C73 | the index `examples()` passes the check of `errorGradient` for a range | `Opt.end_index_ub` |
| C73 | `error` and `gradient` for a range do not check indices; a negative index becomes a large unsigned number | `Opt.unchecked_index_ub`, `Opt.negative_index_ub` |
| C74 | the order of the examples in a batch matters with local response normalisation | `NN.batch_order_fails` |
| C75 | `train` with an unknown name changes the network before it throws; an exception of the optimiser leaves dropout on and leaks the optimiser | `Train.unknown_fails`, `exception_fails`, `thrown_leaks` |
| C77 | `Subsampling::getParameters` returns the weights twice, `Compressed` the compression matrix, `RBM` an old copy; `SparseAutoEncoder` returns nothing; `SigmaPi` throws | `NN.sub_weights_twice`, `compressed_reports_other`, `rbm_reports_stale`, `sae_reports_ub`, `reports_iff` |
| C77 | the order of the reported vector differs from `Net::currentParameters` when there are biases | `NN.fullyConnected_order_fails` |
| C78 | a learning rate that is too large raises the error (to be expected) | `Opt.large_step_fails` |
| C80 | contrastive divergence is biased for the weights even where the machine fits the data: hidden probabilities of the sample are multiplied by the visible probabilities | `Boltz.weights_fixed_fails`, `weights_expected` |
| C80 | with `cdN = 0` the gradient is made of an old `pv`, or of matrices of different sizes | `Boltz.contrast_zero_stale`, `contrast_zero_ub` |
| C81 | behind a nonlinearity the scaled network is not the mean of the networks in training (to be expected); probabilities above 1 are accepted and make predictions change their sign | `NN.nonlinear_fails`, `probability_fails` |
| C82 | a learning rate that decays geometrically to the default minimum 0 stops short of the minimum; a too large one diverges (both to be expected) | `NN.decay_fails`, `large_rate_fails` |
| C83 | on data that cannot be fitted, mini-batches with a constant learning rate do not approach the least error (to be expected) | `NN.misfit_fails` |
| C85 | fractions relative to the next pixel instead of the previous one: pixels leave the range of the image, interpolation is off by a pixel | `Distorter.range_fails`, `affine_partial` |
| C85 | the rotation has a wrong sign: it maps the diagonals to themselves and does not keep distances | `Distorter.rotation_keeps_diagonal`, `rotation_fails` |
| C85 | an integer displacement never takes a pixel from the last row; images that are not square always fail the check | `Distorter.translation`, `applyDistortion_nonsquare` |
| C87 | The effective mass of a pole uses cos·g·sin instead of cos²: force balance violated, left and right behave differently | `Poles.force_balance_fails`, `Poles.mirror_fails` |
| C87 | State and observation are uninitialised until `restart` is called | `Poles.unstarted_ub` |
| C87 | Single pole without velocities: four bounds for two state variables, violated at the start | `Poles.bounds_fails` |
| C88 | On a line, the forecast after the second sample is that sample | `Smoothing.second_forecast_fails` |
| C89 | Training and test set are scaled to [0, 1] independently: different factors for every density and diameter | `Spirals.common_scale_fails` |
| C89 | `maxDiameter` has no effect on the result; 0 and negative arguments are not rejected | `Spirals.diameter_without_effect`, `Spirals.arguments_fails` |
| C90 | Indices assume that every epoch has as many flashes as the first one; otherwise valid indices are outside of the lists | `BCI.uneven_ub`, `BCI.missing_flash_ub` |
| C90 | A flash that begins less than one window before the end of the recording reads outside of the signal | `BCI.late_flash_ub` |
| C90 | A second `load` appends to the lists of flashes but not to `samples()`: indices change their meaning | `BCI.reload_fails` |
| C90 | `inputs()` is not the size of the instances after `compress` and then `decimate` | `BCI.inputs_fails` |
| C92 | A model that is worse than chance gets a negative weight and is not reweighted. The weights are divided by their sum, that can be negative: the ensemble then votes against its good models | `Ens.worse_fails` |
| C92 | Outputs that do not name a class are added as they are: a model with error zero and almost all of the weight is overruled | `Ens.soft_fails` |
| C93 | Two of three models are right about an instance, the mean of their outputs is not | `Ens.majority_fails` |
| C95 | subsampling has one weight for each position, normalisation uses the row of the batch as size of the neighbourhood: their outputs do not move with the image | `NN.Pool.sub_moved_fails`, `NN.LRN.rows_fail` |
| C96 | parameters of a successful episode are lost; an episode with chooseOptimalAction falsifies the next evaluation; statistics of failed runs read an uninitialised number | `Neuro.success_lost`, `Neuro.demonstration_fails`, `Neuro.failure_ub` |
| C97 | a connection that is closed by the server is not noticed: uninitialised variable or repeated last character; tokens of 1023 characters, many actions, the name of the agent | `Octopus.closed_ub`, `Octopus.closed_digits`, `Octopus.long_token_splits`, `Octopus.actions_ub`, `Octopus.init_ub` |
| C98 | an episode whose first state is terminal reports an old return for parameters that were never played, or makes the next episode dereference a null pointer | `OctopusAgent.over_stale`, `OctopusAgent.over_first_ub` |
| C99 | behind the word parameters an incomplete file is always accepted, with random numbers for the missing parameters; elsewhere uninitialised variables are used or a shorter network is accepted; the old file is destroyed first and a full disk is not reported | `NetFile.cut_accepted_fails`, `NetFile.cut_in_parameters`, `NetFile.cut_between_ub`, `NetFile.cut_missing_ub`, `NetFile.cut_in_last_argument`, `NetFile.crash_loses_old` |
| C100 | `softmax` subtracts the maximum of the whole batch: an instance whose activations are all more than 746 below it is predicted as NaN, and the error and the gradient of the batch become NaN | `Verif.Fp.softmax_batch_fails`, `Verif.Fp.far_instance_destroys_gradient` |
| C101 | `sampleNormalDistribution` takes the logarithm of 0 when `rand()` returns 0: the result is infinite | `Verif.Fp.sampleNormal_zero_fails` |
| C102 | the L1 penalty divides by the absolute value of the weight: the derivative of a zero weight is NaN | `Verif.Fp.withL1_zero_fails` |
| C103 | incomplete data files are accepted: indeterminate matrix elements, wrong values, uninitialised sizes, changed target coding | `FANN.cut_header_ub`, `FANN.cut_outputs_fails`, `FANN.cut_data`, `LibSVM.cut_in_index`, `LibSVM.cut_changes_targets_fails` |
| C104 | a hidden unit that is never or always fully active (or has a negative mean activation) makes cost and gradient infinite or NaN | `Fp.dead_unit_cost_fails`, `Fp.dead_unit_gradient_fails`, `Fp.saturated_unit_cost_fails`, `Fp.negative_mean_fails` |
| C105 | what a layer learned on its own is lost by `initialize` (autoencoder), by training without `initialize` (both) and by `save` | `Pretrain.sae_initialize_fails`, `Pretrain.training_forgets`, `Pretrain.mbsgd_forgets`, `Pretrain.saved_parameters_fails`, `Pretrain.own_stale` |
| C106 | A network with an alpha-beta filter uses indeterminate numbers until its parameters are set for the first time; `initialize` does not update coefficients and memory; batches use row 0 only and their gradient is undefined; `error()` depends on the calls before | `Verif.FilterNet.new_network_ub`, `Verif.FilterNet.initialize_fails`, `Verif.FilterNet.matrix_first_row`, `Verif.FilterNet.batch_gradient_ub`, `Verif.FilterNet.load_used_fails`, `Verif.FilterNet.error_twice_fails` |
| C107 | A network remembers the size of its training set: added instances are ignored, removed ones make it abort. A sparse autoencoder copies the data set when it is given, ignores matrices, and takes any propagated batch for its training set; in a data stream it is trained with memory that was never written. RBMs, intrinsic plasticity and autoencoders never call `finishIteration` | `Verif.TrainingData.net_grown_fails`, `Verif.TrainingData.net_shrunk_fails`, `Verif.TrainingData.sae_change_fails`, `Verif.TrainingData.sae_matrices_fails`, `Verif.TrainingData.sae_propagate_fails`, `Verif.TrainingData.stream_sae_ub`, `Verif.TrainingData.others_silent_fails` |
| C108 | Streams, layers and RBMs of the Python interface do not keep alive the objects they refer to; after cross-validation a stream works with a deleted view; a layer that is added twice is deleted twice; `DataSet()` and `SigmaPiLayer` on a layer without three dimensions read invalid memory; errors of the library end the interpreter | `PyObj.stream_dropped_ub`, `PyObj.stream_cache_ub`, `PyObj.stream_crossValidation_ub`, `PyObj.stream_optimize_ub`, `PyObj.layer_ub`, `PyObj.addTwice_ub`, `PyObj.reconstructProb_ub`, `PyObj.emptyDataSet_ub`, `PyObj.sigmaPi_ub`, `PyObj.exceptions_fails` |
| C109 | Up to Cython 2 a wrong array is ignored (the data set is empty, or it has lost its targets) or a null pointer is followed; `None` is followed like an array; the place of a number in a matrix is computed with `int` | `PyArr.shape_ignored_fails`, `PyArr.entry_outcome`, `PyArr.none_ub`, `PyArr.large_ub`, `PyArr.vector_cut_fails` |
| C110 | Nodes that are added to a sigma-pi layer after it has become part of a network: predictions write beyond the activations, the new weights are no parameters, the pointers of the network may dangle | `SigmaPiNet.late_ub`, `SigmaPiNet.late_unseen_fails`, `SigmaPiNet.late_moved_ub` |
| C111 | In the default build most mistakes are not reported: wrong indices of data sets, wrong ratios, missing targets, wrong matrices, missing learners are undefined behaviour; merging views of different data sets, files of the wrong kind, additional targets, too large kernels and log files that cannot be opened are accepted silently | `Release.direct_ub`, `Release.splitRatio_wrong`, `Release.merge_other_fails`, `Release.idx_ignored`, `Release.fannSave_wrong`, `Release.conv_negative`, `Release.logger_lost` |
| C112 | After an exception of the objective L-BFGS and CG continue the run of the library without an answer; the evolution strategy does nothing or reads a freed population; SGD skips schedules, exceeds its limit or mixes two objects | `Thrown.retry_unanswered_fails`, `Thrown.retry_result_fails`, `Thrown.retry_nothing_fails`, `Thrown.retry_ub`, `Thrown.set_throws_fails`, `Thrown.finish_throws_fails`, `Thrown.other_object_ub` |
| C113 | `IPOPCMAES::setStopCriteria` only ever switches criteria on: a criterion of an earlier call that is left at its default later stays active in the library, and a limit of evaluations followed by criteria without one becomes the limit -1, so that `optimize` evaluates nothing and the result is empty.  L-BFGS, CG and LMA ignore criteria that are set between two steps of a run | `Verif.Criteria.es_nothing_fails`, `Verif.Criteria.es_stale_fails`, `Verif.Criteria.alglib_running_fails` |
| C114 | The standard deviation that two spirals prints is the square root of the mean absolute deviation; an output of zero is counted as correct; pole balancing uses the `episodes` of a failed run, which are never assigned | `Verif.BenchStats.stdDev_fails`, `Verif.BenchStats.zero_output_fails`, `Verif.BenchStats.failed_run_ub` |
| C115 | A number written with `FloatingPointFormatter` leaves its precision (in file loggers also `fixed`) behind in the stream, so that later plain numbers - the time of pole balancing, the mean iterations of two spirals, the parameters of a network saved to the stream - lose digits | `Verif.Formatter.plain_fails`, `Verif.Formatter.file_fails`, `Verif.Formatter.settings_fails`, `Verif.Formatter.save_fails`, `Verif.Formatter.pole_time_fails` |
| C116 | The logistic function jumps at its cut-offs ±45 (by less than 1e-19), and local response normalisation with `k = 0`, which nothing rejects, amplifies changes without bound | `Verif.NN.lipschitz_fails`, `Verif.NN.lrn_fails` |
| C117 | The `LayerAdapter` adds the penalty to the error of every example of a range but once to the gradient, so that the check of a right layer with a penalty fails for two or more examples; at kinks the estimate is the mean of the slopes; on the boundary of a max-norm constraint right gradients are refused; `inputGradient` leaves an adapter with a shifted column and a network with dangling pointers to the data | `Verif.GradCheck.penalty_check_fails`, `kink_check_fails`, `constraint_check_fails`, `shifted_data_fails`, `adapter_shifted_fails`, `net_dangling_ub` |
| C118 | visualize.cpp exchanges rows and columns of images; viewdata.cpp fails with less than 25 images, whatever keys are pressed, and covers images that are not almost square by others | `Verif.Viewers.image_shown_iff`, `few_images_fails`, `images_overlap_fails`, `brightness_constant`, `net_empty_fails` |
| C119 | In autoencoder.cpp only a quarter of the hidden units can ever be shown and Up/Down do nothing; in rbm.cpp the keys for fantasies do nothing (the number of steps is `offset`); with few hidden units Right makes `offset` negative | `Verif.Viewers.sae_quarter_fails`, `sae_instance_keys_dead`, `fantasy_keys_dead`, `sae_right_fails`, `sae_right_ub`, `rbm_few_units_fails` |
| C121 | `PCA::transform` projects on the first rows instead of the first columns of V and can lose the whole variance | `Verif.White.pca_loses_fails` |
| C122 | `errorGradient` divides penalties by the number of examples and `error()` does not: training with penalties does not approach the smallest error, the effective penalty depends on the batch size | `Verif.NN.ridge_training_fails` |
| C123 | `errorGradient` divides penalties by the size of the mini-batch: gradients of mini-batches are biased, and smaller batches are penalised more | `Verif.Opt.unbiased_gradient_fails` |
| C124 | the surface with predictions ends at 0.995 although inputs are scaled to [0, 1]: the outermost instances are outside of it | `Verif.SpiralsViewer.whole_surface_fails` |
| C128 | `fit`, `transform`, `set_parameters`, `reconstruct` and `sample_random_patches` lose a copy of their argument at every call; `KMeans` has no `__dealloc__`; a second `__init__`, a failed conversion and a sigma-pi layer that is not added lose memory; a sigma-pi layer that is added twice is deleted twice | `Verif.PyMem.transform_fails`, `arrays_stay`, `kMeans_fails`, `init_again_fails`, `entry_fails`, `sample_fails`, `sigmaPi_unused_fails`, `addLayer_twice_ub`, `addLayer_freed_ub`, `shape_ignored_ub` |
| C131 | An evaluator of a data set that was split into training and validation set is called twice per iteration and reports about iterations that never took place; with a view it evaluates the whole data set behind the view; with weighted data sets and with learners other than `Net` it is never called; without targets the training ends with a failed check. | `split_fails`, `view_fails`, `weighted_fails`, `other_learner_fails`, `no_targets_fails` |
| C132 | After `compress` and `reset` the cache calculates with the size of the compressed instances (`reset` does not change `cache.D`) but stores whole ones. | `reset_fails` |
| C134 | the window draws the normalised state: the cart never gets further than one unit from the centre of a track that is drawn from -2.4 to 2.4, angles are enlarged by 1/0.62 | `shown`, `shown_fails`, `cart_within` |
| C134 | a pause below 10 microseconds is never increased by - (the product is truncated); many presses of - overflow the `int`; Escape during a run has no effect before the end of the run | `speed_stuck`, `speed_fails`, `slower_ub`, `escape_fails` |
| C135 | times after the clock was set back are about `2 ^ w` microseconds; with 32 bits times wrap after 72 minutes; P300 adds truncated seconds; an evaluator counts from its construction | `Verif.Stopwatch.set_back_fails`, `long_run_fails`, `short_runs_fail`, `evaluator_training_fails` |
| C136 | the nMSE on validation data is relative to the variance of the training outputs; constant outputs give no number; Iris normalises with validation data and splits by position | `Verif.Scripts.sarcos_validation_fails`, `sarcos_constant_fails`, `iris_leak_fails`, `iris_order_fails` |
| C139 | `DataStream` has a destructor that deletes its cache, but the implicit copy constructor and assignment operator: a copy of a stream that has got a sample shares the cache, samples that are added to the copy are lost, and the cache is deleted twice; a learner keeps a pointer to the cache of a stream that has ended | `late_copy_ub`, `late_copy_loses`, `outlived_ub` |
| C141 | Gains change in the wrong direction: the last step is multiplied with the gradient instead of the new step, so gains grow when the direction is reversed and shrink on straight slopes; training that converges without gains can diverge | `Opt.reversal_grows`, `downhill_shrinks`, `slope_fails`, `overshoot_diverges`, `gains_diverge` |
| C144 | the gradient of the penalties is divided by the number of examples, the penalties in the error are not: repeating all examples weakens the weight decay | `gradient_copies`, `gradient_copies_fails` |
| C145 | an infinite action is limited to NaN, the state becomes NaN, NaN is never beyond the limits, and the episode is reported as a success with the best possible fitness | `applied_broken_fails`, `broken_action_succeeds_fails`, `infinite_force_wins_fails` |
| C146 | a prediction whose first coefficient is NaN is counted as class 0, a network that predicts only NaN can have the accuracy 1, and `classificationHits` with one output converts NaN to `int` | `nan_class_fails`, `broken_accuracy_fails`, `broken_perfect_fails`, `hits_ub` |
| C147 | without checks (`NDEBUG`), a momentum of NaN is not at least as long as the minimal step, so that a training whose gradient was NaN ends as if it had converged, with broken parameters; with Nesterov's method the network can hold an infinite look-ahead even in builds with checks | `broken_converges_fails`, `broken_result_fails`, `nesterov_overflow_fails` |
