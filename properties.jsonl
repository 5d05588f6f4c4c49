{"id": "C01", "title": "k-fold split is a partition", "statement": "Splitting a data set view into k groups (k > 1) hands every instance of the view to exactly one of the k new groups: reading the new groups one after the other gives the instances of the view in their (possibly shuffled) order, each of the first k-1 groups has floor(n/k) instances and the last one has the rest. k <= 1 is rejected by the check.", "quantifier": "every view (any length, any index list, including repeated indices), every k, every outcome of the shuffle, every content of the group vector before the call", "why_tests_cant": "the number of instances, the number of groups and the shuffle order are unbounded; a test sees a handful of sizes and one shuffle", "anchors": ["src/DataSetView.cpp: split(std::vector<DataSetView>&, int, bool)", "OpenANN/io/DataSetView.h"]}
{"id": "C02", "title": "Ratio split is a partition with the requested size", "statement": "Splitting a view by a ratio in [0,1] into two groups gives two views whose concatenation is the (possibly shuffled) view; the first one has ceil(ratio * n) instances, so neither group is ever larger than the view. A ratio outside [0,1] is rejected.", "quantifier": "every view, every ratio, every shuffle outcome", "why_tests_cant": "ratio is continuous and n unbounded; the rounding boundary cases cannot be enumerated", "anchors": ["src/DataSetView.cpp: split(std::vector<DataSetView>&, double, bool)"]}
{"id": "C03", "title": "Merging views adds up their instances", "statement": "merge() makes the receiving view contain its old instances followed by the instances of all merged views in order, nothing else; merging views of different data sets or merging nothing is rejected by a check; merging the groups of a split gives back every instance of the split view exactly once.", "quantifier": "every view and every non-empty list of views", "why_tests_cant": "lists of views are unbounded in number and length", "anchors": ["src/DataSetView.cpp: merge", "src/DataSetView.cpp: split"]}
{"id": "C04", "title": "Cross-validation folds are honest", "statement": "During k-fold cross-validation of a data set with n instances, in every fold the instances used for training and those used for testing are disjoint, together they are the complete data set, and over all folds every instance is used for testing exactly once.", "quantifier": "every data set size n and every number of folds k > 1, every shuffle outcome", "why_tests_cant": "n, k and shuffle are unbounded; a leak of test data in one corner (e.g. the last, larger fold) is not visible in accuracy values", "anchors": ["src/Evaluation.cpp: crossValidation", "src/DataSetView.cpp: split, merge"]}
{"id": "C05", "title": "Cross-validation returns the mean validation accuracy", "statement": "crossValidation returns the average over the folds of (correctly classified validation instances / validation instances), a number in [0,1], and is defined for every data set with at least one instance.", "quantifier": "every data set size, number of folds, and every number of hits per fold", "why_tests_cant": "needs all hit counts per fold; tests with a perfect learner cannot tell integer from real division", "anchors": ["src/Evaluation.cpp: crossValidation"]}
{"id": "C06", "title": "Views never index outside their data set", "statement": "Starting from the full view of a data set with n instances, after any sequence of shuffle, split, merge and sampling without replacement every position i < samples() of every resulting view designates an instance of the underlying data set, so getInstance(i) and getTarget(i) succeed and deliver the instance and target of the same row; positions outside are rejected by the check.", "quantifier": "every n and every finite sequence of view operations with every shuffle outcome", "why_tests_cant": "the set of operation histories is infinite", "anchors": ["src/DataSetView.cpp", "OpenANN/io/DataSetView.h", "src/DirectStorageDataSet.cpp: getInstance, getTarget"]}
{"id": "C07", "title": "Subsampling a view", "statement": "sample(fraction) delivers ceil(fraction*n) instances of the view; without replacement they are pairwise different positions of the view (fraction in [0,1]); with replacement all of them are instances of the view. Neither variant touches memory that was not allocated.", "quantifier": "every view, every fraction, every sequence of random numbers", "why_tests_cant": "needs every random sequence; an out-of-bounds write into reserved memory usually does not crash a test", "anchors": ["src/DataSetView.cpp: sample", "OpenANN/util/Random.h: generateIndices, generateInt"]}
{"id": "C08", "title": "Weighted resampling picks valid instances in proportion to the weights", "statement": "A weighted data set with n instances and non-negative weights that sum to one contains n instances of the original data set; with deterministic resampling instance i occurs fewer than n*w_i + 1 and more than n*w_i - 1 times (so exactly n*w_i times when that is what all prefix sums allow), uniform weights give the original data set; with random resampling every drawn index is a valid instance for every random number.", "quantifier": "every n, every weight vector, every random sequence", "why_tests_cant": "weights are real vectors of unbounded length; the failing random number (exactly 0) has probability 1/(RAND_MAX+1)", "anchors": ["src/WeightedDataSet.cpp: resample, WeightedDataSet, updateWeights", "OpenANN/util/Random.h: generate"]}
{"id": "C09", "title": "In-memory data sets return the requested row", "statement": "For a data set over an input matrix and an optional output matrix, getInstance(i) yields row i of the inputs, getTarget(i) row i of the outputs, after any history of earlier accesses; access with an index outside the range or to a missing output is rejected; the vector returned for one access is only overwritten by the next access of the same kind.", "quantifier": "every matrix pair, every history of accesses", "why_tests_cant": "references to a shared buffer make the result depend on the access history", "anchors": ["src/DirectStorageDataSet.cpp", "OpenANN/io/DirectStorageDataSet.h"]}
{"id": "C10", "title": "Data stream hands every collected sample to exactly one optimisation step", "statement": "A data stream with cache size c >= 1 performs one optimiser step after every c-th sample and never otherwise; at the k-th step the learner's training set consists of exactly the samples (k-1)*c+1..k*c in order, for supervised streams with their own targets.", "quantifier": "every cache size, every stream (history) of samples", "why_tests_cant": "stream histories are unbounded", "anchors": ["src/DataStream.cpp: addSample, initialize", "OpenANN/io/DataStream.h"]}
{"id": "C11", "title": "A learner frees exactly the data sets it created", "statement": "Under any sequence of setting training/validation sets (from matrices or as user data sets), removing them and finally destroying the learner: no data set is freed twice, no user-supplied data set is ever freed, every data set the learner created itself is freed by the end, and the learner never keeps a pointer to freed memory.", "quantifier": "every finite call history ending in destruction", "why_tests_cant": "ownership bugs depend on the call history; tests execute few histories and double frees may go unnoticed", "anchors": ["src/Learner.cpp", "OpenANN/Learner.h"]}
{"id": "C12", "title": "FANN files round-trip", "statement": "Loading a file written by the FANN writer gives back a data set with the same number of instances, inputs and outputs, and every value is the value that the printed decimal number denotes (the same value, if printing loses no digits).", "quantifier": "every pair of matrices with equal row counts, every shape, every number printer/parser pair", "why_tests_cant": "shapes and contents are unbounded; column alignment and separators depend on the values", "anchors": ["src/FANN.cpp: load, save"]}
{"id": "C13", "title": "LibSVM files round-trip", "statement": "Loading a file written by the LibSVM writer gives back the same inputs and the same labels.", "quantifier": "every input matrix, every label column or one-of-c target matrix", "why_tests_cant": "sparsity patterns and class sets are unbounded; class-count dependent behaviour (1, 2, more classes) hides from single examples", "anchors": ["src/LibSVM.cpp: load, save, saveTargets"]}
{"id": "C14", "title": "The LibSVM reader never writes outside its matrices", "statement": "For every syntactically valid LibSVM file (lines 'label idx:value ...' with 1-based increasing indices) the reader fills a matrix with one row per line, never accessing an element outside of the matrices.", "quantifier": "every well-formed file: any number of lines, labels, features", "why_tests_cant": "files are unbounded; memory errors need not crash", "anchors": ["src/LibSVM.cpp: load"]}
{"id": "C15", "title": "Saved networks load to the same network", "statement": "Loading what save() wrote into an empty network rebuilds the same sequence of layers with the same hyperparameters, regularisation settings and error function and the same parameter values (as far as the printed numbers determine them); saving the loaded network again gives the same text.", "quantifier": "every sequence of architecture calls, every parameter vector, every number printer/parser pair", "why_tests_cant": "architectures are unbounded sequences over 14 commands; each has its own argument order for writer and reader", "anchors": ["src/Net.cpp: save, load, inputLayer ... outputLayer, setRegularization, setErrorFunction"]}
{"id": "C16", "title": "Loading a network file always comes to an end", "statement": "load() on any byte sequence either builds a network or reports an error; it does not run forever.", "quantifier": "every input stream", "why_tests_cant": "non-termination for some input cannot be observed by finitely many terminating tests", "anchors": ["src/Net.cpp: load(std::istream&)"]}
{"id": "C17", "title": "Parameter vector and weights correspond one-to-one", "statement": "The parameter vector of a network is the concatenation of the parameters of its layers; every weight and bias of every layer is controlled by exactly one entry, the derivative vector uses the same order, dimension() is the number of entries, and after setParameters(p), currentParameters() returns p and every weight holds its entry of p (before constraints).", "quantifier": "every network architecture (any number and size of layers), every parameter vector", "why_tests_cant": "off-by-one in pointer enumeration shows up only for particular shapes; shapes are unbounded", "anchors": ["src/Net.cpp: setParameters, currentParameters, initializeNetwork", "src/FullyConnected.cpp: initialize", "src/Convolutional.cpp: initialize", "src/Subsampling.cpp: initialize", "src/Compressed.cpp: initialize", "src/RBM.cpp", "src/SparseAutoEncoder.cpp"]}
{"id": "C18", "title": "Backpropagation computes the gradient", "statement": "For a network of fully connected layers (any number, sizes, with or without bias, any of the activation functions) without regularisation and mean squared error, the gradient over a set of training examples is the exact vector of partial derivatives of the error over that set with respect to every parameter, wherever the activation functions are differentiable; with softmax and cross entropy likewise up to the 1e-10 safety term.", "quantifier": "every depth, every layer size, every parameter vector, every training batch, every parameter index", "why_tests_cant": "finite-difference tests probe a few random points of a few architectures with tolerance", "anchors": ["src/Net.cpp: errorGradient, gradient, backpropagate, forwardPropagate", "src/FullyConnected.cpp: forwardPropagate, backpropagate", "src/ActivationFunctions.cpp", "OpenANN/ErrorFunctions.h"]}
{"id": "C19", "title": "Regularised gradient belongs to the regularised error", "statement": "With L1/L2 penalties the gradient returned together with the error value is the gradient of that value.", "quantifier": "every network, every regularisation coefficient, every batch size", "why_tests_cant": "finite-difference tests use batch size one or zero penalties", "anchors": ["src/Net.cpp: errorGradient", "src/FullyConnected.cpp: forwardPropagate, backpropagate"]}
{"id": "C20", "title": "Error of a training set is the mean of the errors of its instances", "statement": "error() equals the mean of error(n) over all training instances, and equals the value returned by errorGradient over the whole training set.", "quantifier": "every network, every training set", "why_tests_cant": "training sets are unbounded", "anchors": ["src/Net.cpp: error(unsigned int), error(), errorGradient", "OpenANN/ErrorFunctions.h"]}
{"id": "C21", "title": "Batch prediction equals instance-wise prediction", "statement": "Row n of the prediction for a matrix of inputs equals the prediction for the n-th input alone; the order and number of other rows do not influence it.", "quantifier": "every network of feedforward layers, every batch size, every row", "why_tests_cant": "batches are unbounded; dependence on the position within the batch is invisible with batches of size one", "anchors": ["src/Net.cpp: operator()", "src/LocalResponseNormalization.cpp: forwardPropagate", "src/ActivationFunctions.cpp: softmax", "src/Convolutional.cpp", "src/Subsampling.cpp", "src/MaxPooling.cpp", "src/AlphaBetaFilter.cpp"]}
{"id": "C22", "title": "Max-norm constraint holds after every parameter update", "statement": "With a maximum squared weight norm m > 0 configured, after every setParameters call the squared norm of the incoming weights of each neuron is at most m, neurons within the bound are unchanged, others keep their direction; applying the constraint twice changes nothing more.", "quantifier": "every weight matrix, every bound, every parameter vector", "why_tests_cant": "continuous weight space; idempotence concerns all inputs", "anchors": ["src/FullyConnected.cpp: updatedParameters"]}
{"id": "C23", "title": "Convolutional layer computes valid cross-correlation within bounds", "statement": "For a kernel not larger than the image, every output of a convolutional layer is activation(sum over input maps of bias plus the kernel-weighted window at that position), outputs are laid out map by map, row by row, the declared output shape is exactly the number of computed values, and neither forward nor backward pass reads or writes outside of any array.", "quantifier": "every number of feature maps, image size, kernel size (odd or even), batch, weights", "why_tests_cant": "index arithmetic over five nested loops with unbounded shapes", "anchors": ["src/Convolutional.cpp"]}
{"id": "C24", "title": "Max-pooling takes the maximum of each window", "statement": "Each output of a max-pooling layer is the maximum of the inputs in its (kernelRows x kernelCols) window, windows do not overlap, and the error signal is passed back exactly to the position of that maximum.", "quantifier": "every image and kernel size, every input", "why_tests_cant": "inputs where the maximum is not in the first row of the window are needed; shapes unbounded", "anchors": ["src/MaxPooling.cpp"]}
{"id": "C25", "title": "Subsampling sums each window", "statement": "Each output of a subsampling layer is activation(weight * sum of the inputs in its window + bias), all accesses are within bounds, and the number of outputs is the declared one.", "quantifier": "every image and kernel size, every input", "why_tests_cant": "shapes and inputs unbounded; with constant windows wrong sums are invisible", "anchors": ["src/Subsampling.cpp"]}
{"id": "C26", "title": "Local response normalisation follows its formula", "statement": "Output i at position (r,c) is x^i / (k + alpha * sum over the maps j from max(0,i-n/2) to min(N-1,i+n/2) of (x^j)^2)^beta, for every instance of a batch.", "quantifier": "every batch, every number of maps, every hyperparameter", "why_tests_cant": "the defect depends on the index of the instance in the batch", "anchors": ["src/LocalResponseNormalization.cpp", "OpenANN/layers/LocalResponseNormalization.h"]}
{"id": "C27", "title": "Dropout is active only in training", "statement": "During training every output of a dropout layer is either 0 or its input and the error signal passes exactly where the input passed; when dropout is off, the output is (1-p) times the input, deterministic; callbacks at the end of an iteration always see dropout off and the setting is restored afterwards.", "quantifier": "every input, every random mask, every history of dropout on/off and callbacks", "why_tests_cant": "random masks and call histories are unbounded", "anchors": ["src/Dropout.cpp", "src/Net.cpp: finishedIteration, useDropout"]}
{"id": "C28", "title": "Activation functions stay in range and have the advertised derivative", "statement": "Logistic values lie in [0,1], tanh in (-1,1), scaled tanh in (-1.7159,1.7159), rectified values are >= 0; all are monotone; the derivative computed from the output equals the true derivative at every input (except at the kinks of the rectifier and at the logistic cut-off +-45).", "quantifier": "every real input", "why_tests_cant": "continuous domain", "anchors": ["src/ActivationFunctions.cpp"]}
{"id": "C29", "title": "Softmax yields a probability distribution", "statement": "Each row of the softmax output has strictly positive entries that sum to one, preserves the order of the activations, and is invariant under adding a constant to a row and under the other rows of the batch.", "quantifier": "every real matrix of any size", "why_tests_cant": "continuous domain, unbounded size", "anchors": ["src/ActivationFunctions.cpp: softmax"]}
{"id": "C30", "title": "Error functions measure disagreement", "statement": "Mean squared error is non-negative and zero exactly if prediction equals target; the cross entropy of a distribution against targets that are distributions is bounded below by (almost) 0.", "quantifier": "every prediction and target matrix", "why_tests_cant": "continuous domain", "anchors": ["OpenANN/ErrorFunctions.h", "src/Evaluation.cpp: sse, mse, rmse, ce"]}
{"id": "C31", "title": "Compressed layers equal fully connected layers with generated weights", "statement": "A compressed layer computes what a fully connected layer with the weight matrix alpha*phi would compute, and its gradient with respect to alpha is the chain-rule image of the fully connected gradient.", "quantifier": "every compression matrix, shapes, inputs", "why_tests_cant": "shapes and values unbounded", "anchors": ["src/Compressed.cpp"]}
{"id": "C32", "title": "Average and edge compression matrices", "statement": "An average compression matrix maps every input to the block means (rows sum to one, every input belongs to at most one block, blocks have equal size); an edge matrix with even block size maps constant inputs to zero; both are defined for every pair of dimensions.", "quantifier": "every input dimension and parameter dimension", "why_tests_cant": "dimension pairs are unbounded, division by zero only for paramDim > inputDim", "anchors": ["src/CompressionMatrixFactory.cpp", "src/Compressor.cpp"]}
{"id": "C33", "title": "Propagating a data set through the first l layers", "statement": "propagateDataSet(ds,l) returns a data set with the activations of layer l for every instance of ds and the targets of ds, usable after the call.", "quantifier": "every network, every l, every data set", "why_tests_cant": "the effect is only visible for networks with more layers than l; dangling memory often still holds the right values", "anchors": ["src/Net.cpp: propagateDataSet"]}
{"id": "C34", "title": "Higher-order nodes enumerate all input combinations once", "statement": "Adding k-th order nodes (k=2,3,4) to a sigma-pi layer creates per neuron one product unit for every k-subset of the inputs, each exactly once; without constraint every unit has its own weight, with a constraint two units of a neuron share a weight exactly if their constraint values fall together, units of different neurons never share weights.", "quantifier": "every number of inputs and nodes, every constraint function", "why_tests_cant": "combinatorially many units; unbounded input size", "anchors": ["src/SigmaPi.cpp: secondOrderNodes, thirdOrderNodes, fourthOrderNodes", "OpenANN/layers/SigmaPi.h"]}
{"id": "C35", "title": "Sigma-pi layers pass back the right error signal", "statement": "The error signal a sigma-pi layer hands to the previous layer is the derivative of the error with respect to its inputs, its weight derivatives are the derivatives with respect to the weights, and no access is out of bounds.", "quantifier": "every layer, every input", "why_tests_cant": "only visible if a trainable layer precedes the sigma-pi layer", "anchors": ["src/SigmaPi.cpp: forwardPropagate, backpropagate"]}
{"id": "C36", "title": "Geometric constraints identify equivalent index tuples", "statement": "Distance constraints are symmetric and translation invariant; slope constraints are translation invariant; triangle constraints give two triangles the same number exactly if they have the same three (discretised) angles up to rotation.", "quantifier": "every image size, every index tuple, every history of earlier calls (the triangle constraint is stateful)", "why_tests_cant": "numbers depend on the call history", "anchors": ["OpenANN/layers/SigmaPiConstraints.h"]}
{"id": "C37", "title": "Alpha-beta filter is stable for every parameter", "statement": "For every parameter vector the filter coefficients satisfy 0 <= alpha < 1 and 0 <= beta < 2 and 2*alpha + beta <= 4, the sign of a parameter does not matter, a constant input sequence is reproduced with zero velocity, and reset makes the next output independent of the history.", "quantifier": "every real parameter, every input sequence", "why_tests_cant": "continuous domain and unbounded sequences", "anchors": ["src/AlphaBetaFilter.cpp"]}
{"id": "C38", "title": "Mini-batch descent visits the training examples fairly", "statement": "In every epoch the mini-batches are disjoint, no example is used twice, every example is used if the batch size divides the number of examples, and otherwise exactly N mod batchSize examples are left out (batchSize <= N).", "quantifier": "every N, every batch size, every shuffle", "why_tests_cant": "N, batch size and order unbounded", "anchors": ["src/MBSGD.cpp: step, initialize"]}
{"id": "C39", "title": "Learning-rate, momentum and gain schedules stay in their ranges", "statement": "After any number of updates the learning rate is at least the minimum and never increases above max(initial, minimum), the momentum coefficient never exceeds max(initial, maximum), never decreases below min(initial, max), every gain stays in [minGain,maxGain] (starting from 1 in that range), whatever the gradients are; and the values have the documented closed form.", "quantifier": "every configuration accepted by the constructor, every number of steps, every gradient sequence", "why_tests_cant": "unbounded number of steps and arbitrary gradients", "anchors": ["src/MBSGD.cpp: step, MBSGD"]}
{"id": "C40", "title": "Gradient descent with momentum follows the documented rule", "statement": "With plain momentum the parameters after every batch satisfy w_t = w_{t-1} + d_t with d_t = eta_t d_{t-1} - alpha_t g_t(w_{t-1}); with Nesterov momentum the gradient is evaluated at w_{t-1} + eta_t d_{t-1} and the final result is w_t; the optimised object holds w_t after each step.", "quantifier": "every objective, configuration and number of steps", "why_tests_cant": "the trajectory is unbounded and depends on arbitrary objectives", "anchors": ["src/MBSGD.cpp: step, result"]}
{"id": "C41", "title": "Stopping criteria are honoured by mini-batch descent", "statement": "With an iteration limit m >= 1, optimise() performs at most m epochs, exactly m if no other criterion or interrupt stops it, reports every finished iteration once in order, and a stopped optimiser can be started again from scratch.", "quantifier": "every limit, objective, history of earlier runs and interrupt times", "why_tests_cant": "interrupt times and histories unbounded", "anchors": ["src/MBSGD.cpp: optimize, step", "src/StoppingCriteria.cpp"]}
{"id": "C42", "title": "An optimiser can be reused like a new one", "statement": "After a finished optimisation, optimising another problem with the same optimiser object gives the same trajectory as with a newly constructed one.", "quantifier": "every configuration and every earlier run", "why_tests_cant": "depends on the complete earlier history", "anchors": ["src/MBSGD.cpp: initialize, setOptimizable", "src/LBFGS.cpp", "src/IPOPCMAES.cpp"]}
{"id": "C43", "title": "Interrupt observation protocol", "statement": "While at least one observer exists, every observer reports an interrupt exactly if one arrived since the observation started; when the last observer is destroyed the default handling is restored and the flag is cleared; nested observers do not disturb each other; outside of any observer an interrupt is handled by the default action.", "quantifier": "every interleaving of construction, destruction, queries and signals", "why_tests_cant": "signals arrive at any time: schedules are unbounded", "anchors": ["src/StoppingInterrupt.cpp", "OpenANN/optimization/StoppingInterrupt.h"]}
{"id": "C44", "title": "Evolution strategy returns the best individual and respects its budget", "statement": "The result of the evolution strategy is the individual with the smallest error among all evaluated so far; at most maximalRestarts restarts happen, the population doubles with every restart, the number of function evaluations exceeds the configured maximum by less than one population, and every evaluated individual is reported back exactly once.", "quantifier": "every objective, every behaviour of the sampling core, every budget", "why_tests_cant": "objective and sampler are arbitrary, histories unbounded", "anchors": ["src/IPOPCMAES.cpp"]}
{"id": "C45", "title": "Random numbers respect their ranges", "statement": "generateInt(min,range) lies in [min,min+range) (equals min for range 0), generate(min,range) lies in [min,min+range], neither fails; random indices of a vector are a permutation of 0..n-1.", "quantifier": "every state of the generator, every min and range, every n", "why_tests_cant": "generator states unbounded; upper end point is hit with probability 1/(RAND_MAX+1)", "anchors": ["OpenANN/util/Random.h", "src/Random.cpp"]}
{"id": "C46", "title": "Seeding makes runs reproducible", "statement": "After seed(s) every later random decision (numbers, index permutations, shuffles of data sets and batches) depends only on s and the calls made, not on the time of the run.", "quantifier": "every seed, every start time, every later call sequence", "why_tests_cant": "hyperproperty over pairs of executions at different times", "anchors": ["src/Random.cpp", "OpenANN/util/Random.h", "src/DataSetView.cpp: shuffle"]}
{"id": "C47", "title": "Classification measures are consistent", "statement": "The entries of the confusion matrix are non-negative and add up to the number of instances, its diagonal adds up to accuracy * n, accuracy and weighted accuracy (weights non-negative with sum one) lie in [0,1], uniform weights give the plain accuracy, and the number of classification hits equals the number of instances whose decoded prediction equals the decoded target.", "quantifier": "every learner (arbitrary prediction function), every data set", "why_tests_cant": "learners and data sets unbounded", "anchors": ["src/Evaluation.cpp: accuracy, weightedAccuracy, confusionMatrix, classificationHits, oneOfCDecoding"]}
{"id": "C48", "title": "Regression measures are consistent", "statement": "SSE is the sum over the instances, MSE = SSE/N, RMSE^2 = MSE, all are non-negative and zero exactly for perfect predictions.", "quantifier": "every learner, every non-empty data set", "why_tests_cant": "unbounded", "anchors": ["src/Evaluation.cpp: sse, mse, rmse"]}
{"id": "C49", "title": "Evaluators report at the configured interval", "statement": "An evaluator with interval v >= 1 writes a report at the v-th, 2v-th, ... finished iteration and at no other; reported correct and wrong predictions add up to the data set size.", "quantifier": "every interval, every number of iterations", "why_tests_cant": "unbounded histories", "anchors": ["src/Evaluator.cpp", "OpenANN/Evaluator.h"]}
{"id": "C50", "title": "Normalisation yields mean zero and standard deviation one", "statement": "After fit(X), transform(X) has column means 0, and column standard deviation 1 for each non-constant column, 0 for constant columns; a later fit replaces an earlier one completely; new data are mapped by the same affine map.", "quantifier": "every matrix with at least one row", "why_tests_cant": "continuous domain, unbounded size", "anchors": ["src/Normalization.cpp"]}
{"id": "C51", "title": "Scaling maps onto the requested interval", "statement": "scaleData(data,min,max) maps the data affinely such that the smallest value becomes min, the largest becomes max, all others lie between, keeping their order; min >= max is refused.", "quantifier": "every non-empty matrix, every interval", "why_tests_cant": "continuous domain", "anchors": ["src/Preprocessing.cpp: scaleData"]}
{"id": "C52", "title": "Signal filter implements the difference equation", "statement": "filter(x,y,b,a) computes a(0)*y(t) = sum_p b(p) x(t-p) - sum_{q>0} a(q) y(t-q) (with reflected values before the beginning of the signal) without touching memory outside the signals; downsampling keeps exactly every factor-th value.", "quantifier": "every signal, filter length, factor", "why_tests_cant": "signals unbounded; feedback terms are zero in the only user (FIR)", "anchors": ["src/Preprocessing.cpp: filter, downsample"]}
{"id": "C53", "title": "Random patches are sub-images", "statement": "Each sampled patch is a contiguous patchRows x patchCols window, the same window in each channel, of the image it comes from, all reads in bounds, for every patch size not larger than the image; number and order of patches are images*samples.", "quantifier": "every image size, patch size, channels, random sequence", "why_tests_cant": "random offsets at the boundary occur rarely; shapes unbounded", "anchors": ["src/Preprocessing.cpp: sampleRandomPatches"]}
{"id": "C54", "title": "K-means centres are means of their points", "statement": "After any sequence of fit calls, every centre that ever was nearest to some point is the arithmetic mean of all points ever assigned to it, every point is assigned to a nearest centre, centres never leave the coordinate-wise range of the data seen, and transform reports the distances to the centres.", "quantifier": "every sequence of batches, every initial choice of centres", "why_tests_cant": "unbounded histories, real data", "anchors": ["src/KMeans.cpp", "OpenANN/KMeans.h"]}
{"id": "C55", "title": "Whitening decorrelates the data", "statement": "PCA with whitening and ZCA whitening map the training data to data with mean zero and identity covariance (on the kept components), the ratios of explained variance lie in [0,1] and sum to one over all components.", "quantifier": "every data matrix with full-rank covariance, given a correct singular value decomposition", "why_tests_cant": "continuous domain; errors in transposition are invisible for symmetric or diagonal cases", "anchors": ["src/PCA.cpp", "src/ZCAWhitening.cpp"]}
{"id": "C56", "title": "Boosting keeps a distribution over the training set", "statement": "During AdaBoost training the instance weights are positive and sum to one before every round; after a round with error in (0,1/2) misclassified instances gain weight relative to correct ones; model weights sum to one and predictions are the weighted sum of the models' predictions.", "quantifier": "every data set, every sequence of learners (arbitrary predictions), every number of rounds", "why_tests_cant": "learner behaviour and number of rounds unbounded", "anchors": ["src/AdaBoost.cpp"]}
{"id": "C57", "title": "Bagging averages its models", "statement": "The prediction of a bagging ensemble is the mean of the models' predictions, independent of the order in which models were added; if all models agree, it is their common prediction.", "quantifier": "every list of models, every input", "why_tests_cant": "unbounded", "anchors": ["src/Bagging.cpp"]}
{"id": "C58", "title": "Packing parameters is lossless", "statement": "unpack(pack(m1,...,mk)) gives back the matrices; the packed vector has exactly the sum of the sizes as length and each entry holds exactly one matrix element.", "quantifier": "every list of matrices of every shape", "why_tests_cant": "shapes unbounded; offset mistakes only show for particular shapes", "anchors": ["src/EigenWrapper.cpp: pack, unpack", "OpenANN/util/EigenWrapper.h"]}
{"id": "C59", "title": "Unsupervised models round-trip their parameters", "statement": "For intrinsic plasticity, sparse auto-encoders and restricted Boltzmann machines: after setParameters(p), currentParameters() equals p, dimension() is its length, and the derivative vector uses the same order as the parameter vector.", "quantifier": "every size, every parameter vector", "why_tests_cant": "shapes unbounded", "anchors": ["src/IntrinsicPlasticity.cpp", "src/SparseAutoEncoder.cpp", "src/RBM.cpp"]}
{"id": "C60", "title": "Weight decay of a restricted Boltzmann machine shrinks weights", "statement": "The regularisation part of the gradient estimate of a restricted Boltzmann machine is the derivative of the configured penalty, so that a descent step decreases the penalty.", "quantifier": "every weight matrix and coefficient", "why_tests_cant": "sign errors are masked by the stochastic contrastive-divergence term", "anchors": ["src/RBM.cpp: gradient/errorGradient (fillGradient)"]}
{"id": "C61", "title": "Log messages are filtered by level", "statement": "A message of a level is written exactly if its level is enabled, and nothing is written after logging was deactivated.", "quantifier": "every level, every history of level changes and messages", "why_tests_cant": "histories unbounded", "anchors": ["src/Logger.cpp", "OpenANN/io/Logger.h"]}
{"id": "C62", "title": "Image file loaders decode every pixel", "statement": "The IDX loader turns a well-formed file into one row per image with pixel values in [0,1] at position row*width+column, padding repeats the last column/row, and labels become one-of-ten vectors with exactly one 1; the CIFAR loader places byte k of a record at input k scaled to [-1,1) and its label byte as one-of-ten target.", "quantifier": "every image count, size, pixel content", "why_tests_cant": "contents unbounded", "anchors": ["benchmarks/mnist/IDXLoader.h", "benchmarks/cifar10/CIFARLoader.h"]}
{"id": "C63", "title": "A learner stays usable after cross-validation", "statement": "After crossValidation() returns, the learner's training set is still an existing data set, so that asking the learner for its error or training it further does not touch destroyed objects.", "quantifier": "every learner history before, every number of folds", "why_tests_cant": "use of a destroyed stack object usually goes unnoticed in a test run", "anchors": ["src/Evaluation.cpp: crossValidation", "src/Learner.cpp: trainingSet"]}
{"id": "C64", "title": "Copies of a learner do not share ownership", "statement": "Copying a learner and destroying both copies frees every data set at most once.", "quantifier": "every learner history before the copy", "why_tests_cant": "depends on the history (owned or not); heap corruption is not an assertion failure", "anchors": ["OpenANN/Learner.h", "src/Learner.cpp: ~Learner"]}
{"id": "C65", "title": "Backpropagation is exact for every layer type", "statement": "For a network of arbitrary layers (convolutional, subsampling, max-pooling, compressed, extreme, intrinsic plasticity, RBM, sparse autoencoder, dropout with a fixed mask, local response normalisation, in any order) the gradient returned by errorGradient is the exact gradient of the error plus the penalties divided by the batch size, at every point where the network is differentiable.", "quantifier": "every sequence of layers with matching dimensions, every parameter vector, every batch, every parameter index", "why_tests_cant": "combinations of layers are unbounded; gradient checks use single layers, one random point and a tolerance", "anchors": ["src/Net.cpp: errorGradient, backpropagate", "src/Convolutional.cpp", "src/Subsampling.cpp", "src/MaxPooling.cpp", "src/LocalResponseNormalization.cpp", "src/Compressed.cpp", "src/Extreme.cpp", "src/IntrinsicPlasticity.cpp", "src/RBM.cpp", "src/SparseAutoEncoder.cpp", "src/Dropout.cpp"]}
{"id": "C66", "title": "The sparse autoencoder follows the gradient of its cost", "statement": "The gradient vector of the sparse autoencoder is the derivative of the cost it reports (reconstruction error, weight decay and sparsity penalty) with respect to its parameter vector, entry for entry in the order of the parameters.", "quantifier": "every number of inputs and hidden units, every data set, every parameter vector at which the cost is differentiable, every direction", "why_tests_cant": "the sparsity term couples all instances; numerical gradient checks sample single points with a tolerance", "anchors": ["src/SparseAutoEncoder.cpp: errorGradient, error, setParameters"]}
{"id": "C67", "title": "Intrinsic plasticity descends towards the exponential distribution", "statement": "The gradient of the intrinsic plasticity learner is the derivative of the loss whose minimisation brings the outputs to an exponential distribution of mean mu, it is finite whenever the slopes pass the check, and it is the derivative of the reported error.", "quantifier": "every number of nodes, every input, every slope and bias", "why_tests_cant": "the loss is never computed by the program; zero slopes beyond the first do not occur in tests", "anchors": ["src/IntrinsicPlasticity.cpp: error, gradient"]}
{"id": "C68", "title": "Constrained sigma-pi layers ignore the place of a pattern", "statement": "A sigma-pi layer whose nodes were created with a distance, slope or triangle constraint gives the same outputs for an image and for the same pattern shifted inside of the image (on a background of zeros), before, during and after training.", "quantifier": "every image size, every pattern, every shift that keeps the pattern inside, every value of the weights, every number of nodes", "why_tests_cant": "needs all patterns, shifts and weights; the numbers of the triangle constraint depend on the call history", "anchors": ["src/SigmaPi.cpp: secondOrderNodes, thirdOrderNodes, forwardPropagate", "OpenANN/layers/SigmaPiConstraints.h"]}
{"id": "C69", "title": "The alpha-beta filter follows its input", "statement": "With a nonzero parameter, an input that moves with constant velocity is predicted without error in the limit and the estimated velocity converges to its velocity; in particular an input that becomes constant is reproduced in the limit with velocity zero. This holds whatever the filter has seen before.", "quantifier": "every nonzero parameter, every nonzero time step, every history of inputs, resets and parameter changes, every starting point and velocity of the input", "why_tests_cant": "a limit over unbounded sequences for a continuum of coefficients", "anchors": ["src/AlphaBetaFilter.cpp: updatedParameters, reset, forwardPropagate"]}
{"id": "C70", "title": "A loaded network computes what the saved one computed", "statement": "Saving a network and loading the file into an empty network gives a network with the same outputs for every input.", "quantifier": "every sequence of layers and settings, every parameter vector, every batch, every random number drawn while the network is loaded", "why_tests_cant": "combinations of layers, parameters and inputs are unbounded; layers with state outside of the parameter vector need a second draw of random numbers to be noticed", "anchors": ["src/Net.cpp: save, load, setParameters, operator()", "src/Extreme.cpp", "src/Compressed.cpp", "src/IntrinsicPlasticity.cpp", "src/RBM.cpp: initialize"]}
{"id": "C71", "title": "Batch optimisers hand the library exactly the objective", "statement": "L-BFGS, CG and LMA answer every request of the underlying ALGLIB optimiser with the error and gradient of the optimised object at exactly the requested point, so that step() until it returns false, optimize() and result() give what the library finds for the objective function alone from the parameters the object had at the start, whatever else uses the object between two steps; stopping criteria are passed on, the number of steps respects maximalIterations, finishedIteration is called once for each of them, the object has the optimum afterwards, and the optimiser can be used again for another object.", "quantifier": "every library behind the interface, every object, every objective function, every history of steps, interrupts and changes of the object between steps, every number of parameters", "why_tests_cant": "needs all request sequences of the library and all interleavings with other users of the object; tests run one small problem per optimiser", "anchors": ["src/LBFGS.cpp: step, initialize, reset, result", "src/CG.cpp: step, initialize, reset, result", "src/LMA.cpp: step, initialize, reset, result", "src/StoppingCriteria.cpp"]}
{"id": "C72", "title": "Error and gradient depend only on parameters and examples", "statement": "error(), error(i), gradient and errorGradient return values that are functions of the parameter vector that was set last and of the selected examples: earlier parameters, earlier batches of any size, and whatever previous calls left in the buffers of the layers have no influence.", "quantifier": "every sequence of layers, every two histories of calls that end with the same setParameters, every batch of examples", "why_tests_cant": "two arbitrary histories have to be compared; tests call the functions on fresh networks", "anchors": ["src/Net.cpp: setParameters, error, errorGradient, forwardPropagate, backpropagate", "src/FullyConnected.cpp", "src/Convolutional.cpp", "src/Subsampling.cpp", "src/MaxPooling.cpp", "src/LocalResponseNormalization.cpp", "src/Compressed.cpp", "src/RBM.cpp", "src/SparseAutoEncoder.cpp"]}
{"id": "C73", "title": "Functions for several examples are the sums over single examples", "statement": "error, gradient and errorGradient for a range of examples, and errorGradient for all examples, give the accumulated errors and gradients of the single examples, for every object that implements the functions for single examples and inherits the others, and for networks; the order of the range does not matter, all versions agree with each other, and a wrong index is reported.", "quantifier": "every objective, every list of indices (with repetitions, in any order, empty), every content of the output arguments, every architecture and parameter vector", "why_tests_cant": "index lists and objectives are unbounded; tests use networks only, in which some of the functions are overridden", "anchors": ["src/Optimizable.cpp: errorGradient, error, gradient", "OpenANN/optimization/Optimizable.h", "OpenANN/util/AssertionMacros.h: OPENANN_CHECK_WITHIN", "src/Net.cpp: error, gradient, errorGradient"]}
{"id": "C74", "title": "The order of the training examples does not matter", "statement": "Error and gradient of a network for a batch, and for the whole training set, are the same for every order of the examples; MBSGD with batches that contain the whole training set gives the same parameters for every order of the training set and every sequence of shuffles.", "quantifier": "every architecture, every parameter vector, every permutation of the examples, every sequence of shuffles, every number of steps", "why_tests_cant": "needs all permutations and all random sequences; tests use one order", "anchors": ["src/Net.cpp: errorGradient, error", "src/MBSGD.cpp: step, initialize", "src/LocalResponseNormalization.cpp: forwardPropagate"]}
{"id": "C75", "title": "train() leaves a network that is ready for prediction", "statement": "After train() the network has the parameters that the optimiser found from the current (or fresh) parameters, dropout is off, the error function is the requested one, and every evaluation during training used the requested error function and dropout, whatever was set before; when the call fails, the network is as before.", "quantifier": "every optimiser as an arbitrary program over the Optimizable interface, every algorithm name, every previous state, every behaviour of data sets at the end of iterations including exceptions", "why_tests_cant": "quantifies over all interactions between optimiser, network and data sets and over all points where an exception may be thrown", "anchors": ["src/Convenience.cpp: train", "src/Net.cpp: finishedIteration, useDropout, setErrorFunction, initialize"]}
{"id": "C76", "title": "makeMLNN builds the textbook multilayer network", "statement": "A network made by makeMLNN has the requested layers, sum of (inputs + 1) * units parameters, and for every parameter vector its outputs are the textbook function of the vector read layer by layer, unit by unit, weights before bias.", "quantifier": "every number of inputs, outputs, hidden layers and units, all activation functions, every parameter vector, every batch", "why_tests_cant": "sizes, parameters and inputs are unbounded; the layout of the parameter vector is never checked against a formula", "anchors": ["src/Convenience.cpp: makeMLNN", "src/Net.cpp: fullyConnectedLayer, outputLayer, addLayer, setParameters, operator()", "src/FullyConnected.cpp: initialize, forwardPropagate"]}
{"id": "C77", "title": "A layer reports its own parameters", "statement": "net.getLayer(i).getParameters() returns every parameter of the layer exactly once with its current value, so that after setParameters the vectors of all layers are together a rearrangement of the vector that was set.", "quantifier": "every layer type, every size and option, every parameter vector, every layer index", "why_tests_cant": "sizes and values are unbounded; the filled vector is never compared with the parameters of the layer", "anchors": ["OpenANN/layers/Layer.h: getParameters", "src/FullyConnected.cpp, src/Convolutional.cpp, src/Subsampling.cpp, src/Compressed.cpp, src/RBM.cpp, src/SparseAutoEncoder.cpp, src/IntrinsicPlasticity.cpp, src/SigmaPi.cpp, src/AlphaBetaFilter.cpp: getParameters", "src/Net.cpp: getLayer"]}
{"id": "C78", "title": "A small enough training step lowers the error", "statement": "If the gradient is not zero, one step of gradient descent over the whole training set lowers the error that error() reports for every sufficiently small learning rate.", "quantifier": "every architecture that is differentiable at the current parameters, every training set, every shuffle, all settings of decay and gains, with and without Nesterov momentum", "why_tests_cant": "the claim is about all small enough learning rates and all real parameters; a test sees one trajectory", "anchors": ["src/MBSGD.cpp: step", "src/Net.cpp: errorGradient, error, setParameters"]}
{"id": "C79", "title": "An RBM samples its units from its Boltzmann distribution", "statement": "The hidden units are sampled from their conditional distribution given the visible units, the visible ones from theirs given the hidden ones, rows of a batch independently; steps of the Markov chain keep the Boltzmann distribution; the generator of the library changes probabilities by at most the number of sampled units over RAND_MAX + 1.", "quantifier": "every number of units, weights with units' inputs of at most 45, every batch, every number of steps, every value of RAND_MAX, all sequences of rand()", "why_tests_cant": "a claim about distributions over all random sequences; a test sees a few samples", "anchors": ["src/RBM.cpp: sampleHgivenV, sampleVgivenH, reality, daydream", "OpenANN/util/Random.h: generate", "src/ActivationFunctions.cpp: logistic"]}
{"id": "C80", "title": "Contrastive divergence has its fixed point where the machine fits the data", "statement": "The expected gradient of a batch is the sum of those of its examples; if the examples are distributed as the machine believes, the expected gradient is zero, like the mean gradient of the negative log-likelihood.", "quantifier": "every number of units, every parameter vector with units' inputs of at most 45, every number of sweeps", "why_tests_cant": "needs the expectation over all random sequences and all data; a test sees noise", "anchors": ["src/RBM.cpp: gradient, errorGradient, reality, daydream, fillGradient"]}
{"id": "C81", "title": "After dropout training the network predicts the mean of its training outputs", "statement": "For layers behind the first dropout layer that have no nonlinearity, the prediction (with scaled units) is the mean of the outputs in training over all masks; the mean training error before a linear output layer is the prediction error plus p(1-p) times weighted squared weights; the mean gradient is the gradient of the mean error.", "quantifier": "every architecture in front of the dropout layer, every number of dropout layers, every probability between 0 and 1, all weights, every batch, all sequences of rand()", "why_tests_cant": "a claim about means over all masks; a test sees one mask or a noisy mean", "anchors": ["src/Dropout.cpp: forwardPropagate, backpropagate", "src/Net.cpp: errorGradient, operator(), useDropout", "OpenANN/util/Random.h: generate"]}
{"id": "C82", "title": "Training without hidden layers reaches the best possible error", "statement": "With full batches, no momentum, and a learning rate up to 1/L (L from the mean squared length of the inputs) that does not decay to zero, training a network without hidden layers by minibatch gradient descent brings the error (least squares or softmax cross-entropy) within e of the error of any other weights; after m epochs the gap is at most the squared distance of the initial weights over twice the sum of the learning rates.", "quantifier": "every data set, numbers of inputs and outputs, initial weights, positive e, order of the examples in each epoch", "why_tests_cant": "a statement about all lengths of training and all competitors; a test sees one run", "anchors": ["OpenANN/optimization/MBSGD.h", "src/MBSGD.cpp: step, optimize", "src/Net.cpp: errorGradient", "src/FullyConnected.cpp", "src/ErrorFunctions.cpp"]}
{"id": "C83", "title": "Mini-batches fit whatever a network without hidden layers can fit", "statement": "If some weights have no error on any example, mini-batch training with linear outputs never moves away from such weights and its error over all examples falls below every positive bound for good, whatever the order of the examples.", "quantifier": "every data set that can be fitted, every batch size that divides the number of examples or exceeds it, all shuffles (even adversarial), all initial weights, all learning rates up to 1/(2L) that do not decay to zero", "why_tests_cant": "all orders of the examples in all epochs; a test tries a few seeds", "anchors": ["src/MBSGD.cpp: step, optimize", "OpenANN/optimization/MBSGD.h", "src/Net.cpp: errorGradient"]}
{"id": "C84", "title": "Training with momentum stays below its initial error and ends", "statement": "With full batches, momentum eta and a learning rate of at most 2(1-eta)/L the error never exceeds the initial error, the gradients vanish, and with minimalSearchSpaceStep > 0 training ends without a limit of epochs, after a number of epochs known in advance.", "quantifier": "every data set, numbers of inputs and outputs, initial weights, step size limit, order of the examples", "why_tests_cant": "termination and a bound for all lengths of training", "anchors": ["src/MBSGD.cpp: step, optimize", "OpenANN/optimization/StoppingCriteria.h", "src/Net.cpp: errorGradient"]}
{"id": "C85", "title": "Distorted images are safe, linear in the image and within its range", "statement": "Distorter::applyDistortion never reads or writes outside of the image, keeps its size, leaves blank images blank, is linear in the image, moves pixels unchanged where the displacement is a whole number, leaves the image alone without randomness, scales and rotates around the centre, and never makes a pixel brighter or darker than the image is.", "quantifier": "all images, sizes, parameters of the distorter and random numbers", "why_tests_cant": "the displacement of every pixel is random; a test sees a few images", "anchors": ["benchmarks/mnist/Distorter.h: createDistortionMap, applyDistortion, applyDistortions"]}
{"id": "C86", "title": "Hidden units can be exchanged, before and after training; equal units stay equal", "statement": "Renaming the units of a hidden layer together with their incoming and outgoing weights changes no prediction and no error and renames the gradient; training from the renamed weights gives the renamed weights. Units that start with equal weights keep equal weights: a network initialised with a standard deviation of 0 behaves for ever as if its hidden layer had one unit.", "quantifier": "all networks with a fully connected or compressed layer before a fully connected one, permutations, data, batch sizes, shuffles, learning rates, momentum, gains and numbers of steps", "why_tests_cant": "all permutations and all lengths of training", "anchors": ["src/Net.cpp: operator(), errorGradient, setParameters, initialize", "src/FullyConnected.cpp", "src/Compressed.cpp", "src/MBSGD.cpp: step, optimize"]}
{"id": "C87", "title": "The pole balancing environments are a mechanical system, integrated by the Runge-Kutta method", "statement": "In the environments with one and with two poles the accelerations satisfy the torque balance of each pole and the balance of forces on the cart and are defined in every state; a transition integrates them for the time deltaT() by two steps of the classical Runge-Kutta method with the action limited to the action space. The motion does not depend on the place on the track, is mirrored if everything is mirrored, upright poles at rest stay and tilted poles fall. After restart every sequence of actions can be executed, whatever happened before; the step counter counts them, an episode ends exactly at the maximal number of steps, off the track or with a fallen pole, and until then the observed position and angles are in [-1, 1] and the observations in the reported bounds.", "quantifier": "all states, forces, sequences of actions and histories, both environments, with and without velocities", "why_tests_cant": "the states and forces are continuous and the episodes are up to 100000 steps long", "anchors": ["examples/polebalancing/SinglePoleBalancing.cpp", "examples/polebalancing/DoublePoleBalancing.cpp"]}
{"id": "C88", "title": "Double exponential smoothing follows straight lines", "statement": "DoubleExponentialSmoothing reproduces constant signals exactly with velocity 0; whatever the signal was before, on a straight line the errors of forecast and velocity vanish geometrically; for bounded signals the outputs are bounded. The outputs after restart depend on the samples since then only. On a line the forecast is right from the second sample on.", "quantifier": "all signals, lengths and histories", "why_tests_cant": "convergence and boundedness for all signals and lengths", "anchors": ["examples/polebalancing/DoubleExponentialSmoothing.h"]}
{"id": "C89", "title": "The two spirals data set consists of two separated spirals, divided between training and test set", "statement": "createTwoSpiralsDataSet stays inside of its matrices, writes every row, and puts every point of the two spirals in exactly one row of one of the two sets with the label of its spiral; all points are different, the classes are balanced up to one point per set, and the inputs are in [0, 1]. Training and test inputs are in the same coordinates, and maxDiameter is the size of the spirals.", "quantifier": "all densities, diameters and contents of memory", "why_tests_cant": "all densities and diameters", "anchors": ["examples/twospirals/CreateTwoSpiralsDataSet.h", "src/Preprocessing.cpp: scaleData"]}
{"id": "C90", "title": "Instances of the P300 data set do not depend on the cache or on earlier calls", "statement": "BCIDataSet finds the flashes of every epoch in order; every index below samples() is one flash, and getInstance, getTarget and getTargetChar with the same index belong to the same flash. getInstance returns the window of the signal that begins with the flash for the current settings of decimate, compress and reset, whatever was called before: the cache is never stale. inputs() is the size of the instances. load can be called again.", "quantifier": "all recordings, indices and sequences of calls of load, decimate, compress, reset, getInstance and evaluate", "why_tests_cant": "staleness depends on the history of calls; all recordings and histories", "anchors": ["benchmarks/p300speller/BCIDataSet.cpp", "benchmarks/p300speller/Decimator.h", "src/Compressor.cpp: transform", "src/Preprocessing.cpp: filter, downsample"]}
{"id": "C91", "title": "The evaluation of the P300 speller counts the correctly spelled symbols", "statement": "For recordings whose codes are 1 to 12 evaluate returns the number of epochs in which the target is the symbol in the first row and first column with the largest sum of predictions over the first trials flashes of each code; the result depends on the recording, the settings, the learner and the number of trials only, not on earlier calls or the cache. A learner that is positive exactly for the flashes of the target spells everything; more trials than flashes change nothing. For other codes there is no result.", "quantifier": "all recordings, learners, numbers of trials and sequences of calls before", "why_tests_cant": "all recordings and histories; the cache changes during the evaluation", "anchors": ["benchmarks/p300speller/BCIDataSet.cpp: evaluate, buildInstance"]}
{"id": "C92", "title": "AdaBoost drives the training error down with every model that is better than chance", "statement": "The fraction of training instances that the trained AdaBoost ensemble misclassifies is at most the product over its models of 2 sqrt((1 - e)(e + 1e-10)), where e is the weighted error of the model in its round. With errors of at most 1/2 - g it is at most sqrt(1 - 4 g^2 + 4e-10)^T for T models, and zero as soon as this is below one over the number of instances. A model that is worse than chance does not make it worse than this bound.", "quantifier": "all data sets, numbers of models and learners, whatever they do in each round", "why_tests_cant": "a statement about every sequence of learners; the weights depend on the whole history", "anchors": ["src/AdaBoost.cpp: train, operator()", "src/WeightedDataSet.cpp", "src/Evaluation.cpp: weightedAccuracy, oneOfCDecoding"]}
{"id": "C93", "title": "The mean of a bagging ensemble is better than its models on average", "statement": "The sum of squared errors of a Bagging ensemble is the mean of the sums of squared errors of its models, less the mean of their squared distances to the ensemble: at most the mean, smaller unless all models agree, and never more than that of the worst model. As a classifier the ensemble predicts the class with the most votes and is right whenever more than half of its models are.", "quantifier": "all numbers of models, inputs, outputs, predictions and targets", "why_tests_cant": "all predictions of all models", "anchors": ["src/Bagging.cpp: operator()", "src/Evaluation.cpp: oneOfCDecoding"]}
{"id": "C94", "title": "Parallel loops are free of races and do what the sequential loops do", "statement": "The loops with #pragma omp parallel for (forward pass and clearing of the derivatives of the convolution, both passes of max-pooling and of the local response normalisation, forward pass of subsampling and sigma-pi layers, sampleRandomPatches) have no data race: no two threads ever access the same number while one of them writes it. No execution throws or leaves its matrices, every execution ends after a fixed number of accesses, and it ends with the results of the sequential loop.", "quantifier": "all layers, inputs, numbers of threads, distributions of the iterations over threads and interleavings", "why_tests_cant": "a test observes a few schedules, races are rare and may change nothing visible", "anchors": ["src/Convolutional.cpp: forwardPropagate, backpropagate", "src/MaxPooling.cpp", "src/Subsampling.cpp: forwardPropagate", "src/LocalResponseNormalization.cpp", "src/SigmaPi.cpp: forwardPropagate", "src/Preprocessing.cpp: sampleRandomPatches"]}
{"id": "C95", "title": "Moved images give moved feature maps", "statement": "If an image is moved, the feature maps of convolution, subsampling, max-pooling and local response normalisation are moved with it, wherever they do not depend on pixels from outside of the image. Convolution and normalisation move them by the same distance, pooling divides the distance by the size of its kernel, and through a stack of these layers the kernel sizes multiply.", "quantifier": "all stacks of such layers, weights, images, batches, directions and distances that are multiples of the product of the kernel sizes", "why_tests_cant": "quantifies over all images and architectures", "anchors": ["src/Convolutional.cpp: forwardPropagate", "src/MaxPooling.cpp: forwardPropagate", "src/Subsampling.cpp: forwardPropagate", "src/LocalResponseNormalization.cpp: forwardPropagate", "src/Net.cpp: forwardPropagate"]}
{"id": "C96", "title": "The neuro-evolution agent evaluates every candidate without memory of earlier episodes", "statement": "Training a NeuroEvolutionAgent in a deterministic environment is a search of IPOPCMAES for the minimum of one function: the negative length of the episode that a policy with the given parameters and fresh estimators plays. Each episode reports exactly one error, which belongs to the parameters that played it; last state, smoothers and filters of earlier episodes have no influence. The agent keeps parameters that were successful, and the benchmark reports the number of the first successful episode.", "quantifier": "all environments, policies, configurations of the agent, population sizes, sampling cores and numbers of episodes", "why_tests_cant": "errors of earlier candidates could leak into later ones only after particular histories; the search space is continuous", "anchors": ["examples/polebalancing/NeuroEvolutionAgent.cpp", "examples/polebalancing/DoubleExponentialSmoothing.h", "src/AlphaBetaFilter.cpp", "src/IPOPCMAES.cpp: getNext, setError, terminated, restart", "benchmarks/polebalancing/polebalancing.cpp: benchmarkSingleRun, benchmarkConfiguration"]}
{"id": "C97", "title": "The octopus arm client follows its protocol with every server and survives a failing connection", "statement": "performEpisode reads exactly the bytes of one episode, calls agent_start, agent_step and agent_end with the states and rewards that the server sent, in that order, and answers each state with the actions of the agent. For every server the calls of an episode are agent_start, steps and, exactly if the episode is reported as successful, agent_end, with as many state components as the task has. If the connection fails after any byte in either direction, the client ends with an error, the agent has seen a beginning of the undisturbed conversation and the server has received a beginning of the messages. Nothing is left behind after an episode.", "quantifier": "all agents, tasks, server messages, numbers of episodes and places where recv or send fails", "why_tests_cant": "every byte is a possible point of failure; servers can send anything", "anchors": ["benchmarks/octopusarm/protocol.cpp", "benchmarks/octopusarm/tcpClient.cpp: main", "benchmarks/octopusarm/agent.cpp: agent_get_name"]}
{"id": "C98", "title": "The octopus arm agent learns from the returns of its own parameters", "statement": "Each episode is played with the parameters that IPOPCMAES asks for next. The optimiser is told exactly one error for each episode, in order, that is made from the sum of all rewards of this episode and is assigned to the parameters that played it. The best return so far is kept together with its parameters.", "quantifier": "all sequences of episodes, rewards, random numbers, population sizes and sampling cores", "why_tests_cant": "errors could be assigned to wrong individuals only at the borders of generations and restarts", "anchors": ["benchmarks/octopusarm/agent.cpp", "src/IPOPCMAES.cpp: getNext, setError, terminated, restart", "benchmarks/octopusarm/protocol.cpp: performEpisode"]}
{"id": "C99", "title": "A network file that was not written completely is not mistaken for the network", "statement": "If the program dies or the disk is full at any moment of Net::save, the file afterwards contains the old network or the new one, or Net::load refuses it. Loading always ends, and it never makes a network with other parameters than the saved ones out of a file that breaks off.", "quantifier": "all networks, parameter vectors, numbers of characters that were written and random initialisations while loading", "why_tests_cant": "every character is a possible crash point; what is read depends on the random numbers drawn while loading", "anchors": ["src/Net.cpp: save(const std::string&), save(std::ostream&), load(const std::string&), load(std::istream&)"]}
{"id": "C100", "title": "Finite activations have finite predictions and errors", "statement": "Whatever the finite activations of a network are, softmax and the logistic function give numbers between 0 and 1 and never an infinity or NaN, the greatest class has a positive probability, the cross entropy of these predictions is finite, and the prediction for an instance does not depend on which other instances are in the batch.", "quantifier": "all matrices of finite doubles, all rounding modes, all orders of summation that Eigen may use", "why_tests_cant": "overflow and underflow depend on the whole batch; tests use activations of moderate size", "anchors": ["src/ActivationFunctions.cpp: softmax, logistic, logisticDerivative", "OpenANN/ErrorFunctions.h: crossEntropy, meanSquaredError", "src/Net.cpp: forwardPropagate, errorGradient", "src/FullyConnected.cpp: backpropagate"]}
{"id": "C101", "title": "Normally distributed random numbers are numbers", "statement": "sampleNormalDistribution returns a finite number and fillNormalDistribution initialises weights with finite numbers.", "quantifier": "all values that rand() can return, all values of RAND_MAX up to 2^53, all rounding modes, all finite standard deviations up to 2^48", "why_tests_cant": "the values that break it are returned with a probability of 1 / RAND_MAX", "anchors": ["OpenANN/util/Random.h: generate, sampleNormalDistribution, fillNormalDistribution"]}
{"id": "C102", "title": "The L1 penalty keeps gradients finite", "statement": "If the error has a finite derivative with respect to a weight, then it is still finite after the L1 penalty was added.", "quantifier": "all weights including zero, all penalties between 0 and 1, all derivatives up to 2^53, all rounding modes", "why_tests_cant": "weights are random, so that the exceptional value does not occur in tests", "anchors": ["src/FullyConnected.cpp: backpropagate", "src/Compressed.cpp: backpropagate", "src/Convolutional.cpp: backpropagate", "src/Subsampling.cpp: backpropagate"]}
{"id": "C103", "title": "A data set file that was not written completely is not taken for a complete one", "statement": "If a FANN or LibSVM file ends before everything was written (crash, full disk, interrupted copy), load either reports it or returns exactly the instances that are completely in the file: no value is invented, no number of columns changes, no indeterminate matrix element is returned, and no uninitialised size is used.", "quantifier": "for every data set, every number format that reads a truncated number up to its end, and every position at which the file breaks off", "why_tests_cant": "a test cuts a file at one or two positions; the claim is about every position, including within a number of the header, within an index and within a padding", "anchors": ["src/FANN.cpp:11-38", "src/FANN.cpp:49-63", "src/LibSVM.cpp:15-119", "src/LibSVM.cpp:130-153"]}
{"id": "C104", "title": "The cost of the sparse autoencoder measures reconstruction, weights and sparseness", "statement": "error() of a sparse autoencoder is a number that is never negative; it is zero exactly if every instance is reconstructed, the weights are zero (unless lambda is 0) and the mean activation of every hidden unit is rho (unless beta is 0). The sparseness penalty grows strictly with the distance of the mean activation from rho, and the gradient consists of numbers.", "quantifier": "all training sets, parameters, beta, lambda >= 0, rho in (0, 1); the failures for all rounding modes and orders of summation", "why_tests_cant": "the penalty is only exceptional for units that are never active or that have negative activations, which depends on all instances at once", "anchors": ["src/SparseAutoEncoder.cpp:64-83", "src/SparseAutoEncoder.cpp:97-120", "src/ActivationFunctions.cpp:68-82"]}
{"id": "C105", "title": "A layer that was trained on its own keeps what it learned when the network is used", "statement": "If an RBM or a sparse autoencoder that is a layer of a network is trained on its own (getLayer), then the network works with the learned weights afterwards: initialize() and the training of the network start from them, save() writes them, and a layer that is excluded from training (backprop = false) keeps them forever.", "quantifier": "all architectures, all positions of the layer, all learned weights, all optimisers (programs that use the interface Optimizable), all histories of initialize, setParameters and training of other layers", "why_tests_cant": "the loss is silent: the network works and learns, only from another starting point; seeing it needs the comparison of two complete histories", "anchors": ["src/Net.cpp:190-194", "src/Net.cpp:487-515", "src/Net.cpp:604-615", "src/RBM.cpp:47-78", "src/RBM.cpp:135-158", "src/SparseAutoEncoder.cpp:40-62", "src/SparseAutoEncoder.cpp:171-205", "src/MBSGD.cpp:96-124", "benchmarks/mnist/rbm.cpp:228-258"]}
{"id": "C106", "title": "A network with an alpha-beta filter answers from its parameters and the inputs since they were set", "statement": "The answers of a network with an alpha-beta filter layer (predictions, errors, gradients) are those of a network with the current parameters: they depend on the parameters and on the inputs since setParameters or reset and on nothing else. In particular a new network can be used, an initialised or loaded network answers like one whose parameters were set to the same numbers, row n of a batch is treated like the n-th input, error() is a function of the parameters, and the gradient contains the derivatives of the parameters of the filter.", "quantifier": "all networks with such a layer, all layers before and behind it, all histories of predictions, errors, gradients, initialisations, resets and parameter changes", "why_tests_cant": "the filter is the only layer with a memory; whether the memory and the cached coefficients fit to the parameters depends on the whole history of calls", "anchors": ["src/AlphaBetaFilter.cpp:7-85", "src/Net.cpp:245-426", "src/Net.cpp:463-536", "src/Net.cpp:578-642"]}
{"id": "C107", "title": "A learner is trained with what is in its training set", "statement": "Whatever was called before, a learner (network, RBM, intrinsic plasticity, sparse autoencoder) computes its error and its gradient from exactly the instances that its training set - the one that was given last with trainingSet() - contains at this time, also if the data set has changed in the meantime, and it tells the training set when an iteration is finished.", "quantifier": "all learners, all histories of trainingSet, removeTrainingSet, predictions, changes of data sets and finished iterations, all data sets, all streams of samples", "why_tests_cant": "tests give a learner one constant data set; what the learner remembers of earlier sets only shows in histories with several sets, growing sets or streams", "anchors": ["src/Learner.cpp:21-50", "src/Net.cpp:452-461", "src/Net.cpp:530-561", "src/RBM.cpp:80-105", "src/IntrinsicPlasticity.cpp:39-90", "src/SparseAutoEncoder.cpp:64-83", "src/SparseAutoEncoder.cpp:122-134", "src/DataStream.cpp:37-71"]}
{"id": "C108", "title": "A Python program never makes the library use an object that does not exist any more", "statement": "Whatever a Python program does with the objects of the interface and in whatever order the interpreter gives them up, no statement makes the library use or delete a C++ object that does not exist (any more); a statement that is not possible raises a Python exception.", "quantifier": "all programs: all sequences of creating, combining, using and giving up data sets, learners, optimisers, streams and layers, with all exceptions handled", "why_tests_cant": "when objects are given up depends on the rest of the program and on the interpreter; a pointer to a deleted object often still seems to work, so that a test passes", "anchors": ["python/dataset.pxi:1-98", "python/net.pxi:1-260", "python/layer.pxi:1-80", "python/optimization.pxi:38-103", "python/evaluation.pxi:1-44", "src/DataStream.cpp:37-71", "src/Net.cpp:31-39", "src/Net.cpp:144-153", "src/Evaluation.cpp:122-176", "src/RBM.cpp:222-232"]}
{"id": "C109", "title": "Arrays and stopping criteria pass the Python interface unchanged", "statement": "A NumPy array that is given to the library arrives with the same numbers at the same places: each row of DataSet(X, T) is one instance with its target, a learner or transformer gets exactly the rows it is asked about (a vector counts as one row), and its answer comes back unchanged; an argument that is not an array of numbers with the right number of dimensions raises a Python exception. Every stopping criterion in a dictionary takes effect, all others keep their defaults and unknown names are reported.", "quantifier": "all arguments: arrays of every number of dimensions, size and content, None and other objects; all learners and transformers; all dictionaries; both ways in which Cython treats exceptions in C functions", "why_tests_cant": "tests use small non-square matrices at best; wrong dimensions, None, entries that are no numbers and arrays beyond the range of int are not tried, and what happens depends on the version of Cython", "anchors": ["python/util.pxi:1-60", "python/dataset.pxi:1-57", "python/net.pxi:135-141", "python/net.pxi:162-165", "python/preprocessing.pxi:1-130", "python/optimization.pxi:1-36", "src/DirectStorageDataSet.cpp:9-33"]}
{"id": "C110", "title": "The parameters of a network are the weights of its sigma-pi layer", "statement": "However a sigma-pi layer was built, after it has become the output layer of a network the parameters of the network are exactly its weights, in order: every weight is drawn from the normal distribution when the layer is added and whenever the network is initialised, predictions are made with the parameters that were set last, the gradient has the derivative of each weight at its place, and nodes that are added later belong to the network as well.", "quantifier": "all layers (all sequences of second, third and fourth order nodes with all constraints and all states of the constraints), all random numbers, all growth policies of std::vector, all histories of initialisations and parameter changes, all inputs and error signals", "why_tests_cant": "the network refers to the weights by pointers into vectors; whether they are valid depends on the whole history of the layer and on the capacities that the standard library chooses, and a dangling pointer often still seems to work", "anchors": ["src/SigmaPi.cpp:40-103", "src/SigmaPi.cpp:106-175", "src/SigmaPi.cpp:178-389", "src/Net.cpp:144-160", "src/Net.cpp:477-515", "src/Net.cpp:604-615"]}
{"id": "C111", "title": "The default build answers like the checked one and reports the same mistakes", "statement": "The library can be built with or without its checks, and without is the default. Whatever a program does, as long as the build with checks does not end with a failed check the default build gives exactly the same results; and a call that is a mistake - an index that a data set does not have, a matrix of the wrong size, a wrong number of groups, missing targets, learners or optimisers, a file of the wrong kind - is reported by the default build as well instead of being taken for something else.", "quantifier": "all data sets and views and all programs with them, all arguments, random numbers, matrices, files, streams of samples, layer sizes and loggers", "why_tests_cant": "the tests are run in one build with correct arguments; what a call with wrong arguments does without the check depends on the code behind it", "anchors": ["CMakeLists.txt:41-43", "OpenANN/util/AssertionMacros.h:1-84", "src/DataSetView.cpp:38-123", "src/DirectStorageDataSet.cpp:9-33", "OpenANN/util/Random.h:62-115", "src/Random.cpp:24-31", "src/FANN.cpp:49-63", "src/LibSVM.cpp:130-153", "src/KMeans.cpp:12-80", "src/Normalization.cpp:37-46", "src/PCA.cpp:37-44", "src/ZCAWhitening.cpp:28-35", "src/MBSGD.cpp:80-153", "src/DataStream.cpp:37-71", "src/Net.cpp:190-200", "src/Convolutional.cpp:20-84", "src/MaxPooling.cpp:18-45", "src/Logger.cpp:19-103", "benchmarks/mnist/IDXLoader.h:38-134"]}
{"id": "C112", "title": "An exception of the objective does not harm the optimiser", "statement": "If the optimised object throws an exception - at whatever call and however often - the exception reaches the caller and the optimiser stays usable: no evaluation that succeeded is lost or used twice, no parameters are computed from an evaluation that failed, result() gives the best or last parameters so far, and calling optimize() or step() again repeats the evaluation that failed and goes on, with the limits of iterations that were configured.", "quantifier": "all optimisers, all objectives and configurations, every call that throws (any set of crash points), all histories of calls of step, optimize, getNext, setError and result, all behaviours of the external libraries", "why_tests_cant": "tests use objectives that never throw; what is left of a run depends on the exact call that threw, and a freed population or an unanswered request often still seems to work", "anchors": ["src/MBSGD.cpp:58-153", "src/IPOPCMAES.cpp:86-234", "src/LBFGS.cpp:28-101", "src/CG.cpp:35-107", "src/LMA.cpp:34-111"]}
{"id": "C113", "title": "The stopping criteria that were set last hold", "statement": "However often the stopping criteria of an optimiser are set, before, between or during runs, the optimisation behaves as if only the last criteria had been set: a criterion that is left at its default value in the last call does not stop anything, and every other one does.", "quantifier": "all optimisers, all histories of setStopCriteria, steps and runs, all criteria, objectives and starting points, all behaviours of the external libraries", "why_tests_cant": "tests set criteria once per optimiser; a stale limit shows only with a second set of criteria that leaves it out", "anchors": ["src/IPOPCMAES.cpp:58-84", "src/IPOPCMAES.cpp:136-169", "src/IPOPCMAES.cpp:221-225", "src/MBSGD.cpp:53-56", "src/MBSGD.cpp:140-152", "src/LBFGS.cpp:18-21", "src/LBFGS.cpp:103-140", "src/CG.cpp:30-33", "src/CG.cpp:121-150", "src/LMA.cpp:29-32", "src/LMA.cpp:127-156", "src/StoppingCriteria.cpp:9-18"]}
{"id": "C114", "title": "The benchmark programs report the statistics of their runs", "statement": "Whatever the runs of a benchmark give, the printed numbers are the statistics they are called: counts of correct and wrong answers, mean, standard deviation, median, minimum and maximum over all runs of the configuration, the number of failures and the mean time (up to the unit of the stopwatch); no number of one configuration leaks into the next one.", "quantifier": "all numbers of runs, all outputs and targets of the test sets, all lengths of episodes, all times, all sequences of configurations", "why_tests_cant": "the benchmark programs are not tested at all; a wrong statistic looks like a plausible number", "anchors": ["benchmarks/twospirals/twospirals.cpp:76-86", "benchmarks/twospirals/twospirals.cpp:162-186", "benchmarks/twospirals/twospirals.cpp:191-235", "benchmarks/twospirals/twospirals.cpp:253-272", "benchmarks/polebalancing/polebalancing.cpp:124-214", "benchmarks/p300speller/p300.cpp:80-143", "benchmarks/p300speller/p300.cpp:172-192", "OpenANN/util/Stopwatch.h:18", "OpenANN/util/Stopwatch.h:45-62"]}
{"id": "C115", "title": "Numbers in the output have the digits that were asked for", "statement": "A number that is written through FloatingPointFormatter - to a stream, a logger or the log - has the number of digits after the decimal point that was given, whatever was written before; all other output is not affected by it: plain numbers look as the program has set up the stream, so that counts and times of the benchmarks and the parameters of networks that are saved to the stream keep their digits.", "quantifier": "all histories of output to streams, console and file loggers and the log, all numbers, precisions and stream settings, all rounding rules in the middle between two decimals", "why_tests_cant": "no test looks at the text of a number; a precision that was left behind by an earlier line changes numbers far away from it", "anchors": ["src/Logger.cpp:54-70", "src/Logger.cpp:79-104", "src/Logger.cpp:142-147", "OpenANN/io/Logger.h:60-78", "OpenANN/io/Logger.h:153-172", "src/Net.cpp:231-234", "src/MBSGD.cpp:64-76", "benchmarks/polebalancing/polebalancing.cpp:216-225", "benchmarks/twospirals/twospirals.cpp:226-234", "benchmarks/p300speller/p300.cpp:134-143"]}
{"id": "C116", "title": "Small changes of parameters and inputs have small effects", "statement": "For every network and every bound on parameters and inputs there is a number L such that changing parameters and inputs by at most d changes no output by more than L*d; in particular decisions that are clear do not change, and a network that was saved with a given number of digits and loaded again predicts what the original predicts, up to a multiple of the precision of the numbers in the file.", "quantifier": "all architectures, parameters and inputs within the bound, all changes, all number formats, all contents of buffers and other rows of the batch", "why_tests_cant": "a test compares a few outputs with a tolerance that was chosen to fit; no test varies parameters and inputs together or relates the digits in a file to the outputs", "anchors": ["src/Net.cpp:463-475", "src/Net.cpp:492-500", "src/Net.cpp:617-627", "src/Net.cpp:231-234", "src/ActivationFunctions.cpp:8-31", "src/ActivationFunctions.cpp:57-82", "src/FullyConnected.cpp:50-61", "src/LocalResponseNormalization.cpp:29-64", "src/MaxPooling.cpp:60-88"]}
{"id": "C117", "title": "Gradient checks tell right from wrong gradients", "statement": "FiniteDifferences::parameterGradient and inputGradient estimate the derivatives of the error with respect to parameters and inputs with an error of order eps^2: for every small step width a right gradient passes the comparison with the estimate and a wrong gradient does not, for networks as well as for single layers in a LayerAdapter with any number of examples and penalties, and the object under test has the same parameters and usable data afterwards.", "quantifier": "all differentiable objectives, all kinds of layers and architectures, parameters, data, numbers of examples, tolerances and all sufficiently small step widths", "why_tests_cant": "the checks are themselves the tests of all gradients; nothing tests whether they accept exactly the right gradients, and a wrong check hides every wrong backward pass", "anchors": ["test/FiniteDifferences.cpp:9-70", "test/FiniteDifferences.h:11-70", "test/LayerAdapter.cpp:5-161", "src/Optimizable.cpp:27-48", "src/Learner.cpp:21-30", "src/Net.cpp:487-561"]}
{"id": "C118", "title": "The viewers of networks and images show what their keys select", "statement": "After any sequence of keys the window of visualize.cpp shows an instance of the data set with its number, label and prediction and every unit of every layer in a place of its own with a brightness that grows with its output, images as images; the window of viewdata.cpp shows consecutive images of the data set with their numbers, none of them covered by another; every instance can be reached from everywhere.", "quantifier": "all sequences of keys, data sets, networks, dimensions of layers and images, numbers of images per window, random distortions", "why_tests_cant": "windows are not tested; a wrong index shows up only after a certain sequence of keys, and a wrong place looks like a strange filter", "anchors": ["benchmarks/mnist/visualize.cpp:60-168", "benchmarks/mnist/viewdata.cpp:24-138", "src/DirectStorageDataSet.cpp:20-33", "src/Net.cpp:185-200"]}
{"id": "C119", "title": "The viewers of auto-encoders and Boltzmann machines show the hidden units", "statement": "After any sequence of keys the windows of autoencoder.cpp and rbm.cpp show weights of existing hidden units and existing images; every hidden unit can be reached; the number of steps of the chain is the one chosen with the keys for fantasies, and each picture of the chain is one step further than the one before it.", "quantifier": "all sequences of keys, numbers of hidden units, pictures and images, weights, random numbers", "why_tests_cant": "windows are not tested; that units cannot be reached or that a key does nothing is no error message", "anchors": ["benchmarks/mnist/autoencoder.cpp:74-195", "benchmarks/mnist/rbm.cpp:76-210", "src/RBM.cpp:222-255"]}
{"id": "C120", "title": "What networks can represent: with a hidden layer every training set and every continuous function, without one not even XOR", "statement": "For every training set in which no instance occurs twice and every multilayer network whose last hidden layer is not linear and has as many units as there are instances, there is a parameter vector that setParameters accepts and with which the network predicts all targets and error() is 0 (with softmax outputs: probabilities of the classes as close to 1 as required); every continuous function on a compact set is approximated uniformly with any precision by networks with one hidden layer that is not linear; networks of linear layers have an error of at least 1/8 on XOR, and networks without hidden layer or with one hidden unit do not separate its classes, while the two hidden units of examples/xor are enough for error 0.", "quantifier": "all training sets, numbers of layers and units, activation functions, continuous functions, compact sets, precisions, weights", "why_tests_cant": "tests train some networks on some data; that parameters exist at all for other data, or that none exist, cannot be seen from runs", "anchors": ["src/FullyConnected.cpp:7-104", "src/ActivationFunctions.cpp:8-143", "src/Net.cpp:42-183", "src/Net.cpp:463-536", "examples/xor/xor.cpp:9-58", "examples/sine/sine.py"]}
{"id": "C121", "title": "Principal components keep as much variance as possible, ZCA whitening changes the data as little as possible", "statement": "Of all projections of the training data on k orthonormal directions PCA with k components (without whitening) keeps the largest variance, and the first k entries of explainedVarianceRatio sum to the part of the variance that is kept; distances between instances do not grow, with all components they stay the same, for the data of fit and for new data; shifting all instances changes nothing. ZCA whitening gives the whitened data that are closest to the centred data: no rotation or reflection of them is closer.", "quantifier": "all data matrices, numbers of instances, features and components, shifts, rotations, given a correct singular value decomposition", "why_tests_cant": "optimality is a statement about all other projections; tests look at one data set with a known answer, mostly two features", "anchors": ["src/PCA.cpp:13-49", "src/ZCAWhitening.cpp:9-36", "OpenANN/PCA.h:12-40"]}
{"id": "C122", "title": "Penalties trade the size of the weights against the error", "statement": "Penalties change nothing but error(): they add l1Penalty times the sum of the absolute values and l2Penalty / 2 times the sum of the squares of the weights, not of biases. Of two networks of the same architecture with the smallest error on a training set, the one with the stronger penalty has the smaller weights and the larger error apart from the penalty; the weights are bounded by the error and vanish for strong penalties; with an L1 penalty a weight is exactly zero if the error depends on it less than the penalty; linear networks with an L2 penalty have exactly one best parameter vector, the solution of ridge regression, and training approaches it.", "quantifier": "all architectures, training sets, penalties, parameters, starts and lengths of training", "why_tests_cant": "statements about networks with the smallest error cannot be tested by runs, which reach it only approximately, and they compare with all other parameters", "anchors": ["OpenANN/Regularization.h:9-30", "src/FullyConnected.cpp:63-104", "src/Compressed.cpp:66-109", "src/Convolutional.cpp:139-225", "src/Subsampling.cpp:98-198", "src/Net.cpp:202-209", "src/Net.cpp:517-602"]}
{"id": "C123", "title": "Mini-batches estimate the gradient of the whole training set", "statement": "The examples of a mini-batch are a random sample: in expectation over the shuffle at the beginning of an epoch the error and the gradient of every mini-batch are error and gradient of the whole training set, also if the batch size does not divide the number of examples, and the first update of the epoch is a step along the gradient of the whole training set. The variance of the gradient is that of the gradients of single examples divided by the batch size B, times (N - B) / (N - 1), so that larger batches are more reliable.", "quantifier": "all networks whose layers treat the rows of a batch alike, training sets, weights, orders of the indices before the shuffle, batch sizes, mini-batches of an epoch, learning rates and momentum", "why_tests_cant": "an expectation over N! shuffles; a test sees a few of them", "anchors": ["src/MBSGD.cpp:80-153", "src/MBSGD.cpp:174-191", "OpenANN/util/Random.h:101-115", "src/Net.cpp:517-602"]}
{"id": "C124", "title": "The two spirals window shows the network of the last iteration on the whole surface", "statement": "Whatever keys are pressed and however often training is started: after every iteration exactly one picture is painted, and it shows the predictions of one network, the one of this iteration, never a mixture of two; the keys Q, W, E and R switch training set, test set, predictions and grey values independently of training; every point of the surface of the data is covered by exactly one square, whose brightness belongs to the nearest point of the grid; instances are painted at their coordinates in the colour of their class.", "quantifier": "all sequences of keys, all numbers of iterations and networks, all data sets, all points of the surface", "why_tests_cant": "needs arbitrary interleavings of keys and iterations and a continuum of points; a test of the window would look at single pictures", "anchors": ["examples/twospirals/TwoSpiralsVisualization.cpp:6-33", "examples/twospirals/TwoSpiralsVisualization.cpp:41-48", "examples/twospirals/TwoSpiralsVisualization.cpp:74-174", "examples/twospirals/TwoSpiralsVisualization.cpp:186-201", "examples/twospirals/twospirals.cpp:38-46"]}
{"id": "C125", "title": "Outputs of trained networks are estimates of means and class probabilities", "statement": "A network with a linear output layer predicts averages. For all weights the gradient for the bias of an output is the mean output minus the mean target of the training set and the gradient for a weight of the output layer is the mean product of residual and hidden output (plus the penalty), so that where training stops the mean prediction is the mean target, or the frequency of the class. No weights have an error() below that of the averages of the targets over the instances with the same input (for MSE the variance within these groups, for CE the entropy of the class frequencies), networks that predict these averages reach it, and the mean squared distance of the predictions to the averages is bounded by the excess of the error. Networks without hidden layers become calibrated up to any accuracy if they are trained long enough.", "quantifier": "all architectures whose layers treat the rows of a batch alike, all weights, penalties and training sets, also with contradictory targets; all starts of training", "why_tests_cant": "the claim is about minima and limits of training and about all other weights; tests see single runs and tolerate deviations", "anchors": ["src/Net.cpp:517-602", "src/FullyConnected.cpp:63-104", "OpenANN/ErrorFunctions.h:17-34", "src/MBSGD.cpp:80-191"]}
{"id": "C126", "title": "Training changes only what took part in an error", "statement": "Mini-batch stochastic gradient descent leaves a parameter exactly at its value as long as its derivative is 0 for all batches: the weights of an input that is 0 in all training instances never change, a rectifier of the first hidden layer that is silent for all training instances stays silent forever and neither its incoming weights and bias nor the weights of its output change, and a network that predicts all targets of the training set exactly (without penalties) is not changed at all, with every batch size, shuffle, learning rate, momentum, Nesterov's momentum and number of iterations.", "quantifier": "all training sets, architectures, weights, settings of the optimiser, shuffles and lengths of training", "why_tests_cant": "a statement about all lengths of training and all shuffles, and about exact equality", "anchors": ["src/MBSGD.cpp:80-191", "src/FullyConnected.cpp:63-104", "src/ActivationFunctions.cpp:123-139", "src/Net.cpp:517-602"]}
{"id": "C127", "title": "Layers without parameters are preprocessing; extreme learning machines find the best output weights", "statement": "A network that begins with layers without trainable parameters (extremeLayer, intrinsicPlasticityLayer, maxPoolingLayer, restrictedBoltzmannMachineLayer outside of backpropagation) behaves exactly like the remaining layers with the outputs of these layers as training set: predictions, error() and every value and gradient that any optimiser asks for are the same, and training does not change the first layers. An extreme learning machine therefore reaches with gradient descent the smallest error over all output weights, whatever the random weights are; if the features of the training instances are linearly independent it learns all targets up to any accuracy, and for training sets without repetitions such weights exist as soon as there are as many units as instances.", "quantifier": "all sequences of such layers, all architectures behind them, weights, training sets, optimisers, batches, starts and random weights", "why_tests_cant": "a statement about all optimisers, all weights and limits of training; a test can only compare single networks", "anchors": ["src/Extreme.cpp:7-67", "src/IntrinsicPlasticity.cpp:116-156", "src/RBM.cpp:135-157", "src/MaxPooling.cpp:14-130", "src/Net.cpp:144-153", "src/Net.cpp:492-602"]}
{"id": "C128", "title": "A Python program gets its memory back", "statement": "After a Python program has dropped all objects of the interface, all memory that the C++ side has allocated for it is released, and nothing is released twice, whatever the program does, exceptions that it handles included. (False: every call of fit, transform, set_parameters, reconstruct and sample_random_patches loses a copy of its argument until the program ends; KMeans objects, sigma-pi layers that are not added and C++ objects that a second __init__ replaces are never released; conversions that raise an exception lose the array; a sigma-pi layer that is added twice is deleted twice.)", "quantifier": "all programs: sequences of creations, calls with valid and invalid arguments, handled exceptions and releases in every order", "why_tests_cant": "leaks do not change any result, and they add up over all histories of a program; tests create a few objects and end", "anchors": ["python/util.pxi:1-36", "python/dataset.pxi:1-98", "python/preprocessing.pxi:5-131", "python/net.pxi:19-28", "python/net.pxi:112-141", "python/net.pxi:158-161", "python/net.pxi:185-195", "python/net.pxi:260-265", "python/layer.pxi:23-73", "python/optimization.pxi:4-103", "src/Net.cpp:31-39", "src/DataStream.cpp:17-71", "src/RBM.cpp:13-27"]}
{"id": "C129", "title": "Affine preprocessing and linear hidden layers change nothing a network can express", "statement": "Whatever a network that begins with a fully connected layer with bias can compute on data that was transformed by Normalization, PCA or ZCAWhitening, it can compute on the raw data with other weights. If the transformation can be undone (Normalization after any fit, ZCAWhitening, PCA with all components), the converse holds too, and the sets of values that error() can take on the raw and on the transformed training set are equal for every training set; with fewer components only one inclusion holds. A linear fully connected layer in front of a fully connected layer adds nothing, and it takes nothing away if it is at least as wide as its input or as the layer behind it. A first layer with fewer units than inputs, whatever its activation function and weights, gives two different inputs the same output, so that an autoencoder with a narrow hidden layer cannot copy all inputs.", "quantifier": "all architectures behind the first layer, all weights, data sets, fitted transformations and targeted functions", "why_tests_cant": "statements about what some weights can or no weights can compute quantify over all parameter vectors and all inputs", "anchors": ["src/FullyConnected.cpp:18-72", "src/Net.cpp:463-475", "src/Net.cpp:492-500", "src/Net.cpp:517-536", "src/Normalization.cpp:11-46", "src/PCA.cpp:13-44", "src/ZCAWhitening.cpp:9-35"]}
{"id": "C130", "title": "Signs of hidden units are arbitrary, and units that start dead stay dead", "statement": "In every network with a fully connected or compressed hidden layer with an odd activation function (tanh, scaled tanh, linear) in front of a fully connected layer, the signs of all incoming weights, the bias and all outgoing weights of any units can be changed at once: outputs, error(), error(n) and the value of errorGradient() stay the same, penalties included, and exactly the corresponding entries of the gradient change their signs. Training with MBSGD from the parameters with other signs gives, after every number of steps or calls of optimize(), the parameters with the other signs and the same predictions. Consequently a unit whose incoming weights, bias and outgoing weights are zero stays so forever and always has the output 0, and a network that starts with all weights zero never gets a hidden unit of this kind to do anything. Rectifiers do not have this symmetry.", "quantifier": "all architectures around the hidden layer, weights, choices of signs, data, batches, parameters and states of the optimiser, numbers of steps", "why_tests_cant": "the statement compares two whole trainings for all data and all choices of signs, and says what never happens in any training", "anchors": ["src/FullyConnected.cpp:18-104", "src/Compressed.cpp:32-109", "src/ActivationFunctions.cpp:8-148", "src/Net.cpp:463-602", "src/MBSGD.cpp:76-183"]}
{"id": "C131", "title": "Evaluators report after the configured iterations, on the data set that the learner uses", "statement": "An evaluator that is attached to a data set reports after every interval-th iteration of the learner and after no other one; the report has the number of the iteration and is about the data set that the learner was given. The first part holds for networks if the evaluator belongs to exactly one of training and validation set. It does not hold if training and validation set are parts of one data set (two calls per iteration: reports about iterations that never took place, at the wrong times), reports on a view are about the whole data set behind it, and there are no reports at all with weighted data sets and with learners other than networks; a data set without targets ends the training.", "quantifier": "all stores of data sets with views of views, all assignments of evaluators, intervals, learners and numbers of iterations", "why_tests_cant": "a test looks at one arrangement of data sets, almost always a direct one for each role; the statement is about every arrangement and every length of a training", "anchors": ["src/Evaluator.cpp:25-51", "src/DirectStorageDataSet.cpp:35-39", "src/DataSetView.cpp:50-53", "OpenANN/io/WeightedDataSet.h:38", "src/Net.cpp:452-461", "OpenANN/optimization/Optimizable.h:145", "OpenANN/Evaluator.h:33-65"]}
{"id": "C132", "title": "The cache of the P300 data set keeps its memory limit", "statement": "However often instances of the P300 speller data set are read and evaluated, in whatever order the data set is loaded, decimated and compressed, the cached instances need at most the 1000 megabytes that the cache is configured with, no instance is stored twice, an instance that was read is kept as long as there is space, and nothing that was stored is lost. (False after compress() and reset(): the cache calculates with the size of compressed instances while it stores whole ones, so that the limit is exceeded by any factor.)", "quantifier": "all recordings, subjects, histories of calls, filters and compression matrices", "why_tests_cant": "the limit is only reached after very many reads of a large recording, and it has to hold for all histories of settings", "anchors": ["benchmarks/p300speller/BCIDataSet.cpp:7-35", "benchmarks/p300speller/BCIDataSet.cpp:183-212", "benchmarks/p300speller/BCIDataSet.cpp:220-245", "benchmarks/p300speller/BCIDataSet.cpp:262-296"]}
{"id": "C133", "title": "The order of features, hidden units and classes does not matter", "statement": "If the columns of the inputs, the units of fully connected (or compressed) hidden layers and the columns of the targets are listed in another order, and the weights likewise, then predictions, error(), error(n) and the value of errorGradient() are the same, outputs and gradients come in the new order, and every training with MBSGD - any number of steps or a whole optimize(), any batch size, shuffle, momentum, gains and penalties - gives the weights in the new order, with the same answers of step(). This holds for the features of all networks that begin with a fully connected layer and for the classes of all networks that end with one. Consequently two features that agree in all training instances and start with equal weights keep equal weights. It does not hold for the features of convolutional layers: with two pixels exchanged there may be no weights that compute the same.", "quantifier": "all architectures between first and last layer, all permutations in all layers at once, weights, data, batches, parameters and states of the optimiser, numbers of steps", "why_tests_cant": "the statement compares two whole trainings for all data and all permutations", "anchors": ["src/FullyConnected.cpp:18-104", "src/Compressed.cpp:32-109", "src/Net.cpp:463-642", "src/ActivationFunctions.cpp:57-66", "OpenANN/ErrorFunctions.h:17-34", "src/MBSGD.cpp:76-191"]}
{"id": "C134", "title": "The window of the pole balancing example shows the poles and obeys its keys", "statement": "In every history of key presses and steps of the agent the window of the pole balancing example shows cart, poles and force of the step that is executed: the cart at its position on the track, the poles with their angles; + increases and - decreases the speed of the simulation; R runs episodes until one of them succeeds (100000 steps) or 100000 episodes are over and reports the steps of every episode and of the longest one, also if it is pressed during a run, which goes on undisturbed afterwards; Escape ends the program; no history is undefined.", "quantifier": "all histories of keys and steps, all actions of the agent, both environments, with and without velocities, all rounding modes", "why_tests_cant": "the state of the window depends on the whole history of keys and steps; runs nest without limit", "anchors": ["examples/polebalancing/DoublePoleBalancingVisualization.cpp:20-187", "examples/polebalancing/DoublePoleBalancing.cpp:108-113", "examples/polebalancing/DoublePoleBalancing.cpp:145-179", "examples/polebalancing/DoublePoleBalancing.cpp:247-258", "examples/polebalancing/dpb.cpp:67-71"]}
{"id": "C135", "title": "Reported times are the times that passed", "statement": "After every history of calls of the stopwatch, stop(unit) answers the whole units (seconds, tenths, hundredths, milliseconds, microseconds) that passed since the last start() or the construction; taking the time does not disturb later measurements; getDuration() answers what the last stop measured, and 0 before. This does not depend on the clock exceeding the range of its integer type, on the clock being set back, or on how much time passed. The sums of the benchmarks differ from the time of all runs by less than one unit, and the times that a MulticlassEvaluator writes are the times of the training.", "quantifier": "all histories of calls, all readings of the clock, all widths of unsigned long, all numbers of runs and all histories of an evaluator", "why_tests_cant": "tests cannot wait for overflows or set the clock back; histories are unbounded", "anchors": ["OpenANN/util/Stopwatch.h:6-72", "src/Evaluator.cpp:10-51", "benchmarks/twospirals/twospirals.cpp:248-272", "benchmarks/p300speller/p300.cpp:123-125"]}
{"id": "C136", "title": "The scripts for SARCOS and Iris report what their data say", "statement": "For every data set and every method of training, the SARCOS script prints for each output the mean squared error in the original units divided by the variance of that output, on training and validation data; nothing of the validation file gets into the training or the training errors; other units of measurement of inputs and outputs do not change the report; guesses that ignore the inputs have at least 100 % on the training data. The Iris script divides the data set into disjoint training and validation sets with equally many instances of each class, with the target of each instance 1 for its class and 0 otherwise, and inputs that are normalised without looking at the validation set.", "quantifier": "all data sets, methods of training, units, labels and orders of the instances", "why_tests_cant": "scripts are tested with one data set and one training; the statements compare reports of different data sets", "anchors": ["benchmarks/sarcos/benchmark.py:81-123", "benchmarks/iris/benchmark.py:48-77", "src/Normalization.cpp:11-46", "python/preprocessing.pxi:1-19"]}
{"id": "C137", "title": "A common shift of the output units of a classifier means nothing and is not learned", "statement": "In a network with a linear output layer and setErrorFunction(CE), the same vector added to the weights of all output units and the same number added to their biases changes no prediction, no error and no gradient (if the output layer has no penalties and no maximum norm and the targets of each instance add up to 1). Every training with MBSGD therefore keeps such a shift: from the shifted parameters it gives the shifted parameters, the same answers of step() and the same predictions, for any momentum, gains, batch size and shuffle. Without gains the sum over the output units of the weights from each hidden unit, and the sum of their biases, never change during a training.", "quantifier": "all architectures in front of the output layer, numbers of classes, weights, shifts, data sets, batches, parameters of the optimiser and numbers of steps", "why_tests_cant": "the statement compares two whole trainings for all data and all shifts; conserved sums concern every step of every training", "anchors": ["src/FullyConnected.cpp:18-104", "src/ActivationFunctions.cpp:57-66", "src/Net.cpp:578-642", "src/MBSGD.cpp:76-191"]}
{"id": "C138", "title": "Rectifier units have no scale, and training keeps them in balance", "statement": "If all weights and the bias of a unit of a fully connected rectifier (or linear) layer are multiplied by a positive number, and the weights from this unit to a following fully connected layer are divided by it, then no prediction and (without penalties on the two layers) no error changes, and the gradient gets the inverse factors. Without penalties and maximum norm on these layers the inner product of the incoming weights (with bias) of each such unit and their gradient equals the inner product of the outgoing weights and their gradient; so a training with MBSGD without momentum and gains changes the difference of the squared norms of incoming and outgoing weights exactly by the sum of the squared learning rates times this difference for the evaluated gradients. The training itself depends on the scale: copies with other scales do not stay the same function.", "quantifier": "all architectures in front of and behind the two layers, both error functions, all weights, scales, data sets, batches, learning rate schedules and numbers of epochs", "why_tests_cant": "the statement concerns all weights and all positive factors, and exact identities of gradients over whole trainings; samples can only show it for single networks", "anchors": ["src/FullyConnected.cpp:18-104", "src/ActivationFunctions.cpp:6-110", "src/Net.cpp:578-642", "src/MBSGD.cpp:76-191"]}
{"id": "C139", "title": "Data streams can be passed on by value", "statement": "A data stream may be copied, assigned and returned like a value: a copy has the settings of the original, both can be filled and ended independently, and every optimiser step and every error() of a learner sees the samples that were given to the stream of this learner. So the MNIST program, which configures a temporary stream and copies it, makes exactly one optimiser step per epoch with all images of this epoch, and the error it reports in the end is the one of the images of the last epoch. (False for streams that have got a sample: a copy shares the cache with the original, samples that are added to the copy are never seen by the optimiser, and when both end the cache is deleted twice; a learner whose stream has ended has a training set that does not exist any more.)", "quantifier": "all programs: all sequences of creating, copying, assigning, configuring, filling and ending streams with any learners, optimisers, cache sizes and samples", "why_tests_cant": "whether a copy shares memory shows only when both objects are used or ended, in orders that depend on the program; deleting twice often seems to work", "anchors": ["OpenANN/io/DataStream.h:25-58", "src/DataStream.cpp:12-71", "src/DirectStorageDataSet.cpp:8-34", "src/Learner.cpp:12-37", "benchmarks/mnist/mnist.cpp:83-115"]}
{"id": "C140", "title": "The coordinate system of the inputs does not matter for training", "statement": "If the inputs of a network that begins with a fully connected layer are turned or mirrored, or mapped into a space with more dimensions without changing lengths and angles (for example by features that are always zero, or by measuring one feature twice and dividing by the root of two), and the weights of the first layer are turned in the same way, then predictions and errors are the same and the gradient is the turned gradient, also with weight decay and bounded norms of the weights. So a training with MBSGD without gains takes the same course: after every number of epochs step() has given the same answers, the parameters are the turned parameters and all outputs for turned inputs are the same. A map that stretches the inputs, a penalty for absolute values and gains for single parameters do depend on the coordinates.", "quantifier": "all layers behind the first one, activation functions and error functions, all length-preserving linear maps, weights, data sets, batch sizes, shuffles, schedules of learning rate and momentum, numbers of epochs", "why_tests_cant": "there is a continuum of rotations and the trainings have to agree in every step; a test with rounded numbers can only compare single runs approximately", "anchors": ["src/FullyConnected.cpp:50-104", "src/Net.cpp:494-642", "src/MBSGD.cpp:76-191"]}
{"id": "C141", "title": "Gains grow while the direction is kept and shrink when it is reversed", "statement": "With individual learning rates, the gain of a weight starts with 1, grows by 0.05 whenever two consecutive steps of the weight have the same direction, is multiplied by 0.95 whenever they have opposite directions, and stays between minGain and maxGain. So steps get longer on straight slopes and shorter where training jumps over a minimum, and training with gains converges where training with the same learning rate and without gains converges.", "quantifier": "all problems, weights, gradients, limits of gains, learning rates, momenta, batch sizes and numbers of epochs", "why_tests_cant": "whether gains grow in the right direction shows only in the comparison of consecutive steps, and growing errors are easily blamed on the learning rate; limits of training are not observable", "anchors": ["src/MBSGD.cpp:106-121", "OpenANN/optimization/MBSGD.h:81-97", "benchmarks/cifar10/cifar10.cpp:57"]}
{"id": "C142", "title": "Seeding before construction and before loading gives the network back", "statement": "The recipe in the documentation of Net::load works: if the random number generator is seeded with the same number before a network is constructed and before it is loaded from its file, then all random matrices of extreme and compressed layers are the same, and the loaded network gives for every batch the outputs of the saved one (with the numbers that the texts of its parameters denote), whatever random numbers are drawn in between, by training or anything else, and in whatever process the network is loaded. It needs that nothing is drawn between the seed and the construction and that extreme layers are not initialised again; compressed layers may be initialised again.", "quantifier": "all architectures, seeds, libraries with their generators, histories of training, drawing, seeding and initialising, parameters, batches, number formats and states of both processes", "why_tests_cant": "a test can only compare the predictions of a few networks for a few seeds; the claim is about every history between construction and saving and about every order of layers", "anchors": ["OpenANN/Net.h:295-309", "src/Net.cpp:41-183", "src/Net.cpp:245-426", "src/Net.cpp:507-515", "src/Extreme.cpp:7-28", "src/Compressed.cpp:8-58", "src/CompressionMatrixFactory.cpp:38-89", "OpenANN/util/Random.h:58-120", "src/Random.cpp:7-22"]}
{"id": "C143", "title": "Classifiers without hidden layers learn every separable training set", "statement": "A network without hidden layers with softmax outputs and cross entropy has weights that classify all instances of a training set in 1-of-c encoding correctly (accuracy() is 1, classificationHits() is the number of instances) exactly if hyperplanes can separate the classes. In this case MBSGD with full batches finds such weights from every start: after a number of epochs that is known in advance from the margin of some separating functions and their distance from the initial weights, all instances are classified correctly, and they stay so for every larger number of epochs; error() falls below every positive bound while the weights grow beyond every bound. If the classes cannot be separated, as those of XOR, no training classifies them all correctly.", "quantifier": "all training sets, numbers of inputs, classes and instances, initial weights, orders of the examples, learning rates up to the bound, numbers of epochs", "why_tests_cant": "training sets, weights and learning rates are continuous and the number of epochs is unbounded; a test can only observe that some training has reached a correct classification", "anchors": ["src/Net.cpp:561-610", "src/MBSGD.cpp", "src/Evaluation.cpp:45-53", "src/Evaluation.cpp:78-119", "src/ErrorFunctions.cpp", "src/FullyConnected.cpp", "src/ActivationFunctions.cpp: softmax"]}
{"id": "C144", "title": "Only the proportions of the training examples matter", "statement": "A training set in which every example occurs m times as often, in any order, is as good as the original: error() is the same, errorGradient() for the whole set has the same value and gradient, and training with MBSGD with batches that contain the whole training set gives the same parameters after every number of steps, for all shuffles of both runs.", "quantifier": "all architectures whose layers work row by row, parameters, training sets, numbers of copies, orders of the copies, shuffles, numbers of steps", "why_tests_cant": "a test can only repeat a few training sets for a few networks; the claim is about every number of copies in every order and every number of steps", "anchors": ["src/Net.cpp:517-536", "src/Net.cpp:569-602", "src/MBSGD.cpp:67-147", "src/FullyConnected.cpp:75-106"]}
{"id": "C145", "title": "Pole balancing succeeds only with balanced poles", "statement": "In the pole balancing environments, with floating point numbers: every episode ends after at most the maximal number of steps, whatever the agent does; actions outside of the action space are limited to it; and an episode is successful only if the cart was on the track and all poles were up in every state of the episode. In particular an agent whose actions are not numbers or infinite is not successful.", "quantifier": "all agents (all sequences of actions, including infinities and NaN), both environments, builds with and without checks, all rounding modes and mathematical libraries", "why_tests_cant": "episodes have up to 100000 steps and agents are programs; broken actions only occur if a policy overflows", "anchors": ["examples/polebalancing/SinglePoleBalancing.cpp:130-228", "examples/polebalancing/DoublePoleBalancing.cpp:145-258", "benchmarks/polebalancing/polebalancing.cpp:152-162", "OpenANN/util/EigenWrapper.h:49-56"]}
{"id": "C146", "title": "A broken network is recognised by its measures", "statement": "Every measure of a learner that depends on a prediction which is not a number says so: if one coefficient of one prediction is NaN, then the sum of squared errors, the mean squared error, its root and the cross entropy are NaN, and neither the accuracy, the weighted accuracy, the confusion matrix nor the number of classification hits counts that prediction as one of a class. For predictions that are numbers the accuracy is the correctly rounded share of the instances whose class is predicted.", "quantifier": "all learners (all functions, including those that predict infinities and NaN), data sets, positions of the NaN, rounding modes and orders of summation", "why_tests_cant": "NaN appears only after a training that diverged; a test would have to produce it in every position of every prediction and for every order in which Eigen adds", "anchors": ["src/Evaluation.cpp:15-53", "src/Evaluation.cpp:78-119", "src/Evaluator.cpp:25-51", "OpenANN/ErrorFunctions.h:17-22"]}
{"id": "C147", "title": "A training that diverged is not a result", "statement": "In mini-batch stochastic gradient descent with floating point numbers: if the gradient of a mini-batch contains NaN or an infinity, or if parameters or momentum overflow, then the training does not end like one that converged; in particular, after optimize() has returned, all parameters are numbers.", "quantifier": "all problems (all gradients that any problem may answer, including infinities and NaN), optimiser settings, numbers of mini-batches and iterations, builds with and without checks, rounding modes", "why_tests_cant": "overflows happen only in long trainings with large learning rates; a test sees a few trainings, the claim is about every gradient at every time", "anchors": ["src/MBSGD.cpp:58-153", "OpenANN/util/EigenWrapper.h:49-56", "OpenANN/util/AssertionMacros.h:53-80"]}
