{
 "claims": [
  {
   "property": "C01",
   "status": "proved",
   "theorems": [
    "Verif.Data.split_partition",
    "Verif.Data.split_rejects"
   ],
   "note": "for every data set, fold count and shuffle"
  },
  {
   "property": "C02",
   "status": "proved",
   "theorems": [
    "Verif.Data.splitRatio_partition",
    "Verif.Data.splitRatio_rejects"
   ],
   "note": "ratio over any ordered field with floor"
  },
  {
   "property": "C03",
   "status": "proved",
   "theorems": [
    "Verif.Data.merge_shows",
    "Verif.Data.merge_rejects_empty",
    "Verif.Data.merge_rejects_foreign"
   ],
   "note": ""
  },
  {
   "property": "C04",
   "status": "proved",
   "theorems": [
    "Verif.Data.crossValidation_honest"
   ],
   "note": ""
  },
  {
   "property": "C05",
   "status": "partial",
   "theorems": [
    "Verif.Data.crossValidation_value_partial",
    "Verif.Data.crossValidation_mean_fails",
    "Verif.Data.crossValidation_ub"
   ],
   "note": "the code uses integer division, so the mean accuracy claim is false; see DESIGN section 5"
  },
  {
   "property": "C06",
   "status": "proved",
   "theorems": [
    "Verif.Data.views_stay_inside"
   ],
   "note": "all histories of view operations over in-memory data sets"
  },
  {
   "property": "C07",
   "status": "partial",
   "theorems": [
    "Verif.Data.sample_without_replacement_partial",
    "Verif.Data.sample_with_replacement_ub",
    "Verif.Data.sample_too_many_ub"
   ],
   "note": "holds without replacement for fractions in [0,1]; with replacement the code has undefined behaviour (proved)"
  },
  {
   "property": "C08",
   "status": "partial",
   "theorems": [
    "Verif.Data.weighted_valid_partial",
    "Verif.Data.weighted_deterministic",
    "Verif.Data.weighted_uniform",
    "Verif.Data.weighted_random_partial",
    "Verif.Data.weighted_random_zero_fails"
   ],
   "note": "deterministic resampling proved completely; random resampling fails exactly when rand() returns 0"
  },
  {
   "property": "C09",
   "status": "proved",
   "theorems": [
    "Verif.DirectStorage.access_history",
    "Verif.DirectStorage.access_rejects",
    "Verif.DirectStorage.create_ok_iff"
   ],
   "note": ""
  },
  {
   "property": "C10",
   "status": "partial",
   "theorems": [
    "Verif.DataStream.stream_steps_partial",
    "Verif.DataStream.stream_cacheSize_ub",
    "Verif.DataStream.stream_late_target_ub",
    "Verif.DataStream.stream_stale_target_fails",
    "Verif.DataStream.stream_exchanged_optimizer_fails"
   ],
   "note": "proved for purely supervised and purely unsupervised streams; mixed streams and exchanged optimisers fail (proved)"
  },
  {
   "property": "C100",
   "status": "partial",
   "theorems": [
    "Verif.Fp.softmax_single",
    "Verif.Fp.softmax_single_pos",
    "Verif.Fp.softmax_near",
    "Verif.Fp.softmax_far",
    "Verif.Fp.softmax_exists",
    "Verif.Fp.softmax_batch_fails",
    "Verif.Fp.crossEntropy_finite",
    "Verif.Fp.crossEntropy_nan",
    "Verif.Fp.meanSquaredError_nan",
    "Verif.Fp.far_instance_destroys_gradient",
    "Verif.Fp.logistic_unit",
    "Verif.Fp.logisticDerivative_unit",
    "Verif.Fp.meanSquaredError_exact"
   ],
   "note": "IEEE arithmetic with numbers, infinities and NaN; rounding and the library functions are a parameter with few laws (structure Fpu; gridFpu is an instance), sums are evaluated in an arbitrary order. Proved for a single instance and for every instance of a batch with an activation within 744 of the maximum of the batch. False of the code for other instances: softmax subtracts the maximum of the whole batch, so that an instance that lies more than 746 below it becomes 0/0 = NaN (softmax_far), although it is predicted properly alone (softmax_batch_fails); then the error and all derivatives of the output layer are NaN (far_instance_destroys_gradient)."
  },
  {
   "property": "C101",
   "status": "partial",
   "theorems": [
    "Verif.Fp.generate_unit",
    "Verif.Fp.sampleNormal_finite",
    "Verif.Fp.normalWeight_finite",
    "Verif.Fp.sampleNormal_zero_fails",
    "Verif.Fp.normalWeight_zero_fails"
   ],
   "note": "Proved if the first call of rand() does not return 0. False of the code if it does: the logarithm of zero makes the random number infinite (sampleNormal_zero_fails), and the weight infinite, or NaN if the standard deviation is 0 (normalWeight_zero_fails)."
  },
  {
   "property": "C102",
   "status": "partial",
   "theorems": [
    "Verif.Fp.withL1_finite",
    "Verif.Fp.withL1_zero_fails"
   ],
   "note": "Proved for weights that are not zero. False of the code for a weight that is zero: W / |W| is 0/0, so that the derivative is NaN whatever the penalty is (withL1_zero_fails)."
  },
  {
   "property": "C103",
   "status": "partial",
   "theorems": [
    "Verif.FANN.cut_data",
    "Verif.FANN.cutNumbers_split",
    "Verif.FANN.cutNumbers_complete",
    "Verif.FANN.save_text",
    "Verif.FANN.fieldsFrom_numbers",
    "Verif.FANN.cut_header_ub",
    "Verif.FANN.cut_outputs_fails",
    "Verif.LibSVM.cut_cases",
    "Verif.LibSVM.cut_in_label",
    "Verif.LibSVM.cut_behind_feature",
    "Verif.LibSVM.cut_in_index",
    "Verif.LibSVM.cut_in_value",
    "Verif.LibSVM.cut_libsvm",
    "Verif.LibSVM.cut_changes_targets_fails"
   ],
   "note": "False of the code; what does hold is stated for every position. FANN: behind the header every file is accepted with the full number of instances and full shapes; complete numbers are returned, the broken one is returned with another value, all others are indeterminate (cut_data, cutNumbers_split). Before the third header number uninitialised sizes are used (cut_header_ub); within it the number of outputs is wrong and no value is read (cut_outputs_fails). LibSVM: every incomplete file is read exactly like some complete file that consists of its complete lines and at most one altered line (cut_libsvm, cut_cases), e.g. the digits of a broken index become a value (cut_in_index); fewer classes change the target coding (cut_changes_targets_fails)."
  },
  {
   "property": "C104",
   "status": "partial",
   "theorems": [
    "Verif.Unsup.cost_nonneg_partial",
    "Verif.Unsup.cost_zero_iff_partial",
    "Verif.Unsup.kl_nonneg",
    "Verif.Unsup.kl_eq_zero_iff",
    "Verif.Unsup.kl_lt_below",
    "Verif.Unsup.kl_lt_above",
    "Verif.Unsup.logistic_mean",
    "Verif.Fp.dead_unit_cost_fails",
    "Verif.Fp.dead_unit_gradient_fails",
    "Verif.Fp.saturated_unit_cost_fails",
    "Verif.Fp.saturated_unit_gradient_fails",
    "Verif.Fp.negative_mean_fails"
   ],
   "note": "Proved for mean activations between 0 and 1, which logistic units have if no activation exceeds the limits of +-45 (logistic_mean). False of the code otherwise: a logistic unit whose activations are all below -45 has mean activation 0, so that the error is infinite or NaN (dead_unit_cost_fails) and the derivatives of all its parameters are NaN (dead_unit_gradient_fails), for every rounding mode; the same for a unit whose activations are all above 45 (saturated_unit_cost_fails, saturated_unit_gradient_fails); a negative mean activation (TANH) makes the error NaN (negative_mean_fails)."
  },
  {
   "property": "C105",
   "status": "partial",
   "theorems": [
    "Verif.Pretrain.frozen_kept",
    "Verif.Pretrain.rbm_kept_by_initialize",
    "Verif.Pretrain.before_output_layer",
    "Verif.Pretrain.initialized_consistent",
    "Verif.Pretrain.sae_initialize_fails",
    "Verif.Pretrain.sae_initialize_random",
    "Verif.Pretrain.training_forgets",
    "Verif.Pretrain.setParameters_forgets",
    "Verif.Pretrain.mbsgd_forgets",
    "Verif.Pretrain.own_stale",
    "Verif.Pretrain.saved_parameters_fails"
   ],
   "note": "Holds for an RBM without backpropagation under every history (frozen_kept), for an RBM when the network is initialised afterwards (rbm_kept_by_initialize), and if the layer was trained before the output layer was added (before_output_layer). False of the code otherwise: an autoencoder is drawn anew by initialize (sae_initialize_fails); without initialize the parameters of the network are not updated, so that every optimiser that sets parameters before it evaluates them behaves as if the layer had never been trained (training_forgets), MBSGD adds the gradient at the learned weights to the old parameters (mbsgd_forgets), save writes the old parameters (saved_parameters_fails), and training the layer again forgets fine-tuning (own_stale)."
  },
  {
   "property": "C106",
   "status": "partial",
   "theorems": [
    "Verif.FilterNet.set_determined",
    "Verif.FilterNet.answers_determined",
    "Verif.FilterNet.load_determined",
    "Verif.FilterNet.first_answer",
    "Verif.FilterNet.new_network_ub",
    "Verif.FilterNet.initialize_unseen",
    "Verif.FilterNet.initialize_fails",
    "Verif.FilterNet.load_used_fails",
    "Verif.FilterNet.matrix_first_row",
    "Verif.FilterNet.batch_gradient_ub",
    "Verif.FilterNet.gradient_gamma_zero",
    "Verif.FilterNet.error_twice_fails"
   ],
   "note": "Proved from the first setParameters on: all answers after setParameters are a function of the parameters and the later calls (answers_determined), and a loaded network equals the saved one if that has seen no input since (load_determined); the first prediction after setParameters ignores the filter (first_answer). False of the code otherwise: every prediction, error or gradient of a network whose parameters were never set reads indeterminate coefficients (new_network_ub); initialize reaches neither the coefficients nor the memory of the filter (initialize_unseen, initialize_fails); the saved network lacks the memory of a used one (load_used_fails); all rows of a batch but the first are ignored (matrix_first_row), gradients of more than one instance are undefined (batch_gradient_ub), the derivatives of the filter are always reported as zero (gradient_gamma_zero), and error() called twice gives two numbers (error_twice_fails)."
  },
  {
   "property": "C107",
   "status": "partial",
   "theorems": [
    "Verif.TrainingData.live_current",
    "Verif.TrainingData.net_seen",
    "Verif.TrainingData.net_current_partial",
    "Verif.TrainingData.net_grown_fails",
    "Verif.TrainingData.net_shrunk_fails",
    "Verif.TrainingData.net_tells",
    "Verif.TrainingData.others_silent_fails",
    "Verif.TrainingData.sae_snapshot",
    "Verif.TrainingData.sae_current_partial",
    "Verif.TrainingData.sae_change_fails",
    "Verif.TrainingData.sae_matrices_fails",
    "Verif.TrainingData.sae_matrices_ub",
    "Verif.TrainingData.sae_propagate_fails",
    "Verif.TrainingData.stream_prefix",
    "Verif.TrainingData.stream_sae_ub",
    "Verif.TrainingData.net_without_set"
   ],
   "note": "Proved without restriction for RBMs and intrinsic plasticity (live_current), for networks as long as the size of the training set stays the same (net_current_partial), and for sparse autoencoders as long as the data set does not change and the autoencoder is not used as a layer (sae_current_partial). False of the code otherwise: a network remembers the number of instances, so that it ignores new ones (net_grown_fails) and aborts when there are fewer (net_shrunk_fails); an autoencoder works with a copy (sae_change_fails), ignores matrices (sae_matrices_fails, sae_matrices_ub), takes every propagated batch for its training set (sae_propagate_fails) and in a data stream copies rows that were never written (stream_sae_ub); only networks tell the data set that an iteration is finished (others_silent_fails)."
  },
  {
   "property": "C108",
   "status": "partial",
   "theorems": [
    "Verif.PyObj.core_safe",
    "Verif.PyObj.held_safe",
    "Verif.PyObj.end_safe",
    "Verif.PyObj.stream_dropped_ub",
    "Verif.PyObj.wrong_operand_throws",
    "Verif.PyObj.stream_learner_ub",
    "Verif.PyObj.stream_optimizer_ub",
    "Verif.PyObj.stream_cache_ub",
    "Verif.PyObj.stream_crossValidation_ub",
    "Verif.PyObj.stream_optimize_ub",
    "Verif.PyObj.reconstructProb_ub",
    "Verif.PyObj.emptyDataSet_ub",
    "Verif.PyObj.layer_ub",
    "Verif.PyObj.addTwice_ub",
    "Verif.PyObj.sigmaPi_ub",
    "Verif.PyObj.exceptions_fails"
   ],
   "note": "Proved for all programs that create, optimise, evaluate, cross-validate and use learners with data sets, with objects given up at any time (core_safe: no undefined behaviour and the interpreter never ends); for all programs with streams that keep their objects and do not cross-validate (held_safe); for the end of all programs that did not add a layer twice (end_safe). False of the code otherwise: streams, layers and RBMs do not keep alive what they refer to (stream_dropped_ub, stream_learner_ub, stream_optimizer_ub, stream_cache_ub, stream_optimize_ub, layer_ub, reconstructProb_ub), cross-validation leaves a pointer to a deleted view (stream_crossValidation_ub), layers can be deleted twice (addTwice_ub), DataSet() and SigmaPiLayer read through invalid pointers (emptyDataSet_ub, sigmaPi_ub), and mistakes end the interpreter instead of raising an exception (exceptions_fails)."
  },
  {
   "property": "C109",
   "status": "partial",
   "theorems": [
    "Verif.PyArr.matrix_exact",
    "Verif.PyArr.vector_exact",
    "Verif.PyArr.matrix_back",
    "Verif.PyArr.vector_back",
    "Verif.PyArr.matrix_roundtrip",
    "Verif.PyArr.dataSet_exact",
    "Verif.PyArr.predict_exact",
    "Verif.PyArr.predict_vector",
    "Verif.PyArr.predict_scalar",
    "Verif.PyArr.shape_throws",
    "Verif.PyArr.shape_ignored_fails",
    "Verif.PyArr.entry_outcome",
    "Verif.PyArr.none_ub",
    "Verif.PyArr.large_ub",
    "Verif.PyArr.vector_cut_fails",
    "Verif.PyArr.vector_large_ub",
    "Verif.PyArr.criteria_exact",
    "Verif.PyArr.vector_shape_throws",
    "Verif.PyArr.vector_shape_ub"
   ],
   "note": "Proved for all matrices of up to 2^31 numbers and all vectors with less than 2^31 (matrix_exact, vector_exact, matrix_back, vector_back, matrix_roundtrip, dataSet_exact, predict_exact, predict_vector) and for all dictionaries (criteria_exact); with Cython 3 wrong arrays are exceptions (shape_throws, entry_outcome). False of the code otherwise: the conversions are C functions without an exception value, so that up to Cython 2 a wrong array is ignored - the data set is empty or has no targets - or a null pointer is followed (shape_ignored_fails, entry_outcome); None is followed like an array (none_ub); larger matrices overflow an int (large_ub), and longer vectors have a negative length or are cut (vector_large_ub, vector_cut_fails)."
  },
  {
   "property": "C11",
   "status": "proved",
   "theorems": [
    "Verif.Learner.learner_ownership"
   ],
   "note": ""
  },
  {
   "property": "C110",
   "status": "partial",
   "theorems": [
    "Verif.SigmaPiNet.network_exact",
    "Verif.SigmaPiNet.network_drawn",
    "Verif.SigmaPiNet.late_ub",
    "Verif.SigmaPiNet.late_unseen_fails",
    "Verif.SigmaPiNet.late_moved_ub"
   ],
   "note": "Proved for all layers that are complete when they are added to the network and all histories afterwards (network_exact, network_drawn). False of the code for nodes that are added later: every prediction writes beyond the activations (late_ub), the new weights are not parameters (late_unseen_fails), and if the vector of the weights had to be moved the parameters can neither be set nor initialised (late_moved_ub)."
  },
  {
   "property": "C111",
   "status": "partial",
   "theorems": [
    "Verif.Release.program_same",
    "Verif.Release.access_same",
    "Verif.Release.create_same",
    "Verif.Release.random_same",
    "Verif.Release.save_same",
    "Verif.Release.idxLoad_same",
    "Verif.Release.kmeans_same",
    "Verif.Release.transform_same",
    "Verif.Release.training_same",
    "Verif.Release.network_same",
    "Verif.Release.log_same",
    "Verif.Release.view_throws",
    "Verif.Release.conv_only",
    "Verif.Release.pool_redundant",
    "Verif.Release.splitRatio_wrong",
    "Verif.Release.split_one",
    "Verif.Release.split_wrong",
    "Verif.Release.merge_nothing",
    "Verif.Release.merge_other_fails",
    "Verif.Release.direct_ub",
    "Verif.Release.generateInt_negative",
    "Verif.Release.generateIndices_fails",
    "Verif.Release.fannSave_wrong",
    "Verif.Release.svmSave_wrong",
    "Verif.Release.idx_ignored",
    "Verif.Release.kmeans_smaller",
    "Verif.Release.kmeans_ub",
    "Verif.Release.transform_ub",
    "Verif.Release.whiten_ub",
    "Verif.Release.pca_unfitted",
    "Verif.Release.getLayer_ub",
    "Verif.Release.addSample_ub",
    "Verif.Release.sgd_none_ub",
    "Verif.Release.sgd_empty",
    "Verif.Release.conv_negative",
    "Verif.Release.coordinates_outside",
    "Verif.Release.log_disabled",
    "Verif.Release.logger_lost"
   ],
   "note": "Proved for all arguments: whenever the checked build does not end with a failed check the default build does the same (the theorems _same; for all programs with data sets program_same); wrong indices of views and negative numbers of groups are reported by the default build (view_throws, split_wrong), and the checks of the pooling layers never fail for positive sizes (pool_redundant). False of the code for the other mistakes. Undefined behaviour: direct_ub, split_wrong (no groups), splitRatio_wrong, fannSave_wrong and svmSave_wrong (missing targets), kmeans_ub, transform_ub, whiten_ub, getLayer_ub, addSample_ub, sgd_none_ub. Accepted without a report: merge_other_fails (the merged view has wrong instances), merge_nothing, split_one, generateInt_negative, generateIndices_fails, fannSave_wrong and svmSave_wrong (targets are dropped), idx_ignored (files of any kind are read), kmeans_smaller, sgd_empty (an update without instances), conv_negative (a layer with a negative number of rows and columns), coordinates_outside, log_disabled, logger_lost (all messages are lost)."
  },
  {
   "property": "C112",
   "status": "partial",
   "theorems": [
    "Verif.Thrown.step_none",
    "Verif.Thrown.gradients_used_once",
    "Verif.Thrown.result_last",
    "Verif.Thrown.object_held",
    "Verif.Thrown.limit_exact",
    "Verif.Thrown.set_throws_fails",
    "Verif.Thrown.finish_throws_fails",
    "Verif.Thrown.other_object_ub",
    "Verif.Thrown.other_object_fails",
    "Verif.Thrown.optimum_kept",
    "Verif.Thrown.object_moved",
    "Verif.Thrown.retry_unanswered_fails",
    "Verif.Thrown.retry_result_fails",
    "Verif.Thrown.lma_restarts",
    "Verif.Thrown.optimize_calm",
    "Verif.Thrown.ask_again",
    "Verif.Thrown.optimize_live",
    "Verif.Thrown.retry_cases",
    "Verif.Thrown.retry_defined",
    "Verif.Thrown.retry_nothing_fails",
    "Verif.Thrown.retry_ub",
    "Verif.Thrown.best_lost_fails",
    "Verif.Thrown.early_exception"
   ],
   "note": "Proved for mini-batch SGD: every gradient that was returned is used exactly once in the documented rule, whatever throws (gradients_used_once, result_last, object_held), and evaluations that throw do not change the number of iterations (limit_exact); LMA begins anew if the exception came before the end of the first iteration (lma_restarts); the evolution strategy never accesses anything undefined during the call that throws, and a program that asks and tells gets the same individual again (optimize_live, ask_again, retry_defined). False of the code: if setParameters throws in SGD the schedules are skipped, if finishedIteration throws the iteration limit is exceeded, and after an exception another object is taken for the old one (set_throws_fails, finish_throws_fails, other_object_ub, other_object_fails); L-BFGS and CG go on with the library without answering its request, which changes the result (retry_unanswered_fails, retry_result_fails), and the object keeps the parameters of the failed evaluation (object_moved) while result() is that of the run before (optimum_kept); the evolution strategy does nothing any more if no restarts are left, and otherwise reads a freed population if the exception came in the middle of a generation (retry_nothing_fails, retry_ub, retry_cases); a good individual can be lost (best_lost_fails)."
  },
  {
   "property": "C113",
   "status": "partial",
   "theorems": [
    "Verif.Criteria.sgd_last",
    "Verif.Criteria.alglib_idle",
    "Verif.Criteria.alglib_running_fails",
    "Verif.Criteria.es_history",
    "Verif.Criteria.es_last_iff",
    "Verif.Criteria.es_set",
    "Verif.Criteria.terminated_effective",
    "Verif.Criteria.es_nothing_fails",
    "Verif.Criteria.es_stale_fails",
    "Verif.Criteria.es_default"
   ],
   "note": "Proved for mini-batch SGD for all histories of steps and calls of setStopCriteria (sgd_last), for L-BFGS, CG and LMA without a run in progress (alglib_idle), and for the evolution strategy exactly when each criterion that was ever set is also set by the last call (es_last_iff, from the state after every history es_history, es_set). False of the code otherwise: the evolution strategy never resets a criterion, so that old ones stay in the library (es_stale_fails), and criteria without a limit of evaluations after criteria with one make every start end before the first evaluation, with an empty result (es_nothing_fails); the wrappers of ALGLIB ignore criteria that are set between two steps of a run (alglib_running_fails)."
  },
  {
   "property": "C114",
   "status": "partial",
   "theorems": [
    "Verif.BenchStats.evaluate_counts",
    "Verif.BenchStats.evaluate_correct",
    "Verif.BenchStats.zero_output_fails",
    "Verif.BenchStats.column_partial",
    "Verif.BenchStats.stdDev_fails",
    "Verif.BenchStats.spirals_report",
    "Verif.BenchStats.run_first",
    "Verif.BenchStats.run_success",
    "Verif.BenchStats.run_time",
    "Verif.BenchStats.pole_statistics",
    "Verif.BenchStats.failed_run_ub",
    "Verif.BenchStats.speller_report"
   ],
   "note": "Proved: two spirals - counts, accuracy, mean, minimum, maximum, iterations and time (evaluate_counts, evaluate_correct, column_partial, spirals_report); pole balancing - the first successful episode of each run and all statistics if all runs are successful (run_first, run_success, pole_statistics); P300 speller - the means of every configuration over its own runs (speller_report). False of the code: the standard deviation of two spirals is the square root of the mean absolute deviation (stdDev_fails), a network that always answers zero has an accuracy of 100% (zero_output_fails), and the statistics of pole balancing use the number of episodes of a failed run although it was never assigned (failed_run_ub)."
  },
  {
   "property": "C115",
   "status": "partial",
   "theorems": [
    "Verif.Formatter.formatted_everywhere",
    "Verif.Formatter.formatted_negative",
    "Verif.Formatter.plain_partial",
    "Verif.Formatter.plain_fails",
    "Verif.Formatter.file_fails",
    "Verif.Formatter.settings_fails",
    "Verif.Formatter.message_independent",
    "Verif.Formatter.save_digits",
    "Verif.Formatter.save_fails",
    "Verif.Formatter.sgd_message",
    "Verif.Formatter.pole_printed",
    "Verif.Formatter.pole_time_fails",
    "Verif.Formatter.spirals_printed",
    "Verif.Formatter.speller_printed"
   ],
   "note": "Proved for all histories: everything is written once, in order and to the right stream, and formatted numbers have the digits that were asked for (formatted_everywhere); plain numbers have six significant digits as long as no formatted number was written to the same stream (plain_partial, save_digits); messages of the log do not depend on anything else (message_independent, sgd_message); what the benchmarks print (pole_printed, spirals_printed, speller_printed). False of the code: a formatted number leaves its precision behind in the stream, which changes plain numbers for every precision but 6 (plain_fails), overwrites the settings of the program (settings_fails), and damages the parameters of a network that is saved to the stream afterwards (save_fails); loggers with files also stay in fixed notation (file_fails); pole balancing prints the time with four digits only (pole_time_fails)."
  },
  {
   "property": "C116",
   "status": "partial",
   "theorems": [
    "Verif.NN.robust_partial",
    "Verif.NN.robust_smooth",
    "Verif.NN.decision_kept",
    "Verif.NN.jump_small",
    "Verif.NN.lipschitz_fails",
    "Verif.NN.lrn_fails",
    "Verif.NetSem.loaded_close_partial",
    "Verif.NetSem.loaded_digits_partial"
   ],
   "note": "Proved for every architecture: Lipschitz continuity in parameters (through setParameters, with the max-norm constraint) and inputs together, uniformly over bounded sets, without logistic units exactly (robust_smooth), in general up to the jump of the logistic function at its cut-off (robust_partial), which is less than 1e-19 (jump_small); clear decisions are kept (decision_kept); a network that is saved with d significant digits and loaded again predicts the same up to L (10^-d + jump) with L independent of d and of the parameters (loaded_close_partial, loaded_digits_partial; hyperparameters with exact texts). False of the code: strict Lipschitz continuity of logistic units (lipschitz_fails) and any bound for local response normalisation with k = 0 (lrn_fails)."
  },
  {
   "property": "C117",
   "status": "partial",
   "theorems": [
    "Verif.GradCheck.central_tendsto",
    "Verif.GradCheck.central_onesided",
    "Verif.GradCheck.central_accuracy",
    "Verif.GradCheck.central_quadratic",
    "Verif.GradCheck.parameterGradient_eq",
    "Verif.GradCheck.check_accepts",
    "Verif.GradCheck.check_rejects",
    "Verif.GradCheck.inputGradient_eq",
    "Verif.GradCheck.input_tendsto",
    "Verif.GradCheck.shifted_data_fails",
    "Verif.GradCheck.dangling_data_ub",
    "Verif.GradCheck.net_check_partial",
    "Verif.GradCheck.adapter_gradient",
    "Verif.GradCheck.adapter_gradientOf",
    "Verif.GradCheck.adapter_check_partial",
    "Verif.GradCheck.penalty_check_fails",
    "Verif.GradCheck.adapter_input_check",
    "Verif.GradCheck.net_dangling_ub",
    "Verif.GradCheck.kink_check_fails",
    "Verif.GradCheck.adapter_shifted_fails",
    "Verif.GradCheck.adapter_single_fails",
    "Verif.GradCheck.adapter_set_constraint",
    "Verif.GradCheck.constraint_check_fails",
    "Verif.GradCheck.short_parameters_ub"
   ],
   "note": "Proved: what both functions compute for every objective (parameterGradient_eq, inputGradient_eq), accuracy M*eps^2/6 (central_accuracy, central_quadratic), limits (central_tendsto, input_tendsto), right gradients pass and wrong ones fail for all small step widths (check_accepts, check_rejects); networks of layers that treat rows alike with the mean squared error, any penalties and any list of examples pass and keep their state (net_check_partial); error() and gradient(), error(n) and gradient(n) of the LayerAdapter belong together for every kind of layer (adapter_gradient, adapter_gradientOf), its range version for one example or without penalties (adapter_check_partial), gradients with respect to inputs always (adapter_input_check). False of the code: with a penalty and two or more examples the adapter counts the penalty once per example in the error but once in the gradient, so that right layers fail (penalty_check_fails); at kinks the estimate is the mean of both slopes (central_onesided, kink_check_fails); on the boundary of a max-norm constraint the right gradient is refused (adapter_set_constraint, constraint_check_fails); an adapter with several examples refuses single ones (adapter_single_fails) and a learner without parameters cannot be checked (short_parameters_ub); after inputGradient an adapter has shifted data (shifted_data_fails, adapter_shifted_fails) and a network has pointers to destroyed matrices (net_dangling_ub)."
  },
  {
   "property": "C118",
   "status": "partial",
   "theorems": [
    "Verif.Viewers.netRun_range",
    "Verif.Viewers.netRun_reaches",
    "Verif.Viewers.net_frame",
    "Verif.Viewers.brightness_shade",
    "Verif.Viewers.brightness_constant",
    "Verif.Viewers.layers_apart",
    "Verif.Viewers.layer_width",
    "Verif.Viewers.net_empty_fails",
    "Verif.Viewers.shownAt_square",
    "Verif.Viewers.image_shown_iff",
    "Verif.Viewers.image_shown_two_iff",
    "Verif.Viewers.dataRun_range",
    "Verif.Viewers.dataRun_pages",
    "Verif.Viewers.dataRun_reaches",
    "Verif.Viewers.data_frame",
    "Verif.Viewers.few_images_fails",
    "Verif.Viewers.images_apart",
    "Verif.Viewers.images_overlap_fails"
   ],
   "note": "Proved for all sequences of keys: the instance exists (netRun_range, dataRun_range) and every instance can be reached (netRun_reaches, dataRun_reaches); what the windows show (net_frame, data_frame); brightness (brightness_shade); no unit covers another one, within and between layers (layers_apart), and the width of the layers (layer_width). False of the code: visualize.cpp takes the rows of an image for its columns, so that images are shown as images if and only if they are square (image_shown_iff); layers with equal outputs have no brightness (brightness_constant); without instances and, in viewdata.cpp, with less than 25 images every paint fails whatever keys are pressed (net_empty_fails, few_images_fails); images whose sides differ by more than one pixel cover each other (images_apart, images_overlap_fails)."
  },
  {
   "property": "C119",
   "status": "partial",
   "theorems": [
    "Verif.Viewers.offset_range",
    "Verif.Viewers.offset_reaches",
    "Verif.Viewers.rbm_filters",
    "Verif.Viewers.rbm_reaches",
    "Verif.Viewers.rbm_few_units_fails",
    "Verif.Viewers.fantasy_keys_dead",
    "Verif.Viewers.rbm_dreams",
    "Verif.Viewers.rbm_images",
    "Verif.Viewers.sae_filters",
    "Verif.Viewers.sae_quarter_fails",
    "Verif.Viewers.sae_reaches",
    "Verif.Viewers.sae_images",
    "Verif.Viewers.sae_instance_keys_dead",
    "Verif.Viewers.sae_right_fails",
    "Verif.Viewers.sae_right_ub",
    "Verif.Viewers.pictures_apart"
   ],
   "note": "Proved for all sequences of keys: the pictures of rbm.cpp are weights of existing hidden units and each of them can be reached (rbm_filters, rbm_reaches); picture k of the chain is what reconstructProb(instance, offset + k) gives with the same random numbers (rbm_dreams, rbm_images); autoencoder.cpp shows existing weights and images if there are at least twice as many hidden units as pictures (sae_filters, sae_images); pictures do not cover each other (pictures_apart). False of the code: only the first quarter of the hidden units of the auto-encoder and the first H/2 images can ever be shown (sae_quarter_fails, sae_reaches); Up and Down do nothing there (sae_instance_keys_dead) and Plus and Minus do nothing in rbm.cpp (fantasy_keys_dead); with few hidden units Right leads to images and weights that do not exist (sae_right_fails, sae_right_ub, rbm_few_units_fails)."
  },
  {
   "property": "C12",
   "status": "proved",
   "theorems": [
    "Verif.FANN.fann_round_trip",
    "Verif.FANN.fann_round_trip_exact",
    "Verif.FANN.fann_save_rejects",
    "Verif.FANN.fann_missing_file_ub",
    "Verif.FANN.fann_empty_file_ub"
   ],
   "note": "Any number printer/parser pair that satisfies the stated laws; a missing or empty file is undefined behaviour (also proved)."
  },
  {
   "property": "C120",
   "status": "proved",
   "theorems": [
    "Verif.Expressive.memorises",
    "Verif.Expressive.classifies",
    "Verif.Expressive.approximates",
    "Verif.Expressive.approximated",
    "Verif.Expressive.act_rich",
    "Verif.Expressive.act_interpolates",
    "Verif.Expressive.realize",
    "Verif.Expressive.linear_sums",
    "Verif.Expressive.linear_xor_fails",
    "Verif.Expressive.single_layer_xor_fails",
    "Verif.Expressive.one_unit_xor_fails",
    "Verif.Expressive.two_units_xor"
   ],
   "note": "Proved: training sets for any number of hidden layers (memorises, classifies), functions (approximates; over the analysis in Props/Ridge.lean: exponentials of linear functions by Stone-Weierstrass, steps by sums of the activation function), every content of the weights can be set (realize), and what cannot be represented (linear_sums, linear_xor_fails, single_layer_xor_fails, one_unit_xor_fails) next to two_units_xor. Real arithmetic; nothing is said about whether training finds the parameters."
  },
  {
   "property": "C121",
   "status": "partial",
   "theorems": [
    "Verif.White.kept_le",
    "Verif.White.kept_columns",
    "Verif.White.evr_optimal",
    "Verif.White.pca_keeps_partial",
    "Verif.White.pca_loses_fails",
    "Verif.White.pca_distances",
    "Verif.White.pca_shift",
    "Verif.White.zca_closest"
   ],
   "note": "Proved for every correct singular value decomposition: no projection keeps more than the first k singular directions (kept_le) and these keep exactly that (kept_columns), so the sum of the first k explained variance ratios is the best possible part (evr_optimal); distances (pca_distances), shifts (pca_shift) and ZCA (zca_closest). False of the code: transform projects on rows instead of columns of V; for every decomposition one component of a data set with three features maps all instances to 0 while the ratio says 4/5 (pca_loses_fails). With symmetric V transform is optimal (pca_keeps_partial)."
  },
  {
   "property": "C122",
   "status": "partial",
   "theorems": [
    "Verif.NN.penalised_error",
    "Verif.NN.penalNet_predict",
    "Verif.NN.stronger_l2",
    "Verif.NN.stronger_l1",
    "Verif.NN.weights_bounded",
    "Verif.NN.best_weights_small",
    "Verif.NN.l1_zero",
    "Verif.NN.l1_zero_gradient",
    "Verif.NN.ridge_error",
    "Verif.NN.ridge_unique",
    "Verif.NN.ridge_exists",
    "Verif.NN.ridge_training_partial",
    "Verif.NN.ridge_training_fails",
    "Verif.NN.diagonal_best",
    "Verif.NN.diagonal_sparse"
   ],
   "note": "Proved for every architecture: what penalties add to error() (penalised_error) and that predictions do not depend on them (penalNet_predict); stronger penalties (stronger_l2, stronger_l1), bounds (weights_bounded, best_weights_small), zero weights (l1_zero, l1_zero_gradient); linear networks have exactly one best parameter vector (ridge_exists, ridge_unique). False of the code: errorGradient divides penalties by the number of examples while error() does not, so training approaches the solution for l2Penalty / N (ridge_training_partial) and stays away from the smallest error() however long it lasts (ridge_training_fails). Real arithmetic."
  },
  {
   "property": "C123",
   "status": "partial",
   "theorems": [
    "Verif.Opt.expected_gradient",
    "Verif.Opt.unbiased_gradient_partial",
    "Verif.Opt.unbiased_gradient_fails",
    "Verif.Opt.expected_error",
    "Verif.Opt.gradient_variance",
    "Verif.Opt.larger_batches",
    "Verif.Opt.gradient_reliable",
    "Verif.Opt.expected_update"
   ],
   "note": "Proved for every network with row-wise layers: the expected gradient of every mini-batch is the gradient of the whole training set plus (1 / B - 1 / N) times the gradient of the penalties (expected_gradient), hence unbiased without penalties (unbiased_gradient_partial); expected error, variance, larger batches, Chebyshev bound, first update of an epoch. False with penalties: they are divided by the size of the batch, so that smaller batches are penalised more (unbiased_gradient_fails). Assumption: all outcomes of std::shuffle are equally likely. Real arithmetic."
  },
  {
   "property": "C124",
   "status": "partial",
   "theorems": [
    "Verif.SpiralsViewer.finishIteration_paints",
    "Verif.SpiralsViewer.session_shows",
    "Verif.SpiralsViewer.surface_covered",
    "Verif.SpiralsViewer.surface_border",
    "Verif.SpiralsViewer.brightness_spec",
    "Verif.SpiralsViewer.points_spec",
    "Verif.SpiralsViewer.whole_surface_fails"
   ],
   "note": "Proved for every session: one picture per iteration and key, it shows the network of the last iteration and the parities of the keys (finishIteration_paints, session_shows); squares (surface_covered), brightness, points. False of the code: the grid ends at 0.99, so that nothing is predicted beyond 0.995, while the inputs are scaled to [0, 1]; the first training instance is always outside (whole_surface_fails). OpenGL and Qt are not modelled."
  },
  {
   "property": "C125",
   "status": "proved",
   "theorems": [
    "Verif.NN.bias_gradient",
    "Verif.NN.weight_gradient",
    "Verif.NN.stationary_means",
    "Verif.NN.error_parts",
    "Verif.NN.error_ge_noise",
    "Verif.NN.error_eq_noise",
    "Verif.NN.predictions_near_frequencies",
    "Verif.NN.error_ge_entropy",
    "Verif.NN.error_le_entropy",
    "Verif.NN.regression_calibrated",
    "Verif.NN.classification_calibrated"
   ],
   "note": "Proved for every network with a linear output layer and row-wise layers below it: gradients of the output layer (bias_gradient, weight_gradient, stationary_means); for every network: decomposition of the squared error (error_parts, error_ge_noise, error_eq_noise), bounds for the cross entropy including the constant 1e-10 of the code (predictions_near_frequencies, error_ge_entropy, error_le_entropy); training of networks without hidden layers (regression_calibrated, classification_calibrated). Real arithmetic."
  },
  {
   "property": "C126",
   "status": "proved",
   "theorems": [
    "Verif.Opt.steps_still",
    "Verif.Opt.silent_input_grad",
    "Verif.Opt.silent_input",
    "Verif.Opt.silent_unit",
    "Verif.Opt.fitted_grad",
    "Verif.Opt.fitted_stays"
   ],
   "note": "Proved for every run of a fresh optimiser (steps_still): inputs that are 0 (silent_input_grad, silent_input; with a penalty the gradient is exactly that of the penalty), silent rectifiers of the first hidden layer (silent_unit), networks without error and penalties whose layers treat the rows of a batch alike (fitted_grad, fitted_stays). Real arithmetic."
  },
  {
   "property": "C127",
   "status": "proved",
   "theorems": [
    "Verif.NN.frozen_memory",
    "Verif.NN.frozen_predict",
    "Verif.NN.frozen_error",
    "Verif.NN.frozen_problem",
    "Verif.NN.elm_training",
    "Verif.NN.elm_limit",
    "Verif.NN.elm_classification",
    "Verif.NN.independent_fit",
    "Verif.NN.elm_memorises",
    "Verif.NN.random_features_exist"
   ],
   "note": "Proved for every list of layers without parameters that treat the rows of a batch alike (local response normalisation with alpha = 0 and dropout with a fixed mask included) and every architecture behind them: weights of the first layers (frozen_memory), predictions, error, and the whole optimisation problem (frozen_problem: equality of the functions that optimisers call). Extreme learning machines under the conditions on the optimiser of C82 (elm_training, elm_limit, elm_classification), independent features (elm_memorises), existence of such weights (random_features_exist). Real arithmetic."
  },
  {
   "property": "C128",
   "status": "partial",
   "theorems": [
    "Verif.PyMem.step_accounting",
    "Verif.PyMem.run_accounting",
    "Verif.PyMem.tidy_released",
    "Verif.PyMem.arrays_stay",
    "Verif.PyMem.transform_fails",
    "Verif.PyMem.kMeans_fails",
    "Verif.PyMem.init_again_fails",
    "Verif.PyMem.entry_fails",
    "Verif.PyMem.sample_fails",
    "Verif.PyMem.sigmaPi_unused_fails",
    "Verif.PyMem.addLayer_twice_ub",
    "Verif.PyMem.addLayer_freed_ub",
    "Verif.PyMem.shape_ignored_ub"
   ],
   "note": "False of the code (negative theorems with witnesses). Proved instead: exact accounting of what every statement loses and regains and of what is still allocated after any program whose objects are gone (run_accounting), no undefined behaviour for all programs that add no sigma-pi layer twice (with a compiler that ignores exceptions in C functions: and that pass valid arrays), tidy programs get everything back (tidy_released), and lost arrays stay allocated in every continuation (arrays_stay). An object of a C++ class is one block, except for what it allocates with new; checks that end the interpreter are left out."
  },
  {
   "property": "C129",
   "status": "proved",
   "theorems": [
    "Verif.NN.absorbs",
    "Verif.NN.absorbs_iff",
    "Verif.NN.reaches",
    "Verif.NN.reaches_same",
    "Verif.NN.normalization_same",
    "Verif.NN.normalization_errors",
    "Verif.NN.transform_normalised",
    "Verif.NN.projection_absorbed",
    "Verif.NN.whitening_same",
    "Verif.NN.whitening_errors",
    "Verif.NN.pca_projected",
    "Verif.NN.zca_projected",
    "Verif.NN.zca_invertible",
    "Verif.NN.linear_hidden_absorbed",
    "Verif.NN.linear_hidden_same",
    "Verif.NN.narrow_confuses",
    "Verif.NN.bottleneck_fails"
   ],
   "note": "bottleneck_fails is the proved impossibility that the property states, not a failure of the code. Weights with a bound on their norm (MAX_NORM) are excluded by hypothesis (Usual), and errors are compared for layers without penalties, because a penalty measures the weights and not the function."
  },
  {
   "property": "C13",
   "status": "partial",
   "theorems": [
    "Verif.LibSVM.libsvm_round_trip_partial",
    "Verif.LibSVM.libsvm_one_class_ub",
    "Verif.LibSVM.libsvm_one_of_c_ub",
    "Verif.LibSVM.libsvm_one_of_two_fails"
   ],
   "note": "Round trip holds for the label layouts that the reader supports; for one-class files, 1-of-c outputs and two output columns the property is false and the negation is proved."
  },
  {
   "property": "C130",
   "status": "proved",
   "theorems": [
    "Verif.NN.predict_flipped",
    "Verif.NN.errorGradient_flipped",
    "Verif.NN.predictions_flipped",
    "Verif.NN.dead_iff",
    "Verif.NN.dead_silent",
    "Verif.NN.rectifier_flip_fails",
    "Verif.Opt.steps_signed",
    "Verif.Opt.optimize_signed",
    "Verif.Opt.net_signEquivariant",
    "Verif.Opt.training_flipped",
    "Verif.Opt.dead_forever",
    "Verif.Opt.zero_start"
   ],
   "note": "rectifier_flip_fails is the negative statement that the property contains. Dead units are considered without L1 penalties, whose derivative at zero is not a number in the code. As for C86, RBMs without backpropagation are excluded (Visible), and the optimiser is MBSGD."
  },
  {
   "property": "C131",
   "status": "partial",
   "theorems": [
    "Verif.Observe.training_log",
    "Verif.Observe.reports_once",
    "Verif.Observe.split_twice",
    "Verif.Observe.split_fails",
    "Verif.Observe.view_fails",
    "Verif.Observe.weighted_fails",
    "Verif.Observe.other_learner_fails",
    "Verif.Observe.no_targets_fails"
   ],
   "note": "Proved: what each evaluator writes in a training of any length, and that it is right if the evaluator belongs to exactly one of the two data sets. False of the code otherwise: split_fails, view_fails, weighted_fails, other_learner_fails and no_targets_fails are the counterexamples, each for every arrangement of its kind. Overflow of the counter is not modelled."
  },
  {
   "property": "C132",
   "status": "partial",
   "theorems": [
    "Verif.BCI.cache_limit",
    "Verif.BCI.cache_used",
    "Verif.BCI.reset_fails"
   ],
   "note": "Proved for every history of calls without decimate after compress (C121 says what that does) in which nothing is read between a reset of changed settings and the next load, decimate or compress. False of the code otherwise: reset_fails, for every recording and compression matrix whose compressed instances fit. Only the numbers are counted, not the nodes of the map; stale entries after decimate, compress and reset are C121."
  },
  {
   "property": "C133",
   "status": "proved",
   "theorems": [
    "Verif.NN.features_allowed",
    "Verif.NN.classes_allowed",
    "Verif.NN.predict_relabelled",
    "Verif.NN.relabels_exists",
    "Verif.NN.errorGradient_relabelled",
    "Verif.NN.predictions_relabelled",
    "Verif.NN.conv_order_fails",
    "Verif.Opt.steps_renamedTo",
    "Verif.Opt.optimize_renamedTo",
    "Verif.Opt.net_renamedTo",
    "Verif.Opt.training_relabelled",
    "Verif.Opt.symmetric_forever",
    "Verif.Opt.equal_features_forever"
   ],
   "note": "conv_order_fails is the negative statement that the property contains. As for C86, RBMs without backpropagation are excluded (Visible), and the optimiser is MBSGD. Real arithmetic: rounding depends on the order of sums."
  },
  {
   "property": "C134",
   "status": "partial",
   "theorems": [
    "Verif.PoleWindow.exec_defined",
    "Verif.PoleWindow.slower_ub",
    "Verif.PoleWindow.speed_stuck",
    "Verif.PoleWindow.fastest",
    "Verif.PoleWindow.speed_fails",
    "Verif.PoleWindow.shown",
    "Verif.PoleWindow.shown_fails",
    "Verif.PoleWindow.cart_within",
    "Verif.PoleWindow.poles_drawn",
    "Verif.PoleWindow.force_shown",
    "Verif.PoleWindow.run_reports",
    "Verif.PoleWindow.run_ends",
    "Verif.PoleWindow.escape_fails",
    "Verif.PoleWindow.escape_idle",
    "Verif.PoleWindow.outer_untouched"
   ],
   "note": "False of the code: the window shows the normalised state (position / 2.4, angles / 0.62) as if it were the state (shown_fails, cart_within); after enough presses of + the speed cannot be decreased any more (speed_fails); too many presses of - overflow an int (slower_ub); Escape does not end a run (escape_fails). Everything else is proved for all histories of keys and actions."
  },
  {
   "property": "C135",
   "status": "partial",
   "theorems": [
    "Verif.Stopwatch.stop_reports",
    "Verif.Stopwatch.stop_exact",
    "Verif.Stopwatch.set_back_fails",
    "Verif.Stopwatch.long_run_fails",
    "Verif.Stopwatch.getDuration_reports",
    "Verif.Stopwatch.stop_undisturbed",
    "Verif.Stopwatch.spirals_total",
    "Verif.Stopwatch.speller_total",
    "Verif.Stopwatch.short_runs_fail",
    "Verif.Stopwatch.evaluator_times",
    "Verif.Stopwatch.evaluator_training_fails"
   ],
   "note": "Proved whenever less than 2^w microseconds passed and the clock was not set back behind the start (stop_exact: exactly then). False of the code otherwise (set_back_fails; long_run_fails for 32 bits). The sums are off by up to one unit per run (spirals_total, speller_total; short_runs_fail: trainings below a second count as nothing), and an evaluator measures from its construction, not from the beginning of a training (evaluator_training_fails)."
  },
  {
   "property": "C136",
   "status": "partial",
   "theorems": [
    "Verif.Scripts.sarcos_nMSE",
    "Verif.Scripts.sarcos_honest",
    "Verif.Scripts.sarcos_units",
    "Verif.Scripts.sarcos_baseline",
    "Verif.Scripts.sarcos_constant_fails",
    "Verif.Scripts.sarcos_validation_fails",
    "Verif.Scripts.iris_partition",
    "Verif.Scripts.iris_classes",
    "Verif.Scripts.iris_order_fails",
    "Verif.Scripts.iris_oneOfC",
    "Verif.Scripts.iris_sets",
    "Verif.Scripts.iris_inputs",
    "Verif.Scripts.iris_leak_fails"
   ],
   "note": "False of the code: an output that is constant in the training file has no finite number (sarcos_constant_fails); the validation error is divided by the variance of the training outputs (sarcos_validation_fails); Iris splits by position, which is equal for sorted data only (iris_order_fails), and normalises training inputs with the statistics of all instances (iris_leak_fails). sarcos_units needs inputs that are not constant. The rest is proved for all data and all methods of training."
  },
  {
   "property": "C137",
   "status": "proved",
   "theorems": [
    "Verif.NN.predict_shifted",
    "Verif.NN.predictions_shifted",
    "Verif.NN.errorGradient_shifted",
    "Verif.NN.gradient_sum",
    "Verif.NN.positions_exist",
    "Verif.Opt.steps_moved",
    "Verif.Opt.steps_keeps",
    "Verif.Opt.training_shifted",
    "Verif.Opt.sums_conserved"
   ],
   "note": "Proved for all networks that end with a fully connected linear layer and use cross entropy."
  },
  {
   "property": "C138",
   "status": "proved",
   "theorems": [
    "Verif.NN.predict_rescaled",
    "Verif.NN.predictions_rescaled",
    "Verif.NN.errorGradient_rescaled",
    "Verif.NN.gradient_balanced",
    "Verif.NN.unit_positions_exist",
    "Verif.Opt.plain_descent",
    "Verif.Opt.training_balance",
    "Verif.Opt.training_scale_matters"
   ],
   "note": "Proved for all networks that contain a fully connected rectifier or linear layer followed by a fully connected layer with any activation function."
  },
  {
   "property": "C139",
   "status": "partial",
   "theorems": [
    "Verif.StreamObjects.streams_are_values",
    "Verif.StreamObjects.benchmark_epochs",
    "Verif.StreamObjects.late_copy_ub",
    "Verif.StreamObjects.late_copy_loses",
    "Verif.StreamObjects.outlived_ub"
   ],
   "note": "Proved for all programs that copy and assign streams before their first sample and give each stream its own learner and optimiser; false for later copies and for learners that outlive their stream, proved for all earlier histories. Dimensions of samples and the dropout of the network (which mnist.cpp leaves on when it reports the error) are not part of this model."
  },
  {
   "property": "C14",
   "status": "partial",
   "theorems": [
    "Verif.LibSVM.reader_two_classes_partial",
    "Verif.LibSVM.reader_many_classes_partial",
    "Verif.LibSVM.reader_one_class_ub",
    "Verif.LibSVM.reader_one_class_shifted",
    "Verif.LibSVM.reader_many_classes_ub"
   ],
   "note": "Decoding proved where it is right; false for one class and for label ranges that do not match the number of classes (out-of-bounds writes), proved as negations."
  },
  {
   "property": "C140",
   "status": "proved",
   "theorems": [
    "Verif.NN.isometric_of_orthogonal",
    "Verif.NN.isometric_padding",
    "Verif.NN.isometric_twice",
    "Verif.NN.predict_turned",
    "Verif.NN.predictions_turned",
    "Verif.NN.errorGradient_turned",
    "Verif.NN.norm_turned",
    "Verif.Opt.steps_turned",
    "Verif.Opt.optimize_turned",
    "Verif.Opt.net_turnsTo",
    "Verif.Opt.training_turned",
    "Verif.Opt.stretching_matters",
    "Verif.Opt.l1_matters",
    "Verif.Opt.gains_matter"
   ],
   "note": "Real arithmetic. stretching_matters, l1_matters and gains_matter are the negative statements that the property contains. RBMs without backpropagation behind the first layer are excluded (Visible), because their weights are not parameters."
  },
  {
   "property": "C141",
   "status": "partial",
   "theorems": [
    "Verif.Opt.gain_rule_partial",
    "Verif.Opt.reversal_grows",
    "Verif.Opt.downhill_shrinks",
    "Verif.Opt.kept_shrinks",
    "Verif.Opt.slope_gains",
    "Verif.Opt.slope_fails",
    "Verif.Opt.overshoot_grows",
    "Verif.Opt.overshoot_diverges",
    "Verif.Opt.even_converges",
    "Verif.Opt.documented_converges",
    "Verif.Opt.gains_diverge"
   ],
   "note": "False of the code: it compares the last step with the gradient, which points against the new step. Every reversal lets a gain grow (reversal_grows), every step that goes on downhill lets it shrink (downhill_shrinks, kept_shrinks); on straight slopes gains fall to minGain (slope_gains, slope_fails), where training jumps over a minimum they grow to maxGain and the error exceeds every bound although it vanishes without gains (overshoot_diverges, even_converges, gains_diverge) and with the documented gains (documented_converges). Proved: the rule if the last step or the gradient is zero (gain_rule_partial); the limits are part of C39. Real arithmetic."
  },
  {
   "property": "C142",
   "status": "proved",
   "theorems": [
    "Verif.NetSem.recipe_hidden",
    "Verif.NetSem.recipe_predicts",
    "Verif.NetSem.recipe_predicts_exact",
    "Verif.NetSem.shifted_fails",
    "Verif.NetSem.reinitialized_fails",
    "Verif.NetSem.unseeded_time"
   ],
   "note": "shifted_fails and reinitialized_fails show that both conditions of the property are needed, unseeded_time that the seed has to be given to a RandomNumberGenerator. RBMs must take part in backpropagation, IntrinsicPlasticity layers must not have been trained and the standard deviations of extreme layers must have an exact text (with six digits); networks with AlphaBetaFilter are not described (as in C70)."
  },
  {
   "property": "C143",
   "status": "proved",
   "theorems": [
    "Verif.NN.separable_iff",
    "Verif.NN.separable_epochs",
    "Verif.NN.separable_training",
    "Verif.NN.small_error_correct",
    "Verif.NN.separator_error",
    "Verif.NN.bounded_weights",
    "Verif.NN.xor_unseparable"
   ],
   "note": "Real arithmetic; one batch per epoch, no momentum or gains, no regularisation or max-norm constraint, two or more classes (the setting of C82). separable_iff includes ties, which the code decides in favour of the first class. separable_epochs gives the number of epochs: N * |w0 - t u|^2 < log 2 * (sum of the learning rates) suffices if N * (F - 1) * exp(-t * margin) is at most log 2 / 2. The weights grow because the cross entropy of bounded weights is bounded from below (bounded_weights); error() is bounded by the cross entropy without the constant 1e-10."
  },
  {
   "property": "C144",
   "status": "partial",
   "theorems": [
    "Verif.NN.error_copies",
    "Verif.NN.gradient_copies",
    "Verif.NN.twice_repeated",
    "Verif.NN.gradient_copies_fails",
    "Verif.Opt.full_batch_copies",
    "Verif.Opt.net_same_full_batch",
    "Verif.Opt.net_training_copies"
   ],
   "note": "False with penalties: Net::errorGradient divides the gradient of the penalties by the number of examples, so that m copies of a training set divide the strength of the weight decay by m (gradient_copies gives the difference, gradient_copies_fails the negation for every training set). Proved without penalties; error() is the same for all networks. Real arithmetic; layers that work row by row (C21)."
  },
  {
   "property": "C145",
   "status": "partial",
   "theorems": [
    "Verif.PoleFp.play_ends",
    "Verif.PoleFp.applied_number",
    "Verif.PoleFp.applied_broken_fails",
    "Verif.PoleFp.success_partial",
    "Verif.PoleFp.broken_action_succeeds_fails",
    "Verif.PoleFp.broken_action_checked",
    "Verif.PoleFp.infinite_force_wins_fails",
    "Verif.PoleFp.restart_not_terminal",
    "Verif.PoleFp.exact_transition",
    "Verif.PoleFp.exact_terminal",
    "Verif.PoleFp.exact_restart"
   ],
   "note": "False of the code: the limit of an infinite action is NaN (inf / inf), NaN spreads to all state variables in one transition, and terminalState() compares NaN, so that the episode runs until the maximal number of steps and is reported as successful, with the best fitness that any agent can have (broken_action_succeeds_fails, infinite_force_wins_fails). With one pole this holds in every build, with two poles without the checks; with the checks the program is ended (broken_action_checked). Proved: every episode ends (play_ends), finite actions are limited correctly (applied_number), and in a successful episode all positions and angles before the last transition were in the limits or NaN (success_partial; the state after the last transition is not checked). Without rounding the floating point model is the model of C87 (exact_transition, exact_terminal, exact_restart)."
  },
  {
   "property": "C146",
   "status": "partial",
   "theorems": [
    "Verif.EvalFp.regression_nan",
    "Verif.EvalFp.ce_nan",
    "Verif.EvalFp.errors_exist",
    "Verif.EvalFp.nan_class_fails",
    "Verif.EvalFp.nan_ignored",
    "Verif.EvalFp.accuracy_value",
    "Verif.EvalFp.broken_accuracy_fails",
    "Verif.EvalFp.broken_perfect_fails",
    "Verif.EvalFp.confusion_value",
    "Verif.EvalFp.broken_confusion_fails",
    "Verif.EvalFp.weighted_value",
    "Verif.EvalFp.broken_weighted_fails",
    "Verif.EvalFp.report_error",
    "Verif.EvalFp.report_counts",
    "Verif.EvalFp.broken_report_fails",
    "Verif.EvalFp.hits_ub",
    "Verif.EvalFp.decoding_exact",
    "Verif.EvalFp.exact_sse",
    "Verif.EvalFp.exact_mse",
    "Verif.EvalFp.exact_rmse",
    "Verif.EvalFp.exact_accuracy",
    "Verif.EvalFp.exact_confusion",
    "Verif.EvalFp.exact_weighted",
    "Verif.EvalFp.exact_hits"
   ],
   "note": "False of the code for classification: every comparison with NaN is false, so that a prediction whose first coefficient is NaN is decoded as class 0 (nan_class_fails), other NaNs count as negative infinity (nan_ignored), the accuracy of a network that only predicts NaN is the share of class 0 (broken_accuracy_fails) and 1 on data of class 0 (broken_perfect_fails), its confusion matrix and its weighted accuracy are those of a network that predicts class 0 (broken_confusion_fails, broken_weighted_fails), reports of the evaluator count instances of class 0 as correct beside an error of NaN (broken_report_fails), and classificationHits with one output converts NaN to int, which is undefined (hits_ub). Proved: SSE, MSE, RMSE and cross entropy become NaN for every order of summation (regression_nan, ce_nan), the accuracy is the rounded share of equal classes (accuracy_value), and for numbers the decoding is that of the model with real numbers (decoding_exact); without rounding all measures but the cross entropy are those of the real model (exact_*). maxCoeff is that of Eigen's visitor, which replaces the maximum by greater coefficients only."
  },
  {
   "property": "C147",
   "status": "partial",
   "theorems": [
    "Verif.SgdFp.checked_result",
    "Verif.SgdFp.checked_network",
    "Verif.SgdFp.nesterov_network",
    "Verif.SgdFp.nesterov_overflow_fails",
    "Verif.SgdFp.broken_gradient_checked",
    "Verif.SgdFp.update_sound",
    "Verif.SgdFp.broken_stays",
    "Verif.SgdFp.momentum_stays",
    "Verif.SgdFp.step_nan",
    "Verif.SgdFp.broken_converges_fails",
    "Verif.SgdFp.broken_result_fails",
    "Verif.SgdFp.nan_gradient_result_fails",
    "Verif.SgdFp.exact_update",
    "Verif.SgdFp.exact_continues"
   ],
   "note": "False, mainly in builds with NDEBUG: the checks for broken matrices are assertions, and without them the comparison momentum.norm() >= minimalSearchSpaceStep is false for NaN, so that a training whose gradient contained NaN stops as if it had converged and optimize() returns broken parameters (broken_converges_fails, for every problem and setting with that criterion). A broken parameter never recovers (broken_stays, broken_result_fails, nan_gradient_result_fails). Proved for builds with checks: a broken gradient ends the program (broken_gradient_checked), and after every training that ends all parameters, the momentum and both rates are numbers (checked_result), and so are the parameters of the network (checked_network; with Nesterov the network holds an unchecked look-ahead until result() is called, nesterov_network, and it can be infinite although all checks pass, nesterov_overflow_fails). Without rounding, updates and stopping are those of the model with real numbers (exact_update, exact_continues). Interrupts are left out."
  },
  {
   "property": "C15",
   "status": "proved",
   "theorems": [
    "Verif.NetFile.run_layers",
    "Verif.NetFile.net_round_trip",
    "Verif.NetFile.net_round_trip_exact",
    "Verif.NetFile.loads_unique",
    "Verif.NetFile.net_without_output_ub",
    "Verif.NetFile.compressed_blocks_ub",
    "Verif.NetFile.pooling_kernels"
   ],
   "note": "Every sequence of architecture calls that ends in a network with output layer, every parameter vector of the right length; without output layer loading the saved file is undefined behaviour (also proved), and block-wise compression with more parameters than inputs divides by zero (compressed_blocks_ub)."
  },
  {
   "property": "C16",
   "status": "partial",
   "theorems": [
    "Verif.NetFile.load_diverges_iff_partial",
    "Verif.NetFile.load_malformed_parameter_diverges",
    "Verif.NetFile.diverges_iff_no_outcome"
   ],
   "note": "False: a malformed number in the parameter section makes load run forever (proved for every architecture). load_diverges_iff_partial shows that this is the only way."
  },
  {
   "property": "C17",
   "status": "proved",
   "theorems": [
    "Verif.NN.parameters_one_to_one",
    "Verif.NN.parameters_concatenation",
    "Verif.NN.setParameters_stores",
    "Verif.NN.setParameters_short_ub",
    "Verif.NN.initialized_vector"
   ],
   "note": "Every sequence of layers of the model (all of Net's layer functions except alpha-beta filters). A vector shorter than dimension() is read out of bounds (setParameters_short_ub)."
  },
  {
   "property": "C18",
   "status": "proved",
   "theorems": [
    "Verif.NN.backprop_gradient_mse",
    "Verif.NN.backprop_gradient_ce",
    "Verif.NN.value_ce",
    "Verif.NN.smoothFrom_fullyConnected"
   ],
   "note": "Over the reals, for every architecture of the model, stated on the parameter vector. For cross entropy the gradient is that of the error without the 1e-10 safety term; value_ce bounds the difference."
  },
  {
   "property": "C19",
   "status": "partial",
   "theorems": [
    "Verif.NN.regularised_gradient_partial",
    "Verif.NN.regularised_gradient_fails",
    "Verif.NN.regularised_gradient_fails_example",
    "Verif.NN.errorGradient_hasDerivAt"
   ],
   "note": "False for batches of two or more examples: the gradient of the penalties is divided by the batch size, the value is not (regularised_gradient_fails). Proved for single examples; errorGradient_hasDerivAt states what the gradient is in general."
  },
  {
   "property": "C20",
   "status": "partial",
   "theorems": [
    "Verif.NN.error_mean",
    "Verif.NN.error_eq_value_partial",
    "Verif.NN.error_eq_value_fails"
   ],
   "note": "Mean proved for every network; equality with the value of errorGradient for all layers except local response normalisation, with which it is false."
  },
  {
   "property": "C21",
   "status": "partial",
   "theorems": [
    "Verif.NN.batch_prediction_partial",
    "Verif.NN.batch_order_partial",
    "Verif.NN.batch_prediction_fails"
   ],
   "note": "Proved for all layers except local response normalisation (and dropout in training), with which it is false."
  },
  {
   "property": "C22",
   "status": "proved",
   "theorems": [
    "Verif.NN.maxNorm_constraint",
    "Verif.NN.maxNorm_idempotent",
    "Verif.NN.setParameters_maxNorm"
   ],
   "note": "Over the reals."
  },
  {
   "property": "C23",
   "status": "proved",
   "theorems": [
    "Verif.NN.Conv.convInit_ok_iff",
    "Verif.NN.Conv.conv_forward",
    "Verif.NN.Conv.conv_output",
    "Verif.NN.Conv.conv_positions",
    "Verif.NN.Conv.conv_backward",
    "Verif.NN.Conv.conv_backprop"
   ],
   "note": "Every accepted shape. An even kernel drops the last row/column of positions, and an even kernel as large as the image is rejected by initialize (an example in Props/Conv.lean). conv_backprop shows in addition that the backward loops compute the derivatives."
  },
  {
   "property": "C24",
   "status": "partial",
   "theorems": [
    "Verif.NN.Pool.maxPoolInit_ok_iff",
    "Verif.NN.Pool.maxPool_forward",
    "Verif.NN.Pool.maxPool_backward",
    "Verif.NN.Pool.maxPool_backward_ub",
    "Verif.NN.Pool.maxPool_first_row",
    "Verif.NN.Pool.maxPool_max_partial",
    "Verif.NN.Pool.maxPool_fails",
    "Verif.NN.Pool.maxPool_error",
    "Verif.NN.Pool.maxPool_error_fails",
    "Verif.NN.Pool.maxPool_backprop"
   ],
   "note": "False for kernels with two or more rows: only the first row of each window is read (maxPool_fails, maxPool_error_fails). Proved for kernels with one row; bounds and number of outputs for every accepted shape."
  },
  {
   "property": "C25",
   "status": "partial",
   "theorems": [
    "Verif.NN.Pool.subsamplingInit_ok_iff",
    "Verif.NN.Pool.sub_forward",
    "Verif.NN.Pool.sub_backward",
    "Verif.NN.Pool.sub_output",
    "Verif.NN.Pool.sub_output_partial",
    "Verif.NN.Pool.sub_fails",
    "Verif.NN.Pool.sub_backprop"
   ],
   "note": "False for kernels with two or more rows: only the first row of each window is summed (sub_fails). Proved for kernels with one row; bounds and number of outputs for every accepted shape."
  },
  {
   "property": "C26",
   "status": "partial",
   "theorems": [
    "Verif.NN.LRN.lrn_formula_partial",
    "Verif.NN.LRN.lrn_formula_fails",
    "Verif.NN.LRN.lrn_batch_dependent",
    "Verif.NN.LRN.lrn_backprop_partial",
    "Verif.NN.LRN.lrn_backprop_fails"
   ],
   "note": "False: the index of the instance hides the neighbourhood size. lrn_formula_fails refutes the formula for the first two instances of every batch and every positive setting; the formula holds for alpha = 0."
  },
  {
   "property": "C27",
   "status": "proved",
   "theorems": [
    "Verif.NN.dropout_on",
    "Verif.NN.dropout_off",
    "Verif.NN.callbacks_see_dropout_off",
    "Verif.NN.dropout_restored",
    "Verif.NN.dropout_not_restored_after_exception"
   ],
   "note": "All masks and all histories without exceptions; after an exception in a callback dropout stays off (dropout_not_restored_after_exception)."
  },
  {
   "property": "C28",
   "status": "proved",
   "theorems": [
    "Verif.NN.act_hasDerivAt",
    "Verif.NN.act_range",
    "Verif.NN.act_monotone",
    "Verif.NN.logistic_not_continuous"
   ],
   "note": "Over the reals. The derivative computed from the output is the derivative at every input that is not a kink; the kinks are 0 for the rectifier and -45, 45 for the logistic cut-offs, where the function jumps (logistic_not_continuous)."
  },
  {
   "property": "C29",
   "status": "proved",
   "theorems": [
    "Verif.NN.softmax_row",
    "Verif.NN.softmax_eq",
    "Verif.NN.softmax_pos",
    "Verif.NN.softmax_sum",
    "Verif.NN.softmax_lt_iff",
    "Verif.NN.softmax_exponents"
   ],
   "note": "Over the reals, for every batch; the result of a row depends on that row alone although the code subtracts the maximum of the whole batch."
  },
  {
   "property": "C30",
   "status": "proved",
   "theorems": [
    "Verif.NN.meanSquaredError_nonneg",
    "Verif.NN.meanSquaredError_eq_zero",
    "Verif.NN.crossEntropy_lower_bound",
    "Verif.NN.crossEntropy_ge_entropy"
   ],
   "note": "Over the reals, with the 1e-10 safety term of the code in the logarithm."
  },
  {
   "property": "C31",
   "status": "proved",
   "theorems": [
    "Verif.NN.compressed_forward",
    "Verif.NN.compressed_gradient",
    "Verif.NN.compressed_backprop"
   ],
   "note": ""
  },
  {
   "property": "C32",
   "status": "partial",
   "theorems": [
    "Verif.Compression.average_partial",
    "Verif.Compression.average_rows_sum",
    "Verif.Compression.average_one_block",
    "Verif.Compression.average_block_size",
    "Verif.Compression.edge_partial",
    "Verif.Compression.edge_constant_partial",
    "Verif.Compression.edge_odd",
    "Verif.Compression.average_ub",
    "Verif.Compression.average_oversized_fails",
    "Verif.Compression.factory_throws"
   ],
   "note": "Block means, equal blocks and the edge filter are proved for all dimensions with outputDim <= inputDim. The last clause is false: with outputDim > inputDim the integer compressionRatio is 0 and the first iteration divides by it (average_ub). A matrix larger than necessary passed to createCompressionMatrix changes the block size (average_oversized_fails)."
  },
  {
   "property": "C33",
   "status": "partial",
   "theorems": [
    "Verif.NN.propagateDataSet_dangling_ub",
    "Verif.NN.propagateDataSet_rows",
    "Verif.NN.propagateDataSet_width_ub",
    "Verif.NN.propagateDataSet_rows_fails"
   ],
   "note": "False in three ways, each proved: the returned data set points to dead local variables, all layers are applied whatever l is, and a network with another number of outputs than inputs writes rows of the wrong length."
  },
  {
   "property": "C34",
   "status": "partial",
   "theorems": [
    "Verif.SigmaPi.nodes_partial",
    "Verif.SigmaPi.nodes_total",
    "Verif.SigmaPi.sharing_fails"
   ],
   "note": "For every history of calls, every constraint with or without state. Weight sharing is exact if different constraint values are at least 0.001 apart; values that are closer are compared with the first unit only, so that two units within the tolerance may have different weights (sharing_fails)."
  },
  {
   "property": "C35",
   "status": "partial",
   "theorems": [
    "Verif.SigmaPi.weights_partial",
    "Verif.SigmaPi.forward_ok",
    "Verif.SigmaPi.ready_of_nodes",
    "Verif.SigmaPi.error_signal_fails",
    "Verif.SigmaPi.bias_ub",
    "Verif.SigmaPi.few_inputs_ub",
    "Verif.SigmaPi.no_nodes_ub"
   ],
   "note": "The weight derivatives are exact for every layer without bias with enough inputs, without kinks of the activation function. The error signal lacks the other factors of the products (error_signal_fails); layers with bias, with fewer inputs than the order or without nodes read out of bounds."
  },
  {
   "property": "C36",
   "status": "partial",
   "theorems": [
    "Verif.SigmaPi.distance_spec",
    "Verif.SigmaPi.distance_symm_partial",
    "Verif.SigmaPi.distance_translation_partial",
    "Verif.SigmaPi.slope_spec",
    "Verif.SigmaPi.slope_similar_partial",
    "Verif.SigmaPi.slope_symm_partial",
    "Verif.SigmaPi.angles_eq",
    "Verif.SigmaPi.triangle_partial",
    "Verif.SigmaPi.triangle_fails",
    "Verif.SigmaPi.turned_fails"
   ],
   "note": "Distance and slope as stated. Triangles: same discrete angles up to rotation give the same number in every history; the converse holds in histories without a triangle of three equal discrete angles and fails otherwise (triangle_fails); turning the image by 90 degrees may change the number (turned_fails). Exact arithmetic."
  },
  {
   "property": "C37",
   "status": "proved",
   "theorems": [
    "Verif.AlphaBeta.coefficients_stable",
    "Verif.AlphaBeta.coefficients_positive",
    "Verif.AlphaBeta.sign_irrelevant",
    "Verif.AlphaBeta.constant_input",
    "Verif.AlphaBeta.reset_forgets",
    "Verif.AlphaBeta.setParameters_forgets"
   ],
   "note": "Real arithmetic. The constant-input clause is for input sequences that follow a reset; in floating point it needs deltaT != 0. Before the first setParameters the coefficients are not initialised (src/AlphaBetaFilter.cpp 31-36); the model speaks about filters after setParameters, as the property does."
  },
  {
   "property": "C38",
   "status": "proved",
   "theorems": [
    "Verif.Opt.epochs_fair",
    "Verif.Opt.FairEpoch.all",
    "Verif.Opt.fairEpoch_batches"
   ],
   "note": "All problems, all shuffles and all runs of the optimiser with 1 <= batchSize <= N."
  },
  {
   "property": "C39",
   "status": "proved",
   "theorems": [
    "Verif.Opt.schedule_closed_form",
    "Verif.Opt.schedule_ranges",
    "Verif.Opt.schedule_monotone",
    "Verif.Opt.gains_range"
   ],
   "note": "Over the reals, for all reachable states and all gradients."
  },
  {
   "property": "C40",
   "status": "partial",
   "theorems": [
    "Verif.Opt.descent_rule_partial",
    "Verif.Opt.Descent.plain",
    "Verif.Opt.nesterov_held_fails"
   ],
   "note": "The rule is proved for plain and for Nesterov momentum (with the gains of the code, see C141). The last clause is false with Nesterov momentum: between the steps the optimised object holds the look-ahead point (nesterov_held_fails)."
  },
  {
   "property": "C41",
   "status": "partial",
   "theorems": [
    "Verif.Opt.optimize_limit",
    "Verif.Opt.optimize_exact",
    "Verif.Opt.limit_zero_one_epoch",
    "Verif.Opt.interrupt_resumes",
    "Verif.Opt.interrupt_other_problem_ub"
   ],
   "note": "The limit is proved. Restarting from scratch is false after an interrupt: the next optimize resumes the interrupted run (interrupt_resumes), with another problem out of bounds (interrupt_other_problem_ub)."
  },
  {
   "property": "C42",
   "status": "partial",
   "theorems": [
    "Verif.Opt.reuse_partial",
    "Verif.Opt.step_congr",
    "Verif.Opt.reuse_fails",
    "Verif.ES.second_optimize_fails"
   ],
   "note": "False in general: learning rate and momentum of mini-batch descent are not reset (reuse_fails), the evolution strategy does nothing the second time (second_optimize_fails). Proved for mini-batch descent with a constant schedule."
  },
  {
   "property": "C43",
   "status": "partial",
   "theorems": [
    "Verif.Interrupt.reports_iff_partial",
    "Verif.Interrupt.observation_exists",
    "Verif.Interrupt.restored",
    "Verif.Interrupt.unobserved_kills",
    "Verif.Interrupt.observed_survives",
    "Verif.Interrupt.nested_quiet",
    "Verif.Interrupt.nested_after_signal_fails",
    "Verif.Interrupt.copy_fails"
   ],
   "note": "Proved for all histories without copied observers, with signals at any place, also inside the constructors and destructors. False: after an interrupt creating a nested observer aborts the process (nested_after_signal_fails), and destroying a copy ends the observation of the original (copy_fails)."
  },
  {
   "property": "C44",
   "status": "partial",
   "theorems": [
    "Verif.ES.result_best",
    "Verif.ES.restarts_doubling",
    "Verif.ES.reported_once",
    "Verif.ES.budget_partial",
    "Verif.ES.optimize_terminates",
    "Verif.ES.budget_calls_fails",
    "Verif.ES.budget_restarts_fails",
    "Verif.ES.manual_result_fails",
    "Verif.ES.restart_mid_generation_ub",
    "Verif.ES.result_early"
   ],
   "note": "For every sampling core. The budget is false for all starts together and for all calls of the objective (budget_restarts_fails, budget_calls_fails); programs that evaluate the individuals themselves get an empty result (manual_result_fails)."
  },
  {
   "property": "C45",
   "status": "partial",
   "theorems": [
    "Verif.Rng.generateInt_range",
    "Verif.Rng.generateInt_onto",
    "Verif.Rng.generateIndex_range",
    "Verif.Rng.generate_range",
    "Verif.Rng.generate_upper",
    "Verif.Rng.generateIndices_perm",
    "Verif.Rng.generateIndices_again",
    "Verif.Rng.generateInt_overflow_ub",
    "Verif.Rng.generateIndex_large_fails"
   ],
   "note": "Proved for all values of rand() and all intervals within the range of int. False outside: an interval that exceeds INT_MAX overflows (generateInt_overflow_ub), and containers with 2^31 elements fail a check (generateIndex_large_fails). Real numbers are exact in the model."
  },
  {
   "property": "C46",
   "status": "partial",
   "theorems": [
    "Verif.Rng.seed_reproducible_partial",
    "Verif.Rng.seed_other_object_fails",
    "Verif.Rng.seed_view_fails",
    "Verif.Rng.seeded_values",
    "Verif.Rng.toInt_spec"
   ],
   "note": "False: index permutations of objects created after seeding depend on the time (seed_other_object_fails) and shuffles of views on the shuffles before seeding (seed_view_fails). Proved for numbers of all objects and permutations of the seeded object."
  },
  {
   "property": "C47",
   "status": "partial",
   "theorems": [
    "Verif.Eval.decoding_label",
    "Verif.Eval.IsLabel.unique",
    "Verif.Eval.accuracy_fraction",
    "Verif.Eval.weightedAccuracy_sum",
    "Verif.Eval.weightedAccuracy_range",
    "Verif.Eval.weightedAccuracy_uniform",
    "Verif.Eval.weightedAccuracy_short_ub",
    "Verif.Eval.confusionMatrix_counts",
    "Verif.Eval.confusionMatrix_sums",
    "Verif.Eval.confusionMatrix_single_ub",
    "Verif.Eval.classificationHits_partial",
    "Verif.Eval.classificationHits_fails",
    "Verif.Eval.rounded_ub",
    "Verif.Eval.hit_large_ub"
   ],
   "note": "Proved for two or more outputs. False for one output: the confusion matrix is written out of bounds (confusionMatrix_single_ub) and hits are counted with another rounding (classificationHits_fails), undefined for predictions outside of int (hit_large_ub)."
  },
  {
   "property": "C48",
   "status": "proved",
   "theorems": [
    "Verif.Eval.regression_measures",
    "Verif.Eval.regression_zero_iff",
    "Verif.Eval.sse_shape_ub"
   ],
   "note": "Over the reals; at least one instance for the zero clause."
  },
  {
   "property": "C49",
   "status": "proved",
   "theorems": [
    "Verif.Eval.evaluator_interval",
    "Verif.Eval.evaluator_zero_ub"
   ],
   "note": "All sequences of learners and data sets; the counter is not bounded in the model."
  },
  {
   "property": "C50",
   "status": "proved",
   "theorems": [
    "Verif.Pre.normalization_standardises",
    "Verif.Pre.normalization_refit",
    "Verif.Pre.normalization_new_data",
    "Verif.Pre.normalization_refuses"
   ],
   "note": "Normalization::fit/transform: after fit the transformed columns have mean 0 and standard deviation 1 (0 for constant columns), refitting forgets the old data, new data is transformed with the stored statistics, wrong sizes are refused."
  },
  {
   "property": "C51",
   "status": "partial",
   "theorems": [
    "Verif.Pre.scale_affine_partial",
    "Verif.Pre.scale_refuses",
    "Verif.Pre.scale_constant_fails",
    "Verif.Pre.scale_empty_ub"
   ],
   "note": "scaleData is the increasing affine map onto [min,max] for non-constant data and refuses max <= min; constant data gives a division by zero (modelled by the theorem scale_constant_fails) and an empty matrix is undefined behaviour."
  },
  {
   "property": "C52",
   "status": "partial",
   "theorems": [
    "Verif.Pre.filter_value",
    "Verif.Pre.filter_equation_partial",
    "Verif.Pre.filter_feedback_fails",
    "Verif.Pre.filter_long_ub",
    "Verif.Pre.downsample_value"
   ],
   "note": "filter satisfies the difference equation for one coefficient in a and filters not longer than the signal; the equation is refuted for feedback filters (the program applies a to x with positive sign), longer filters read outside of the signal for all signals; downsample keeps every factor-th value."
  },
  {
   "property": "C53",
   "status": "proved",
   "theorems": [
    "Verif.Pre.patches_are_windows",
    "Verif.Pre.patches_schedule_independent",
    "Verif.Pre.patches_refused",
    "Verif.Pre.patches_too_high_ub"
   ],
   "note": "sampleRandomPatches: every patch is a window of its image for all random numbers and all orders of the parallel loop; patches one row higher than the image are undefined behaviour, higher ones are refused (outside the claim)."
  },
  {
   "property": "C54",
   "status": "partial",
   "theorems": [
    "Verif.KM.kmeans_centres_are_means_partial",
    "Verif.KM.kmeans_range_partial",
    "Verif.KM.kmeans_transform",
    "Verif.KM.kmeans_refuses",
    "Verif.KM.kmeans_small_batch_ub"
   ],
   "note": "Online K-means for every sequence of batches whose distances stay below the largest number. False if the first batch has fewer rows than there are centres (kmeans_small_batch_ub)."
  },
  {
   "property": "C55",
   "status": "partial",
   "theorems": [
    "Verif.White.pca_mean_zero",
    "Verif.White.total_variance",
    "Verif.White.pca_ratios",
    "Verif.White.pca_whiten_partial",
    "Verif.White.pca_whiten_fails",
    "Verif.White.pca_first_component_fails",
    "Verif.White.pca_short_ub",
    "Verif.White.pca_refuses",
    "Verif.White.zca_cov_partial",
    "Verif.White.zca_close_partial",
    "Verif.White.zca_identity_fails",
    "Verif.White.zca_refuses"
   ],
   "note": "For every correct singular value decomposition. PCA projects on the rows instead of the columns of V, so whitening is false in general (pca_whiten_fails) and proved for symmetric V only; ZCA adds 1e-5 to the variances, so the covariance is close to but not the identity (zca_close_partial, zca_identity_fails)."
  },
  {
   "property": "C56",
   "status": "partial",
   "theorems": [
    "Verif.Ens.adaboost_distribution_partial",
    "Verif.Ens.adaboost_gain_partial",
    "Verif.Ens.adaboost_gain_fails",
    "Verif.Ens.adaboost_weights_sum_partial",
    "Verif.Ens.adaboost_weights_fails",
    "Verif.Ens.adaboost_prediction",
    "Verif.Ens.adaboost_train_ub",
    "Verif.Ens.predict_vector_ub"
   ],
   "note": "The body of the training is proved for all learners and numbers of rounds; the functions themselves end without return and are undefined (adaboost_train_ub). The gain is false for errors within 5e-11 below one half (adaboost_gain_fails, for a single round from a given distribution), the model weights are not finite if a model is always wrong (adaboost_weights_fails)."
  },
  {
   "property": "C57",
   "status": "partial",
   "theorems": [
    "Verif.Ens.bagging_mean_partial",
    "Verif.Ens.bagging_order_partial",
    "Verif.Ens.bagging_agreement_partial",
    "Verif.Ens.predict_vector_ub",
    "Verif.Ens.bag_train_ub"
   ],
   "note": "Proved for the prediction of matrices; the prediction of a single vector reads an uninitialised matrix (predict_vector_ub) and training ends without return (bag_train_ub)."
  },
  {
   "property": "C58",
   "status": "partial",
   "theorems": [
    "Verif.Pack.pack_entries_partial",
    "Verif.Pack.unpack_pack",
    "Verif.Pack.pack_unpack",
    "Verif.Pack.pack_long",
    "Verif.Pack.pack_short_ub",
    "Verif.Pack.pack_huge_ub",
    "Verif.Pack.unpack_huge_ub"
   ],
   "note": "For every list of matrices and a vector of the right size; pack does not resize the vector, a longer one keeps its old tail (pack_long) and a shorter one is undefined behaviour (pack_short_ub). Total size below 2^31 (otherwise undefined: pack_huge_ub, unpack_huge_ub); the variable arguments are assumed to be passed as the program expects."
  },
  {
   "property": "C59",
   "status": "proved",
   "theorems": [
    "Verif.Unsup.ip_round_trip",
    "Verif.Unsup.sae_round_trip",
    "Verif.Unsup.rbm_round_trip",
    "Verif.Unsup.rbm_gradient_entries",
    "Verif.Unsup.short_parameters_ub"
   ],
   "note": "For all parameter vectors of length dimension() below 2^31; shorter vectors are undefined behaviour (short_parameters_ub)."
  },
  {
   "property": "C60",
   "status": "partial",
   "theorems": [
    "Verif.Unsup.rbm_decay_partial",
    "Verif.Unsup.rbm_l2_fails",
    "Verif.Unsup.rbm_l1_fails",
    "Verif.Unsup.rbm_l1_zero_fails"
   ],
   "note": "Refuted for every model with positive decay: a step against the decay term of the gradient enlarges the penalty (both penalties have the wrong sign), and a zero weight with L1 penalty gives a non-finite entry. Without penalties the gradient is the contrastive divergence alone (rbm_decay_partial)."
  },
  {
   "property": "C61",
   "status": "partial",
   "theorems": [
    "Verif.Logging.log_filtered",
    "Verif.Logging.log_disabled",
    "Verif.Logging.log_level_disabled_refused",
    "Verif.Logging.logger_writes_partial",
    "Verif.Logging.logger_deactivated_partial",
    "Verif.Logging.logger_deactivated_fails"
   ],
   "note": "The global log is filtered exactly for every history of level, stream and message events. Local Logger objects look at the flag only when they are created: objects that exist already go on writing after deactivation (logger_deactivated_fails)."
  },
  {
   "property": "C62",
   "status": "partial",
   "theorems": [
    "Verif.Img.idx_pixels_partial",
    "Verif.Img.idx_pixels_unpadded",
    "Verif.Img.idx_padding_fails",
    "Verif.Img.idx_one_direction_fails",
    "Verif.Img.idx_label_fails",
    "Verif.Img.idx_short_file_fails",
    "Verif.Img.cifar_decodes",
    "Verif.Img.cifar_unknown_class",
    "Verif.Img.cifar_short_refused",
    "Verif.Img.cifar_last_record_fails",
    "Verif.Img.idx_many_images_fails",
    "Verif.Img.images_negative_ub"
   ],
   "note": "IDX: proved for square images padded in both directions or in none and for all images without padding; false for padded images that are not square (rows and columns exchanged), for padding in one direction (access outside of the matrix), and truncated files are accepted. CIFAR: proved for complete files of any number and size; a file without its last record is accepted."
  },
  {
   "property": "C63",
   "status": "partial",
   "theorems": [
    "Verif.Learner.crossValidation_dangling_ub",
    "Verif.Learner.crossValidationSets_ok"
   ],
   "note": "the property is false: proved negation for every learner state"
  },
  {
   "property": "C64",
   "status": "partial",
   "theorems": [
    "Verif.Learner.learner_copy_ub"
   ],
   "note": "the property is false: proved negation"
  },
  {
   "property": "C65",
   "status": "partial",
   "theorems": [
    "Verif.NN.errorGradient_hasDerivAt",
    "Verif.NN.Kind.backprop",
    "Verif.NN.LRN.lrn_backprop_partial",
    "Verif.NN.LRN.lrn_backprop_fails",
    "Verif.NN.Pool.maxPool_backprop",
    "Verif.NN.Pool.sub_backprop",
    "Verif.NN.Conv.conv_backprop"
   ],
   "note": "Proved for all layers except local response normalisation on batches of three or more rows, where the backward pass is wrong (lrn_backprop_fails)."
  },
  {
   "property": "C66",
   "status": "proved",
   "theorems": [
    "Verif.Unsup.sae_gradient"
   ],
   "note": "Along every differentiable path of parameter vectors; regularity (no clipped or kinked activation, mean activation strictly between 0 and 1) as in the statement; real arithmetic, dimension below 2^31."
  },
  {
   "property": "C67",
   "status": "partial",
   "theorems": [
    "Verif.Unsup.ip_gradient_partial",
    "Verif.Unsup.ip_error_fails",
    "Verif.Unsup.ip_zero_slope_fails"
   ],
   "note": "The gradient is the derivative of the divergence objective along every differentiable path if all slopes are nonzero and no unit is clipped; it is not the derivative of the reported error (ip_error_fails), and only the first slope is checked, so later zero slopes give non-finite entries for all models (ip_zero_slope_fails)."
  },
  {
   "property": "C68",
   "status": "proved",
   "theorems": [
    "Verif.SigmaPi.distance_invariant",
    "Verif.SigmaPi.slope_invariant",
    "Verif.SigmaPi.triangle_invariant",
    "Verif.SigmaPi.distance_nodes",
    "Verif.SigmaPi.slope_nodes",
    "Verif.SigmaPi.triangle_nodes"
   ],
   "note": "Layers without bias; exact arithmetic; every batch, with a shift of its own for every instance."
  },
  {
   "property": "C69",
   "status": "proved",
   "theorems": [
    "Verif.AlphaBeta.ramp_tracking",
    "Verif.AlphaBeta.constant_settles",
    "Verif.AlphaBeta.zero_parameter_fails"
   ],
   "note": "Real arithmetic. With the parameter 0 the filter never reacts to its input (zero_parameter_fails), so the hypothesis is needed."
  },
  {
   "property": "C70",
   "status": "partial",
   "theorems": [
    "Verif.NetSem.loaded_predicts_partial",
    "Verif.NetSem.loaded_predicts_exact",
    "Verif.NetSem.extreme_fails",
    "Verif.NetSem.compressed_fails",
    "Verif.NetSem.intrinsicPlasticity_fails",
    "Verif.NetSem.frozen_rbm_fails",
    "Verif.NetSem.rounding_fails",
    "Verif.NN.parameters_determine",
    "Verif.NN.frozen_rbm_not_determined"
   ],
   "note": "Proved for every network whose layers keep everything in the file, up to the rounding of the numbers (loaded_predicts_partial), and without exception if the numbers are exact in the text (loaded_predicts_exact). False for Extreme, random compression matrices, IntrinsicPlasticity, an RBM without backprop, and for numbers that need more than the default precision. Layers added after the output layer and AlphaBetaFilter are not described."
  },
  {
   "property": "C71",
   "status": "partial",
   "theorems": [
    "Verif.Alglib.run_solves",
    "Verif.Alglib.optimize_spec",
    "Verif.Alglib.optimize_solves",
    "Verif.Alglib.steps_budget",
    "Verif.Alglib.step_calls",
    "Verif.Alglib.optimize_calls",
    "Verif.Alglib.optimize_depends",
    "Verif.Alglib.net_computes",
    "Verif.Alglib.net_computes_lma",
    "Verif.Alglib.net_lbfgs",
    "Verif.Alglib.cg_reuse",
    "Verif.Alglib.lma_reuse",
    "Verif.Alglib.lbfgs_reuse_partial",
    "Verif.Alglib.lbfgs_reuse_fails",
    "Verif.Alglib.lbfgs_reuse_witness_fails",
    "Verif.Alglib.criteria_ignored",
    "Verif.Alglib.zero_iterations_fails",
    "Verif.Alglib.lma_budget_fails",
    "Verif.Alglib.optimum_not_held_fails",
    "Verif.Alglib.result_before_ub",
    "Verif.Alglib.other_object_ub",
    "Verif.Alglib.lma_objective_fails"
   ],
   "note": "The library is an arbitrary parameter of the model. Proved: results, order of requests, reuse of CG and LMA, iteration limit for L-BFGS and CG. False: limits of evaluations, restarts and minimal value are never used, a limit of 0 is no limit, LMA makes one step more and minimises the sum of squared errors of the examples, L-BFGS keeps the reduced number of corrections, L-BFGS and CG leave the last evaluated point in the object, result() before a run and another object during a run read out of bounds."
  },
  {
   "property": "C72",
   "status": "partial",
   "theorems": [
    "Verif.NN.errorGradient_determined",
    "Verif.NN.errorAt_determined",
    "Verif.NN.error_determined",
    "Verif.NN.parameters_determine",
    "Verif.NN.frozen_rbm_not_determined",
    "Verif.Alglib.net_computes",
    "Verif.Alglib.net_computes_lma"
   ],
   "note": "Proved for every architecture in which all learned weights are in the parameter vector, with arbitrary old weights and buffers; dropout with fixed masks. An RBM without backprop keeps its weights for itself (frozen_rbm_not_determined)."
  },
  {
   "property": "C73",
   "status": "partial",
   "theorems": [
    "Verif.Opt.errorGradientOf_eq",
    "Verif.Opt.range_accumulates",
    "Verif.Opt.gradient_accumulates",
    "Verif.Opt.errors_accumulates",
    "Verif.Opt.all_accumulates",
    "Verif.Opt.range_perm",
    "Verif.Opt.all_eq_range",
    "Verif.Opt.range_hasDerivAt",
    "Verif.Opt.plain_all",
    "Verif.Opt.net_errors",
    "Verif.Opt.net_gradient",
    "Verif.Opt.net_gradient_sum",
    "Verif.Opt.net_accumulated_fails",
    "Verif.Opt.end_index_ub",
    "Verif.Opt.negative_index_ub",
    "Verif.Opt.unchecked_index_ub",
    "Verif.Opt.wrong_size_ub",
    "Verif.NN.batch_value_mean",
    "Verif.NN.batch_gradient",
    "Verif.NN.batch_gradient_mean"
   ],
   "note": "Proved for every object that inherits the functions. Networks override errorGradient with the mean instead of the accumulated values (net_accumulated_fails), while gradient(range) is inherited and accumulates: the exact relation is net_gradient. An index equal to examples() passes the check (end_index_ub), which is not in every build (negative_index_ub), and error/gradient of a range do not check at all (unchecked_index_ub). A result argument of another size is undefined behaviour (wrong_size_ub); the documentation forbids it."
  },
  {
   "property": "C74",
   "status": "partial",
   "theorems": [
    "Verif.NN.batch_order",
    "Verif.NN.batch_repeated",
    "Verif.NN.error_order",
    "Verif.NN.errorGradient_order",
    "Verif.NN.batch_order_fails",
    "Verif.Opt.full_batch_order",
    "Verif.Opt.net_same_up_to_order",
    "Verif.Opt.net_training_order",
    "Verif.Opt.small_batch_order_fails"
   ],
   "note": "Real arithmetic, without dropout. Proved for every architecture without local response normalisation (and error() for every architecture); false with it (batch_order_fails), because its rows are mixed. With smaller batches the order has an influence, as is to be expected (small_batch_order_fails)."
  },
  {
   "property": "C75",
   "status": "partial",
   "theorems": [
    "Verif.Train.train_returns",
    "Verif.Train.train_flags",
    "Verif.Train.train_fresh",
    "Verif.Train.run_keeps",
    "Verif.Train.unknown_iff",
    "Verif.Train.thrown_leaks",
    "Verif.Train.unknown_fails",
    "Verif.Train.exception_fails"
   ],
   "note": "Proved for every terminating optimiser. False for failing calls: an unknown name is rejected after the network was reinitialised and reconfigured (unknown_fails); an exception of the optimiser leaves dropout on and leaks the optimiser (exception_fails, thrown_leaks)."
  },
  {
   "property": "C76",
   "status": "proved",
   "theorems": [
    "Verif.NN.makeMLNN_builds",
    "Verif.NN.makeMLNN_none",
    "Verif.NN.makeMLNN_few_ub",
    "Verif.NN.mlnn_size",
    "Verif.NN.mlnn_outputs",
    "Verif.NN.mlnn_computes",
    "Verif.NN.mlnn_computes_ce"
   ],
   "note": "Real arithmetic, without a max-norm constraint. Fewer arguments than hidden layers are undefined behaviour (makeMLNN_few_ub), which the caller has to avoid as for every variadic function."
  },
  {
   "property": "C77",
   "status": "partial",
   "theorems": [
    "Verif.NN.fillVector_ok",
    "Verif.NN.fillVector_ub",
    "Verif.NN.reports_iff",
    "Verif.NN.getLayer_iff",
    "Verif.NN.layerParameters_after_set",
    "Verif.NN.fullyConnected_order",
    "Verif.NN.fullyConnected_order_fails",
    "Verif.NN.sub_weights_twice",
    "Verif.NN.compressed_reports_other",
    "Verif.NN.rbm_reports_stale",
    "Verif.NN.sae_reports_ub",
    "Verif.NN.AnyLayer.pointers_isParam"
   ],
   "note": "reports_iff says for every layer type exactly when the claim holds; layerParameters_after_set gives the rearrangement. False: Subsampling with bias reports the weights twice instead of the biases, Compressed reports the compression matrix, RBM a copy from initialisation, SparseAutoEncoder has no return statement, SigmaPi throws, IntrinsicPlasticity reports values that are not parameters of the network. With biases the order is not that of the parameter vector (fullyConnected_order_fails)."
  },
  {
   "property": "C78",
   "status": "proved",
   "theorems": [
    "Verif.NN.grad_along",
    "Verif.NN.directional",
    "Verif.Opt.lt_of_neg_deriv",
    "Verif.Opt.update_descends",
    "Verif.Opt.step_descends",
    "Verif.Opt.fresh_state",
    "Verif.Opt.network_descends",
    "Verif.Opt.objective_descends",
    "Verif.Opt.oneWeight_error",
    "Verif.Opt.oneWeight_gradient",
    "Verif.Opt.large_step_fails"
   ],
   "note": "Real arithmetic. network_descends: error() for mean squared error without penalties and max-norm, layers that treat rows alike; objective_descends: any error function, penalties and layers, for the objective that the gradient belongs to. step_descends holds in every state in which the momentum does not count. A large learning rate raises the error (large_step_fails)."
  },
  {
   "property": "C79",
   "status": "proved",
   "theorems": [
    "Verif.Draw.average_eq",
    "Verif.Draw.average_sequences",
    "Verif.Draw.rate_close",
    "Verif.Draw.average_close",
    "Verif.Boltz.hidden_sampled",
    "Verif.Boltz.visible_sampled",
    "Verif.Boltz.hidden_probability",
    "Verif.Boltz.visible_probability",
    "Verif.Boltz.gibbs_stationary",
    "Verif.Boltz.chain_close"
   ],
   "note": "Real arithmetic; the inputs of the logistic function are at most 45 in absolute value (Moderate), beyond that the code returns exactly 0 or 1. Values of rand() are assumed to be independent and equally likely."
  },
  {
   "property": "C80",
   "status": "partial",
   "theorems": [
    "Verif.Boltz.contrast_batch",
    "Verif.Boltz.equilibrium",
    "Verif.Boltz.biases_fixed",
    "Verif.Boltz.weights_expected",
    "Verif.Boltz.likelihood_gradient",
    "Verif.Boltz.likelihood_fixed",
    "Verif.Boltz.weights_fixed_fails",
    "Verif.Boltz.contrast_zero_ub",
    "Verif.Boltz.contrast_zero_stale"
   ],
   "note": "Proved for both bias vectors and any positive number of sweeps; likelihood_gradient and likelihood_fixed are the reference. False for the weights (weights_fixed_fails): negGradW multiplies hidden probabilities of the sampled visible units by the visible probabilities. Without sweeps (cdN = 0) the result uses the visible probabilities of an earlier batch or products of matrices that do not fit."
  },
  {
   "property": "C81",
   "status": "partial",
   "theorems": [
    "Verif.NN.mask_rows",
    "Verif.NN.mask_run",
    "Verif.NN.masks_run",
    "Verif.NN.training_mean",
    "Verif.NN.training_average",
    "Verif.NN.training_error",
    "Verif.NN.expected_gradient",
    "Verif.NN.nonlinear_fails",
    "Verif.NN.probability_fails"
   ],
   "note": "Real arithmetic; values of rand() independent and equally likely. Behind a nonlinearity the claim is false (nonlinear_fails), as is known for dropout; a probability above 1 is accepted and the claim fails (probability_fails)."
  },
  {
   "property": "C82",
   "status": "proved",
   "theorems": [
    "Verif.Opt.seq_converges",
    "Verif.Opt.plain_steps",
    "Verif.Opt.full_batch_descends",
    "Verif.Opt.full_batch_converges",
    "Verif.Opt.optimize_converges",
    "Verif.NN.linear_error",
    "Verif.NN.softmax_error",
    "Verif.NN.linear_curvature",
    "Verif.NN.softmax_curvature",
    "Verif.NN.least_squares_training",
    "Verif.NN.logistic_training",
    "Verif.NN.least_squares_limit",
    "Verif.NN.logistic_limit",
    "Verif.NN.decay_fails",
    "Verif.NN.large_rate_fails"
   ],
   "note": "Real arithmetic; one batch per epoch, no momentum or gains, no regularisation or max-norm constraint. For softmax the bound is on the cross-entropy without the lower limit 1e-10 of the logarithm, from which the error of the code is at most as large (softmax_error). Without the conditions it is false: a learning rate that is halved every epoch stops short (decay_fails), a too large one diverges (large_rate_fails)."
  },
  {
   "property": "C83",
   "status": "proved",
   "theorems": [
    "Verif.Opt.mini_batches_closer",
    "Verif.Opt.mini_batches_seen",
    "Verif.Opt.mini_batches_epochs",
    "Verif.Opt.mini_batches_limit",
    "Verif.Opt.mini_batches_optimize",
    "Verif.NN.picked_gradient",
    "Verif.NN.linear_meanOf",
    "Verif.NN.perfectFit_iff",
    "Verif.NN.mini_batch_training",
    "Verif.NN.mini_batch_closer",
    "Verif.NN.misfit_fails"
   ],
   "note": "Real arithmetic; no momentum or gains, no regularisation or max-norm constraint. For data that cannot be fitted it is false (misfit_fails): a constant learning rate keeps the error away from its minimum."
  },
  {
   "property": "C84",
   "status": "proved",
   "theorems": [
    "Verif.Opt.heavy_run",
    "Verif.Opt.momentum_bounded",
    "Verif.Opt.momentum_gradients",
    "Verif.Opt.steps_long",
    "Verif.Opt.momentum_terminates",
    "Verif.NN.momentum_least_squares",
    "Verif.NN.momentum_least_squares_ends"
   ],
   "note": "Real arithmetic; classical momentum with constant coefficients (the defaults), full batches, no gains. The theorems of Verif.Opt hold for every objective with bounded curvature, convex or not."
  },
  {
   "property": "C85",
   "status": "partial",
   "theorems": [
    "Verif.Distorter.applyDistortion_runs",
    "Verif.Distorter.applyDistortion_nonsquare",
    "Verif.Distorter.constant",
    "Verif.Distorter.linear",
    "Verif.Distorter.translation",
    "Verif.Distorter.identity",
    "Verif.Distorter.scaling_exact",
    "Verif.Distorter.bounded_partial",
    "Verif.Distorter.affine_partial",
    "Verif.Distorter.applyDistortions_eq",
    "Verif.Distorter.range_fails",
    "Verif.Distorter.rotation_keeps_diagonal",
    "Verif.Distorter.rotation_fails"
   ],
   "note": "Safety, size, blank images, linearity, whole displacements, identity and scaling are proved. False: the fractions are taken from the next pixel (ceil instead of floor), so that pixels leave the range of the image (range_fails, at most ninefold by bounded_partial) and interpolated values belong to a position one pixel before the source (affine_partial); the rotation is a stretch along the diagonals (rotation_keeps_diagonal, rotation_fails); images that are not square always fail a check (applyDistortion_nonsquare)."
  },
  {
   "property": "C86",
   "status": "proved",
   "theorems": [
    "Verif.NN.predict_exchanged",
    "Verif.NN.exchanges_exists",
    "Verif.NN.errorGradient_exchanged",
    "Verif.NN.predictions_exchanged",
    "Verif.NN.twins_iff",
    "Verif.NN.twins_same_output",
    "Verif.NN.half_exchange_fails",
    "Verif.Opt.steps_renamed",
    "Verif.Opt.optimize_renamed",
    "Verif.Opt.steps_sym",
    "Verif.Opt.training_exchanged",
    "Verif.Opt.twins_forever",
    "Verif.Opt.constant_start"
   ],
   "note": "Real arithmetic (in floating point the order of the summands matters); the parameters of all layers are in the parameter vector (no RBM outside of backpropagation). half_exchange_fails: the outgoing weights have to be renamed, too."
  },
  {
   "property": "C87",
   "status": "partial",
   "theorems": [
    "Verif.Poles.effectiveMass_pos",
    "Verif.Poles.integrate_rungeKutta",
    "Verif.Poles.transition_eq",
    "Verif.Poles.applied_eq",
    "Verif.Poles.torque_balance",
    "Verif.Poles.force_balance_partial",
    "Verif.Poles.force_balance_fails",
    "Verif.Poles.mirror_fails",
    "Verif.Poles.pole_falls",
    "Verif.Poles.integrate_moved",
    "Verif.Poles.equilibrium_forever",
    "Verif.Poles.episode",
    "Verif.Poles.restart_forgets",
    "Verif.Poles.unstarted_ub",
    "Verif.Poles.bounds_fails",
    "Verif.Poles.bounds_partial"
   ],
   "note": "Real arithmetic. Everything is proved except for what is false of the code: the effective mass of a pole contains cos*g*sin instead of cos^2, so the balance of forces is violated (force_balance_fails; force_balance_partial gives the exact surplus force) and left and right are not mirror images (mirror_fails); before restart the state is uninitialised (unstarted_ub); with one pole and without velocities there are four bounds for two state variables and the start violates them (bounds_fails). Whether velocities stay within the reported bounds during an episode is not claimed: nothing in the code limits them."
  },
  {
   "property": "C88",
   "status": "partial",
   "theorems": [
    "Verif.Smoothing.restart_forgets",
    "Verif.Smoothing.line_errors",
    "Verif.Smoothing.line_tracked",
    "Verif.Smoothing.constant_exact",
    "Verif.Smoothing.bounded",
    "Verif.Smoothing.second_forecast_fails"
   ],
   "note": "Real arithmetic, for the constants 0.9 of the class. False at the start: on a line the forecast after the second sample is the second sample itself and the velocity after the third is too high (second_forecast_fails)."
  },
  {
   "property": "C89",
   "status": "partial",
   "theorems": [
    "Verif.Spirals.rawPoints_rows",
    "Verif.Spirals.point_injective",
    "Verif.Spirals.rows_partition",
    "Verif.Spirals.create_spec",
    "Verif.Spirals.balanced",
    "Verif.Spirals.scale_invariant",
    "Verif.Spirals.common_scale_fails",
    "Verif.Spirals.diameter_without_effect",
    "Verif.Spirals.arguments_fails"
   ],
   "note": "Real arithmetic. Layout, separation, partition, balance and range are proved for every positive density and diameter. False: the two sets are scaled independently and hence by different factors (common_scale_fails), and because of the scaling the diameter has no effect (diameter_without_effect). Arguments that are not positive are not rejected (arguments_fails)."
  },
  {
   "property": "C90",
   "status": "partial",
   "theorems": [
    "Verif.BCI.cache_transparent",
    "Verif.BCI.instance_history",
    "Verif.BCI.decimateSignal_value",
    "Verif.BCI.decimate_constant",
    "Verif.BCI.load_flashes",
    "Verif.BCI.loaded_once",
    "Verif.BCI.index_partial",
    "Verif.BCI.getInstance_index_partial",
    "Verif.BCI.uneven_ub",
    "Verif.BCI.missing_flash_ub",
    "Verif.BCI.late_flash_ub",
    "Verif.BCI.reload_fails",
    "Verif.BCI.unloaded_ub",
    "Verif.BCI.inputs_partial",
    "Verif.BCI.inputs_fails"
   ],
   "note": "Real arithmetic, complete files, no negative arguments; the compressor is not changed while it is in use. The cache and the instances are proved for all histories. False of the code: indices assume that all epochs have as many flashes as the first one (uneven_ub, missing_flash_ub; index_partial proves them for equal numbers), a flash within the last window of the recording reads outside of the signal (late_flash_ub), a second load appends to the lists and shifts the indices (reload_fails), and inputs() is wrong after compress followed by decimate (inputs_fails; inputs_partial for the other orders). Decimation multiplies constant signals by 1.00000002 (decimate_constant)."
  },
  {
   "property": "C91",
   "status": "proved",
   "theorems": [
    "Verif.BCI.evaluate_history",
    "Verif.BCI.perfect_learner",
    "Verif.BCI.no_trials",
    "Verif.BCI.trials_saturate",
    "Verif.BCI.evaluate_codes",
    "Verif.BCI.best_spec",
    "Verif.BCI.scores_value",
    "Verif.BCI.correct_le"
   ],
   "note": "Real arithmetic; predictions are numbers above the smallest double. The windows of all flashes lie in the recording (Playable) and the data are loaded once (C90)."
  },
  {
   "property": "C92",
   "status": "partial",
   "theorems": [
    "Verif.Ens.margin_bound",
    "Verif.Ens.boosting_bound_partial",
    "Verif.Ens.boosting_rate_partial",
    "Verif.Ens.boosting_zero_partial",
    "Verif.Ens.worse_fails",
    "Verif.Ens.soft_fails"
   ],
   "note": "Real arithmetic. Proved for learners whose outputs name a class (0/1 or unit vectors) with an error below 1/2 - 5e-11 in every round; the rounds are those of AdaBoost::train before its missing return (C56). False of the code otherwise: a model that is worse than chance gets a negative weight, the weights are divided by their possibly negative sum, so that the ensemble votes against its good models (worse_fails: five mistakes of six instead of one, above the bound); outputs that do not name a class are added as they are, so that a model with error zero is overruled (soft_fails)."
  },
  {
   "property": "C93",
   "status": "partial",
   "theorems": [
    "Verif.Ens.bagging_error_partial",
    "Verif.Ens.bagging_better_partial",
    "Verif.Ens.bagging_worst_partial",
    "Verif.Ens.bagging_plurality_partial",
    "Verif.Ens.bagging_majority_partial",
    "Verif.Ens.majority_fails"
   ],
   "note": "Real arithmetic; prediction for a matrix of inputs after F has been set (training and the prediction for a vector have no defined behaviour, C57). The statements about the squared error hold for all models. The statement about votes is proved for models whose outputs name a class and false for others (majority_fails): outputs are averaged, not votes."
  },
  {
   "property": "C94",
   "status": "proved",
   "theorems": [
    "Verif.Par.parallel_for",
    "Verif.Par.Computes.ends",
    "Verif.Par.conv_parallel",
    "Verif.Par.clear_parallel",
    "Verif.Par.max_parallel",
    "Verif.Par.maxBack_parallel",
    "Verif.Par.sub_parallel",
    "Verif.Par.lrn_parallel",
    "Verif.Par.lrnBack_parallel",
    "Verif.Par.sigma_parallel",
    "Verif.Par.patches_parallel",
    "Verif.Par.accumulate_race"
   ],
   "note": "Interleaving semantics at the level of single accesses to doubles; by the memory model of C++ this is all there is for programs without data races. Real arithmetic; no iteration combines numbers of several iterations, so that rounding does not depend on the schedule either. Hypotheses are those under which the sequential loops are defined (C23-C25, C35, C53): valid sizes, for the backward pass of max-pooling windows with a number above the smallest double, sigma-pi layers with nodes. accumulate_race shows that the definitions do find races."
  },
  {
   "property": "C95",
   "status": "partial",
   "theorems": [
    "Verif.NN.Conv.moved",
    "Verif.NN.Pool.max_moved",
    "Verif.NN.Pool.sub_moved_partial",
    "Verif.NN.LRN.moved",
    "Verif.NN.stack_moved_partial",
    "Verif.NN.Pool.sub_moved_fails",
    "Verif.NN.LRN.rows_fail"
   ],
   "note": "Proved for convolution and max-pooling, for all weights, and for normalisation of images in the same row of a batch. False of the code: subsampling has one weight for each position instead of one for each feature map, so that it moves its output only if these weights agree (Pool.sub_moved_fails, Pool.sub_moved_partial); normalisation uses the index of the row in the batch as size of the neighbourhood, so that the same image gives different outputs in different rows (LRN.rows_fail)."
  },
  {
   "property": "C96",
   "status": "partial",
   "theorems": [
    "Verif.Neuro.train_search",
    "Verif.Neuro.train_errors",
    "Verif.Neuro.episode_evaluates",
    "Verif.Neuro.abandoneIn_ok",
    "Verif.Neuro.benchmark_reports_partial",
    "Verif.Neuro.poles_end",
    "Verif.Neuro.failure_ub",
    "Verif.Neuro.success_lost",
    "Verif.Neuro.demonstration_fails"
   ],
   "note": "Real arithmetic; the policy network behind the filter is an arbitrary function of parameters and input. The search is proved for training with chooseAction; poles_end shows that the pole balancing environments meet the hypotheses. False of the code: the parameters of a successful episode are replaced by the next candidate before the caller sees the success and are not stored (success_lost); an episode with chooseOptimalAction leaves its last state and estimators behind, so that the next error is not the one of the candidate (demonstration_fails); benchmarkSingleRun does not set the number of episodes of a failed run, which benchmarkConfiguration reads (failure_ub)."
  },
  {
   "property": "C97",
   "status": "partial",
   "theorems": [
    "Verif.Octopus.episode_follows",
    "Verif.Octopus.episodes_follow_partial",
    "Verif.Octopus.failure_cuts_partial",
    "Verif.Octopus.episode_ends",
    "Verif.Octopus.episode_calls",
    "Verif.Octopus.success_valid",
    "Verif.Octopus.closed_ub",
    "Verif.Octopus.episode_closed_ub",
    "Verif.Octopus.closed_digits",
    "Verif.Octopus.closed_garbage",
    "Verif.Octopus.long_token_splits",
    "Verif.Octopus.actions_ub",
    "Verif.Octopus.init_ub"
   ],
   "note": "atoi, atof and the number formats are arbitrary functions; recv and send work byte for byte until they fail, so that packet borders do not matter. Proved for tokens of at most 1022 characters and at most 426 actions, and for connections that fail with an error. False of the code: a connection that is closed by the server is not noticed (recv returns 0), an uninitialised variable is compared (closed_ub, episode_closed_ub) or the last character is repeated until the buffer is full (closed_digits); a token of 1023 characters is followed by an empty one (long_token_splits); many actions overflow a buffer (actions_ub); performInit reads the name of the agent from a string that no longer exists (init_ub); each episode leaves two blocks of memory behind (last conjunct of episodes_follow_partial)."
  },
  {
   "property": "C98",
   "status": "partial",
   "theorems": [
    "Verif.OctopusAgent.agent_learns_partial",
    "Verif.OctopusAgent.episode_learns",
    "Verif.OctopusAgent.init_idle",
    "Verif.OctopusAgent.Waits.tell",
    "Verif.OctopusAgent.Idle.ask",
    "Verif.OctopusAgent.over_first_ub",
    "Verif.OctopusAgent.over_stale"
   ],
   "note": "Real arithmetic; the network and the random numbers are arbitrary. Proved for episodes with at least one step. False of the code for episodes whose first state is terminal: agent_end is called without agent_start, so that the return of the episode before is reported for parameters that were never played (over_stale), and if it is the first episode, the next one dereferences a null pointer (over_first_ub). The noise on the error is part of the design."
  },
  {
   "property": "C99",
   "status": "partial",
   "theorems": [
    "Verif.NetFile.cut_ends",
    "Verif.NetFile.every_break",
    "Verif.NetFile.cut_at_start",
    "Verif.NetFile.cut_in_keyword",
    "Verif.NetFile.cut_in_parameters_word",
    "Verif.NetFile.cut_between_ub",
    "Verif.NetFile.cut_missing_ub",
    "Verif.NetFile.cut_in_last_argument",
    "Verif.NetFile.cutArg_full",
    "Verif.NetFile.cut_in_parameters",
    "Verif.NetFile.cut_accepted_fails",
    "Verif.NetFile.crash_loses_old"
   ],
   "note": "Characters reach the file in the order in which they are written; number formats are abstract except that a number whose end is missing is read to the end. every_break lists all positions at which a file can break off, and the other theorems give the outcome for each: loading always ends (cut_ends), a file that breaks off within a keyword is refused. False of the code: behind the word parameters every position is accepted, the parameters whose text is missing are random (cut_in_parameters, cut_accepted_fails); a file that ends within or behind the last argument of a command is accepted without the rest (cut_in_last_argument); between commands and before the last argument uninitialised variables are used (cut_between_ub, cut_missing_ub); opening the file destroys the old network, and a full disk is not reported (crash_loses_old, cut_accepted_fails)."
  }
 ]
}
