import Verif.Props.CrossValidation
import Verif.Props.ViewHistory
import Verif.Props.WeightedDataSet
import Verif.Props.DirectStorage
import Verif.Props.DataStream
import Verif.Props.Learner
import Verif.Props.FANN
import Verif.Props.LibSVM
import Verif.Props.NetFile
import Verif.Props.Activation
import Verif.Props.Gradient
import Verif.Props.ConvBackprop
import Verif.Props.Subsampling
import Verif.Props.LRN
import Verif.Props.NetBatch
import Verif.Props.Layers
import Verif.Props.AlphaBeta
import Verif.Props.Compression
import Verif.Props.MBSGDReuse
import Verif.Props.Interrupt
import Verif.Props.CMAES
import Verif.Props.Random
import Verif.Props.Evaluation
import Verif.Props.Preprocessing
import Verif.Props.Filter
import Verif.Props.Patches
import Verif.Props.KMeans
import Verif.Props.Whitening
import Verif.Props.Ensemble
import Verif.Props.Packing
import Verif.Props.Unsupervised
import Verif.Props.AutoEncoder
import Verif.Props.Logger
import Verif.Props.ImageLoader
import Verif.Props.SigmaPi
import Verif.Props.SigmaPiGradient
import Verif.Props.SigmaPiConstraints
import Verif.Props.SigmaPiInvariance
import Verif.Props.AlphaBetaTracking
import Verif.Props.Determined
import Verif.Props.Loaded
import Verif.Props.LoadedFails
import Verif.Props.Alglib
import Verif.Props.AlglibRuns
import Verif.Props.AlglibNet
import Verif.Props.AlglibFails
import Verif.Props.DeterminedGradient
import Verif.Props.AlglibCallbacks
import Verif.Props.BatchGradient
import Verif.Props.Optimizable
import Verif.Props.OptimizableNet
import Verif.Props.Order
import Verif.Props.OrderMBSGD
import Verif.Props.Train
import Verif.Props.MLNN
import Verif.Props.LayerParameters
import Verif.Props.Descent
import Verif.Props.Draw
import Verif.Props.Boltzmann
import Verif.Props.Gibbs
import Verif.Props.Contrastive
import Verif.Props.DropoutMean
import Verif.Props.Convergence
import Verif.Props.LinearTraining
import Verif.Props.MiniBatch
import Verif.Props.LinearMiniBatch
import Verif.Props.Momentum
import Verif.Model.Distorter
import Verif.Props.Distorter
import Verif.Props.Symmetry
import Verif.Props.SymmetryTraining
import Verif.Model.PoleBalancing
import Verif.Props.PoleBalancing
import Verif.Model.Smoothing
import Verif.Props.Smoothing
import Verif.Model.TwoSpirals
import Verif.Props.TwoSpirals
import Verif.Model.BCIDataSet
import Verif.Props.BCIDataSet
import Verif.Props.BCIEvaluate
import Verif.Props.Boosting
import Verif.Props.Bagging
import Verif.Model.Parallel
import Verif.Model.ParallelLayers
import Verif.Props.Parallel
import Verif.Props.ParallelLayers
import Verif.Props.Equivariance
import Verif.Model.NeuroEvolution
import Verif.Props.NeuroEvolution
import Verif.Model.Octopus
import Verif.Model.OctopusAgent
import Verif.Props.Octopus
import Verif.Props.OctopusAgent
import Verif.Model.CutFile
import Verif.Props.CutFile
import Verif.Model.Float
import Verif.Props.Float
import Verif.Props.CutData
import Verif.Props.CutLibSVM
import Verif.Model.SparseCost
import Verif.Props.SparseCost
import Verif.Model.Pretrain
import Verif.Props.Pretrain
import Verif.Model.FilterNet
import Verif.Props.FilterNet
import Verif.Model.TrainingData
import Verif.Props.TrainingData
import Verif.Model.PythonObjects
import Verif.Props.PythonObjects
import Verif.Model.PythonArrays
import Verif.Props.PythonArrays
import Verif.Model.SigmaPiNet
import Verif.Props.SigmaPiNet
import Verif.Model.Release
import Verif.Props.Release
import Verif.Model.Thrown
import Verif.Props.Thrown
import Verif.Props.ThrownAlglib
import Verif.Props.ThrownES
import Verif.Model.Criteria
import Verif.Props.Criteria
import Verif.Model.BenchStats
import Verif.Props.BenchStats
import Verif.Model.Formatter
import Verif.Props.Formatter
import Verif.Props.Robust
import Verif.Props.LoadedClose
import Verif.Model.FiniteDifferences
import Verif.Props.FiniteDifferences
import Verif.Props.GradientChecks
import Verif.Model.Viewers
import Verif.Props.Viewers
import Verif.Props.FilterViewers
import Verif.Props.Ridge
import Verif.Props.Expressive
import Verif.Props.Components
import Verif.Props.Penalties
import Verif.Props.Sampling
import Verif.Model.SpiralsViewer
import Verif.Props.SpiralsViewer
import Verif.Props.Calibration
import Verif.Props.Untouched
import Verif.Props.Frozen
import Verif.Model.PythonMemory
import Verif.Props.PythonMemory
import Verif.Props.Absorb
import Verif.Props.SignFlip
import Verif.Props.SignFlipTraining
import Verif.Model.Observers
import Verif.Props.Observers
import Verif.Props.BCICache
import Verif.Props.Relabel
import Verif.Props.RelabelTraining
import Verif.Model.PoleWindow
import Verif.Props.PoleWindow
import Verif.Model.Stopwatch
import Verif.Props.Stopwatch
import Verif.Model.Scripts
import Verif.Props.Scripts
import Verif.Props.SoftmaxShift
import Verif.Props.Rescaling
import Verif.Model.StreamObjects
import Verif.Props.StreamObjects
import Verif.Props.InputRotation
import Verif.Props.Gains
import Verif.Model.SeededNet
import Verif.Props.SeededNet
import Verif.Props.Separable
import Verif.Props.Copies
import Verif.Model.PoleFloat
import Verif.Props.PoleFloat
import Verif.Props.PoleExact
import Verif.Model.EvalFloat
import Verif.Props.EvalFloat
import Verif.Props.EvalExact
import Verif.Model.SgdFloat
import Verif.Props.SgdFloat

/-!
# Axiom audit

Prints, during the build, the axioms of every theorem listed in MANIFEST.json.
-/

#print axioms Verif.Data.split_partition
#print axioms Verif.Data.split_rejects
#print axioms Verif.Data.splitRatio_partition
#print axioms Verif.Data.splitRatio_rejects
#print axioms Verif.Data.merge_shows
#print axioms Verif.Data.merge_rejects_empty
#print axioms Verif.Data.merge_rejects_foreign
#print axioms Verif.Data.crossValidation_honest
#print axioms Verif.Data.crossValidation_value_partial
#print axioms Verif.Data.crossValidation_mean_fails
#print axioms Verif.Data.crossValidation_ub
#print axioms Verif.Data.views_stay_inside
#print axioms Verif.Data.sample_without_replacement_partial
#print axioms Verif.Data.sample_with_replacement_ub
#print axioms Verif.Data.sample_too_many_ub
#print axioms Verif.Data.weighted_valid_partial
#print axioms Verif.Data.weighted_deterministic
#print axioms Verif.Data.weighted_uniform
#print axioms Verif.Data.weighted_random_partial
#print axioms Verif.Data.weighted_random_zero_fails
#print axioms Verif.DirectStorage.access_history
#print axioms Verif.DirectStorage.access_rejects
#print axioms Verif.DirectStorage.create_ok_iff
#print axioms Verif.DataStream.stream_steps_partial
#print axioms Verif.DataStream.stream_cacheSize_ub
#print axioms Verif.DataStream.stream_late_target_ub
#print axioms Verif.DataStream.stream_stale_target_fails
#print axioms Verif.DataStream.stream_exchanged_optimizer_fails
#print axioms Verif.Fp.softmax_single
#print axioms Verif.Fp.softmax_single_pos
#print axioms Verif.Fp.softmax_near
#print axioms Verif.Fp.softmax_far
#print axioms Verif.Fp.softmax_exists
#print axioms Verif.Fp.softmax_batch_fails
#print axioms Verif.Fp.crossEntropy_finite
#print axioms Verif.Fp.crossEntropy_nan
#print axioms Verif.Fp.meanSquaredError_nan
#print axioms Verif.Fp.far_instance_destroys_gradient
#print axioms Verif.Fp.logistic_unit
#print axioms Verif.Fp.logisticDerivative_unit
#print axioms Verif.Fp.meanSquaredError_exact
#print axioms Verif.Fp.generate_unit
#print axioms Verif.Fp.sampleNormal_finite
#print axioms Verif.Fp.normalWeight_finite
#print axioms Verif.Fp.sampleNormal_zero_fails
#print axioms Verif.Fp.normalWeight_zero_fails
#print axioms Verif.Fp.withL1_finite
#print axioms Verif.Fp.withL1_zero_fails
#print axioms Verif.FANN.cut_data
#print axioms Verif.FANN.cutNumbers_split
#print axioms Verif.FANN.cutNumbers_complete
#print axioms Verif.FANN.save_text
#print axioms Verif.FANN.fieldsFrom_numbers
#print axioms Verif.FANN.cut_header_ub
#print axioms Verif.FANN.cut_outputs_fails
#print axioms Verif.LibSVM.cut_cases
#print axioms Verif.LibSVM.cut_in_label
#print axioms Verif.LibSVM.cut_behind_feature
#print axioms Verif.LibSVM.cut_in_index
#print axioms Verif.LibSVM.cut_in_value
#print axioms Verif.LibSVM.cut_libsvm
#print axioms Verif.LibSVM.cut_changes_targets_fails
#print axioms Verif.Unsup.cost_nonneg_partial
#print axioms Verif.Unsup.cost_zero_iff_partial
#print axioms Verif.Unsup.kl_nonneg
#print axioms Verif.Unsup.kl_eq_zero_iff
#print axioms Verif.Unsup.kl_lt_below
#print axioms Verif.Unsup.kl_lt_above
#print axioms Verif.Unsup.logistic_mean
#print axioms Verif.Fp.dead_unit_cost_fails
#print axioms Verif.Fp.dead_unit_gradient_fails
#print axioms Verif.Fp.saturated_unit_cost_fails
#print axioms Verif.Fp.saturated_unit_gradient_fails
#print axioms Verif.Fp.negative_mean_fails
#print axioms Verif.Pretrain.frozen_kept
#print axioms Verif.Pretrain.rbm_kept_by_initialize
#print axioms Verif.Pretrain.before_output_layer
#print axioms Verif.Pretrain.initialized_consistent
#print axioms Verif.Pretrain.sae_initialize_fails
#print axioms Verif.Pretrain.sae_initialize_random
#print axioms Verif.Pretrain.training_forgets
#print axioms Verif.Pretrain.setParameters_forgets
#print axioms Verif.Pretrain.mbsgd_forgets
#print axioms Verif.Pretrain.own_stale
#print axioms Verif.Pretrain.saved_parameters_fails
#print axioms Verif.FilterNet.set_determined
#print axioms Verif.FilterNet.answers_determined
#print axioms Verif.FilterNet.load_determined
#print axioms Verif.FilterNet.first_answer
#print axioms Verif.FilterNet.new_network_ub
#print axioms Verif.FilterNet.initialize_unseen
#print axioms Verif.FilterNet.initialize_fails
#print axioms Verif.FilterNet.load_used_fails
#print axioms Verif.FilterNet.matrix_first_row
#print axioms Verif.FilterNet.batch_gradient_ub
#print axioms Verif.FilterNet.gradient_gamma_zero
#print axioms Verif.FilterNet.error_twice_fails
#print axioms Verif.TrainingData.live_current
#print axioms Verif.TrainingData.net_seen
#print axioms Verif.TrainingData.net_current_partial
#print axioms Verif.TrainingData.net_grown_fails
#print axioms Verif.TrainingData.net_shrunk_fails
#print axioms Verif.TrainingData.net_tells
#print axioms Verif.TrainingData.others_silent_fails
#print axioms Verif.TrainingData.sae_snapshot
#print axioms Verif.TrainingData.sae_current_partial
#print axioms Verif.TrainingData.sae_change_fails
#print axioms Verif.TrainingData.sae_matrices_fails
#print axioms Verif.TrainingData.sae_matrices_ub
#print axioms Verif.TrainingData.sae_propagate_fails
#print axioms Verif.TrainingData.stream_prefix
#print axioms Verif.TrainingData.stream_sae_ub
#print axioms Verif.TrainingData.net_without_set
#print axioms Verif.PyObj.core_safe
#print axioms Verif.PyObj.held_safe
#print axioms Verif.PyObj.end_safe
#print axioms Verif.PyObj.stream_dropped_ub
#print axioms Verif.PyObj.wrong_operand_throws
#print axioms Verif.PyObj.stream_learner_ub
#print axioms Verif.PyObj.stream_optimizer_ub
#print axioms Verif.PyObj.stream_cache_ub
#print axioms Verif.PyObj.stream_crossValidation_ub
#print axioms Verif.PyObj.stream_optimize_ub
#print axioms Verif.PyObj.reconstructProb_ub
#print axioms Verif.PyObj.emptyDataSet_ub
#print axioms Verif.PyObj.layer_ub
#print axioms Verif.PyObj.addTwice_ub
#print axioms Verif.PyObj.sigmaPi_ub
#print axioms Verif.PyObj.exceptions_fails
#print axioms Verif.PyArr.matrix_exact
#print axioms Verif.PyArr.vector_exact
#print axioms Verif.PyArr.matrix_back
#print axioms Verif.PyArr.vector_back
#print axioms Verif.PyArr.matrix_roundtrip
#print axioms Verif.PyArr.dataSet_exact
#print axioms Verif.PyArr.predict_exact
#print axioms Verif.PyArr.predict_vector
#print axioms Verif.PyArr.predict_scalar
#print axioms Verif.PyArr.shape_throws
#print axioms Verif.PyArr.shape_ignored_fails
#print axioms Verif.PyArr.entry_outcome
#print axioms Verif.PyArr.none_ub
#print axioms Verif.PyArr.large_ub
#print axioms Verif.PyArr.vector_cut_fails
#print axioms Verif.PyArr.vector_large_ub
#print axioms Verif.PyArr.criteria_exact
#print axioms Verif.PyArr.vector_shape_throws
#print axioms Verif.PyArr.vector_shape_ub
#print axioms Verif.Learner.learner_ownership
#print axioms Verif.SigmaPiNet.network_exact
#print axioms Verif.SigmaPiNet.network_drawn
#print axioms Verif.SigmaPiNet.late_ub
#print axioms Verif.SigmaPiNet.late_unseen_fails
#print axioms Verif.SigmaPiNet.late_moved_ub
#print axioms Verif.Release.program_same
#print axioms Verif.Release.access_same
#print axioms Verif.Release.create_same
#print axioms Verif.Release.random_same
#print axioms Verif.Release.save_same
#print axioms Verif.Release.idxLoad_same
#print axioms Verif.Release.kmeans_same
#print axioms Verif.Release.transform_same
#print axioms Verif.Release.training_same
#print axioms Verif.Release.network_same
#print axioms Verif.Release.log_same
#print axioms Verif.Release.view_throws
#print axioms Verif.Release.conv_only
#print axioms Verif.Release.pool_redundant
#print axioms Verif.Release.splitRatio_wrong
#print axioms Verif.Release.split_one
#print axioms Verif.Release.split_wrong
#print axioms Verif.Release.merge_nothing
#print axioms Verif.Release.merge_other_fails
#print axioms Verif.Release.direct_ub
#print axioms Verif.Release.generateInt_negative
#print axioms Verif.Release.generateIndices_fails
#print axioms Verif.Release.fannSave_wrong
#print axioms Verif.Release.svmSave_wrong
#print axioms Verif.Release.idx_ignored
#print axioms Verif.Release.kmeans_smaller
#print axioms Verif.Release.kmeans_ub
#print axioms Verif.Release.transform_ub
#print axioms Verif.Release.whiten_ub
#print axioms Verif.Release.pca_unfitted
#print axioms Verif.Release.getLayer_ub
#print axioms Verif.Release.addSample_ub
#print axioms Verif.Release.sgd_none_ub
#print axioms Verif.Release.sgd_empty
#print axioms Verif.Release.conv_negative
#print axioms Verif.Release.coordinates_outside
#print axioms Verif.Release.log_disabled
#print axioms Verif.Release.logger_lost
#print axioms Verif.Thrown.step_none
#print axioms Verif.Thrown.gradients_used_once
#print axioms Verif.Thrown.result_last
#print axioms Verif.Thrown.object_held
#print axioms Verif.Thrown.limit_exact
#print axioms Verif.Thrown.set_throws_fails
#print axioms Verif.Thrown.finish_throws_fails
#print axioms Verif.Thrown.other_object_ub
#print axioms Verif.Thrown.other_object_fails
#print axioms Verif.Thrown.optimum_kept
#print axioms Verif.Thrown.object_moved
#print axioms Verif.Thrown.retry_unanswered_fails
#print axioms Verif.Thrown.retry_result_fails
#print axioms Verif.Thrown.lma_restarts
#print axioms Verif.Thrown.optimize_calm
#print axioms Verif.Thrown.ask_again
#print axioms Verif.Thrown.optimize_live
#print axioms Verif.Thrown.retry_cases
#print axioms Verif.Thrown.retry_defined
#print axioms Verif.Thrown.retry_nothing_fails
#print axioms Verif.Thrown.retry_ub
#print axioms Verif.Thrown.best_lost_fails
#print axioms Verif.Thrown.early_exception
#print axioms Verif.Criteria.sgd_last
#print axioms Verif.Criteria.alglib_idle
#print axioms Verif.Criteria.alglib_running_fails
#print axioms Verif.Criteria.es_history
#print axioms Verif.Criteria.es_last_iff
#print axioms Verif.Criteria.es_set
#print axioms Verif.Criteria.terminated_effective
#print axioms Verif.Criteria.es_nothing_fails
#print axioms Verif.Criteria.es_stale_fails
#print axioms Verif.Criteria.es_default
#print axioms Verif.BenchStats.evaluate_counts
#print axioms Verif.BenchStats.evaluate_correct
#print axioms Verif.BenchStats.zero_output_fails
#print axioms Verif.BenchStats.column_partial
#print axioms Verif.BenchStats.stdDev_fails
#print axioms Verif.BenchStats.spirals_report
#print axioms Verif.BenchStats.run_first
#print axioms Verif.BenchStats.run_success
#print axioms Verif.BenchStats.run_time
#print axioms Verif.BenchStats.pole_statistics
#print axioms Verif.BenchStats.failed_run_ub
#print axioms Verif.BenchStats.speller_report
#print axioms Verif.Formatter.formatted_everywhere
#print axioms Verif.Formatter.formatted_negative
#print axioms Verif.Formatter.plain_partial
#print axioms Verif.Formatter.plain_fails
#print axioms Verif.Formatter.file_fails
#print axioms Verif.Formatter.settings_fails
#print axioms Verif.Formatter.message_independent
#print axioms Verif.Formatter.save_digits
#print axioms Verif.Formatter.save_fails
#print axioms Verif.Formatter.sgd_message
#print axioms Verif.Formatter.pole_printed
#print axioms Verif.Formatter.pole_time_fails
#print axioms Verif.Formatter.spirals_printed
#print axioms Verif.Formatter.speller_printed
#print axioms Verif.NN.robust_partial
#print axioms Verif.NN.robust_smooth
#print axioms Verif.NN.decision_kept
#print axioms Verif.NN.jump_small
#print axioms Verif.NN.lipschitz_fails
#print axioms Verif.NN.lrn_fails
#print axioms Verif.NetSem.loaded_close_partial
#print axioms Verif.NetSem.loaded_digits_partial
#print axioms Verif.GradCheck.central_tendsto
#print axioms Verif.GradCheck.central_onesided
#print axioms Verif.GradCheck.central_accuracy
#print axioms Verif.GradCheck.central_quadratic
#print axioms Verif.GradCheck.parameterGradient_eq
#print axioms Verif.GradCheck.check_accepts
#print axioms Verif.GradCheck.check_rejects
#print axioms Verif.GradCheck.inputGradient_eq
#print axioms Verif.GradCheck.input_tendsto
#print axioms Verif.GradCheck.shifted_data_fails
#print axioms Verif.GradCheck.dangling_data_ub
#print axioms Verif.GradCheck.net_check_partial
#print axioms Verif.GradCheck.adapter_gradient
#print axioms Verif.GradCheck.adapter_gradientOf
#print axioms Verif.GradCheck.adapter_check_partial
#print axioms Verif.GradCheck.penalty_check_fails
#print axioms Verif.GradCheck.adapter_input_check
#print axioms Verif.GradCheck.net_dangling_ub
#print axioms Verif.GradCheck.kink_check_fails
#print axioms Verif.GradCheck.adapter_shifted_fails
#print axioms Verif.GradCheck.adapter_single_fails
#print axioms Verif.GradCheck.adapter_set_constraint
#print axioms Verif.GradCheck.constraint_check_fails
#print axioms Verif.GradCheck.short_parameters_ub
#print axioms Verif.Viewers.netRun_range
#print axioms Verif.Viewers.netRun_reaches
#print axioms Verif.Viewers.net_frame
#print axioms Verif.Viewers.brightness_shade
#print axioms Verif.Viewers.brightness_constant
#print axioms Verif.Viewers.layers_apart
#print axioms Verif.Viewers.layer_width
#print axioms Verif.Viewers.net_empty_fails
#print axioms Verif.Viewers.shownAt_square
#print axioms Verif.Viewers.image_shown_iff
#print axioms Verif.Viewers.image_shown_two_iff
#print axioms Verif.Viewers.dataRun_range
#print axioms Verif.Viewers.dataRun_pages
#print axioms Verif.Viewers.dataRun_reaches
#print axioms Verif.Viewers.data_frame
#print axioms Verif.Viewers.few_images_fails
#print axioms Verif.Viewers.images_apart
#print axioms Verif.Viewers.images_overlap_fails
#print axioms Verif.Viewers.offset_range
#print axioms Verif.Viewers.offset_reaches
#print axioms Verif.Viewers.rbm_filters
#print axioms Verif.Viewers.rbm_reaches
#print axioms Verif.Viewers.rbm_few_units_fails
#print axioms Verif.Viewers.fantasy_keys_dead
#print axioms Verif.Viewers.rbm_dreams
#print axioms Verif.Viewers.rbm_images
#print axioms Verif.Viewers.sae_filters
#print axioms Verif.Viewers.sae_quarter_fails
#print axioms Verif.Viewers.sae_reaches
#print axioms Verif.Viewers.sae_images
#print axioms Verif.Viewers.sae_instance_keys_dead
#print axioms Verif.Viewers.sae_right_fails
#print axioms Verif.Viewers.sae_right_ub
#print axioms Verif.Viewers.pictures_apart
#print axioms Verif.FANN.fann_round_trip
#print axioms Verif.FANN.fann_round_trip_exact
#print axioms Verif.FANN.fann_save_rejects
#print axioms Verif.FANN.fann_missing_file_ub
#print axioms Verif.FANN.fann_empty_file_ub
#print axioms Verif.Expressive.memorises
#print axioms Verif.Expressive.classifies
#print axioms Verif.Expressive.approximates
#print axioms Verif.Expressive.approximated
#print axioms Verif.Expressive.act_rich
#print axioms Verif.Expressive.act_interpolates
#print axioms Verif.Expressive.realize
#print axioms Verif.Expressive.linear_sums
#print axioms Verif.Expressive.linear_xor_fails
#print axioms Verif.Expressive.single_layer_xor_fails
#print axioms Verif.Expressive.one_unit_xor_fails
#print axioms Verif.Expressive.two_units_xor
#print axioms Verif.White.kept_le
#print axioms Verif.White.kept_columns
#print axioms Verif.White.evr_optimal
#print axioms Verif.White.pca_keeps_partial
#print axioms Verif.White.pca_loses_fails
#print axioms Verif.White.pca_distances
#print axioms Verif.White.pca_shift
#print axioms Verif.White.zca_closest
#print axioms Verif.NN.penalised_error
#print axioms Verif.NN.penalNet_predict
#print axioms Verif.NN.stronger_l2
#print axioms Verif.NN.stronger_l1
#print axioms Verif.NN.weights_bounded
#print axioms Verif.NN.best_weights_small
#print axioms Verif.NN.l1_zero
#print axioms Verif.NN.l1_zero_gradient
#print axioms Verif.NN.ridge_error
#print axioms Verif.NN.ridge_unique
#print axioms Verif.NN.ridge_exists
#print axioms Verif.NN.ridge_training_partial
#print axioms Verif.NN.ridge_training_fails
#print axioms Verif.NN.diagonal_best
#print axioms Verif.NN.diagonal_sparse
#print axioms Verif.Opt.expected_gradient
#print axioms Verif.Opt.unbiased_gradient_partial
#print axioms Verif.Opt.unbiased_gradient_fails
#print axioms Verif.Opt.expected_error
#print axioms Verif.Opt.gradient_variance
#print axioms Verif.Opt.larger_batches
#print axioms Verif.Opt.gradient_reliable
#print axioms Verif.Opt.expected_update
#print axioms Verif.SpiralsViewer.finishIteration_paints
#print axioms Verif.SpiralsViewer.session_shows
#print axioms Verif.SpiralsViewer.surface_covered
#print axioms Verif.SpiralsViewer.surface_border
#print axioms Verif.SpiralsViewer.brightness_spec
#print axioms Verif.SpiralsViewer.points_spec
#print axioms Verif.SpiralsViewer.whole_surface_fails
#print axioms Verif.NN.bias_gradient
#print axioms Verif.NN.weight_gradient
#print axioms Verif.NN.stationary_means
#print axioms Verif.NN.error_parts
#print axioms Verif.NN.error_ge_noise
#print axioms Verif.NN.error_eq_noise
#print axioms Verif.NN.predictions_near_frequencies
#print axioms Verif.NN.error_ge_entropy
#print axioms Verif.NN.error_le_entropy
#print axioms Verif.NN.regression_calibrated
#print axioms Verif.NN.classification_calibrated
#print axioms Verif.Opt.steps_still
#print axioms Verif.Opt.silent_input_grad
#print axioms Verif.Opt.silent_input
#print axioms Verif.Opt.silent_unit
#print axioms Verif.Opt.fitted_grad
#print axioms Verif.Opt.fitted_stays
#print axioms Verif.NN.frozen_memory
#print axioms Verif.NN.frozen_predict
#print axioms Verif.NN.frozen_error
#print axioms Verif.NN.frozen_problem
#print axioms Verif.NN.elm_training
#print axioms Verif.NN.elm_limit
#print axioms Verif.NN.elm_classification
#print axioms Verif.NN.independent_fit
#print axioms Verif.NN.elm_memorises
#print axioms Verif.NN.random_features_exist
#print axioms Verif.PyMem.step_accounting
#print axioms Verif.PyMem.run_accounting
#print axioms Verif.PyMem.tidy_released
#print axioms Verif.PyMem.arrays_stay
#print axioms Verif.PyMem.transform_fails
#print axioms Verif.PyMem.kMeans_fails
#print axioms Verif.PyMem.init_again_fails
#print axioms Verif.PyMem.entry_fails
#print axioms Verif.PyMem.sample_fails
#print axioms Verif.PyMem.sigmaPi_unused_fails
#print axioms Verif.PyMem.addLayer_twice_ub
#print axioms Verif.PyMem.addLayer_freed_ub
#print axioms Verif.PyMem.shape_ignored_ub
#print axioms Verif.NN.absorbs
#print axioms Verif.NN.absorbs_iff
#print axioms Verif.NN.reaches
#print axioms Verif.NN.reaches_same
#print axioms Verif.NN.normalization_same
#print axioms Verif.NN.normalization_errors
#print axioms Verif.NN.transform_normalised
#print axioms Verif.NN.projection_absorbed
#print axioms Verif.NN.whitening_same
#print axioms Verif.NN.whitening_errors
#print axioms Verif.NN.pca_projected
#print axioms Verif.NN.zca_projected
#print axioms Verif.NN.zca_invertible
#print axioms Verif.NN.linear_hidden_absorbed
#print axioms Verif.NN.linear_hidden_same
#print axioms Verif.NN.narrow_confuses
#print axioms Verif.NN.bottleneck_fails
#print axioms Verif.LibSVM.libsvm_round_trip_partial
#print axioms Verif.LibSVM.libsvm_one_class_ub
#print axioms Verif.LibSVM.libsvm_one_of_c_ub
#print axioms Verif.LibSVM.libsvm_one_of_two_fails
#print axioms Verif.NN.predict_flipped
#print axioms Verif.NN.errorGradient_flipped
#print axioms Verif.NN.predictions_flipped
#print axioms Verif.NN.dead_iff
#print axioms Verif.NN.dead_silent
#print axioms Verif.NN.rectifier_flip_fails
#print axioms Verif.Opt.steps_signed
#print axioms Verif.Opt.optimize_signed
#print axioms Verif.Opt.net_signEquivariant
#print axioms Verif.Opt.training_flipped
#print axioms Verif.Opt.dead_forever
#print axioms Verif.Opt.zero_start
#print axioms Verif.Observe.training_log
#print axioms Verif.Observe.reports_once
#print axioms Verif.Observe.split_twice
#print axioms Verif.Observe.split_fails
#print axioms Verif.Observe.view_fails
#print axioms Verif.Observe.weighted_fails
#print axioms Verif.Observe.other_learner_fails
#print axioms Verif.Observe.no_targets_fails
#print axioms Verif.BCI.cache_limit
#print axioms Verif.BCI.cache_used
#print axioms Verif.BCI.reset_fails
#print axioms Verif.NN.features_allowed
#print axioms Verif.NN.classes_allowed
#print axioms Verif.NN.predict_relabelled
#print axioms Verif.NN.relabels_exists
#print axioms Verif.NN.errorGradient_relabelled
#print axioms Verif.NN.predictions_relabelled
#print axioms Verif.NN.conv_order_fails
#print axioms Verif.Opt.steps_renamedTo
#print axioms Verif.Opt.optimize_renamedTo
#print axioms Verif.Opt.net_renamedTo
#print axioms Verif.Opt.training_relabelled
#print axioms Verif.Opt.symmetric_forever
#print axioms Verif.Opt.equal_features_forever
#print axioms Verif.PoleWindow.exec_defined
#print axioms Verif.PoleWindow.slower_ub
#print axioms Verif.PoleWindow.speed_stuck
#print axioms Verif.PoleWindow.fastest
#print axioms Verif.PoleWindow.speed_fails
#print axioms Verif.PoleWindow.shown
#print axioms Verif.PoleWindow.shown_fails
#print axioms Verif.PoleWindow.cart_within
#print axioms Verif.PoleWindow.poles_drawn
#print axioms Verif.PoleWindow.force_shown
#print axioms Verif.PoleWindow.run_reports
#print axioms Verif.PoleWindow.run_ends
#print axioms Verif.PoleWindow.escape_fails
#print axioms Verif.PoleWindow.escape_idle
#print axioms Verif.PoleWindow.outer_untouched
#print axioms Verif.Stopwatch.stop_reports
#print axioms Verif.Stopwatch.stop_exact
#print axioms Verif.Stopwatch.set_back_fails
#print axioms Verif.Stopwatch.long_run_fails
#print axioms Verif.Stopwatch.getDuration_reports
#print axioms Verif.Stopwatch.stop_undisturbed
#print axioms Verif.Stopwatch.spirals_total
#print axioms Verif.Stopwatch.speller_total
#print axioms Verif.Stopwatch.short_runs_fail
#print axioms Verif.Stopwatch.evaluator_times
#print axioms Verif.Stopwatch.evaluator_training_fails
#print axioms Verif.Scripts.sarcos_nMSE
#print axioms Verif.Scripts.sarcos_honest
#print axioms Verif.Scripts.sarcos_units
#print axioms Verif.Scripts.sarcos_baseline
#print axioms Verif.Scripts.sarcos_constant_fails
#print axioms Verif.Scripts.sarcos_validation_fails
#print axioms Verif.Scripts.iris_partition
#print axioms Verif.Scripts.iris_classes
#print axioms Verif.Scripts.iris_order_fails
#print axioms Verif.Scripts.iris_oneOfC
#print axioms Verif.Scripts.iris_sets
#print axioms Verif.Scripts.iris_inputs
#print axioms Verif.Scripts.iris_leak_fails
#print axioms Verif.NN.predict_shifted
#print axioms Verif.NN.predictions_shifted
#print axioms Verif.NN.errorGradient_shifted
#print axioms Verif.NN.gradient_sum
#print axioms Verif.NN.positions_exist
#print axioms Verif.Opt.steps_moved
#print axioms Verif.Opt.steps_keeps
#print axioms Verif.Opt.training_shifted
#print axioms Verif.Opt.sums_conserved
#print axioms Verif.NN.predict_rescaled
#print axioms Verif.NN.predictions_rescaled
#print axioms Verif.NN.errorGradient_rescaled
#print axioms Verif.NN.gradient_balanced
#print axioms Verif.NN.unit_positions_exist
#print axioms Verif.Opt.plain_descent
#print axioms Verif.Opt.training_balance
#print axioms Verif.Opt.training_scale_matters
#print axioms Verif.StreamObjects.streams_are_values
#print axioms Verif.StreamObjects.benchmark_epochs
#print axioms Verif.StreamObjects.late_copy_ub
#print axioms Verif.StreamObjects.late_copy_loses
#print axioms Verif.StreamObjects.outlived_ub
#print axioms Verif.LibSVM.reader_two_classes_partial
#print axioms Verif.LibSVM.reader_many_classes_partial
#print axioms Verif.LibSVM.reader_one_class_ub
#print axioms Verif.LibSVM.reader_one_class_shifted
#print axioms Verif.LibSVM.reader_many_classes_ub
#print axioms Verif.NN.isometric_of_orthogonal
#print axioms Verif.NN.isometric_padding
#print axioms Verif.NN.isometric_twice
#print axioms Verif.NN.predict_turned
#print axioms Verif.NN.predictions_turned
#print axioms Verif.NN.errorGradient_turned
#print axioms Verif.NN.norm_turned
#print axioms Verif.Opt.steps_turned
#print axioms Verif.Opt.optimize_turned
#print axioms Verif.Opt.net_turnsTo
#print axioms Verif.Opt.training_turned
#print axioms Verif.Opt.stretching_matters
#print axioms Verif.Opt.l1_matters
#print axioms Verif.Opt.gains_matter
#print axioms Verif.Opt.gain_rule_partial
#print axioms Verif.Opt.reversal_grows
#print axioms Verif.Opt.downhill_shrinks
#print axioms Verif.Opt.kept_shrinks
#print axioms Verif.Opt.slope_gains
#print axioms Verif.Opt.slope_fails
#print axioms Verif.Opt.overshoot_grows
#print axioms Verif.Opt.overshoot_diverges
#print axioms Verif.Opt.even_converges
#print axioms Verif.Opt.documented_converges
#print axioms Verif.Opt.gains_diverge
#print axioms Verif.NetSem.recipe_hidden
#print axioms Verif.NetSem.recipe_predicts
#print axioms Verif.NetSem.recipe_predicts_exact
#print axioms Verif.NetSem.shifted_fails
#print axioms Verif.NetSem.reinitialized_fails
#print axioms Verif.NetSem.unseeded_time
#print axioms Verif.NN.separable_iff
#print axioms Verif.NN.separable_epochs
#print axioms Verif.NN.separable_training
#print axioms Verif.NN.small_error_correct
#print axioms Verif.NN.separator_error
#print axioms Verif.NN.bounded_weights
#print axioms Verif.NN.xor_unseparable
#print axioms Verif.NN.error_copies
#print axioms Verif.NN.gradient_copies
#print axioms Verif.NN.twice_repeated
#print axioms Verif.NN.gradient_copies_fails
#print axioms Verif.Opt.full_batch_copies
#print axioms Verif.Opt.net_same_full_batch
#print axioms Verif.Opt.net_training_copies
#print axioms Verif.PoleFp.play_ends
#print axioms Verif.PoleFp.applied_number
#print axioms Verif.PoleFp.applied_broken_fails
#print axioms Verif.PoleFp.success_partial
#print axioms Verif.PoleFp.broken_action_succeeds_fails
#print axioms Verif.PoleFp.broken_action_checked
#print axioms Verif.PoleFp.infinite_force_wins_fails
#print axioms Verif.PoleFp.restart_not_terminal
#print axioms Verif.PoleFp.exact_transition
#print axioms Verif.PoleFp.exact_terminal
#print axioms Verif.PoleFp.exact_restart
#print axioms Verif.EvalFp.regression_nan
#print axioms Verif.EvalFp.ce_nan
#print axioms Verif.EvalFp.errors_exist
#print axioms Verif.EvalFp.nan_class_fails
#print axioms Verif.EvalFp.nan_ignored
#print axioms Verif.EvalFp.accuracy_value
#print axioms Verif.EvalFp.broken_accuracy_fails
#print axioms Verif.EvalFp.broken_perfect_fails
#print axioms Verif.EvalFp.confusion_value
#print axioms Verif.EvalFp.broken_confusion_fails
#print axioms Verif.EvalFp.weighted_value
#print axioms Verif.EvalFp.broken_weighted_fails
#print axioms Verif.EvalFp.report_error
#print axioms Verif.EvalFp.report_counts
#print axioms Verif.EvalFp.broken_report_fails
#print axioms Verif.EvalFp.hits_ub
#print axioms Verif.EvalFp.decoding_exact
#print axioms Verif.EvalFp.exact_sse
#print axioms Verif.EvalFp.exact_mse
#print axioms Verif.EvalFp.exact_rmse
#print axioms Verif.EvalFp.exact_accuracy
#print axioms Verif.EvalFp.exact_confusion
#print axioms Verif.EvalFp.exact_weighted
#print axioms Verif.EvalFp.exact_hits
#print axioms Verif.SgdFp.checked_result
#print axioms Verif.SgdFp.checked_network
#print axioms Verif.SgdFp.nesterov_network
#print axioms Verif.SgdFp.nesterov_overflow_fails
#print axioms Verif.SgdFp.broken_gradient_checked
#print axioms Verif.SgdFp.update_sound
#print axioms Verif.SgdFp.broken_stays
#print axioms Verif.SgdFp.momentum_stays
#print axioms Verif.SgdFp.step_nan
#print axioms Verif.SgdFp.broken_converges_fails
#print axioms Verif.SgdFp.broken_result_fails
#print axioms Verif.SgdFp.nan_gradient_result_fails
#print axioms Verif.SgdFp.exact_update
#print axioms Verif.SgdFp.exact_continues
#print axioms Verif.NetFile.run_layers
#print axioms Verif.NetFile.net_round_trip
#print axioms Verif.NetFile.net_round_trip_exact
#print axioms Verif.NetFile.loads_unique
#print axioms Verif.NetFile.net_without_output_ub
#print axioms Verif.NetFile.compressed_blocks_ub
#print axioms Verif.NetFile.pooling_kernels
#print axioms Verif.NetFile.load_diverges_iff_partial
#print axioms Verif.NetFile.load_malformed_parameter_diverges
#print axioms Verif.NetFile.diverges_iff_no_outcome
#print axioms Verif.NN.parameters_one_to_one
#print axioms Verif.NN.parameters_concatenation
#print axioms Verif.NN.setParameters_stores
#print axioms Verif.NN.setParameters_short_ub
#print axioms Verif.NN.initialized_vector
#print axioms Verif.NN.backprop_gradient_mse
#print axioms Verif.NN.backprop_gradient_ce
#print axioms Verif.NN.value_ce
#print axioms Verif.NN.smoothFrom_fullyConnected
#print axioms Verif.NN.regularised_gradient_partial
#print axioms Verif.NN.regularised_gradient_fails
#print axioms Verif.NN.regularised_gradient_fails_example
#print axioms Verif.NN.errorGradient_hasDerivAt
#print axioms Verif.NN.error_mean
#print axioms Verif.NN.error_eq_value_partial
#print axioms Verif.NN.error_eq_value_fails
#print axioms Verif.NN.batch_prediction_partial
#print axioms Verif.NN.batch_order_partial
#print axioms Verif.NN.batch_prediction_fails
#print axioms Verif.NN.maxNorm_constraint
#print axioms Verif.NN.maxNorm_idempotent
#print axioms Verif.NN.setParameters_maxNorm
#print axioms Verif.NN.Conv.convInit_ok_iff
#print axioms Verif.NN.Conv.conv_forward
#print axioms Verif.NN.Conv.conv_output
#print axioms Verif.NN.Conv.conv_positions
#print axioms Verif.NN.Conv.conv_backward
#print axioms Verif.NN.Conv.conv_backprop
#print axioms Verif.NN.Pool.maxPoolInit_ok_iff
#print axioms Verif.NN.Pool.maxPool_forward
#print axioms Verif.NN.Pool.maxPool_backward
#print axioms Verif.NN.Pool.maxPool_backward_ub
#print axioms Verif.NN.Pool.maxPool_first_row
#print axioms Verif.NN.Pool.maxPool_max_partial
#print axioms Verif.NN.Pool.maxPool_fails
#print axioms Verif.NN.Pool.maxPool_error
#print axioms Verif.NN.Pool.maxPool_error_fails
#print axioms Verif.NN.Pool.maxPool_backprop
#print axioms Verif.NN.Pool.subsamplingInit_ok_iff
#print axioms Verif.NN.Pool.sub_forward
#print axioms Verif.NN.Pool.sub_backward
#print axioms Verif.NN.Pool.sub_output
#print axioms Verif.NN.Pool.sub_output_partial
#print axioms Verif.NN.Pool.sub_fails
#print axioms Verif.NN.Pool.sub_backprop
#print axioms Verif.NN.LRN.lrn_formula_partial
#print axioms Verif.NN.LRN.lrn_formula_fails
#print axioms Verif.NN.LRN.lrn_batch_dependent
#print axioms Verif.NN.LRN.lrn_backprop_partial
#print axioms Verif.NN.LRN.lrn_backprop_fails
#print axioms Verif.NN.dropout_on
#print axioms Verif.NN.dropout_off
#print axioms Verif.NN.callbacks_see_dropout_off
#print axioms Verif.NN.dropout_restored
#print axioms Verif.NN.dropout_not_restored_after_exception
#print axioms Verif.NN.act_hasDerivAt
#print axioms Verif.NN.act_range
#print axioms Verif.NN.act_monotone
#print axioms Verif.NN.logistic_not_continuous
#print axioms Verif.NN.softmax_row
#print axioms Verif.NN.softmax_eq
#print axioms Verif.NN.softmax_pos
#print axioms Verif.NN.softmax_sum
#print axioms Verif.NN.softmax_lt_iff
#print axioms Verif.NN.softmax_exponents
#print axioms Verif.NN.meanSquaredError_nonneg
#print axioms Verif.NN.meanSquaredError_eq_zero
#print axioms Verif.NN.crossEntropy_lower_bound
#print axioms Verif.NN.crossEntropy_ge_entropy
#print axioms Verif.NN.compressed_forward
#print axioms Verif.NN.compressed_gradient
#print axioms Verif.NN.compressed_backprop
#print axioms Verif.Compression.average_partial
#print axioms Verif.Compression.average_rows_sum
#print axioms Verif.Compression.average_one_block
#print axioms Verif.Compression.average_block_size
#print axioms Verif.Compression.edge_partial
#print axioms Verif.Compression.edge_constant_partial
#print axioms Verif.Compression.edge_odd
#print axioms Verif.Compression.average_ub
#print axioms Verif.Compression.average_oversized_fails
#print axioms Verif.Compression.factory_throws
#print axioms Verif.NN.propagateDataSet_dangling_ub
#print axioms Verif.NN.propagateDataSet_rows
#print axioms Verif.NN.propagateDataSet_width_ub
#print axioms Verif.NN.propagateDataSet_rows_fails
#print axioms Verif.SigmaPi.nodes_partial
#print axioms Verif.SigmaPi.nodes_total
#print axioms Verif.SigmaPi.sharing_fails
#print axioms Verif.SigmaPi.weights_partial
#print axioms Verif.SigmaPi.forward_ok
#print axioms Verif.SigmaPi.ready_of_nodes
#print axioms Verif.SigmaPi.error_signal_fails
#print axioms Verif.SigmaPi.bias_ub
#print axioms Verif.SigmaPi.few_inputs_ub
#print axioms Verif.SigmaPi.no_nodes_ub
#print axioms Verif.SigmaPi.distance_spec
#print axioms Verif.SigmaPi.distance_symm_partial
#print axioms Verif.SigmaPi.distance_translation_partial
#print axioms Verif.SigmaPi.slope_spec
#print axioms Verif.SigmaPi.slope_similar_partial
#print axioms Verif.SigmaPi.slope_symm_partial
#print axioms Verif.SigmaPi.angles_eq
#print axioms Verif.SigmaPi.triangle_partial
#print axioms Verif.SigmaPi.triangle_fails
#print axioms Verif.SigmaPi.turned_fails
#print axioms Verif.AlphaBeta.coefficients_stable
#print axioms Verif.AlphaBeta.coefficients_positive
#print axioms Verif.AlphaBeta.sign_irrelevant
#print axioms Verif.AlphaBeta.constant_input
#print axioms Verif.AlphaBeta.reset_forgets
#print axioms Verif.AlphaBeta.setParameters_forgets
#print axioms Verif.Opt.epochs_fair
#print axioms Verif.Opt.FairEpoch.all
#print axioms Verif.Opt.fairEpoch_batches
#print axioms Verif.Opt.schedule_closed_form
#print axioms Verif.Opt.schedule_ranges
#print axioms Verif.Opt.schedule_monotone
#print axioms Verif.Opt.gains_range
#print axioms Verif.Opt.descent_rule_partial
#print axioms Verif.Opt.Descent.plain
#print axioms Verif.Opt.nesterov_held_fails
#print axioms Verif.Opt.optimize_limit
#print axioms Verif.Opt.optimize_exact
#print axioms Verif.Opt.limit_zero_one_epoch
#print axioms Verif.Opt.interrupt_resumes
#print axioms Verif.Opt.interrupt_other_problem_ub
#print axioms Verif.Opt.reuse_partial
#print axioms Verif.Opt.step_congr
#print axioms Verif.Opt.reuse_fails
#print axioms Verif.ES.second_optimize_fails
#print axioms Verif.Interrupt.reports_iff_partial
#print axioms Verif.Interrupt.observation_exists
#print axioms Verif.Interrupt.restored
#print axioms Verif.Interrupt.unobserved_kills
#print axioms Verif.Interrupt.observed_survives
#print axioms Verif.Interrupt.nested_quiet
#print axioms Verif.Interrupt.nested_after_signal_fails
#print axioms Verif.Interrupt.copy_fails
#print axioms Verif.ES.result_best
#print axioms Verif.ES.restarts_doubling
#print axioms Verif.ES.reported_once
#print axioms Verif.ES.budget_partial
#print axioms Verif.ES.optimize_terminates
#print axioms Verif.ES.budget_calls_fails
#print axioms Verif.ES.budget_restarts_fails
#print axioms Verif.ES.manual_result_fails
#print axioms Verif.ES.restart_mid_generation_ub
#print axioms Verif.ES.result_early
#print axioms Verif.Rng.generateInt_range
#print axioms Verif.Rng.generateInt_onto
#print axioms Verif.Rng.generateIndex_range
#print axioms Verif.Rng.generate_range
#print axioms Verif.Rng.generate_upper
#print axioms Verif.Rng.generateIndices_perm
#print axioms Verif.Rng.generateIndices_again
#print axioms Verif.Rng.generateInt_overflow_ub
#print axioms Verif.Rng.generateIndex_large_fails
#print axioms Verif.Rng.seed_reproducible_partial
#print axioms Verif.Rng.seed_other_object_fails
#print axioms Verif.Rng.seed_view_fails
#print axioms Verif.Rng.seeded_values
#print axioms Verif.Rng.toInt_spec
#print axioms Verif.Eval.decoding_label
#print axioms Verif.Eval.IsLabel.unique
#print axioms Verif.Eval.accuracy_fraction
#print axioms Verif.Eval.weightedAccuracy_sum
#print axioms Verif.Eval.weightedAccuracy_range
#print axioms Verif.Eval.weightedAccuracy_uniform
#print axioms Verif.Eval.weightedAccuracy_short_ub
#print axioms Verif.Eval.confusionMatrix_counts
#print axioms Verif.Eval.confusionMatrix_sums
#print axioms Verif.Eval.confusionMatrix_single_ub
#print axioms Verif.Eval.classificationHits_partial
#print axioms Verif.Eval.classificationHits_fails
#print axioms Verif.Eval.rounded_ub
#print axioms Verif.Eval.hit_large_ub
#print axioms Verif.Eval.regression_measures
#print axioms Verif.Eval.regression_zero_iff
#print axioms Verif.Eval.sse_shape_ub
#print axioms Verif.Eval.evaluator_interval
#print axioms Verif.Eval.evaluator_zero_ub
#print axioms Verif.Pre.normalization_standardises
#print axioms Verif.Pre.normalization_refit
#print axioms Verif.Pre.normalization_new_data
#print axioms Verif.Pre.normalization_refuses
#print axioms Verif.Pre.scale_affine_partial
#print axioms Verif.Pre.scale_refuses
#print axioms Verif.Pre.scale_constant_fails
#print axioms Verif.Pre.scale_empty_ub
#print axioms Verif.Pre.filter_value
#print axioms Verif.Pre.filter_equation_partial
#print axioms Verif.Pre.filter_feedback_fails
#print axioms Verif.Pre.filter_long_ub
#print axioms Verif.Pre.downsample_value
#print axioms Verif.Pre.patches_are_windows
#print axioms Verif.Pre.patches_schedule_independent
#print axioms Verif.Pre.patches_refused
#print axioms Verif.Pre.patches_too_high_ub
#print axioms Verif.KM.kmeans_centres_are_means_partial
#print axioms Verif.KM.kmeans_range_partial
#print axioms Verif.KM.kmeans_transform
#print axioms Verif.KM.kmeans_refuses
#print axioms Verif.KM.kmeans_small_batch_ub
#print axioms Verif.White.pca_mean_zero
#print axioms Verif.White.total_variance
#print axioms Verif.White.pca_ratios
#print axioms Verif.White.pca_whiten_partial
#print axioms Verif.White.pca_whiten_fails
#print axioms Verif.White.pca_first_component_fails
#print axioms Verif.White.pca_short_ub
#print axioms Verif.White.pca_refuses
#print axioms Verif.White.zca_cov_partial
#print axioms Verif.White.zca_close_partial
#print axioms Verif.White.zca_identity_fails
#print axioms Verif.White.zca_refuses
#print axioms Verif.Ens.adaboost_distribution_partial
#print axioms Verif.Ens.adaboost_gain_partial
#print axioms Verif.Ens.adaboost_gain_fails
#print axioms Verif.Ens.adaboost_weights_sum_partial
#print axioms Verif.Ens.adaboost_weights_fails
#print axioms Verif.Ens.adaboost_prediction
#print axioms Verif.Ens.adaboost_train_ub
#print axioms Verif.Ens.predict_vector_ub
#print axioms Verif.Ens.bagging_mean_partial
#print axioms Verif.Ens.bagging_order_partial
#print axioms Verif.Ens.bagging_agreement_partial
#print axioms Verif.Ens.bag_train_ub
#print axioms Verif.Pack.pack_entries_partial
#print axioms Verif.Pack.unpack_pack
#print axioms Verif.Pack.pack_unpack
#print axioms Verif.Pack.pack_long
#print axioms Verif.Pack.pack_short_ub
#print axioms Verif.Pack.pack_huge_ub
#print axioms Verif.Pack.unpack_huge_ub
#print axioms Verif.Unsup.ip_round_trip
#print axioms Verif.Unsup.sae_round_trip
#print axioms Verif.Unsup.rbm_round_trip
#print axioms Verif.Unsup.rbm_gradient_entries
#print axioms Verif.Unsup.short_parameters_ub
#print axioms Verif.Unsup.rbm_decay_partial
#print axioms Verif.Unsup.rbm_l2_fails
#print axioms Verif.Unsup.rbm_l1_fails
#print axioms Verif.Unsup.rbm_l1_zero_fails
#print axioms Verif.Logging.log_filtered
#print axioms Verif.Logging.log_disabled
#print axioms Verif.Logging.log_level_disabled_refused
#print axioms Verif.Logging.logger_writes_partial
#print axioms Verif.Logging.logger_deactivated_partial
#print axioms Verif.Logging.logger_deactivated_fails
#print axioms Verif.Img.idx_pixels_partial
#print axioms Verif.Img.idx_pixels_unpadded
#print axioms Verif.Img.idx_padding_fails
#print axioms Verif.Img.idx_one_direction_fails
#print axioms Verif.Img.idx_label_fails
#print axioms Verif.Img.idx_short_file_fails
#print axioms Verif.Img.cifar_decodes
#print axioms Verif.Img.cifar_unknown_class
#print axioms Verif.Img.cifar_short_refused
#print axioms Verif.Img.cifar_last_record_fails
#print axioms Verif.Img.idx_many_images_fails
#print axioms Verif.Img.images_negative_ub
#print axioms Verif.Learner.crossValidation_dangling_ub
#print axioms Verif.Learner.crossValidationSets_ok
#print axioms Verif.Learner.learner_copy_ub
#print axioms Verif.NN.Kind.backprop
#print axioms Verif.Unsup.sae_gradient
#print axioms Verif.Unsup.ip_gradient_partial
#print axioms Verif.Unsup.ip_error_fails
#print axioms Verif.Unsup.ip_zero_slope_fails
#print axioms Verif.SigmaPi.distance_invariant
#print axioms Verif.SigmaPi.slope_invariant
#print axioms Verif.SigmaPi.triangle_invariant
#print axioms Verif.SigmaPi.distance_nodes
#print axioms Verif.SigmaPi.slope_nodes
#print axioms Verif.SigmaPi.triangle_nodes
#print axioms Verif.AlphaBeta.ramp_tracking
#print axioms Verif.AlphaBeta.constant_settles
#print axioms Verif.AlphaBeta.zero_parameter_fails
#print axioms Verif.NetSem.loaded_predicts_partial
#print axioms Verif.NetSem.loaded_predicts_exact
#print axioms Verif.NetSem.extreme_fails
#print axioms Verif.NetSem.compressed_fails
#print axioms Verif.NetSem.intrinsicPlasticity_fails
#print axioms Verif.NetSem.frozen_rbm_fails
#print axioms Verif.NetSem.rounding_fails
#print axioms Verif.NN.parameters_determine
#print axioms Verif.NN.frozen_rbm_not_determined
#print axioms Verif.Alglib.run_solves
#print axioms Verif.Alglib.optimize_spec
#print axioms Verif.Alglib.optimize_solves
#print axioms Verif.Alglib.steps_budget
#print axioms Verif.Alglib.step_calls
#print axioms Verif.Alglib.optimize_calls
#print axioms Verif.Alglib.optimize_depends
#print axioms Verif.Alglib.net_computes
#print axioms Verif.Alglib.net_computes_lma
#print axioms Verif.Alglib.net_lbfgs
#print axioms Verif.Alglib.cg_reuse
#print axioms Verif.Alglib.lma_reuse
#print axioms Verif.Alglib.lbfgs_reuse_partial
#print axioms Verif.Alglib.lbfgs_reuse_fails
#print axioms Verif.Alglib.lbfgs_reuse_witness_fails
#print axioms Verif.Alglib.criteria_ignored
#print axioms Verif.Alglib.zero_iterations_fails
#print axioms Verif.Alglib.lma_budget_fails
#print axioms Verif.Alglib.optimum_not_held_fails
#print axioms Verif.Alglib.result_before_ub
#print axioms Verif.Alglib.other_object_ub
#print axioms Verif.Alglib.lma_objective_fails
#print axioms Verif.NN.errorGradient_determined
#print axioms Verif.NN.errorAt_determined
#print axioms Verif.NN.error_determined
#print axioms Verif.Opt.errorGradientOf_eq
#print axioms Verif.Opt.range_accumulates
#print axioms Verif.Opt.gradient_accumulates
#print axioms Verif.Opt.errors_accumulates
#print axioms Verif.Opt.all_accumulates
#print axioms Verif.Opt.range_perm
#print axioms Verif.Opt.all_eq_range
#print axioms Verif.Opt.range_hasDerivAt
#print axioms Verif.Opt.plain_all
#print axioms Verif.Opt.net_errors
#print axioms Verif.Opt.net_gradient
#print axioms Verif.Opt.net_gradient_sum
#print axioms Verif.Opt.net_accumulated_fails
#print axioms Verif.Opt.end_index_ub
#print axioms Verif.Opt.negative_index_ub
#print axioms Verif.Opt.unchecked_index_ub
#print axioms Verif.Opt.wrong_size_ub
#print axioms Verif.NN.batch_value_mean
#print axioms Verif.NN.batch_gradient
#print axioms Verif.NN.batch_gradient_mean
#print axioms Verif.NN.batch_order
#print axioms Verif.NN.batch_repeated
#print axioms Verif.NN.error_order
#print axioms Verif.NN.errorGradient_order
#print axioms Verif.NN.batch_order_fails
#print axioms Verif.Opt.full_batch_order
#print axioms Verif.Opt.net_same_up_to_order
#print axioms Verif.Opt.net_training_order
#print axioms Verif.Opt.small_batch_order_fails
#print axioms Verif.Train.train_returns
#print axioms Verif.Train.train_flags
#print axioms Verif.Train.train_fresh
#print axioms Verif.Train.run_keeps
#print axioms Verif.Train.unknown_iff
#print axioms Verif.Train.thrown_leaks
#print axioms Verif.Train.unknown_fails
#print axioms Verif.Train.exception_fails
#print axioms Verif.NN.makeMLNN_builds
#print axioms Verif.NN.makeMLNN_none
#print axioms Verif.NN.makeMLNN_few_ub
#print axioms Verif.NN.mlnn_size
#print axioms Verif.NN.mlnn_outputs
#print axioms Verif.NN.mlnn_computes
#print axioms Verif.NN.mlnn_computes_ce
#print axioms Verif.NN.fillVector_ok
#print axioms Verif.NN.fillVector_ub
#print axioms Verif.NN.reports_iff
#print axioms Verif.NN.getLayer_iff
#print axioms Verif.NN.layerParameters_after_set
#print axioms Verif.NN.fullyConnected_order
#print axioms Verif.NN.fullyConnected_order_fails
#print axioms Verif.NN.sub_weights_twice
#print axioms Verif.NN.compressed_reports_other
#print axioms Verif.NN.rbm_reports_stale
#print axioms Verif.NN.sae_reports_ub
#print axioms Verif.NN.AnyLayer.pointers_isParam
#print axioms Verif.NN.grad_along
#print axioms Verif.NN.directional
#print axioms Verif.Opt.lt_of_neg_deriv
#print axioms Verif.Opt.update_descends
#print axioms Verif.Opt.step_descends
#print axioms Verif.Opt.fresh_state
#print axioms Verif.Opt.network_descends
#print axioms Verif.Opt.objective_descends
#print axioms Verif.Opt.oneWeight_error
#print axioms Verif.Opt.oneWeight_gradient
#print axioms Verif.Opt.large_step_fails
#print axioms Verif.Draw.average_eq
#print axioms Verif.Draw.average_sequences
#print axioms Verif.Draw.rate_close
#print axioms Verif.Draw.average_close
#print axioms Verif.Boltz.hidden_sampled
#print axioms Verif.Boltz.visible_sampled
#print axioms Verif.Boltz.hidden_probability
#print axioms Verif.Boltz.visible_probability
#print axioms Verif.Boltz.gibbs_stationary
#print axioms Verif.Boltz.chain_close
#print axioms Verif.Boltz.contrast_batch
#print axioms Verif.Boltz.equilibrium
#print axioms Verif.Boltz.biases_fixed
#print axioms Verif.Boltz.weights_expected
#print axioms Verif.Boltz.likelihood_gradient
#print axioms Verif.Boltz.likelihood_fixed
#print axioms Verif.Boltz.weights_fixed_fails
#print axioms Verif.Boltz.contrast_zero_ub
#print axioms Verif.Boltz.contrast_zero_stale
#print axioms Verif.NN.mask_rows
#print axioms Verif.NN.mask_run
#print axioms Verif.NN.masks_run
#print axioms Verif.NN.training_mean
#print axioms Verif.NN.training_average
#print axioms Verif.NN.training_error
#print axioms Verif.NN.expected_gradient
#print axioms Verif.NN.nonlinear_fails
#print axioms Verif.NN.probability_fails
#print axioms Verif.Opt.seq_converges
#print axioms Verif.Opt.plain_steps
#print axioms Verif.Opt.full_batch_descends
#print axioms Verif.Opt.full_batch_converges
#print axioms Verif.Opt.optimize_converges
#print axioms Verif.NN.linear_error
#print axioms Verif.NN.softmax_error
#print axioms Verif.NN.linear_curvature
#print axioms Verif.NN.softmax_curvature
#print axioms Verif.NN.least_squares_training
#print axioms Verif.NN.logistic_training
#print axioms Verif.NN.least_squares_limit
#print axioms Verif.NN.logistic_limit
#print axioms Verif.NN.decay_fails
#print axioms Verif.NN.large_rate_fails
#print axioms Verif.Opt.mini_batches_closer
#print axioms Verif.Opt.mini_batches_seen
#print axioms Verif.Opt.mini_batches_epochs
#print axioms Verif.Opt.mini_batches_limit
#print axioms Verif.Opt.mini_batches_optimize
#print axioms Verif.NN.picked_gradient
#print axioms Verif.NN.linear_meanOf
#print axioms Verif.NN.perfectFit_iff
#print axioms Verif.NN.mini_batch_training
#print axioms Verif.NN.mini_batch_closer
#print axioms Verif.NN.misfit_fails
#print axioms Verif.Opt.heavy_run
#print axioms Verif.Opt.momentum_bounded
#print axioms Verif.Opt.momentum_gradients
#print axioms Verif.Opt.steps_long
#print axioms Verif.Opt.momentum_terminates
#print axioms Verif.NN.momentum_least_squares
#print axioms Verif.NN.momentum_least_squares_ends
#print axioms Verif.Distorter.applyDistortion_runs
#print axioms Verif.Distorter.applyDistortion_nonsquare
#print axioms Verif.Distorter.constant
#print axioms Verif.Distorter.linear
#print axioms Verif.Distorter.translation
#print axioms Verif.Distorter.identity
#print axioms Verif.Distorter.scaling_exact
#print axioms Verif.Distorter.bounded_partial
#print axioms Verif.Distorter.affine_partial
#print axioms Verif.Distorter.applyDistortions_eq
#print axioms Verif.Distorter.range_fails
#print axioms Verif.Distorter.rotation_keeps_diagonal
#print axioms Verif.Distorter.rotation_fails
#print axioms Verif.NN.predict_exchanged
#print axioms Verif.NN.exchanges_exists
#print axioms Verif.NN.errorGradient_exchanged
#print axioms Verif.NN.predictions_exchanged
#print axioms Verif.NN.twins_iff
#print axioms Verif.NN.twins_same_output
#print axioms Verif.NN.half_exchange_fails
#print axioms Verif.Opt.steps_renamed
#print axioms Verif.Opt.optimize_renamed
#print axioms Verif.Opt.steps_sym
#print axioms Verif.Opt.training_exchanged
#print axioms Verif.Opt.twins_forever
#print axioms Verif.Opt.constant_start
#print axioms Verif.Poles.effectiveMass_pos
#print axioms Verif.Poles.integrate_rungeKutta
#print axioms Verif.Poles.transition_eq
#print axioms Verif.Poles.applied_eq
#print axioms Verif.Poles.torque_balance
#print axioms Verif.Poles.force_balance_partial
#print axioms Verif.Poles.force_balance_fails
#print axioms Verif.Poles.mirror_fails
#print axioms Verif.Poles.pole_falls
#print axioms Verif.Poles.integrate_moved
#print axioms Verif.Poles.equilibrium_forever
#print axioms Verif.Poles.episode
#print axioms Verif.Poles.restart_forgets
#print axioms Verif.Poles.unstarted_ub
#print axioms Verif.Poles.bounds_fails
#print axioms Verif.Poles.bounds_partial
#print axioms Verif.Smoothing.restart_forgets
#print axioms Verif.Smoothing.line_errors
#print axioms Verif.Smoothing.line_tracked
#print axioms Verif.Smoothing.constant_exact
#print axioms Verif.Smoothing.bounded
#print axioms Verif.Smoothing.second_forecast_fails
#print axioms Verif.Spirals.rawPoints_rows
#print axioms Verif.Spirals.point_injective
#print axioms Verif.Spirals.rows_partition
#print axioms Verif.Spirals.create_spec
#print axioms Verif.Spirals.balanced
#print axioms Verif.Spirals.scale_invariant
#print axioms Verif.Spirals.common_scale_fails
#print axioms Verif.Spirals.diameter_without_effect
#print axioms Verif.Spirals.arguments_fails
#print axioms Verif.BCI.cache_transparent
#print axioms Verif.BCI.instance_history
#print axioms Verif.BCI.decimateSignal_value
#print axioms Verif.BCI.decimate_constant
#print axioms Verif.BCI.load_flashes
#print axioms Verif.BCI.loaded_once
#print axioms Verif.BCI.index_partial
#print axioms Verif.BCI.getInstance_index_partial
#print axioms Verif.BCI.uneven_ub
#print axioms Verif.BCI.missing_flash_ub
#print axioms Verif.BCI.late_flash_ub
#print axioms Verif.BCI.reload_fails
#print axioms Verif.BCI.unloaded_ub
#print axioms Verif.BCI.inputs_partial
#print axioms Verif.BCI.inputs_fails
#print axioms Verif.BCI.evaluate_history
#print axioms Verif.BCI.perfect_learner
#print axioms Verif.BCI.no_trials
#print axioms Verif.BCI.trials_saturate
#print axioms Verif.BCI.evaluate_codes
#print axioms Verif.BCI.best_spec
#print axioms Verif.BCI.scores_value
#print axioms Verif.BCI.correct_le
#print axioms Verif.Ens.margin_bound
#print axioms Verif.Ens.boosting_bound_partial
#print axioms Verif.Ens.boosting_rate_partial
#print axioms Verif.Ens.boosting_zero_partial
#print axioms Verif.Ens.worse_fails
#print axioms Verif.Ens.soft_fails
#print axioms Verif.Ens.bagging_error_partial
#print axioms Verif.Ens.bagging_better_partial
#print axioms Verif.Ens.bagging_worst_partial
#print axioms Verif.Ens.bagging_plurality_partial
#print axioms Verif.Ens.bagging_majority_partial
#print axioms Verif.Ens.majority_fails
#print axioms Verif.Par.parallel_for
#print axioms Verif.Par.Computes.ends
#print axioms Verif.Par.conv_parallel
#print axioms Verif.Par.clear_parallel
#print axioms Verif.Par.max_parallel
#print axioms Verif.Par.maxBack_parallel
#print axioms Verif.Par.sub_parallel
#print axioms Verif.Par.lrn_parallel
#print axioms Verif.Par.lrnBack_parallel
#print axioms Verif.Par.sigma_parallel
#print axioms Verif.Par.patches_parallel
#print axioms Verif.Par.accumulate_race
#print axioms Verif.NN.Conv.moved
#print axioms Verif.NN.Pool.max_moved
#print axioms Verif.NN.Pool.sub_moved_partial
#print axioms Verif.NN.LRN.moved
#print axioms Verif.NN.stack_moved_partial
#print axioms Verif.NN.Pool.sub_moved_fails
#print axioms Verif.NN.LRN.rows_fail
#print axioms Verif.Neuro.train_search
#print axioms Verif.Neuro.train_errors
#print axioms Verif.Neuro.episode_evaluates
#print axioms Verif.Neuro.abandoneIn_ok
#print axioms Verif.Neuro.benchmark_reports_partial
#print axioms Verif.Neuro.poles_end
#print axioms Verif.Neuro.failure_ub
#print axioms Verif.Neuro.success_lost
#print axioms Verif.Neuro.demonstration_fails
#print axioms Verif.Octopus.episode_follows
#print axioms Verif.Octopus.episodes_follow_partial
#print axioms Verif.Octopus.failure_cuts_partial
#print axioms Verif.Octopus.episode_ends
#print axioms Verif.Octopus.episode_calls
#print axioms Verif.Octopus.success_valid
#print axioms Verif.Octopus.closed_ub
#print axioms Verif.Octopus.episode_closed_ub
#print axioms Verif.Octopus.closed_digits
#print axioms Verif.Octopus.closed_garbage
#print axioms Verif.Octopus.long_token_splits
#print axioms Verif.Octopus.actions_ub
#print axioms Verif.Octopus.init_ub
#print axioms Verif.OctopusAgent.agent_learns_partial
#print axioms Verif.OctopusAgent.episode_learns
#print axioms Verif.OctopusAgent.init_idle
#print axioms Verif.OctopusAgent.Waits.tell
#print axioms Verif.OctopusAgent.Idle.ask
#print axioms Verif.OctopusAgent.over_first_ub
#print axioms Verif.OctopusAgent.over_stale
#print axioms Verif.NetFile.cut_ends
#print axioms Verif.NetFile.every_break
#print axioms Verif.NetFile.cut_at_start
#print axioms Verif.NetFile.cut_in_keyword
#print axioms Verif.NetFile.cut_in_parameters_word
#print axioms Verif.NetFile.cut_between_ub
#print axioms Verif.NetFile.cut_missing_ub
#print axioms Verif.NetFile.cut_in_last_argument
#print axioms Verif.NetFile.cutArg_full
#print axioms Verif.NetFile.cut_in_parameters
#print axioms Verif.NetFile.cut_accepted_fails
#print axioms Verif.NetFile.crash_loses_old
