{
 "claims": [
  {
   "property": "C01",
   "status": "proved",
   "theorems": [
    "Verif.Backward.backward_returns"
   ],
   "note": "Every acyclic graph, output list, initial gradients and schedule, under the contract that a backward function delivers one AccGrad per operand occurrence that is an operator requiring gradients."
  },
  {
   "property": "C02",
   "status": "proved",
   "theorems": [
    "Verif.Backward.backward_chain_rule",
    "Verif.Backward.chain_rule_unique",
    "Verif.Backward.backward_schedule_independent"
   ],
   "note": "Gradients are compared in WithZero M, so absence of a gradient is covered as well."
  },
  {
   "property": "C03",
   "status": "proved",
   "theorems": [
    "Verif.Backward.backward_once_with_complete_gradient",
    "Verif.Backward.log_extends",
    "Verif.Backward.backward_gradient_final"
   ],
   "note": ""
  },
  {
   "property": "C04",
   "status": "proved",
   "theorems": [
    "Verif.Backward.backward_leaves_clean",
    "Verif.Backward.session_reusable"
   ],
   "note": ""
  },
  {
   "property": "C05",
   "status": "proved",
   "theorems": [
    "Verif.Backward.backward_returns_iff",
    "Verif.Backward.backward_hangs",
    "Verif.Backward.lib_backward_returns_iff",
    "Verif.Backward.lib_backward_hangs",
    "Verif.Backward.lib_backward_returns",
    "Verif.Backward.logSumExp_hangs"
   ],
   "note": "Proved in the precise form: the call returns iff every gradient-requiring operator operand gets as many contributions as it has occurrences; the unrestricted first sentence is false and logSumExp_hangs proves its negation for LogSumExp of several arguments."
  },
  {
   "property": "C06",
   "status": "partial",
   "theorems": [
    "Verif.Backward.backward_error",
    "Verif.Backward.backward_outcome",
    "Verif.Backward.backward_retry_partial",
    "Verif.Backward.backward_retry_hangs",
    "Verif.Backward.backward_retry_iff"
   ],
   "note": "Seeding and the error are proved in full. The last sentence (retry after the error completes) is false in general: backward_retry_iff characterises exactly when it completes, backward_retry_partial gives the gradients then, backward_retry_hangs proves it otherwise hangs."
  },
  {
   "property": "C07",
   "status": "proved",
   "theorems": [
    "Verif.Backward.backward_untouched_of_unreachable",
    "Verif.Backward.stopGrad_is_constant"
   ],
   "note": ""
  },
  {
   "property": "C08",
   "status": "proved",
   "theorems": [
    "Verif.Backward.requiresGrad_iff_trainable",
    "Verif.Backward.backward_untouched_of_not_requiresGrad",
    "Verif.Backward.lib_respectful"
   ],
   "note": ""
  },
  {
   "property": "C09",
   "status": "proved",
   "theorems": [
    "Verif.Backward.gradients_are_derivatives",
    "Verif.Backward.gradients_are_derivatives_single",
    "Verif.Backward.exists_unique_eval"
   ],
   "note": ""
  },
  {
   "property": "C10",
   "status": "proved",
   "theorems": [
    "Verif.Forward.forward_value_eq_sync",
    "Verif.Forward.forward_results_eq_sync",
    "Verif.Forward.forward_completes",
    "Verif.Forward.forward_terminates",
    "Verif.Forward.forward_limit"
   ],
   "note": ""
  },
  {
   "property": "C12",
   "status": "proved",
   "theorems": [
    "Verif.Dense.T_spec",
    "Verif.Dense.T_involutive"
   ],
   "note": ""
  },
  {
   "property": "C13",
   "status": "proved",
   "theorems": [
    "Verif.Dense.transposeInPlace_eq_T"
   ],
   "note": "Termination is the existence of a sufficient number of loop iterations (fuel)."
  },
  {
   "property": "C14",
   "status": "proved",
   "theorems": [
    "Verif.Dense.at2_isSome_iff",
    "Verif.Dense.at1_spec",
    "Verif.Dense.set2_spec",
    "Verif.Dense.set1_spec",
    "Verif.Dense.extractRow_spec",
    "Verif.Dense.extractColumn_spec",
    "Verif.Dense.slice_spec"
   ],
   "note": ""
  },
  {
   "property": "C15",
   "status": "partial",
   "theorems": [
    "Verif.Dense.concatV_spec",
    "Verif.Dense.splitV_spec",
    "Verif.Dense.splitV_concatV",
    "Verif.Dense.concatV_splitV",
    "Verif.Dense.stack_spec",
    "Verif.Dense.splitV_beyond",
    "Verif.Dense.splitVCap_nil"
   ],
   "note": "Proved for vectors whose backing slice has no spare capacity. With spare capacity SplitV accepts sizes adding up to more than the size and returns elements beyond the vector: splitV_beyond."
  },
  {
   "property": "C16",
   "status": "proved",
   "theorems": [
    "Verif.Dense.reshape_spec",
    "Verif.Dense.flatten_spec",
    "Verif.Dense.resizeVector_spec",
    "Verif.Dense.padRows_spec",
    "Verif.Dense.padColumns_spec",
    "Verif.Dense.appendRows_spec",
    "Verif.Dense.augment_spec",
    "Verif.Dense.swapInPlace_spec",
    "Verif.Dense.apply_spec"
   ],
   "note": ""
  },
  {
   "property": "C17",
   "status": "proved",
   "theorems": [
    "Verif.Dense.mul_spec",
    "Verif.Dense.mulT_spec",
    "Verif.Dense.mulT_eq_T_mul",
    "Verif.Dense.mul_assoc",
    "Verif.Dense.dotUnitary_spec"
   ],
   "note": "Over a commutative semiring; the pure-Go kernels are modelled, not the amd64 assembly."
  },
  {
   "property": "C11",
   "status": "partial",
   "theorems": [
    "Verif.Heap.accGrad_sum",
    "Verif.Heap.isSum_perm",
    "Verif.Heap.accGrad_frame",
    "Verif.Heap.accGrad_transpose"
   ],
   "note": "The elements of the gradient: proved in full. The part 'later changes to the arguments do not change the gradient' fails for in-place changes of the argument's shape: accGrad_transpose proves that for every non-square first contribution."
  },
  {
   "property": "C18",
   "status": "partial",
   "theorems": [
    "Verif.Heap.shape_frame_partial",
    "Verif.Heap.shapes_constant_partial",
    "Verif.Heap.clone_transpose",
    "Verif.Heap.softmax_reshapes_receiver",
    "Verif.Heap.accGrad_transpose"
   ],
   "note": "The claim is false; clone_transpose, softmax_reshapes_receiver and accGrad_transpose prove its negation for all matrices of the kind, the partial theorems say exactly when a shape can change."
  },
  {
   "property": "C19",
   "status": "proved",
   "theorems": [
    "Verif.VecFn.softmax_eq",
    "Verif.VecFn.softmax_distribution",
    "Verif.VecFn.softmax_shift",
    "Verif.VecFn.softmax_order",
    "Verif.VecFn.max_spec",
    "Verif.VecFn.argMax_spec"
   ],
   "note": "Over the reals."
  },
  {
   "property": "C20",
   "status": "partial",
   "theorems": [
    "Verif.VecFn.sparseMax_partial",
    "Verif.VecFn.sparseTau_spec",
    "Verif.VecFn.isSparsemax_unique",
    "Verif.VecFn.isSparsemax_closest",
    "Verif.VecFn.sparseMax_wrong",
    "Verif.VecFn.sparseMax_panics"
   ],
   "note": "The threshold is right for every vector. SparseMax itself is the projection onto the simplex when no probability exceeds the largest entry (sparseMax_partial); for all other vectors the claim is false: sparseMax_wrong proves the entries then sum to less than 1, sparseMax_panics that it panics on negative vectors."
  },
  {
   "property": "C25",
   "status": "partial",
   "theorems": [
    "Verif.VecFn.scalarMax_partial",
    "Verif.VecFn.scalarMax_negative",
    "Verif.VecFn.scalarMax_correct_iff",
    "Verif.VecFn.reduceMax_spec",
    "Verif.VecFn.logSumExpVec_eq",
    "Verif.VecFn.logSumExpList_eq",
    "Verif.VecFn.logSoftmax_eq"
   ],
   "note": "LogSumExp, LogSoftmax and ReduceMax in full. ScalarMax is the maximum exactly in the cases of scalarMax_correct_iff; scalarMax_negative proves it false otherwise."
  },
  {
   "property": "C32",
   "status": "proved",
   "theorems": [
    "Verif.Crf.goldScore_spec",
    "Verif.Crf.totalScore_spec",
    "Verif.Crf.negativeLogLoss_spec",
    "Verif.Crf.loss_normalised",
    "Verif.CrfSpec.mem_labelings",
    "Verif.CrfSpec.nodup_labelings"
   ],
   "note": "Over the reals."
  },
  {
   "property": "C33",
   "status": "proved",
   "theorems": [
    "Verif.Crf.viterbi_spec"
   ],
   "note": "Over any linearly ordered commutative additive monoid; scores start at -inf (WithBot)."
  },
  {
   "property": "C34",
   "status": "partial",
   "theorems": [
    "Verif.Attention.attendOne_spec",
    "Verif.Attention.attWeight_distribution",
    "Verif.Attention.causal",
    "Verif.Attention.decode_eq_forward_partial",
    "Verif.Attention.chunk_mask_wrong",
    "Verif.Attention.cross_uses_cache"
   ],
   "note": "Weights, causality and token-by-token decoding are proved in full. For chunks of more than one token after a non-empty cache the claim is false: chunk_mask_wrong proves that a query then gives no weight to its own key."
  },
  {
   "property": "C21",
   "status": "partial",
   "theorems": [
    "Verif.GradFn.smooth_correct",
    "Verif.GradFn.tan_correct",
    "Verif.GradFn.hardSigmoid_correct",
    "Verif.GradFn.hardTanh_correct",
    "Verif.GradFn.relu_correct",
    "Verif.GradFn.abs_correct",
    "Verif.GradFn.reciprocal_correct",
    "Verif.GradFn.sqrt_correct",
    "Verif.GradFn.pow_correct",
    "Verif.GradFn.log_correct",
    "Verif.GradFn.elu_correct",
    "Verif.GradFn.celu_correct",
    "Verif.GradFn.leakyRelu_correct",
    "Verif.GradFn.selu_correct",
    "Verif.GradFn.softPlus_correct",
    "Verif.GradFn.threshold_correct",
    "Verif.GradFn.softShrink_correct_partial",
    "Verif.GradFn.softShrink_zero",
    "Verif.GradFn.swishB_correct_partial",
    "Verif.GradFn.swishB_panics",
    "Verif.GradFn.gelu_partial",
    "Verif.GradFn.gelu_backward_partial",
    "Verif.GradFn.gelu_wrong",
    "Verif.GradFn.leakyRelu_slope_wrong",
    "Verif.GradFn.prod_correct",
    "Verif.GradFn.div_correct",
    "Verif.GradFn.addScalar_correct",
    "Verif.GradFn.subScalar_correct",
    "Verif.GradFn.reverseSubScalar_correct",
    "Verif.GradFn.prodScalar_correct",
    "Verif.GradFn.divScalar_correct"
   ],
   "note": "Proved for every operator of the list at every point of differentiability except: GELU (the derivative uses rounded constants, gelu_wrong; gelu_partial bounds the error), SoftShrink with lambda 0 (softShrink_zero), SwishB on matrices that are not vectors (the backward pass panics, swishB_panics). Parameter operands of the ELU family get no gradient (leakyRelu_slope_wrong); the theorems for that family are about the first operand."
  },
  {
   "property": "C22",
   "status": "partial",
   "theorems": [
    "Verif.GradFn.add_correct",
    "Verif.GradFn.sub_correct",
    "Verif.GradFn.dot_correct",
    "Verif.GradFn.mul_correct",
    "Verif.GradFn.mulT_correct",
    "Verif.GradFn.affine_correct",
    "Verif.GradFn.slice_correct",
    "Verif.GradFn.transpose_correct",
    "Verif.GradFn.rowView_correct",
    "Verif.GradFn.colView_correct",
    "Verif.GradFn.atMat_correct",
    "Verif.GradFn.atVec_correct",
    "Verif.GradFn.reshape_correct",
    "Verif.GradFn.flatten_correct",
    "Verif.GradFn.copy_correct",
    "Verif.GradFn.dropout_correct",
    "Verif.GradFn.stack_correct",
    "Verif.GradFn.reduceSum_vjp",
    "Verif.GradFn.reduceMean_vjp",
    "Verif.GradFn.concat_vjp",
    "Verif.GradFn.appendRows_vjp",
    "Verif.GradFn.rotateR_correct_partial",
    "Verif.GradFn.rotateR_full",
    "Verif.GradFn.rotateR_zero"
   ],
   "note": "The gradient values are proved right for every operator of the list. Missing: RotateR by the full size, whose forward pass is the identity and whose backward pass panics (rotateR_full), and AppendRows with an empty result."
  },
  {
   "property": "C24",
   "status": "partial",
   "theorems": [
    "Verif.GradFn.maxPooling_forward_partial",
    "Verif.GradFn.maxPooling_correct_partial",
    "Verif.GradFn.maxPooling_small",
    "Verif.GradFn.maxPooling_small_grad",
    "Verif.GradFn.maxPooling_wide",
    "Verif.GradFn.maxPooling_narrow"
   ],
   "note": "Square windows with an entry above the smallest positive float are pooled right and, with a unique maximum, differentiated right. The full claim is false: maxPooling_small (a window without such an entry yields the constant), maxPooling_small_grad (the gradients are written on top of each other at (0,0)), maxPooling_wide (more rows than columns panics), maxPooling_narrow (fewer rows than columns ignores columns)."
  },
  {
   "property": "C23",
   "status": "partial",
   "theorems": [
    "Verif.GradFn.reduceSum_correct_iff",
    "Verif.GradFn.reduceMean_correct_iff",
    "Verif.GradFn.concat_correct_iff",
    "Verif.GradFn.appendRows_correct_iff",
    "Verif.GradFn.max_correct_iff",
    "Verif.GradFn.min_correct_iff",
    "Verif.GradFn.reduceSum_accumulate"
   ],
   "note": "For the operators that violate the claim the theorems say exactly for which operands the gradients have the right shape, and that accumulating a second contribution then panics. For the operators of C21, C22 and C47 whose theorem is named `_correct` the shapes are right for all operands."
  },
  {
   "property": "C47",
   "status": "partial",
   "theorems": [
    "Verif.GradFn.max_vjp",
    "Verif.GradFn.min_vjp",
    "Verif.GradFn.max_self",
    "Verif.GradFn.min_self",
    "Verif.GradFn.reduceMax_correct",
    "Verif.GradFn.scalarMax_correct",
    "Verif.GradFn.scalarMax_negative_grad",
    "Verif.GradFn.softmax_correct",
    "Verif.GradFn.sparseMaxLoss_correct",
    "Verif.GradFn.sparseMax_correct_partial",
    "Verif.GradFn.sparseMax_negative_wrong"
   ],
   "note": "Max and Min away from ties (ties lose the gradient: max_self, min_self), ReduceMax with a unique maximum, ScalarMax with a unique positive maximum (all negative: scalarMax_negative_grad), Softmax of a column vector and SparseMaxLoss everywhere. SparseMax is proved where its threshold is positive and no entry equals it, and proved wrong at every vector with negative threshold and positive maximum; what remains are the kinks."
  },
  {
   "property": "C48",
   "status": "proved",
   "theorems": [
    "Verif.Backward.library_gradients_are_derivatives",
    "Verif.Backward.library_gradient_adds",
    "Verif.Backward.library_gradient_single",
    "Verif.Backward.library_partial_derivative",
    "Verif.Backward.library_backward_returns"
   ],
   "note": "The hypothesis OpsCorrect is discharged by the theorems named `_correct` of C21, C22, C24, C47 and GradBinary; ProgramExample shows it for the squared error of an affine layer."
  },
  {
   "property": "C39",
   "status": "proved",
   "theorems": [
    "Verif.Losses.mae_eq",
    "Verif.Losses.mae_zero_iff",
    "Verif.Losses.mse_eq",
    "Verif.Losses.mse_zero_iff",
    "Verif.Losses.crossEntropy_isSome",
    "Verif.Losses.crossEntropy_eq",
    "Verif.Losses.crossEntropy_softmax",
    "Verif.Losses.crossEntropy_pos",
    "Verif.Losses.crossEntropy_distribution",
    "Verif.Losses.perplexity_eq",
    "Verif.Losses.weightedCrossEntropy_eq",
    "Verif.Losses.focalLoss_zero",
    "Verif.Losses.focalLoss_bounds",
    "Verif.Losses.weightedFocalLoss_eq",
    "Verif.Losses.nll_eq",
    "Verif.Losses.zeroOne_zero_iff",
    "Verif.Losses.norm2_zero_iff",
    "Verif.Losses.oneHot_zero_iff",
    "Verif.Losses.distance_eq",
    "Verif.Losses.lossSeq_eq",
    "Verif.Losses.lossSeq_none",
    "Verif.Losses.mseSeq_eq",
    "Verif.Losses.maeSeq_eq",
    "Verif.Losses.crossEntropySeq_eq",
    "Verif.Losses.spg_eq"
   ],
   "note": "over the reals, for every vector, class index and sequence; also where the losses panic"
  },
  {
   "property": "C37",
   "status": "proved",
   "theorems": [
    "Verif.Recurrent.run_append",
    "Verif.Recurrent.forward_prefix",
    "Verif.Recurrent.forward_causal",
    "Verif.Recurrent.srn_forward",
    "Verif.Recurrent.gru_forward",
    "Verif.Recurrent.lstm_forward",
    "Verif.Recurrent.srn_outputs",
    "Verif.Recurrent.gru_outputs",
    "Verif.Recurrent.lstm_outputs",
    "Verif.Recurrent.lstm_cell_bound",
    "Verif.Recurrent.lstm_refined_bound",
    "Verif.Recurrent.gate_mismatch"
   ],
   "note": "Forward equals the recurrences of the comments started from zeros (a nil state); bounds, streaming and causality for all sequences"
  },
  {
   "property": "C36",
   "status": "proved",
   "theorems": [
    "Verif.BiRNN.reversed_eq",
    "Verif.BiRNN.birnn_aligned",
    "Verif.BiRNN.birnn_isSome",
    "Verif.BiRNN.merge_sum",
    "Verif.BiRNN.merge_prod",
    "Verif.BiRNN.merge_avg",
    "Verif.BiRNN.merge_concat",
    "Verif.BiRNN.result_correct",
    "Verif.BiRNN.inputs_unchanged",
    "Verif.BiRNN.no_crash",
    "Verif.BiRNN.progress",
    "Verif.BiRNN.step_decreases",
    "Verif.BiRNN.birnn_any_schedule"
   ],
   "note": "functional statement for recurrent cells, and a machine with the two goroutines and the WaitGroup: every schedule terminates with the same result"
  },
  {
   "property": "C38",
   "status": "proved",
   "theorems": [
    "Verif.Norm.layerNorm_eq",
    "Verif.Norm.layerNorm_normalised",
    "Verif.Norm.layerNorm_shift",
    "Verif.Norm.layerNormSimple_eq",
    "Verif.Norm.layerNormSimple_normalised",
    "Verif.Norm.rmsNorm_eq",
    "Verif.Norm.rmsNorm_normalised",
    "Verif.Norm.fixNorm_eq",
    "Verif.Norm.scaleNorm_eq",
    "Verif.Norm.adaNorm_eq",
    "Verif.Norm.bnForward_eq",
    "Verif.Norm.bnForwardT_eq",
    "Verif.Norm.train_eq",
    "Verif.Norm.expAvg_const",
    "Verif.Norm.bMean_biased",
    "Verif.Norm.normalised_close",
    "Verif.Norm.bMean_close"
   ],
   "note": "over the reals; the batch statistics are those of the code, whose divisor is n + 1e-5 instead of n (bMean_biased)"
  },
  {
   "property": "C26",
   "status": "partial",
   "theorems": [
    "Verif.Optimize.at_most_once",
    "Verif.Optimize.error_genuine",
    "Verif.Optimize.error_path_waits",
    "Verif.Optimize.settled_partial",
    "Verif.Optimize.measure_decreases",
    "Verif.Optimize.no_deadlock",
    "Verif.Optimize.returns_early",
    "Verif.Optimize.returns_before_anything",
    "Verif.Optimize.error_lost_late_panic",
    "Verif.Optimize.can_succeed"
   ],
   "note": "Proved for every schedule: no parameter is optimised twice, the concurrency limit, returned errors are genuine, the error path waits, every schedule is finite and never deadlocks, and at rest everything was done. The claim itself is false: returns_early, returns_before_anything and error_lost_late_panic give, for every number of parameters, schedules in which it fails."
  },
  {
   "property": "C27",
   "status": "partial",
   "theorems": [
    "Verif.Optim.sgd_plain",
    "Verif.Optim.sgd_momentum",
    "Verif.Optim.sgd_nesterov",
    "Verif.Optim.adaGrad_history",
    "Verif.Optim.rmsProp_history",
    "Verif.Optim.adam_history",
    "Verif.Optim.adam_corrected",
    "Verif.Optim.average_const",
    "Verif.Optim.average_bounds",
    "Verif.Optim.foreign_state",
    "Verif.Optim.gradient_cleared",
    "Verif.Optim.adamW_history_partial",
    "Verif.Optim.adamW_violated",
    "Verif.Optim.adamW_history_violated",
    "Verif.Optim.radam_history_partial",
    "Verif.Optim.radam_tractable",
    "Verif.Optim.radam_violated",
    "Verif.Optim.radam_history_violated",
    "Verif.Optim.lamb_history_partial",
    "Verif.Optim.lamb_length",
    "Verif.Optim.lamb_violated",
    "Verif.Optim.lamb_history_violated"
   ],
   "note": "SGD, momentum, Nesterov, AdaGrad, RMSProp and Adam follow the published rules for every history. AdamW, RAdam and LAMB follow other recurrences (given), which differ from the published ones (violations proved)."
  },
  {
   "property": "C28",
   "status": "partial",
   "theorems": [
    "Verif.Clip.clipValue_spec",
    "Verif.Clip.clipNorm_spec",
    "Verif.Clip.totalNorm_spec",
    "Verif.Clip.clipNorm_invalid",
    "Verif.Clip.clipValue_panics",
    "Verif.Clip.clipNorm_panics",
    "Verif.Clip.clipNorm_window",
    "Verif.Clip.clipNorm_shared"
   ],
   "note": "Proved for distinct parameters which all have gradients. Violations proved: a parameter without gradient panics; within 1e-7 below the limit gradients are changed; a parameter delivered twice is scaled twice."
  },
  {
   "property": "C29",
   "status": "partial",
   "theorems": [
    "Verif.Decay.exponential_rates",
    "Verif.Decay.exponential_partial",
    "Verif.Decay.exponential_violated",
    "Verif.Decay.exponential_past_end",
    "Verif.Decay.exponential_grows",
    "Verif.Decay.hyperbolic_partial",
    "Verif.Decay.hyperbolic_rates",
    "Verif.Decay.hyperbolic_violated"
   ],
   "note": "Exponential decay is right for at least two steps; with one step it drops to 0, with none it grows. Hyperbolic decay never increases the rate but falls below final."
  },
  {
   "property": "C40",
   "status": "proved",
   "theorems": [
    "Verif.Rand.uint64n_spec",
    "Verif.Rand.uint64n_lt",
    "Verif.Rand.uint64n_uniform",
    "Verif.Rand.uint64n_total",
    "Verif.Rand.intn_lt",
    "Verif.Rand.int31n_eq",
    "Verif.Rand.int63_spec",
    "Verif.Rand.uint32_spec",
    "Verif.Rand.float64_eq",
    "Verif.Rand.float64_range",
    "Verif.Rand.float32_range",
    "Verif.Rand.perm_draws",
    "Verif.Rand.perm_perm",
    "Verif.Rand.perm_uniform",
    "Verif.Rand.perm_total",
    "Verif.Rand.shuffle_perm",
    "Verif.Rand.shuffle_draws",
    "Verif.Rand.shuffle_uniform",
    "Verif.Rand.shuffle_total",
    "Verif.Rand.read_bytes",
    "Verif.Rand.read_split",
    "Verif.Rand.read_seed",
    "Verif.Rand.unique_spec",
    "Verif.Rand.unique_diverges",
    "Verif.Rand.unique_all_diverges",
    "Verif.Rand.uniqueIdx_spec"
   ],
   "note": "For every source. Uniformity is by counting draws; with the library's generator every loop ends (from the full period). GetUniqueRandomInt never returns 0 and never returns at all where 0 is needed."
  },
  {
   "property": "C41",
   "status": "proved",
   "theorems": [
    "Verif.Rand.pcg_recurrence",
    "Verif.Rand.pcg_period",
    "Verif.Rand.pcg_no_repeat",
    "Verif.Rand.pcg_reaches",
    "Verif.Rand.stream_periodic",
    "Verif.Rand.stream_equidistributed",
    "Verif.Rand.unmarshal_marshal",
    "Verif.Rand.unmarshal_isSome",
    "Verif.Rand.restored_stream"
   ],
   "note": "Period exactly 2^128 from every state, every state reached from every other, and every word put out exactly 2^64 times per period. The model's first words agree with regress_test.go."
  },
  {
   "property": "C49",
   "status": "proved",
   "theorems": [
    "Verif.Rand.weightedChoice_spec",
    "Verif.Rand.weightedChoice_positive",
    "Verif.Rand.weightedChoice_short"
   ],
   "note": "Over any ordered field; weightedChoice_short is the violation for weights with too small a sum."
  },
  {
   "property": "C44",
   "status": "proved",
   "theorems": [
    "Verif.Init.dropout_spec",
    "Verif.Init.dropout_one",
    "Verif.Init.dropout_zero",
    "Verif.Init.dropout_shape",
    "Verif.Init.dropout_unbiased",
    "Verif.Init.bernoulli_spec",
    "Verif.Init.bernoulli_rounds"
   ],
   "note": "Over the reals and any source of random words; dropout uses float64 masks, so the rounding of bernoulli_rounds does not reach it."
  },
  {
   "property": "C45",
   "status": "proved",
   "theorems": [
    "Verif.Init.fill_spec",
    "Verif.Init.uniform_spec",
    "Verif.Init.uniform_range",
    "Verif.Init.xavierUniform_range",
    "Verif.Init.gain_range",
    "Verif.Init.achlioptas_spec",
    "Verif.Init.constant_spec",
    "Verif.Init.normal_spec"
   ],
   "note": "Over the reals; in floating point the upper end can be reached by rounding. NormFloat64 is a parameter."
  },
  {
   "property": "C42",
   "status": "partial",
   "theorems": [
    "Verif.Marshal.unmarshal_marshal",
    "Verif.Marshal.roundTrip_partial",
    "Verif.Marshal.wrong_dtype",
    "Verif.Marshal.large_dimension",
    "Verif.Marshal.stale_gradient",
    "Verif.Marshal.big_endian_wrong",
    "Verif.Marshal.unchecked_shape"
   ],
   "note": "Missing: the claim is false where the receiving matrix already has a gradient and on big-endian machines. The wire format of the FlatBuffers library (not in the repository) is assumed."
  },
  {
   "property": "C46",
   "status": "partial",
   "theorems": [
    "Verif.Format.format_isSome_iff",
    "Verif.Format.format_ok_partial",
    "Verif.Format.format_large",
    "Verif.Format.format_text",
    "Verif.Format.format_aligned",
    "Verif.Format.formatVerb_ok"
   ],
   "note": "The exact condition for a panic is proved; the claim is false for widths larger than the widest element. strconv is a parameter."
  },
  {
   "property": "C43",
   "status": "proved",
   "theorems": [
    "Verif.Conv.conv2D_isSome_iff",
    "Verif.Conv.conv2D_spec",
    "Verif.Conv.conv2D_backward",
    "Verif.Conv.conv1D_isSome_iff",
    "Verif.Conv.conv1D_spec",
    "Verif.Conv.conv1D_backward",
    "Verif.Conv.channel_spec",
    "Verif.Conv.channel_depthWise",
    "Verif.Conv.layer2D_spec",
    "Verif.Conv.newGrads_spec",
    "Verif.Conv.conv1x1_spec"
   ],
   "note": "Both convolutions succeed exactly when the kernel is not empty and each stride reaches the end of the input exactly; the elements are the window sums; the backward passes of the operators created give the adjoints of the two linear maps. The layers convolution1d, convolution2d and conv1x1 are covered for the values."
  },
  {
   "property": "C30",
   "status": "partial",
   "theorems": [
    "Verif.Traversal.forEachParam_partial",
    "Verif.Traversal.forEachParamStrict_partial",
    "Verif.Traversal.apply_partial",
    "Verif.Traversal.forEachParam_sublist",
    "Verif.Traversal.seq_stops",
    "Verif.Traversal.forEachParam_loses",
    "Verif.Traversal.map_order",
    "Verif.Traversal.map_order_matters",
    "Verif.Traversal.strict_visits_nested",
    "Verif.Traversal.apply_panics",
    "Verif.Traversal.apply_misses",
    "Verif.Traversal.shared_panics",
    "Verif.Traversal.zeroGrad_partial",
    "Verif.Traversal.moduleList_append",
    "Verif.Traversal.channels_complete",
    "Verif.Traversal.streamParams_prefix",
    "Verif.Traversal.parametersChan_sublist",
    "Verif.Traversal.parametersChan_skips",
    "Verif.Traversal.apply_traverser"
   ],
   "note": "The three traversals are exact for every structure whose slices and maps contain only parameters, models, values with their own traversal and sync maps (keys strings or integers). Without the condition the code only visits a sublist; the violations are proved: elements after a nil or foreign element are lost, map order decides what is visited, strict traversal enters nested models with their own traversal, Apply panics on them at the top. Missing: cyclic structures."
  },
  {
   "property": "C31",
   "status": "partial",
   "theorems": [
    "Verif.Embedding.encode_spec",
    "Verif.Embedding.embedding_spec",
    "Verif.Embedding.run_agree_partial",
    "Verif.Embedding.run_covers",
    "Verif.Embedding.zeroAll_clears",
    "Verif.Embedding.acc_sum",
    "Verif.Embedding.clear_stale",
    "Verif.Embedding.reload_panics",
    "Verif.Embedding.direct_missed",
    "Verif.Embedding.accBad_stale"
   ],
   "note": "Exact agreement of the set with the gradients for every history of AccGrad, ZeroGrad on embeddings and ZeroGrad of the model; covering (nothing missed, ZeroGrad complete) also with optimizer steps and nn.ZeroGrad. The violations are proved: stale set after an optimizer step, panic after loading, direct gradients missed. Missing from the full statement because false: agreement after those operations."
  },
  {
   "property": "C35",
   "status": "partial",
   "theorems": [
    "Verif.MultiHead.project_spec",
    "Verif.MultiHead.forward_spec",
    "Verif.MultiHead.new_works_iff",
    "Verif.MultiHead.project_operands",
    "Verif.MultiHead.operands_right_iff",
    "Verif.MultiHead.concat_self",
    "Verif.MultiHead.backward_never_returns",
    "Verif.MultiHead.concat_requiresGrad_hangs",
    "Verif.MultiHead.backward_prepares_partial",
    "Verif.MultiHead.concat_backward_panics",
    "Verif.MultiHead.prepare_returns",
    "Verif.MultiHead.prepare_hangs",
    "Verif.MultiHead.requiresGrad_correct",
    "Verif.MultiHead.requiresGrad_returns"
   ],
   "note": "Values are right for every number of heads and length (project_spec, forward_spec). Acyclicity fails: the first concatenation is its own operand and Backward never returns (backward_never_returns, general); concatenations i with 0<i, i*n<L panic (concat_backward_panics); backward_prepares_partial is what holds. new_works_iff: a layer made by New works exactly when n divides size."
  },
  {
   "property": "C50",
   "status": "proved",
   "theorems": [
    "Verif.DerivedOps.sum_spec",
    "Verif.DerivedOps.mean_spec",
    "Verif.DerivedOps.maximum_spec",
    "Verif.DerivedOps.minimum_spec",
    "Verif.DerivedOps.biLinear_eq",
    "Verif.DerivedOps.biAffine_eq",
    "Verif.DerivedOps.positiveELU_eq",
    "Verif.DerivedOps.positiveELU_pos",
    "Verif.DerivedOps.views_eq",
    "Verif.DerivedOps.stack_rowViews",
    "Verif.DerivedOps.separateMatrix_eq",
    "Verif.DerivedOps.separateVec_spec",
    "Verif.DerivedOps.concat_separateVec",
    "Verif.DerivedOps.splitVec_spec",
    "Verif.DerivedOps.concat_splitVec",
    "Verif.DerivedOps.map2_spec",
    "Verif.DerivedOps.pad_spec",
    "Verif.DerivedOps.flattenLayer_eq"
   ],
   "note": "SplitVec serves column vectors only; its success condition is part of splitVec_spec."
  },
  {
   "property": "C51",
   "status": "partial",
   "theorems": [
    "Verif.DerivedOps.logSumExp_gradient_partial",
    "Verif.DerivedOps.logSumExp_gradient_sum",
    "Verif.DerivedOps.logSumExp_row_fails"
   ],
   "note": "Column vectors. For a row vector with more than one element the value exists but the backward pass fails (logSumExp_row_fails)."
  },
  {
   "property": "C52",
   "status": "partial",
   "theorems": [
    "Verif.Layers.parse_spec",
    "Verif.Layers.names_complete",
    "Verif.Layers.parse_name",
    "Verif.Layers.forward_formula_partial",
    "Verif.Layers.elu_negative",
    "Verif.Layers.softPlus_gap",
    "Verif.Layers.supported_iff",
    "Verif.Layers.missing_params",
    "Verif.Layers.softmax_forward",
    "Verif.Layers.sparseMax_forward"
   ],
   "note": "ELU, SELU and SoftShrink follow their documented formula for parameters that are not negative only (elu_negative); SoftPlus deviates above its threshold by design (softPlus_gap). Softmax, LogSoftmax and SparseMax are the vector operators of C25."
  },
  {
   "property": "C53",
   "status": "proved",
   "theorems": [
    "Verif.Layers.highway_forward",
    "Verif.Layers.highway_between",
    "Verif.Layers.sqrDist_forward",
    "Verif.Layers.sqrDist_zero_iff"
   ],
   "note": ""
  },
  {
   "property": "C54",
   "status": "partial",
   "theorems": [
    "Verif.Layers.mixer_forward_partial",
    "Verif.Layers.mixer_length"
   ],
   "note": "Holds for sequences of exactly Channels vectors; every other length panics (mixer_length), although the check refuses longer ones only."
  },
  {
   "property": "C55",
   "status": "partial",
   "theorems": [
    "Verif.Layers.sgu_forward_partial",
    "Verif.Layers.sgu_empty",
    "Verif.Layers.sgu_odd",
    "Verif.Layers.gLayer_forward",
    "Verif.Layers.gmlp_forward_partial",
    "Verif.Layers.gmlp_padding",
    "Verif.Layers.gmlp_bounds"
   ],
   "note": "Even inner size. With an odd Dim*FFMult the constructors succeed and every forward pass panics (sgu_odd)."
  },
  {
   "property": "C56",
   "status": "partial",
   "theorems": [
    "Verif.SLSTM.forward_partial",
    "Verif.SLSTM.hidden_bounded",
    "Verif.SLSTM.sentence_matrix_ignored",
    "Verif.SLSTM.not_forward",
    "Verif.SLSTM.sizes_differ",
    "Verif.SLSTM.empty_and_no_steps",
    "Verif.SLSTM.one_step"
   ],
   "note": "forward value proved for equal sizes with U of the input activation in place of V; V is never read, different sizes panic"
  },
  {
   "property": "C57",
   "status": "partial",
   "theorems": [
    "Verif.LockedRand.linearizable",
    "Verif.LockedRand.no_deadlock",
    "Verif.LockedRand.terminates",
    "Verif.LockedRand.method_results",
    "Verif.LockedRand.valid_calls_partial",
    "Verif.LockedRand.panic_deadlock",
    "Verif.LockedRand.relock_deadlock",
    "Verif.LockedRand.intn_blocks",
    "Verif.LockedRand.nested_blocks"
   ],
   "note": "linearizable always; no call waits for ever as long as no call panics; after a recovered panic everything blocks"
  },
  {
   "property": "C58",
   "status": "partial",
   "theorems": [
    "Verif.Asm.add_kernel",
    "Verif.Asm.sub_kernel",
    "Verif.Asm.div_kernel",
    "Verif.Asm.addConst_kernel",
    "Verif.Asm.mulConst_kernel",
    "Verif.Asm.dotProd_kernel",
    "Verif.Asm.sum_kernel",
    "Verif.Asm.zip_eq_purego",
    "Verif.Asm.const_eq_purego",
    "Verif.Asm.red_eq_purego",
    "Verif.Asm.zip_no_bounds_check",
    "Verif.Asm.routines_supported",
    "Verif.Asm.elementwise_supported",
    "Verif.Asm.reductions_need_sse3",
    "Verif.Asm.Run.det"
   ],
   "note": "Everything but the last sentence is proved for all inputs. The last sentence holds on processors with SSE3 (routines_supported) and fails without: the SSE fallbacks of sum and dot product contain HADDPS/HADDPD (reductions_need_sse3). For floats the sum and dot product are only claimed up to reordering, that is over exact arithmetic."
  },
  {
   "property": "C59",
   "status": "partial",
   "theorems": [
    "Verif.Asm.zip_eq_purego",
    "Verif.Asm.add_kernel",
    "Verif.Asm.sub_kernel",
    "Verif.Asm.div_kernel",
    "Verif.Asm.purego_shifted",
    "Verif.Asm.avx_shifted",
    "Verif.Asm.shifted_differs"
   ],
   "note": "True when the operands are the same slice or disjoint (zip_eq_purego, *_kernel). False for windows shifted by one element: the portable loop gives prefix sums (purego_shifted, any length), AVX gives the element-wise sums within a register (avx_shifted), so platforms differ (shifted_differs)."
  },
  {
   "property": "C60",
   "status": "partial",
   "theorems": [
    "Verif.ExpLog.exp32_spec",
    "Verif.ExpLog.exp32_short",
    "Verif.ExpLog.pureFn_spec",
    "Verif.ExpLog.log32_spec",
    "Verif.ExpLog.exp32_eq_pure_partial",
    "Verif.ExpLog.log32_eq_pure_partial",
    "Verif.ExpLog.lane_junk",
    "Verif.ExpLog.log_avx_eq_sse",
    "Verif.ExpLog.exp_avx_eq_sse",
    "Verif.ExpLog.exp_lane_nan",
    "Verif.ExpLog.exp_lane_hi_ieee",
    "Verif.ExpLog.log_lane_nan",
    "Verif.ExpLog.log_lane_ieee",
    "Verif.ExpLog.log_lane_nonpos",
    "Verif.ExpLog.log32_zero_iff",
    "Verif.ExpLog.nan_by_position",
    "Verif.ExpLog.clamp_range",
    "Verif.ExpLog.exponent_range",
    "Verif.ExpLog.lower_agree",
    "Verif.ExpLog.exp_avx_eq_sse_ieee",
    "Verif.ExpLog.exp_accurate",
    "Verif.ExpLog.exp_accurate_below",
    "Verif.ExpLog.exp_finite",
    "Verif.ExpLog.exp_saturates",
    "Verif.LogPoly.Q_log",
    "Verif.ExpLog.log_accurate",
    "Verif.ExpLog.log_denormal",
    "Verif.ExpLog.exp32_accurate_partial",
    "Verif.ExpLog.log32_accurate_partial"
   ],
   "note": "Placement, bounds, in-place use, independence of register contents and equality of the two instruction sets are proved for all inputs. The claim on special values is false and its negation is proved: zeros give minus infinity exactly when the length is below the width or one short of a multiple of it; a NaN in a whole block becomes a finite number. Accuracy, with binary32 arithmetic modelled bit by bit and related to the reals: both routines have relative error at most 2^-21, the exponential on [-87.68, 88.376], the logarithm on all positive normal numbers; above 88.5 the exponential is less than 92 % of the right value, and every denormal has the logarithm of 2^-126. math.Exp and math.Log of the scalar rest are parameters."
  },
  {
   "property": "C61",
   "status": "proved",
   "theorems": [
    "Verif.Zipf.newZipf_isSome",
    "Verif.Zipf.zipf_range",
    "Verif.Zipf.acc_volume",
    "Verif.Zipf.ret_volume",
    "Verif.Zipf.zipf_distribution",
    "Verif.Zipf.zipf_terminates"
   ],
   "note": "In exact real arithmetic; the uniform numbers are independent and uniform on [0,1). Rounding of float64 is not modelled."
  },
  {
   "property": "C62",
   "status": "partial",
   "theorems": [
    "Verif.FloatSlice.equals32_iff",
    "Verif.FloatSlice.equals64_iff",
    "Verif.FloatSlice.equal_symm_partial",
    "Verif.FloatSlice.equal_up",
    "Verif.FloatSlice.equal_not_symm",
    "Verif.FloatSlice.inDelta_spec_partial",
    "Verif.FloatSlice.inDelta_nan",
    "Verif.FloatSlice.inDelta_nan32",
    "Verif.FloatSlice.length_differs",
    "Verif.FloatSlice.shape_differs",
    "Verif.FloatSlice.inDelta_spec32_partial"
   ],
   "note": "Equals converts the other slice to the receiver's type, so Equal is not symmetric between 32-bit and 64-bit matrices (equal_not_symm); InDelta accepts NaN against everything (inDelta_nan). Proved: characterisation, symmetry for equal types, InDelta without NaN."
  },
  {
   "property": "C63",
   "status": "partial",
   "theorems": [
    "Verif.Gob.load_dump",
    "Verif.Gob.dumpToFile_nil_iff",
    "Verif.Gob.dumpToFile_reports_partial",
    "Verif.Gob.dumpToFile_close_lost",
    "Verif.Gob.loadFromFile_close_lost",
    "Verif.Gob.file_roundtrip",
    "Verif.Gob.load_truncated",
    "Verif.Gob.second_load_lost"
   ],
   "note": "A failing Close is never reported (dumpToFile_close_lost) and Load consumes what follows the object (second_load_lost). Proved: the other errors are reported, round trip through files, truncation detected."
  },
  {
   "property": "C64",
   "status": "partial",
   "theorems": [
    "Verif.Gonum.axpyUnitary_kernel",
    "Verif.Gonum.axpyUnitaryTo_kernel",
    "Verif.Gonum.axpyUnitary_eq_purego",
    "Verif.Gonum.axpyUnitaryTo_eq_purego",
    "Verif.Gonum.axpyUnitary_short",
    "Verif.Gonum.axpyUnitaryTo_short",
    "Verif.Gonum.matrixMul_kernel",
    "Verif.Gonum.mulT_kernel",
    "Verif.Gonum.cumSum_kernel",
    "Verif.Gonum.cumSum_eq_purego",
    "Verif.Gonum.cumSum_short",
    "Verif.Gonum.cumSum_order",
    "Verif.Gonum.cumSum_not_purego"
   ],
   "note": "Proved for AxpyUnitary and AxpyUnitaryTo with any arithmetic (equality with the portable loop needs only commutativity of the two operations), and for MatrixMul, MulT and CumSum in exact arithmetic. The code does not satisfy the rest: with arithmetic that is not associative CumSum differs from the portable loop (cumSum_not_purego, cumSum_order), and with a destination that is too short the assembly works on the shorter length where the portable code panics (axpyUnitary_short, cumSum_short)."
  },
  {
   "property": "C65",
   "status": "partial",
   "theorems": [
    "Verif.Gonum.gemvN_kernel",
    "Verif.Gonum.gemvN_empty",
    "Verif.Gonum.gemvN_eq_purego",
    "Verif.Gonum.gemvN_noColumns",
    "Verif.Gonum.mulVec_kernel"
   ],
   "note": "False for a matrix without columns: the assembly returns before it clears or scales y (gemvN_empty), the portable function scales it (gemvN_noColumns). For at least one row and column both leave alpha*A*x + beta*y. Mul is right in all cases because its result starts as zeros (mulVec_kernel). The strided part of the routine, which spago never calls, is modelled but not proved about."
  },
  {
   "property": "C66",
   "status": "partial",
   "theorems": [
    "Verif.New.newDense_shape",
    "Verif.New.newDense_both",
    "Verif.New.newDense_backing",
    "Verif.New.newDense_grad",
    "Verif.New.newDense_WF",
    "Verif.New.newScalar_eq",
    "Verif.New.linear_new",
    "Verif.New.linear_isSome_iff",
    "Verif.New.linear_fresh",
    "Verif.New.srn_new",
    "Verif.New.gru_new",
    "Verif.New.lstm_new",
    "Verif.New.recurrent_negative",
    "Verif.New.withRefinedGates_spec",
    "Verif.New.biGRU_new",
    "Verif.New.biLSTM_forward",
    "Verif.New.biBiLSTM_new",
    "Verif.New.biBiLSTM_forward",
    "Verif.New.layerNorm_new",
    "Verif.New.rmsNorm_new",
    "Verif.New.batchNorm_new",
    "Verif.New.batchNorm_train",
    "Verif.New.batchNorm_train_small",
    "Verif.New.highway_new",
    "Verif.New.sqrDist_new",
    "Verif.New.crf_new",
    "Verif.New.mixer_new",
    "Verif.New.conv1x1_new",
    "Verif.New.sgu_new",
    "Verif.New.sgu_new_odd",
    "Verif.New.gmlp_new",
    "Verif.New.slstm_new",
    "Verif.New.multiHead_new",
    "Verif.New.multiHead_none",
    "Verif.New.conv_new",
    "Verif.New.embedding_new",
    "Verif.New.embedding_none_iff"
   ],
   "note": "Proved for all sizes. Fails as stated for the gating unit of odd size: sgu.New and gmlp.New succeed and Forward panics on every input (sgu_new_odd). The product of two sizes is assumed not to overflow."
  },
  {
   "property": "C67",
   "status": "proved",
   "theorems": [
    "Verif.Tape.program_backward_returns",
    "Verif.Tape.program_gradient",
    "Verif.Tape.program_gradient_adds",
    "Verif.Tape.program_used_grad",
    "Verif.Tape.program_keeps_grad",
    "Verif.Tape.program_partial_derivative",
    "Verif.Tape.output_now",
    "Verif.Tape.sgd_descends",
    "Verif.Tape.sgdStep_iff",
    "Verif.GradFn.safe_correctOn",
    "Verif.GradFn.safe_serves",
    "Verif.Tape.Network.trains"
   ],
   "note": "For every program over the operators listed in Spec/Tape.lean (`Safe`: the library's operators with the side conditions under which they are right; the others are the violations recorded under C05, C06, C24, C47). The hypotheses of C48 are discharged for all of them at once."
  },
  {
   "property": "C68",
   "status": "proved",
   "theorems": [
    "Verif.Record.srn_trains",
    "Verif.Record.gru_trains",
    "Verif.Record.lstm_trains",
    "Verif.Record.trains_of_sim"
   ],
   "note": "Trains (Spec/Record.lean) is stated about the recorded program (Model/Record.lean) and the recurrences of Spec/Recurrent.lean. Real arithmetic; a scalar loss seeded with 1."
  },
  {
   "property": "C69",
   "status": "proved",
   "theorems": [
    "Verif.Record.net_trains",
    "Verif.Record.net_sim"
   ],
   "note": "Networks are the terms of `Net` (Model/Network.lean); `Net.apply` (Spec/Network.lean) is the function a network stands for, `Net.Fits` the dimensions of its parameters and `Net.Regular` the side condition on ReLU and roots. Real arithmetic."
  },
  {
   "property": "C70",
   "status": "proved",
   "theorems": [
    "Verif.Record.learn_ends",
    "Verif.Record.batch_gradient",
    "Verif.Record.batch_partial_derivative",
    "Verif.Record.batch_descends",
    "Verif.Record.learn_keeps",
    "Verif.Record.net_batch_gradient",
    "Verif.Record.net_batch_descends",
    "Verif.Regression.epoch_step",
    "Verif.Regression.regression_runs",
    "Verif.Regression.regression_converges",
    "Verif.Regression.regression_prints"
   ],
   "note": "Real arithmetic. Optimize does not wait for its goroutines (C26); the model of an epoch lets them finish before the next epoch begins."
  },
  {
   "property": "C71",
   "status": "partial",
   "theorems": [
    "Verif.CpuX86.init_total",
    "Verif.CpuX86.detect_avx",
    "Verif.CpuX86.detect_avx2",
    "Verif.CpuX86.detect_fma",
    "Verif.CpuX86.fma_alone",
    "Verif.CpuX86.options_spec",
    "Verif.CpuX86.flags_spec",
    "Verif.CpuX86.elementwise_executable",
    "Verif.CpuX86.routines_executable_partial",
    "Verif.CpuX86.runOn_iff",
    "Verif.CpuX86.reductions_never_return",
    "Verif.CpuX86.expLog_executable",
    "Verif.CpuX86.add_on_processor",
    "Verif.CpuX86.dotProd_on_processor_partial",
    "Verif.CpuX86.detect_avx512"
   ],
   "note": "Everything but the last sentence is proved in full. The last sentence is proved for the elementwise functions and the exponential and logarithm on every amd64 processor, and for the sum and the dot product on processors with SSE3. Without SSE3 it is false: the fallbacks of sum and dot product lead through HADDPS/HADDPD on every path, so no call ever returns (reductions_never_return). HasFMA alone does not look at the operating system (fma_alone); the one use of it also asks for HasAVX."
  },
  {
   "property": "C72",
   "status": "partial",
   "theorems": [
    "Verif.DenseMisc.norm_right_iff",
    "Verif.DenseMisc.norm_pnorm_partial",
    "Verif.DenseMisc.norm_one",
    "Verif.DenseMisc.norm_two",
    "Verif.DenseMisc.normalize2_spec",
    "Verif.DenseMisc.doNonZero_visits",
    "Verif.DenseMisc.doNonZero_spec",
    "Verif.DenseMisc.copy_spec",
    "Verif.DenseMisc.setData_spec",
    "Verif.DenseMisc.zeros_spec"
   ],
   "note": "The claim about Norm is false: the code takes no absolute values. norm_right_iff says for which vectors and powers it is right (no negative element, or an even power); everything else is proved in full."
  },
  {
   "property": "C73",
   "status": "partial",
   "theorems": [
    "Verif.Rand.norm_round",
    "Verif.Rand.exp_round",
    "Verif.Rand.norm_range",
    "Verif.Rand.norm_bound",
    "Verif.Rand.exp_range",
    "Verif.Rand.exp_zero",
    "Verif.Rand.exp_infinite",
    "Verif.Rand.norm_infinite",
    "Verif.Rand.zig_total",
    "Verif.Rand.strip_words",
    "Verif.Rand.strip_words_exp",
    "Verif.Rand.tail_proposals",
    "Verif.Rand.norm_density",
    "Verif.Rand.exp_density"
   ],
   "note": "Proved: one round, ranges, termination with the library's generator, density within 5e-5 of the documented distribution (real arithmetic, uniform positions within a strip; tables up to rounding to float32). Violations proved: ExpFloat64 can return 0 (documented range is (0, MaxFloat64]) and +Inf, NormFloat64 an infinite number."
  },
  {
   "property": "C74",
   "status": "partial",
   "theorems": [
    "Verif.Dense.max_spec",
    "Verif.Dense.min_spec",
    "Verif.Dense.clip_spec",
    "Verif.Dense.sum_spec",
    "Verif.Dense.cumSum_spec",
    "Verif.Dense.range_spec",
    "Verif.Dense.rangeCap_nil",
    "Verif.Dense.range_beyond",
    "Verif.Dense.identity_spec",
    "Verif.Dense.oneHot_spec",
    "Verif.Dense.equal_spec",
    "Verif.Dense.Max_spec"
   ],
   "note": "All of it for backing slices without spare capacity; with spare capacity Range does not panic at an end beyond the size (range_beyond)."
  },
  {
   "property": "C75",
   "status": "partial",
   "theorems": [
    "Verif.Optim.adam_loop_partial",
    "Verif.Optim.adam_loop_ticked",
    "Verif.Optim.adam_step_iff",
    "Verif.Optim.adam_second_step",
    "Verif.Optim.adam_loop_violated",
    "Verif.Optim.adam_loop_limit",
    "Verif.Optim.default_rate",
    "Verif.Optim.radam_loop_partial",
    "Verif.Optim.radam_becomes_tractable",
    "Verif.Optim.lamb_loop_partial",
    "Verif.Optim.clockless_loop"
   ],
   "note": "Proved for SGD, AdaGrad and RMSProp (clockless_loop) and for Adam when the caller announces every iteration (adam_loop_ticked). With Optimize alone the clock stays at time step 1 for ever: adam_loop_partial, radam_loop_partial and lamb_loop_partial say what the loop computes, adam_loop_violated and adam_loop_limit that it is not the published method."
  },
  {
   "property": "C76",
   "status": "proved",
   "theorems": [
    "Verif.Tape.program_results_gradient",
    "Verif.Tape.program_results_partial_derivative",
    "Verif.Tape.program_results_outcome"
   ],
   "note": "Programs of the operators of the list Safe (C67). Operators other than the results hold no gradients before. Floats are reals."
  },
  {
   "property": "C77",
   "status": "partial",
   "theorems": [
    "Verif.Examples.addition_prints",
    "Verif.Examples.perceptron_prints",
    "Verif.Examples.generateBatch_spec",
    "Verif.Examples.generateBatch_range",
    "Verif.Examples.sinusoid_learns_cosine",
    "Verif.Examples.sinusoid_evaluation_violated",
    "Verif.Examples.sinusoid_init",
    "Verif.Examples.sinusoid_gradient",
    "Verif.Examples.sinusoid_epochs",
    "Verif.Examples.sinusoid_same_numbers"
   ],
   "note": "Violated for sinusoid: the targets are the cosines of the inputs, and all five lines 'sin(x) = ... vs ... (actual)' name the cosine (sinusoid_learns_cosine, sinusoid_evaluation_violated). The rest is proved; the regression example is C70."
  },
  {
   "property": "C78",
   "status": "proved",
   "theorems": [
    "Verif.Record.first_step_descends",
    "Verif.Record.net_first_step_descends",
    "Verif.Record.downhill_descends",
    "Verif.Record.make_downhill",
    "Verif.Record.sgd_downhill",
    "Verif.Record.sgd_plain_downhill",
    "Verif.Record.adaGrad_downhill",
    "Verif.Record.rmsProp_downhill",
    "Verif.Record.adam_downhill",
    "Verif.Record.radam_downhill",
    "Verif.Record.lamb_downhill",
    "Verif.Record.adaGrad_every_step_descends",
    "Verif.Record.rmsProp_every_step_descends",
    "Verif.Record.adam_second_step_uphill",
    "Verif.Record.adamW_moves"
   ],
   "note": "Downhill: the new value is w - a*d with the sign of d equal to the sign of the gradient, element by element. adam_second_step_uphill and adamW_moves show that first step and no weight decay cannot be left out."
  },
  {
   "property": "C79",
   "status": "proved",
   "theorems": [
    "Verif.Asm.dotProd_rounding",
    "Verif.Asm.sum_rounding",
    "Verif.Asm.puregoDot_rounding",
    "Verif.Asm.puregoSum_rounding",
    "Verif.Asm.dotProd_agree",
    "Verif.Asm.sum_relative",
    "Verif.Dense.mul_rounding",
    "Verif.Dense.mulT_rounding",
    "Verif.Dense.dotUnitary_rounding",
    "Verif.Dense.sum_rounding",
    "Verif.Dense.growth_le",
    "Verif.Asm.dotProd_f32",
    "Verif.Asm.sum_f32",
    "Verif.Asm.puregoDot_f32",
    "Verif.Asm.puregoSum_f32",
    "Verif.Asm.puregoDot_finite"
   ],
   "note": "Rounding is a parameter (Spec/Rounding.lean): any idempotent function with relative error at most u; Lemmas/Nearest.lean shows that rounding to the nearest number of p bits is one. Overflow, underflow and NaN are outside in the generic theorems; the *_f32 theorems are about the 32-bit words themselves. Matrix products: the Dense model with rounded + and *; the float64 one-column product, which calls GemvN, is taken as the portable loop there."
  },
  {
   "property": "C80",
   "status": "proved",
   "theorems": [
    "Verif.Record.classes_train",
    "Verif.Record.absolute_trains",
    "Verif.Record.Trains.alike",
    "Verif.Record.Trains.twin"
   ],
   "note": "Over the reals. The exponent of a focal loss is at least 1 or there are at least two classes. For the absolute error no element of an output equals its target (the derivative does not exist there). As in C69 no ReLU is evaluated at 0."
  },
  {
   "property": "C81",
   "status": "partial",
   "theorems": [
    "Verif.Strided.axpyInc_correct",
    "Verif.Strided.axpyIncTo_correct",
    "Verif.Strided.scalInc_correct",
    "Verif.Strided.scalIncTo_correct",
    "Verif.Strided.dotInc_correct",
    "Verif.Strided.gemvN_correct",
    "Verif.Strided.gemvT_correct_partial",
    "Verif.Strided.gemvT_clears",
    "Verif.Strided.ger_correct",
    "Verif.Strided.unitary_correct",
    "Verif.Strided.l1Norm_correct",
    "Verif.Strided.l1NormInc_correct",
    "Verif.Strided.l1NormInc_other",
    "Verif.Strided.l1Dist_correct",
    "Verif.Strided.cumProd_correct",
    "Verif.Strided.linfDist_correct"
   ],
   "note": "GemvT with beta = 0 and increment 1 clears all of y, also behind its n elements (gemvT_clears); everything else is proved. Slices are taken not to overlap, capacity = length."
  },
  {
   "property": "C82",
   "status": "proved",
   "theorems": [
    "Verif.Record.crf_trains",
    "Verif.Record.crfLoss_sim"
   ],
   "note": "Over the reals. The size that SeparateVec reads from the value of a vector is given to the recorded program; it is the number of labels. As in C69 no ReLU is evaluated at 0."
  },
  {
   "property": "C83",
   "status": "proved",
   "theorems": [
    "Verif.Record.crf_tagger_gradient",
    "Verif.Record.crf_tagger_descends",
    "Verif.Record.class_tagger_gradient",
    "Verif.Record.class_tagger_descends",
    "Verif.Record.crf_tagger_untouched",
    "Verif.Record.class_tagger_untouched",
    "Verif.Record.learn_unused",
    "Verif.Tape.program_unused_grad"
   ],
   "note": "Over the reals. All occurrences of a word are one tensor in the model: in the code they are different tensors that share the nn.Param. As in C69 no ReLU is evaluated at 0."
  },
  {
   "property": "C84",
   "status": "proved",
   "theorems": [
    "Verif.Softmax32.softmax_runs",
    "Verif.Softmax32.softmax_sum",
    "Verif.Softmax32.softmax_all_masked",
    "Verif.Asm.sum_small",
    "Verif.Softmax32.good_kernel",
    "Verif.F32.div_near",
    "Verif.F32.max32_spec"
   ],
   "note": "The call sequence of Softmax (max, AddConst32, Exp32 in place, Sum32, 1/sum, MulConst32 in place) on binary32 words, with the assembly routines instruction by instruction. Premise: math.Exp (used for the elements that do not fill a block) is within 2^-21 relative and 2^-126 absolute, and 0 for minus infinity. A fully masked vector is outside the premises; softmax_all_masked says what happens to it."
  },
  {
   "property": "C85",
   "status": "partial",
   "theorems": [
    "Verif.Crf32.loss_near_partial",
    "Verif.Crf32.loss_overflows",
    "Verif.Crf32.exists_scalars",
    "Verif.Asm.sum_pos",
    "Verif.Asm.sum_inf"
   ],
   "note": "Violated for long sentences: loss_overflows shows that from 180 positions on, with all emission scores at least 1 and no transition score negative, the loss is infinite (or NaN when the gold score overflows too), for every number of labels; with one label the true loss is 0 (loss_one). loss_near_partial gives the error bound (len+1)(2^-14 + n/2^23) when (len+1)(2M + log n) <= 80 for scores up to M in absolute value, which keeps every exponential between 2^-126 and 2^127. Premise: math.Exp and math.Log on float32 as in Spec/Crf32 (Scalars), shown satisfiable by exists_scalars."
  },
  {
   "property": "C86",
   "status": "proved",
   "theorems": [
    "Verif.Record.causal_outputs",
    "Verif.Record.net_run",
    "Verif.Record.apply_take",
    "Verif.Record.causalAttention_sim",
    "Verif.GradFn.softmaxMasked_correct",
    "Verif.Record.net_trains"
   ],
   "note": "Over the reals with minus infinity for masked scores; the addition of the mask and the softmax are one operator of the model. One head: the code of several heads cannot be trained (C35)."
  },
  {
   "property": "C87",
   "status": "proved",
   "theorems": [
    "Verif.CrossEntropy32.cross_entropy",
    "Verif.CrossEntropy32.cross_entropy_masked",
    "Verif.CrossEntropy32.log_sum_exp",
    "Verif.CrossEntropy32.exists_log"
   ],
   "note": "Premises on math.Exp and math.Log for single elements: GoodExp, ExpOne, GoodLog (Spec/CrossEntropy32); the assembly exponential is proved to satisfy the first two, and a function with the third exists (exists_log)."
  },
  {
   "property": "C88",
   "status": "proved",
   "theorems": [
    "Verif.Net32.forward_close",
    "Verif.Net32.forward_class",
    "Verif.Net32.forward_loss",
    "Verif.Net32.relu_good",
    "Verif.Asm.dot_small"
   ],
   "note": "Machine words and instructions for the dot products, the bias and the loss; the functions of one element other than ReLU enter by their accuracy (Good)."
  },
  {
   "property": "C89",
   "status": "proved",
   "theorems": [
    "Verif.Sigmoid32.sigmoid_close",
    "Verif.Net32.acts_good",
    "Verif.Net32.forward_close"
   ],
   "note": "The scalar exponential and hyperbolic tangent of the Go library are assumed accurate (FullExp, GoodLib; such functions exist: exists_lib)."
  },
  {
   "property": "C90",
   "status": "proved",
   "theorems": [
    "Verif.Rec32.srn_step",
    "Verif.Rec32.gru_step",
    "Verif.Rec32.lstm_step",
    "Verif.Rec32.srn_forward",
    "Verif.Rec32.srn_uniform",
    "Verif.Rec32.gru_forward",
    "Verif.Rec32.lstm_forward"
   ],
   "note": "The library's exponential and hyperbolic tangent are assumed accurate (GoodLib); refined gates are not modelled at this level."
  },
  {
   "property": "C91",
   "status": "proved",
   "theorems": [
    "Verif.Att32.attention_close",
    "Verif.Att32.one_ok",
    "Verif.Att32.share_move"
   ],
   "note": "The library's exponential is assumed accurate (GoodExp, met by the code's own kernel); the scale factor is a float32."
  },
  {
   "property": "C92",
   "status": "proved",
   "theorems": [
    "Verif.Head32.forward_close",
    "Verif.Head32.session_close",
    "Verif.Head32.decode_agrees",
    "Verif.Head32.multi_close",
    "Verif.Head32.multi_session",
    "Verif.Head32.multi_decode",
    "Verif.Head32.attend_move",
    "Verif.Head32.attend_cut"
   ],
   "note": "The library's exponential is assumed accurate (GoodExp). With a cache and several queries at once the causal mask ignores the length of the cache (C34); the exact result that is compared with does so too."
  },
  {
   "property": "C93",
   "status": "proved",
   "theorems": [
    "Verif.Adam32.adam_close",
    "Verif.Adam32.adam_step",
    "Verif.Adam32.adam_step_bound",
    "Verif.Adam32.adam_frozen",
    "Verif.F32.sqrt_near",
    "Verif.F32.div_bound"
   ],
   "note": "Settings are taken as the float32 they become; Alpha of a step is any number from 0 to a bound, so its computation in float64 is not followed here (C27, C75). float32(math.Sqrt(float64(x))) is taken to be the rounded root."
  },
  {
   "property": "C94",
   "status": "proved",
   "theorems": [
    "Verif.Norm32.layerNorm_close",
    "Verif.Norm32.layerNormSimple_close",
    "Verif.Norm32.rmsNorm_close",
    "Verif.Norm32.fixNorm_close",
    "Verif.Norm32.scaleNorm_close",
    "Verif.Norm32.layerNorm_blank",
    "Verif.Norm32.layerNormSimple_blank",
    "Verif.Norm32.rmsNorm_blank",
    "Verif.Norm32.fixNorm_blank",
    "Verif.Norm32.scaleNorm_blank",
    "Verif.Norm32.layerNorm_const",
    "Verif.Norm32.layerNormSimple_const",
    "Verif.Norm32.layer_const"
   ],
   "note": "1/n and the reciprocal of DivScalar, computed in float64 and then rounded to float32, are taken as correctly rounded quotients of float32. The epsilon of LayerNorm is any float32 from 2^-60 to 2^60, weights and biases up to 2^60. One vector at a time, as in the code."
  },
  {
   "property": "C95",
   "status": "partial",
   "theorems": [
    "Verif.Opt32.sgd_close",
    "Verif.Opt32.sgd_stalls",
    "Verif.Opt32.ada_close",
    "Verif.Opt32.ada_step",
    "Verif.Opt32.ada_stalls",
    "Verif.Opt32.ada_frozen",
    "Verif.Opt32.rms_close",
    "Verif.Opt32.rms_step",
    "Verif.Opt32.rms_frozen"
   ],
   "note": "Holds within the stated ranges. The failures beyond (lost steps, the sum of AdaGrad standing still, the freezing after a large gradient) are proved as general statements."
  },
  {
   "property": "C96",
   "status": "proved",
   "theorems": [
    "Verif.Back32.backward_close",
    "Verif.Back32.back_ok",
    "Verif.Back32.adj_grad",
    "Verif.Back32.slopes_good",
    "Verif.Back32.mse_good",
    "Verif.Back32.squared_grad",
    "Verif.Back32.backward_mse"
   ],
   "note": "Machine words and instructions for the products, the dot products and the loss; the slopes of Sigmoid and Tanh, which the code computes in float64, enter by their accuracy (GoodSlopeLib; such functions exist: exists_slopes). One sample; every parameter starts without a gradient."
  },
  {
   "property": "C97",
   "status": "proved",
   "theorems": [
    "Verif.CeGrad32.ce_good",
    "Verif.CeGrad32.ce_grad",
    "Verif.CeGrad32.lse_ok",
    "Verif.CeGrad32.backward_ce",
    "Verif.CeGrad32.ce_range"
   ],
   "note": "ce_good: any order of accumulation. ce_grad: the exact gradient is the derivative along every curve. backward_ce: with the network of C96. Asked of the library: exp of one element off by at most one part in 2^21 (GoodExp), the reciprocal by one part in 2^23 (GoodInv)."
  },
  {
   "property": "C98",
   "status": "proved",
   "theorems": [
    "Verif.Train32.train_close",
    "Verif.Train32.train_nothing",
    "Verif.Train32.train_mse",
    "Verif.Train32.train_ce",
    "Verif.Train32.learn_ok",
    "Verif.Train32.acc_ok"
   ],
   "note": "Model/Train32.lean composes the backward pass of C96, AccGrad in any order, and plain SGD of C95. train_close: the step ends and every parameter is within stepErr of gradient descent on the loss of the batch, for any activations and losses that are good in the sense of C96; train_mse and train_ce: for ReLU, Sigmoid and Tanh with the squared error and with the cross entropy of C97; train_nothing: without examples nothing changes. The example in Props/Train32Example.lean runs a batch of two through the network of C96's example."
  },
  {
   "property": "C99",
   "status": "partial",
   "theorems": [
    "Verif.Select32.max_partial",
    "Verif.Select32.min_partial",
    "Verif.Select32.max_nan_first",
    "Verif.Select32.max_order_partial",
    "Verif.Select32.max_order_fails",
    "Verif.Select32.argMax_partial",
    "Verif.Select32.argMax_nan_first",
    "Verif.Select32.bigger_partial",
    "Verif.Select32.bigger_nan",
    "Verif.Select32.bigger_fails",
    "Verif.Select32.maximum_get",
    "Verif.Select32.minimum_get",
    "Verif.Select32.clip_number",
    "Verif.Select32.clip_nan"
   ],
   "note": "The code violates the property when there is a NaN. max_partial, min_partial, argMax_partial: correct when the first element is not a NaN (the other elements may be). max_nan_first, argMax_nan_first: with a NaN in front all numbers are ignored. max_order_fails: for every NaN and every number the result depends on their order. bigger_fails: Maximum and Minimum drop the NaN of the receiver and keep that of the argument. clip_number and clip_nan hold in full, for bounds already converted to float32."
  },
  {
   "property": "C100",
   "status": "proved",
   "theorems": [
    "Verif.Srn32.srn_ends",
    "Verif.Srn32.srn_weights",
    "Verif.Srn32.srn_bias",
    "Verif.Srn32.srn_recurrent",
    "Verif.Srn32.srn_recurrent_some",
    "Verif.Srn32.srn_inputs",
    "Verif.Srn32.mse_steps",
    "Verif.Srn32.loss_der",
    "Verif.Srn32.bptt_ok"
   ],
   "note": "Model/Srn32.lean unrolls the network over the inputs and runs the backward steps of C96 from the last output to the first, the contributions in any order. srn_ends: it ends, one contribution for each step; srn_weights, srn_bias, srn_recurrent, srn_inputs: the gradients are close to the derivatives of the sum of the losses (lossOf, lossIn), with bounds from the recurrence `later`; srn_recurrent_some: from two steps on there is a gradient of WRec; mse_steps: the squared error of any of the outputs meets what is asked of the losses. Asked in Sound: the last output has a loss (later steps would not be visited). The example in Props/Srn32Loss.lean runs two steps with a loss on the second."
  },
  {
   "property": "C101",
   "status": "proved",
   "theorems": [
    "Verif.Srn32.srn_train",
    "Verif.Srn32.passes_ok",
    "Verif.Srn32.param_ok",
    "Verif.Srn32.batch_der"
   ],
   "note": "Model/SrnTrain32.lean composes back-propagation through time (C100), AccGrad in any order and plain SGD (C95). srn_train: the step ends and every element of W, WRec and B is within stepOff of gradient descent on the loss of all sequences. The example in Props/SrnTrain32.lean trains on two sequences of two steps."
  },
  {
   "property": "C102",
   "status": "proved",
   "theorems": [
    "Verif.Lstm32.lstm_ends",
    "Verif.Lstm32.lstm_weights",
    "Verif.Lstm32.lstm_bias",
    "Verif.Lstm32.lstm_recurrent",
    "Verif.Lstm32.lstm_some",
    "Verif.Lstm32.lstm_one_step",
    "Verif.Lstm32.lstm_inputs",
    "Verif.Lstm32.mse_steps",
    "Verif.Lstm32.loss_der",
    "Verif.Lstm32.bptt_ok"
   ],
   "note": "Model/Lstm32.lean unrolls the LSTM over the inputs, each step that of C90, and runs the backward operations of every gate, product and sum from the last output to the first, the contributions in any order. lstm_ends: it ends, contributions for each step; lstm_weights, lstm_bias, lstm_recurrent, lstm_inputs: the gradients are close to the derivatives of the sum of the losses (lossL, lossInL), with bounds from the recurrence laterL; lstm_some and lstm_one_step: which gradients are there; mse_steps: the squared error of any of the outputs meets what is asked of the losses. Asked in Sound: the last output has a loss, and the gates are accurate to 1. Refined gates (UseRefinedGates) are not modelled. The example in Props/Lstm32Loss.lean meets Sound with two steps, and all gradients are within 1/200 of the derivatives."
  },
  {
   "property": "C103",
   "status": "proved",
   "theorems": [
    "Verif.Lstm32.lstm_train",
    "Verif.Lstm32.passes_ok",
    "Verif.Srn32.param_ok",
    "Verif.Lstm32.batchL_der"
   ],
   "note": "Model/LstmTrain32.lean composes back-propagation through time of the LSTM (C102), AccGrad in any order and plain SGD (C95). lstm_train: the step ends and every element of W, WRec and B of every gate is within stepOff of gradient descent on the loss of all sequences. The example in Props/LstmTrain32.lean trains on two sequences of two steps."
  },
  {
   "property": "C104",
   "status": "proved",
   "theorems": [
    "Verif.Tagger32.tagger_train",
    "Verif.Tagger32.head_good",
    "Verif.Tagger32.mse_tags",
    "Verif.Tagger32.ce_tags"
   ],
   "note": "LSTM without refined gates and with a head of linear layers and activations; losses as in C96/C97 (squared error and cross entropy shown to qualify), each getting the gradient 1 (or r) from outside. Bounds on sizes as in C98 and C103; the bound for the LSTM is taken at the gradients the head hands back."
  },
  {
   "property": "C105",
   "status": "partial",
   "theorems": [
    "Verif.Clip32.clip_partial",
    "Verif.Clip32.clip_inf",
    "Verif.Clip32.clip_nan_first",
    "Verif.Clip32.clip_empty",
    "Verif.Clip32.exists_coef"
   ],
   "note": "Proved for finite gradients of non-empty tensors; the code violates the rest: one infinite element turns all finite elements into zeros and itself into a NaN (clip_inf), a NaN at the front of a gradient disables clipping for all (clip_nan_first), an empty gradient panics (clip_empty). The float64 coefficient is a parameter with the accuracy of float64 assumed (GoodCoef, shown to be satisfiable for MaxNorm 8 by exists_coef). Norm type 2 is C106; shared gradients and other norm types are in the real-number model of Clip."
  },
  {
   "property": "C106",
   "status": "partial",
   "theorems": [
    "Verif.ClipTwo32.clip_partial",
    "Verif.ClipTwo32.clip_norm_partial",
    "Verif.ClipTwo32.clip_overflow",
    "Verif.ClipTwo32.exists_root"
   ],
   "note": "Proved for finite gradients with elements up to 2^50; the code violates the rest: one finite element above 2^64 overflows when squared in float32 and every element of every gradient becomes zero (clip_overflow). Missing: elements between 2^50 and 2^64. The float64 part (sum over tensors, root, coefficient) is a parameter with the accuracy of float64 assumed (GoodRoot, satisfiable by exists_root)."
  },
  {
   "property": "C107",
   "status": "proved",
   "theorems": [
    "Verif.ClipStep32.clipped_steps",
    "Verif.ClipStep32.update_sizes"
   ],
   "note": "The gradients of a step are arbitrary finite words of non-empty tensors; the float64 coefficient is the parameter of C105 (GoodCoef). Infinite gradients and NaN are C105 (clip_inf, clip_nan_first)."
  }
 ]
}